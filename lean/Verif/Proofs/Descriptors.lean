import Verif.Model.Descriptors
import Mathlib.Tactic.SplitIfs
/-!
# Proofs about cinit's own descriptors
-/

namespace Cinit

namespace Descr

/-- Dropping new pipes restores the descriptors. -/
theorem close_open {t : Files} {p : Pipe} (hr : t p.readFd = none) (hw : t p.writeFd = none) :
    closePipe (openPipe t p) p = t := by
  funext n
  simp only [closePipe, openPipe, Files.close, Files.set]
  split_ifs <;> simp_all

theorem close_open_open {t : Files} {p q : Pipe} (hr : t p.readFd = none) (hw : t p.writeFd = none)
    (hr' : t q.readFd = none) (hw' : t q.writeFd = none) :
    closePipe (closePipe (openPipe (openPipe t p) q) q) p = t := by
  funext n
  simp only [closePipe, openPipe, Files.close, Files.set]
  split_ifs <;> simp_all

/-- The descriptors of a child and of cinit after `start`. -/
theorem start_some {s : State} {a : StartAnswer} {t c : Files} {p q : Pipe} (hf : Fresh s a)
    (h : start s.files a = (t, some (c, p, q))) :
    a.pipe1 = some p ∧ a.pipe2 = some q ∧
    (∀ n, t n = if n = p.readFd then some ⟨p.readEnd, true⟩
      else if n = q.readFd then some ⟨q.readEnd, true⟩ else s.files n) ∧
    (∀ n, c n = if n = p.readFd then some ⟨p.readEnd, true⟩
      else if n = q.readFd then some ⟨q.readEnd, true⟩
      else if n = p.writeFd then some ⟨p.writeEnd, false⟩
      else if n = q.writeFd then some ⟨q.writeEnd, false⟩ else s.files n) := by
  obtain ⟨h1, h2, h3⟩ := hf
  unfold start createStdFds at h
  cases hp : a.pipe1 with
  | none => rw [hp] at h; simp at h
  | some p' =>
    rw [hp] at h
    cases hq : a.pipe2 with
    | none => rw [hq] at h; simp at h
    | some q' =>
      rw [hq] at h
      obtain ⟨⟨a1, -, -⟩, ⟨a2, -, -⟩, a3, -⟩ := h1 p' hp
      obtain ⟨⟨b1, -, -⟩, ⟨b2, -, -⟩, b3, -⟩ := h2 q' hq
      obtain ⟨c1, c2, c3, c4, -⟩ := h3 p' q' hp hq
      simp only at h
      split_ifs at h
      all_goals first
        | (simp only [Prod.mk.injEq, reduceCtorEq, and_false] at h; done)
        | skip
      simp only [Prod.mk.injEq, Option.some.injEq] at h
      obtain ⟨rfl, rfl, rfl, rfl⟩ := h
      refine ⟨rfl, rfl, fun n => ?_, fun n => ?_⟩
      · simp only [setCloexec, openPipe, Files.close, Files.set]
        split_ifs <;> simp_all
      · simp only [setCloexec, openPipe, Files.set]
        split_ifs <;> simp_all

/-- A failed attempt to start a program leaves no traces. -/
theorem start_none {s : State} {a : StartAnswer} {t : Files} (hf : Fresh s a)
    (h : start s.files a = (t, none)) : t = s.files := by
  obtain ⟨h1, h2, h3⟩ := hf
  unfold start createStdFds at h
  cases hp : a.pipe1 with
  | none =>
    rw [hp] at h
    simp only [Prod.mk.injEq, and_true] at h
    exact h.symm
  | some p =>
    rw [hp] at h
    obtain ⟨⟨a1, -, -⟩, ⟨a2, -, -⟩, a3, -⟩ := h1 p hp
    cases hq : a.pipe2 with
    | none =>
      rw [hq] at h
      simp only [Prod.mk.injEq, and_true] at h
      rw [← h]
      exact close_open a1 a2
    | some q =>
      rw [hq] at h
      obtain ⟨⟨b1, -, -⟩, ⟨b2, -, -⟩, b3, -⟩ := h2 q hq
      obtain ⟨c1, c2, c3, c4, -⟩ := h3 p q hp hq
      simp only at h
      split_ifs at h
      all_goals first
        | (simp only [Prod.mk.injEq, reduceCtorEq, and_false] at h; done)
        | skip
      all_goals
        simp only [Prod.mk.injEq, and_true] at h
        rw [← h]
        funext n
        simp only [closePipe, setCloexec, openPipe, Files.close, Files.set]
        split_ifs <;> simp_all

/-- Invariant: whatever is open is closed on execution or was there from the beginning; what was
there from the beginning is still there; no end of a program's pipe is held. -/
structure Inv (t0 : Files) (s : State) : Prop where
  only : ∀ n f, s.files n = some f → (f.cloexec = true ∧ t0 n = none) ∨ t0 n = some f
  all : ∀ n f, t0 n = some f → s.files n = some f
  streams : ∀ n ∈ s.streams, t0 n = none
  ends : ∀ n f, s.files n = some f → f.object ∉ s.writeEnds

theorem Inv.step {t0 : Files} {s s' : State} {op : Op} (hi : Inv t0 s) (h : Step s op s') :
    Inv t0 s' := by
  have fresh0 : ∀ fd, s.files fd = none → t0 fd = none := by
    intro fd hn
    cases h0 : t0 fd with
    | none => rfl
    | some f => rw [hi.all fd f h0] at hn; cases hn
  cases h with
  | «open» hn =>
    rename_i fd object
    obtain ⟨n1, n2, n3⟩ := hn
    constructor
    · intro n f hf
      simp only [Files.set] at hf
      split_ifs at hf with hc
      · subst hc; cases hf; exact .inl ⟨rfl, fresh0 _ n1⟩
      · exact hi.only n f hf
    · intro n f hf
      simp only [Files.set]
      split_ifs with hc
      · subst hc; rw [fresh0 _ n1] at hf; cases hf
      · exact hi.all n f hf
    · exact hi.streams
    · intro n f hf
      simp only [Files.set] at hf
      split_ifs at hf with hc
      · cases hf; exact n2
      · exact hi.ends n f hf
  | report hn =>
    rename_i fd object
    obtain ⟨n1, n2, n3⟩ := hn
    have : (s.files.set fd (some ⟨object, false⟩)).close fd = s.files := by
      funext n
      simp only [Files.close, Files.set]
      split_ifs with hc
      · subst hc; exact n1.symm
      · rfl
    rw [this]
    exact ⟨hi.only, hi.all, hi.streams, hi.ends⟩
  | hangup hn =>
    rename_i fd
    constructor
    · intro n f hf
      simp only [Files.close, Files.set] at hf
      split_ifs at hf with hc
      exact hi.only n f hf
    · intro n f hf
      simp only [Files.close, Files.set]
      split_ifs with hc
      · subst hc; rw [hi.streams _ hn] at hf; cases hf
      · exact hi.all n f hf
    · intro n hm
      exact hi.streams n (List.mem_filter.mp hm).1
    · intro n f hf
      simp only [Files.close, Files.set] at hf
      split_ifs at hf with hc
      exact hi.ends n f hf
  | start hn hs =>
    rename_i a t r
    have hnew : ∀ n f, s.files n = some f → f.object ∉ s.writeEnds ++
        (a.pipe1.toList ++ a.pipe2.toList).map (·.writeEnd) := by
      intro n f hf hm
      rcases List.mem_append.mp hm with hm | hm
      · exact hi.ends n f hf hm
      · rw [List.mem_map] at hm
        obtain ⟨p, hp, he⟩ := hm
        rcases List.mem_append.mp hp with hp | hp
        · rw [Option.mem_toList] at hp
          exact (hn.1 p hp).2.1.2.2 n f hf he.symm
        · rw [Option.mem_toList] at hp
          exact (hn.2.1 p hp).2.1.2.2 n f hf he.symm
    cases r with
    | none =>
      rw [start_none hn hs]
      exact ⟨hi.only, hi.all, by simpa [streamsOf] using hi.streams, hnew⟩
    | some r =>
      obtain ⟨c, p, q⟩ := r
      obtain ⟨e1, e2, ht, -⟩ := start_some hn hs
      obtain ⟨⟨a1, a2, a3⟩, ⟨a4, a5, a6⟩, a7, a8⟩ := hn.1 p e1
      obtain ⟨⟨b1, b2, b3⟩, ⟨b4, b5, b6⟩, b7, b8⟩ := hn.2.1 q e2
      obtain ⟨-, -, -, -, d1, d2, d3, d4⟩ := hn.2.2 p q e1 e2
      constructor
      · intro n f hf
        simp only at hf
        rw [ht] at hf
        split_ifs at hf with h1 h2
        · cases hf; subst h1; exact .inl ⟨rfl, fresh0 _ a1⟩
        · cases hf; subst h2; exact .inl ⟨rfl, fresh0 _ b1⟩
        · exact hi.only n f hf
      · intro n f hf
        simp only
        rw [ht]
        split_ifs with h1 h2
        · subst h1; rw [fresh0 _ a1] at hf; cases hf
        · subst h2; rw [fresh0 _ b1] at hf; cases hf
        · exact hi.all n f hf
      · intro n hm
        simp only [streamsOf, List.mem_append, List.mem_cons, List.not_mem_nil, or_false] at hm
        rcases hm with hm | rfl | rfl
        · exact hi.streams n hm
        · exact fresh0 _ a1
        · exact fresh0 _ b1
      · intro n f hf
        simp only at hf
        rw [ht] at hf
        split_ifs at hf with h1 h2
        · cases hf
          simp only [e1, e2, Option.toList_some, List.mem_append, List.mem_map, List.mem_cons,
            List.not_mem_nil, or_false, List.singleton_append, exists_eq_or_imp, exists_eq_left]
          rintro (h | h | h)
          · exact a2 h
          · exact a8 h.symm
          · exact d2 h.symm
        · cases hf
          simp only [e1, e2, Option.toList_some, List.mem_append, List.mem_map, List.mem_cons,
            List.not_mem_nil, or_false, List.singleton_append, exists_eq_or_imp, exists_eq_left]
          rintro (h | h | h)
          · exact b2 h
          · exact d3 h
          · exact b8 h.symm
        · exact hnew n f hf

theorem Reachable.inv {t0 : Files} {s : State} (h : Reachable t0 s) : Inv t0 s := by
  induction h with
  | init => exact ⟨fun n f h => .inr h, fun n f h => h, nofun, fun n f _ => List.not_mem_nil⟩
  | step _ hs ih => exact ih.step hs

end Descr

end Cinit
