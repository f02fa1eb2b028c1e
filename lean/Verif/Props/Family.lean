import Verif.Spec.Family
import Verif.Props.Timeline
import Verif.Props.Aborts
/-!
# C113: the end of the main process of a program is noticed

The kernel tells cinit of the ends of its children only. A process announced by `MAINPID=` need not
be one.
-/

namespace Cinit.Props

open Cinit Spec

/-- C113 as stated: whenever cinit has waited for terminated children until there is no further
one, the main processes of all programs are alive. -/
def C113_statement : Prop :=
  ∀ (x : Machine) (config : Config) (m : Manager) (t later t0 : Saga) (q : Int) (i : Nat),
    x.manager config = .ok m → Lawful t → t.log = (x.loop m).log →
    t = later ++ .cinit .reaped :: t0 → owner config.programs t0.log q = some i → Lives q t0

/-! ## Sagas -/

theorem saga_append (t t' : Saga) : Saga.log (t ++ t') = t.log ++ t'.log := by
  induction t with
  | nil => rfl
  | cons h t ih => cases h <;> simp [Saga.log, ih]

theorem mem_saga {t : Saga} {e : Event} : e ∈ t.log ↔ .cinit e ∈ t := by
  induction t with
  | nil => simp [Saga.log]
  | cons h t ih => cases h <;> simp [Saga.log, ih]

theorem lawful_suffix {t t' : Saga} (h : Lawful (t ++ t')) : Lawful t' := by
  induction t with
  | nil => exact h
  | cons _ _ ih => exact ih h.2

/-- Every process announced as main process, in a message that counts, satisfies `P` at that
time. -/
def Announced (ps : List ProcessConfig) (P : Int → Saga → Prop) (t : Saga) : Prop :=
  ∀ later p s t1 r i, t = later ++ .cinit (.datagram p s) :: t1 → Accepts ps (Saga.log t1) p i →
    newMainPid s = some r → P r t1

section

variable {ps : List ProcessConfig} {P : Int → Saga → Prop} {d : Deed} {t t' : Saga}

theorem Announced.tail (h : Announced ps P (d :: t)) : Announced ps P t := by
  intro later p s t1 r i ht ha hr
  exact h (d :: later) p s t1 r i (by rw [ht]; rfl) ha hr

theorem announced_cons (h : Announced ps P t)
    (hd : ∀ p s r, d = .cinit (.datagram p s) → newMainPid s = some r → P r t) :
    Announced ps P (d :: t) := by
  intro later p s t1 r i ht ha hr
  cases later with
  | nil => cases ht; exact hd p s r rfl hr
  | cons _ later => cases ht; exact h later p s t1 r i rfl ha hr

theorem announced_nil : Announced ps P [] := by
  intro later p s t1 r i ht
  cases later <;> cases ht

theorem Announced.suffix (h : Announced ps P (t ++ t')) : Announced ps P t' := by
  induction t with
  | nil => exact h
  | cons d t ih => exact ih h.tail

/-- Without programs of type notify no message counts. -/
theorem announced_no_notify (h : ∀ i, ¬ isNotify ps i) : Announced ps P t := by
  intro later p s t1 r i _ ha
  exact absurd ha.2 (h i)

end

/-- Main processes are children of cinit if those announced are. -/
theorem owner_child {ps : List ProcessConfig} {t : Saga} {q : Int} {i : Nat} (hl : Lawful t)
    (hlost : ∀ p sig, .cinit (.lost p sig) ∉ t)
    (ha : Announced ps (fun r t1 => parent r t1 = some .cinit) t) (ho : owner ps t.log q = some i) :
    parent q t = some .cinit := by
  induction t generalizing q i with
  | nil => cases ho
  | cons d t ih =>
    have ih := fun {q i} => @ih q i hl.2 (fun p sig h => hlost p sig (List.mem_cons_of_mem _ h))
      ha.tail
    have hn := hl.1
    cases d with
    | forks p c =>
      have h1 := ih ho
      have : c ≠ q := by
        rintro rfl
        rw [hn.2.2.1] at h1
        cases h1
      simp [parent, this, h1]
    | ends p => simp [parent, ih ho]
    | reaps p c =>
      have h1 := ih ho
      have : c ≠ q := by
        rintro rfl
        rw [hn.1] at h1
        cases h1
      simp [parent, this, h1]
    | cinit e =>
      cases e with
      | spawned j p o r =>
        simp only [Saga.log, owner] at ho
        by_cases hp : q = p
        · simp [parent, hp]
        · rw [if_neg hp] at ho
          simp [parent, Ne.symm hp, ih ho]
      | waited p c w =>
        simp only [Saga.log, owner] at ho
        split_ifs at ho with hp
        simp [parent, Ne.symm hp, ih ho]
      | lost p sig => exact absurd List.mem_cons_self (hlost p sig)
      | datagram p s =>
        simp only [Saga.log, owner] at ho
        change parent q t = _
        split at ho
        · next j r h1 h2 =>
          split_ifs at ho with h3 h4 h5
          · rw [h4]; exact ha [] p s t r j rfl ⟨h1, h3⟩ h2
          · exact ih ho
          · exact ih ho
        · exact ih ho
      | _ => exact ih ho

/-- Main processes exist or have been waited for by another process, if those announced existed. -/
theorem owner_exists {ps : List ProcessConfig} {t : Saga} {q : Int} {i : Nat}
    (hlost : ∀ p sig, .cinit (.lost p sig) ∉ t)
    (ha : Announced ps (fun r t1 => (parent r t1).isSome = true) t)
    (ho : owner ps t.log q = some i) :
    (parent q t).isSome = true ∨ ∃ p, .reaps p q ∈ t := by
  induction t generalizing q i with
  | nil => cases ho
  | cons d t ih =>
    have ih : ∀ {q i}, owner ps (Saga.log t) q = some i →
        (parent q t).isSome = true ∨ ∃ p, .reaps p q ∈ d :: t := fun {q i} h =>
      (@ih q i (fun p sig h => hlost p sig (List.mem_cons_of_mem _ h)) ha.tail h).imp id
        fun ⟨p, h⟩ => ⟨p, List.mem_cons_of_mem _ h⟩
    cases d with
    | forks p c =>
      refine (ih ho).imp (fun h1 => ?_) id
      simp only [parent]
      split_ifs
      · rfl
      · exact h1
    | ends p =>
      refine (ih ho).imp (fun h1 => ?_) id
      simp only [parent]
      split_ifs
      · rfl
      · exact h1
    | reaps p c =>
      by_cases hc : c = q
      · subst hc
        exact .inr ⟨p, List.mem_cons_self⟩
      · refine (ih ho).imp (fun h1 => ?_) id
        simpa [parent, hc] using h1
    | cinit e =>
      cases e with
      | spawned j p o r =>
        simp only [Saga.log, owner] at ho
        by_cases hp : q = p
        · simp [parent, hp]
        · rw [if_neg hp] at ho
          refine (ih ho).imp (fun h1 => ?_) id
          simpa [parent, Ne.symm hp] using h1
      | waited p c w =>
        simp only [Saga.log, owner] at ho
        split_ifs at ho with hp
        refine (ih ho).imp (fun h1 => ?_) id
        simpa [parent, Ne.symm hp] using h1
      | lost p sig => exact absurd List.mem_cons_self (hlost p sig)
      | datagram p s =>
        simp only [Saga.log, owner] at ho
        change (parent q t).isSome = true ∨ _
        split at ho
        · next j r h1 h2 =>
          split_ifs at ho with h3 h4 h5
          · rw [h4]; exact .inl (ha [] p s t r j rfl ⟨h1, h3⟩ h2)
          · exact ih ho
          · exact ih ho
        · exact ih ho
      | _ => exact ih ho

/-- A process that has been waited for stays unknown unless its id is used again. -/
theorem parent_gone {q : Int} {mid t0 : Saga} (h0 : parent q t0 = none)
    (hf : ∀ p, .forks p q ∉ mid) (hs : ∀ i o r, .cinit (.spawned i q o r) ∉ mid) :
    parent q (mid ++ t0) = none := by
  induction mid with
  | nil => exact h0
  | cons d mid ih =>
    have ih := ih (fun p h => hf p (List.mem_cons_of_mem _ h))
      (fun i o r h => hs i o r (List.mem_cons_of_mem _ h))
    cases d with
    | forks p c =>
      have : c ≠ q := by
        rintro rfl
        exact hf p List.mem_cons_self
      simp [parent, this, ih]
    | ends p => simp [parent, ih]
    | reaps p c => simp [parent, ih]
    | cinit e =>
      cases e with
      | spawned i p o r =>
        have : p ≠ q := by
          rintro rfl
          exact hs i o r List.mem_cons_self
        simp [parent, this, ih]
      | waited p c w => simp [parent, ih]
      | lost p sig => simp [parent, ih]
      | _ => simpa [parent] using ih

/-! ## C113 -/

/-- C113, what holds: if all processes announced are children of cinit when the announcement is
read, and unless processes die by real-time signals, the end of main processes is noticed. In
particular this is so if nothing is announced. -/
theorem C113_children_partial {x : Machine} {config : Config} {m : Manager} {t later t0 : Saga}
    {q : Int} {i : Nat} (hl : Lawful t) (hh : t.log = (x.loop m).log)
    (ht : t = later ++ .cinit .reaped :: t0) (hlost : ∀ p sig, .lost p sig ∉ (x.loop m).log)
    (ha : Announced config.programs (fun r t1 => parent r t1 = some .cinit) t)
    (ho : owner config.programs t0.log q = some i) : Lives q t0 := by
  subst ht
  have hl' := lawful_suffix hl
  have hp := owner_child hl'.2 (fun p sig h => hlost p sig (by
    rw [← hh]
    exact mem_saga.mpr (by simp [h]))) ha.suffix.tail ho
  exact ⟨by rw [hp]; rfl, hl'.1 q hp⟩

/-- C113 in full for configurations without programs of type notify, unless processes die by
real-time signals. -/
theorem C113_no_notify_partial {x : Machine} {config : Config} {m : Manager} {t later t0 : Saga}
    {q : Int} {i : Nat} (hl : Lawful t) (hh : t.log = (x.loop m).log)
    (ht : t = later ++ .cinit .reaped :: t0) (hlost : ∀ p sig, .lost p sig ∉ (x.loop m).log)
    (hno : ∀ i, ¬ isNotify config.programs i)
    (ho : owner config.programs t0.log q = some i) : Lives q t0 :=
  C113_children_partial hl hh ht hlost (announced_no_notify hno) ho

/-- C113, which ends go unnoticed: those of processes announced as main process that are children
of another process. -/
theorem C113_exact_partial {x : Machine} {config : Config} {m : Manager} {t later t0 : Saga}
    {q : Int} {i : Nat} (hl : Lawful t) (hh : t.log = (x.loop m).log)
    (ht : t = later ++ .cinit .reaped :: t0) (hlost : ∀ p sig, .lost p sig ∉ (x.loop m).log)
    (ha : Announced config.programs (fun r t1 => (parent r t1).isSome = true) t)
    (ho : owner config.programs t0.log q = some i) :
    Lives q t0 ∨ (∃ p, parent q t0 = some (.other p) ∧ zombie q t0 = true) ∨
      ∃ p, .reaps p q ∈ t0 := by
  subst ht
  have hl' := lawful_suffix hl
  rcases owner_exists (fun p sig h => hlost p sig (by
    rw [← hh]
    exact mem_saga.mpr (by simp [h]))) ha.suffix.tail ho with hp | hp
  · by_cases hz : zombie q t0 = true
    · refine .inr (.inl ?_)
      cases hp' : parent q t0 with
      | none => rw [hp'] at hp; cases hp
      | some p =>
        cases p with
        | cinit =>
          have := hl'.1 q hp'
          rw [hz] at this
          cases this
        | other p => exact ⟨p, rfl, hz⟩
    · exact .inl ⟨hp, by simpa using hz⟩
  · exact .inr (.inr hp)

/-- C113, what follows: once a main process has been waited for by another process, cinit does not
end any more, unless the process id is used again or a message about another main process is still
to be read from it. -/
theorem C113_forever_partial {x : Machine} {config : Config} {m : Manager} {t mid t0 : Saga}
    {p q code : Int} {i : Nat} {w : World} (h : x.manager config = .ok m) (hl : Lawful t)
    (hh : t.log = (x.loop m).log) (ht : t = mid ++ .reaps p q :: t0)
    (ho : owner config.programs t0.log q = some i) (hf : ∀ p, .forks p q ∉ mid)
    (hs : ∀ i o r, .cinit (.spawned i q o r) ∉ mid)
    (hd : ∀ p s r, .cinit (.datagram p s) ∈ mid → newMainPid s = some r → p ≠ q ∧ r ≠ q) :
    x.loop m ≠ .ok code w := by
  intro hx
  have hlog : (x.loop m).log = w.log := by rw [hx]; rfl
  have hu : ∀ e ∈ mid.log, ¬ Touches q e := by
    intro e he ht'
    obtain ⟨m2, m1, hm⟩ := List.append_of_mem (mem_saga.mp he)
    cases e with
    | spawned j r _ _ =>
      cases ht'
      exact hs _ _ _ (mem_saga.mp he)
    | datagram r s =>
      rcases ht' with ⟨h1, r', h2⟩ | h1
      · exact (hd _ _ _ (mem_saga.mp he) h2).1 h1
      · exact (hd _ _ _ (mem_saga.mp he) h1).2 rfl
    | waited r rc who =>
      cases ht'
      have hn : Natural (.cinit (.waited q rc who)) (m1 ++ .reaps p q :: t0) := by
        refine (lawful_suffix (t := m2) (t' := .cinit (.waited q rc who) :: (m1 ++ .reaps p q :: t0))
          ?_).1
        rw [ht, hm] at hl
        simpa using hl
      have hg := parent_gone (q := q) (mid := m1) (t0 := .reaps p q :: t0) (by simp [parent])
        (fun p h => hf p (by rw [hm]; simp [h])) (fun i o r h => hs i o r (by rw [hm]; simp [h]))
      rw [hn.1] at hg
      cases hg
    | _ => exact ht'
  have := (C36_outlives h hx).1 q
  rw [← hlog, ← hh, ht, saga_append, owner_untouched hu] at this
  change owner config.programs t0.log q = none at this
  rw [ho] at this
  cases this

/-! ## A run -/

def orphanAnswers : List Answer :=
  [.setup true, .fork (some (10, 20, 21)), .epollAdd true, .epollAdd true, .now 1,
   .epoll (some [⟨5, true, false⟩]), .recv (some (bytes "MAINPID=77\nREADY=1", some 10)),
   .wait .alive, .now 2,
   .epoll (some [⟨20, false, true⟩, ⟨21, false, true⟩]),
   .wait (.exited 10 0), .wait .error, .now 3]

/-- A supervisor of its own: it creates a process, announces it as main process, waits for it, and
ends. -/
def orphanStory : Saga :=
  [.cinit .polling, .cinit (.clock 3), .cinit .reaped, .cinit (.waited 10 0 none),
   .cinit (.hangup 21), .cinit (.ready ⟨21, false, true⟩),
   .cinit (.hangup 20), .cinit (.ready ⟨20, false, true⟩),
   .cinit (.polled [⟨20, false, true⟩, ⟨21, false, true⟩]),
   .ends 10, .reaps 10 77, .ends 77,
   .cinit .polling, .cinit (.clock 2), .cinit .reaped,
   .cinit (.datagram 10 "MAINPID=77\nREADY=1".toList),
   .cinit (.received (bytes "MAINPID=77\nREADY=1")),
   .cinit (.ready ⟨5, true, false⟩), .cinit (.polled [⟨5, true, false⟩]),
   .forks 10 77,
   .cinit .polling, .cinit (.clock 1), .cinit (.watched 21 true), .cinit (.watched 20 true),
   .cinit (.spawned 0 10 20 21)]

/-- No process is left, and cinit goes on waiting. -/
theorem orphan_ends : Ends (machine orphanAnswers) daemon (.unfinished orphanStory.log) :=
  Res.of_check (by decide +kernel)

theorem orphan_lawful : Lawful orphanStory := by
  simp only [orphanStory, Lawful, Natural, parent, zombie]
  simp

/-- C113 is false. -/
theorem C113_violated : ¬ C113_statement := by
  intro h
  obtain ⟨m, h1, h2⟩ := orphan_ends.log
  have := h _ _ m orphanStory (orphanStory.take 2) (orphanStory.drop 3) 77 0 h1 orphan_lawful
    h2.symm rfl (by decide +kernel)
  exact absurd this (by simp [Lives, orphanStory, parent])

/-- The hypotheses of the theorems are met there: up to the first sweep those of
`C113_exact_partial`, afterwards those of `C113_forever_partial`. -/
example : orphanStory = orphanStory.take 10 ++ .reaps 10 77 :: orphanStory.drop 11 ∧
    owner daemon.programs (Saga.log (orphanStory.drop 11)) 77 = some 0 ∧
    (parent 77 (orphanStory.drop 16)) = some (.other 10) ∧
    (parent 77 (.ends 10 :: orphanStory.drop 16)) = some .cinit := by
  decide +kernel

/-- A daemon in the run `handOver_ends`: the process started ends before its announcement is read,
so that the one announced has been handed over to cinit. -/
def handOverStory : Saga :=
  [.cinit (.exit 0), .cinit .reaped, .cinit (.waited 11 0 (some 0)),
   .cinit (.hangup 21), .cinit (.ready ⟨21, false, true⟩),
   .cinit (.hangup 20), .cinit (.ready ⟨20, false, true⟩),
   .cinit (.polled [⟨20, false, true⟩, ⟨21, false, true⟩]), .ends 11,
   .cinit .polling, .cinit (.clock 2), .cinit .reaped, .cinit (.waited 10 3 none),
   .cinit (.datagram 10 "MAINPID=11\nREADY=1".toList),
   .cinit (.received (bytes "MAINPID=11\nREADY=1")), .cinit (.ready ⟨5, true, false⟩),
   .cinit (.polled [⟨5, true, false⟩]), .ends 10, .forks 10 11,
   .cinit .polling, .cinit (.clock 1),
   .cinit (.watched 21 true), .cinit (.watched 20 true), .cinit (.spawned 0 10 20 21)]

/-- The hypotheses of `C113_children_partial` are met there. -/
example : Ends (machine handOverAnswers) notifyOnly (.exited 0 handOverStory.log) ∧
    Lawful handOverStory ∧
    handOverStory = handOverStory.take 11 ++ .cinit .reaped :: handOverStory.drop 12 ∧
    owner notifyOnly.programs (Saga.log (handOverStory.drop 12)) 11 = some 0 ∧
    Announced notifyOnly.programs (fun r t1 => parent r t1 = some .cinit) handOverStory := by
  refine ⟨handOver_ends, ?_, rfl, by decide +kernel, ?_⟩
  · simp only [handOverStory, Lawful, Natural, parent, zombie]
    simp
  · unfold handOverStory
    repeat
      refine announced_cons ?_ (by
        intro p s r h1 h2
        cases h1 <;> (
          have : newMainPid "MAINPID=11\nREADY=1".toList = some 11 := by decide +kernel
          rw [this] at h2
          cases h2
          decide))
    exact announced_nil

end Cinit.Props
