import Verif.Proofs.Child
/-!
# What the child writes before the program is executed
-/

namespace Cinit

namespace Child

open Spec

/-- The call is about capabilities. -/
def CapCall (c : Call) : Prop := AboutCaps c = true

/-- Nothing is written; if a call fails it is one of the given ones. -/
def Mute {α : Type} (P : Call → Prop) (s : Proc) : Ret α → Prop
  | .ok _ s' => s'.files = s.files ∧ s'.written = s.written
  | .err _ s' => (∃ c rest, s'.calls = (c, false) :: rest ∧ P c) ∧ s'.files = s.files ∧
      s'.written = s.written
  | _ => True

/-- Only failures concerning capabilities are written about, to the file `o`. -/
def Says {α : Type} (o : Nat) (reason : Str) (s : Proc) : Ret α → Prop
  | .ok _ s' => s'.files = s.files ∧ s'.written = s.written
  | .err _ s' => ∃ c rest, s'.calls = (c, false) :: rest ∧ Early c = false ∧
      s'.written = (if AboutCaps c then [(o, "capability error: ".toList ++ reason)] else []) ++
        s.written
  | _ => True

theorem mute_sys {call : Call} {act : Proc → Option Proc} {P : Call → Prop} (h : P call)
    (hact : ∀ s t, act s = some t → t.files = s.files ∧ t.written = s.written) (s : Proc) :
    Mute P s (sys call act s) := by
  unfold sys
  cases s.answers with
  | nil => trivial
  | cons o rest =>
    cases o with
    | some e => exact ⟨⟨_, _, rfl, h⟩, rfl, rfl⟩
    | none =>
      simp only
      cases ha : act s with
      | none => exact ⟨⟨_, _, rfl, h⟩, rfl, rfl⟩
      | some t => exact hact s t ha

theorem mute_sysCred {call : Call} {act : Cred → Option Cred} {P : Call → Prop} (h : P call)
    (s : Proc) : Mute P s (sysCred call act s) := by
  refine mute_sys h (fun s t ht => ?_) s
  cases ha : act s.cred with
  | none => rw [ha] at ht; cases ht
  | some c => rw [ha] at ht; cases ht; exact ⟨rfl, rfl⟩

theorem mute_bind {α β : Type} {x : C α} {f : α → C β} {P : Call → Prop} {s : Proc}
    (hx : Mute P s (x s)) (hf : ∀ a s', Mute P s' (f a s')) : Mute P s ((x >>= f) s) := by
  change Mute P s (C.bind x f s)
  unfold C.bind
  cases hs : x s with
  | err e s1 => rw [hs] at hx; exact hx
  | panic e s1 => trivial
  | stuck s1 => trivial
  | ok a s1 =>
    rw [hs] at hx
    have h2 := hf a s1
    simp only
    cases hf' : f a s1 with
    | panic e s2 => trivial
    | stuck s2 => trivial
    | err e s2 =>
      rw [hf'] at h2
      exact ⟨h2.1, h2.2.1.trans hx.1, h2.2.2.trans hx.2⟩
    | ok b s2 =>
      rw [hf'] at h2
      exact ⟨h2.1.trans hx.1, h2.2.trans hx.2⟩

theorem mute_applyInheritable (l : List Cap) (s : Proc) :
    Mute CapCall s (applyInheritable l s) :=
  mute_bind (mute_sys (act := some) (P := CapCall) (by unfold CapCall; rfl) (fun s t h => by cases h; exact ⟨rfl, rfl⟩) s)
    fun _ s' => mute_sysCred (P := CapCall) (by unfold CapCall; rfl) s'

theorem mute_applyEffective (l : List Cap) (s : Proc) :
    Mute CapCall s (applyEffective l s) :=
  mute_bind (mute_sys (act := some) (P := CapCall) (by unfold CapCall; rfl) (fun s t h => by cases h; exact ⟨rfl, rfl⟩) s)
    fun _ s' => mute_sysCred (P := CapCall) (by unfold CapCall; rfl) s'

theorem mute_raiseAll (l : List Cap) (s : Proc) :
    Mute CapCall s (raiseAll l s) := by
  induction l generalizing s with
  | nil => exact ⟨rfl, rfl⟩
  | cons c l ih => exact mute_bind (mute_sysCred (P := CapCall) (by unfold CapCall; rfl) s) fun _ s' => ih s'

theorem says_mapToErrno {α : Type} {o : Nat} {reason : Str} {x : C α} {s : Proc} {b : Bool}
    (h1 : s.files 1 = some ⟨o, b⟩) (h : Mute CapCall s (x s)) :
    Says o reason s (mapToErrno reason x s) := by
  unfold mapToErrno
  cases hs : x s with
  | ok a s1 => rw [hs] at h; exact h
  | panic q s1 => trivial
  | stuck s1 => trivial
  | err e s1 =>
    rw [hs] at h
    obtain ⟨⟨c, rest, hc, hp⟩, hf, hw⟩ := h
    simp only [println, hf, h1]
    refine ⟨c, rest, hc, ?_, ?_⟩
    · cases c <;> first | rfl | cases hp
    · rw [if_pos (show AboutCaps c = true from hp), hw]; rfl

theorem says_sysCred {o : Nat} {reason : Str} {call : Call} {act : Cred → Option Cred}
    (ha : AboutCaps call = false) (he : Early call = false) (s : Proc) :
    Says o reason s (sysCred call act s) := by
  have h := mute_sysCred (act := act) (P := fun c => c = call) rfl s
  cases hs : sysCred call act s with
  | ok a s1 => rw [hs] at h; exact h
  | panic q s1 => trivial
  | stuck s1 => trivial
  | err e s1 =>
    rw [hs] at h
    obtain ⟨⟨c, rest, hc, rfl⟩, hf, hw⟩ := h
    refine ⟨c, rest, hc, he, ?_⟩
    rw [ha, hw]; rfl

theorem says_bind {α β : Type} {x : C α} {f : α → C β} {o : Nat} {reason : Str} {s : Proc} {b : Bool}
    (h1 : s.files 1 = some ⟨o, b⟩) (hx : Says o reason s (x s))
    (hf : ∀ a s', s'.files 1 = some ⟨o, b⟩ → Says o reason s' (f a s')) :
    Says o reason s ((x >>= f) s) := by
  change Says o reason s (C.bind x f s)
  unfold C.bind
  cases hs : x s with
  | err e s1 => rw [hs] at hx; exact hx
  | panic e s1 => trivial
  | stuck s1 => trivial
  | ok a s1 =>
    rw [hs] at hx
    have h2 := hf a s1 (by rw [hx.1]; exact h1)
    simp only
    cases hf' : f a s1 with
    | panic e s2 => trivial
    | stuck s2 => trivial
    | err e s2 =>
      rw [hf'] at h2
      obtain ⟨c, rest, hc, he, hw⟩ := h2
      exact ⟨c, rest, hc, he, by rw [hw, hx.2]⟩
    | ok b s2 =>
      rw [hf'] at h2
      exact ⟨h2.1.trans hx.1, h2.2.trans hx.2⟩

/-- What is said about names that are no capabilities, newest first. -/
def complaints (o : Nat) (names : List Str) : List (Nat × Str) :=
  ((unknown names).map fun n => (o, "Failed to set ".toList ++ n)).reverse

theorem capFromStr_none {n : Str} : capFromStr n = none ↔ ∀ c, capName c ≠ some n := by
  constructor
  · intro h c hc
    rw [capFromStr_iff.mpr hc] at h
    cases h
  · intro h
    cases hc : capFromStr n with
    | none => rfl
    | some c => exact absurd (capFromStr_iff.mp hc) (h c)

theorem knownCaps_says {names : List Str} {acc : List Cap} {s : Proc} {o : Nat} {b : Bool}
    (h1 : s.files 1 = some ⟨o, b⟩) :
    ∃ l, knownCaps names acc s = .ok l { s with written := complaints o names ++ s.written } := by
  induction names generalizing acc s with
  | nil => exact ⟨acc, rfl⟩
  | cons n names ih =>
    unfold knownCaps
    cases hc : capFromStr n with
    | some c =>
      obtain ⟨l, hl⟩ := ih (acc := if c ∈ acc then acc else acc ++ [c]) h1
      refine ⟨l, ?_⟩
      have : complaints o (n :: names) = complaints o names := by
        unfold complaints unknown
        rw [List.filter_cons_of_neg]
        intro hn
        rw [decide_eq_true_eq] at hn
        exact hn c (capFromStr_iff.mp hc)
      rw [this]
      exact hl
    | none =>
      have hw : complaints o (n :: names) =
          complaints o names ++ [(o, "Failed to set ".toList ++ n)] := by
        unfold complaints unknown
        rw [List.filter_cons_of_pos (by rw [decide_eq_true_eq]; exact capFromStr_none.mp hc)]
        rw [List.map_cons, List.reverse_cons]
      obtain ⟨l, hl⟩ := ih (acc := acc) (s := { s with
        written := (o, "Failed to set ".toList ++ n) :: s.written }) h1
      refine ⟨l, ?_⟩
      rw [hw, List.append_assoc]
      change C.bind (println _) _ s = _
      unfold C.bind println
      rw [h1]
      exact hl

theorem says_setUserAndCaps {ord : HashOrder} {reason : Str} {p : Process} {s : Proc} {o : Nat}
    {b : Bool} (h1 : s.files 1 = some ⟨o, b⟩) :
    Says o reason { s with written := complaints o p.capabilities ++ s.written }
      (setUserAndCaps ord reason p s) := by
  obtain ⟨l, hl⟩ := knownCaps_says (names := p.capabilities) (acc := []) h1
  unfold setUserAndCaps
  change Says _ _ _ (C.bind (knownCaps p.capabilities []) _ s)
  unfold C.bind
  rw [hl]
  simp only
  generalize hs0 : ({ s with written := complaints o p.capabilities ++ s.written } : Proc) = s0
  have h0 : s0.files 1 = some ⟨o, b⟩ := by rw [← hs0]; exact h1
  refine says_bind h0 (says_mapToErrno h0 (mute_applyInheritable _ _)) fun _ s1 h1 => ?_
  refine says_bind h1 (says_mapToErrno h1 (mute_applyEffective _ _)) fun _ s2 h2 => ?_
  refine says_bind h2 (says_sysCred rfl rfl _) fun _ s3 h3 => ?_
  refine says_bind h3 (says_sysCred rfl rfl _) fun _ s4 h4 => ?_
  refine says_bind h4 (says_sysCred rfl rfl _) fun _ s5 h5 => ?_
  refine says_bind h5 (says_sysCred rfl rfl _) fun _ s6 h6 => ?_
  refine says_bind h6 (says_sysCred rfl rfl _) fun _ s7 h7 => ?_
  refine says_bind h7 (says_mapToErrno h7 (mute_applyInheritable _ _)) fun _ s8 h8 => ?_
  refine says_bind h8 (says_mapToErrno h8 (mute_applyEffective _ _)) fun _ s9 h9 => ?_
  refine says_bind h9 (says_mapToErrno h9 (mute_sysCred (P := CapCall) (by unfold CapCall; rfl) _)) fun _ s10 h10 => ?_
  refine says_bind h10 (says_mapToErrno h10 (mute_bind (mute_sysCred (P := CapCall) (by unfold CapCall; rfl) _) fun _ s' =>
    mute_raiseAll _ s')) fun _ s11 h11 => ?_
  refine says_bind h11 (says_mapToErrno h11 (mute_applyInheritable _ _)) fun _ s12 h12 => ?_
  exact says_mapToErrno h12 (mute_applyEffective _ _)

/-- What has been written in the end. -/
def Told (o : Nat) (reason : Str) (names : List Str) (s : Proc) : Ret Image → Prop
  | .ok _ s' => s'.written = complaints o names ++ s.written
  | .err _ s' => ∃ c rest, s'.calls = (c, false) :: rest ∧
      s'.written = (if AboutCaps c then [(o, "capability error: ".toList ++ reason)] else []) ++
        ((if Early c then [] else complaints o names) ++ s.written)
  | _ => True

theorem told_bind {α : Type} {x : C α} {f : α → C Image} {o : Nat} {reason : Str}
    {names : List Str} {s0 s : Proc}
    (herr : ∀ e s1, x s = .err e s1 → Told o reason names s0 (.err e s1))
    (hok : ∀ a s1, x s = .ok a s1 → Told o reason names s0 (f a s1)) :
    Told o reason names s0 ((x >>= f) s) := by
  change Told _ _ _ _ (C.bind x f s)
  unfold C.bind
  cases hs : x s with
  | err e s1 => exact herr e s1 hs
  | panic q s1 => trivial
  | stuck s1 => trivial
  | ok a s1 => exact hok a s1 hs

theorem dup2Go_written {a b : Nat} {l : List (Option Nat)} {s s' : Proc}
    (h : dup2Go a b l s = .ok () s') : s'.written = s.written := by
  induction l generalizing s with
  | nil => cases h
  | cons o rest ih =>
    cases o with
    | some e => exact ih (s := { s with calls := (.dup2 a b, false) :: s.calls }) h
    | none =>
      unfold dup2Go at h
      cases hd : s.files.dup2 a b with
      | none => rw [hd] at h; exact ih (s := { s with calls := (.dup2 a b, false) :: s.calls }) h
      | some t => rw [hd] at h; cases h; rfl

theorem dup2Go_no_err {a b : Nat} {l : List (Option Nat)} {s s' : Proc} {e : Nat} :
    dup2Go a b l s ≠ .err e s' := by
  intro h
  induction l generalizing s with
  | nil => cases h
  | cons o rest ih =>
    cases o with
    | some e => exact ih (s := { s with calls := (.dup2 a b, false) :: s.calls }) h
    | none =>
      unfold dup2Go at h
      cases hd : s.files.dup2 a b with
      | none => rw [hd] at h; exact ih (s := { s with calls := (.dup2 a b, false) :: s.calls }) h
      | some t => rw [hd] at h; cases h

theorem setupBody_told {ord : HashOrder} {reason : Str} {disk : Disk} {p : Process}
    {stdout stderr : Nat} {s : Proc} {o : Nat} {b : Bool} (h1 : s.files stdout = some ⟨o, b⟩)
    (h2 : stdout ≠ 1) (h3 : stderr ≠ 1) :
    Told o reason p.capabilities s (setupBody ord reason disk p stdout stderr s) := by
  obtain ⟨t1, e1, k1⟩ : ∃ t1 : Files, s.files.dup2 stdout 1 = some t1 ∧
      t1 1 = some ⟨o, false⟩ := by
    unfold Files.dup2
    rw [h1]
    simp only
    rw [if_neg h2]
    exact ⟨_, rfl, by simp [Files.set]⟩
  unfold setupBody
  refine told_bind (fun e s1 h => absurd h dup2Go_no_err) fun _ s1 d1 => ?_
  refine told_bind (fun e s2 h => absurd h dup2Go_no_err) fun _ s2 d2 => ?_
  have w2 : s2.written = s.written := (dup2Go_written d2).trans (dup2Go_written d1)
  obtain ⟨_, t1', q1, f1, -⟩ := dup2Go_ok d1
  rw [e1] at q1
  cases q1
  obtain ⟨_, t2, q2, f2, -⟩ := dup2Go_ok d2
  have k2 : s2.files 1 = some ⟨o, false⟩ := by
    rw [f2]
    unfold Files.dup2 at q2
    rw [f1] at q2
    cases hs : t1 stderr with
    | none => rw [hs] at q2; cases q2
    | some g =>
      rw [hs] at q2
      simp only [Option.some.injEq] at q2
      rw [← q2]
      split
      · exact k1
      · simp [Files.set, k1]
  have m3 := mute_sys (call := .sigprocmask []) (P := fun c => c = .sigprocmask [])
    (act := fun s => some { s with mask := [] }) rfl (fun s t h => by cases h; exact ⟨rfl, rfl⟩) s2
  refine told_bind (fun e s3 h => ?_) fun _ s3 h => ?_
  · rw [h] at m3
    obtain ⟨⟨c, rest, hc, rfl⟩, -, hw⟩ := m3
    exact ⟨_, rest, hc, by rw [hw, w2]; rfl⟩
  rw [h] at m3
  refine told_bind (fun e s4 h => nomatch h) fun _ s4 d4 => ?_
  refine told_bind (fun e s5 h => nomatch h) fun _ s5 d5 => ?_
  injection d4 with _ d4
  injection d5 with _ d5
  have w5 : s5.written = s.written := by
    rw [← d5]; change s4.written = _; rw [← d4]; exact m3.2.trans w2
  have k5 : s5.files 1 = some ⟨o, false⟩ := by
    rw [← d5]
    simp only [Files.close, Files.set]
    rw [if_neg (Ne.symm h3), ← d4]
    simp only [Files.close, Files.set]
    rw [if_neg (Ne.symm h2), m3.1]
    exact k2
  have m6 : Mute (fun c => c = .chdir p.workdir) s5 (setCurrentDir p.workdir s5) := by
    unfold setCurrentDir
    by_cases hz : '\x00' ∈ p.workdir
    · rw [if_pos hz]; exact ⟨⟨_, _, rfl, rfl⟩, rfl, rfl⟩
    · rw [if_neg hz]
      exact mute_sys (call := .chdir p.workdir) (P := fun c => c = .chdir p.workdir)
        (act := fun s => some { s with cwd := p.workdir }) rfl
        (fun s t h => by cases h; exact ⟨rfl, rfl⟩) s5
  refine told_bind (fun e s6 h => ?_) fun _ s6 h => ?_
  · rw [h] at m6
    obtain ⟨⟨c, rest, hc, rfl⟩, -, hw⟩ := m6
    exact ⟨_, rest, hc, by rw [hw, w5]; rfl⟩
  rw [h] at m6
  have m7 := says_setUserAndCaps (ord := ord) (reason := reason) (p := p) (s := s6) (o := o)
    (b := false) (by rw [m6.1]; exact k5)
  refine told_bind (fun e s7 h => ?_) fun _ s7 h => ?_
  · rw [h] at m7
    obtain ⟨c, rest, hc, he, hw⟩ := m7
    refine ⟨c, rest, hc, ?_⟩
    rw [hw, he]
    change _ ++ (_ ++ s6.written) = _
    rw [m6.2, w5]
    rfl
  rw [h] at m7
  have w7 : s7.written = complaints o p.capabilities ++ s.written := by
    rw [m7.2]
    change _ ++ s6.written = _
    rw [m6.2, w5]
  unfold exec
  by_cases hz : '\x00' ∈ p.path
  · rw [if_pos hz]; trivial
  rw [if_neg hz]
  unfold findAndExec
  cases s7.answers with
  | nil => trivial
  | cons a rest =>
    cases a with
    | some e => exact ⟨_, _, rfl, by rw [w7]; rfl⟩
    | none =>
      dsimp only
      cases PathSearch.execvpe disk.path (disk.attempt s7.cred s7.cwd) p.path with
      | failed e => exact ⟨_, _, rfl, by rw [w7]; rfl⟩
      | found q g => exact w7

end Child

end Cinit
