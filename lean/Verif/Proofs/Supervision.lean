import Verif.Proofs.Notify
/-!
# Lemmas on histories
-/

namespace Cinit.Spec

open Cinit

/-- A process of the program is (taken to be) alive. -/
def Active (s : PState) : Prop := s = .starting ∨ s = .running ∨ s = .stopping

theorem always_of_suffix {φ : Event → Log → Prop} {l pre post : Log} {e : Event}
    (h : Always φ l) (hl : l = post ++ e :: pre) : φ e pre ∧ Always φ (e :: pre) := by
  induction post generalizing l with
  | nil => subst hl; exact ⟨h.1, h⟩
  | cons x xs ih => subst hl; exact ih h.2 rfl

theorem always_suffix {φ : Event → Log → Prop} {post pre : Log}
    (h : Always φ (post ++ pre)) : Always φ pre := by
  induction post with
  | nil => exact h
  | cons x xs ih => exact ih h.2

theorem sometime_iff {φ : Event → Log → Prop} {l : Log} :
    Sometime φ l ↔ ∃ post e pre, l = post ++ e :: pre ∧ φ e pre := by
  induction l with
  | nil => simp [Sometime]
  | cons x xs ih =>
    simp only [Sometime]
    constructor
    · rintro (h | h)
      · exact ⟨[], x, xs, rfl, h⟩
      · obtain ⟨post, e, pre, rfl, h'⟩ := ih.mp h
        exact ⟨x :: post, e, pre, rfl, h'⟩
    · rintro ⟨post, e, pre, h1, h2⟩
      cases post with
      | nil => cases h1; exact .inl h2
      | cons y ys => cases h1; exact .inr (ih.mpr ⟨ys, e, pre, rfl, h2⟩)

variable {ps : List ProcessConfig}

/-! ## Equations -/

section Equations

variable (l : Log) (i : Nat) (p : Int)

theorem terminated_cons {ok : Bool} {e : Event} :
    Terminated ps ok i (e :: l) ↔ (∃ p rc who, e = .waited p rc who ∧ owner ps l p = some i ∧
      (rc = 0 ↔ ok = true)) ∨ Terminated ps ok i l := Iff.rfl

theorem announced_cons {e : Event} :
    Announced ps i (e :: l) ↔ (∃ q text, e = .datagram q text ∧ Accepts ps l q i ∧
      saysReady text) ∨ Announced ps i l := Iff.rfl

theorem started_cons {e : Event} :
    Started i (e :: l) ↔ (∃ p o r, e = .spawned i p o r) ∨ Started i l := by
  unfold Started
  constructor
  · rintro ⟨p, o, r, h⟩
    rcases List.mem_cons.mp h with h | h
    · exact .inl ⟨p, o, r, h.symm⟩
    · exact .inr ⟨p, o, r, h⟩
  · rintro (⟨p, o, r, h⟩ | ⟨p, o, r, h⟩)
    · exact ⟨p, o, r, by simp [h]⟩
    · exact ⟨p, o, r, by simp [h]⟩

theorem attempted_cons {e : Event} :
    Attempted i (e :: l) ↔ (∃ p o r, e = .spawned i p o r) ∨ e = .spawnFailed i ∨
      Attempted i l := by
  unfold Attempted
  rw [started_cons, List.mem_cons, eq_comm (a := Event.spawnFailed i)]
  constructor
  · rintro ((h | h) | h | h)
    · exact .inl h
    · exact .inr (.inr (.inl h))
    · exact .inr (.inl h)
    · exact .inr (.inr (.inr h))
  · rintro (h | h | h | h)
    · exact .inl (.inl h)
    · exact .inr (.inl h)
    · exact .inl (.inr h)
    · exact .inr (.inr h)

end Equations

/-! ## Events that change nothing -/

/-- Two histories that say the same about programs, processes and streams. -/
structure Same (ps : List ProcessConfig) (l l' : Log) : Prop where
  owner : ∀ p, owner ps l' p = owner ps l p
  mainPid : ∀ i, mainPid ps l' i = mainPid ps l i
  state : ∀ i, state ps l' i = state ps l i
  status : ∀ i, status ps l' i = status ps l i
  stream : ∀ fd, stream l' fd = stream l fd
  attempted : ∀ i, Attempted i l' ↔ Attempted i l
  started : ∀ i, Started i l' ↔ Started i l
  terminated : ∀ ok i, Terminated ps ok i l' ↔ Terminated ps ok i l
  announced : ∀ i, Announced ps i l' ↔ Announced ps i l
  asked : Asked l' ↔ Asked l
  unreaped : ∀ p, Unreaped l' p ↔ Unreaped l p
  schedule : ∀ z c, schedule z c l' = schedule z c l

theorem Same.refl (l : Log) : Same ps l l :=
  ⟨fun _ => rfl, fun _ => rfl, fun _ => rfl, fun _ => rfl, fun _ => rfl, fun _ => Iff.rfl,
    fun _ => Iff.rfl, fun _ _ => Iff.rfl, fun _ => Iff.rfl, Iff.rfl, fun _ => Iff.rfl,
    fun _ _ => rfl⟩

theorem Same.trans {a b c : Log} (h : Same ps a b) (h' : Same ps b c) : Same ps a c :=
  ⟨fun p => (h'.owner p).trans (h.owner p), fun p => (h'.mainPid p).trans (h.mainPid p),
    fun p => (h'.state p).trans (h.state p), fun p => (h'.status p).trans (h.status p),
    fun p => (h'.stream p).trans (h.stream p), fun p => (h'.attempted p).trans (h.attempted p),
    fun p => (h'.started p).trans (h.started p),
    fun o p => (h'.terminated o p).trans (h.terminated o p),
    fun p => (h'.announced p).trans (h.announced p), h'.asked.trans h.asked,
    fun p => (h'.unreaped p).trans (h.unreaped p),
    fun z c => (h'.schedule z c).trans (h.schedule z c)⟩

theorem Same.completed {a b : Log} (h : Same ps a b) (i : Nat) :
    Completed ps i b ↔ Completed ps i a := by
  unfold Completed; rw [h.terminated, h.announced]

theorem Same.unblocked {a b : Log} (h : Same ps a b) (i : Nat) :
    Unblocked ps i b ↔ Unblocked ps i a := by
  unfold Unblocked
  exact forall_congr' fun j => by rw [h.completed]

theorem Same.someCrash {a b : Log} (h : Same ps a b) : SomeCrash ps b ↔ SomeCrash ps a := by
  unfold SomeCrash
  exact exists_congr fun i => h.terminated _ i

theorem Same.shuttingDown {a b : Log} (h : Same ps a b) :
    ShuttingDown ps b ↔ ShuttingDown ps a := by
  unfold ShuttingDown; rw [h.asked, h.someCrash]

/-- Events of no consequence. -/
def Quiet : Event → Prop
  | .watched _ _ => True
  | .refused _ _ => True
  | .postponed _ => True
  | .sent _ _ => True
  | .received _ => True
  | .chunk _ _ => True
  | .line _ _ _ => True
  | .polled _ => True
  | .ready _ => True
  | .failed => True
  | .unpolled => True
  | .unsigned => True
  | .reaped => True
  | .report _ => True
  | .exit _ => True
  | _ => False

theorem same_quiet {e : Event} (h : Quiet e) (l : Log) : Same ps l (e :: l) := by
  cases e <;> first
    | exact h.elim
    | (refine ⟨fun _ => rfl, fun _ => rfl, fun _ => rfl, fun _ => rfl, fun _ => rfl, ?_, ?_, ?_, ?_,
        ?_, fun _ => Iff.rfl, fun _ _ => rfl⟩
       · intro i; simp [attempted_cons]
       · intro i; simp [started_cons]
       · intro ok i; simp [terminated_cons]
       · intro i; simp [announced_cons]
       · simp [Asked])

theorem same_polling (l : Log) : Same ps l (.polling :: l) := by
  refine ⟨fun _ => rfl, fun _ => rfl, fun _ => rfl, fun _ => rfl, fun _ => rfl, ?_, ?_, ?_, ?_,
    ?_, fun _ => Iff.rfl, fun _ _ => rfl⟩
  · intro i; simp [attempted_cons]
  · intro i; simp [started_cons]
  · intro ok i; simp [terminated_cons]
  · intro i; simp [announced_cons]
  · simp [Asked]

theorem lastWait_quiet {es : List Event} (h : ∀ e ∈ es, Quiet e) (l : Log) :
    lastWait (es ++ l) = lastWait l := by
  induction es with
  | nil => rfl
  | cons e es ih =>
    have ih := ih fun x hx => h x (by simp [hx])
    have he := h e (by simp)
    cases e <;> first
      | exact he.elim
      | exact ih

theorem same_append {es : List Event} (h : ∀ e ∈ es, Quiet e) (l : Log) :
    Same ps l (es ++ l) := by
  induction es with
  | nil => exact .refl l
  | cons e es ih =>
    exact (ih (fun x hx => h x (by simp [hx]))).trans (same_quiet (h e (by simp)) _)

/-! ## Facts on legal histories -/

variable {X : Setting}

/-- A process with a program is that program's current main process, and the program is
active. -/
theorem owner_facts {l : Log} (h : Always (Legal X) l) {p : Int} {i : Nat}
    (ho : owner X.programs l p = some i) :
    i < X.programs.length ∧ mainPid X.programs l i = p ∧ Active (state X.programs l i) ∧
      Started i l := by
  induction l generalizing p i with
  | nil => simp [owner] at ho
  | cons e l ih =>
    obtain ⟨⟨-, hr⟩, hl⟩ := h
    have ih' := fun {p i} => @ih hl p i
    cases e with
    | spawned j q o r =>
      simp only [owner] at ho
      simp only [mainPid, state, started_cons]
      split at ho
      · rename_i e; cases ho; subst e
        refine ⟨hr.1.known, by simp, ?_, .inl ⟨_, _, _, rfl⟩⟩
        simp only [if_true]
        split
        · exact .inl rfl
        · exact .inr (.inl rfl)
      · obtain ⟨h1, h2, h3, h4⟩ := ih' ho
        have hne : i ≠ j := by
          rintro rfl
          rcases hr.1.idle with e | e <;> rw [e] at h3 <;> rcases h3 with h3 | h3 | h3 <;> cases h3
        rw [if_neg hne, if_neg hne]
        exact ⟨h1, h2, h3, .inr h4⟩
    | waited q rc who =>
      simp only [owner] at ho
      simp only [mainPid, state, started_cons]
      split at ho
      · cases ho
      · rename_i hne
        obtain ⟨h1, h2, h3, h4⟩ := ih' ho
        have : owner X.programs l q ≠ some i := by
          intro e
          exact hne ((ih' e).2.1 ▸ h2).symm
        rw [if_neg this]
        exact ⟨h1, h2, h3, .inr h4⟩
    | datagram q text =>
      simp only [owner] at ho
      simp only [mainPid, state, started_cons]
      have act : ∀ {s : PState}, Active s → Active (if saysStopping text then .stopping
          else if saysReady text ∧ s = .starting then .running else s) := by
        intro s hs
        split
        · exact .inr (.inr rfl)
        · split
          · exact .inr (.inl rfl)
          · exact hs
      -- the case where nothing is moved
      have stay : owner X.programs l p = some i → (Accepts X.programs l q i → newMainPid text = none) →
          i < X.programs.length ∧
          (if Accepts X.programs l q i then (newMainPid text).getD (mainPid X.programs l i)
            else mainPid X.programs l i) = p ∧
          Active (if Accepts X.programs l q i then
            if saysStopping text then .stopping
            else if saysReady text ∧ state X.programs l i = .starting then .running
            else state X.programs l i
            else state X.programs l i) ∧
          ((∃ p o r, Event.datagram q text = .spawned i p o r) ∨ Started i l) := by
        intro ho hn
        obtain ⟨h1, h2, h3, h4⟩ := ih' ho
        refine ⟨h1, ?_, ?_, .inr h4⟩
        · split
          · rename_i ha; rw [hn ha]; exact h2
          · exact h2
        · split
          · exact act h3
          · exact h3
      split at ho
      · rename_i k r hk hr'
        split at ho
        · rename_i hn
          split at ho
          · rename_i hpr
            cases ho
            obtain ⟨h1, h2, h3, h4⟩ := ih' hk
            have ha : Accepts X.programs l q i := ⟨hk, hn⟩
            rw [if_pos ha, if_pos ha, hr']
            exact ⟨h1, hpr.symm, act h3, .inr h4⟩
          · split at ho
            · cases ho
            · rename_i hpq
              apply stay ho
              intro ha
              exfalso
              have e1 := (ih' ho).2.1
              have e2 := (ih' ha.1).2.1
              exact hpq (e1.symm.trans e2)
        · rename_i hn
          apply stay ho
          intro ha
          rw [ha.1] at hk; cases hk
          exact absurd ha.2 hn
      · rename_i hno
        apply stay ho
        intro ha
        cases hm : newMainPid text with
        | none => rfl
        | some r => exact (hno i r ha.1 hm).elim
    | clock t =>
      obtain ⟨h1, h2, h3, h4⟩ := ih' ho
      exact ⟨h1, h2, h3, (started_cons l i).mpr (.inr h4)⟩
    | spawnFailed j =>
      obtain ⟨h1, h2, h3, h4⟩ := ih' ho
      exact ⟨h1, h2, h3, (started_cons l i).mpr (.inr h4)⟩
    | signal n =>
      obtain ⟨h1, h2, h3, h4⟩ := ih' ho
      exact ⟨h1, h2, h3, (started_cons l i).mpr (.inr h4)⟩
    | lost q s =>
      obtain ⟨h1, h2, h3, h4⟩ := ih' ho
      exact ⟨h1, h2, h3, (started_cons l i).mpr (.inr h4)⟩
    | hangup fd =>
      obtain ⟨h1, h2, h3, h4⟩ := ih' ho
      exact ⟨h1, h2, h3, (started_cons l i).mpr (.inr h4)⟩
    | _ =>
      obtain ⟨h1, h2, h3, h4⟩ := ih' ho
      exact ⟨h1, h2, h3, (started_cons l i).mpr (.inr h4)⟩

/-- A program has at most one main process. -/
theorem owner_inj {l : Log} (h : Always (Legal X) l) {p q : Int} {i : Nat}
    (h1 : owner X.programs l p = some i) (h2 : owner X.programs l q = some i) : p = q := by
  rw [← (owner_facts h h1).2.1, (owner_facts h h2).2.1]

/-- Before it is started, a program is in its initial state. -/
theorem state_not_started {l : Log} (h : Always (Legal X) l) {i : Nat} (hs : ¬ Started i l) :
    state X.programs l i = if isCronjob X.programs i then .sleeping else .blocked := by
  induction l with
  | nil => rfl
  | cons e l ih =>
    have hs' : ¬ Started i l := fun h' => hs ((started_cons l i).mpr (.inr h'))
    have ih' := ih h.2 hs'
    cases e with
    | spawned j q o r =>
      simp only [state]
      have : i ≠ j := by
        rintro rfl
        exact hs ((started_cons l i).mpr (.inl ⟨_, _, _, rfl⟩))
      rw [if_neg this]; exact ih'
    | waited q rc who =>
      simp only [state]
      rw [if_neg (fun e => hs' (owner_facts h.2 e).2.2.2)]; exact ih'
    | datagram q text =>
      simp only [state]
      rw [if_neg (fun e => hs' (owner_facts h.2 e.1).2.2.2)]; exact ih'
    | _ => exact ih'

theorem isCronjob_not_isNotify {i : Nat} (h : isCronjob ps i) : ¬ isNotify ps i := by
  obtain ⟨c, h1, t, h2⟩ := h
  rintro ⟨c', h3, h4⟩
  rw [h1] at h3; cases h3
  rw [h2] at h4; cases h4

/-- What the states say: see C42. -/
theorem state_facts {l : Log} {i : Nat} :
    (state ps l i = .starting → isNotify ps i) ∧ (state ps l i = .stopping → isNotify ps i) ∧
    (state ps l i = .sleeping → isCronjob ps i) ∧ (state ps l i = .blocked → ¬ isCronjob ps i) ∧
    (state ps l i = .done → ¬ isCronjob ps i) ∧
    (∀ rc, state ps l i = .crashed rc → rc ≠ 0 ∧ Terminated ps false i l) := by
  induction l with
  | nil =>
    simp only [state]
    split <;> simp_all
  | cons e l ih =>
    have lift : (∀ rc, state ps l i = .crashed rc → rc ≠ 0 ∧ Terminated ps false i (e :: l)) :=
      fun rc h => ⟨(ih.2.2.2.2.2 rc h).1, (terminated_cons l i).mpr (.inr (ih.2.2.2.2.2 rc h).2)⟩
    cases e with
    | spawned j q o r =>
      simp only [state]
      split
      · split <;> simp_all
      · exact ⟨ih.1, ih.2.1, ih.2.2.1, ih.2.2.2.1, ih.2.2.2.2.1, lift⟩
    | waited q rc who =>
      simp only [state]
      split
      · rename_i ho
        split
        · rename_i hne
          refine ⟨by simp, by simp, by simp, by simp, by simp, ?_⟩
          intro rc' e
          cases e
          exact ⟨hne, (terminated_cons l i).mpr (.inl ⟨q, rc, who, rfl, ho, by simp [hne]⟩)⟩
        · split <;> simp_all
      · exact ⟨ih.1, ih.2.1, ih.2.2.1, ih.2.2.2.1, ih.2.2.2.2.1, lift⟩
    | datagram q text =>
      simp only [state]
      split
      · rename_i ha
        split
        · simp [ha.2]
        · split
          · simp
          · exact ⟨ih.1, ih.2.1, ih.2.2.1, ih.2.2.2.1, ih.2.2.2.2.1, lift⟩
      · exact ⟨ih.1, ih.2.1, ih.2.2.1, ih.2.2.2.1, ih.2.2.2.2.1, lift⟩
    | _ => exact ⟨ih.1, ih.2.1, ih.2.2.1, ih.2.2.2.1, ih.2.2.2.2.1, lift⟩

/-- Only started programs have completed or terminated. -/
theorem terminated_started {l : Log} (h : Always (Legal X) l) {ok : Bool} {i : Nat}
    (ht : Terminated X.programs ok i l) : Started i l ∧ i < X.programs.length := by
  induction l with
  | nil => exact ht.elim
  | cons e l ih =>
    rcases (terminated_cons l i).mp ht with ⟨p, rc, who, rfl, ho, -⟩ | ht
    · exact ⟨(started_cons l i).mpr (.inr (owner_facts h.2 ho).2.2.2), (owner_facts h.2 ho).1⟩
    · exact ⟨(started_cons l i).mpr (.inr (ih h.2 ht).1), (ih h.2 ht).2⟩

theorem announced_started {l : Log} (h : Always (Legal X) l) {i : Nat}
    (ht : Announced X.programs i l) :
    Started i l ∧ i < X.programs.length ∧ isNotify X.programs i := by
  induction l with
  | nil => exact ht.elim
  | cons e l ih =>
    rcases (announced_cons l i).mp ht with ⟨q, text, rfl, ha, -⟩ | ht
    · exact ⟨(started_cons l i).mpr (.inr (owner_facts h.2 ha.1).2.2.2), (owner_facts h.2 ha.1).1,
        ha.2⟩
    · exact ⟨(started_cons l i).mpr (.inr (ih h.2 ht).1), (ih h.2 ht).2⟩

theorem stream_lt {l : Log} (h : Always (Legal X) l) {fd : Int} {i : Nat} {b : Bool}
    (hs : stream l fd = some (i, b)) : i < X.programs.length := by
  induction l with
  | nil => simp [stream] at hs
  | cons e l ih =>
    obtain ⟨⟨-, hr⟩, hl⟩ := h
    cases e with
    | spawned j q o r =>
      simp only [stream] at hs
      split at hs
      · cases hs; exact hr.1.known
      · split at hs
        · cases hs; exact hr.1.known
        · exact ih hl hs
    | hangup g =>
      simp only [stream] at hs
      split at hs
      · cases hs
      · exact ih hl hs
    | _ => exact ih hl hs

end Cinit.Spec
