import Verif.Proofs.Supervision
import Verif.Spec.History
/-!
# More lemmas on histories
-/

namespace Cinit.Spec

open Cinit

variable {X : Setting} {ps : List ProcessConfig}

theorem Happened.always {φ : Event → Log → Prop} {l past : Log} {e : Event}
    (h : Happened l e past) (ha : Always φ l) : φ e past ∧ Always φ past := by
  obtain ⟨later, rfl⟩ := h
  have := always_of_suffix ha rfl
  exact ⟨this.1, this.2.2⟩

theorem sometime_happened {φ : Event → Log → Prop} {l : Log} :
    Sometime φ l ↔ ∃ e past, Happened l e past ∧ φ e past := by
  rw [sometime_iff]
  constructor
  · rintro ⟨post, e, pre, h1, h2⟩; exact ⟨e, pre, ⟨post, h1⟩, h2⟩
  · rintro ⟨e, pre, ⟨post, h1⟩, h2⟩; exact ⟨post, e, pre, h1, h2⟩

theorem happened_mem {l past : Log} {e : Event} (h : Happened l e past) : e ∈ l := by
  obtain ⟨later, rfl⟩ := h; simp

/-- Alive means in one of the three active states. -/
theorem alive_iff {l : Log} (h : Always (Legal X) l) (i : Nat) :
    Alive X.programs i l ↔ Active (state X.programs l i) := by
  induction l with
  | nil =>
    simp only [Alive, state, Active, false_iff]
    split <;> simp
  | cons e l ih =>
    have ih' := ih h.2
    cases e with
    | spawned j p o r =>
      simp only [Alive, state]
      by_cases hij : i = j
      · rw [if_pos hij]
        simp only [hij, true_or, true_iff]
        split <;> simp [Active]
      · rw [if_neg hij, ← ih']
        simp [hij]
    | waited p rc who =>
      simp only [Alive, state]
      by_cases ho : owner X.programs l p = some i
      · rw [if_pos ho]
        simp only [ho, ne_eq, not_true, false_and, false_iff]
        split
        · simp [Active]
        · split <;> simp [Active]
      · rw [if_neg ho, ← ih']
        simp [ho]
    | datagram q text =>
      simp only [Alive, state]
      by_cases ha : Accepts X.programs l q i
      · rw [if_pos ha, ih']
        have := (owner_facts h.2 ha.1).2.2.1
        simp only [this, true_iff]
        split
        · simp [Active]
        · split
          · simp [Active]
          · exact this
      · rw [if_neg ha, ih']
    | _ => exact ih'

/-- The owner of a process is alive. -/
theorem owner_alive {l : Log} (h : Always (Legal X) l) {p : Int} {i : Nat}
    (ho : owner X.programs l p = some i) : Alive X.programs i l :=
  (alive_iff h i).mpr (owner_facts h ho).2.2.1

/-- Without disturbances programs that are alive have their main process. -/
theorem alive_owner' {l : Log} (h : Always (Legal X) l) (hu : Undisturbed X.programs l) {i : Nat}
    (ha : Alive X.programs i l) {m : Int} (hm : mainPid X.programs l i = m) :
    owner X.programs l m = some i := by
  induction l generalizing m with
  | nil => exact ha.elim
  | cons e l ih =>
    obtain ⟨⟨hu1, hu2, hu3⟩, hu'⟩ := hu
    cases e with
    | spawned j p o r =>
      simp only [mainPid] at hm
      simp only [owner]
      by_cases hij : i = j
      · rw [if_pos hij] at hm
        rw [if_pos hm.symm, hij]
      · rw [if_neg hij] at hm
        have ha' : Alive X.programs i l := by
          rcases ha with ha | ha
          · exact absurd ha hij
          · exact ha
        have := ih h.2 hu' ha' hm
        rw [if_neg]
        · exact this
        · intro e
          rw [e, hu2 _ _ _ _ rfl] at this
          cases this
    | waited p rc who =>
      simp only [mainPid] at hm
      simp only [owner]
      have := ih h.2 hu' ha.2 hm
      rw [if_neg]
      · exact this
      · intro e
        rw [e] at this
        exact ha.1 this
    | datagram q text =>
      simp only [mainPid] at hm
      simp only [owner]
      have hi := ih h.2 hu' ha rfl
      cases ho : owner X.programs l q with
      | none =>
        have : ¬ Accepts X.programs l q i := fun hc => by rw [hc.1] at ho; cases ho
        rw [if_neg this] at hm
        rw [← hm]
        exact hi
      | some k =>
        cases hn : newMainPid text with
        | none =>
          rw [hn] at hm
          simp only [Option.getD_none, ite_self] at hm
          rw [← hm]
          exact hi
        | some r =>
          rw [hn] at hm
          simp only
          by_cases hk : isNotify X.programs k
          · rw [if_pos hk]
            by_cases hik : i = k
            · subst hik
              rw [if_pos ⟨ho, hk⟩] at hm
              simp only [Option.getD_some] at hm
              rw [if_pos hm.symm]
            · have hna : ¬ Accepts X.programs l q i := fun hc => by
                rw [hc.1] at ho; cases ho; exact hik rfl
              rw [if_neg hna] at hm
              rw [hm] at hi
              have hr := hu1 q text k r rfl ⟨ho, hk⟩ hn
              rw [if_neg, if_neg]
              · exact hi
              · intro e
                rw [e, ho] at hi
                cases hi; exact hik rfl
              · intro e
                rw [e] at hi
                rcases hr with hr | hr
                · rw [hr] at hi; cases hi
                · rw [hr] at hi; cases hi; exact hik rfl
          · rw [if_neg hk]
            have hna : ¬ Accepts X.programs l q i := fun hc => by
              have := hc.1
              rw [ho] at this; cases this; exact hk hc.2
            rw [if_neg hna] at hm
            rw [← hm]
            exact hi
    | _ => exact ih h.2 hu' ha hm

theorem alive_owner {l : Log} (h : Always (Legal X) l) (hu : Undisturbed X.programs l) {i : Nat}
    (ha : Alive X.programs i l) : owner X.programs l (mainPid X.programs l i) = some i :=
  alive_owner' h hu ha rfl

/-- In plain histories messages do not change which process belongs to which program. -/
theorem plain_datagram {l : Log} {q : Int} {text : Str} (hp : Plain ps (.datagram q text :: l))
    (p : Int) : owner ps (.datagram q text :: l) p = owner ps l p := by
  rw [owner]
  cases hq : owner ps l q with
  | none => rfl
  | some i =>
    cases hn : newMainPid text with
    | none => rfl
    | some r =>
      show (if isNotify ps i then _ else _) = _
      by_cases hi : isNotify ps i
      · rw [hp.1.1 q text i rfl ⟨hq, hi⟩] at hn; cases hn
      · rw [if_neg hi]

/-- In plain histories main processes have not been reaped. -/
theorem plain_owner {l : Log} (hp : Plain ps l) {p : Int} {i : Nat}
    (ho : owner ps l p = some i) : Unreaped l p := by
  induction l generalizing p i with
  | nil => simp [owner] at ho
  | cons e l ih =>
    cases e with
    | spawned j q o r =>
      simp only [owner] at ho
      simp only [Unreaped]
      split at ho
      · rename_i e; exact .inl e
      · exact .inr (ih hp.2 ho)
    | waited q rc who =>
      simp only [owner] at ho
      simp only [Unreaped]
      split at ho
      · cases ho
      · rename_i e; exact ⟨e, ih hp.2 ho⟩
    | lost q sig => exact absurd rfl (hp.1.2 q sig)
    | datagram q text =>
      rw [plain_datagram hp] at ho
      exact ih hp.2 ho
    | _ => exact ih hp.2 ho

/-- In plain histories every process that has not been reaped is a main process. -/
theorem plain_unreaped {l : Log} (hp : Plain ps l) {p : Int} (hun : Unreaped l p) :
    ∃ i, owner ps l p = some i := by
  induction l with
  | nil => exact hun.elim
  | cons e l ih =>
    cases e with
    | spawned j q a b =>
      simp only [owner]
      by_cases hq : p = q
      · rw [if_pos hq]; exact ⟨j, rfl⟩
      · rw [if_neg hq]
        rcases hun with hun | hun
        · exact absurd hun hq
        · exact ih hp.2 hun
    | waited q rc who =>
      simp only [owner]
      rw [if_neg hun.1]
      exact ih hp.2 hun.2
    | lost q sig => exact absurd rfl (hp.1.2 q sig)
    | datagram q text =>
      rw [plain_datagram hp]
      exact ih hp.2 hun
    | _ => exact ih hp.2 hun

theorem plain_undisturbed {l : Log} (h : Always (Legal X) l) (hp : Plain X.programs l) :
    Undisturbed X.programs l := by
  induction l with
  | nil => trivial
  | cons e l ih =>
    refine ⟨⟨?_, ?_, ?_⟩, ih h.2 hp.2⟩
    · rintro q text i r rfl ha hn
      rw [hp.1.1 q text i rfl ha] at hn; cases hn
    · rintro i p o r rfl
      cases ho : owner X.programs l p with
      | none => rfl
      | some k =>
        have hr : MayStart X i l ∧ 0 < p ∧ ¬ Unreaped l p ∧ _ := h.1.2
        exact absurd (plain_owner hp.2 ho) hr.2.2.1
    · rintro p sig rfl
      exact absurd rfl (hp.1.2 p sig)

theorem Plain.suffix {later l : Log} (hp : Plain ps (later ++ l)) : Plain ps l := by
  induction later with
  | nil => exact hp
  | cons e later ih => exact ih hp.2

/-- A history without announcements at all is plain. -/
theorem Plain.of_silent {l : Log} (h1 : ∀ q text, .datagram q text ∈ l → newMainPid text = none)
    (h2 : ∀ p sig, .lost p sig ∉ l) : Plain ps l := by
  induction l with
  | nil => trivial
  | cons e l ih =>
    refine ⟨⟨?_, ?_⟩, ih (fun q text hm => h1 q text (List.mem_cons_of_mem _ hm))
      (fun p sig hm => h2 p sig (List.mem_cons_of_mem _ hm))⟩
    · rintro q text i rfl -
      exact h1 q text (List.mem_cons_self ..)
    · rintro p sig rfl
      exact h2 p sig (List.mem_cons_self ..)

/-- Without programs of type notify every history is plain in which no process dies by a real-time
signal. -/
theorem Plain.of_no_notify {l : Log} (h1 : ∀ i, ¬ isNotify ps i) (h2 : ∀ p sig, .lost p sig ∉ l) :
    Plain ps l := by
  induction l with
  | nil => trivial
  | cons e l ih =>
    refine ⟨⟨?_, ?_⟩, ih (fun p sig hm => h2 p sig (List.mem_cons_of_mem _ hm))⟩
    · rintro q text i rfl ha
      exact absurd ha.2 (h1 i)
    · rintro p sig rfl
      exact h2 p sig (List.mem_cons_self ..)

/-! ## Obligations -/

/-- What has to follow does follow: the next events are the obligations, as far as the history
goes. -/
theorem follow {later l : Log} (h : Always (Legal X) (later ++ l)) :
    later.reverse <+: obligations X.programs l ∨ obligations X.programs l <+: later.reverse := by
  generalize ho : obligations X.programs l = os
  induction os generalizing later l with
  | nil => exact .inr (List.nil_prefix)
  | cons x rest ih =>
    rcases List.eq_nil_or_concat later with rfl | ⟨later', e, rfl⟩
    · exact .inl (List.nil_prefix)
    · simp only [List.concat_eq_append, List.append_assoc, List.singleton_append] at h
      have he := (always_of_suffix h rfl).1.1.1
      rw [ho] at he
      subst he
      have hob : obligations X.programs (e :: l) = rest := by
        rw [obligations, ho]
      simp only [List.concat_eq_append, List.reverse_append, List.reverse_singleton,
        List.singleton_append, List.prefix_cons_inj]
      exact ih h hob

/-- Reactions happen only when they have to. -/
theorem reaction_due {l past : Log} {e : Event} (h : Always (Legal X) l)
    (he : Happened l e past) (hr : isReaction e) :
    ∃ rest, obligations X.programs past = e :: rest := by
  have := (he.always h).1.1.1
  cases ho : obligations X.programs past with
  | nil => rw [ho] at this; exact absurd hr this
  | cons x rest => rw [ho] at this; exact ⟨rest, by rw [this]⟩

/-- Pending obligations stem from one event after which only earlier obligations of it have
happened. -/
theorem obligations_origin {l : Log} (h : Always (Legal X) l) :
    obligations X.programs l = [] ∨ ∃ es e past, l = es ++ e :: past ∧ ¬ isReaction e ∧
      obligations X.programs past = [] ∧
      reaction X.programs (e :: past) = es.reverse ++ obligations X.programs l := by
  induction l with
  | nil => exact .inl rfl
  | cons e l ih =>
    have hl := h.1.1.1
    cases ho : obligations X.programs l with
    | nil =>
      rw [ho] at hl
      right
      refine ⟨[], e, l, rfl, hl, ho, ?_⟩
      simp [obligations, ho]
    | cons x rest =>
      rw [ho] at hl
      simp only at hl
      subst hl
      right
      rcases ih h.2 with h' | ⟨es, e', past, h1, h2, h3, h4⟩
      · rw [h'] at ho; cases ho
      · refine ⟨e :: es, e', past, by rw [h1]; rfl, h2, h3, ?_⟩
        rw [h4, ho]
        simp [obligations, ho]

end Cinit.Spec
