import Verif.Spec.Arrivals
import Verif.Props.Streams
import Verif.Props.Waiting
import Verif.Props.Timeline
/-!
# C116, C117: how often cinit is woken up, and how long stopping takes at most
-/

namespace Cinit.Props

open Cinit Spec

theorem reliable_orderly {t : Play} (h : Reliable t) : Orderly t := by
  induction t with
  | nil => trivial
  | cons a t ih => exact ⟨h.1.1, ih h.2⟩

theorem reliable_suffix {t t' : Play} (h : Reliable (t ++ t')) : Reliable t' := by
  induction t with
  | nil => exact h
  | cons _ _ ih => exact ih h.2

/-! ## Reports and what is done about them -/

/-- Whether there are reports cinit has not dealt with. -/
private def slack (l : Log) : Nat := if pending l = [] ∧ hand l = none then 0 else 1

private def served : Event → Nat
  | .signal _ | .report _ | .received _ | .chunk _ _ | .hangup _ => 1
  | _ => 0

private def woken : Event → Nat
  | .polled evs => if evs = [] then 0 else 1
  | _ => 0

private def failing : Event → Nat
  | .failed => 1
  | _ => 0

private theorem slack_le (l : Log) : slack l ≤ 1 := by unfold slack; split <;> omega

/-- All reports are about something. -/
private def Sensible (l : Log) : Prop := ∀ ev ∈ pending l, ev.inp = true ∨ ev.hup = true

private theorem sensible {t : Play} (hr : Reliable t) {d : Inlets} (hs : Always (Serves d) t.log) :
    Sensible t.log := by
  induction t with
  | nil => exact fun ev h => by cases h
  | cons a t ih =>
    cases a with
    | cinit e =>
      have ih := ih hr.2 hs.2
      cases e with
      | polled evs =>
        intro ev he
        exact (hr.1.2 ev he).imp_right And.left
      | ready ev => exact fun ev' he => ih ev' (List.mem_of_mem_tail he)
      | _ => exact ih
    | _ => exact ih hr.2 hs

private theorem slack_step {d : Inlets} {e : Event} {l : Log} (hall : Always (Serves d) (e :: l))
    (hb : Sensible l) : woken e + slack l ≤ slack (e :: l) + served e + failing e := by
  have hs := hall.1
  have hle := slack_le l
  have one : pending (e :: l) ≠ [] ∨ hand (e :: l) ≠ none → slack (e :: l) = 1 := fun h => by
    unfold slack
    rw [if_neg]
    rintro ⟨h1, h2⟩
    rcases h with h | h
    · exact h h1
    · exact h h2
  have zero : hand l = none → pending l = [] → slack l = 0 := fun h1 h2 => by simp [slack, h1, h2]
  have same : hand l = none → hand (e :: l) = none → pending (e :: l) = pending l →
      slack (e :: l) = slack l := fun h1 h2 h3 => by simp [slack, h1, h2, h3]
  cases e with
  | signal | report | received | chunk | hangup => simp only [woken, served]; omega
  | failed => simp only [woken, failing]; omega
  | polled evs =>
    obtain ⟨l', rfl⟩ := hs
    rw [zero rfl hall.2.1.2.1]
    by_cases he : evs = []
    · simp only [woken, he, if_true]; omega
    · rw [one (.inl he)]
      simp [woken, served, failing, he]
  | ready ev =>
    have hm := hb ev (List.mem_of_mem_head? hs.2)
    rw [one (.inr (by rcases hm with hm | hm <;> simp [hand, hm]))]
    simp only [woken]
    omega
  | unsigned =>
    obtain ⟨b, l', rfl⟩ := hs
    rw [same rfl rfl rfl]
    simp only [woken]
    omega
  | unpolled =>
    obtain ⟨l', rfl⟩ := hs
    rw [same rfl rfl rfl]
    simp only [woken]
    omega
  | sent | line | datagram =>
    rw [same hs rfl rfl]
    simp only [woken]
    omega
  | _ =>
    rw [zero hs.1 hs.2.1]
    simp only [woken]
    omega

/-! ## What is left to be done -/

private structure Facts (d : Inlets) (e : Event) (past : Log) : Prop where
  base : StreamRules d e past
  distinct : ∀ evs, e = .polled evs → (evs.map (·.fd)).Nodup
  opened : ∀ fd b, e = .chunk fd b → ∃ y, stream past fd = some y

private theorem facts {x : Machine} {config : Config} {m : Manager} (h : x.manager config = .ok m) :
    Always (Facts m.inlets) (x.loop m).log := by
  have h1 := stream_rules h
  have h2 := Machine.loop_legal h
  have h3 := loop_told h
  generalize (x.loop m).log = l at h1 h2 h3
  induction l with
  | nil => trivial
  | cons e l ih =>
    refine ⟨⟨h1.1, ?_, ?_⟩, ih h1.2 h2.2 h3.2⟩
    · rintro evs rfl
      exact h3.1.2.1
    · rintro fd b rfl
      exact h2.1.2

private theorem facts_rules {d : Inlets} {l : Log} (h : Always (Facts d) l) :
    Always (StreamRules d) l := by
  induction l with
  | nil => trivial
  | cons e l ih => exact ⟨h.1.base, ih h.2⟩

private theorem facts_serves {d : Inlets} {l : Log} (h : Always (Facts d) l) :
    Always (Serves d) l := by
  induction l with
  | nil => trivial
  | cons e l ih => exact ⟨h.1.base.serves, ih h.2⟩

/-- The list of open streams is the one told by the history. -/
theorem mem_openStreams {l : Log} {fd : Int} :
    fd ∈ openStreams l ↔ ∃ y, stream l fd = some y := by
  induction l with
  | nil => simp [openStreams, stream]
  | cons e l ih =>
    cases e with
    | spawned i p o r =>
      simp only [openStreams, List.mem_cons, ih, stream]
      by_cases h1 : fd = o
      · simp [h1]
      · by_cases h2 : fd = r
        · subst h2; simp [h1]
        · simp [h1, h2]
    | hangup g =>
      simp only [openStreams, List.mem_filter, ih, stream]
      by_cases h1 : fd = g <;> simp [h1]
    | _ => exact ih

private theorem nodup_openStreams {d : Inlets} {l : Log} (h : Always (Facts d) l) :
    (openStreams l).Nodup := by
  induction l with
  | nil => exact List.nodup_nil
  | cons e l ih =>
    have ih := ih h.2
    cases e with
    | spawned i p o r =>
      obtain ⟨h1, h2, h3⟩ := h.1.base.fresh i p o r rfl
      have n1 : o ∉ openStreams l := fun hm => by
        obtain ⟨y, hy⟩ := mem_openStreams.mp hm; rw [h1] at hy; cases hy
      have n2 : r ∉ openStreams l := fun hm => by
        obtain ⟨y, hy⟩ := mem_openStreams.mp hm; rw [h2] at hy; cases hy
      simp only [openStreams, List.nodup_cons, List.mem_cons, not_or]
      exact ⟨⟨h3, n1⟩, n2, ih⟩
    | hangup g => exact ih.filter _
    | _ => exact ih

/-- The reports cinit has not dealt with are on different descriptors, and those with nothing
to be read on open streams. -/
private structure Due (l : Log) : Prop where
  nodup : (((hand l).toList ++ pending l).map (·.fd)).Nodup
  opened : ∀ ev ∈ (hand l).toList ++ pending l, ev.inp = false → ∃ y, stream l ev.fd = some y

private theorem due {d : Inlets} {t : Play} (hr : Reliable t) (hf : Always (Facts d) t.log) :
    Due t.log := by
  induction t with
  | nil => exact ⟨List.nodup_nil, nofun⟩
  | cons a t ih =>
    cases a with
    | cinit e =>
      obtain ⟨h1, h2⟩ := ih hr.2 hf.2
      have hserve := hf.1.base.serves
      have drop : hand (e :: Play.log t) = none → pending (e :: Play.log t) = pending (Play.log t) →
          (∀ ev ∈ pending (Play.log t), ∀ y, stream (Play.log t) ev.fd = some y →
            ∃ y, stream (e :: Play.log t) ev.fd = some y) → Due (e :: Play.log t) := by
        intro a1 a2 a3
        rw [List.map_append] at h1
        refine ⟨?_, ?_⟩
        · rw [a1, a2]
          exact (List.nodup_append.mp h1).2.1
        · rw [a1, a2]
          intro ev he hi
          obtain ⟨y, hy⟩ := h2 ev (List.mem_append_right _ he) hi
          exact a3 ev he y hy
      cases e with
      | spawned i p o r =>
        refine drop rfl rfl fun ev he => ?_
        have : pending (Play.log t) = [] := hserve.2.1
        rw [this] at he
        cases he
      | hangup g =>
        refine drop rfl rfl fun ev he y hy => ⟨y, ?_⟩
        have hh : hand (Play.log t) = some ⟨g, false, true⟩ := hserve
        simp only [stream]
        rw [if_neg, hy]
        rintro rfl
        rw [hh] at h1
        simp only [Option.toList_some, List.cons_append, List.nil_append, List.map_cons,
          List.nodup_cons, List.mem_map, not_exists, not_and] at h1
        exact h1.1 ev he rfl
      | polled evs =>
        refine ⟨hf.1.distinct evs rfl, ?_⟩
        intro ev he hi
        rcases hr.1.2 ev he with h3 | h3
        · rw [h3] at hi; cases hi
        · exact h3.2
      | ready ev =>
        obtain ⟨h3, h4⟩ := hserve
        have h3 : hand (Play.log t) = none := h3
        have h4 : (pending (Play.log t)).head? = some ev := h4
        obtain ⟨rest, hp⟩ : ∃ rest, pending (Play.log t) = ev :: rest := by
          cases hp : pending (Play.log t) with
          | nil => rw [hp] at h4; cases h4
          | cons ev' rest => rw [hp] at h4; cases h4; exact ⟨rest, rfl⟩
        rw [h3, hp] at h1 h2
        have hsub : ((hand (.ready ev :: Play.log t)).toList ++ pending (.ready ev :: Play.log t)).Sublist
            (ev :: rest) := by
          simp only [hand, pending, hp, List.tail_cons]
          split
          · exact List.Sublist.refl _
          · exact List.sublist_cons_self _ _
        exact ⟨h1.sublist (hsub.map _), fun ev' he hi => h2 ev' (hsub.subset he) hi⟩
      | _ => exact drop rfl rfl fun _ _ y hy => ⟨y, hy⟩
    | _ => exact ih hr.2 hf

private theorem sum_le {L : List Int} {f g : Int → Nat} (h : ∀ x ∈ L, f x ≤ g x) :
    (L.map f).sum ≤ (L.map g).sum := by
  induction L with
  | nil => simp
  | cons a L ih =>
    simp only [List.map_cons, List.sum_cons]
    have h1 := h a List.mem_cons_self
    have h2 := ih fun x hx => h x (List.mem_cons_of_mem _ hx)
    omega

private theorem sum_lt {L : List Int} {f g : Int → Nat} (h : ∀ x ∈ L, f x ≤ g x) {y : Int}
    (hy : y ∈ L) (hlt : f y < g y) : (L.map f).sum + 1 ≤ (L.map g).sum := by
  induction L with
  | nil => cases hy
  | cons a L ih =>
    simp only [List.map_cons, List.sum_cons]
    have h1 := h a List.mem_cons_self
    have h2 := sum_le fun x hx => h x (List.mem_cons_of_mem _ hx)
    rcases List.mem_cons.mp hy with rfl | hy
    · omega
    · have h3 := ih (fun x hx => h x (List.mem_cons_of_mem _ hx)) hy
      omega

private theorem sum_add {L : List Int} (hn : L.Nodup) {f g : Int → Nat} {y : Int} {k : Nat}
    (h : ∀ x ∈ L, f x ≤ g x + if x = y then k else 0) : (L.map f).sum ≤ (L.map g).sum + k := by
  induction L with
  | nil => simp
  | cons a L ih =>
    simp only [List.map_cons, List.sum_cons]
    rw [List.nodup_cons] at hn
    have h1 := h a List.mem_cons_self
    by_cases ha : a = y
    · subst ha
      have h2 := sum_le (L := L) (f := f) (g := g) fun x hx => by
        have := h x (List.mem_cons_of_mem _ hx)
        rw [if_neg (fun he : x = a => hn.1 (he ▸ hx))] at this
        exact this
      rw [if_pos rfl] at h1
      omega
    · rw [if_neg ha] at h1
      have h2 := ih hn.2 fun x hx => h x (List.mem_cons_of_mem _ hx)
      omega

private theorem sum_filter {L : List Int} {f : Int → Nat} {y : Int} (hy : y ∈ L) (hf : 0 < f y) :
    ((L.filter (· ≠ y)).map f).sum + 1 ≤ (L.map f).sum := by
  have hle : ∀ L : List Int, ((L.filter (· ≠ y)).map f).sum ≤ (L.map f).sum := by
    intro L
    induction L with
    | nil => simp
    | cons a L ih =>
      rw [List.filter_cons]
      split
      · simp only [List.map_cons, List.sum_cons]; omega
      · simp only [List.map_cons, List.sum_cons]; omega
  induction L with
  | nil => cases hy
  | cons a L ih =>
    rw [List.filter_cons]
    have h1 := hle L
    rcases List.mem_cons.mp hy with rfl | hy
    · simp only [ne_eq, not_true_eq_false, decide_false, Bool.false_eq_true, if_false,
        List.map_cons, List.sum_cons]
      simp only [ne_eq] at h1
      omega
    · have h2 := ih hy
      split
      · simp only [List.map_cons, List.sum_cons]; omega
      · simp only [List.map_cons, List.sum_cons]; omega

private def gain : Act → Nat
  | .arrives _ => 1
  | .writes _ _ bytes => bytes.length
  | .cinit (.spawned _ _ _ _) => 2
  | _ => 0

private def used : Act → Nat
  | .cinit e => served e
  | _ => 0

private theorem backlog_step {d : Inlets} {a : Act} {t : Play} (hr : Reliable (a :: t))
    (hf : Always (Facts d) (Play.log (a :: t))) :
    backlog (a :: t) + used a ≤ backlog t + gain a := by
  cases a with
  | forks | passes | closes | ends => exact le_refl _
  | arrives k =>
    have : (openStreams (Play.log t)).map (fun fd => (buffer fd (.arrives k :: t)).length + 1) =
      (openStreams (Play.log t)).map (fun fd => (buffer fd t).length + 1) := rfl
    simp only [backlog, waiting, used, gain, Play.log, this]
    cases k <;> (simp only [reduceCtorEq, if_true, if_false]; try omega)
  | writes q g b =>
    have hn := nodup_openStreams (d := d) (l := Play.log t) hf
    have := sum_add hn (f := fun fd => (buffer fd (.writes q g b :: t)).length + 1)
      (g := fun fd => (buffer fd t).length + 1) (y := g) (k := b.length) (by
        intro x _
        simp only [buffer]
        by_cases hx : g = x
        · rw [if_pos hx, if_pos hx.symm, List.length_append]; omega
        · rw [if_neg hx, if_neg (Ne.symm hx)])
    simp only [backlog, waiting, used, gain, Play.log]
    omega
  | cinit e =>
    cases e with
    | spawned i p o r =>
      have hi := stream_inv (reliable_orderly hr.2) (facts_rules hf.2)
      obtain ⟨h1, h2, -⟩ := hf.1.base.fresh i p o r rfl
      have b1 : buffer o (.cinit (.spawned i p o r) :: t) = [] := hi.drained o h1
      have b2 : buffer r (.cinit (.spawned i p o r) :: t) = [] := hi.drained r h2
      simp only [backlog, waiting, used, gain, Play.log, openStreams, List.map_cons, List.sum_cons,
        b1, b2, served, List.length_nil]
      have : (openStreams (Play.log t)).map
          (fun fd => (buffer fd (.cinit (.spawned i p o r) :: t)).length + 1) =
        (openStreams (Play.log t)).map (fun fd => (buffer fd t).length + 1) := rfl
      rw [this]
      omega
    | chunk g b =>
      have hp : b <+: buffer g t := hr.1.1
      have hne : b ≠ [] := hr.1.2
      have hm := mem_openStreams.mpr (hf.1.opened g b rfl)
      have hlen : 0 < b.length := List.length_pos_of_ne_nil hne
      have hle := hp.length_le
      have := sum_lt (L := openStreams (Play.log t))
        (f := fun fd => (buffer fd (.cinit (.chunk g b) :: t)).length + 1)
        (g := fun fd => (buffer fd t).length + 1) (y := g) (by
          intro x _
          simp only [buffer]
          split
          · rw [List.length_drop]; omega
          · omega) hm (by
          simp only [buffer, if_true, List.length_drop]
          omega)
      simp only [backlog, waiting, used, gain, Play.log, openStreams, served]
      omega
    | hangup g =>
      have hdue := due hr.2 hf.2
      have hh : hand (Play.log t) = some ⟨g, false, true⟩ := hf.1.base.serves
      have hm := mem_openStreams.mpr (hdue.opened ⟨g, false, true⟩ (by rw [hh]; simp) rfl)
      have := sum_filter (L := openStreams (Play.log t)) (y := g)
        (f := fun fd => (buffer fd t).length + 1) hm (by simp)
      simp only [backlog, waiting, used, gain, Play.log, openStreams, served]
      have e1 : ((openStreams (Play.log t)).filter (· ≠ g)).map
          (fun fd => (buffer fd (.cinit (.hangup g) :: t)).length + 1) =
        ((openStreams (Play.log t)).filter (· ≠ g)).map (fun fd => (buffer fd t).length + 1) := rfl
      rw [e1]
      omega
    | signal n =>
      have h0 : 0 < waiting .signals t := hr.1.2
      have e1 : (openStreams (Play.log t)).map
          (fun fd => (buffer fd (.cinit (.signal n) :: t)).length + 1) =
        (openStreams (Play.log t)).map (fun fd => (buffer fd t).length + 1) := rfl
      simp only [backlog, waiting, used, gain, Play.log, openStreams, served, e1]
      simp
      omega
    | report n =>
      have h0 : 0 < waiting .clients t := hr.1.2
      have e1 : (openStreams (Play.log t)).map
          (fun fd => (buffer fd (.cinit (.report n) :: t)).length + 1) =
        (openStreams (Play.log t)).map (fun fd => (buffer fd t).length + 1) := rfl
      simp only [backlog, waiting, used, gain, Play.log, openStreams, served, e1]
      simp
      omega
    | received n =>
      have h0 : 0 < waiting .messages t := hr.1.2
      have e1 : (openStreams (Play.log t)).map
          (fun fd => (buffer fd (.cinit (.received n) :: t)).length + 1) =
        (openStreams (Play.log t)).map (fun fd => (buffer fd t).length + 1) := rfl
      simp only [backlog, waiting, used, gain, Play.log, openStreams, served, e1]
      simp
      omega
    | _ => exact le_refl _

private theorem account_step {d : Inlets} {a : Act} {t : Play} (hr : Reliable (a :: t))
    (hf : Always (Facts d) (Play.log (a :: t))) :
    wakes (Play.log (a :: t)) + backlog (a :: t) + slack (Play.log t) + inflow t +
      failures (Play.log t) ≤
    wakes (Play.log t) + backlog t + slack (Play.log (a :: t)) + inflow (a :: t) +
      failures (Play.log (a :: t)) := by
  have hb := backlog_step hr hf
  cases a with
  | cinit e =>
    have hs : woken e + slack (Play.log t) ≤ slack (Play.log (.cinit e :: t)) + served e + failing e :=
      slack_step (facts_serves hf) (sensible hr.2 (facts_serves hf.2))
    have w1 : wakes (Play.log (.cinit e :: t)) = wakes (Play.log t) + woken e := by
      cases e with
      | polled evs => simp only [Play.log, wakes, woken]; split <;> omega
      | _ => rfl
    have w2 : failures (Play.log (.cinit e :: t)) = failures (Play.log t) + failing e := by
      cases e <;> rfl
    have w3 : inflow (.cinit e :: t) = inflow t + gain (.cinit e) := by
      cases e <;> rfl
    rw [w1, w2, w3]
    simp only [used] at hb
    omega
  | arrives k =>
    simp only [used, gain] at hb
    simp only [Play.log, inflow]
    omega
  | writes q g b =>
    simp only [used, gain] at hb
    simp only [Play.log, inflow]
    omega
  | _ =>
    simp only [used, gain] at hb
    simp only [Play.log, inflow]
    omega

private theorem account_runs {d : Inlets} {later t0 : Play} (hr : Reliable (later ++ t0))
    (hf : Always (Facts d) (Play.log (later ++ t0))) :
    wakes (Play.log (later ++ t0)) + backlog (later ++ t0) + slack (Play.log t0) + inflow t0 +
      failures (Play.log t0) ≤
    wakes (Play.log t0) + backlog t0 + slack (Play.log (later ++ t0)) + inflow (later ++ t0) +
      failures (Play.log (later ++ t0)) := by
  induction later with
  | nil => exact le_refl _
  | cons a later ih =>
    have h1 := account_step (d := d) (a := a) (t := later ++ t0) hr hf
    have h2 := ih hr.2 (by
      cases a with
      | cinit e => exact hf.2
      | _ => exact hf)
    simp only [List.cons_append] at h1 ⊢
    omega

/-! ## Adding up -/

private theorem wakes_append (a b : Log) : wakes (a ++ b) = wakes a + wakes b := by
  induction a with
  | nil => simp [wakes]
  | cons e a ih =>
    cases e with
    | polled evs => simp only [List.cons_append, wakes, ih]; split <;> omega
    | _ => exact ih

private theorem failures_append (a b : Log) : failures (a ++ b) = failures a + failures b := by
  induction a with
  | nil => simp [failures]
  | cons e a ih =>
    cases e with
    | failed => simp only [List.cons_append, failures, ih]; omega
    | _ => exact ih

private theorem rounds_append (a b : Log) : rounds (a ++ b) = rounds a + rounds b := by
  induction a with
  | nil => simp [rounds]
  | cons e a ih =>
    cases e with
    | polled evs => simp only [List.cons_append, rounds, ih]; omega
    | _ => exact ih

private theorem inflow_append (a b : Play) : inflow (a ++ b) = inflow a + inflow b := by
  induction a with
  | nil => simp [inflow]
  | cons e a ih =>
    cases e with
    | arrives | writes => simp only [List.cons_append, inflow, ih]; omega
    | cinit e =>
      cases e with
      | spawned => simp only [List.cons_append, inflow, ih]; omega
      | _ => exact ih
    | _ => exact ih

private theorem account_spans {d : Inlets} {later t0 : Play} (hr : Reliable (later ++ t0))
    (hf : Always (Facts d) (Play.log (later ++ t0))) :
    wakes (Play.log later) + backlog (later ++ t0) + slack (Play.log t0) ≤
    backlog t0 + inflow later + failures (Play.log later) + slack (Play.log (later ++ t0)) := by
  have := account_runs hr hf
  rw [inflow_append] at this
  have e1 : wakes (Play.log (later ++ t0)) = wakes (Play.log later) + wakes (Play.log t0) := by
    rw [play_append, wakes_append]
  have e2 : failures (Play.log (later ++ t0)) = failures (Play.log later) + failures (Play.log t0) := by
    rw [play_append, failures_append]
  omega

section

variable {x : Machine} {config : Config} {m : Manager} (h : x.manager config = .ok m)
include h

/-! ## C116 -/

omit h in
/-- C116 as stated: cinit is woken up at most once for everything that comes in. -/
def C116_statement : Prop :=
  ∀ (x : Machine) (config : Config) (m : Manager) (later t0 : Play), x.manager config = .ok m →
    Play.log (later ++ .cinit .polling :: t0) = (x.loop m).log →
    Reliable (later ++ .cinit .polling :: t0) → wakes t0.log ≤ inflow t0

/-- C116, apart from calls that fail: whenever cinit waits it has been woken up at most once for
everything that has come in and has been dealt with since, and once for each call that failed. -/
theorem C116_partial {later t0 : Play}
    (hl : Play.log (later ++ .cinit .polling :: t0) = (x.loop m).log)
    (hr : Reliable (later ++ .cinit .polling :: t0)) :
    wakes t0.log + backlog t0 ≤ inflow t0 + failures t0.log := by
  have hf := facts h
  rw [← hl, play_append] at hf
  have hf : Always (Facts m.inlets) (.polling :: Play.log t0) := (always_of_suffix hf rfl).2
  have hr := (reliable_suffix hr).2
  have := account_spans (later := t0) (t0 := []) (by rw [List.append_nil]; exact hr)
    (by rw [List.append_nil]; exact hf.2)
  rw [List.append_nil] at this
  have h0 : slack (Play.log t0) = 0 := by
    have := hf.1.base.serves
    simp [slack, this.1, this.2.1]
  have h1 : backlog [] = 0 := rfl
  omega

/-- C116: the same counted from any time on. When cinit waits, it has been woken up at most once
for what was left to be done then or has come in since, and once for each call that failed. -/
theorem C116_since {newer later t0 : Play}
    (hl : Play.log (newer ++ .cinit .polling :: (later ++ t0)) = (x.loop m).log)
    (hr : Reliable (newer ++ .cinit .polling :: (later ++ t0))) :
    wakes (Play.log later) + backlog (later ++ t0) ≤
      backlog t0 + inflow later + failures (Play.log later) := by
  have hf := facts h
  rw [← hl, play_append] at hf
  have hf : Always (Facts m.inlets) (.polling :: Play.log (later ++ t0)) :=
    (always_of_suffix hf rfl).2
  have := account_spans (reliable_suffix hr).2 hf.2
  have h0 : slack (Play.log (later ++ t0)) = 0 := by
    have := hf.1.base.serves
    simp [slack, this.1, this.2.1]
  omega

/-! ## C117 -/

omit h in
/-- C117 as stated: once cinit stops, no program is alive and no process holds any output stream
any more, it goes on after waiting at most once for each thing left to be done or coming in, once
for each call that fails, and once more. -/
def C117_statement : Prop :=
  ∀ (x : Machine) (config : Config) (m : Manager) (later t0 : Play), x.manager config = .ok m →
    Play.log (later ++ t0) = (x.loop m).log → Reliable (later ++ t0) →
    Punctual m.inlets (later ++ t0) → ShuttingDown config.programs t0.log →
    (∀ i, ¬ Alive config.programs i t0.log) → (∀ q fd, ¬ holds q fd t0) →
    rounds (Play.log later) ≤ backlog t0 + inflow later + failures (Play.log later) + 1

omit h in
private theorem always_append {φ : Event → Log → Prop} {a b : Log} (h : Always φ (a ++ b)) :
    Always φ b := by
  induction a with
  | nil => exact h
  | cons _ _ ih => exact ih h.2

omit h in
private theorem calm {X : Setting} {later t0 : Play} (hr : Reliable (later ++ t0))
    (hlegal : Always (Legal X) (Play.log (later ++ t0))) (hs : ShuttingDown X.programs t0.log)
    (ha : ∀ i, ¬ Alive X.programs i t0.log) (hh : ∀ q fd, ¬ holds q fd t0) :
    ShuttingDown X.programs (Play.log (later ++ t0)) ∧
      (∀ i, ¬ Alive X.programs i (Play.log (later ++ t0))) ∧ ∀ q fd, ¬ holds q fd (later ++ t0) := by
  induction later with
  | nil => exact ⟨hs, ha, hh⟩
  | cons a later ih =>
    cases a with
    | cinit e =>
      obtain ⟨h1, h2, h3⟩ := ih hr.2 hlegal.2
      refine ⟨shuttingDown_append [e] h1, ?_⟩
      cases e with
      | spawned i p o r => exact absurd h1 hlegal.1.2.1.open_
      | waited p rc who => exact ⟨fun i hi => h2 i hi.2, h3⟩
      | _ => exact ⟨h2, h3⟩
    | forks p c =>
      obtain ⟨h1, h2, h3⟩ := ih hr.2 hlegal
      refine ⟨h1, h2, fun q fd hq => ?_⟩
      rcases hq with hq | hq
      · exact h3 _ _ hq.2
      · exact h3 _ _ hq.2
    | passes p c g =>
      obtain ⟨h1, h2, h3⟩ := ih hr.2 hlegal
      exact absurd hr.1.1 (h3 _ _)
    | closes q g =>
      obtain ⟨h1, h2, h3⟩ := ih hr.2 hlegal
      exact ⟨h1, h2, fun q fd hq => h3 _ _ hq.2⟩
    | ends q =>
      obtain ⟨h1, h2, h3⟩ := ih hr.2 hlegal
      exact ⟨h1, h2, fun q fd hq => h3 _ _ hq.2⟩
    | writes q g b =>
      obtain ⟨h1, h2, h3⟩ := ih hr.2 hlegal
      exact absurd hr.1.1 (h3 _ _)
    | arrives k => exact ih hr.2 hlegal

private theorem all_woken {later t0 newer : Play}
    (hl : Play.log (newer ++ (later ++ t0)) = (x.loop m).log)
    (hr : Reliable (later ++ t0)) (hp : Punctual m.inlets (later ++ t0))
    (hw : ∀ fd, .watched fd false ∉ (x.loop m).log)
    (hs : ShuttingDown config.programs t0.log)
    (ha : ∀ i, ¬ Alive config.programs i t0.log) (hh : ∀ q fd, ¬ holds q fd t0) :
    rounds (Play.log later) = wakes (Play.log later) := by
  induction later generalizing newer with
  | nil => rfl
  | cons a later ih =>
    have hl' : Play.log ((newer ++ [a]) ++ (later ++ t0)) = (x.loop m).log := by
      rw [← hl]; simp
    cases a with
    | cinit e =>
      cases e with
      | polled evs =>
        have ih := ih hl' hr.2 hp.2
        simp only [Play.log, rounds, wakes]
        rw [if_neg, ih]
        refine hp.1 ?_
        have hlegal := Machine.loop_legal h
        rw [← hl', play_append] at hlegal
        have hcalm := calm hr.2 (always_append hlegal) hs ha hh
        have hserve := Machine.loop_serves x m
        rw [← hl, play_append] at hserve
        have hserve : Always (Serves m.inlets) (.polled evs :: Play.log (later ++ t0)) :=
          always_append hserve
        obtain ⟨l', hl1⟩ := hserve.1
        have he : Happened (x.loop m).log .polling l' := by
          rw [← hl', play_append, hl1]
          exact ⟨_, rfl⟩
        have hsub : ∀ fd, .watched fd false ∉ l' := fun fd hm => hw fd (by
          obtain ⟨w, hw'⟩ := he
          rw [hw']
          exact List.mem_append_right _ (List.mem_cons_of_mem _ hm))
        have hsd : ShuttingDown config.programs l' := by
          have := hcalm.1
          rw [hl1] at this
          exact (same_polling l').shuttingDown.mp this
        have hal : ∀ i, ¬ Alive config.programs i l' := by
          have := hcalm.2.1
          rw [hl1] at this
          exact this
        rcases C114_waits_partial h he hsd with ⟨i, hi⟩ | ⟨fd, y, hy⟩
        · exact absurd hi (hal i)
        · refine ⟨fd, y, ?_, ?_, .inr fun q => hcalm.2.2 q fd⟩
          · change stream (Play.log (later ++ t0)) fd = _
            rw [hl1]; exact hy
          · change listening _ (Play.log (later ++ t0)) fd
            rw [hl1]; exact (C98_exact_partial h he hy).mpr (hsub fd)
      | _ => exact ih hl' hr.2 hp
    | _ => exact ih hl' hr.2 hp

/-- C117, provided that all output streams could be registered. -/
theorem C117_partial {later t0 : Play} (hl : Play.log (later ++ t0) = (x.loop m).log)
    (hr : Reliable (later ++ t0)) (hp : Punctual m.inlets (later ++ t0))
    (hw : ∀ fd, .watched fd false ∉ (x.loop m).log)
    (hs : ShuttingDown config.programs t0.log)
    (ha : ∀ i, ¬ Alive config.programs i t0.log) (hh : ∀ q fd, ¬ holds q fd t0) :
    rounds (Play.log later) ≤ backlog t0 + inflow later + failures (Play.log later) + 1 := by
  rw [all_woken h (newer := []) hl hr hp hw hs ha hh]
  have hf := facts h
  rw [← hl] at hf
  have h1 := account_spans hr hf
  have h2 := slack_le (Play.log (later ++ t0))
  omega

end

/-! ## Concrete cases -/

theorem leftover_reliable : Reliable leftoverPlay := by
  simp [leftoverPlay, Reliable, Honest, Prompt, holds, buffer, Play.log, stream, bytes, waiting]
  tauto

/-- Witness for `C116_partial` and `C116_since`: when cinit waits for the last time it has been
woken up three times, for a signal, four bytes and the end of a stream; the end of the other
stream is left. -/
example : leftoverPlay = leftoverPlay.take 5 ++ .cinit .polling :: leftoverPlay.drop 6 ∧
    wakes (Play.log (leftoverPlay.drop 6)) = 3 ∧ backlog (leftoverPlay.drop 6) = 1 ∧
    inflow (leftoverPlay.drop 6) = 7 ∧ failures (Play.log (leftoverPlay.drop 6)) = 0 := by
  decide +kernel

theorem leftover_punctual : Punctual ⟨3, 4, 5⟩ leftoverPlay := by
  simp [leftoverPlay, Punctual]

/-- Witness for `C117_partial`: from the end of the last process on. Two bytes and the ends of two
streams are left, cinit goes on twice. -/
example : leftoverPlay = leftoverPlay.take 14 ++ leftoverPlay.drop 14 ∧
    (∀ fd, .watched fd false ∉ leftoverPlay.log) ∧
    ShuttingDown [prog 'a' .oneshot] (Play.log (leftoverPlay.drop 14)) ∧
    (∀ i, ¬ Alive [prog 'a' .oneshot] i (Play.log (leftoverPlay.drop 14))) ∧
    (∀ q fd, ¬ holds q fd (leftoverPlay.drop 14)) ∧
    rounds (Play.log (leftoverPlay.take 14)) = 2 ∧ backlog (leftoverPlay.drop 14) = 4 := by
  refine ⟨by decide +kernel, ?_, .inl (.inr (.inr (by decide +kernel))), ?_, ?_,
    by decide +kernel, by decide +kernel⟩
  · simp [leftoverPlay, Play.log]
  · simp [leftoverPlay, Play.log, Alive, owner]
    tauto
  · simp [leftoverPlay, holds]
    tauto

/-- A client cannot be accepted, for want of descriptors, and stays in the queue. -/
def spinAnswers : List Answer :=
  [.setup true, .fork (some (10, 20, 21)), .epollAdd true, .epollAdd true, .now 1,
   .epoll (some [⟨4, true, false⟩]), .accept none, .wait .alive, .now 1,
   .epoll (some [⟨4, true, false⟩]), .accept none, .wait .alive, .now 1,
   .epoll (some [⟨4, true, false⟩]), .accept none, .wait .alive, .now 1,
   .epoll (some [⟨4, true, false⟩]), .accept none, .wait .alive, .now 1]

/-- The same, with what the processes do. -/
def spinPlay : Play :=
  [.cinit .polling, .cinit (.clock 1), .cinit .reaped, .cinit .failed,
   .cinit (.ready ⟨4, true, false⟩), .cinit (.polled [⟨4, true, false⟩]),
   .cinit .polling, .cinit (.clock 1), .cinit .reaped, .cinit .failed,
   .cinit (.ready ⟨4, true, false⟩), .cinit (.polled [⟨4, true, false⟩]),
   .cinit .polling, .cinit (.clock 1), .cinit .reaped, .cinit .failed,
   .cinit (.ready ⟨4, true, false⟩), .cinit (.polled [⟨4, true, false⟩]),
   .cinit .polling, .cinit (.clock 1), .cinit .reaped, .cinit .failed,
   .cinit (.ready ⟨4, true, false⟩), .cinit (.polled [⟨4, true, false⟩]),
   .arrives .clients, .cinit .polling, .cinit (.clock 1), .cinit (.watched 21 true),
   .cinit (.watched 20 true), .cinit (.spawned 0 10 20 21)]

theorem spin_ends : Ends (machine spinAnswers) oneProgram (.unfinished spinPlay.log) :=
  Res.of_check (by decide +kernel)

/-- C116 is false: a client that cannot be accepted wakes cinit up again and again, without end as
long as accepting fails. In this run it has been woken up four times although only one client has
come. -/
theorem C116_violated : ¬ C116_statement := by
  intro hc
  obtain ⟨m, h1, h2⟩ := spin_ends.log
  have h2 : ((machine spinAnswers).loop m).log = spinPlay.log := h2
  have := hc (machine spinAnswers) oneProgram m [] spinPlay.tail h1 (by rw [h2]; rfl) (by
    simp [spinPlay, Reliable, Honest, Prompt, Play.log, stream])
  revert this
  decide +kernel

/-- Stopped while an output stream could not be registered. -/
def waitingAnswers : List Answer :=
  [.setup true, .fork (some (10, 20, 21)), .epollAdd false, .epollAdd true, .now 1,
   .epoll (some [⟨3, true, false⟩]), .signal (some 15), .kill true, .wait (.exited 10 0),
   .wait .error, .epoll (some [⟨21, false, true⟩]), .wait .error, .epoll (some []), .wait .error,
   .epoll (some []), .wait .error, .epoll (some []), .wait .error]

/-- The same, with what the processes do. -/
def waitingPlay : Play :=
  [.cinit .polling, .cinit .reaped, .cinit (.polled []), .cinit .polling, .cinit .reaped,
   .cinit (.polled []), .cinit .polling, .cinit .reaped, .cinit (.polled []), .cinit .polling,
   .cinit .reaped, .cinit (.hangup 21), .cinit (.ready ⟨21, false, true⟩),
   .cinit (.polled [⟨21, false, true⟩]), .cinit .polling, .cinit .reaped,
   .cinit (.waited 10 0 (some 0)), .ends 10, .cinit (.sent 10 2), .cinit (.signal 15),
   .cinit (.ready ⟨3, true, false⟩), .cinit (.polled [⟨3, true, false⟩]), .arrives .signals,
   .cinit .polling, .cinit (.clock 1), .cinit (.watched 21 true), .cinit (.watched 20 false),
   .cinit (.spawned 0 10 20 21)]

theorem waiting_ends : Ends (machine waitingAnswers) oneProgram (.unfinished waitingPlay.log) :=
  Res.of_check (by decide +kernel)

/-- C117 is false: cinit waits for the end of a stream that could not be registered. In this run all
that is left is to notice the ends of two streams, and cinit has gone on four times and waits
again. -/
theorem C117_violated : ¬ C117_statement := by
  intro hc
  obtain ⟨m, h1, h2⟩ := waiting_ends.log
  have h2 : ((machine waitingAnswers).loop m).log = waitingPlay.log := h2
  have hd : (match (machine waitingAnswers).manager oneProgram with
    | .ok m => m.inlets
    | _ => ⟨0, 0, 0⟩) = ⟨3, 4, 5⟩ := by decide +kernel
  rw [h1] at hd
  have hd : m.inlets = ⟨3, 4, 5⟩ := hd
  have := hc (machine waitingAnswers) oneProgram m (waitingPlay.take 15) (waitingPlay.drop 15) h1
    (by rw [List.take_append_drop, h2])
    (by
      rw [List.take_append_drop]
      simp [waitingPlay, Reliable, Honest, Prompt, Play.log, stream, holds, buffer, waiting])
    (by
      rw [List.take_append_drop, hd]
      simp [waitingPlay, Punctual, Play.log, stream, holds, buffer, listening]
      intro fd h1 y h2 _
      by_cases hx : fd = 20
      · subst hx; decide
      · simp [hx, h1] at h2)
    (.inl (.inr (.inr (by decide +kernel))))
    (by
      simp [waitingPlay, Play.log, Alive, owner, oneProgram]
      tauto)
    (by
      simp [waitingPlay, holds]
      tauto)
  revert this
  decide +kernel

end Cinit.Props
