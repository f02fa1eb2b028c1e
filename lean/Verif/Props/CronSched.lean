import Verif.Props.CronNext
import Verif.Proofs.CronSched
/-!
# C27-C29: the cron scheduler
-/

namespace Cinit.Props

open Cinit Spec

/-- Any sequence of polls, each with an arbitrary clock reading. -/
inductive Polls (z : Zone) : Cron → Cron → Prop where
  | refl (c : Cron) : Polls z c c
  | step {c c' c'' : Cron} {now : Int} {r : Option Nat} (h : Polls z c c')
      (hp : c'.popRunnable z now = .ok (r, c'')) : Polls z c c''

theorem polls_inv {z : Zone} {c c' : Cron} {ids : List Nat} {T : Nat → Timer → Prop}
    (h : Polls z c c') (hc : c.Inv T ids) : c'.Inv T ids := by
  induction h with
  | refl => exact hc
  | @step c1 c2 now r h hp ih =>
    cases r with
    | none => rw [((Cron.popRunnable_spec ih).1 _ hp).1]; exact ih
    | some id => exact ((Cron.popRunnable_spec ih).2.1 _ _ hp).1

/-- C27: after any number of polls, whatever the clock did, every configured cronjob has
exactly one planned execution, which is the one reported, and nothing else is planned. -/
theorem C27_exactly_one {z : Zone} {config : Config} {clock : List Int} {c0 c : Cron}
    (hb : buildCron z config clock = .ok c0) (hp : Polls z c0 c) :
    (∀ (i : Nat) (pc : ProcessConfig), config.programs[i]? = some pc → pc.ptype.isCron = true →
      (c.timer.map (·.2)).count i = 1 ∧ ∃ t, (t, i) ∈ c.timer ∧ c.nextExecution i = .ok t) ∧
    (∀ t i, (t, i) ∈ c.timer → ∃ pc, config.programs[i]? = some pc ∧ pc.ptype.isCron = true) := by
  have hinv := polls_inv hp (buildCron_inv hb)
  constructor
  · intro i pc h1 h2
    have hid : i ∈ cronIds config := mem_cronIds.mpr ⟨pc, h1, h2⟩
    obtain ⟨t, h3, h4, -⟩ := Cron.nextExecution_spec hinv hid
    refine ⟨?_, t, h3, h4⟩
    rw [hinv.perm.count_eq]
    exact List.count_eq_one_of_mem hinv.nodup hid
  · intro t i h
    apply mem_cronIds.mp
    apply hinv.perm.mem_iff.mp
    exact List.mem_map.mpr ⟨_, h, rfl⟩

/-- C27: asking for the next execution of a configured cronjob never fails. -/
theorem C27_reportable {z : Zone} {config : Config} {clock : List Int} {c0 c : Cron}
    (hb : buildCron z config clock = .ok c0) (hp : Polls z c0 c) {i : Nat} {pc : ProcessConfig}
    (h1 : config.programs[i]? = some pc) (h2 : pc.ptype.isCron = true) (q : Panic) :
    c.nextExecution i ≠ .panic q := by
  obtain ⟨-, t, -, h⟩ := (C27_exactly_one hb hp).1 i pc h1 h2
  rw [h]; simp

/-- C28: a poll yields the job with the earliest plan, if that has been reached; only this
job's plan changes, and its new plan is the next execution after the clock reading, moved by
fewer nanoseconds than there are jobs. -/
theorem C28_due {z : Zone} {config : Config} {clock : List Int} {c0 c c' : Cron} {now : Int}
    {id : Nat} (hb : buildCron z config clock = .ok c0) (hp : Polls z c0 c)
    (h : c.popRunnable z now = .ok (some id, c')) :
    ∃ t, c.nextExecution id = .ok t ∧ t ≤ now ∧
      (∀ t' id', (t', id') ∈ c.timer → id' = id ∨ t < t') ∧
      (∀ t' id', id' ≠ id → ((t', id') ∈ c'.timer ↔ (t', id') ∈ c.timer)) ∧
      ∃ pc desc s v t', config.programs[id]? = some pc ∧ pc.ptype = .cronJob desc ∧
        Timer.parse desc = .ok s ∧
        s.next z now = .ok v ∧ c'.nextExecution id = .ok t' ∧ v ≤ t' ∧
        t' < v + c.timer.length := by
  have hinv := polls_inv hp (buildCron_inv hb)
  obtain ⟨hinv', -, t, td, v, t', rest, e1, e2, e3, e4, e5, e6, e7, e8⟩ :=
    (Cron.popRunnable_spec hinv).2.1 id c' h
  obtain ⟨pc, desc, g1, g2, g3⟩ := e4
  have hid : id ∈ cronIds config := mem_cronIds.mpr ⟨pc, g1, by rw [g2]; rfl⟩
  obtain ⟨t1, k1, k2, k3⟩ := Cron.nextExecution_spec hinv hid
  obtain ⟨t2, l1, l2, l3⟩ := Cron.nextExecution_spec hinv' hid
  have ht : t1 = t := (k3 t (by rw [e1]; simp)).symm
  have ht' : t2 = t' := (l3 t' (e8.mem_iff.mpr (by simp))).symm
  subst ht ht'
  have hs := hinv.sorted
  rw [e1] at hs
  obtain ⟨hlow, -⟩ := List.pairwise_cons.mp hs
  refine ⟨t1, k2, e2, ?_, ?_, pc, desc, td, v, t2, g1, g2, g3, e5, l2, e6, ?_⟩
  · intro t' id' hm
    rw [e1] at hm
    rcases List.mem_cons.mp hm with heq | hm
    · left; exact congrArg (·.2) heq
    · right; exact hlow _ hm
  · intro t' id' hne
    rw [e8.mem_iff, e1]
    simp [hne]
  · rw [e1, List.length_cons]; omega

/-- C28: a poll yields nothing only if no plan has been reached, and changes nothing then. -/
theorem C28_none {z : Zone} {config : Config} {clock : List Int} {c0 c c' : Cron} {now : Int}
    (hb : buildCron z config clock = .ok c0) (hp : Polls z c0 c)
    (h : c.popRunnable z now = .ok (none, c')) :
    c' = c ∧ ∀ i t, c.nextExecution i = .ok t → now < t := by
  have hinv := polls_inv hp (buildCron_inv hb)
  obtain ⟨h1, h2⟩ := (Cron.popRunnable_spec hinv).1 c' h
  refine ⟨h1, fun i t ht => ?_⟩
  unfold Cron.nextExecution at ht
  split at ht
  · rename_i e he
    cases ht
    exact h2 e (List.mem_of_find?_eq_some he)
  · cases ht

/-- C28: conversely, if no plan has been reached, a poll yields nothing. -/
theorem C28_not_due {z : Zone} {config : Config} {clock : List Int} {c0 c : Cron} {now : Int}
    (hb : buildCron z config clock = .ok c0) (hp : Polls z c0 c)
    (h : ∀ i t, c.nextExecution i = .ok t → now < t) :
    c.popRunnable z now = .ok (none, c) := by
  have hinv := polls_inv hp (buildCron_inv hb)
  unfold Cron.popRunnable
  split
  · rfl
  · rename_i t id rest ht
    have hid : id ∈ cronIds config := hinv.perm.mem_iff.mp (by rw [ht]; simp)
    obtain ⟨t1, k1, k2, k3⟩ := Cron.nextExecution_spec hinv hid
    have h1 := k3 t (by rw [ht]; simp)
    have h2 := h id t1 k2
    rw [if_neg (by omega)]

/-- C28: a poll aborts cinit only if computing the next execution of the due job does (C25),
or at the very end of the representable time. -/
theorem C28_abort {z : Zone} {config : Config} {clock : List Int} {c0 c : Cron} {now : Int}
    {q : Panic} (hb : buildCron z config clock = .ok c0) (hp : Polls z c0 c)
    (h : c.popRunnable z now = .panic q) :
    ∃ (id : Nat) (pc : ProcessConfig) (desc : Str) (s : Timer), config.programs[id]? = some pc ∧
      pc.ptype = .cronJob desc ∧
      Timer.parse desc = .ok s ∧ (s.next z now = .panic q ∨
        (q = .dateOverflow ∧ ∃ v, s.next z now = .ok v ∧
          chronoMax < v + config.programs.length)) := by
  have hinv := polls_inv hp (buildCron_inv hb)
  obtain ⟨t, id, td, rest, e1, e2, e3, e4⟩ := (Cron.popRunnable_spec hinv).2.2 q h
  have hid : id ∈ cronIds config := hinv.perm.mem_iff.mp (by rw [e1]; simp)
  obtain ⟨td', k1, -, pc, desc, k2, k3, k4⟩ := hinv.timers id hid
  rw [e3] at k1; cases k1
  refine ⟨id, pc, desc, td, k2, k3, k4, ?_⟩
  rcases e4 with e4 | ⟨e4, v, e5, e6⟩
  · exact .inl e4
  · right
    refine ⟨e4, v, e5, ?_⟩
    have : (cronIds config).length ≤ config.programs.length := by
      have : ∀ i pcs, (cronPrograms i pcs).length ≤ pcs.length := by
        intro i pcs
        induction pcs generalizing i with
        | nil => simp [cronPrograms]
        | cons p pcs ih =>
          unfold cronPrograms
          have := ih (i + 1)
          split <;> simp <;> omega
      simpa [cronIds] using this 0 config.programs
    omega

/-! ## C29: polling terminates -/

/-- Poll with a fixed clock reading until nothing is due, at most `fuel` times: the jobs
handed out in order, whether the last poll yielded nothing, and the final schedule. -/
def drain (z : Zone) (now : Int) : Nat → Cron → Res Empty (List Nat × Bool × Cron)
  | 0, c => .ok ([], false, c)
  | fuel + 1, c =>
    c.popRunnable z now >>= fun r =>
    match r.1 with
    | none => .ok ([], true, r.2)
    | some id => drain z now fuel r.2 >>= fun q => .ok (id :: q.1, q.2)

/-- C29 as stated: if polling never aborts, then polling a number of times at one instant
hands out each due job exactly once and then reports none. -/
def C29_statement : Prop :=
  ∀ (z : Zone) (config : Config) (clock : List Int) (c0 c : Cron) (now : Int),
    buildCron z config clock = .ok c0 → Polls z c0 c →
    (∀ fuel q, drain z now fuel c ≠ .panic q) →
    ∃ fuel ids c', drain z now fuel c = .ok (ids, true, c') ∧ ids.Nodup ∧
      ∀ i, i ∈ ids ↔ ∃ t, c.nextExecution i = .ok t ∧ t ≤ now

private theorem drain_spec {z : Zone} {now : Int} {ids : List Nat} {T : Nat → Timer → Prop}
    (hT : ∀ i ∈ ids, ∀ td v, T i td → td.next z now = .ok v → now < v)
    (hok : ∀ i ∈ ids, ∀ td q, T i td → td.next z now ≠ .panic q)
    (hend : ∀ i ∈ ids, ∀ td v, T i td → td.next z now = .ok v → v + ids.length ≤ chronoMax)
    (n : Nat) {c : Cron} (hc : c.Inv T ids)
    (hn : (c.timer.filter (fun e => decide (e.1 ≤ now))).length ≤ n) :
    ∃ c', drain z now (n + 1) c =
        .ok ((c.timer.filter (fun e => decide (e.1 ≤ now))).map (·.2), true, c') := by
  induction n generalizing c with
  | zero =>
    have hnil : c.timer.filter (fun e => decide (e.1 ≤ now)) = [] :=
      List.eq_nil_of_length_eq_zero (by omega)
    have : c.popRunnable z now = .ok (none, c) := by
      unfold Cron.popRunnable
      split
      · rfl
      · rename_i t id rest ht
        have := List.filter_eq_nil_iff.mp hnil (t, id) (by rw [ht]; simp)
        rw [if_neg (by simpa using this)]
    refine ⟨c, ?_⟩
    unfold drain
    rw [this, hnil]
    rfl
  | succ n ih =>
    unfold drain
    cases hpop : c.popRunnable z now with
    | err e => exact nomatch e
    | panic q =>
      exfalso
      obtain ⟨t, id, td, rest, e1, e2, e3, e4⟩ := (Cron.popRunnable_spec hc).2.2 q hpop
      have hid : id ∈ ids := hc.perm.mem_iff.mp (by rw [e1]; simp)
      obtain ⟨td', k1, -, k2⟩ := hc.timers id hid
      rw [e3] at k1; cases k1
      rcases e4 with e4 | ⟨-, v, e5, e6⟩
      · exact hok id hid td q k2 e4
      · have := hend id hid td v k2 e5
        omega
    | ok r =>
      obtain ⟨r, c1⟩ := r
      rw [Res.bind_ok]
      cases r with
      | none =>
        obtain ⟨h1, h2⟩ := (Cron.popRunnable_spec hc).1 c1 hpop
        have hnil : c.timer.filter (fun e => decide (e.1 ≤ now)) = [] := by
          apply List.filter_eq_nil_iff.mpr
          intro e he
          have := h2 e he
          simp only [decide_eq_true_eq]; omega
        exact ⟨c1, by rw [hnil]; rfl⟩
      | some id =>
        obtain ⟨hinv', -, t, td, v, t', rest, e1, e2, e3, e4, e5, e6, e7, e8⟩ :=
          (Cron.popRunnable_spec hc).2.1 id c1 hpop
        have hid : id ∈ ids := hc.perm.mem_iff.mp (by rw [e1]; simp)
        have hv := hT id hid td v e4 e5
        -- the due entries of the new schedule are those of the rest
        have hsortF : ∀ {m : List (Int × Nat)}, Cron.Sorted m →
            Cron.Sorted (m.filter (fun e => decide (e.1 ≤ now))) :=
          fun h => h.sublist List.filter_sublist
        have hfilter : c1.timer.filter (fun e => decide (e.1 ≤ now)) =
            rest.filter (fun e => decide (e.1 ≤ now)) := by
          have hsr : Cron.Sorted rest := by
            have := hc.sorted; rw [e1] at this; exact (List.pairwise_cons.mp this).2
          refine List.Perm.eq_of_pairwise (le := fun a b => a.1 < b.1) ?_
            (hsortF hinv'.sorted) (hsortF hsr) ?_
          · intro a b _ _ h1 h2; omega
          · have := e8.filter (fun e => decide (e.1 ≤ now))
            rw [List.filter_cons_of_neg (by simp only [decide_eq_true_eq]; omega)] at this
            exact this
        have hhead : c.timer.filter (fun e => decide (e.1 ≤ now)) =
            (t, id) :: rest.filter (fun e => decide (e.1 ≤ now)) := by
          rw [e1, List.filter_cons_of_pos (by simpa using e2)]
        rw [hhead] at hn ⊢
        obtain ⟨c', hc'⟩ := ih hinv' (by rw [hfilter]; simp at hn; omega)
        refine ⟨c', ?_⟩
        simp only
        rw [hc', hfilter]
        rfl

/-- C29, whenever the next executions computed lie in the future (C23) and can be computed
(C25): polling hands out each due job exactly once, in the order of the plans, and then
reports none. Missing: expressions for which C23 is false, see `C29_violated`. -/
theorem C29_terminates_partial {z : Zone} {config : Config} {clock : List Int} {c0 c : Cron}
    {now : Int} (hb : buildCron z config clock = .ok c0) (hp : Polls z c0 c)
    (hnext : ∀ (i : Nat) pc desc s, config.programs[i]? = some pc → pc.ptype = .cronJob desc →
      Timer.parse desc = .ok s →
      ∃ v, s.next z now = .ok v ∧ now < v ∧ v + config.programs.length ≤ chronoMax) :
    ∃ fuel ids c', drain z now fuel c = .ok (ids, true, c') ∧ ids.Nodup ∧
      (∀ i, i ∈ ids ↔ ∃ t, c.nextExecution i = .ok t ∧ t ≤ now) ∧
      ids.Pairwise (fun i j => ∀ ti tj, c.nextExecution i = .ok ti → c.nextExecution j = .ok tj →
        ti < tj) := by
  have hinv := polls_inv hp (buildCron_inv hb)
  have hlen : (cronIds config).length ≤ config.programs.length := by
    have : ∀ i pcs, (cronPrograms i pcs).length ≤ pcs.length := by
      intro i pcs
      induction pcs generalizing i with
      | nil => simp [cronPrograms]
      | cons p pcs ih =>
        unfold cronPrograms
        have := ih (i + 1)
        split <;> simp <;> omega
    simpa [cronIds] using this 0 config.programs
  obtain ⟨c', h⟩ := drain_spec (z := z) (now := now) (ids := cronIds config)
    (T := CronTimer config)
    (fun i _ td v ⟨pc, desc, h1, h2, h3⟩ hv => by
      obtain ⟨v', e1, e2, -⟩ := hnext i pc desc td h1 h2 h3
      rw [hv] at e1; cases e1; exact e2)
    (fun i _ td q ⟨pc, desc, h1, h2, h3⟩ hv => by
      obtain ⟨v', e1, -⟩ := hnext i pc desc td h1 h2 h3
      rw [hv] at e1; cases e1)
    (fun i _ td v ⟨pc, desc, h1, h2, h3⟩ hv => by
      obtain ⟨v', e1, -, e3⟩ := hnext i pc desc td h1 h2 h3
      rw [hv] at e1; cases e1; omega)
    _ hinv (Nat.le_refl _)
  have hnd : (c.timer.map (·.2)).Nodup := hinv.perm.nodup_iff.mpr hinv.nodup
  have huniq : ∀ {t i}, (t, i) ∈ c.timer → c.nextExecution i = .ok t := by
    intro t i hm
    have hid : i ∈ cronIds config := hinv.perm.mem_iff.mp (List.mem_map.mpr ⟨_, hm, rfl⟩)
    obtain ⟨t1, -, k2, k3⟩ := Cron.nextExecution_spec hinv hid
    rw [k3 t hm]; exact k2
  refine ⟨_, _, c', h, ?_, ?_, ?_⟩
  · exact hnd.sublist (List.filter_sublist.map _)
  · intro i
    simp only [List.mem_map, List.mem_filter, decide_eq_true_eq]
    constructor
    · rintro ⟨⟨t, j⟩, ⟨h1, h2⟩, rfl⟩
      exact ⟨t, huniq h1, h2⟩
    · rintro ⟨t, h1, h2⟩
      unfold Cron.nextExecution at h1
      split at h1
      · rename_i e he
        cases h1
        have := List.find?_some he
        simp at this
        exact ⟨e, ⟨List.mem_of_find?_eq_some he, h2⟩, this.symm⟩
      · cases h1
  · rw [List.pairwise_map]
    refine (hinv.sorted.sublist List.filter_sublist).imp_of_mem ?_
    intro a b ha hb hlt ti tj h1 h2
    rw [huniq (List.mem_filter.mp ha).1] at h1
    rw [huniq (List.mem_filter.mp hb).1] at h2
    cases h1; cases h2
    exact hlt

/-- C29, the other side: if the next execution computed for a due job is not in the future
(by more than the number of programs in nanoseconds, as executions at the same instant are
moved), polling at this instant never comes to an end. -/
theorem C29_endless_partial {z : Zone} {config : Config} {clock : List Int} {c0 c : Cron}
    {now t : Int} {i : Nat} {pc : ProcessConfig} {desc : Str} {s : Timer}
    (hb : buildCron z config clock = .ok c0) (hp : Polls z c0 c)
    (h1 : config.programs[i]? = some pc) (h2 : pc.ptype = .cronJob desc)
    (h3 : Timer.parse desc = .ok s) (hdue : c.nextExecution i = .ok t) (ht : t ≤ now)
    (hv : ∀ v, s.next z now = .ok v → v + config.programs.length ≤ now)
    (fuel : Nat) (ids : List Nat) (c' : Cron) : drain z now fuel c ≠ .ok (ids, true, c') := by
  have hinv := polls_inv hp (buildCron_inv hb)
  have hlen : (cronIds config).length ≤ config.programs.length := by
    have : ∀ i pcs, (cronPrograms i pcs).length ≤ pcs.length := by
      intro i pcs
      induction pcs generalizing i with
      | nil => simp [cronPrograms]
      | cons p pcs ih =>
        unfold cronPrograms
        have := ih (i + 1)
        split <;> simp <;> omega
    simpa [cronIds] using this 0 config.programs
  have hi : i ∈ cronIds config := mem_cronIds.mpr ⟨pc, h1, by rw [h2]; rfl⟩
  have hmem : ∃ t, (t, i) ∈ c.timer ∧ t ≤ now := by
    obtain ⟨t1, k1, k2, -⟩ := Cron.nextExecution_spec hinv hi
    rw [hdue] at k2; cases k2
    exact ⟨t, k1, ht⟩
  clear hdue hb hp
  induction fuel generalizing c ids with
  | zero => intro h; unfold drain at h; cases h
  | succ fuel ih =>
    intro h
    unfold drain at h
    obtain ⟨⟨r, c1⟩, hpop, h⟩ := Res.bind_eq_ok.mp h
    cases r with
    | none =>
      obtain ⟨-, k⟩ := (Cron.popRunnable_spec hinv).1 c1 hpop
      obtain ⟨t1, k1, k2⟩ := hmem
      have := k _ k1
      simp only at this
      omega
    | some id =>
      obtain ⟨hinv', -, t0, td, v', t', rest, e1, e2, e3, e4, e5, e6, e7, e8⟩ :=
        (Cron.popRunnable_spec hinv).2.1 id c1 hpop
      obtain ⟨⟨ids', b, c2⟩, hd, he⟩ := Res.bind_eq_ok.mp h
      cases he
      refine ih _ hinv' ?_ hd
      obtain ⟨t1, k1, k2⟩ := hmem
      rw [e1] at k1
      rcases List.mem_cons.mp k1 with k1 | k1
      · cases k1
        refine ⟨t', e8.mem_iff.mpr (List.mem_cons_self ..), ?_⟩
        obtain ⟨pc', desc', g1, g2, g3⟩ := e4
        rw [h1] at g1; cases g1
        rw [h2] at g2; cases g2
        rw [h3] at g3; cases g3
        have := hv v' e5
        have : rest.length < (cronIds config).length := by
          have := hinv.perm.length_eq
          rw [e1] at this
          simp at this
          omega
        omega
      · exact ⟨t1, e8.mem_iff.mpr (List.mem_cons_of_mem _ k1), k2⟩

/-- In particular with a due job on a single weekday, once all its times of that day are over:
cinit polls until midnight. -/
theorem C29_weekday_partial {off : Int} {config : Config} {clock : List Int} {c0 c : Cron}
    {now t : Int} {i : Nat} {pc : ProcessConfig} {desc : Str} {s : Timer}
    (hb : buildCron (Zone.fixed off) config clock = .ok c0) (hp : Polls (Zone.fixed off) c0 c)
    (h1 : config.programs[i]? = some pc) (h2 : pc.ptype = .cronJob desc)
    (h3 : Timer.parse desc = .ok s) (hdue : c.nextExecution i = .ok t) (ht : t ≤ now)
    (hw : ∀ x, s.schedule.weekday x ↔ x = weekdayOf (dayOf (now + off)))
    (hover : ∀ h, s.schedule.hour h → ∀ m, s.schedule.minute m →
      wallAt (dayOf (now + off)) h m + config.programs.length ≤ now + off)
    (fuel : Nat) (ids : List Nat) (c' : Cron) :
    drain (Zone.fixed off) now fuel c ≠ .ok (ids, true, c') := by
  refine C29_endless_partial hb hp h1 h2 h3 hdue ht (fun v hnext => ?_) fuel ids c'
  have hs := ((parse_total desc).1 s h3).1
  have hno : ¬ now < v := by
    rw [C23_future_partial h3 hnext]
    exact fun h => h ⟨hw, fun h hh m hm => by have := hover h hh m hm; omega⟩
  obtain ⟨p, d, e1, -, e3, e4, e5⟩ := next_fixed hs hnext
  have hd : d = 0 := by
    have : ¬ now + off < wallAt (dayOf (now + off) + d) p.hour p.min := by rw [← e3]; omega
    rw [wall_lt_wallAt e4 e5] at this
    omega
  have := hover _ e1.hour_mem _ e1.min_mem
  rw [hd] at e3
  simp at e3
  omega

/-- The only program is a cronjob each Monday at noon (`0 12 * * 1`). -/
private def mondayConfig : Config :=
  ⟨[{ name := ['a'], ptype := .cronJob ['0', ' ', '1', '2', ' ', '*', ' ', '*', ' ', '1'] }]⟩

/-- Monday 2021-01-04, 12:00 -/
private def mondayNoon : Int := 18631 * nsDay + 12 * nsHour

private def mondayTimer : Timer := ⟨[0], [12], rangeIncl 1 31, rangeIncl 1 12, [1]⟩

private def mondayCron : Cron := ⟨[(0, mondayTimer)], [(mondayNoon, 0)]⟩

private theorem monday_built :
    buildCron (Zone.fixed 0) mondayConfig [mondayNoon - nsHour] = .ok mondayCron := by
  decide +kernel

private theorem monday_poll : mondayCron.popRunnable (Zone.fixed 0) (mondayNoon + 1) =
    .ok (some 0, mondayCron) := by
  decide +kernel

/-- C29 is false: one nanosecond past Monday noon, the job of each Monday noon is due, and it
is still due after having been handed out: cinit never leaves the loop (before the clock
reaches Tuesday). -/
theorem C29_violated : ¬ C29_statement := by
  intro h
  have hdrain : ∀ fuel, drain (Zone.fixed 0) (mondayNoon + 1) fuel mondayCron =
      .ok (List.replicate fuel 0, false, mondayCron) := by
    intro fuel
    induction fuel with
    | zero => rfl
    | succ n ih =>
      unfold drain
      rw [monday_poll, Res.bind_ok]
      simp only
      rw [ih]
      rfl
  obtain ⟨fuel, ids, c', h1, -⟩ := h (Zone.fixed 0) mondayConfig _ _ _ (mondayNoon + 1)
    monday_built (.refl _) (fun fuel q hq => by rw [hdrain] at hq; cases hq)
  rw [hdrain] at h1
  cases h1

/-- The hypotheses of `C29_weekday_partial`. -/
example : buildCron (Zone.fixed 0) mondayConfig [mondayNoon - nsHour] = .ok mondayCron ∧
    Timer.parse ['0', ' ', '1', '2', ' ', '*', ' ', '*', ' ', '1'] = .ok mondayTimer ∧
    mondayCron.nextExecution 0 = .ok mondayNoon ∧
    (∀ x, mondayTimer.schedule.weekday x ↔ x = weekdayOf (dayOf (mondayNoon + 1 + 0))) ∧
    (∀ h, mondayTimer.schedule.hour h → ∀ m, mondayTimer.schedule.minute m →
      wallAt (dayOf (mondayNoon + 1 + 0)) h m + mondayConfig.programs.length ≤
        mondayNoon + 1 + 0) ∧
    mondayTimer.next (Zone.fixed 0) (mondayNoon + 1) = .ok mondayNoon := by
  have hw : weekdayOf (dayOf (mondayNoon + 1 + 0)) = 1 := by decide +kernel
  refine ⟨monday_built, by decide +kernel, by decide +kernel, fun x => ?_, fun h hh m hm => ?_,
    by decide +kernel⟩
  · rw [hw]; exact List.mem_singleton
  · have : h = 12 := List.mem_singleton.mp hh
    have : m = 0 := List.mem_singleton.mp hm
    subst h m
    decide +kernel

/-! ## C51: bad expressions stop cinit with exit code 2 -/

/-- If cinit gives up building the scheduler, then with exit code 2, and because a cronjob's
expression is invalid. -/
theorem C51_cron_error {z : Zone} {config : Config} {clock : List Int} {e : Int}
    (h : buildCron z config clock = .err e) :
    e = 2 ∧ ∃ (id : Nat) (pc : ProcessConfig) (desc : Str) (msg : CronParseErr),
      config.programs[id]? = some pc ∧ pc.ptype = .cronJob desc ∧ Timer.parse desc = .err msg :=
  buildCron_err h

/-- If the scheduler is built, every cronjob's expression is valid. -/
theorem C51_cron_accepted {z : Zone} {config : Config} {clock : List Int} {c : Cron}
    (h : buildCron z config clock = .ok c) {id : Nat} {pc : ProcessConfig} {desc : Str}
    (hi : config.programs[id]? = some pc) (hd : pc.ptype = .cronJob desc) :
    ∃ td, Timer.parse desc = .ok td := by
  have inv := buildCron_inv h
  have hmem : id ∈ cronIds config := mem_cronIds.mpr ⟨pc, hi, by rw [hd]; rfl⟩
  obtain ⟨td, -, -, pc', desc', h1, h2, h3⟩ := inv.timers id hmem
  rw [hi] at h1
  cases h1
  rw [hd] at h2
  cases h2
  exact ⟨td, h3⟩

/-- A job with five missing fields: exit code 2. -/
example : buildCron (Zone.fixed 0)
    ⟨[{ name := ['a'] }, { name := ['b'], ptype := .cronJob ['5'] }]⟩ [0] = .err 2 := by
  decide +kernel

/-! ## Concrete cases -/

/-- Two jobs at the same time (`30 2 * * *`), and a program in between that is not a
cronjob. -/
private def twoJobs : Config :=
  ⟨[{ name := ['a'], ptype := .cronJob ['3', '0', ' ', '2', ' ', '*', ' ', '*', ' ', '*'] },
    { name := ['b'] },
    { name := ['c'], ptype := .cronJob ['3', '0', ' ', '2', ' ', '*', ' ', '*', ' ', '*'] }]⟩

/-- They are planned one nanosecond apart, and polling hands out both, once. -/
example : ∃ c, buildCron (Zone.fixed 0) twoJobs [18628 * nsDay, 18628 * nsDay] = .ok c ∧
    c.timer = [(18628 * nsDay + 2 * nsHour + 30 * nsMinute, 0),
      (18628 * nsDay + 2 * nsHour + 30 * nsMinute + 1, 2)] ∧
    ∃ c', drain (Zone.fixed 0) (18628 * nsDay + 3 * nsHour) 3 c = .ok ([0, 2], true, c') := by
  refine ⟨⟨[(2, ⟨[30], [2], rangeIncl 1 31, rangeIncl 1 12, rangeIncl 0 6⟩),
      (0, ⟨[30], [2], rangeIncl 1 31, rangeIncl 1 12, rangeIncl 0 6⟩)],
    [(18628 * nsDay + 2 * nsHour + 30 * nsMinute, 0),
      (18628 * nsDay + 2 * nsHour + 30 * nsMinute + 1, 2)]⟩, by decide +kernel, rfl,
    ⟨[(2, ⟨[30], [2], rangeIncl 1 31, rangeIncl 1 12, rangeIncl 0 6⟩),
      (0, ⟨[30], [2], rangeIncl 1 31, rangeIncl 1 12, rangeIncl 0 6⟩)],
    [(18629 * nsDay + 2 * nsHour + 30 * nsMinute, 0),
      (18629 * nsDay + 2 * nsHour + 30 * nsMinute + 1, 2)]⟩, by decide +kernel⟩

/-- The hypothesis of `C29_terminates_partial` for them. -/
example : ∀ (i : Nat) pc desc s, twoJobs.programs[i]? = some pc → pc.ptype = .cronJob desc →
    Timer.parse desc = .ok s →
    ∃ v, s.next (Zone.fixed 0) (18628 * nsDay + 3 * nsHour) = .ok v ∧
      18628 * nsDay + 3 * nsHour < v ∧ v + twoJobs.programs.length ≤ chronoMax := by
  intro i pc desc s h1 h2 h3
  have hp : Timer.parse ['3', '0', ' ', '2', ' ', '*', ' ', '*', ' ', '*'] =
      .ok ⟨[30], [2], rangeIncl 1 31, rangeIncl 1 12, rangeIncl 0 6⟩ := by decide +kernel
  have hn : Timer.next (Zone.fixed 0) ⟨[30], [2], rangeIncl 1 31, rangeIncl 1 12, rangeIncl 0 6⟩
      (18628 * nsDay + 3 * nsHour) = .ok (18629 * nsDay + 2 * nsHour + 30 * nsMinute) := by
    decide +kernel
  have hs : s = ⟨[30], [2], rangeIncl 1 31, rangeIncl 1 12, rangeIncl 0 6⟩ := by
    match i, h1 with
    | 0, h1 =>
      cases h1; cases h2; rw [hp] at h3; exact (Res.ok.inj h3).symm
    | 1, h1 => cases h1; cases h2
    | 2, h1 =>
      cases h1; cases h2; rw [hp] at h3; exact (Res.ok.inj h3).symm
    | i + 3, h1 => simp [twoJobs] at h1
  subst hs
  exact ⟨_, hn, by decide, by decide⟩

end Cinit.Props
