import Verif.Spec.Turns
import Verif.Props.Supervision
/-!
# Lemmas on the turns of cronjobs
-/

namespace Cinit

open Spec

/-- The first plans: each job is planned from its own reading of the clock. -/
theorem Cron.withJobs_plan {z : Zone} {jobs : List (Nat × ProcessConfig)} {c c' : Cron}
    {clock : List Int} (hs : Sorted c.timer) (h : withJobs z c jobs clock = .ok c') :
    c'.timer.length = c.timer.length + jobs.length ∧ (∀ e ∈ c.timer, e ∈ c'.timer) ∧
    ∀ (k id : Nat) (pc : ProcessConfig), jobs[k]? = some (id, pc) → ∃ desc td v t,
      pc.ptype = .cronJob desc ∧ Timer.parse desc = .ok td ∧
      td.next z (clock.getD k 0) = .ok v ∧ v ≤ t ∧ t ≤ v + (c.timer.length + k : Nat) ∧
      (t, id) ∈ c'.timer := by
  induction jobs generalizing c clock with
  | nil =>
    unfold withJobs at h
    cases h
    simp
  | cons job jobs ih =>
    obtain ⟨id, pc⟩ := job
    unfold withJobs at h
    split at h
    · rename_i desc hdesc
      obtain ⟨td, h1, h⟩ := Res.bind_eq_ok.mp h
      obtain ⟨v, h2, h⟩ := Res.bind_eq_ok.mp h
      obtain ⟨c1, h3, h⟩ := Res.bind_eq_ok.mp h
      have hp : Timer.parse desc = .ok td := by
        cases hq : Timer.parse desc <;> rw [hq] at h1 <;> simp [Res.mapErr] at h1
        rw [h1]
      obtain ⟨e1, e2, t, g1, g2, e3⟩ := insertJob_spec hs (lift_eq_ok.mp h3)
      obtain ⟨i1, i2, i3⟩ := ih (c := { c1 with timers := c1.timers.insert id td }) e2 h
      have hlen : c1.timer.length = c.timer.length + 1 := by rw [e3.length_eq]; rfl
      simp only at i1 i2 i3
      refine ⟨by rw [i1, hlen, List.length_cons]; omega, fun e he => i2 e ?_, ?_⟩
      · exact e3.mem_iff.mpr (List.mem_cons_of_mem _ he)
      · intro k id' pc' hk
        cases k with
        | zero =>
          cases hk
          refine ⟨desc, td, v, t, hdesc, hp, ?_, g1, by simpa using g2, i2 _ (e3.mem_iff.mpr (by simp))⟩
          have := lift_eq_ok.mp h2
          cases clock <;> exact this
        | succ k =>
          obtain ⟨desc', td', v', t', q1, q2, q3, q4, q5, q6⟩ := i3 k id' pc' (by simpa using hk)
          refine ⟨desc', td', v', t', q1, q2, ?_, q4, by rw [hlen] at q5; omega, q6⟩
          cases clock with
          | nil => exact q3
          | cons a clock => exact q3
    · cases h

theorem CfgType.isCron_eq (t : CfgType) : t.isCron = (match t with
    | .cronJob _ => true
    | _ => false) := by cases t <;> rfl

/-- The position of a cronjob among the cronjobs. -/
theorem cronPrograms_position {pcs : List ProcessConfig} {i k : Nat} {pc : ProcessConfig}
    (h : pcs[k]? = some pc) (hc : pc.ptype.isCron = true) :
    (cronPrograms i pcs)[cronjobs (pcs.take k)]? = some (i + k, pc) := by
  induction pcs generalizing i k with
  | nil => simp at h
  | cons p pcs ih =>
    cases k with
    | zero =>
      cases h
      simp [cronPrograms, hc, cronjobs]
    | succ k =>
      have hrec := ih (i := i + 1) (k := k) (by simpa using h)
      have hcount : cronjobs ((p :: pcs).take (k + 1)) =
          (if p.ptype.isCron then 1 else 0) + cronjobs (pcs.take k) := by
        unfold cronjobs
        rw [List.take_succ_cons, List.countP_cons, CfgType.isCron_eq p.ptype]
        exact Nat.add_comm _ _
      rw [hcount, show i + (k + 1) = i + 1 + k from by omega, cronPrograms]
      split
      · rw [Nat.add_comm 1]; exact hrec
      · rw [Nat.zero_add]; exact hrec

theorem cronPrograms_length {pcs : List ProcessConfig} {i : Nat} :
    (cronPrograms i pcs).length = cronjobs pcs := by
  induction pcs generalizing i with
  | nil => rfl
  | cons p pcs ih =>
    unfold cronPrograms
    have hcount : cronjobs (p :: pcs) = (if p.ptype.isCron then 1 else 0) + cronjobs pcs := by
      unfold cronjobs
      rw [List.countP_cons, CfgType.isCron_eq p.ptype]
      exact Nat.add_comm _ _
    rw [hcount]
    split
    · rw [List.length_cons, ih]; omega
    · rw [ih]; omega

theorem buildCron_withJobs {z : Zone} {config : Config} {clock : List Int} {c : Cron}
    (h : buildCron z config clock = .ok c) :
    Cron.withJobs z {} (cronPrograms 0 config.programs) clock = .ok c := by
  unfold buildCron at h
  cases hw : Cron.withJobs z {} (cronPrograms 0 config.programs) clock with
  | ok c' => rw [hw] at h; cases h; rfl
  | panic p => rw [hw] at h; cases h
  | err e =>
    rw [hw] at h
    cases e
    simp only at h
    split at h <;> cases h

/-- The plan of a job at the start. -/
theorem buildCron_plan {z : Zone} {config : Config} {clock : List Int} {c : Cron}
    (h : buildCron z config clock = .ok c) {i : Nat} {pc : ProcessConfig} {desc : Str} {td : Timer}
    (h1 : config.programs[i]? = some pc) (h2 : pc.ptype = .cronJob desc)
    (h3 : Timer.parse desc = .ok td) :
    ∃ v t, td.next z (firstReading config.programs clock i) = .ok v ∧ v ≤ t ∧
      t < v + cronjobs config.programs ∧ c.nextExecution i = .ok t := by
  have hinv := buildCron_inv h
  have hw := buildCron_withJobs h
  obtain ⟨-, -, hp⟩ := Cron.withJobs_plan (by exact List.Pairwise.nil) hw
  have hcron : pc.ptype.isCron = true := by rw [h2]; rfl
  have hpos := cronPrograms_position (i := 0) h1 hcron
  obtain ⟨desc', td', v, t, q1, q2, q3, q4, q5, q6⟩ := hp _ _ _ hpos
  rw [h2] at q1; cases q1
  rw [h3] at q2; cases q2
  rw [Nat.zero_add] at q6
  have hlt := (List.getElem?_eq_some_iff.mp hpos).1
  rw [cronPrograms_length] at hlt
  obtain ⟨t1, -, k2, k3⟩ := Cron.nextExecution_spec hinv (mem_cronIds.mpr ⟨pc, h1, hcron⟩)
  rw [← k3 t q6] at k2
  refine ⟨v, t, q3, q4, ?_, k2⟩
  simp only [List.length_nil, Nat.zero_add] at q5
  omega

theorem isTurn_iff {i : Nat} {e : Event} : isTurn i e = true ↔ attends i e := by
  cases e <;> simp [isTurn, attends]

end Cinit

namespace Cinit.Props

open Cinit Spec

variable {x : Machine} {config : Config} {m : Manager}

theorem timer_length {z : Zone} {clock : List Int} {c0 c : Cron}
    (hb : buildCron z config clock = .ok c0) (hp : Polls z c0 c) :
    c.timer.length = cronjobs config.programs := by
  have h0 : c0.timer.length = cronjobs config.programs := by
    rw [(Cron.withJobs_plan (by exact List.Pairwise.nil) (buildCron_withJobs hb)).1,
      cronPrograms_length]
    simp
  suffices hs : ∀ c, Polls z c0 c → c.Inv (CronTimer config) (cronIds config) by
    have := (hs c hp).perm.length_eq
    have h1 := (buildCron_inv hb).perm.length_eq
    simp only [List.length_map] at this h1
    omega
  intro c hp
  induction hp with
  | refl => exact buildCron_inv hb
  | @step c1 c2 now r h hp ih =>
    cases r with
    | none => rw [((Cron.popRunnable_spec ih).1 _ hp).1]; exact ih
    | some id => exact ((Cron.popRunnable_spec ih).2.1 _ _ hp).1

/-- In a history after which the clock has not just made the job due, the job is planned from its
last turn on; if the clock has just made it due, it is planned from this reading on. -/
theorem planned (h : x.manager config = .ok m) {l : Log}
    (hl : Always (Legal (x.setting config m)) l) {c : Cron}
    (hs : schedule x.env.zone m.cron l = some c) {i : Nat} {pc : ProcessConfig} {desc : Str}
    {s : Timer} (h1 : config.programs[i]? = some pc) (h2 : pc.ptype = .cronJob desc)
    (h3 : Timer.parse desc = .ok s) :
    ∃ u v t, s.next x.env.zone u = .ok v ∧ v ≤ t ∧ t < v + cronjobs config.programs ∧
      c.nextExecution i = .ok t ∧
      (Due x.env.zone m.cron i l → reading l = some u) ∧
      (¬ Due x.env.zone m.cron i l →
        u = lastTurn i (firstReading config.programs x.clock i) l) := by
  have hb := (Machine.manager_ok h).2.2.1
  have hcron : isCronjob config.programs i := ⟨pc, h1, desc, h2⟩
  have hid : i ∈ cronIds config := mem_cronIds.mpr ⟨pc, h1, by rw [h2]; rfl⟩
  induction l generalizing c with
  | nil =>
    cases hs
    obtain ⟨v, t, q1, q2, q3, q4⟩ := buildCron_plan hb h1 h2 h3
    refine ⟨_, v, t, q1, q2, q3, q4, ?_, fun _ => rfl⟩
    rintro ⟨t, past, c', c'', e, -⟩
    cases e
  | cons e l ih =>
    obtain ⟨⟨hleg, hsch, hdue⟩, hrule⟩ := hl.1
    have hother : (∀ t, e ≠ .clock t) → schedule x.env.zone m.cron l = some c →
        ∃ u v t, s.next x.env.zone u = .ok v ∧ v ≤ t ∧ t < v + cronjobs config.programs ∧
        c.nextExecution i = .ok t ∧
        (Due x.env.zone m.cron i (e :: l) → reading (e :: l) = some u) ∧
        (¬ Due x.env.zone m.cron i (e :: l) →
          u = lastTurn i (firstReading config.programs x.clock i) (e :: l)) := by
      intro hne hs'
      obtain ⟨u, v, t, q1, q2, q3, q4, q5, q6⟩ := ih hl.2 hs'
      refine ⟨u, v, t, q1, q2, q3, q4, ?_, fun _ => ?_⟩
      · rintro ⟨t, past, c', c'', he, -⟩
        cases he
        exact absurd rfl (hne t)
      · by_cases hd : Due x.env.zone m.cron i l
        · have := isTurn_iff.mpr (hdue i hd)
          rw [lastTurn, if_pos this, q5 hd]; rfl
        · have hno : isTurn i e ≠ true := by
            intro ht
            have ht := isTurn_iff.mp ht
            apply hd
            cases e with
            | spawned j p o r =>
              have hr : MayStart _ j l := hrule.1
              have : j = i := ht
              subst this
              exact hr.due hcron
            | spawnFailed j =>
              have hr : MayStart _ j l := hrule
              have : j = i := ht
              subst this
              exact hr.due hcron
            | refused j st =>
              have : j = i := ht
              subst this
              exact hrule.2.2.1
            | postponed j =>
              have : j = i := ht
              subst this
              exact hrule.2.1
            | _ => exact ht.elim
          rw [lastTurn, if_neg hno]
          exact q6 hd
    cases e with
    | clock t =>
      have hnd : ∀ j, ¬ Due x.env.zone m.cron j l := fun j hj => (hdue j hj).elim
      simp only [schedule] at hs
      cases hs' : schedule x.env.zone m.cron l with
      | none => rw [hs'] at hs; cases hs
      | some c1 =>
        rw [hs'] at hs
        simp only at hs
        cases hp : c1.popRunnable x.env.zone t with
        | err e => exact nomatch e
        | panic q => rw [hp] at hs; cases hs
        | ok r =>
          obtain ⟨o, c2⟩ := r
          rw [hp] at hs
          cases hs
          obtain ⟨u, v, t0, q1, q2, q3, q4, -, q6⟩ := ih hl.2 hs'
          have hpolls := schedule_polls hs'
          cases o with
          | none =>
            obtain ⟨rfl, -⟩ := C28_none hb hpolls hp
            refine ⟨u, v, t0, q1, q2, q3, q4, ?_, fun _ => ?_⟩
            · rintro ⟨t', past', c', c'', he, e2, e3⟩
              cases he
              rw [hs'] at e2; cases e2
              rw [hp] at e3; cases e3
            · rw [lastTurn, if_neg (by simp [isTurn])]
              exact q6 (hnd i)
          | some j =>
            obtain ⟨tj, g1, g2, g3, g4, pcj, dj, sj, vj, tj', k1, k2, k3, k4, k5, k6, k7⟩ :=
              C28_due hb hpolls hp
            rw [timer_length hb hpolls] at k7
            by_cases hij : j = i
            · subst hij
              rw [h1] at k1; cases k1
              rw [h2] at k2; cases k2
              rw [h3] at k3; cases k3
              refine ⟨t, vj, tj', k4, k6, k7, k5, fun _ => rfl, fun hn => absurd ?_ hn⟩
              exact ⟨t, l, c1, c2, rfl, hs', hp⟩
            · refine ⟨u, v, t0, q1, q2, q3, ?_, ?_, fun _ => ?_⟩
              · have hinv1 : c1.Inv (CronTimer config) (cronIds config) := by
                  exact polls_inv hpolls (buildCron_inv hb)
                have hinv2 : c2.Inv (CronTimer config) (cronIds config) := by
                  exact polls_inv (.step hpolls hp) (buildCron_inv hb)
                obtain ⟨a, a1, a2, a3⟩ := Cron.nextExecution_spec hinv1 hid
                obtain ⟨b, b1, b2, b3⟩ := Cron.nextExecution_spec hinv2 hid
                have := (g4 a i (fun e => hij e.symm)).mpr a1
                rw [b2, ← b3 a this, ← a2, q4]
              · rintro ⟨t', past', c', c'', he, e2, e3⟩
                cases he
                rw [hs'] at e2; cases e2
                rw [hp] at e3; cases e3
                exact absurd rfl hij
              · rw [lastTurn, if_neg (by simp [isTurn])]
                exact q6 (hnd i)
    | _ => exact hother (by simp) hs

end Cinit.Props
