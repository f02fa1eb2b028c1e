import Verif.Proofs.Turns
import Verif.Props.CronExact
import Verif.Props.Ending
/-!
# C96: cronjobs run when their expressions say

`x.env.zone = Zone.fixed off`: the wall clock is ahead of UTC by `off`, always. The readings of the
clock may be anything; they need not ascend.
-/

namespace Cinit.Props

open Cinit Spec

variable {x : Machine} {config : Config} {m : Manager}

/-- The job `i` has the expression `desc`, read as `s`. -/
structure Job (config : Config) (i : Nat) (s : Timer) : Prop where
  of : ∃ pc desc, config.programs[i]? = some pc ∧ pc.ptype = .cronJob desc ∧
    Timer.parse desc = .ok s

theorem Job.cronjob {i : Nat} {s : Timer} (hj : Job config i s) : isCronjob config.programs i := by
  obtain ⟨pc, desc, h1, h2, -⟩ := hj.of
  exact ⟨pc, h1, desc, h2⟩

/-- C96: every cronjob that has been accepted has an expression that has been read. -/
theorem job_exists (h : x.manager config = .ok m) {i : Nat} (hc : isCronjob config.programs i) :
    ∃ s, Job config i s := by
  obtain ⟨pc, h1, desc, h2⟩ := hc
  have hinv := buildCron_inv (Machine.manager_ok h).2.2.1
  obtain ⟨td, -, -, pc', desc', g1, g2, g3⟩ :=
    hinv.timers i (mem_cronIds.mpr ⟨pc, h1, by rw [h2]; rfl⟩)
  exact ⟨td, ⟨pc', desc', g1, g2, g3⟩⟩

/-- Every turn of a cronjob directly follows a reading of the clock, at or after the instant
computed from the turn before. -/
theorem turn_next (h : x.manager config = .ok m) {i : Nat} {s : Timer} (hj : Job config i s)
    {e : Event} {past : Log} (he : Happened (x.loop m).log e past) (ht : isTurn i e = true) :
    ∃ t past' v, past = .clock t :: past' ∧ v ≤ t ∧
      s.next x.env.zone (lastTurn i (firstReading config.programs x.clock i) past') = .ok v := by
  have hcron := hj.cronjob
  have ht' := isTurn_iff.mp ht
  have hdue : Due x.env.zone m.cron i past := by
    have hrule := rule h he
    cases e with
    | spawned j p o r =>
      have hr : MayStart (x.setting config m) j past := hrule.1
      have : j = i := ht'
      subst this
      exact hr.due hcron
    | spawnFailed j =>
      have hr : MayStart (x.setting config m) j past := hrule
      have : j = i := ht'
      subst this
      exact hr.due hcron
    | refused j st =>
      have : j = i := ht'
      subst this
      exact hrule.2.2.1
    | postponed j =>
      have : j = i := ht'
      subst this
      exact hrule.2.1
    | _ => exact ht'.elim
  obtain ⟨t, past', c, c', rfl, h2, h3⟩ := hdue
  have hl : Always (Legal (x.setting config m)) (.clock t :: past') := before h he
  obtain ⟨t0, g1, g2, -⟩ := C28_due (Machine.manager_ok h).2.2.1 (schedule_polls h2) h3
  obtain ⟨pc, desc, j1, j2, j3⟩ := hj.of
  obtain ⟨u, v, t1, q1, q2, q3, q4, -, q6⟩ := planned h hl.2 h2 j1 j2 j3
  have hnd : ¬ Due x.env.zone m.cron i past' := fun hd => (hl.1.1.2.2 i hd).elim
  rw [g1] at q4
  cases q4
  exact ⟨t, past', v, rfl, by omega, q6 hnd ▸ q1⟩

/-- Whenever cinit waits for something to happen and is not shutting down, it has just read the
clock, and the instant computed from the last turn of a cronjob is not over (up to some
nanoseconds). -/
theorem wait_next (h : x.manager config = .ok m) {past : Log}
    (he : Happened (x.loop m).log .polling past) (hs : ¬ ShuttingDown config.programs past) :
    ∃ t past', past = .clock t :: past' ∧ ∀ i s, Job config i s →
      ∃ v, s.next x.env.zone (lastTurn i (firstReading config.programs x.clock i) past) = .ok v ∧
        t < v + cronjobs config.programs := by
  obtain ⟨t, past', c, h1, h2, h3⟩ := C60_none_overlooked h he hs
  refine ⟨t, past', h1, fun i s hj => ?_⟩
  obtain ⟨t0, g1, g2⟩ := h3 i hj.cronjob
  obtain ⟨pc, desc, j1, j2, j3⟩ := hj.of
  obtain ⟨u, v, t1, q1, q2, q3, q4, -, q6⟩ := planned h (before h he) h2 j1 j2 j3
  rw [g1] at q4
  cases q4
  refine ⟨v, ?_, by omega⟩
  rw [← q6]
  · exact q1
  · intro hd
    have hleg := (he.always (Machine.loop_legal h)).1
    exact (hleg.1.2.2 i hd).elim

/-- C96, for every expression: a cronjob is started (or it is said why not) only right after a
reading `t` of the clock, at or after the instant aimed at from the job's last turn on. -/
theorem C96_turn {off : Int} (hz : x.env.zone = Zone.fixed off) (h : x.manager config = .ok m)
    {i : Nat} {s : Timer} (hj : Job config i s) {e : Event} {past : Log}
    (he : Happened (x.loop m).log e past) (ht : isTurn i e = true) :
    ∃ t past' v, past = .clock t :: past' ∧ v ≤ t ∧
      s.schedule.Aimed off (lastTurn i (firstReading config.programs x.clock i) past') v := by
  obtain ⟨t, past', v, h1, h2, h3⟩ := turn_next h hj he ht
  obtain ⟨pc, desc, -, -, j3⟩ := hj.of
  rw [hz] at h3
  exact ⟨t, past', v, h1, h2, C22_computed_partial j3 h3⟩

/-- C96, for every expression: whenever cinit waits for something to happen and is not shutting
down, it has just read the clock, and has not passed the instant aimed at from the last turn of
any cronjob on by more nanoseconds than there are cronjobs. -/
theorem C96_wait {off : Int} (hz : x.env.zone = Zone.fixed off) (h : x.manager config = .ok m)
    {past : Log} (he : Happened (x.loop m).log .polling past)
    (hs : ¬ ShuttingDown config.programs past) :
    ∃ t past', past = .clock t :: past' ∧ ∀ i s, Job config i s →
      ∃ v, s.schedule.Aimed off (lastTurn i (firstReading config.programs x.clock i) past) v ∧
        t < v + cronjobs config.programs := by
  obtain ⟨t, past', h1, h2⟩ := wait_next h he hs
  refine ⟨t, past', h1, fun i s hj => ?_⟩
  obtain ⟨v, g1, g2⟩ := h2 i s hj
  obtain ⟨pc, desc, -, -, j3⟩ := hj.of
  rw [hz] at g1
  exact ⟨v, C22_computed_partial j3 g1, g2⟩

/-- C96: the planned execution in a status report is the instant aimed at from the last turn of the
job on, moved by fewer nanoseconds than there are cronjobs. -/
theorem C96_report {off : Int} (hz : x.env.zone = Zone.fixed off) (h : x.manager config = .ok m)
    {text : Str} {past : Log} (he : Happened (x.loop m).log (.report text) past) :
    ∃ shown plan, text = unlines ("programs:".toList ::
        (enumerate config.programs).flatMap fun p =>
          reportLines config.programs past shown plan p.1 p.2.name) ∧
      ∀ i s, Job config i s → ∃ v t,
        s.schedule.Aimed off (lastTurn i (firstReading config.programs x.clock i) past) v ∧
        v ≤ t ∧ t < v + cronjobs config.programs ∧ plan i = x.env.rfc3339 t := by
  obtain ⟨shown, plan, h1, -, h3⟩ := rule h he
  refine ⟨shown, plan, h1, fun i s hj => ?_⟩
  obtain ⟨c, t, g1, g2, g3⟩ := h3 i hj.cronjob
  obtain ⟨pc, desc, j1, j2, j3⟩ := hj.of
  obtain ⟨u, v, t1, q1, q2, q3, q4, -, q6⟩ := planned h (before h he) g1 j1 j2 j3
  rw [g2] at q4
  cases q4
  refine ⟨v, t, ?_, q2, q3, g3⟩
  have hnd : ¬ Due x.env.zone m.cron i past := fun hd =>
    ((he.always (Machine.loop_legal h)).1.1.2.2 i hd).elim
  rw [← q6 hnd]
  rw [hz] at q1
  exact C22_computed_partial j3 q1

/-- C96 in full: a cronjob has a turn only if an instant matching its expression is over since its
last turn, and when cinit waits, the job has had a turn since each matching instant (apart from
some nanoseconds). -/
def C96_statement : Prop :=
  ∀ (x : Machine) (config : Config) (m : Manager) (off : Int), x.env.zone = Zone.fixed off →
    x.manager config = .ok m → ∀ i s, Job config i s →
    (∀ e past, Happened (x.loop m).log e past → isTurn i e = true →
      ∃ t past' u, past = .clock t :: past' ∧
        lastTurn i (firstReading config.programs x.clock i) past' < u ∧ u ≤ t ∧
        s.schedule.Matches (u + off)) ∧
    (∀ past, Happened (x.loop m).log .polling past → ¬ ShuttingDown config.programs past →
      ∃ t past', past = .clock t :: past' ∧ ∀ u, s.schedule.Matches (u + off) →
        u + cronjobs config.programs ≤ t →
        u ≤ lastTurn i (firstReading config.programs x.clock i) past)

/-- C96, first half, for expressions that restrict the month or the weekday but not both, and list
at least two weekdays (for example `*`): a cronjob has a turn only if a matching instant is over
since its last turn. For other expressions it is false, see C22 and C23. -/
theorem C96_matching_partial {off : Int} (hz : x.env.zone = Zone.fixed off)
    (h : x.manager config = .ok m) {i : Nat} {s : Timer} (hj : Job config i s)
    (hm : s.schedule.AnyWeekday ∨ s.schedule.AnyMonth) {a b : Nat} (ha : s.schedule.weekday a)
    (hb : s.schedule.weekday b) (hab : a ≠ b) {e : Event} {past : Log}
    (he : Happened (x.loop m).log e past) (ht : isTurn i e = true) :
    ∃ t past' u, past = .clock t :: past' ∧
      lastTurn i (firstReading config.programs x.clock i) past' < u ∧ u ≤ t ∧
      s.schedule.Matches (u + off) := by
  obtain ⟨t, past', v, h1, h2, h3⟩ := turn_next h hj he ht
  obtain ⟨pc, desc, -, -, j3⟩ := hj.of
  rw [hz] at h3
  exact ⟨t, past', v, h1, C23_two_weekdays_partial j3 ha hb hab h3, h2, C22_match_partial j3 hm h3⟩

/-- C96, second half, for jobs of every hour of every day (at any set of minutes) and for jobs at
one time of the day (on any set of weekdays): when cinit waits, the job has had a turn since each
matching instant, apart from the last few nanoseconds. For other expressions it is false, see
C24. -/
theorem C96_none_missed_partial {off : Int} (hz : x.env.zone = Zone.fixed off)
    (h : x.manager config = .ok m) {i : Nat} {s : Timer} (hj : Job config i s)
    (hd : s.schedule.AnyDay) (hmo : s.schedule.AnyMonth)
    (hclass : (s.schedule.AnyWeekday ∧ ∀ h, h ≤ 23 → s.schedule.hour h) ∨
      ∃ h0 m0, (∀ h, s.schedule.hour h ↔ h = h0) ∧ ∀ m, s.schedule.minute m ↔ m = m0)
    {past : Log} (he : Happened (x.loop m).log .polling past)
    (hs : ¬ ShuttingDown config.programs past) :
    ∃ t past', past = .clock t :: past' ∧ ∀ u, s.schedule.Matches (u + off) →
      u + cronjobs config.programs ≤ t →
      u ≤ lastTurn i (firstReading config.programs x.clock i) past := by
  obtain ⟨t, past', h1, h2⟩ := wait_next h he hs
  refine ⟨t, past', h1, fun u hu hle => ?_⟩
  obtain ⟨v, g1, g2⟩ := h2 i s hj
  obtain ⟨pc, desc, -, -, j3⟩ := hj.of
  rw [hz] at g1
  apply Int.not_lt.mp
  intro hlt
  rcases hclass with ⟨hw, hh⟩ | ⟨h0, m0, hh, hmi⟩
  · exact C24_hourly_partial j3 hd hmo hw hh g1 hlt (by omega) hu
  · exact C24_one_time_partial j3 hd hmo hh hmi g1 hlt (by omega) hu

/-- The job of the run `three_ends`. -/
def everyMinute : Timer :=
  ⟨rangeIncl 0 59, rangeIncl 0 23, rangeIncl 1 31, rangeIncl 1 12, rangeIncl 0 6⟩

/-- Witnesses for all of these: the cronjob of `three_ends` meets the conditions on expressions,
has turns, cinit waits, and there is a report. Its second turn follows its first, which the clock
showed as 61 s. -/
example : Job three 2 everyMinute :=
  ⟨_, _, rfl, rfl, by decide +kernel⟩

example : everyMinute.schedule.AnyDay ∧ everyMinute.schedule.AnyMonth ∧
    everyMinute.schedule.AnyWeekday ∧ (∀ h, h ≤ 23 → everyMinute.schedule.hour h) ∧
    everyMinute.schedule.weekday 0 ∧ everyMinute.schedule.weekday 1 := by
  refine ⟨fun v h1 h2 => ?_, fun v h1 h2 => ?_, fun v h2 => ?_, fun v h2 => ?_, ?_, ?_⟩
  · exact (show ∀ v, v ≤ 31 → 1 ≤ v → v ∈ rangeIncl 1 31 by decide) v h2 h1
  · exact (show ∀ v, v ≤ 12 → 1 ≤ v → v ∈ rangeIncl 1 12 by decide) v h2 h1
  · exact (show ∀ v, v ≤ 6 → v ∈ rangeIncl 0 6 by decide) v h2
  · exact (show ∀ v, v ≤ 23 → v ∈ rangeIncl 0 23 by decide) v h2
  · exact (show 0 ∈ rangeIncl 0 6 by decide)
  · exact (show 1 ∈ rangeIncl 0 6 by decide)

example : (machine threeAnswers).env.zone = Zone.fixed 0 ∧
    threeLog = threeLog.take 30 ++ .spawned 2 12 26 27 :: .clock 125_000_000_000 :: threeLog.drop 32 ∧
    lastTurn 2 (firstReading three.programs (machine threeAnswers).clock 2) (threeLog.drop 32) =
      61_000_000_000 :=
  ⟨rfl, by decide +kernel, by decide +kernel⟩

example : ∃ later past, threeLog = later ++ .polling :: .clock 126_000_000_000 :: past :=
  ⟨threeLog.take 26, threeLog.drop 28, by decide +kernel⟩

example : .report threeReport ∈ threeLog := by decide +kernel

/-- `0,30 14 * * *` -/
def halfHours : Config :=
  ⟨[prog 'c' (.cronJob ['0', ',', '3', '0', ' ', '1', '4', ' ', '*', ' ', '*', ' ', '*'])]⟩

def halfHoursTimer : Timer := ⟨[0, 30], [14], rangeIncl 1 31, rangeIncl 1 12, rangeIncl 0 6⟩

/-- The clock is read at 14:10. -/
theorem halfHours_waits : Ends
    (machine [.setup true, .now (14 * nsHour + 10 * nsMinute)]) halfHours
    (.unfinished [.polling, .clock (14 * nsHour + 10 * nsMinute)]) :=
  Res.of_check (by decide +kernel)

/-- C96 is false: at 14:10 the job of 14:00 has not been executed. -/
theorem C96_violated : ¬ C96_statement := by
  intro hst
  obtain ⟨m, h1, h2⟩ := halfHours_waits.log
  have hj : Job halfHours 0 halfHoursTimer := ⟨_, _, rfl, rfl, by decide +kernel⟩
  obtain ⟨-, hw⟩ := hst _ _ m 0 rfl h1 0 _ hj
  have hns : ¬ ShuttingDown halfHours.programs [.clock (14 * nsHour + 10 * nsMinute)] := by
    rintro (hs | ⟨j, hs⟩)
    · simp [Asked] at hs
    · obtain ⟨e, past, ⟨later, hh⟩, p, rc, who, rfl, -⟩ := sometime_happened.mp hs
      have : Event.waited p rc who ∈ [Event.clock (14 * nsHour + 10 * nsMinute)] := by
        rw [hh]; simp
      simp at this
  obtain ⟨t, past', g1, g2⟩ := hw _ ⟨[], h2⟩ hns
  cases g1
  have hwf : Timer.WF halfHoursTimer :=
    ((parse_total _).1 _ (show Timer.parse
      ['0', ',', '3', '0', ' ', '1', '4', ' ', '*', ' ', '*', ' ', '*'] = .ok halfHoursTimer by
        decide +kernel)).1
  have hmatch : halfHoursTimer.schedule.Matches (14 * nsHour + 0) := by
    refine ⟨0, 14, 0, by decide, by decide, by decide, List.mem_cons_self .., List.mem_cons_self .., ?_⟩
    refine (codeDay_iff hwf (.inl ?_) _).mp (.inl ⟨by decide, by decide +kernel⟩)
    exact (weekdayRelevant_iff hwf).mp (by decide)
  have := g2 _ hmatch (by decide)
  revert this
  decide

end Cinit.Props
