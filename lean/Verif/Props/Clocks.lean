import Verif.Proofs.Clocks
import Verif.Props.CronSched
/-!
# C91-C93: cronjobs where the clock is changed

The next execution is computed by adding days of 24 hours to the present instant, then taking
the date shown at that instant. On the days on which the clock is changed this is not always
the date wanted.
-/

namespace Cinit.Props

open Cinit Spec

/-- The plan of a job at one time of every day. -/
theorem next_daily {src : Str} {s : Timer} {z : Zone} {t v : Int} {h0 m0 : Nat}
    (hp : Timer.parse src = .ok s) (hd : s.schedule.Daily h0 m0) (hn : s.next z t = .ok v) :
    h0 ≤ 23 ∧ m0 ≤ 59 ∧
    Timer.findValid z (wallAt (dayOf (z.wall
      (if z.wall t < wallAt (dayOf (z.wall t)) h0 m0 then t else t + nsDay))) h0 m0) 15841 0 =
      .ok v := by
  have hs := ((parse_total src).1 s hp).1
  obtain ⟨p, d, -, hps, e2, -, hv⟩ := next_ok hs hn
  have b1 := hs.hour.2.2 _ hps.hour_mem
  have b2 := hs.minute.2.2 _ hps.min_mem
  have hh : p.hour = h0 := (hd.hour _).mp hps.hour_mem
  have hm : p.min = m0 := (hd.minute _).mp hps.min_mem
  have hrel := (dateRelevant_iff hs).mpr ⟨hd.day, hd.month⟩
  have hd' : d = Timer.weekDuration (weekdayOf (dayOf (z.wall t))) p.weekday := by
    rcases planDays_total (z := z) (s := s) (t := t) (p := p) with ⟨-, q2⟩ | ⟨q1, -⟩
    · rw [q2] at e2; cases e2; rfl
    · rw [hrel] at q1; cases q1
  have wg := week_gap hs hps
  have hle : d ≤ 1 := by
    rcases Nat.lt_or_ge 1 d with h | h
    · exact absurd (hd.weekday _ (weekdayOf_le _)) (wg.1 1 (by omega) (by omega))
    · exact h
  rw [← hh, ← hm]
  refine ⟨b1, b2, ?_⟩
  rcases hps.carryHour_iff hs with ⟨hc, hnow⟩ | ⟨hc, hnow, -⟩
  · rw [if_pos hnow]
    have : d = 0 := by
      rcases Nat.eq_zero_or_pos d with h | h
      · exact h
      · have := wg.2 (by omega) (hd.weekday _ (weekdayOf_le _)); omega
    subst this
    simpa using hv
  · have hn' := hnow _ hps.hour_mem _ hps.min_mem
    rw [if_neg (by omega)]
    have : d = 1 := by
      rcases Nat.eq_zero_or_pos d with h | h
      · exfalso
        have hz := (weekDuration_zero (b := p.weekday) (weekdayOf_le (dayOf (z.wall t)))).mp
          (by omega)
        have hw := week_zero hps hc hz
        have h0 := (hw 0).mp (hd.weekday 0 (by omega))
        have h1 := (hw 1).mp (hd.weekday 1 (by omega))
        omega
      · omega
    subst this
    simpa using hv

/-! ## C91: jobs of every day are executed every day -/

/-- C91 as stated: where the clock is changed by no more than an hour, a job of every day is
planned for tomorrow at the latest. -/
def C91_statement : Prop :=
  ∀ (src : Str) (s : Timer) (z : Zone) (t v : Int) (h m : Nat), Timer.parse src = .ok s →
    s.schedule.Daily h m → WithinHour z t → s.next z t = .ok v →
    dayOf (z.wall v) ≤ dayOf (z.wall t) + 1

/-- C91, exactly what is computed once today's time is over: the first existing minute from the
job's time on, on the date shown 24 hours later. -/
theorem C91_day_partial {src : Str} {s : Timer} {z : Zone} {t v : Int} {h m : Nat}
    (hp : Timer.parse src = .ok s) (hd : s.schedule.Daily h m) (hn : s.next z t = .ok v)
    (hover : wallAt (dayOf (z.wall t)) h m ≤ z.wall t) :
    ∃ k : Nat, z.wall v = wallAt (dayOf (z.wall (t + nsDay))) h m + k * nsMinute ∧
      ∀ j : Nat, j < k → ∀ u, z.wall u ≠ wallAt (dayOf (z.wall (t + nsDay))) h m + j * nsMinute := by
  obtain ⟨-, -, hv⟩ := next_daily hp hd hn
  rw [if_neg (by omega)] at hv
  obtain ⟨k, -, -, h3, h4⟩ := findValid_ok hv
  exact ⟨k, h3, h4⟩

/-- C91, if today's time is not over yet: the job is planned for today, or, if its time does
not exist today, for the first existing minute after it. -/
theorem C91_today_partial {src : Str} {s : Timer} {z : Zone} {t v : Int} {h m : Nat}
    (hp : Timer.parse src = .ok s) (hd : s.schedule.Daily h m) (hn : s.next z t = .ok v)
    (hleft : z.wall t < wallAt (dayOf (z.wall t)) h m) :
    ∃ k : Nat, z.wall v = wallAt (dayOf (z.wall t)) h m + k * nsMinute ∧
      ∀ j : Nat, j < k → ∀ u, z.wall u ≠ wallAt (dayOf (z.wall t)) h m + j * nsMinute := by
  obtain ⟨-, -, hv⟩ := next_daily hp hd hn
  rw [if_pos hleft] at hv
  obtain ⟨k, -, -, h3, h4⟩ := findValid_ok hv
  exact ⟨k, h3, h4⟩

/-- C91, from one o'clock in the night to eleven in the evening: the job is executed today or
tomorrow at its time, if that exists then. Missing: the first and the last hour of a day, where
it is false (`C91_violated`, `C92_violated`). -/
theorem C91_daytime_partial {src : Str} {s : Timer} {z : Zone} {t v : Int} {h m : Nat}
    (hp : Timer.parse src = .ok s) (hd : s.schedule.Daily h m) (hw : WithinHour z t)
    (ht : Between 1 23 (z.wall t)) (hn : s.next z t = .ok v)
    (hex : ∀ n, ∃ u, z.wall u = wallAt n h m) :
    z.wall v = wallAt (if z.wall t < wallAt (dayOf (z.wall t)) h m then dayOf (z.wall t)
      else dayOf (z.wall t) + 1) h m := by
  have hr := dayRegular_of_daytime hw ht 1
  have key : ∀ n (k : Nat), z.wall v = wallAt n h m + k * nsMinute →
      (∀ j : Nat, j < k → ∀ u, z.wall u ≠ wallAt n h m + j * nsMinute) →
      z.wall v = wallAt n h m := by
    intro n k h1 h2
    rcases Nat.eq_zero_or_pos k with rfl | hk
    · simpa using h1
    · obtain ⟨u, hu⟩ := hex n
      exact absurd (by simpa using hu) (h2 0 hk u)
  split
  · obtain ⟨k, h1, h2⟩ := C91_today_partial hp hd hn (by assumption)
    exact key _ k h1 h2
  · obtain ⟨k, h1, h2⟩ := C91_day_partial hp hd hn (by omega)
    have : dayOf (z.wall (t + nsDay)) = dayOf (z.wall t) + 1 := by simpa using hr
    rw [this] at h1 h2
    exact key _ k h1 h2

/-- C91, how a day is left out: if 24 hours later it is two days later on the clock, no time of
tomorrow is planned. -/
theorem C91_skipped_partial {src : Str} {s : Timer} {z : Zone} {t v : Int} {h m : Nat}
    (hp : Timer.parse src = .ok s) (hd : s.schedule.Daily h m) (hn : s.next z t = .ok v)
    (hover : wallAt (dayOf (z.wall t)) h m ≤ z.wall t)
    (h2 : dayOf (z.wall (t + nsDay)) = dayOf (z.wall t) + 2) :
    dayOf (z.wall t) + 2 ≤ dayOf (z.wall v) := by
  obtain ⟨b1, b2, -⟩ := next_daily hp hd hn
  obtain ⟨k, h3, -⟩ := C91_day_partial hp hd hn hover
  rw [h2] at h3
  have h4 := dayOf_wallAt (n := dayOf (z.wall t) + 2) b1 b2
  rw [h3]
  unfold dayOf nsDay nsMinute at *
  omega

private def always : Timer := ⟨[], [], rangeIncl 1 31, rangeIncl 1 12, rangeIncl 0 6⟩

private theorem daily_always (h m : Nat) :
    ({ always with hour := [h], minute := [m] } : Timer).schedule.Daily h m where
  day _ a b := mem_rangeIncl.mpr ⟨a, b⟩
  month _ a b := mem_rangeIncl.mpr ⟨a, b⟩
  weekday _ a := mem_rangeIncl.mpr ⟨Nat.zero_le _, a⟩
  hour _ := List.mem_singleton
  minute _ := List.mem_singleton

/-- Central European time around Sunday 2021-03-28, when the clock went from 2 to 3. -/
private def spring : Zone := Zone.change (18714 * nsDay + nsHour) nsHour (2 * nsHour)

/-- Central European time around Sunday 2021-10-31, when the clock went from 3 to 2. -/
private def autumn : Zone := Zone.change (18931 * nsDay + nsHour) (2 * nsHour) nsHour

private theorem change_before {a b c t : Int} (h : t < a) : (Zone.change a b c).wall t = t + b :=
  if_pos h

private theorem change_after {a b c t : Int} (h : a ≤ t) : (Zone.change a b c).wall t = t + c :=
  if_neg (by omega)

private theorem change_withinHour {a b c t : Int} (h1 : b ≤ c + nsHour) (h2 : c ≤ b + nsHour) :
    WithinHour (Zone.change a b c) t := by
  intro u
  unfold nsHour at *
  simp only [offset, Zone.change]
  split <;> split <;> omega

/-- C91 is false: the job of every day at 23:30, run on Saturday 2021-03-27 in Central Europe,
is planned for Monday. -/
theorem C91_violated : ¬ C91_statement := by
  intro h
  have := h ['3', '0', ' ', '2', '3', ' ', '*', ' ', '*', ' ', '*']
    { always with hour := [23], minute := [30] } spring
    (18713 * nsDay + 22 * nsHour + 30 * nsMinute) (18715 * nsDay + 21 * nsHour + 30 * nsMinute)
    23 30 (by decide +kernel) (daily_always 23 30)
    (change_withinHour (by decide) (by decide)) (by decide +kernel)
  revert this
  decide +kernel

/-- The hypotheses of `C91_skipped_partial`, and that it is Saturday and Monday. -/
example : dayOf (spring.wall (18713 * nsDay + 22 * nsHour + 30 * nsMinute + nsDay)) =
      dayOf (spring.wall (18713 * nsDay + 22 * nsHour + 30 * nsMinute)) + 2 ∧
    weekdayOf (dayOf (spring.wall (18713 * nsDay + 22 * nsHour + 30 * nsMinute))) = 6 ∧
    weekdayOf (dayOf (spring.wall (18715 * nsDay + 21 * nsHour + 30 * nsMinute))) = 1 := by
  decide +kernel

/-- The hypotheses of `C91_daytime_partial`: noon of that Saturday, and the job at 20:15. -/
example : Between 1 23 (spring.wall (18713 * nsDay + 11 * nsHour)) ∧
    (∀ n : Int, ∃ u, spring.wall u = wallAt n 20 15) := by
  refine ⟨by unfold Between; decide +kernel, fun n => ?_⟩
  by_cases h : n ≤ 18713
  · refine ⟨wallAt n 20 15 - nsHour, ?_⟩
    rw [spring, change_before (by unfold wallAt nsDay nsHour nsMinute; omega)]
    omega
  · refine ⟨wallAt n 20 15 - 2 * nsHour, ?_⟩
    rw [spring, change_after (by unfold wallAt nsDay nsHour nsMinute; omega)]
    omega

/-! ## C92: cinit stays responsive when the clock is set back -/

/-- C92 as stated: where the clock is changed by no more than an hour and the jobs are not
restricted to a weekday (for those see C29), polling comes to an end. -/
def C92_statement : Prop :=
  ∀ (z : Zone) (config : Config) (clock : List Int) (c0 c : Cron) (now : Int),
    buildCron z config clock = .ok c0 → Polls z c0 c → WithinHour z now →
    (∀ (i : Nat) pc desc s, config.programs[i]? = some pc → pc.ptype = .cronJob desc →
      Timer.parse desc = .ok s → s.schedule.AnyWeekday ∧ ∃ v, s.next z now = .ok v) →
    ∃ fuel ids c', drain z now fuel c = .ok (ids, true, c')

/-- C92, what is needed: whole days advance the date, the clock does not show again what it has
shown before, and the job is not restricted to one weekday. Then the next execution is in the
future. -/
theorem C92_future_partial {src : Str} {s : Timer} {z : Zone} {t v : Int} {x y : Nat}
    (hp : Timer.parse src = .ok s) (hx : s.schedule.weekday x) (hy : s.schedule.weekday y)
    (hxy : x ≠ y) (hr : DayRegular z t) (hb : NotRepeating z t) (hn : s.next z t = .ok v) :
    t < v := by
  rw [next_regular hr] at hn
  obtain ⟨v0, h1, h2⟩ := Res.bind_eq_ok.mp hn
  have h3 := C23_two_weekdays_partial hp hx hy hxy h1
  obtain ⟨k, -, -, h4, -⟩ := findValid_ok h2
  rcases Int.lt_or_le t v with h | h
  · exact h
  · have := hb v h
    unfold offset nsMinute at *
    omega

/-- C92, from one o'clock in the night to eleven in the evening, unless the clock has been set
back before: polling comes to an end, and each job due is handed out once. -/
theorem C92_daytime_partial {z : Zone} {config : Config} {clock : List Int} {c0 c : Cron}
    {now : Int} (hb : buildCron z config clock = .ok c0) (hp : Polls z c0 c)
    (hw : WithinHour z now) (ht : Between 1 23 (z.wall now)) (hnr : NotRepeating z now)
    (hnext : ∀ (i : Nat) pc desc s, config.programs[i]? = some pc → pc.ptype = .cronJob desc →
      Timer.parse desc = .ok s → (∃ x y, x ≠ y ∧ s.schedule.weekday x ∧ s.schedule.weekday y) ∧
      ∃ v, s.next z now = .ok v ∧ v + config.programs.length ≤ chronoMax) :
    ∃ fuel ids c', drain z now fuel c = .ok (ids, true, c') ∧ ids.Nodup ∧
      ∀ i, i ∈ ids ↔ ∃ t, c.nextExecution i = .ok t ∧ t ≤ now := by
  obtain ⟨fuel, ids, c', h1, h2, h3, -⟩ := C29_terminates_partial hb hp
    (fun i pc desc s g1 g2 g3 => by
      obtain ⟨⟨x, y, e1, e2, e3⟩, v, e4, e5⟩ := hnext i pc desc s g1 g2 g3
      exact ⟨v, e4, C92_future_partial g3 e2 e3 e1 (dayRegular_of_daytime hw ht) hnr e4, e5⟩)
  exact ⟨fuel, ids, c', h1, h2, h3⟩

/-- C92, how cinit gets stuck: if 24 hours later it is still the same day on the clock, then a
job of every day that is due or has been executed today is planned for today again, and polling
never comes to an end. -/
theorem C92_endless_partial {z : Zone} {config : Config} {clock : List Int} {c0 c : Cron}
    {now t u : Int} {i h m : Nat} {pc : ProcessConfig} {desc : Str} {s : Timer}
    (hb : buildCron z config clock = .ok c0) (hp : Polls z c0 c)
    (h1 : config.programs[i]? = some pc) (h2 : pc.ptype = .cronJob desc)
    (h3 : Timer.parse desc = .ok s) (hd : s.schedule.Daily h m)
    (hdue : c.nextExecution i = .ok t) (ht : t ≤ now)
    (hday : dayOf (z.wall (now + nsDay)) = dayOf (z.wall now))
    (hf : FirstTaken z) (hu : z.wall u = wallAt (dayOf (z.wall now)) h m)
    (hun : u + config.programs.length ≤ now) (hover : wallAt (dayOf (z.wall now)) h m ≤ z.wall now)
    (fuel : Nat) (ids : List Nat) (c' : Cron) : drain z now fuel c ≠ .ok (ids, true, c') := by
  refine C29_endless_partial hb hp h1 h2 h3 hdue ht (fun v hnext => ?_) fuel ids c'
  obtain ⟨-, -, hv⟩ := next_daily h3 hd hnext
  rw [if_neg (by omega), hday] at hv
  obtain ⟨k, -, e2, e3, e4⟩ := findValid_ok hv
  have hk : k = 0 := by
    rcases Nat.eq_zero_or_pos k with hk | hk
    · exact hk
    · exact absurd (by simpa using hu) (e4 0 hk u)
  subst hk
  have := hf _ v u e2 (by simpa using hu)
  omega

/-- C92, the same for any job once the clock has been set back: if the reading planned for was
shown before, polling never comes to an end. -/
theorem C92_repeated_partial {z : Zone} {config : Config} {clock : List Int} {c0 c : Cron}
    {now t : Int} {i : Nat} {pc : ProcessConfig} {desc : Str} {s : Timer}
    (hb : buildCron z config clock = .ok c0) (hp : Polls z c0 c)
    (h1 : config.programs[i]? = some pc) (h2 : pc.ptype = .cronJob desc)
    (h3 : Timer.parse desc = .ok s) (hdue : c.nextExecution i = .ok t) (ht : t ≤ now)
    (hf : FirstTaken z)
    (hu : ∀ v, s.next z now = .ok v → ∃ u, z.wall u = z.wall v ∧ u + config.programs.length ≤ now)
    (fuel : Nat) (ids : List Nat) (c' : Cron) : drain z now fuel c ≠ .ok (ids, true, c') := by
  refine C29_endless_partial hb hp h1 h2 h3 hdue ht (fun v hnext => ?_) fuel ids c'
  have hs := ((parse_total _).1 _ h3).1
  obtain ⟨p, d, -, -, -, -, hv⟩ := next_ok hs hnext
  obtain ⟨k, -, e2, e3, -⟩ := findValid_ok hv
  obtain ⟨u, hu1, hu2⟩ := hu v hnext
  have := hf _ v u e2 (by omega)
  omega

theorem change_firstTaken {a b c : Int} (h : c ≤ b) : FirstTaken (Zone.change a b c) := by
  intro w v u h1 h2
  simp only [Zone.change] at h1 h2
  split at h1
  · cases h1
    split at h2 <;> omega
  · split at h1
    · cases h1
      split at h2 <;> omega
    · cases h1

/-- The only program is a cronjob each day at midnight (`0 0 * * *`). -/
private def midnightConfig : Config :=
  ⟨[{ name := ['a'], ptype := .cronJob ['0', ' ', '0', ' ', '*', ' ', '*', ' ', '*'] }]⟩

/-- Sunday 2021-10-31, 00:00 in Central Europe -/
private def midnight : Int := 18930 * nsDay + 22 * nsHour

private def midnightTimer : Timer := { always with hour := [0], minute := [0] }

private def midnightCron : Cron := ⟨[(0, midnightTimer)], [(midnight, 0)]⟩

private theorem midnight_built :
    buildCron autumn midnightConfig [midnight - nsHour] = .ok midnightCron := by
  decide +kernel

/-- C92 is false for a whole hour: with a job of every day at midnight, polling does not come
to an end on Sunday 2021-10-31 in Central Europe between midnight and one o'clock. -/
theorem C92_violated_hour {now : Int} (h1 : midnight < now) (h2 : now < midnight + nsHour)
    (fuel : Nat) (ids : List Nat) (c' : Cron) :
    drain autumn now fuel midnightCron ≠ .ok (ids, true, c') := by
  have hwall : autumn.wall now = now + 2 * nsHour := by
    rw [autumn, change_before (by unfold midnight nsHour nsDay at *; omega)]
  have hwall2 : autumn.wall (now + nsDay) = now + nsDay + nsHour := by
    rw [autumn, change_after (by unfold midnight nsHour nsDay at *; omega)]
  have hday : dayOf (autumn.wall now) = 18931 := by
    rw [hwall]; unfold dayOf midnight nsDay nsHour at *; omega
  have hday2 : dayOf (autumn.wall (now + nsDay)) = 18931 := by
    rw [hwall2]; unfold dayOf midnight nsDay nsHour at *; omega
  have hp : Timer.parse ['0', ' ', '0', ' ', '*', ' ', '*', ' ', '*'] = .ok midnightTimer := by
    decide +kernel
  have hover : wallAt 18931 0 0 ≤ autumn.wall now := by
    rw [hwall]; unfold wallAt midnight nsDay nsHour nsMinute at *; omega
  refine C92_endless_partial (c := midnightCron) (i := 0) (u := midnight) midnight_built (.refl _)
    rfl rfl hp (daily_always 0 0) (t := midnight) (by decide +kernel) (by omega)
    (by rw [hday, hday2]) (change_firstTaken (by decide)) ?_ ?_ ?_ fuel ids c'
  · rw [hday]; decide +kernel
  · show midnight + ((1 : Nat) : Int) ≤ now
    omega
  · rw [hday]; exact hover

/-- C92 is false. -/
theorem C92_violated : ¬ C92_statement := by
  intro h
  obtain ⟨fuel, ids, c', h1⟩ := h autumn midnightConfig [midnight - nsHour] midnightCron midnightCron
    (midnight + nsMinute) midnight_built (.refl _) (change_withinHour (by decide) (by decide))
    (fun i pc desc s g1 g2 g3 => by
      rcases i with _ | i
      · cases g1; cases g2
        have : Timer.parse ['0', ' ', '0', ' ', '*', ' ', '*', ' ', '*'] = .ok midnightTimer := by
          decide +kernel
        rw [this] at g3; cases g3
        exact ⟨(daily_always 0 0).weekday, midnight, by decide +kernel⟩
      · simp [midnightConfig] at g1)
  exact C92_violated_hour (by decide) (by decide) fuel ids c' h1

/-- The only program is a cronjob each ten minutes (`*/10 * * * *`). -/
private def tenConfig : Config :=
  ⟨[{ name := ['a'], ptype := .cronJob ['*', '/', '1', '0', ' ', '*', ' ', '*', ' ', '*', ' ', '*'] }]⟩

private def tenTimer : Timer :=
  { always with hour := rangeIncl 0 23, minute := [0, 10, 20, 30, 40, 50] }

/-- 2:15 for the second time on Sunday 2021-10-31 -/
private def again : Int := 18931 * nsDay + nsHour + 15 * nsMinute

/-- The hypotheses of `C92_repeated_partial`, and that C92 is false for cinit started in the hour
that comes for the second time: a job of every ten minutes is planned for 2:20, which was 55
minutes ago. -/
theorem C92_violated_start :
    buildCron autumn tenConfig [again] = .ok ⟨[(0, tenTimer)], [(again - 55 * nsMinute, 0)]⟩ ∧
    ∀ fuel ids c', drain autumn again fuel ⟨[(0, tenTimer)], [(again - 55 * nsMinute, 0)]⟩ ≠
      .ok (ids, true, c') := by
  have hb : buildCron autumn tenConfig [again] =
      .ok ⟨[(0, tenTimer)], [(again - 55 * nsMinute, 0)]⟩ := by decide +kernel
  refine ⟨hb, fun fuel ids c' => ?_⟩
  refine C92_repeated_partial (i := 0) (t := again - 55 * nsMinute) (s := tenTimer) hb (.refl _)
    rfl rfl (by decide +kernel) (by decide +kernel) (by decide) (change_firstTaken (by decide))
    (fun v hv => ?_) fuel ids c'
  have : tenTimer.next autumn again = .ok (again - 55 * nsMinute) := by decide +kernel
  rw [this] at hv; cases hv
  exact ⟨again - 55 * nsMinute, rfl, by decide +kernel⟩

/-- The hypotheses of `C92_daytime_partial`: at noon of the Saturday before. -/
example : buildCron autumn midnightConfig [midnight - nsHour] = .ok midnightCron ∧
    Between 1 23 (autumn.wall (18930 * nsDay + 10 * nsHour)) ∧
    NotRepeating autumn (18930 * nsDay + 10 * nsHour) ∧
    (∀ x, x ≤ 6 → midnightTimer.schedule.weekday x) ∧
    ∃ v, midnightTimer.next autumn (18930 * nsDay + 10 * nsHour) = .ok v ∧
      v + midnightConfig.programs.length ≤ chronoMax := by
  refine ⟨midnight_built, by unfold Between; decide +kernel, fun u hu => ?_,
    (daily_always 0 0).weekday, midnight, by decide +kernel, by decide +kernel⟩
  rw [autumn, change_before (by unfold nsDay nsHour at *; omega), change_before (by decide)]
  omega

/-! ## C93: jobs of every hour keep their pace -/

/-- C93 as stated: where the clock is changed by no more than an hour, a job of every hour is
executed whenever the clock shows one of its minutes. -/
def C93_statement : Prop :=
  ∀ (src : Str) (s : Timer) (z : Zone) (t v : Int), Timer.parse src = .ok s →
    s.schedule.Hourly → WithinHour z t → s.next z t = .ok v →
    ∀ u, t < u → u < v → ¬ s.schedule.Matches (z.wall u)

/-- For jobs of every hour and jobs of every day, on regular days: no matching local time
between the present one and the one planned for is shown by the clock. -/
theorem none_between {src : Str} {s : Timer} {z : Zone} {t v : Int}
    (hp : Timer.parse src = .ok s) (hk : s.schedule.Hourly ∨ ∃ h m, s.schedule.Daily h m)
    (hr : DayRegular z t) (hn : s.next z t = .ok v) {u : Int} (h1 : z.wall t < z.wall u)
    (h2 : z.wall u < z.wall v) : ¬ s.schedule.Matches (z.wall u) := by
  rw [next_regular hr] at hn
  obtain ⟨v0, e1, e2⟩ := Res.bind_eq_ok.mp hn
  obtain ⟨k, -, -, e3, e4⟩ := findValid_ok e2
  intro hmatch
  rcases Int.lt_or_le (z.wall u) (v0 + offset z t) with h | h
  · have hno : ¬ s.schedule.Matches (z.wall u - offset z t + offset z t) := by
      rcases hk with hk | ⟨h, m, hk⟩
      · exact C24_hourly_partial hp hk.day hk.month hk.weekday hk.hour e1
          (by unfold offset; omega) (by omega)
      · exact C24_one_time_partial hp hk.day hk.month hk.hour hk.minute e1
          (by unfold offset; omega) (by omega)
    exact hno (by rw [Int.sub_add_cancel]; exact hmatch)
  · -- both are whole minutes
    have hm := (C22_time_partial hp e1).1
    obtain ⟨n, a, b, -, -, hu, -⟩ := hmatch
    have hu' : z.wall u % nsMinute = 0 := by
      rw [hu]; unfold wallAt nsDay nsHour nsMinute; omega
    refine e4 ((z.wall u - (v0 + offset z t)) / nsMinute).toNat ?_ u ?_
    · unfold nsMinute at *; omega
    · unfold nsMinute at *; omega

/-- C93, and the same for jobs of every day, on days that are regular from now on: no execution
is left out, unless the clock is set back before the next one. Missing: clocks set back, for
which it is false (`C93_violated`). -/
theorem C93_steady_partial {src : Str} {s : Timer} {z : Zone} {t v : Int}
    (hp : Timer.parse src = .ok s) (hk : s.schedule.Hourly ∨ ∃ h m, s.schedule.Daily h m)
    (hr : DayRegular z t) (hn : s.next z t = .ok v) (hs : SteadyBetween z t v)
    {u : Int} (h1 : t < u) (h2 : u < v) : ¬ s.schedule.Matches (z.wall u) :=
  none_between hp hk hr hn (hs u h1 h2).1 (hs u h1 h2).2

/-- C93 where the clock is put forward, from one o'clock in the night to eleven in the
evening. -/
theorem C93_forward_partial {src : Str} {s : Timer} {z : Zone} {t v : Int}
    (hp : Timer.parse src = .ok s) (hk : s.schedule.Hourly ∨ ∃ h m, s.schedule.Daily h m)
    (hw : WithinHour z t) (ht : Between 1 23 (z.wall t)) (hb : NeverBack z)
    (hn : s.next z t = .ok v) {u : Int} (h1 : t < u) (h2 : u < v) :
    ¬ s.schedule.Matches (z.wall u) :=
  C93_steady_partial hp hk (dayRegular_of_daytime hw ht) hn
    (fun u h1 h2 => ⟨hb _ _ h1, hb _ _ h2⟩) h1 h2

/-- C93, what is left out when the clock is set back: times the clock has shown already. The
instant planned is the first one with its reading. -/
theorem C93_repeated_partial {src : Str} {s : Timer} {z : Zone} {t v : Int}
    (hp : Timer.parse src = .ok s) (hk : s.schedule.Hourly ∨ ∃ h m, s.schedule.Daily h m)
    (hr : DayRegular z t) (hf : FirstTaken z) (hn : s.next z t = .ok v) :
    (∀ u, z.wall u = z.wall v → v ≤ u) ∧
    ∀ u, u < v → s.schedule.Matches (z.wall u) → z.wall u ≤ z.wall t ∨ z.wall v < z.wall u := by
  have hfirst : ∀ u, z.wall u = z.wall v → v ≤ u := by
    have hn' := hn
    rw [next_regular hr] at hn'
    obtain ⟨v0, -, e2⟩ := Res.bind_eq_ok.mp hn'
    obtain ⟨k, -, e3, e4, -⟩ := findValid_ok e2
    intro u hu
    exact hf _ v u e3 (by omega)
  refine ⟨hfirst, fun u h2 hm => ?_⟩
  rcases Int.lt_or_le (z.wall t) (z.wall u) with a | a
  · rcases Int.lt_trichotomy (z.wall u) (z.wall v) with b | b | b
    · exact absurd hm (none_between hp hk hr hn a b)
    · have := hfirst u b; omega
    · right; exact b
  · left; exact a

/-- C93 is false: the job of every ten minutes, executed at 2:50 on Sunday 2021-10-31 in Central
Europe, is planned for 3:00, 70 minutes later. -/
theorem C93_violated : ¬ C93_statement := by
  intro h
  refine h ['*', '/', '1', '0', ' ', '*', ' ', '*', ' ', '*', ' ', '*']
    tenTimer autumn
    (18931 * nsDay + 50 * nsMinute) (18931 * nsDay + 2 * nsHour) (by decide +kernel)
    ⟨(daily_always 0 0).day, (daily_always 0 0).month, (daily_always 0 0).weekday,
      fun _ a => mem_rangeIncl.mpr ⟨Nat.zero_le _, a⟩⟩
    (change_withinHour (by decide) (by decide)) (by decide +kernel)
    (18931 * nsDay + 60 * nsMinute) (by decide) (by decide) ?_
  refine ⟨18931, 2, 0, by decide, by decide, by decide +kernel, ?_, ?_, ?_⟩
  · exact mem_rangeIncl.mpr ⟨by decide, by decide⟩
  · exact List.mem_cons_self ..
  · exact ⟨mem_rangeIncl.mpr (by decide +kernel), .inl ⟨(daily_always 0 0).day,
      (daily_always 0 0).weekday⟩⟩

/-- The hypotheses of `C93_repeated_partial`: a minute before, the day is regular. -/
example : DayRegular autumn (18931 * nsDay + 50 * nsMinute) ∧ FirstTaken autumn :=
  ⟨dayRegular_of_daytime (change_withinHour (by decide) (by decide))
    (by unfold Between; decide +kernel), change_firstTaken (by decide)⟩

/-- The hypotheses of `C93_forward_partial`: 1:50 on Sunday 2021-03-28, ten minutes before the
clock is put forward, with a job of every ten minutes. -/
example : tenTimer.next spring (18714 * nsDay + 50 * nsMinute) = .ok (18714 * nsDay + 60 * nsMinute) ∧
    Between 1 23 (spring.wall (18714 * nsDay + 50 * nsMinute)) ∧ NeverBack spring := by
  refine ⟨by decide +kernel, by unfold Between; decide +kernel, fun a b h => ?_⟩
  simp only [spring, Zone.change]
  unfold nsHour nsDay
  split <;> split <;> omega

end Cinit.Props
