import Verif.Proofs.CronNext
/-!
# C22-C26: the next execution of a cronjob

`Timer.parse src = .ok s` says that the expression was accepted. `Zone.fixed off` is the
clock of a zone with a fixed offset; `t + off` is the local time at the instant `t`.
-/

namespace Cinit.Props

open Cinit Spec

/-! ## C22: scheduled instants match -/

/-- C22 as stated. -/
def C22_statement : Prop :=
  ∀ (src : Str) (s : Timer) (off t v : Int), Timer.parse src = .ok s →
    s.next (Zone.fixed off) t = .ok v → s.schedule.Matches (v + off)

/-- C22, time of day, for all expressions: the instant is a full minute, and hour and minute
are listed. -/
theorem C22_time_partial {src : Str} {s : Timer} {off t v : Int}
    (hp : Timer.parse src = .ok s) (hn : s.next (Zone.fixed off) t = .ok v) :
    (v + off) % nsMinute = 0 ∧ s.schedule.hour (hourOf (v + off)) ∧
      s.schedule.minute (minuteOf (v + off)) := by
  have hs := ((parse_total src).1 s hp).1
  obtain ⟨p, d, h1, -, h3, h4, h5⟩ := next_fixed hs hn
  rw [h3, hourOf_wallAt h4 h5, minuteOf_wallAt h5]
  refine ⟨?_, h1.hour_mem, h1.min_mem⟩
  unfold wallAt nsDay nsHour nsMinute
  omega

/-- C22 for all expressions in which the weekday or the month is unrestricted: the instant
matches in every respect. Missing: expressions restricting both month and weekday, for which
it is false (`C22_violated`). -/
theorem C22_match_partial {src : Str} {s : Timer} {off t v : Int}
    (hp : Timer.parse src = .ok s) (hm : s.schedule.AnyWeekday ∨ s.schedule.AnyMonth)
    (hn : s.next (Zone.fixed off) t = .ok v) : s.schedule.Matches (v + off) := by
  have hs := ((parse_total src).1 s hp).1
  obtain ⟨p, d, h1, h2, h3, h4, h5⟩ := next_fixed hs hn
  refine ⟨_, _, _, by omega, by omega, h3, h1.hour_mem, h1.min_mem, ?_⟩
  exact (codeDay_iff hs hm _).mp (planDays_codeDay hs (dayRegular_fixed off t) h1 h2)

/-- C22 for the remaining expressions: the instant's date has both a listed day and a listed
month, or it has a listed weekday (in whatever month). -/
theorem C22_day_partial {src : Str} {s : Timer} {off t v : Int}
    (hp : Timer.parse src = .ok s) (hn : s.next (Zone.fixed off) t = .ok v) :
    (s.schedule.day (civil (dayOf (v + off))).day ∧
      s.schedule.month (civil (dayOf (v + off))).month) ∨
    s.schedule.weekday (weekdayOf (dayOf (v + off))) := by
  have hs := ((parse_total src).1 s hp).1
  obtain ⟨p, d, h1, h2, h3, h4, h5⟩ := next_fixed hs hn
  rw [h3, dayOf_wallAt h4 h5]
  rcases planDays_codeDay hs (dayRegular_fixed off t) h1 h2 with ⟨-, h⟩ | ⟨-, h | ⟨-, h⟩⟩
  · right; exact h
  · left; exact h
  · right; exact h

/-- `0 0 1 6 1` -/
private def exprJuneMonday : Str := ['0', ' ', '0', ' ', '1', ' ', '6', ' ', '1']

/-- 2021-01-01T00:00:00Z, a Friday -/
private def newYear2021 : Int := 18628 * nsDay

/-- C22 is false: `0 0 1 6 1` (midnight, on June 1st and on Mondays in June) fires on
Monday, January 4th. -/
theorem C22_violated : ¬ C22_statement := by
  intro h
  have := h exprJuneMonday ⟨[0], [0], [1], [6], [1]⟩ 0 newYear2021 (18631 * nsDay)
    (by decide +kernel) (by decide +kernel)
  obtain ⟨n, h, m, hh, hm, he, -, -, hd, -⟩ := this
  have hday : dayOf (18631 * nsDay + 0) = n := by rw [he]; exact dayOf_wallAt (by omega) (by omega)
  subst hday
  revert hd
  show ¬ ((civil (dayOf (18631 * nsDay + 0))).month ∈ [6])
  decide +kernel

/-! ## C23: scheduled instants lie in the future -/

/-- C23 as stated. -/
def C23_statement : Prop :=
  ∀ (src : Str) (s : Timer) (off t v : Int), Timer.parse src = .ok s →
    s.next (Zone.fixed off) t = .ok v → t < v

/-- C23, exactly: the computed instant is in the future, unless today's weekday is the only
one listed and all listed times of today are over. -/
theorem C23_future_partial {src : Str} {s : Timer} {off t v : Int}
    (hp : Timer.parse src = .ok s) (hn : s.next (Zone.fixed off) t = .ok v) :
    t < v ↔ ¬ ((∀ x, s.schedule.weekday x ↔ x = weekdayOf (dayOf (t + off))) ∧
      ∀ h, s.schedule.hour h → ∀ m, s.schedule.minute m →
        wallAt (dayOf (t + off)) h m ≤ t + off) := by
  have hs := ((parse_total src).1 s hp).1
  obtain ⟨p, d, h1, h2, h3, h4, h5⟩ := next_fixed hs hn
  have hlt : t < v ↔ t + off < wallAt (dayOf (t + off) + d) p.hour p.min := by
    rw [← h3]; omega
  rw [hlt, wall_lt_wallAt h4 h5]
  have hwz := weekDuration_zero (b := p.weekday) (weekdayOf_le (dayOf (t + off)))
  rcases h1.carryHour_iff hs with ⟨hc, hnow⟩ | ⟨hc, hnow, -⟩
  · -- there is time left today
    rw [wall_lt_wallAt h4 h5] at hnow
    constructor
    · rintro - ⟨-, hall⟩
      have h6 := hall p.hour h1.hour_mem p.min h1.min_mem
      have h7 : t + off < wallAt (dayOf (t + off)) p.hour p.min :=
        (wall_lt_wallAt h4 h5).mpr (by omega)
      omega
    · intro; omega
  · -- the listed times of today are over
    have hnot : ¬ (t + off < wallAt (dayOf (t + off)) p.hour p.min) :=
      Int.not_lt.mpr (hnow _ h1.hour_mem _ h1.min_mem)
    rw [wall_lt_wallAt h4 h5] at hnot
    have hzero : d = 0 ↔ ∀ x, s.schedule.weekday x ↔ x = weekdayOf (dayOf (t + off)) := by
      constructor
      · rintro rfl
        apply week_zero h1 hc
        rcases planDays_total (z := Zone.fixed off) (s := s) (t := t) (p := p) with
          ⟨e1, e2⟩ | ⟨e1, ⟨r, e2, e3, e4, e5, e6⟩ | ⟨e2, -⟩⟩
        · rw [e2] at h2
          exact hwz.mp (by simpa [Zone.fixed] using h2)
        · have hr : r ≠ 0 := by
            rintro rfl
            have e3' := (dateHit_iff (dayRegular_fixed off t) _ _ _).mp e3
            have := no_hit_today h1 hc (by simpa [Zone.fixed] using e3'.1)
              (by simpa [Zone.fixed] using e3'.2)
            omega
          rw [e6] at h2
          cases hrel : s.weekdayRelevant with
          | false => rw [hrel] at h2; simp at h2; exact absurd h2 hr
          | true =>
            rw [hrel] at h2
            simp only [if_true, Res.ok.injEq] at h2
            exact hwz.mp (by simp only [Zone.fixed] at h2; omega)
        · rw [e2] at h2; cases h2
      · intro hall
        have hw0 : weekdayOf (dayOf (t + off)) = p.weekday :=
          ((hall p.weekday).mp h1.weekday_mem).symm
        have hrel : s.weekdayRelevant = true := by
          cases hr : s.weekdayRelevant with
          | true => rfl
          | false =>
            have h := (weekdayRelevant_iff hs).mp hr
            have e0 := (hall 0).mp (h 0 (by omega))
            have e1 := (hall 1).mp (h 1 (by omega))
            omega
        rcases planDays_total (z := Zone.fixed off) (s := s) (t := t) (p := p) with
          ⟨e1, e2⟩ | ⟨e1, ⟨r, e2, e3, e4, e5, e6⟩ | ⟨e2, -⟩⟩
        · rw [e2] at h2
          cases h2
          exact hwz.mpr hw0
        · rw [e6, hrel] at h2
          simp only [if_true, Res.ok.injEq] at h2
          have := hwz.mpr hw0
          simp only [Zone.fixed] at h2
          omega
        · rw [e2] at h2; cases h2
    constructor
    · rintro hlt' ⟨hall, -⟩
      have := hzero.mpr hall
      omega
    · intro hno
      have hd : d ≠ 0 := fun h0 => hno ⟨hzero.mp h0, fun h hh m hm => hnow h hh m hm⟩
      omega

/-- C23 for all expressions with at least two weekdays (in particular `*`). -/
theorem C23_two_weekdays_partial {src : Str} {s : Timer} {off t v : Int} {x y : Nat}
    (hp : Timer.parse src = .ok s) (hx : s.schedule.weekday x) (hy : s.schedule.weekday y)
    (hxy : x ≠ y) (hn : s.next (Zone.fixed off) t = .ok v) : t < v := by
  rw [C23_future_partial hp hn]
  rintro ⟨h, -⟩
  have := (h x).mp hx
  have := (h y).mp hy
  omega

/-- `0 12 * * 1` -/
private def exprMondayNoon : Str := ['0', ' ', '1', '2', ' ', '*', ' ', '*', ' ', '1']

private def days31 : List Nat := rangeIncl 1 31
private def months12 : List Nat := rangeIncl 1 12
private def weekdays7 : List Nat := rangeIncl 0 6

/-- C23 is false: on Monday 2021-01-04 at 12:30, `0 12 * * 1` yields 12:00 of the same
day. -/
theorem C23_violated : ¬ C23_statement := by
  intro h
  have := h exprMondayNoon ⟨[0], [12], days31, months12, [1]⟩ 0
    (18631 * nsDay + 12 * nsHour + 30 * nsMinute) (18631 * nsDay + 12 * nsHour)
    (by decide +kernel) (by decide +kernel)
  revert this
  decide

/-! ## C24: no instant is skipped -/

/-- C24 as stated. -/
def C24_statement : Prop :=
  ∀ (src : Str) (s : Timer) (off t v : Int), Timer.parse src = .ok s →
    s.next (Zone.fixed off) t = .ok v →
    ∀ u, t < u → u < v → ¬ s.schedule.Matches (u + off)

/-- The result starts afresh: on another day it is at the first listed hour, in another hour
at the first listed minute. -/
def Fresh (s : Schedule) (w w' : Int) : Prop :=
  (dayOf w' ≠ dayOf w → ∀ h, s.hour h → hourOf w' ≤ h) ∧
  (dayOf w' ≠ dayOf w ∨ hourOf w' ≠ hourOf w → ∀ m, s.minute m → minuteOf w' ≤ m)

private theorem fresh_iff {s : Timer} {w : Int} {d h m : Nat} (hh : h ≤ 23) (hm : m ≤ 59)
    (hf : Fresh s.schedule w (wallAt (dayOf w + d) h m)) :
    (d ≠ 0 → ∀ x ∈ s.hour, h ≤ x) ∧
    (d ≠ 0 ∨ h ≠ hourOf w → ∀ x ∈ s.minute, m ≤ x) := by
  unfold Fresh at hf
  rw [dayOf_wallAt hh hm, hourOf_wallAt hh hm, minuteOf_wallAt hm] at hf
  refine ⟨fun h0 x hx => hf.1 (by omega) x hx, fun h0 x hx => hf.2 ?_ x hx⟩
  rcases h0 with h0 | h0
  · left; omega
  · right; exact h0

/-- C24 for all expressions without restriction of day and month: if the result starts
afresh, nothing is skipped. -/
theorem C24_weekly_partial {src : Str} {s : Timer} {off t v : Int}
    (hp : Timer.parse src = .ok s) (hd : s.schedule.AnyDay) (hm : s.schedule.AnyMonth)
    (hn : s.next (Zone.fixed off) t = .ok v) (hf : Fresh s.schedule (t + off) (v + off))
    {u : Int} (h1 : t < u) (h2 : u < v) : ¬ s.schedule.Matches (u + off) := by
  have hs := ((parse_total src).1 s hp).1
  obtain ⟨p, d, e1, e2, e3, e4, e5⟩ := next_fixed hs hn
  rw [e3] at hf
  obtain ⟨fA, fB⟩ := fresh_iff e4 e5 hf
  have hrel := (dateRelevant_iff hs).mpr ⟨hd, hm⟩
  have hd' : d = Timer.weekDuration (weekdayOf (dayOf (t + off))) p.weekday := by
    rcases planDays_total (z := Zone.fixed off) (s := s) (t := t) (p := p) with
      ⟨-, q2⟩ | ⟨q1, -⟩
    · rw [q2] at e2; cases e2; rfl
    · rw [hrel] at q1; cases q1
  have wg := week_gap hs e1
  have hday : ∀ n, s.schedule.DayMatches n → weekdayOf n ∈ s.weekday := by
    intro n hn'
    rcases (codeDay_iff hs (.inr hm) n).mpr hn' with ⟨-, h⟩ | ⟨h, -⟩
    · exact h
    · rw [hrel] at h; cases h
  refine no_skip hs e1 fA fB (fun k hk hlt hmatch => ?_) (fun hne hmatch => ?_)
    (show t + off < u + off by omega) (by rw [← e3]; omega)
  · exact wg.1 k hk (by omega) (hday _ hmatch)
  · exact wg.2 (by omega) (hday _ hmatch)

/-- C24 for jobs at one fixed time of the day, on any set of weekdays. -/
theorem C24_one_time_partial {src : Str} {s : Timer} {off t v : Int} {h0 m0 : Nat}
    (hp : Timer.parse src = .ok s) (hd : s.schedule.AnyDay) (hm : s.schedule.AnyMonth)
    (hh : ∀ h, s.schedule.hour h ↔ h = h0) (hmin : ∀ m, s.schedule.minute m ↔ m = m0)
    (hn : s.next (Zone.fixed off) t = .ok v)
    {u : Int} (h1 : t < u) (h2 : u < v) : ¬ s.schedule.Matches (u + off) := by
  obtain ⟨-, e2, e3⟩ := C22_time_partial hp hn
  refine C24_weekly_partial hp hd hm hn ⟨fun _ h hx => ?_, fun _ m hx => ?_⟩ h1 h2
  · have := (hh _).mp e2; have := (hh _).mp hx; omega
  · have := (hmin _).mp e3; have := (hmin _).mp hx; omega

/-- C24 for jobs running at any set of minutes of every hour of every day. -/
theorem C24_hourly_partial {src : Str} {s : Timer} {off t v : Int}
    (hp : Timer.parse src = .ok s) (hd : s.schedule.AnyDay) (hm : s.schedule.AnyMonth)
    (hw : s.schedule.AnyWeekday) (hh : ∀ h, h ≤ 23 → s.schedule.hour h)
    (hn : s.next (Zone.fixed off) t = .ok v)
    {u : Int} (h1 : t < u) (h2 : u < v) : ¬ s.schedule.Matches (u + off) := by
  have hs := ((parse_total src).1 s hp).1
  obtain ⟨p, d, e1, e2, e3, e4, e5⟩ := next_fixed hs hn
  have hrel := (dateRelevant_iff hs).mpr ⟨hd, hm⟩
  have hd' : d = Timer.weekDuration (weekdayOf (dayOf (t + off))) p.weekday := by
    rcases planDays_total (z := Zone.fixed off) (s := s) (t := t) (p := p) with
      ⟨-, q2⟩ | ⟨q1, -⟩
    · rw [q2] at e2; cases e2; rfl
    · rw [hrel] at q1; cases q1
  have hT : d ≠ 0 → p.carryHour = 1 := fun hne =>
    (week_gap hs e1).2 (by omega) (hw _ (weekdayOf_le _))
  refine C24_weekly_partial hp hd hm hn ?_ h1 h2
  rw [e3]
  unfold Fresh
  rw [dayOf_wallAt e4 e5, hourOf_wallAt e4 e5, minuteOf_wallAt e5]
  have hsplit := wall_split (t + off)
  obtain ⟨cm, cd, p1, p2, -⟩ := e1.ex
  constructor
  · intro hne h hx
    have hc := hT (by omega)
    rcases e1.carryHour_iff hs with ⟨c0, -⟩ | ⟨-, -, c2⟩
    · omega
    · exact c2 h hx
  · intro hne m hx
    cases p1 with
    | wrap _ _ hmin' => exact hmin' m hx
    | here _ hlo' _ =>
      exfalso
      have hmem : hourOf (t + off) ∈ s.hour := hh _ hsplit.1
      generalize hc : p.carryHour = c at p2
      cases p2 with
      | here _ hlo hmin' =>
        have := hmin' _ hmem (by omega)
        have : d = 0 := by
          rcases Nat.eq_zero_or_pos d with h0 | h0
          · exact h0
          · have := hT (by omega); omega
        omega
      | wrap _ hlo _ =>
        have := hlo _ hmem
        omega

/-- C24 for all expressions without restriction of the weekday: if the result starts afresh,
is in the same year, and, if in another month, on the first listed day, then nothing is
skipped. -/
theorem C24_date_partial {src : Str} {s : Timer} {off t v : Int}
    (hp : Timer.parse src = .ok s) (hw : s.schedule.AnyWeekday)
    (hn : s.next (Zone.fixed off) t = .ok v) (hf : Fresh s.schedule (t + off) (v + off))
    (hy : (civil (dayOf (v + off))).year = (civil (dayOf (t + off))).year)
    (hmo : (civil (dayOf (v + off))).month ≠ (civil (dayOf (t + off))).month →
      ∀ x, s.schedule.day x → (civil (dayOf (v + off))).day ≤ x)
    {u : Int} (h1 : t < u) (h2 : u < v) : ¬ s.schedule.Matches (u + off) := by
  by_cases hany : s.schedule.AnyDay ∧ s.schedule.AnyMonth
  · exact C24_weekly_partial hp hany.1 hany.2 hn hf h1 h2
  have hs := ((parse_total src).1 s hp).1
  obtain ⟨p, d, e1, e2, e3, e4, e5⟩ := next_fixed hs hn
  rw [e3] at hf hy hmo
  obtain ⟨fA, fB⟩ := fresh_iff e4 e5 hf
  rw [dayOf_wallAt e4 e5] at hy hmo
  have hrel : s.dateRelevant = true := by
    cases h : s.dateRelevant with
    | true => rfl
    | false => exact absurd ((dateRelevant_iff hs).mp h) hany
  have hwrel : s.weekdayRelevant = false := (weekdayRelevant_iff hs).mpr hw
  have hday : ∀ n, s.schedule.DayMatches n → (civil n).day ∈ s.day ∧ (civil n).month ∈ s.month := by
    intro n hn'
    rcases (codeDay_iff hs (.inl hw) n).mpr hn' with ⟨h, -⟩ | ⟨-, h | ⟨h, -⟩⟩
    · rw [hrel] at h; cases h
    · exact h
    · rw [hwrel] at h; cases h
  obtain ⟨r, q2, q3, -, q5, q6⟩ : ∃ r, p.carryYear * 365 ≤ r ∧
      DateHit (Zone.fixed off) t p.day p.month r ∧ True ∧
      (∀ k, p.carryYear * 365 ≤ k → k < r → ¬ DateHit (Zone.fixed off) t p.day p.month k) ∧
      r = d := by
    rcases planDays_total (z := Zone.fixed off) (s := s) (t := t) (p := p) with
      ⟨q1, -⟩ | ⟨-, ⟨r, q2, q3, q4, q5, q6⟩ | ⟨q2, -⟩⟩
    · rw [hrel] at q1; cases q1
    · refine ⟨r, q2, q3, trivial, q5, ?_⟩
      rw [q6, hwrel] at e2
      simpa using e2
    · rw [q2] at e2; cases e2
  subst q6
  rw [dateHit_iff (dayRegular_fixed off t)] at q3
  change (civil (dayOf (t + off) + r)).day = _ ∧ (civil (dayOf (t + off) + r)).month = _ at q3
  generalize hn0 : dayOf (t + off) = n0 at *
  obtain ⟨cm, cd, -, -, -, p4, p5⟩ := e1.ex
  rw [hn0] at p4 p5
  have hcl : p.carryHour ≤ 1 := by
    obtain ⟨_, _, -, h, -⟩ := e1.ex; exact h.carry
  refine no_skip (d := r) hs e1 fA fB (fun k hk hlt hmatch => ?_) (fun hne hmatch => ?_)
    (show t + off < u + off by omega) (by rw [hn0, ← e3]; omega)
  · rw [hn0] at hmatch
    obtain ⟨d1, d2⟩ := hday _ hmatch
    have l1 : DateLt (civil n0) (civil (n0 + k)) := civil_mono.mp (by omega)
    have l2 : DateLt (civil (n0 + k)) (civil (n0 + r)) := civil_mono.mp (by omega)
    unfold DateLt at l1 l2
    rw [q3.1, q3.2] at l2
    rw [q3.2, q3.1] at hmo
    have hmin : p.month ≠ (civil n0).month → p.day ≤ (civil (n0 + k)).day := fun h => hmo h _ d1
    cases p4 with
    | here x1 x2 x3 =>
      have g1 := x3 _ d1
      generalize hcy : p.carryYear = cy at p5
      cases p5 with
      | here y1 y2 y3 => have g2 := y3 _ d2; omega
      | wrap y1 y2 y3 => have g2 := y2 _ d2; have := y2 _ y1; omega
    | wrap x1 x2 x3 =>
      have g1 := x2 _ d1
      have g1' := x2 _ x1
      generalize hcy : p.carryYear = cy at p5
      cases p5 with
      | here y1 y2 y3 => have g2 := y3 _ d2; omega
      | wrap y1 y2 y3 => have g2 := y2 _ d2; have := y2 _ y1; omega
  · rw [hn0] at hmatch
    obtain ⟨d1, d2⟩ := hday _ hmatch
    rcases Nat.eq_zero_or_pos p.carryHour with hc | hc
    · exfalso
      rw [hc] at p4
      have hhit : p.carryYear = 0 ∧ (civil n0).day = p.day ∧ (civil n0).month = p.month := by
        cases p4 with
        | here x1 x2 x3 =>
          have g1 := x3 _ d1 (by omega)
          generalize hcy : p.carryYear = cy at p5
          cases p5 with
          | here y1 y2 y3 => have g2 := y3 _ d2 (by omega); omega
          | wrap y1 y2 y3 => have := y2 _ d2; omega
        | wrap x1 x2 x3 => have := x2 _ d1; omega
      refine q5 0 (by omega) (by omega) ?_
      rw [dateHit_iff (dayRegular_fixed off t)]
      change (civil (dayOf (t + off) + (0 : Nat))).day = _ ∧
        (civil (dayOf (t + off) + (0 : Nat))).month = _
      rw [hn0]
      simp only [Int.natCast_zero, Int.add_zero]
      exact ⟨hhit.2.1, hhit.2.2⟩
    · omega

/-- What is known if the weekday is unrestricted, but the date is not. -/
private theorem date_only {s : Timer} (hs : s.WF) (hw : s.schedule.AnyWeekday)
    (hany : ¬ (s.schedule.AnyDay ∧ s.schedule.AnyMonth)) {off t : Int} {p : Timer.Plan} {d : Nat}
    (e2 : Timer.planDays (Zone.fixed off) s t p = .ok d) :
    (∀ n, s.schedule.DayMatches n → (civil n).day ∈ s.day ∧ (civil n).month ∈ s.month) ∧
    p.carryYear * 365 ≤ d ∧ DateHit (Zone.fixed off) t p.day p.month d ∧
    (∀ k, p.carryYear * 365 ≤ k → k < d → ¬ DateHit (Zone.fixed off) t p.day p.month k) := by
  have hrel : s.dateRelevant = true := by
    cases h : s.dateRelevant with
    | true => rfl
    | false => exact absurd ((dateRelevant_iff hs).mp h) hany
  have hwrel : s.weekdayRelevant = false := (weekdayRelevant_iff hs).mpr hw
  refine ⟨?_, ?_⟩
  · intro n hn'
    rcases (codeDay_iff hs (.inl hw) n).mpr hn' with ⟨h, -⟩ | ⟨-, h | ⟨h, -⟩⟩
    · rw [hrel] at h; cases h
    · exact h
    · rw [hwrel] at h; cases h
  · rcases planDays_total (z := Zone.fixed off) (s := s) (t := t) (p := p) with
      ⟨q1, -⟩ | ⟨-, ⟨r, q2, q3, q4, q5, q6⟩ | ⟨q2, -⟩⟩
    · rw [hrel] at q1; cases q1
    · rw [q6, hwrel] at e2
      cases e2
      exact ⟨q2, q3, q5⟩
    · rw [q2] at e2; cases e2

/-- C24 for all expressions without restriction of the weekday, in terms of the starting
point only: no listed day is after the 28th, the current month is listed (or only one day
is), and there is a listed month, or a listed day of the current month, still ahead this
year. If the result starts afresh, nothing is skipped. -/
theorem C24_calendar_partial {src : Str} {s : Timer} {off t v : Int}
    (hp : Timer.parse src = .ok s) (hw : s.schedule.AnyWeekday)
    (h28 : ∀ x, s.schedule.day x → x ≤ 28)
    (hcur : s.schedule.month (civil (dayOf (t + off))).month ∨
      ∀ x y, s.schedule.day x → s.schedule.day y → x = y)
    (hahead : (∃ m, s.schedule.month m ∧ (civil (dayOf (t + off))).month < m) ∨
      (s.schedule.month (civil (dayOf (t + off))).month ∧
        ∃ x, s.schedule.day x ∧ (civil (dayOf (t + off))).day < x))
    (hn : s.next (Zone.fixed off) t = .ok v) (hf : Fresh s.schedule (t + off) (v + off))
    {u : Int} (h1 : t < u) (h2 : u < v) : ¬ s.schedule.Matches (u + off) := by
  have hs := ((parse_total src).1 s hp).1
  have hany : ¬ (s.schedule.AnyDay ∧ s.schedule.AnyMonth) := fun h => by
    have := h28 31 (h.1 31 (by omega) (by omega)); omega
  obtain ⟨p, d, e1, e2, e3, e4, e5⟩ := next_fixed hs hn
  obtain ⟨-, q2, q3, q5⟩ := date_only hs hw hany e2
  have key : (civil (dayOf (t + off) + d)).year = (civil (dayOf (t + off))).year ∧
      (p.month ≠ (civil (dayOf (t + off))).month → ∀ x, s.schedule.day x → p.day ≤ x) := by
    have hit := fun k => dateHit_iff (dayRegular_fixed off t) p.day p.month k
    rw [hit] at q3
    change ∀ k : Nat, _ ↔ (civil (dayOf (t + off) + k)).day = _ ∧
      (civil (dayOf (t + off) + k)).month = _ at hit
    change (civil (dayOf (t + off) + d)).day = _ ∧ (civil (dayOf (t + off) + d)).month = _ at q3
    generalize hn0 : dayOf (t + off) = n0 at *
    obtain ⟨cm, cd, -, -, -, p4, p5⟩ := e1.ex
    rw [hn0] at p4 p5
    have hcl : p.carryHour ≤ 1 := by
      obtain ⟨_, _, -, h, -⟩ := e1.ex; exact h.carry
    have hd28 := h28 _ e1.day_mem
    have hdr := hs.day.2.2 _ e1.day_mem
    have hmr := hs.month.2.2 _ e1.month_mem
    have dn : d = 0 ∨ DateLt (civil n0) (civil (n0 + d)) := by
      rcases Nat.eq_zero_or_pos d with h | h
      · exact .inl h
      · exact .inr (civil_mono.mp (by omega))
    have fin : ∀ k : Nat, p.carryYear = 0 → civil (n0 + k) = ⟨(civil n0).year, p.month, p.day⟩ →
        (civil (n0 + d)).year = (civil n0).year := by
      intro k hc hk
      have hle : d ≤ k := by
        rcases Nat.lt_or_ge k d with h | h
        · exact absurd ((hit k).mpr (by rw [hk]; exact ⟨rfl, rfl⟩)) (q5 k (by omega) h)
        · exact h
      rcases dn with rfl | dn
      · simp
      · rcases Nat.lt_or_ge d k with h | h
        · have : DateLt (civil (n0 + d)) (civil (n0 + k)) := civil_mono.mp (by omega)
          rw [hk] at this
          unfold DateLt at this dn
          simp only at this
          omega
        · have : d = k := by omega
          subst this
          rw [hk]
    have later : p.carryYear = 0 → (civil n0).month < p.month →
        (civil (n0 + d)).year = (civil n0).year := by
      intro hc hlt
      have := daysIn_pos (civil n0).year p.month
      obtain ⟨k, hk⟩ := civil_later_this_year (n := n0) (d := p.day) hlt hmr.2 hdr.1 (by omega)
      exact fin k hc hk
    generalize hcy : p.carryYear = cy at p5
    cases p4 with
    | here x1 x2 x3 =>
      cases p5 with
      | here y1 y2 y3 =>
        rcases Nat.lt_or_ge (civil n0).month p.month with hlt | hge
        · refine ⟨later hcy hlt, fun _ x hx => ?_⟩
          rcases hcur with hc | hc
          · have := y3 _ hc (by omega); omega
          · rw [hc x p.day hx x1]
        · have hme : p.month = (civil n0).month := by omega
          refine ⟨?_, fun h => absurd hme h⟩
          have hdp := daysIn_pos (civil n0).year p.month
          have hw' := civil_within (n := n0) (y := (civil n0).year) (m := p.month)
            (d := (civil n0).day) (k := p.day - (civil n0).day) (by rw [hme]) (by omega)
          refine fin _ hcy (hw'.trans ?_)
          rw [show (civil n0).day + (p.day - (civil n0).day) = p.day from by omega]
      | wrap y1 y2 y3 =>
        exfalso
        rcases hahead with ⟨m, hm, hlt⟩ | ⟨hm, -⟩
        · have := y2 _ hm; omega
        · have := y2 _ hm; omega
    | wrap x1 x2 x3 =>
      cases p5 with
      | here y1 y2 y3 => exact ⟨later hcy (by omega), fun _ x hx => x3 x hx⟩
      | wrap y1 y2 y3 =>
        exfalso
        rcases hahead with ⟨m, hm, hlt⟩ | ⟨hm, x, hx, hlt⟩
        · have := y2 _ hm; omega
        · have := x2 _ hx; omega
  rw [dateHit_iff (dayRegular_fixed off t)] at q3
  change (civil (dayOf (t + off) + d)).day = _ ∧ (civil (dayOf (t + off) + d)).month = _ at q3
  refine C24_date_partial hp hw hn hf ?_ ?_ h1 h2
  · rw [e3, dayOf_wallAt e4 e5]; exact key.1
  · rw [e3, dayOf_wallAt e4 e5, q3.1, q3.2]; exact key.2

/-- C24 for yearly jobs, on one day of one month: from an execution, or any other instant of
a year up to that date, nothing is skipped. -/
theorem C24_yearly_partial {src : Str} {s : Timer} {off t v : Int} {x m : Nat}
    (hp : Timer.parse src = .ok s) (hw : s.schedule.AnyWeekday)
    (hx : ∀ y, s.schedule.day y ↔ y = x) (hm : ∀ y, s.schedule.month y ↔ y = m)
    (hto : (civil (dayOf (t + off))).month < m ∨
      (civil (dayOf (t + off))).month = m ∧ (civil (dayOf (t + off))).day ≤ x)
    (hn : s.next (Zone.fixed off) t = .ok v) (hf : Fresh s.schedule (t + off) (v + off))
    {u : Int} (h1 : t < u) (h2 : u < v) : ¬ s.schedule.Matches (u + off) := by
  have hs := ((parse_total src).1 s hp).1
  have hany : ¬ (s.schedule.AnyDay ∧ s.schedule.AnyMonth) := fun h => by
    have h1 := (hx 31).mp (h.1 31 (by omega) (by omega))
    have h2 := (hx 30).mp (h.1 30 (by omega) (by omega))
    omega
  obtain ⟨p, d, e1, e2, e3, e4, e5⟩ := next_fixed hs hn
  obtain ⟨hday, q2, q3, q5⟩ := date_only hs hw hany e2
  rw [e3] at hf
  obtain ⟨fA, fB⟩ := fresh_iff e4 e5 hf
  have hpd : p.day = x := (hx _).mp e1.day_mem
  have hpm : p.month = m := (hm _).mp e1.month_mem
  have hit := fun k => dateHit_iff (dayRegular_fixed off t) p.day p.month k
  change ∀ k : Nat, _ ↔ (civil (dayOf (t + off) + k)).day = _ ∧
    (civil (dayOf (t + off) + k)).month = _ at hit
  have hcl : p.carryHour ≤ 1 := by
    obtain ⟨_, _, -, h, -⟩ := e1.ex; exact h.carry
  generalize hn0 : dayOf (t + off) = n0 at *
  obtain ⟨cm, cd, -, -, -, p4, p5⟩ := e1.ex
  rw [hn0] at p4 p5
  refine no_skip (d := d) hs e1 fA fB (fun k hk hlt hmatch => ?_) (fun hne hmatch => ?_)
    (show t + off < u + off by omega) (by rw [hn0, ← e3]; omega)
  · rw [hn0] at hmatch
    obtain ⟨d1, d2⟩ := hday _ hmatch
    have d1' := (hx _).mp d1
    have d2' := (hm _).mp d2
    have hk' : DateHit (Zone.fixed off) t p.day p.month k := (hit k).mpr ⟨by omega, by omega⟩
    refine q5 k ?_ hlt hk'
    generalize hcy : p.carryYear = cy at p5
    cases p5 with
    | here => simp
    | wrap y1 y2 y3 =>
      have g2 := y2 _ y1
      have := recurs_later (n := n0) hk
      cases p4 with
      | here x1 x2 x3 => exfalso; omega
      | wrap x1 x2 x3 =>
        have g1 := x2 _ x1
        rw [Nat.one_mul]
        exact this (by omega) (by omega)
  · rw [hn0] at hmatch
    obtain ⟨d1, d2⟩ := hday _ hmatch
    have d1' := (hx _).mp d1
    have d2' := (hm _).mp d2
    rcases Nat.eq_zero_or_pos p.carryHour with hc | hc
    · exfalso
      rw [hc] at p4
      refine q5 0 ?_ (by omega) ((hit 0).mpr ⟨by simpa using by omega, by simpa using by omega⟩)
      generalize hcy : p.carryYear = cy at p5
      cases p5 with
      | here => simp
      | wrap y1 y2 y3 =>
        have g2 := y2 _ y1
        cases p4 with
        | here x1 x2 x3 => exfalso; omega
        | wrap x1 x2 x3 => exfalso; have g1 := x2 _ x1; omega
    · omega

/-- C24 for expressions restricting both the day and the weekday, but not the month: as long
as a listed day is still ahead in the current month, and the result starts afresh, nothing
is skipped. -/
theorem C24_day_or_weekday_partial {src : Str} {s : Timer} {off t v : Int} {x : Nat}
    (hp : Timer.parse src = .ok s) (hm : s.schedule.AnyMonth)
    (hx : s.schedule.day x) (hx1 : (civil (dayOf (t + off))).day < x)
    (hx2 : x ≤ daysIn (civil (dayOf (t + off))).year (civil (dayOf (t + off))).month)
    (hn : s.next (Zone.fixed off) t = .ok v) (hf : Fresh s.schedule (t + off) (v + off))
    {u : Int} (h1 : t < u) (h2 : u < v) : ¬ s.schedule.Matches (u + off) := by
  by_cases hany : s.schedule.AnyDay ∧ s.schedule.AnyMonth
  · exact C24_weekly_partial hp hany.1 hany.2 hn hf h1 h2
  have hs := ((parse_total src).1 s hp).1
  obtain ⟨p, d, e1, e2, e3, e4, e5⟩ := next_fixed hs hn
  rw [e3] at hf
  obtain ⟨fA, fB⟩ := fresh_iff e4 e5 hf
  have hrel : s.dateRelevant = true := by
    cases h : s.dateRelevant with
    | true => rfl
    | false => exact absurd ((dateRelevant_iff hs).mp h) hany
  have wg := week_gap hs e1
  obtain ⟨cm, cd, -, -, -, p4, p5⟩ := e1.ex
  have hcl : p.carryHour ≤ 1 := by
    obtain ⟨_, _, -, h, -⟩ := e1.ex; exact h.carry
  have hr := civil_day_range (dayOf (t + off))
  -- the date part is the next listed day of this month
  have hplan : p.carryYear = 0 ∧ p.month = (civil (dayOf (t + off))).month ∧ p.day ≤ x ∧
      (civil (dayOf (t + off))).day + p.carryHour ≤ p.day ∧
      (∀ y ∈ s.day, (civil (dayOf (t + off))).day + p.carryHour ≤ y → p.day ≤ y) := by
    cases p4 with
    | wrap x1 x2 x3 => have := x2 x hx; omega
    | here x1 x2 x3 =>
      have := x3 x hx (by omega)
      have hmem : (civil (dayOf (t + off))).month ∈ s.month := hm _ hr.2.2.1 hr.2.2.2
      generalize hcy : p.carryYear = cy at p5
      cases p5 with
      | here y1 y2 y3 =>
        have := y3 _ hmem (by omega)
        exact ⟨rfl, by omega, by omega, x2, x3⟩
      | wrap y1 y2 y3 => have := y2 _ hmem; omega
  obtain ⟨g1, g2, g3, g4, g5⟩ := hplan
  generalize hn0 : dayOf (t + off) = n0 at *
  have hwithin : ∀ k : Nat, (civil n0).day + k ≤ daysIn (civil n0).year (civil n0).month →
      civil (n0 + k) = ⟨(civil n0).year, (civil n0).month, (civil n0).day + k⟩ :=
    fun k hk => civil_within rfl hk
  have hD : d ≤ p.day - (civil n0).day ∧ (s.weekdayRelevant = true →
      d ≤ Timer.weekDuration (weekdayOf n0) p.weekday) ∧
      (d = p.day - (civil n0).day ∨
        d = Timer.weekDuration (weekdayOf n0) p.weekday) := by
    rcases planDays_total (z := Zone.fixed off) (s := s) (t := t) (p := p) with
      ⟨q1, -⟩ | ⟨-, ⟨r, q2, q3, q4, q5, q6⟩ | ⟨q2, -⟩⟩
    · rw [hrel] at q1; cases q1
    · have hle : r ≤ p.day - (civil n0).day := by
        apply Nat.le_of_not_lt
        intro hlt
        refine q5 _ (by omega) hlt ?_
        rw [dateHit_iff (dayRegular_fixed off t)]
        change (civil (dayOf (t + off) + _)).day = _ ∧ (civil (dayOf (t + off) + _)).month = _
        rw [hn0, hwithin _ (by omega)]
        exact ⟨by simp only; omega, by simp only; omega⟩
      have hge : p.day - (civil n0).day ≤ r := by
        rw [dateHit_iff (dayRegular_fixed off t)] at q3
        change (civil (dayOf (t + off) + _)).day = _ ∧
          (civil (dayOf (t + off) + _)).month = _ at q3
        rw [hn0, hwithin r (by omega)] at q3
        have := q3.1
        simp only at this
        omega
      have hreq : r = p.day - (civil n0).day := by omega
      rw [q6] at e2
      change Res.ok (if s.weekdayRelevant = true then
        Min.min (Timer.weekDuration (weekdayOf (dayOf (t + off))) p.weekday) r else r) = _ at e2
      rw [hn0] at e2
      cases hwr : s.weekdayRelevant with
      | false =>
        rw [hwr] at e2
        simp at e2
        exact ⟨by omega, fun h => (by cases h), .inl (by omega)⟩
      | true =>
        rw [hwr] at e2
        simp only [if_true, Res.ok.injEq] at e2
        exact ⟨by omega, fun _ => by omega, by omega⟩
    · rw [q2] at e2; cases e2
  have hday : ∀ n, s.schedule.DayMatches n → (civil n).day ∈ s.day ∨
      (s.weekdayRelevant = true ∧ weekdayOf n ∈ s.weekday) := by
    intro n hn'
    rcases (codeDay_iff hs (.inr hm) n).mpr hn' with ⟨h, -⟩ | ⟨-, h | h⟩
    · rw [hrel] at h; cases h
    · exact .inl h.1
    · exact .inr h
  refine no_skip (d := d) hs e1 fA fB (fun k hk hlt hmatch => ?_) (fun hne hmatch => ?_)
    (show t + off < u + off by omega) (by rw [hn0, ← e3]; omega)
  · rw [hn0] at hmatch
    rcases hday _ hmatch with hd' | ⟨hw, hd'⟩
    · rw [hwithin k (by omega)] at hd'
      have := g5 _ hd' (by simp only; omega)
      simp only at this
      omega
    · have := hD.2.1 hw
      exact wg.1 k hk (by omega) hd'
  · rw [hn0] at hmatch
    rcases hday _ hmatch with hd' | ⟨hw, hd'⟩
    · rcases Nat.eq_zero_or_pos p.carryHour with hc | hc
      · have := g5 _ hd' (by omega)
        omega
      · omega
    · have := hD.2.1 hw
      exact wg.2 (by omega) hd'

/-- `0,30 14 * * *` -/
private def exprHalfHours : Str :=
  ['0', ',', '3', '0', ' ', '1', '4', ' ', '*', ' ', '*', ' ', '*']

/-- C24 is false: on 2021-01-01 at 12:15, `0,30 14 * * *` yields 14:30 and skips 14:00. -/
theorem C24_violated : ¬ C24_statement := by
  intro h
  have := h exprHalfHours ⟨[0, 30], [14], days31, months12, weekdays7⟩ 0
    (18628 * nsDay + 12 * nsHour + 15 * nsMinute) (18628 * nsDay + 14 * nsHour + 30 * nsMinute)
    (by decide +kernel) (by decide +kernel) (18628 * nsDay + 14 * nsHour) (by decide) (by decide)
  apply this
  have hs : Timer.WF ⟨[0, 30], [14], days31, months12, weekdays7⟩ :=
    ((parse_total exprHalfHours).1 _ (by decide +kernel)).1
  refine ⟨18628, 14, 0, by decide, by decide, by decide, List.mem_cons_self .., List.mem_cons_self .., ?_⟩
  refine (codeDay_iff hs (.inl ?_) _).mp (.inl ⟨by decide, by decide +kernel⟩)
  exact (weekdayRelevant_iff hs).mp (by decide)

/-- `30 12 15 * *` -/
private def exprFifteenth : Str :=
  ['3', '0', ' ', '1', '2', ' ', '1', '5', ' ', '*', ' ', '*']

/-- Another violation of C24, to show that freshness is not the only problem: in December
2020, after the 15th, the job of each 15th is next run in January 2022. -/
theorem C24_violated_december :
    (∃ s, Timer.parse exprFifteenth = .ok s ∧
      s.next (Zone.fixed 0) (18616 * nsDay) = .ok (19007 * nsDay + 12 * nsHour + 30 * nsMinute)) ∧
    civil 18616 = ⟨2020, 12, 20⟩ ∧ civil 19007 = ⟨2022, 1, 15⟩ :=
  ⟨⟨⟨[30], [12], [15], months12, weekdays7⟩, by decide +kernel, by decide +kernel⟩,
    by decide +kernel, by decide +kernel⟩

/-! ## C25: the computation succeeds -/

/-- C25 as stated. The clock and zone are assumed to be far from the end of chrono's range
and free of transitions: nothing outside the expression can be blamed. -/
def C25_statement : Prop :=
  ∀ (src : Str) (s : Timer) (off t : Int), Timer.parse src = .ok s →
    0 ≤ t → t ≤ 100000 * nsDay → 0 ≤ off → off ≤ nsDay →
    ∃ v, s.next (Zone.fixed off) t = .ok v

/-- A zone that does its part: whole days advance the date, a local time that does not exist
is followed by an existing one within 11 days, and the end of the representable time is far
away (more than 4100 days). -/
structure GoodZone (z : Zone) (t : Int) : Prop where
  regular : DayRegular z t
  valid : ∀ w, ∃ k : Nat, k ≤ 15840 ∧ ∃ u, z.wall u = w + k * nsMinute
  farFromEnd : ∀ k : Nat, k ≤ 4085 →
    t + k * nsDay ≤ chronoMax ∧ (dayOf (z.wall t) + k + 12) * nsDay ≤ chronoMax

theorem goodZone_fixed {off t : Int} (h1 : 0 ≤ t) (h2 : t ≤ 100000 * nsDay) (h3 : 0 ≤ off)
    (h4 : off ≤ nsDay) : GoodZone (Zone.fixed off) t where
  regular := dayRegular_fixed off t
  valid w := ⟨0, by omega, w - off, by simp [Zone.fixed]⟩
  farFromEnd k hk := by
    simp only [Zone.fixed]
    unfold dayOf chronoMax nsDay at *
    omega

/-- What is needed for the loop over the days to end: if the date matters, the day chosen
exists in the month chosen. -/
theorem next_of_plan {z : Zone} {s : Timer} (hs : s.WF) {t : Int} (hz : GoodZone z t)
    (hgood : ∀ p, PlanSpec s (z.wall t) p → s.dateRelevant = true → p.day ≤ maxDaysIn p.month) :
    ∃ v, s.next z t = .ok v ∧ dayOf (z.wall v) ≤ dayOf (z.wall t) + 4100 := by
  obtain ⟨p, hp, hps⟩ := plan_ok hs (z.wall t)
  have b1 := hs.hour.2.2 _ hps.hour_mem
  have b2 := hs.minute.2.2 _ hps.min_mem
  have hwk := (weekDuration_hit (weekdayOf_le (dayOf (z.wall t)))
    (hs.weekday.2.2 _ hps.weekday_mem)).2
  have hcy := hps.carryYear_le
  obtain ⟨d, hd, hd'⟩ : ∃ d, Timer.planDays z s t p = .ok d ∧ d ≤ 4085 := by
    rcases planDays_total (z := z) (s := s) (t := t) (p := p) with
      ⟨-, q2⟩ | ⟨q0, ⟨r, q2, q3, q4, q5, q6⟩ | ⟨q2, q3⟩⟩
    · exact ⟨_, q2, by omega⟩
    · obtain ⟨k, k1, k2, k3⟩ := date_comes (hs.month.2.2 _ hps.month_mem)
        ⟨(hs.day.2.2 _ hps.day_mem).1, hgood _ hps q0⟩
        (dayOf (z.wall t) + (p.carryYear * 365 : Nat))
      have hr : r ≤ p.carryYear * 365 + k := by
        apply Nat.le_of_not_lt
        intro hlt
        refine q5 _ (by omega) hlt ((dateHit_iff hz.regular _ _ _).mpr ?_)
        rw [show dayOf (z.wall t) + ((p.carryYear * 365 + k : Nat) : Int) =
          dayOf (z.wall t) + (p.carryYear * 365 : Nat) + k from by omega]
        exact k3
      refine ⟨_, q6, ?_⟩
      split <;> omega
    · exfalso
      obtain ⟨k, k1, k2, k3⟩ := date_comes (hs.month.2.2 _ hps.month_mem)
        ⟨(hs.day.2.2 _ hps.day_mem).1, hgood _ hps q0⟩
        (dayOf (z.wall t) + (p.carryYear * 365 : Nat))
      refine q3 (p.carryYear * 365 + k) (by omega) (hz.farFromEnd _ (by omega)).1
        ((dateHit_iff hz.regular _ _ _).mpr ?_)
      rw [show dayOf (z.wall t) + ((p.carryYear * 365 + k : Nat) : Int) =
        dayOf (z.wall t) + (p.carryYear * 365 : Nat) + k from by omega]
      exact k3
  obtain ⟨f1, f2⟩ := hz.farFromEnd d hd'
  have hadd := addDays_ok.mpr ⟨f1, rfl⟩
  have hday := hz.regular d
  unfold Timer.next
  rw [hp, Res.bind_ok, hd, Res.bind_ok, hadd, Res.bind_ok, if_pos ⟨b1, b2⟩, hday]
  have hspec := findValid_spec z (wallAt (dayOf (z.wall t) + d) p.hour p.min) 15841 0
  cases hf : Timer.findValid z (wallAt (dayOf (z.wall t) + d) p.hour p.min) 15841 0 with
  | ok v =>
    refine ⟨v, rfl, ?_⟩
    obtain ⟨j, -, hj, hres, -⟩ := hspec.1 v hf
    rw [z.resolve_sound _ _ hres]
    unfold dayOf wallAt nsDay nsHour nsMinute
    omega
  | err e => exact nomatch e
  | panic q =>
    exfalso
    rcases hspec.2 q hf with ⟨-, h⟩ | ⟨-, i, -, hi, hlt, -⟩
    · obtain ⟨k, hk, u, hu⟩ := hz.valid (wallAt (dayOf (z.wall t) + d) p.hour p.min)
      exact z.resolve_complete _ (h k (by omega) (by omega)) u hu
    · unfold wallAt nsDay nsHour nsMinute at *
      omega

/-- C25 for all expressions in which every listed day exists in every listed month (in some
year), or which do not restrict the date: the computation succeeds, and the result is at
most 4100 days away, so that at most as many iterations are needed.
Missing: other expressions, for which it may fail (`C25_violated`). -/
theorem C25_succeeds_partial {src : Str} {s : Timer} {z : Zone} {t : Int}
    (hp : Timer.parse src = .ok s) (hz : GoodZone z t)
    (hgood : (s.schedule.AnyDay ∧ s.schedule.AnyMonth) ∨
      ∀ d m, s.schedule.day d → s.schedule.month m → d ≤ maxDaysIn m) :
    ∃ v, s.next z t = .ok v ∧ dayOf (z.wall v) ≤ dayOf (z.wall t) + 4100 := by
  have hs := ((parse_total src).1 s hp).1
  apply next_of_plan hs hz
  intro p hps hrel
  rcases hgood with h | h
  · rw [(dateRelevant_iff hs).mpr h] at hrel; cases hrel
  · exact h _ _ hps.day_mem hps.month_mem

/-- Expressions of a date that never comes (`0 0 30 2 *`) always abort cinit, in all zones
and at all times. -/
theorem C25_impossible_partial {src : Str} {s : Timer} {z : Zone} {t : Int}
    (hp : Timer.parse src = .ok s)
    (hbad : ∀ d m, s.schedule.day d → s.schedule.month m → maxDaysIn m < d) :
    s.next z t = .panic .dateOverflow := by
  have hs := ((parse_total src).1 s hp).1
  obtain ⟨p, hpl, hps⟩ := plan_ok hs (z.wall t)
  have hb := hbad p.day p.month hps.day_mem hps.month_mem
  have hrel : s.dateRelevant = true := by
    cases h : s.dateRelevant with
    | true => rfl
    | false =>
      obtain ⟨h1, h2⟩ := (dateRelevant_iff hs).mp h
      have := hbad 1 1 (h1 1 (by omega) (by omega)) (h2 1 (by omega) (by omega))
      simp [maxDaysIn] at this
  unfold Timer.next
  rw [hpl, Res.bind_ok]
  rcases planDays_total (z := z) (s := s) (t := t) (p := p) with
    ⟨q1, -⟩ | ⟨q0, ⟨r, q2, q3, q4, q5, q6⟩ | ⟨q2, q3⟩⟩
  · rw [hrel] at q1; cases q1
  · exact absurd q3 (date_never hb _)
  · rw [q2]; rfl

/-- `0 0 31 * *` -/
private def exprLastDay : Str := ['0', ' ', '0', ' ', '3', '1', ' ', '*', ' ', '*']

/-- C25 is false: `0 0 31 * *` aborts cinit during all of April (the loop looks for
April 31st); here on 2021-04-05. -/
theorem C25_violated : ¬ C25_statement := by
  intro h
  obtain ⟨v, hv⟩ := h exprLastDay ⟨[0], [0], [31], months12, weekdays7⟩ 0 (18722 * nsDay)
    (by decide +kernel) (by decide) (by decide) (by decide) (by decide)
  have hs : Timer.WF ⟨[0], [0], [31], months12, weekdays7⟩ :=
    ((parse_total exprLastDay).1 _ (by decide +kernel)).1
  obtain ⟨p, d, hpl, -, hd, -⟩ := next_ok hs hv
  have e : (⟨0, 0, 1, 2, 31, 4, 0⟩ : Timer.Plan) = p := by
    have : Timer.plan ⟨[0], [0], [31], months12, weekdays7⟩ ((Zone.fixed 0).wall (18722 * nsDay)) =
      .ok ⟨0, 0, 1, 2, 31, 4, 0⟩ := by decide +kernel
    rw [this] at hpl
    exact Res.ok.inj hpl
  subst e
  rcases planDays_total (z := Zone.fixed 0) (s := ⟨[0], [0], [31], months12, weekdays7⟩)
      (t := 18722 * nsDay) (p := ⟨0, 0, 1, 2, 31, 4, 0⟩) with
    ⟨q1, -⟩ | ⟨q0, ⟨r, q2, q3, q4, q5, q6⟩ | ⟨q2, q3⟩⟩
  · revert q1; decide
  · exact date_never (m := 4) (d := 31) (by decide) _ q3
  · rw [q2] at hd; cases hd

/-! ## C26: gaps and folds -/

/-- C26: in every zone, the job is scheduled at an instant whose local time is the wanted one
if there is such an instant, and else at the first whole minute after it that exists. The
wanted time has a listed hour and minute, and on regular days it matches the expression
(for the expressions of `C22_match_partial`). -/
theorem C26_gaps {src : Str} {s : Timer} {z : Zone} {t v : Int}
    (hp : Timer.parse src = .ok s) (hn : s.next z t = .ok v) :
    ∃ (n : Int) (h m k : Nat), s.schedule.hour h ∧ s.schedule.minute m ∧ k ≤ 15840 ∧
      z.wall v = wallAt n h m + k * nsMinute ∧
      (∀ j : Nat, j < k → ∀ u, z.wall u ≠ wallAt n h m + j * nsMinute) ∧
      ((∃ u, z.wall u = wallAt n h m) → z.wall v = wallAt n h m) ∧
      (∃ d : Nat, n = dayOf (z.wall (t + d * nsDay))) ∧
      (DayRegular z t → s.schedule.AnyWeekday ∨ s.schedule.AnyMonth →
        s.schedule.Matches (wallAt n h m)) := by
  have hs := ((parse_total src).1 s hp).1
  obtain ⟨p, d, -, hps, hd, -, hv⟩ := next_ok hs hn
  have b1 := hs.hour.2.2 _ hps.hour_mem
  have b2 := hs.minute.2.2 _ hps.min_mem
  obtain ⟨j, -, hj, hres, hmin⟩ := (findValid_spec _ _ _ _).1 v hv
  refine ⟨_, p.hour, p.min, j, hps.hour_mem, hps.min_mem, by omega, z.resolve_sound _ _ hres,
    fun i hi u hu => z.resolve_complete _ (hmin i (Nat.zero_le _) hi) u hu, ?_, ⟨d, rfl⟩, ?_⟩
  · rintro ⟨u, hu⟩
    rcases Nat.eq_zero_or_pos j with rfl | hj0
    · have := z.resolve_sound _ _ hres
      simpa using this
    · exfalso
      refine z.resolve_complete _ (hmin 0 (Nat.zero_le _) hj0) u ?_
      simpa using hu
  · intro hr hm
    refine ⟨_, _, _, by omega, by omega, rfl, hps.hour_mem, hps.min_mem, ?_⟩
    rw [hr d]
    exact (codeDay_iff hs hm _).mp (planDays_codeDay hs hr hps hd)

/-- C26, failure: cinit only gives up on a zone if none of the minutes of 11 days from a
wanted time on exists. -/
theorem C26_no_time {src : Str} {s : Timer} {z : Zone} {t : Int}
    (hp : Timer.parse src = .ok s) (hn : s.next z t = .panic .gapTooLong) :
    ∃ (n : Int) (h m : Nat), s.schedule.hour h ∧ s.schedule.minute m ∧
      ∀ j : Nat, j ≤ 15840 → ∀ u, z.wall u ≠ wallAt n h m + j * nsMinute := by
  have hs := ((parse_total src).1 s hp).1
  obtain ⟨p, hpl, hps⟩ := plan_ok hs (z.wall t)
  have b1 := hs.hour.2.2 _ hps.hour_mem
  have b2 := hs.minute.2.2 _ hps.min_mem
  unfold Timer.next at hn
  rw [hpl, Res.bind_ok] at hn
  have key : ∀ d, Timer.planDays z s t p = .ok d → ∃ (n : Int) (h m : Nat), s.schedule.hour h ∧
      s.schedule.minute m ∧
      ∀ j : Nat, j ≤ 15840 → ∀ u, z.wall u ≠ wallAt n h m + j * nsMinute := by
    intro d hd
    rw [hd, Res.bind_ok] at hn
    rcases addDays_cases t d with ⟨-, ha⟩ | ⟨-, ha⟩
    · rw [ha, Res.bind_ok, if_pos ⟨b1, b2⟩] at hn
      rcases (findValid_spec _ _ _ _).2 _ hn with ⟨-, h⟩ | ⟨h, -⟩
      · exact ⟨_, _, _, hps.hour_mem, hps.min_mem, fun j hj u hu =>
          z.resolve_complete _ (h j (Nat.zero_le _) (by omega)) u hu⟩
      · cases h
    · rw [ha, Res.bind_panic] at hn; cases hn
  rcases planDays_total (z := z) (s := s) (t := t) (p := p) with
    ⟨-, q2⟩ | ⟨-, ⟨r, -, -, -, -, q6⟩ | ⟨q2, -⟩⟩
  · exact key _ q2
  · exact key _ q6
  · rw [q2, Res.bind_panic] at hn; cases hn

/-! ## Concrete cases -/

/-- `30 2 * * *` -/
private def exprNight : Str := ['3', '0', ' ', '2', ' ', '*', ' ', '*', ' ', '*']

/-- A zone whose clock goes from 02:00 to 03:00 on day 18700 (2021-03-14) and is UTC
before. -/
private def springZone : Zone where
  wall t := if t < 18700 * nsDay + 2 * nsHour then t else t + nsHour
  resolve w := if w < 18700 * nsDay + 2 * nsHour then some w
    else if 18700 * nsDay + 3 * nsHour ≤ w then some (w - nsHour) else none
  resolve_sound := by
    intro w t h
    unfold nsDay nsHour at *
    split at h
    · cases h; rw [if_pos (by assumption)]
    · split at h
      · cases h; rw [if_neg (by omega)]; omega
      · cases h
  resolve_complete := by
    intro w h t
    unfold nsDay nsHour at *
    split at h
    · cases h
    · split at h
      · cases h
      · split <;> omega

private theorem springZone_wall (t : Int) : springZone.wall t =
    if t < 18700 * nsDay + 2 * nsHour then t else t + nsHour := rfl

/-- The hypotheses of `C26_gaps` and `C25_succeeds_partial` in a zone with a gap: half past
two does not exist on that day, the job is run at three. -/
example : ∃ s, Timer.parse exprNight = .ok s ∧
    s.next springZone (18700 * nsDay + 30 * nsMinute) = .ok (18700 * nsDay + 2 * nsHour) ∧
    springZone.wall (18700 * nsDay + 2 * nsHour) = wallAt 18700 3 0 ∧
    DayRegular springZone (18700 * nsDay + 30 * nsMinute) ∧
    s.schedule.AnyMonth := by
  refine ⟨⟨[30], [2], days31, months12, weekdays7⟩, by decide +kernel, by decide +kernel,
    by decide +kernel, ?_, ?_⟩
  · intro k
    rw [springZone_wall, springZone_wall (18700 * nsDay + 30 * nsMinute),
      if_pos (show (18700 * nsDay + 30 * nsMinute : Int) < 18700 * nsDay + 2 * nsHour by decide)]
    unfold dayOf
    split
    · unfold nsDay nsMinute at *; omega
    · unfold nsDay nsMinute nsHour at *; omega
  · intro v h1 h2
    show v ∈ months12
    exact mem_rangeIncl.mpr ⟨h1, h2⟩

/-- The hypotheses of `C22_match_partial`, `C23_two_weekdays_partial`, `C24_one_time_partial`
and `C24_date_partial` for a daily job: from 12:00 to 02:30 of the next day. -/
example : ∃ s, Timer.parse exprNight = .ok s ∧ s.schedule.AnyWeekday ∧
    s.next (Zone.fixed 0) (18628 * nsDay + 12 * nsHour) =
      .ok (18629 * nsDay + 2 * nsHour + 30 * nsMinute) ∧
    Fresh s.schedule (18628 * nsDay + 12 * nsHour + 0)
      (18629 * nsDay + 2 * nsHour + 30 * nsMinute + 0) := by
  refine ⟨⟨[30], [2], days31, months12, weekdays7⟩, by decide +kernel, ?_, by decide +kernel, ?_⟩
  · intro v h
    show v ∈ weekdays7
    exact mem_rangeIncl.mpr ⟨Nat.zero_le _, h⟩
  · constructor
    · intro _ h hh
      have : h = 2 := List.mem_singleton.mp hh
      subst this; decide +kernel
    · intro _ m hm
      have : m = 30 := List.mem_singleton.mp hm
      subst this; decide +kernel

/-- The hypotheses of `C24_day_or_weekday_partial`: `0 0 15 * 1`, from Tuesday 2021-01-12
to Friday the 15th. -/
example : ∃ s, Timer.parse ['0', ' ', '0', ' ', '1', '5', ' ', '*', ' ', '1'] = .ok s ∧
    15 ∈ s.day ∧ (civil (dayOf (18639 * nsDay + 0))).day < 15 ∧
    s.next (Zone.fixed 0) (18639 * nsDay) = .ok (18642 * nsDay) ∧
    civil 18642 = ⟨2021, 1, 15⟩ :=
  ⟨⟨[0], [0], [15], months12, [1]⟩, by decide +kernel, by decide, by decide +kernel,
    by decide +kernel, by decide +kernel⟩

/-- The hypotheses of `C24_calendar_partial`: `0 0 1,15 * *`, from 2021-01-20 to 2021-02-01. -/
example : ∃ s, Timer.parse ['0', ' ', '0', ' ', '1', ',', '1', '5', ' ', '*', ' ', '*'] = .ok s ∧
    (∀ x, s.schedule.day x → x ≤ 28) ∧ s.schedule.month (civil (dayOf (18647 * nsDay + 0))).month ∧
    (∃ m, s.schedule.month m ∧ (civil (dayOf (18647 * nsDay + 0))).month < m) ∧
    s.next (Zone.fixed 0) (18647 * nsDay) = .ok (18659 * nsDay) ∧
    civil 18647 = ⟨2021, 1, 20⟩ ∧ civil 18659 = ⟨2021, 2, 1⟩ := by
  refine ⟨⟨[0], [0], [1, 15], months12, weekdays7⟩, by decide +kernel, ?_, ?_,
    ⟨2, ?_, by decide +kernel⟩, by decide +kernel, by decide +kernel, by decide +kernel⟩
  · intro x hx
    have hx : x ∈ [1, 15] := hx
    simp at hx; omega
  · show _ ∈ months12
    decide +kernel
  · show _ ∈ months12
    decide

/-- The hypotheses of `C24_yearly_partial`: `0 0 29 2 *`, from 2020-02-29 to 2024-02-29. -/
example : ∃ s, Timer.parse ['0', ' ', '0', ' ', '2', '9', ' ', '2', ' ', '*'] = .ok s ∧
    (∀ y, s.schedule.day y ↔ y = 29) ∧ (∀ y, s.schedule.month y ↔ y = 2) ∧
    (civil (dayOf (18321 * nsDay + 0))).month = 2 ∧ (civil (dayOf (18321 * nsDay + 0))).day ≤ 29 ∧
    s.next (Zone.fixed 0) (18321 * nsDay) = .ok (19782 * nsDay) ∧
    civil 19782 = ⟨2024, 2, 29⟩ :=
  ⟨⟨[0], [0], [29], [2], weekdays7⟩, by decide +kernel, fun _ => List.mem_singleton,
    fun _ => List.mem_singleton, by decide +kernel, by decide +kernel, by decide +kernel,
    by decide +kernel⟩

/-- The hypothesis of `C25_impossible_partial`: `0 0 30 2 *`. -/
example : ∃ s, Timer.parse ['0', ' ', '0', ' ', '3', '0', ' ', '2', ' ', '*'] = .ok s ∧
    ∀ d m, s.schedule.day d → s.schedule.month m → maxDaysIn m < d := by
  refine ⟨⟨[0], [0], [30], [2], weekdays7⟩, by decide +kernel, fun d m hd hm => ?_⟩
  have : d = 30 := List.mem_singleton.mp hd
  have : m = 2 := List.mem_singleton.mp hm
  subst d m
  decide

end Cinit.Props
