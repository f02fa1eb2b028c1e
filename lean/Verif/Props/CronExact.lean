import Verif.Props.CronNext
import Verif.Spec.CronChosen
/-!
# Exactly what the computation of the next execution yields (C22, C24, C25)
-/

namespace Cinit.Props

open Cinit Spec

/-! ## Everything chosen is unique -/

theorem Upcoming.unique {S : Nat → Prop} {lo x c y d : Nat} (h : Upcoming S lo x c)
    (h' : Upcoming S lo y d) : x = y ∧ c = d := by
  cases h with
  | ahead a1 a2 a3 =>
    cases h' with
    | ahead b1 b2 b3 => exact ⟨Nat.le_antisymm (a3 _ b1 b2) (b3 _ a1 a2), rfl⟩
    | wrapped b1 b2 b3 => have := b2 _ a1; omega
  | wrapped a1 a2 a3 =>
    cases h' with
    | ahead b1 b2 b3 => have := a2 _ b1; omega
    | wrapped b1 b2 b3 => exact ⟨Nat.le_antisymm (a3 _ b1) (b3 _ a1), rfl⟩

theorem FirstDay.unique {P : Int → Prop} {n0 a b : Int} (h : FirstDay P n0 a)
    (h' : FirstDay P n0 b) : a = b := by
  obtain ⟨h1, h2, h3⟩ := h
  obtain ⟨h4, h5, h6⟩ := h'
  rcases Int.lt_trichotomy a b with h | h | h
  · exact absurd h2 (h6 a h1 h)
  · exact h
  · exact absurd h5 (h3 b h4 h)

theorem Skip.unique {s : Schedule} {w : Int} {a b : Nat} (h : s.Skip w a) (h' : s.Skip w b) :
    a = b := by
  rcases h with ⟨h1, h2⟩ | ⟨h1, h2⟩ <;> rcases h' with ⟨h3, h4⟩ | ⟨h3, h4⟩
  · omega
  · exact absurd h1 h3
  · exact absurd h3 h1
  · omega

theorem TimeChosen.unique {s : Schedule} {w : Int} {h m h' m' : Nat} (a : s.TimeChosen w h m)
    (b : s.TimeChosen w h' m') : h = h' ∧ m = m' := by
  obtain ⟨c, d, a1, a2⟩ := a
  obtain ⟨c', d', b1, b2⟩ := b
  obtain ⟨rfl, rfl⟩ := Upcoming.unique a1 b1
  exact ⟨(Upcoming.unique a2 b2).1, rfl⟩

theorem DateChosen.unique {s : Schedule} {w : Int} {x m y x' m' y' : Nat}
    (a : s.DateChosen w x m y) (b : s.DateChosen w x' m' y') : x = x' ∧ m = m' ∧ y = y' := by
  obtain ⟨k, c, a0, a1, a2⟩ := a
  obtain ⟨k', c', b0, b1, b2⟩ := b
  obtain rfl := Skip.unique a0 b0
  obtain ⟨rfl, rfl⟩ := Upcoming.unique a1 b1
  obtain ⟨rfl, rfl⟩ := Upcoming.unique a2 b2
  exact ⟨rfl, rfl, rfl⟩

theorem ByWeekday.unique {s : Schedule} {w a b : Int} (h : s.ByWeekday w a)
    (h' : s.ByWeekday w b) : a = b := by
  obtain ⟨x, ⟨k, c, a0, a1⟩, a2⟩ := h
  obtain ⟨y, ⟨k', c', b0, b1⟩, b2⟩ := h'
  obtain rfl := Skip.unique a0 b0
  obtain ⟨rfl, rfl⟩ := Upcoming.unique a1 b1
  exact FirstDay.unique a2 b2

theorem ByDate.unique {s : Schedule} {w a b : Int} (h : s.ByDate w a) (h' : s.ByDate w b) :
    a = b := by
  obtain ⟨x, m, y, a1, a2⟩ := h
  obtain ⟨x', m', y', b1, b2⟩ := h'
  obtain ⟨rfl, rfl, rfl⟩ := DateChosen.unique a1 b1
  exact FirstDay.unique a2 b2

theorem DayChosen.unique {s : Schedule} {w a b : Int} (h : s.DayChosen w a)
    (h' : s.DayChosen w b) : a = b := by
  rcases h with ⟨p1, p2, p3⟩ | ⟨p1, p2, p3⟩ | ⟨p1, p2, x, y, p3, p4, rfl⟩ <;>
    rcases h' with ⟨q1, q2, q3⟩ | ⟨q1, q2, q3⟩ | ⟨q1, q2, x', y', q3, q4, rfl⟩
  · exact ByWeekday.unique p3 q3
  · exact absurd ⟨p1, p2⟩ q1
  · exact absurd ⟨p1, p2⟩ q1
  · exact absurd ⟨q1, q2⟩ p1
  · exact ByDate.unique p3 q3
  · exact absurd p2 q2
  · exact absurd ⟨q1, q2⟩ p1
  · exact absurd q2 p2
  · rw [ByWeekday.unique p3 q3, ByDate.unique p4 q4]

/-! ## The plan in terms of the specification -/

private theorem upcoming_of_picked {l : List Nat} {lo x c : Nat} (h : Picked l lo (x, c)) :
    Upcoming (· ∈ l) lo x c := by
  generalize hr : (x, c) = r at h
  cases h with
  | here h1 h2 h3 => cases hr; exact .ahead h1 h2 h3
  | wrap h1 h2 h3 => cases hr; exact .wrapped h1 h2 h3

private theorem plan_skip {s : Timer} (hs : s.WF) {w : Int} {p : Timer.Plan}
    (h : PlanSpec s w p) : s.schedule.Skip w p.carryHour := by
  rcases h.carryHour_iff hs with ⟨h1, h2⟩ | ⟨h1, h2, -⟩
  · refine .inr ⟨fun ho => ?_, h1⟩
    have := ho _ h.hour_mem _ h.min_mem
    omega
  · exact .inl ⟨h2, h1⟩

private theorem plan_time {s : Timer} {w : Int} {p : Timer.Plan} (h : PlanSpec s w p) :
    s.schedule.TimeChosen w p.hour p.min := by
  obtain ⟨cm, cd, h1, h2, -⟩ := h.ex
  exact ⟨_, _, upcoming_of_picked h1, upcoming_of_picked h2⟩

private theorem plan_date {s : Timer} (hs : s.WF) {w : Int} {p : Timer.Plan}
    (h : PlanSpec s w p) : s.schedule.DateChosen w p.day p.month p.carryYear := by
  obtain ⟨cm, cd, -, -, -, h1, h2⟩ := h.ex
  exact ⟨_, _, plan_skip hs h, upcoming_of_picked h1, upcoming_of_picked h2⟩

private theorem plan_weekday {s : Timer} (hs : s.WF) {w : Int} {p : Timer.Plan}
    (h : PlanSpec s w p) : s.schedule.WeekdayChosen w p.weekday := by
  obtain ⟨cm, cd, -, -, ⟨cw, h1⟩, -⟩ := h.ex
  exact ⟨_, _, plan_skip hs h, upcoming_of_picked h1⟩

private theorem plan_byWeekday {s : Timer} (hs : s.WF) {w : Int} {p : Timer.Plan}
    (h : PlanSpec s w p) : s.schedule.ByWeekday w
      (dayOf w + Timer.weekDuration (weekdayOf (dayOf w)) p.weekday) := by
  refine ⟨_, plan_weekday hs h, by omega, weekday_hit hs h.weekday_mem, fun k h1 h2 h3 => ?_⟩
  have hk : k = dayOf w + ((k - dayOf w).toNat : Nat) := by omega
  have hle := (weekDuration_hit (weekdayOf_le (dayOf w)) (hs.weekday.2.2 _ h.weekday_mem))
  rw [hk, weekdayOf_add] at h3
  have := weekdayOf_le (dayOf w)
  omega

private theorem plan_byDate {s : Timer} (hs : s.WF) {off t : Int} {p : Timer.Plan} {r : Nat}
    (h : PlanSpec s (t + off) p) (h1 : p.carryYear * 365 ≤ r)
    (h2 : DateHit (Zone.fixed off) t p.day p.month r)
    (h3 : ∀ k, p.carryYear * 365 ≤ k → k < r → ¬ DateHit (Zone.fixed off) t p.day p.month k) :
    s.schedule.ByDate (t + off) (dayOf (t + off) + r) := by
  refine ⟨_, _, _, plan_date hs h, by omega, ?_, fun k k1 k2 k3 => ?_⟩
  · exact (dateHit_iff (dayRegular_fixed off t) _ _ _).mp h2
  · have hk : k = dayOf (t + off) + ((k - dayOf (t + off)).toNat : Nat) := by omega
    refine h3 (k - dayOf (t + off)).toNat (by omega) (by omega)
      ((dateHit_iff (dayRegular_fixed off t) _ _ _).mpr ?_)
    show (civil (dayOf (t + off) + ((k - dayOf (t + off)).toNat : Nat))).day = _ ∧
      (civil (dayOf (t + off) + ((k - dayOf (t + off)).toNat : Nat))).month = _
    rw [← hk]
    exact k3

/-- What is computed, exactly: every field is advanced on its own, and the day is looked for
by weekday, by date or both. -/
theorem C22_computed_partial {src : Str} {s : Timer} {off t v : Int}
    (hp : Timer.parse src = .ok s) (hn : s.next (Zone.fixed off) t = .ok v) :
    ∃ (n : Int) (h m : Nat), s.schedule.DayChosen (t + off) n ∧
      s.schedule.TimeChosen (t + off) h m ∧ v + off = wallAt n h m := by
  have hs := ((parse_total src).1 s hp).1
  obtain ⟨p, d, e1, e2, e3, e4, e5⟩ := next_fixed hs hn
  refine ⟨_, _, _, ?_, plan_time e1, e3⟩
  have hw := plan_byWeekday hs e1
  rcases planDays_total (z := Zone.fixed off) (s := s) (t := t) (p := p) with
    ⟨q1, q2⟩ | ⟨q0, ⟨r, q2, q3, q4, q5, q6⟩ | ⟨q2, -⟩⟩
  · rw [q2] at e2; cases e2
    obtain ⟨a1, a2⟩ := (dateRelevant_iff hs).mp q1
    exact .inl ⟨a1, a2, hw⟩
  · have hr : ¬ (s.schedule.AnyDay ∧ s.schedule.AnyMonth) := fun h => by
      rw [(dateRelevant_iff hs).mpr h] at q0; cases q0
    have hd := plan_byDate hs e1 q2 q3 q5
    rw [q6] at e2
    by_cases ha : s.schedule.AnyWeekday
    · rw [(weekdayRelevant_iff hs).mpr ha] at e2
      cases e2
      exact .inr (.inl ⟨hr, ha, hd⟩)
    · have : s.weekdayRelevant = true := by
        cases h : s.weekdayRelevant with
        | true => rfl
        | false => exact absurd ((weekdayRelevant_iff hs).mp h) ha
      rw [this] at e2
      cases e2
      refine .inr (.inr ⟨hr, ha, _, _, hw, hd, ?_⟩)
      show _ = _
      simp only [if_true, Zone.fixed]
      omega
  · rw [q2] at e2; cases e2

/-! ## C25, exactly -/

/-- C25, exactly: the computation succeeds iff the date is not restricted or the one aimed at
exists in some year. Otherwise cinit aborts. -/
theorem C25_exact_partial {src : Str} {s : Timer} {z : Zone} {t : Int}
    (hp : Timer.parse src = .ok s) (hz : GoodZone z t) :
    ((∃ v, s.next z t = .ok v) ↔ (s.schedule.AnyDay ∧ s.schedule.AnyMonth) ∨
      ∃ d m y, s.schedule.DateChosen (z.wall t) d m y ∧ d ≤ maxDaysIn m) ∧
    ((∃ v, s.next z t = .ok v) ∨ s.next z t = .panic .dateOverflow) := by
  have hs := ((parse_total src).1 s hp).1
  obtain ⟨p, hpl, hps⟩ := plan_ok hs (z.wall t)
  by_cases hgood : (s.schedule.AnyDay ∧ s.schedule.AnyMonth) ∨ p.day ≤ maxDaysIn p.month
  · have hok : ∃ v, s.next z t = .ok v := by
      obtain ⟨v, hv, -⟩ := next_of_plan hs hz (fun q hq hrel => by
        obtain ⟨e1, e2, -⟩ := DateChosen.unique (plan_date hs hq) (plan_date hs hps)
        rw [e1, e2]
        rcases hgood with h | h
        · rw [(dateRelevant_iff hs).mpr h] at hrel; cases hrel
        · exact h)
      exact ⟨v, hv⟩
    refine ⟨⟨fun _ => hgood.imp id (fun h => ⟨_, _, _, plan_date hs hps, h⟩), fun _ => hok⟩,
      .inl hok⟩
  · have hbad : s.next z t = .panic .dateOverflow := by
      have hrel : s.dateRelevant = true := by
        cases h : s.dateRelevant with
        | true => rfl
        | false => exact absurd (.inl ((dateRelevant_iff hs).mp h)) hgood
      have hb : maxDaysIn p.month < p.day := by
        apply Nat.lt_of_not_le
        exact fun h => hgood (.inr h)
      unfold Timer.next
      rw [hpl, Res.bind_ok]
      rcases planDays_total (z := z) (s := s) (t := t) (p := p) with
        ⟨q1, -⟩ | ⟨q0, ⟨r, q2, q3, q4, q5, q6⟩ | ⟨q2, q3⟩⟩
      · rw [hrel] at q1; cases q1
      · exact absurd q3 (date_never hb _)
      · rw [q2]; rfl
    refine ⟨⟨?_, ?_⟩, .inr hbad⟩
    · rintro ⟨v, hv⟩; rw [hbad] at hv; cases hv
    · rintro (h | ⟨d, m, y, h1, h2⟩)
      · exact absurd (.inl h) hgood
      · obtain ⟨rfl, rfl, -⟩ := DateChosen.unique h1 (plan_date hs hps)
        exact absurd (.inr h2) hgood

/-- What is computed, both ways: in a zone without transitions the result is the chosen time
of the chosen day. -/
theorem C25_computed_partial {src : Str} {s : Timer} {off t v : Int}
    (hp : Timer.parse src = .ok s) (h1 : 0 ≤ t) (h2 : t ≤ 100000 * nsDay) (h3 : 0 ≤ off)
    (h4 : off ≤ nsDay) :
    s.next (Zone.fixed off) t = .ok v ↔
      ∃ (n : Int) (h m : Nat), s.schedule.DayChosen (t + off) n ∧
        s.schedule.TimeChosen (t + off) h m ∧ v + off = wallAt n h m := by
  refine ⟨C22_computed_partial hp, ?_⟩
  rintro ⟨n, h, m, c1, c2, c3⟩
  have hx := (C25_exact_partial (z := Zone.fixed off) hp (goodZone_fixed h1 h2 h3 h4)).1.mpr (by
    have key : ∀ n, s.schedule.ByDate (t + off) n → ∃ d m y,
        s.schedule.DateChosen ((Zone.fixed off).wall t) d m y ∧ d ≤ maxDaysIn m := by
      rintro n ⟨d, m, y, g1, g2, ⟨rfl, rfl⟩, -⟩
      refine ⟨_, _, _, g1, ?_⟩
      apply Nat.le_of_not_lt
      exact fun h => date_never h n ⟨rfl, rfl⟩
    rcases c1 with ⟨g1, g2, -⟩ | ⟨-, -, g⟩ | ⟨-, -, a, b, -, g, -⟩
    · exact .inl ⟨g1, g2⟩
    · exact .inr (key _ g)
    · exact .inr (key _ g))
  obtain ⟨v', hv⟩ := hx
  obtain ⟨n', h', m', d1, d2, d3⟩ := C22_computed_partial hp hv
  obtain rfl := DayChosen.unique c1 d1
  obtain ⟨rfl, rfl⟩ := TimeChosen.unique c2 d2
  rw [hv]
  congr 1
  omega

/-! ## C22, exactly -/

/-- C22, exactly: the instant matches iff its month is listed and, for expressions
restricting the weekday and not the day of month, its weekday is. -/
theorem C22_exact_partial {src : Str} {s : Timer} {off t v : Int}
    (hp : Timer.parse src = .ok s) (hn : s.next (Zone.fixed off) t = .ok v) :
    s.schedule.Matches (v + off) ↔
      s.schedule.month (civil (dayOf (v + off))).month ∧
        (s.schedule.AnyDay → s.schedule.weekday (weekdayOf (dayOf (v + off)))) := by
  have hs := ((parse_total src).1 s hp).1
  obtain ⟨p, d, e1, e2, e3, e4, e5⟩ := next_fixed hs hn
  have hday := C22_day_partial hp hn
  have hW := weekdayOf_le (dayOf (v + off))
  constructor
  · rintro ⟨n, h, m, g1, g2, g3, g4, g5, g6, g7⟩
    rw [g3, dayOf_wallAt (by omega) (by omega)] at hW ⊢
    refine ⟨g6, fun ha => ?_⟩
    rcases g7 with ⟨-, k⟩ | ⟨-, -, k⟩ | ⟨k, -⟩ | ⟨k, -⟩
    · exact k _ hW
    · exact k
    · exact absurd ha k
    · exact absurd ha k
  · rintro ⟨g1, g2⟩
    have hd : dayOf (v + off) = dayOf (t + off) + d := by rw [e3, dayOf_wallAt e4 e5]
    refine ⟨dayOf (t + off) + d, _, _, by omega, by omega, e3, e1.hour_mem, e1.min_mem, ?_⟩
    rw [hd] at g1 g2 hday
    refine ⟨g1, ?_⟩
    by_cases ha : s.schedule.AnyDay <;> by_cases hb : s.schedule.AnyWeekday
    · exact .inl ⟨ha, hb⟩
    · exact .inr (.inl ⟨ha, hb, g2 ha⟩)
    · refine .inr (.inr (.inl ⟨ha, hb, ?_⟩))
      rcases planDays_codeDay hs (dayRegular_fixed off t) e1 e2 with ⟨k, -⟩ | ⟨-, k | ⟨k, -⟩⟩
      · exact absurd ((dateRelevant_iff hs).mp k).1 ha
      · exact k.1
      · rw [(weekdayRelevant_iff hs).mpr hb] at k; cases k
    · exact .inr (.inr (.inr ⟨ha, hb, hday.imp (·.1) id⟩))

/-! ## C24: starting afresh is necessary -/

/-- If the result matches and nothing is skipped, it starts afresh or is not in the future. -/
theorem fresh_of_none_skipped {src : Str} {s : Timer} {off t v : Int}
    (hp : Timer.parse src = .ok s) (hmatch : s.schedule.Matches (v + off)) (hfut : t < v)
    (hall : ∀ u, t < u → u < v → ¬ s.schedule.Matches (u + off)) :
    Fresh s.schedule (t + off) (v + off) := by
  have hs := ((parse_total src).1 s hp).1
  obtain ⟨n, h, m, g1, g2, g3, g4, g5, g6⟩ := hmatch
  have hv : t + off < wallAt n h m := by omega
  rw [wall_lt_wallAt (by omega) (by omega)] at hv
  rw [g3]
  unfold Fresh
  rw [dayOf_wallAt (by omega) (by omega), hourOf_wallAt (by omega) (by omega),
    minuteOf_wallAt (by omega)]
  have skip : ∀ h' m', s.schedule.hour h' → s.schedule.minute m' →
      (dayOf (t + off) < n ∨ (dayOf (t + off) = n ∧
        (hourOf (t + off) < h' ∨ (hourOf (t + off) = h' ∧ minuteOf (t + off) < m')))) →
      ¬ (h' < h ∨ (h' = h ∧ m' < m)) := by
    intro h' m' k1 k2 k3 k4
    have b1 := hs.hour.2.2 _ k1
    have b2 := hs.minute.2.2 _ k2
    refine hall (wallAt n h' m' - off) ?_ ?_ ⟨n, h', m', by omega, by omega, by omega, k1, k2, g6⟩
    · rw [← wall_lt_wallAt b1 b2] at k3
      omega
    · have : wallAt n h' m' < wallAt n h m := by
        unfold wallAt nsHour nsMinute; omega
      omega
  refine ⟨fun hd h' hh => ?_, fun hd m' hm => ?_⟩
  · apply Nat.le_of_not_lt
    intro hlt
    exact skip h' m hh g5 (.inl (by omega)) (.inl hlt)
  · apply Nat.le_of_not_lt
    intro hlt
    refine skip h m' g4 hm ?_ (.inr ⟨rfl, hlt⟩)
    omega

/-- C24, exactly, for expressions without restriction of day and month: nothing is skipped
iff the result starts afresh (or is not in the future at all, see C23). -/
theorem C24_weekly_exact_partial {src : Str} {s : Timer} {off t v : Int}
    (hp : Timer.parse src = .ok s) (hd : s.schedule.AnyDay) (hm : s.schedule.AnyMonth)
    (hn : s.next (Zone.fixed off) t = .ok v) :
    (∀ u, t < u → u < v → ¬ s.schedule.Matches (u + off)) ↔
      v ≤ t ∨ Fresh s.schedule (t + off) (v + off) := by
  constructor
  · intro hall
    by_cases hlt : t < v
    · exact .inr (fresh_of_none_skipped hp (C22_match_partial hp (.inr hm) hn) hlt hall)
    · exact .inl (by omega)
  · rintro (h | h) u h1 h2
    · omega
    · exact C24_weekly_partial hp hd hm hn h h1 h2

/-- `0,30 14 * * 1-5` -/
private def exprWorkdays : Str :=
  ['0', ',', '3', '0', ' ', '1', '4', ' ', '*', ' ', '*', ' ', '1', '-', '5']

/-- The hypotheses of `C24_weekly_exact_partial` with both answers: on Friday 2021-01-01 at
14:10 the next execution is at 14:30; on Saturday at 12:15 it is on Monday at 14:30 and the
one at 14:00 is skipped. -/
example : ∃ s, Timer.parse exprWorkdays = .ok s ∧ s.schedule.AnyDay ∧ s.schedule.AnyMonth ∧
    s.next (Zone.fixed 0) (18628 * nsDay + 14 * nsHour + 10 * nsMinute) =
      .ok (18628 * nsDay + 14 * nsHour + 30 * nsMinute) ∧
    s.next (Zone.fixed 0) (18629 * nsDay + 12 * nsHour + 15 * nsMinute) =
      .ok (18631 * nsDay + 14 * nsHour + 30 * nsMinute) ∧
    Fresh s.schedule (18628 * nsDay + 14 * nsHour + 10 * nsMinute)
      (18628 * nsDay + 14 * nsHour + 30 * nsMinute) ∧
    ¬ Fresh s.schedule (18629 * nsDay + 12 * nsHour + 15 * nsMinute)
      (18631 * nsDay + 14 * nsHour + 30 * nsMinute) := by
  refine ⟨⟨[0, 30], [14], rangeIncl 1 31, rangeIncl 1 12, rangeIncl 1 5⟩, by decide +kernel,
    fun v h1 h2 => mem_rangeIncl.mpr ⟨h1, h2⟩, fun v h1 h2 => mem_rangeIncl.mpr ⟨h1, h2⟩,
    by decide +kernel, by decide +kernel, ⟨fun h => ?_, fun h => ?_⟩, fun h => ?_⟩
  · exact absurd (by decide +kernel) h
  · exact absurd h (by decide +kernel)
  · exact absurd (h.2 (.inl (by decide +kernel)) 0 (List.mem_cons_self ..)) (by decide +kernel)

/-- Both sides of `C25_exact_partial`: for `0 0 31 * *` the date aimed at from 2021-04-05 on
is April 31st, from 2021-05-05 on it is May 31st. -/
example : ∃ s, Timer.parse ['0', ' ', '0', ' ', '3', '1', ' ', '*', ' ', '*'] = .ok s ∧
    ¬ s.schedule.AnyDay ∧ s.schedule.DateChosen (18722 * nsDay) 31 4 0 ∧
    s.schedule.DateChosen (18752 * nsDay) 31 5 0 := by
  have h31 : ∀ y, y ∈ [31] ↔ y = 31 := fun y => List.mem_singleton
  have over : ∀ n : Int, Schedule.Over (Timer.schedule
      ⟨[0], [0], [31], rangeIncl 1 12, rangeIncl 0 6⟩) (n * nsDay) := by
    intro n h hh m hm
    have : h = 0 := List.mem_singleton.mp hh
    have : m = 0 := List.mem_singleton.mp hm
    subst h m
    unfold wallAt dayOf nsDay nsHour nsMinute
    omega
  refine ⟨⟨[0], [0], [31], rangeIncl 1 12, rangeIncl 0 6⟩, by decide +kernel, fun h => ?_,
    ⟨1, 0, .inl ⟨over _, rfl⟩, ?_, ?_⟩, ⟨1, 0, .inl ⟨over _, rfl⟩, ?_, ?_⟩⟩
  · have := (h31 1).mp (h 1 (by omega) (by omega))
    omega
  · exact .ahead ((h31 31).mpr rfl) (by decide +kernel)
      (fun y hy _ => Nat.le_of_eq ((h31 y).mp hy).symm)
  · refine .ahead (mem_rangeIncl.mpr ⟨by omega, by omega⟩) (by decide +kernel) (fun y _ hy => ?_)
    have : (civil (dayOf (18722 * nsDay))).month = 4 := by decide +kernel
    omega
  · exact .ahead ((h31 31).mpr rfl) (by decide +kernel)
      (fun y hy _ => Nat.le_of_eq ((h31 y).mp hy).symm)
  · refine .ahead (mem_rangeIncl.mpr ⟨by omega, by omega⟩) (by decide +kernel) (fun y _ hy => ?_)
    have : (civil (dayOf (18752 * nsDay))).month = 5 := by decide +kernel
    omega

/-! ## C26, exactly, whatever the clock does -/

theorem FirstStep.unique {P : Nat → Prop} {d0 a b : Nat} (h : FirstStep P d0 a)
    (h' : FirstStep P d0 b) : a = b := by
  obtain ⟨h1, h2, h3⟩ := h
  obtain ⟨h4, h5, h6⟩ := h'
  rcases Nat.lt_trichotomy a b with h | h | h
  · exact absurd h2 (h6 a h1 h)
  · exact h
  · exact absurd h5 (h3 b h4 h)

theorem WeekdayChosen.unique {s : Schedule} {w : Int} {x y : Nat} (h : s.WeekdayChosen w x)
    (h' : s.WeekdayChosen w y) : x = y := by
  obtain ⟨k, c, a0, a1⟩ := h
  obtain ⟨k', c', b0, b1⟩ := h'
  obtain rfl := Skip.unique a0 b0
  exact (Upcoming.unique a1 b1).1

theorem StepsByWeekday.unique {s : Schedule} {z : Zone} {t : Int} {a b : Nat}
    (h : s.StepsByWeekday z t a) (h' : s.StepsByWeekday z t b) : a = b := by
  obtain ⟨x, h1, h2⟩ := h
  obtain ⟨y, h3, h4⟩ := h'
  obtain rfl := WeekdayChosen.unique h1 h3
  exact FirstStep.unique h2 h4

theorem StepsByDate.unique {s : Schedule} {z : Zone} {t : Int} {a b : Nat}
    (h : s.StepsByDate z t a) (h' : s.StepsByDate z t b) : a = b := by
  obtain ⟨x, m, y, h1, h2, -⟩ := h
  obtain ⟨x', m', y', h3, h4, -⟩ := h'
  obtain ⟨rfl, rfl, rfl⟩ := DateChosen.unique h1 h3
  exact FirstStep.unique h2 h4

theorem StepsChosen.unique {s : Schedule} {z : Zone} {t : Int} {a b : Nat}
    (h : s.StepsChosen z t a) (h' : s.StepsChosen z t b) : a = b := by
  rcases h with ⟨p1, p2, p3⟩ | ⟨p1, p2, p3⟩ | ⟨p1, p2, x, y, p3, p4, rfl⟩ <;>
    rcases h' with ⟨q1, q2, q3⟩ | ⟨q1, q2, q3⟩ | ⟨q1, q2, x', y', q3, q4, rfl⟩
  · exact StepsByWeekday.unique p3 q3
  · exact absurd ⟨p1, p2⟩ q1
  · exact absurd ⟨p1, p2⟩ q1
  · exact absurd ⟨q1, q2⟩ p1
  · exact StepsByDate.unique p3 q3
  · exact absurd p2 q2
  · exact absurd ⟨q1, q2⟩ p1
  · exact absurd q2 p2
  · rw [StepsByWeekday.unique p3 q3, StepsByDate.unique p4 q4]

/-- The local time wanted is determined. -/
theorem C26_wanted_unique {s : Schedule} {z : Zone} {t w w' : Int} (h : s.Wanted z t w)
    (h' : s.Wanted z t w') : w = w' := by
  obtain ⟨d, x, m, h1, -, h2, rfl⟩ := h
  obtain ⟨d', x', m', h3, -, h4, rfl⟩ := h'
  obtain rfl := StepsChosen.unique h1 h3
  obtain ⟨rfl, rfl⟩ := TimeChosen.unique h2 h4
  rfl

theorem Occurs.unique {z : Zone} {w v v' : Int} (h : Occurs z w v) (h' : Occurs z w v') : v = v' := by
  obtain ⟨k, -, -, h1, h2⟩ := h
  obtain ⟨k', -, -, h3, h4⟩ := h'
  rcases Nat.lt_trichotomy k k' with hk | rfl | hk
  · exact absurd (z.resolve_sound _ _ h1) (h4 k hk v)
  · rw [h1] at h3; exact Option.some.inj h3
  · exact absurd (z.resolve_sound _ _ h3) (h2 k' hk v')

private theorem plan_stepsByWeekday {s : Timer} (hs : s.WF) {z : Zone} {t : Int} {p : Timer.Plan}
    (h : PlanSpec s (z.wall t) p) : s.schedule.StepsByWeekday z t
      (Timer.weekDuration (weekdayOf (dayOf (z.wall t))) p.weekday) := by
  refine ⟨_, plan_weekday hs h, Nat.zero_le _, weekday_hit hs h.weekday_mem, fun k _ h2 h3 => ?_⟩
  have hle := (weekDuration_hit (weekdayOf_le (dayOf (z.wall t))) (hs.weekday.2.2 _ h.weekday_mem))
  have h3 : weekdayOf (dayOf (z.wall t) + k) = p.weekday := h3
  rw [weekdayOf_add] at h3
  have := weekdayOf_le (dayOf (z.wall t))
  omega

private theorem planDays_chosen {s : Timer} (hs : s.WF) {z : Zone} {t : Int} {p : Timer.Plan}
    (h : PlanSpec s (z.wall t) p) (d : Nat) :
    Timer.planDays z s t p = .ok d ↔ s.schedule.StepsChosen z t d := by
  have hw := plan_stepsByWeekday hs h
  have hdate := plan_date hs h
  rcases planDays_total (z := z) (s := s) (t := t) (p := p) with
    ⟨q1, q2⟩ | ⟨q0, hq⟩
  · obtain ⟨a1, a2⟩ := (dateRelevant_iff hs).mp q1
    rw [q2]
    constructor
    · intro e; cases e
      exact .inl ⟨a1, a2, hw⟩
    · intro hc
      rw [StepsChosen.unique hc (.inl ⟨a1, a2, hw⟩)]
  · have hr : ¬ (s.schedule.AnyDay ∧ s.schedule.AnyMonth) := fun h => by
      rw [(dateRelevant_iff hs).mpr h] at q0; cases q0
    rcases hq with ⟨r, q2, q3, q4, q5, q6⟩ | ⟨q2, q3⟩
    · have hd : s.schedule.StepsByDate z t r :=
        ⟨_, _, _, hdate, ⟨by omega, q3, fun k k1 k2 => q5 k (by omega) k2⟩, q4⟩
      have hc : s.schedule.StepsChosen z t (if s.weekdayRelevant then
          Min.min (Timer.weekDuration (weekdayOf (dayOf (z.wall t))) p.weekday) r else r) := by
        by_cases ha : s.schedule.AnyWeekday
        · rw [(weekdayRelevant_iff hs).mpr ha]
          exact .inr (.inl ⟨hr, ha, hd⟩)
        · have : s.weekdayRelevant = true := by
            cases h : s.weekdayRelevant with
            | true => rfl
            | false => exact absurd ((weekdayRelevant_iff hs).mp h) ha
          rw [this]
          exact .inr (.inr ⟨hr, ha, _, _, hw, hd, rfl⟩)
      rw [q6]
      constructor
      · intro e; cases e; exact hc
      · intro h'; rw [StepsChosen.unique h' hc]
    · rw [q2]
      refine ⟨nofun, fun hc => ?_⟩
      have hno : ∀ e, ¬ s.schedule.StepsByDate z t e := by
        rintro e ⟨x, m, y, g1, ⟨g2, g3, -⟩, g4⟩
        obtain ⟨rfl, rfl, rfl⟩ := DateChosen.unique g1 hdate
        exact q3 e (by omega) g4 g3
      rcases hc with ⟨p1, p2, -⟩ | ⟨-, -, p3⟩ | ⟨-, -, x, y, -, p4, -⟩
      · exact absurd ⟨p1, p2⟩ hr
      · exact absurd p3 (hno _)
      · exact absurd p4 (hno _)

private theorem findValid_occurs {z : Zone} {w v : Int} :
    Timer.findValid z w 15841 0 = .ok v ↔ Occurs z w v := by
  have key : ∀ fuel k, Timer.findValid z w fuel k = .ok v ↔ ∃ j, k ≤ j ∧ j < k + fuel ∧
      w + j * nsMinute ≤ chronoMax ∧ z.resolve (w + j * nsMinute) = some v ∧
      ∀ i, k ≤ i → i < j → z.resolve (w + i * nsMinute) = none := by
    intro fuel
    induction fuel with
    | zero =>
      intro k
      exact ⟨nofun, fun ⟨j, h1, h2, _⟩ => by omega⟩
    | succ fuel ih =>
      intro k
      unfold Timer.findValid
      split
      · rename_i hc
        refine ⟨nofun, fun ⟨j, h1, h2, h3, h4, h5⟩ => ?_⟩
        exfalso
        have : w + k * nsMinute ≤ w + j * nsMinute := by unfold nsMinute; omega
        omega
      · rename_i hc
        cases hr : z.resolve (w + k * nsMinute) with
        | some u =>
          constructor
          · intro e; cases e
            exact ⟨k, Nat.le_refl _, by omega, by omega, hr, fun i h1 h2 => by omega⟩
          · rintro ⟨j, h1, h2, h3, h4, h5⟩
            rcases Nat.eq_or_lt_of_le h1 with rfl | hlt
            · rw [hr] at h4; cases h4; rfl
            · have := h5 k (Nat.le_refl _) hlt
              rw [hr] at this; cases this
        | none =>
          refine (ih (k + 1)).trans ⟨?_, ?_⟩
          · rintro ⟨j, h1, h2, h3, h4, h5⟩
            refine ⟨j, by omega, by omega, h3, h4, fun i i1 i2 => ?_⟩
            rcases Nat.eq_or_lt_of_le i1 with rfl | hlt
            · exact hr
            · exact h5 i hlt i2
          · rintro ⟨j, h1, h2, h3, h4, h5⟩
            rcases Nat.eq_or_lt_of_le h1 with rfl | hlt
            · rw [hr] at h4; cases h4
            · exact ⟨j, hlt, by omega, h3, h4, fun i i1 i2 => h5 i (by omega) i2⟩
  rw [key]
  constructor
  · rintro ⟨j, -, h2, h3, h4, h5⟩
    exact ⟨j, by omega, h3, h4, fun i hi u hu => z.resolve_complete _ (h5 i (Nat.zero_le _) hi) u hu⟩
  · rintro ⟨j, h2, h3, h4, h5⟩
    refine ⟨j, Nat.zero_le _, by omega, h3, h4, fun i _ hi => ?_⟩
    cases hr : z.resolve (w + i * nsMinute) with
    | none => rfl
    | some u => exact absurd (z.resolve_sound _ _ hr) (h5 i hi u)

/-- C26, exactly, in every time zone: the job is scheduled at `v` if and only if `v` shows the
first existing minute from the local time wanted on; both are determined
(`C26_wanted_unique`, `Occurs.unique`). -/
theorem C26_exact {src : Str} {s : Timer} {z : Zone} {t v : Int} (hp : Timer.parse src = .ok s) :
    s.next z t = .ok v ↔ ∃ w, s.schedule.Wanted z t w ∧ Occurs z w v := by
  have hs := ((parse_total src).1 s hp).1
  obtain ⟨p, hpl, hps⟩ := plan_ok hs (z.wall t)
  have b1 := hs.hour.2.2 _ hps.hour_mem
  have b2 := hs.minute.2.2 _ hps.min_mem
  unfold Timer.next
  rw [hpl, Res.bind_ok]
  constructor
  · intro hn
    obtain ⟨d, hd, hn⟩ := Res.bind_eq_ok.mp hn
    obtain ⟨u, hu, hn⟩ := Res.bind_eq_ok.mp hn
    obtain ⟨hc, rfl⟩ := addDays_ok.mp hu
    rw [if_pos ⟨b1, b2⟩] at hn
    exact ⟨_, ⟨d, _, _, (planDays_chosen hs hps d).mp hd, hc, plan_time hps, rfl⟩,
      findValid_occurs.mp hn⟩
  · rintro ⟨w, ⟨d, h, m, g1, g2, g3, rfl⟩, g4⟩
    obtain ⟨rfl, rfl⟩ := TimeChosen.unique g3 (plan_time hps)
    rw [(planDays_chosen hs hps d).mpr g1, Res.bind_ok, addDays_ok.mpr ⟨g2, rfl⟩, Res.bind_ok,
      if_pos ⟨b1, b2⟩]
    exact findValid_occurs.mpr g4

/-- C26: if the local time wanted exists, the job is scheduled at an instant showing it. -/
theorem C26_shown {z : Zone} {w v : Int} (h : Occurs z w v) (hw : ∃ u, z.wall u = w) :
    z.wall v = w := by
  obtain ⟨k, -, -, h1, h2⟩ := h
  rcases Nat.eq_zero_or_pos k with rfl | hk
  · have := z.resolve_sound _ _ h1
    simpa using this
  · obtain ⟨u, hu⟩ := hw
    exact absurd (by simpa using hu) (h2 0 hk u)

/-- Where 24 hours always lead to the next date, the date wanted is the day chosen in the
calendar. -/
theorem C26_regular {s : Schedule} {z : Zone} {t w : Int} (hr : DayRegular z t)
    (h : s.Wanted z t w) : ∃ n h m, s.DayChosen (z.wall t) n ∧ s.TimeChosen (z.wall t) h m ∧
      w = wallAt n h m := by
  obtain ⟨d, x, m, h1, -, h2, rfl⟩ := h
  refine ⟨_, x, m, ?_, h2, rfl⟩
  have hd : ∀ k, dateAfter z t k = dayOf (z.wall t) + k := hr
  have hfirst : ∀ {P : Int → Prop} {d0 d : Nat}, FirstStep (fun k => P (dayOf (z.wall t) + k)) d0 d →
      FirstDay P (dayOf (z.wall t) + d0) (dayOf (z.wall t) + d) := by
    intro P d0 d ⟨f1, f2, f3⟩
    refine ⟨by omega, f2, fun k k1 k2 k3 => ?_⟩
    refine f3 (k - dayOf (z.wall t)).toNat (by omega) (by omega) ?_
    have hk : dayOf (z.wall t) + ((k - dayOf (z.wall t)).toNat : Nat) = k := by omega
    show P (dayOf (z.wall t) + ((k - dayOf (z.wall t)).toNat : Nat))
    rw [hk]
    exact k3
  have hweek : ∀ {d}, s.StepsByWeekday z t d → s.ByWeekday (z.wall t) (dateAfter z t d) := by
    rintro d ⟨x, g1, g2⟩
    rw [hd]
    have := hfirst (P := fun k => weekdayOf k = x) g2
    exact ⟨x, g1, by simpa using this⟩
  have hdate : ∀ {d}, s.StepsByDate z t d → s.ByDate (z.wall t) (dateAfter z t d) := by
    rintro d ⟨x, m, y, g1, g2, -⟩
    simp only [hd] at g2
    rw [hd]
    have := hfirst (P := fun k => (civil k).day = x ∧ (civil k).month = m) g2
    exact ⟨x, m, y, g1, by simpa using this⟩
  rcases h1 with ⟨p1, p2, p3⟩ | ⟨p1, p2, p3⟩ | ⟨p1, p2, a, b, p3, p4, rfl⟩
  · exact .inl ⟨p1, p2, hweek p3⟩
  · exact .inr (.inl ⟨p1, p2, hdate p3⟩)
  · refine .inr (.inr ⟨p1, p2, _, _, hweek p3, hdate p4, ?_⟩)
    rw [hd, hd, hd]
    omega

end Cinit.Props
