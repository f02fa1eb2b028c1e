import Verif.Props.CronExact
/-!
# Exactly when the computation of the next execution skips none (C24)
-/

namespace Cinit.Props

open Cinit Spec

/-! ## From instants to days -/

private theorem skip_of_plan {s : Timer} (hs : s.WF) {w : Int} {p : Timer.Plan}
    (h : PlanSpec s w p) {k : Nat} (hk : s.schedule.Skip w k) : p.carryHour = k := by
  rcases h.carryHour_iff hs with ⟨h1, h2⟩ | ⟨h1, h2, -⟩
  · rcases hk with ⟨k1, -⟩ | ⟨-, k2⟩
    · have := k1 _ h.hour_mem _ h.min_mem
      omega
    · omega
  · rcases hk with ⟨-, k2⟩ | ⟨k1, -⟩
    · omega
    · exact absurd h2 k1

/-- C24, exactly, for every expression: nothing is skipped iff the result is not in the future
at all (see C23), or no day on which the job is due is passed over and the time of day starts
afresh. The first day in question is today, or tomorrow if all listed times of today are
over. -/
theorem C24_days_partial {src : Str} {s : Timer} {off t v : Int} {k : Nat}
    (hp : Timer.parse src = .ok s) (hn : s.next (Zone.fixed off) t = .ok v)
    (hk : s.schedule.Skip (t + off) k) :
    (∀ u, t < u → u < v → ¬ s.schedule.Matches (u + off)) ↔
      v ≤ t ∨ (s.schedule.DayMatches (dayOf (v + off)) → Fresh s.schedule (t + off) (v + off)) ∧
        ∀ n, dayOf (t + off) + k ≤ n → n < dayOf (v + off) → ¬ s.schedule.DayMatches n := by
  have hs := ((parse_total src).1 s hp).1
  obtain ⟨p, d, e1, e2, e3, e4, e5⟩ := next_fixed hs hn
  have hc := skip_of_plan hs e1 hk
  have hdv : dayOf (v + off) = dayOf (t + off) + d := by rw [e3, dayOf_wallAt e4 e5]
  constructor
  · intro hall
    by_cases hlt : t < v
    · refine .inr ⟨fun hm => ?_, fun n h1 h2 h3 => ?_⟩
      · refine fresh_of_none_skipped hp ?_ hlt hall
        rw [hdv] at hm
        exact ⟨_, _, _, by omega, by omega, e3, e1.hour_mem, e1.min_mem, hm⟩
      · have before : ∀ h m, h ≤ 23 → m ≤ 59 → wallAt n h m < v + off := by
          intro h m b1 b2
          rw [e3]
          rw [hdv] at h2
          unfold wallAt nsDay nsHour nsMinute
          omega
        by_cases hn0 : n = dayOf (t + off)
        · subst hn0
          rcases hk with ⟨-, k2⟩ | ⟨k1, -⟩
          · omega
          · refine k1 fun h hh m hm => ?_
            apply Int.not_lt.mp
            intro hgt
            have b1 := hs.hour.2.2 _ hh
            have b2 := hs.minute.2.2 _ hm
            have b3 := before h m b1 b2
            exact hall (wallAt (dayOf (t + off)) h m - off) (by omega) (by omega)
              ⟨_, h, m, by omega, by omega, by omega, hh, hm, h3⟩
        · have b3 := before p.hour p.min e4 e5
          have b4 : t + off < wallAt n p.hour p.min := by
            rw [wall_lt_wallAt e4 e5]
            omega
          exact hall (wallAt n p.hour p.min - off) (by omega) (by omega)
            ⟨_, _, _, by omega, by omega, by omega, e1.hour_mem, e1.min_mem, h3⟩
    · exact .inl (by omega)
  · rintro (h | ⟨hf, hno⟩) u h1 h2
    · omega
    · rw [hdv] at hf hno
      have hD : ∀ j : Nat, 0 < j → j < d → ¬ s.schedule.DayMatches (dayOf (t + off) + j) := by
        intro j j1 j2
        refine hno _ ?_ (by omega)
        rcases hk with ⟨-, k2⟩ | ⟨-, k2⟩ <;> omega
      have hT : d ≠ 0 → s.schedule.DayMatches (dayOf (t + off)) → p.carryHour = 1 := by
        intro hd hm
        rcases hk with ⟨-, k2⟩ | ⟨-, k2⟩
        · omega
        · exact absurd hm (hno _ (by omega) (by omega))
      by_cases hm : s.schedule.DayMatches (dayOf (t + off) + d)
      · have hf' := hf hm
        unfold Fresh at hf'
        rw [e3, dayOf_wallAt e4 e5, hourOf_wallAt e4 e5, minuteOf_wallAt e5] at hf'
        exact no_skip hs e1 (d := d) (fun h0 => hf'.1 (by omega))
          (fun h0 => hf'.2 (h0.imp (fun h => by omega) id)) hD hT
          (show t + off < u + off by omega) (by rw [← e3]; omega)
      · rintro ⟨n, h, m, b1, b2, b3, b4, b5, b6⟩
        have g1 : t + off < wallAt n h m := by omega
        have g2 : wallAt n h m < wallAt (dayOf (t + off) + d) p.hour p.min := by omega
        rw [wall_lt_wallAt (by omega) (by omega)] at g1
        rw [wall_lt_wallAt e4 e5, dayOf_wallAt (by omega) (by omega)] at g2
        by_cases hnd : n = dayOf (t + off) + d
        · rw [hnd] at b6
          exact hm b6
        · rcases Int.lt_or_le (dayOf (t + off)) n with hlt | hge
          · refine hD (n - dayOf (t + off)).toNat (by omega) (by omega) ?_
            rw [show dayOf (t + off) + ((n - dayOf (t + off)).toNat : Int) = n from by omega]
            exact b6
          · have hn0 : n = dayOf (t + off) := by omega
            subst hn0
            have h0 := hT (by omega) b6
            rcases hk with ⟨k1, -⟩ | ⟨-, k2⟩
            · have := k1 h b4 m b5
              omega
            · omega

/-! ## Which days are passed over -/

/-- A date in an earlier month of the next year is less than 365 days ahead. -/
private theorem before_365 {n0 j Y : Int} {M D m x : Nat} (h0 : civil n0 = ⟨Y, M, D⟩)
    (h1 : civil j = ⟨Y + 1, m, x⟩) (hm : m < M) (hx : x ≤ 28) : j < n0 + 365 := by
  have hv := civil_valid n0
  have hv' := civil_valid j
  have e0 := ordinal_civil n0
  have e1 := ordinal_civil j
  rw [h0] at hv e0
  rw [h1] at hv' e1
  unfold ValidDate at hv hv'
  unfold ordinal marchYear at e0 e1
  simp only at hv hv' e0 e1
  generalize ordinal (civil 0) = c at *
  obtain ⟨a1, a2, a3, -⟩ := hv
  obtain ⟨b1, b2, b3, -⟩ := hv'
  by_cases hM : M ≤ 2
  · rw [if_pos hM, if_pos hM] at e0
    rw [if_pos (by omega), if_pos (by omega)] at e1
    push_cast at e0 e1
    omega
  · rw [if_neg hM, if_neg hM] at e0
    by_cases hm2 : m ≤ 2
    · rw [if_pos hm2, if_pos hm2] at e1
      rw [show Y + 1 - 1 = Y from by omega] at e1
      push_cast at e0 e1
      omega
    · rw [if_neg hm2, if_neg hm2] at e1
      omega

/-- Every date up to the 28th occurs next year. -/
private theorem next_year {n0 : Int} {m x : Nat} (hm : 1 ≤ m ∧ m ≤ 12) (hx : 1 ≤ x ∧ x ≤ 28) :
    ∃ j, civil j = ⟨(civil n0).year + 1, m, x⟩ := by
  obtain ⟨k, -, hk⟩ := civil_to_year n0
  have := daysIn_pos ((civil n0).year + 1) m
  obtain ⟨k', -, hk'⟩ := civil_in_year hk hm (d := x) (by omega)
  exact ⟨_, hk'⟩

/-- The starting points from which no day is passed over: the current month is listed and a
listed day of it is still ahead; or there is a later listed month, and either no listed day is
ahead, counting from the current day of month, or the current month is not listed and all
listed days are ahead; or only the current month is listed, no listed day of it is ahead, and
the listed dates of next year are at least 365 days away. -/
def Lucky (s : Schedule) (n0 : Int) (k : Nat) : Prop :=
  (s.month (civil n0).month ∧ ∃ x, s.day x ∧ (civil n0).day + k ≤ x) ∨
  ((∃ m, s.month m ∧ (civil n0).month < m) ∧
    ((∀ x, s.day x → x < (civil n0).day + k) ∨
      (¬ s.month (civil n0).month ∧ ∀ x, s.day x → (civil n0).day + k ≤ x))) ∨
  ((∀ m, s.month m → m = (civil n0).month) ∧ (∀ x, s.day x → x < (civil n0).day + k) ∧
    ∀ x n, s.day x → civil n = ⟨(civil n0).year + 1, (civil n0).month, x⟩ → n0 + 365 ≤ n)

private theorem date_first {s : Schedule} {n0 n : Int} {k c x m years : Nat} (hk : k ≤ 1)
    (hS : ∀ x, s.day x → 1 ≤ x ∧ x ≤ 28) (hT : ∀ m, s.month m → 1 ≤ m ∧ m ≤ 12)
    (hx : Upcoming s.day ((civil n0).day + k) x c)
    (hm : Upcoming s.month ((civil n0).month + c) m years)
    (hf : FirstDay (fun j => (civil j).day = x ∧ (civil j).month = m) (n0 + 365 * years) n) :
    (∀ j, n0 + k ≤ j → j < n → ¬ (s.day (civil j).day ∧ s.month (civil j).month)) ↔
      Lucky s n0 k := by
  obtain ⟨f1, ⟨f2, f3⟩, f4⟩ := hf
  simp only at f4
  have hge : ∀ j, n0 + k ≤ j → (civil n0).year < (civil j).year ∨
      ((civil n0).year = (civil j).year ∧ ((civil n0).month < (civil j).month ∨
        ((civil n0).month = (civil j).month ∧ (civil n0).day + k ≤ (civil j).day))) := by
    intro j hj
    rcases Int.lt_or_le n0 j with h | h
    · have := civil_mono.mp h
      unfold DateLt at this
      omega
    · have : j = n0 := by omega
      subst this
      omega
  have hlt : ∀ {a b : Int} {y : Int} {m d : Nat}, a < b → civil b = ⟨y, m, d⟩ →
      (civil a).year < y ∨ ((civil a).year = y ∧ ((civil a).month < m ∨
        ((civil a).month = m ∧ (civil a).day < d))) := by
    intro a b y m d h hb
    have := civil_mono.mp h
    unfold DateLt at this
    rw [hb] at this
    exact this
  have hgt : ∀ {a b : Int} {y : Int} {m d : Nat}, civil b = ⟨y, m, d⟩ →
      ((civil a).year < y ∨ ((civil a).year = y ∧ ((civil a).month < m ∨
        ((civil a).month = m ∧ (civil a).day < d)))) → a < b := by
    intro a b y m d hb h
    refine civil_mono.mpr ?_
    unfold DateLt
    rw [hb]
    exact h
  -- the date chosen lies in this year, if it comes at all
  have reach : years = 0 → ∀ j, n0 ≤ j → civil j = ⟨(civil n0).year, m, x⟩ → n = j := by
    intro hy j h1 h2
    subst hy
    have hle : n ≤ j := by
      apply Int.not_lt.mp
      intro h
      exact f4 j (by omega) h (by rw [h2]; exact ⟨rfl, rfl⟩)
    rcases Int.lt_or_le n j with h | h
    · have a := hlt h h2
      have b : n0 ≤ n := by omega
      rcases Int.lt_or_le n0 n with h' | h'
      · have := civil_mono.mp h'
        unfold DateLt at this
        omega
      · have : n = n0 := by omega
        subst this
        omega
    · omega
  have later : ∀ d, 1 ≤ d → d ≤ 28 → (civil n0).month < m →
      ∃ j, n0 < j ∧ civil j = ⟨(civil n0).year, m, d⟩ := by
    intro d d1 d2 h
    have hm' : s.month m := by cases hm <;> assumption
    have := daysIn_pos (civil n0).year m
    obtain ⟨k', hk'⟩ := civil_later_this_year (n := n0) (d := d) h (hT m hm').2 d1 (by omega)
    exact ⟨_, hgt hk' (by omega), hk'⟩
  -- the listed date of next year that is passed over
  have missed : years = 1 → s.day x → s.month m → m < (civil n0).month →
      ∃ j, n0 + k ≤ j ∧ j < n ∧ s.day (civil j).day ∧ s.month (civil j).month := by
    intro hy h1 h2 h3
    subst hy
    obtain ⟨j, hj⟩ := next_year (n0 := n0) (hT m h2) (hS x h1)
    have a := before_365 (n0 := n0) rfl hj h3 (hS x h1).2
    have b := hgt (a := n0) hj (by omega)
    refine ⟨j, by omega, by omega, ?_⟩
    rw [hj]
    exact ⟨h1, h2⟩
  cases hx with
  | ahead x1 x2 x3 =>
    have hx28 := hS x x1
    cases hm with
    | ahead m1 m2 m3 =>
      rcases Nat.lt_or_ge (civil n0).month m with hmm | hmm
      · have hun : ¬ s.month (civil n0).month := fun h => by
          have := m3 _ h (by omega); omega
        obtain ⟨j, j1, j2⟩ := later x hx28.1 hx28.2 hmm
        obtain rfl := reach rfl j (by omega) j2
        constructor
        · intro hall
          refine .inr (.inl ⟨⟨m, m1, hmm⟩, .inr ⟨hun, fun y hy => ?_⟩⟩)
          apply Nat.le_of_not_lt
          intro h
          have hy28 := hS y hy
          obtain ⟨i, i1, i2⟩ := later y hy28.1 hy28.2 hmm
          refine hall i (by omega) (hgt j2 ?_) ?_
          · rw [i2]; exact .inr ⟨rfl, .inr ⟨rfl, show y < x by omega⟩⟩
          · rw [i2]; exact ⟨hy, m1⟩
        · rintro (⟨h, -⟩ | ⟨-, h | ⟨-, h⟩⟩ | ⟨h, -⟩) i i1 i2 ⟨i3, i4⟩
          · exact hun h
          · have := h _ x1; omega
          · have a := hge i i1
            have b := hlt i2 j2
            have c := m3 _ i4
            have d := x3 _ i3 (h _ i3)
            have e : (civil i).month ≠ (civil n0).month := fun he => hun (he ▸ i4)
            omega
          · have := h _ m1; omega
      · have hme : m = (civil n0).month := by omega
        have hj : civil (n0 + (x - (civil n0).day : Nat)) = ⟨(civil n0).year, m, x⟩ := by
          have := daysIn_pos (civil n0).year m
          have hw := civil_within (n := n0) (y := (civil n0).year) (m := m)
            (d := (civil n0).day) (k := x - (civil n0).day) (by rw [hme]) (by omega)
          rw [hw, show (civil n0).day + (x - (civil n0).day) = x from by omega]
        have := reach rfl _ (by omega) hj
        constructor
        · exact fun _ => .inl ⟨hme ▸ m1, x, x1, x2⟩
        · rintro - i i1 i2 ⟨i3, i4⟩
          rw [this] at i2
          have a := hge i i1
          have b := hlt i2 hj
          have c := x3 _ i3
          omega
    | wrapped m1 m2 m3 =>
      have hlt' := m2 _ m1
      constructor
      · intro hall
        obtain ⟨j, j1, j2, j3⟩ := missed rfl x1 m1 (by omega)
        exact absurd j3 (hall j j1 j2)
      · rintro (⟨h, -⟩ | ⟨⟨m', h, h'⟩, -⟩ | ⟨h, -⟩)
        · have := m2 _ h; omega
        · have := m2 _ h; omega
        · have := h _ m1; omega
  | wrapped x1 x2 x3 =>
    have hx28 := hS x x1
    cases hm with
    | ahead m1 m2 m3 =>
      obtain ⟨j, j1, j2⟩ := later x hx28.1 hx28.2 (by omega)
      obtain rfl := reach rfl j (by omega) j2
      constructor
      · exact fun _ => .inr (.inl ⟨⟨m, m1, by omega⟩, .inl x2⟩)
      · rintro - i i1 i2 ⟨i3, i4⟩
        have a := hge i i1
        have b := hlt i2 j2
        have c := m3 _ i4
        have d := x2 _ i3
        have e := x3 _ i3
        omega
    | wrapped m1 m2 m3 =>
      have hlt' := m2 _ m1
      rcases Nat.lt_or_ge m (civil n0).month with hmm | hmm
      · constructor
        · intro hall
          obtain ⟨j, j1, j2, j3⟩ := missed rfl x1 m1 hmm
          exact absurd j3 (hall j j1 j2)
        · rintro (⟨-, y, h, h'⟩ | ⟨⟨m', h, h'⟩, -⟩ | ⟨h, -⟩)
          · have := x2 _ h; omega
          · have := m2 _ h; omega
          · have := h _ m1; omega
      · have hme : m = (civil n0).month := by omega
        have only : ∀ m', s.month m' → m' = (civil n0).month := by
          intro m' h
          have := m2 _ h
          have := m3 _ h
          omega
        obtain ⟨j, hj⟩ := next_year (n0 := n0) (hT m m1) hx28
        have hj0 := hgt (a := n0) hj (by omega)
        constructor
        · intro hall
          refine .inr (.inr ⟨only, x2, fun y i hy hi => ?_⟩)
          have hji : j ≤ i := by
            apply Int.not_lt.mp
            intro h
            have := hlt h hj
            rw [hi] at this
            have := x3 _ hy
            simp only at *
            omega
          rcases Int.lt_or_le j (n0 + 365) with h | h
          · refine absurd ?_ (hall j (by omega) (by omega))
            rw [hj]
            exact ⟨x1, m1⟩
          · omega
        · rintro (⟨-, y, h, h'⟩ | ⟨⟨m', h, h'⟩, -⟩ | ⟨-, -, h⟩) i i1 i2 ⟨i3, i4⟩
          · have := x2 _ h; omega
          · have := m2 _ h; omega
          · have h365 := h x j x1 (by rw [hj, hme])
            have hnj : n ≤ j := by
              apply Int.not_lt.mp
              intro h'
              exact f4 j (by omega) h' (by rw [hj]; exact ⟨rfl, rfl⟩)
            have a := hge i i1
            have b := hlt (show i < j by omega) hj
            have c := only _ i4
            have d := x2 _ i3
            have e := x3 _ i3
            omega

/-- C24, exactly, for expressions without restriction of the weekday whose listed days occur
in every month: nothing is skipped iff the result is not in the future at all (see C23), or it
starts afresh and the starting point is a lucky one. -/
theorem C24_calendar_exact_partial {src : Str} {s : Timer} {off t v : Int} {k : Nat}
    (hp : Timer.parse src = .ok s) (hw : s.schedule.AnyWeekday)
    (h28 : ∀ x, s.schedule.day x → x ≤ 28)
    (hn : s.next (Zone.fixed off) t = .ok v) (hk : s.schedule.Skip (t + off) k) :
    (∀ u, t < u → u < v → ¬ s.schedule.Matches (u + off)) ↔
      v ≤ t ∨ Fresh s.schedule (t + off) (v + off) ∧
        Lucky s.schedule (dayOf (t + off)) k := by
  have hs := ((parse_total src).1 s hp).1
  have hD : ¬ s.schedule.AnyDay := fun h => by
    have := h28 31 (h 31 (by omega) (by omega)); omega
  have hday : ∀ n, s.schedule.DayMatches n ↔
      s.schedule.day (civil n).day ∧ s.schedule.month (civil n).month := by
    intro n
    constructor
    · rintro ⟨h1, ⟨h, -⟩ | ⟨h, -⟩ | ⟨-, -, h⟩ | ⟨-, h, -⟩⟩
      · exact absurd h hD
      · exact absurd h hD
      · exact ⟨h, h1⟩
      · exact absurd hw h
    · exact fun h => ⟨h.2, .inr (.inr (.inl ⟨hD, hw, h.1⟩))⟩
  obtain ⟨n, h, m, c1, ⟨_, _, t1, t2⟩, c3⟩ := C22_computed_partial hp hn
  have hh : h ≤ 23 := by
    have : s.schedule.hour h := by cases t2 <;> assumption
    exact hs.hour.2.2 _ this
  have hm : m ≤ 59 := by
    have : s.schedule.minute m := by cases t1 <;> assumption
    exact hs.minute.2.2 _ this
  have hv : dayOf (v + off) = n := by rw [c3, dayOf_wallAt hh hm]
  rcases c1 with ⟨h', -⟩ | ⟨-, -, x, m', y, ⟨k', c, d1, d2, d3⟩, d4⟩ | ⟨-, h', -⟩
  · exact absurd h' hD
  · obtain rfl := Skip.unique hk d1
    have hk1 : k ≤ 1 := by rcases hk with ⟨-, h⟩ | ⟨-, h⟩ <;> omega
    have key := date_first hk1 (fun x hx => ⟨(hs.day.2.2 _ hx).1, h28 x hx⟩)
      (fun m hm => hs.month.2.2 _ hm) d2 d3 d4
    have hmatch : s.schedule.DayMatches n := by
      rw [hday, d4.2.1.1, d4.2.1.2]
      refine ⟨?_, ?_⟩
      · cases d2 <;> assumption
      · cases d3 <;> assumption
    rw [C24_days_partial hp hn hk, hv, ← key]
    simp only [hday] at hmatch ⊢
    refine or_congr Iff.rfl (and_congr ⟨fun h => h hmatch, fun h _ => h⟩ Iff.rfl)
  · exact absurd hw h'

/-- `0 0 10 6 *` -/
private def yearly : Timer := ⟨[0], [0], [10], [6], rangeIncl 0 6⟩

private theorem yearly_over (n : Int) : yearly.schedule.Skip (n * nsDay) 1 := by
  refine .inl ⟨fun h hh m hm => ?_, rfl⟩
  have : h = 0 := List.mem_singleton.mp hh
  have : m = 0 := List.mem_singleton.mp hm
  subst h m
  unfold wallAt dayOf nsDay nsHour nsMinute
  omega

/-- Both answers of `C24_calendar_exact_partial`, for `0 0 10 6 *`: from the execution on
2021-06-10 the next one is on 2022-06-10; a day later it is on 2023-06-10 only. -/
example : Timer.parse "0 0 10 6 *".toList = .ok yearly ∧ yearly.schedule.AnyWeekday ∧
    (∀ x, yearly.schedule.day x → x ≤ 28) ∧
    yearly.schedule.Skip (18788 * nsDay) 1 ∧ yearly.schedule.Skip (18789 * nsDay) 1 ∧
    yearly.next (Zone.fixed 0) (18788 * nsDay) = .ok (19153 * nsDay) ∧
    yearly.next (Zone.fixed 0) (18789 * nsDay) = .ok (19518 * nsDay) ∧
    Lucky yearly.schedule 18788 1 ∧ ¬ Lucky yearly.schedule 18789 1 := by
  have h10 : ∀ y, y ∈ [10] ↔ y = 10 := fun y => List.mem_singleton
  have h6 : ∀ y, y ∈ [6] ↔ y = 6 := fun y => List.mem_singleton
  have e0 : civil 18788 = ⟨2021, 6, 10⟩ := by decide +kernel
  have e1 : civil 18789 = ⟨2021, 6, 11⟩ := by decide +kernel
  have e2 : civil 19153 = ⟨2022, 6, 10⟩ := by decide +kernel
  refine ⟨by decide +kernel, fun v h => mem_rangeIncl.mpr ⟨by omega, h⟩,
    fun x hx => by have := (h10 x).mp hx; omega, yearly_over _, yearly_over _,
    by decide +kernel, by decide +kernel, .inr (.inr ⟨?_, ?_, ?_⟩), ?_⟩
  · intro m hm
    rw [e0]
    exact (h6 m).mp hm
  · intro x hx
    have := (h10 x).mp hx
    rw [e0]
    simp only
    omega
  · intro x n hx hn
    obtain rfl := (h10 x).mp hx
    rw [e0] at hn
    have := civil_inj (hn.trans e2.symm)
    omega
  · rintro (⟨-, x, hx, h⟩ | ⟨⟨m, hm, h⟩, -⟩ | ⟨-, -, h⟩)
    · have := (h10 x).mp hx
      rw [e1] at h
      simp only at h
      omega
    · have := (h6 m).mp hm
      rw [e1] at h
      simp only at h
      omega
    · have := h 10 19153 ((h10 10).mpr rfl) (by rw [e1, e2]; rfl)
      omega

end Cinit.Props
