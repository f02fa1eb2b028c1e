import Verif.Proofs.Calendar
/-!
# Walking through the calendar: order of dates, existence of future dates
-/

namespace Cinit

open Spec

/-- Chronological order of dates. -/
def DateLt (a b : Date) : Prop :=
  a.year < b.year ∨ (a.year = b.year ∧ (a.month < b.month ∨ (a.month = b.month ∧ a.day < b.day)))

theorem DateLt.trans {a b c : Date} (h : DateLt a b) (h' : DateLt b c) : DateLt a c := by
  unfold DateLt at *; omega

theorem DateLt.irrefl (a : Date) : ¬ DateLt a a := by
  unfold DateLt; omega

theorem dateLt_succ (d : Date) : DateLt d (succDate d) := by
  unfold succDate DateLt
  split
  · simp
  · split
    · simp
    · simp only; omega

theorem civil_lt_add (n : Int) (k : Nat) : DateLt (civil n) (civil (n + (k + 1 : Nat))) := by
  induction k with
  | zero => simpa [civil_succ] using dateLt_succ (civil n)
  | succ k ih =>
    have : n + ((k + 1 + 1 : Nat) : Int) = n + ((k + 1 : Nat) : Int) + 1 := by omega
    rw [this, civil_succ]
    exact ih.trans (dateLt_succ _)

/-- Later days have later dates. -/
theorem civil_mono {a b : Int} : a < b ↔ DateLt (civil a) (civil b) := by
  have fwd : ∀ {a b : Int}, a < b → DateLt (civil a) (civil b) := by
    intro a b h
    have := civil_lt_add a (b - a - 1).toNat
    rwa [show a + ((((b - a - 1).toNat + 1 : Nat)) : Int) = b from by omega] at this
  constructor
  · exact fwd
  · intro h
    rcases Int.lt_trichotomy a b with hlt | rfl | hgt
    · exact hlt
    · exact absurd h (DateLt.irrefl _)
    · exact absurd (h.trans (fwd hgt)) (DateLt.irrefl _)

theorem civil_inj {a b : Int} (h : civil a = civil b) : a = b := by
  rcases Int.lt_trichotomy a b with hlt | rfl | hgt
  · exact absurd (h ▸ civil_mono.mp hlt) (DateLt.irrefl _)
  · rfl
  · exact absurd (h ▸ civil_mono.mp hgt) (DateLt.irrefl _)

theorem daysIn_pos (y : Int) (m : Nat) : 28 ≤ daysIn y m ∧ daysIn y m ≤ 31 := by
  rw [daysIn_eq]; unfold dim
  repeat' split
  all_goals omega

/-- Within a month. -/
theorem civil_within {n : Int} {y : Int} {m d k : Nat} (h : civil n = ⟨y, m, d⟩)
    (hk : d + k ≤ daysIn y m) : civil (n + k) = ⟨y, m, d + k⟩ := by
  induction k with
  | zero => simpa using h
  | succ k ih =>
    have h1 := ih (by omega)
    rw [show n + ((k + 1 : Nat) : Int) = n + k + 1 from by omega, civil_succ, h1]
    unfold succDate
    rw [if_pos (by simp only; omega)]
    simp [Nat.add_assoc]

/-- To the first of the next month. -/
theorem civil_next_month {n : Int} {y : Int} {m d : Nat} (h : civil n = ⟨y, m, d⟩) :
    ∃ k : Nat, 1 ≤ k ∧ k ≤ 31 ∧
      civil (n + k) = (if m < 12 then ⟨y, m + 1, 1⟩ else ⟨y + 1, 1, 1⟩) := by
  have hv := civil_valid n
  rw [h] at hv
  obtain ⟨-, -, h3, h4⟩ := hv
  simp only at h3 h4
  have hb := daysIn_pos y m
  refine ⟨daysIn y m - d + 1, by omega, by omega, ?_⟩
  have h1 := civil_within (k := daysIn y m - d) h (by omega)
  rw [show n + ((daysIn y m - d + 1 : Nat) : Int) = n + (daysIn y m - d : Nat) + 1 from by omega,
    civil_succ, h1]
  unfold succDate
  rw [if_neg (by simp only; omega)]

/-- To the first of a later month of the same year. -/
theorem civil_to_month {n : Int} {y : Int} {m : Nat} (h : civil n = ⟨y, m, 1⟩) (j : Nat)
    (hj : m + j ≤ 12) : ∃ k : Nat, k ≤ 31 * j ∧ civil (n + k) = ⟨y, m + j, 1⟩ := by
  induction j with
  | zero => exact ⟨0, by omega, by simpa using h⟩
  | succ j ih =>
    obtain ⟨k, hk, h1⟩ := ih (by omega)
    obtain ⟨k', -, hk', h2⟩ := civil_next_month h1
    refine ⟨k + k', by omega, ?_⟩
    rw [show n + ((k + k' : Nat) : Int) = n + k + k' from by omega, h2, if_pos (by omega),
      Nat.add_assoc]

/-- To New Year's Day. -/
theorem civil_to_year (n : Int) : ∃ k : Nat, k ≤ 372 ∧
    civil (n + k) = ⟨(civil n).year + 1, 1, 1⟩ := by
  have hv := civil_valid n
  obtain ⟨k1, -, h1, h2⟩ := civil_next_month (n := n) (y := (civil n).year)
    (m := (civil n).month) (d := (civil n).day) rfl
  by_cases hm : (civil n).month < 12
  · rw [if_pos hm] at h2
    obtain ⟨k2, h3, h4⟩ := civil_to_month h2 (11 - (civil n).month) (by omega)
    obtain ⟨k3, -, h5, h6⟩ := civil_next_month h4
    have := hv.1
    refine ⟨k1 + k2 + k3, by omega, ?_⟩
    rw [show n + ((k1 + k2 + k3 : Nat) : Int) = n + k1 + k2 + k3 from by omega, h6,
      if_neg (by omega)]
  · rw [if_neg hm] at h2
    exact ⟨k1, by omega, h2⟩

/-- From New Year's Day to the one `j` years later. -/
theorem civil_years {n : Int} {y : Int} (h : civil n = ⟨y, 1, 1⟩) (j : Nat) :
    ∃ k : Nat, k ≤ 372 * j ∧ civil (n + k) = ⟨y + j, 1, 1⟩ := by
  induction j with
  | zero => exact ⟨0, by omega, by simpa using h⟩
  | succ j ih =>
    obtain ⟨k, hk, h1⟩ := ih
    obtain ⟨k', hk', h2⟩ := civil_to_year (n + k)
    rw [h1] at h2
    refine ⟨k + k', by omega, ?_⟩
    rw [show n + ((k + k' : Nat) : Int) = n + k + k' from by omega, h2]
    simp only [Date.mk.injEq, and_true]
    omega

/-- A date of the year, from New Year's Day. -/
theorem civil_in_year {n : Int} {y : Int} {m d : Nat} (h : civil n = ⟨y, 1, 1⟩)
    (hm : 1 ≤ m ∧ m ≤ 12) (hd : 1 ≤ d ∧ d ≤ daysIn y m) :
    ∃ k : Nat, k ≤ 371 ∧ civil (n + k) = ⟨y, m, d⟩ := by
  obtain ⟨k, hk, h1⟩ := civil_to_month h (m - 1) (by omega)
  rw [show 1 + (m - 1) = m from by omega] at h1
  have h2 := civil_within (k := d - 1) h1 (by omega)
  have := daysIn_pos y m
  refine ⟨k + (d - 1), by omega, ?_⟩
  rw [show n + ((k + (d - 1) : Nat) : Int) = n + k + (d - 1 : Nat) from by omega, h2,
    show 1 + (d - 1) = d from by omega]

theorem maxDaysIn_eq (m : Nat) : maxDaysIn m = dim true m := by
  unfold maxDaysIn dim
  split <;> simp_all

theorem daysIn_le_max (y : Int) (m : Nat) : daysIn y m ≤ maxDaysIn m := by
  rw [daysIn_eq, maxDaysIn_eq]; unfold dim
  repeat' split
  all_goals simp_all

/-- A leap year is never far. -/
theorem leap_soon (y : Int) : ∃ j : Nat, j < 8 ∧ isLeap (y + j) = true := by
  have key : ∀ x : Int, x % 4 = 0 → x % 100 ≠ 0 → isLeap x = true := by
    intro x h1 h2
    unfold isLeap
    simp [h1, h2]
  generalize hr : (4 - y % 4) % 4 = r
  by_cases h : (y + r) % 100 = 0
  · refine ⟨(r + 4).toNat, by omega, key _ (by omega) (by omega)⟩
  · refine ⟨r.toNat, by omega, key _ (by omega) (by omega)⟩

/-- Every day/month pair that exists at all comes up again within 3720 days. -/
theorem date_comes {m d : Nat} (hm : 1 ≤ m ∧ m ≤ 12) (hd : 1 ≤ d ∧ d ≤ maxDaysIn m) (n : Int) :
    ∃ k : Nat, 1 ≤ k ∧ k ≤ 3720 ∧ (civil (n + k)).day = d ∧ (civil (n + k)).month = m := by
  obtain ⟨k1, hk1, h1⟩ := civil_to_year n
  obtain ⟨j, hj, hl⟩ := leap_soon ((civil n).year + 1)
  obtain ⟨k2, hk2, h2⟩ := civil_years h1 j
  have hlen : d ≤ daysIn ((civil n).year + 1 + j) m := by
    rw [daysIn_eq, hl, ← maxDaysIn_eq]
    exact hd.2
  obtain ⟨k3, hk3, h3⟩ := civil_in_year h2 hm ⟨hd.1, hlen⟩
  have hpos : 1 ≤ k1 := by
    rcases Nat.eq_zero_or_pos k1 with h0 | h0
    · subst h0
      have : (civil n).year = (civil n).year + 1 := by
        have := congrArg Date.year h1
        simpa using this
      omega
    · exact h0
  refine ⟨k1 + k2 + k3, by omega, by omega, ?_⟩
  rw [show n + ((k1 + k2 + k3 : Nat) : Int) = n + k1 + k2 + k3 from by omega, h3]
  exact ⟨rfl, rfl⟩

/-- A day/month pair that does not exist never comes. -/
theorem date_never {m d : Nat} (h : maxDaysIn m < d) (n : Int) :
    ¬ ((civil n).day = d ∧ (civil n).month = m) := by
  rintro ⟨rfl, rfl⟩
  have := (civil_valid n).2.2.2
  have := daysIn_le_max (civil n).year (civil n).month
  omega

/-! ## The number of a date -/

/-- The year, counted from March on. -/
def marchYear (d : Date) : Int := if d.month ≤ 2 then d.year - 1 else d.year

/-- A closed formula for the number of a date, up to a constant. -/
def ordinal (d : Date) : Int :=
  365 * marchYear d + marchYear d / 4 - marchYear d / 100 + marchYear d / 400 +
    ((153 * ((if d.month ≤ 2 then d.month + 9 else d.month - 3 : Nat) : Int) + 2) / 5) + d.day

theorem isLeap_iff (y : Int) : isLeap y = true ↔ y % 4 = 0 ∧ (y % 100 ≠ 0 ∨ y % 400 = 0) := by
  unfold isLeap
  simp

theorem ordinal_succ {d : Date} (h : ValidDate d) : ordinal (succDate d) = ordinal d + 1 := by
  obtain ⟨y, m, k⟩ := d
  obtain ⟨h1, h2, h3, h4⟩ := h
  simp only at h1 h2 h3 h4
  unfold succDate
  split
  · unfold ordinal marchYear
    simp only
    push_cast
    omega
  · rename_i hlast
    simp only at hlast
    have hk : k = daysIn y m := by omega
    rw [daysIn_eq] at hk
    have hl := isLeap_iff y
    split
    · rename_i hm
      simp only at hm
      have hcases : m = 1 ∨ m = 2 ∨ m = 3 ∨ m = 4 ∨ m = 5 ∨ m = 6 ∨ m = 7 ∨ m = 8 ∨ m = 9 ∨
        m = 10 ∨ m = 11 := by omega
      unfold ordinal marchYear
      simp only
      rcases hcases with rfl | rfl | rfl | rfl | rfl | rfl | rfl | rfl | rfl | rfl | rfl
      · simp [dim] at hk; subst hk; simp; omega
      · cases hlp : isLeap y with
        | true =>
          simp [dim, hlp] at hk; subst hk
          rw [hlp] at hl
          have := hl.mp rfl
          simp; omega
        | false =>
          simp [dim, hlp] at hk; subst hk
          rw [hlp] at hl
          have : ¬ (y % 4 = 0 ∧ (y % 100 ≠ 0 ∨ y % 400 = 0)) := fun h => by
            have := hl.mpr h; cases this
          simp; omega
      all_goals (simp [dim] at hk; subst hk; simp <;> omega)
    · rename_i hm
      simp only at hm
      have : m = 12 := by omega
      subst this
      simp [dim] at hk; subst hk
      unfold ordinal marchYear
      simp
      omega

/-- The date of a day determines its number. -/
theorem ordinal_civil (n : Int) : ordinal (civil n) = n + ordinal (civil 0) := by
  have step : ∀ n, ordinal (civil (n + 1)) = ordinal (civil n) + 1 := by
    intro n
    rw [civil_succ]
    exact ordinal_succ (civil_valid n)
  have up : ∀ k : Nat, ∀ n, ordinal (civil (n + k)) = ordinal (civil n) + k := by
    intro k
    induction k with
    | zero => intro n; simp
    | succ k ih =>
      intro n
      rw [show n + ((k + 1 : Nat) : Int) = n + k + 1 from by omega, step, ih]
      push_cast; omega
  rcases Int.le_total 0 n with h | h
  · have := up n.toNat 0
    rw [show (0 : Int) + n.toNat = n from by omega] at this
    omega
  · have := up (-n).toNat n
    rw [show n + ((-n).toNat : Int) = 0 from by omega] at this
    omega

theorem year_days {x y : Int} (h : x < y) :
    365 * x + x / 4 - x / 100 + x / 400 + 365 ≤ 365 * y + y / 4 - y / 100 + y / 400 := by
  have h1 : x / 4 ≤ y / 4 := by omega
  have h2 : x / 4 - x / 4 / 25 ≤ y / 4 - y / 4 / 25 := by omega
  have h3 : x / 4 / 25 = x / 100 := by omega
  have h4 : y / 4 / 25 = y / 100 := by omega
  omega

/-- A date recurs after 365 days at the earliest. -/
theorem recurs_later {n : Int} {k : Nat} (hk : 0 < k)
    (hd : (civil (n + k)).day = (civil n).day) (hm : (civil (n + k)).month = (civil n).month) :
    365 ≤ k := by
  have h1 := ordinal_civil n
  have h2 := ordinal_civil (n + k)
  have hlt : DateLt (civil n) (civil (n + k)) := civil_mono.mp (by omega)
  unfold DateLt at hlt
  unfold ordinal marchYear at h1 h2
  rw [hd, hm] at h2
  have h0 : ∀ c : Int, 365 * marchYear (civil n) + marchYear (civil n) / 4 -
      marchYear (civil n) / 100 + marchYear (civil n) / 400 + c + k =
      365 * marchYear (civil (n + k)) + marchYear (civil (n + k)) / 4 -
      marchYear (civil (n + k)) / 100 + marchYear (civil (n + k)) / 400 + c := by
    intro c
    unfold marchYear
    rw [hm]
    omega
  have h3 := year_days (x := marchYear (civil n)) (y := marchYear (civil (n + k))) (by
    unfold marchYear
    rw [hm]
    split <;> omega)
  have := h0 0
  omega

/-- From a day to a later date of the same year. -/
theorem civil_later_this_year {n : Int} {m d : Nat} (hm : (civil n).month < m) (hm2 : m ≤ 12)
    (hd : 1 ≤ d) (hd2 : d ≤ daysIn (civil n).year m) :
    ∃ k : Nat, civil (n + k) = ⟨(civil n).year, m, d⟩ := by
  obtain ⟨k1, -, -, h1⟩ := civil_next_month (n := n) (y := (civil n).year)
    (m := (civil n).month) (d := (civil n).day) rfl
  rw [if_pos (by omega)] at h1
  obtain ⟨k2, -, h2⟩ := civil_to_month h1 (m - ((civil n).month + 1)) (by omega)
  rw [show (civil n).month + 1 + (m - ((civil n).month + 1)) = m from by omega] at h2
  have h3 := civil_within (k := d - 1) h2 (by omega)
  refine ⟨k1 + k2 + (d - 1), ?_⟩
  rw [show n + ((k1 + k2 + (d - 1) : Nat) : Int) = n + k1 + k2 + (d - 1 : Nat) from by omega, h3,
    show 1 + (d - 1) = d from by omega]

end Cinit
