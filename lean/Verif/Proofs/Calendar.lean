import Verif.Model.Calendar
import Verif.Spec.Calendar
/-!
# The calendar of the model is the Gregorian calendar
-/

namespace Cinit

open Spec

/-- March-based year of the 400-year cycle and day of that year. -/
def eraYear (r : Nat) : Nat :=
  let q100 := min (r / 36524) 3
  let r100 := r - q100 * 36524
  q100 * 100 + r100 / 1461 * 4 + min (r100 % 1461 / 365) 3

def eraDoy (r : Nat) : Nat :=
  let q100 := min (r / 36524) 3
  let r100 := r - q100 * 36524
  r100 % 1461 - min (r100 % 1461 / 365) 3 * 365

def dayOfDoy (doy : Nat) : Nat := doy - (153 * ((5 * doy + 2) / 153) + 2) / 5 + 1
def monthOfDoy (doy : Nat) : Nat :=
  if (5 * doy + 2) / 153 < 10 then (5 * doy + 2) / 153 + 3 else (5 * doy + 2) / 153 - 9

/-- Whether the March-based year `y` of the cycle ends with a leap day. -/
def eraLeap (y : Nat) : Bool := (y + 1) % 4 = 0 && ((y + 1) % 100 ≠ 0 || (y + 1) % 400 = 0)

theorem civil_eq (n : Int) :
    civil n =
      let s := n + 719468
      let r := (s % 146097).toNat
      let y : Int := s / 146097 * 400 + eraYear r
      let m := monthOfDoy (eraDoy r)
      ⟨if m ≤ 2 then y + 1 else y, m, dayOfDoy (eraDoy r)⟩ := rfl

/-- The digits of a day number within the cycle. -/
def EraDigits (a b c d : Nat) : Prop :=
  a ≤ 3 ∧ b ≤ 24 ∧ c ≤ 3 ∧ (d ≤ 364 ∨ (d = 365 ∧ c = 3 ∧ (b ≠ 24 ∨ a = 3)))

theorem era_of_digits {a b c d : Nat} (h : EraDigits a b c d) :
    eraYear (36524 * a + 1461 * b + 365 * c + d) = 100 * a + 4 * b + c ∧
    eraDoy (36524 * a + 1461 * b + 365 * c + d) = d := by
  obtain ⟨ha, hb, hc, hd⟩ := h
  generalize hr : 36524 * a + 1461 * b + 365 * c + d = r
  have h1 : min (r / 36524) 3 = a := by omega
  have h2 : (r - a * 36524) / 1461 = b := by omega
  have h3 : (r - a * 36524) % 1461 = 365 * c + d := by omega
  have h4 : min ((365 * c + d) / 365) 3 = c := by omega
  simp only [eraYear, eraDoy, h1, h2, h3, h4]
  omega

theorem era_digits {r : Nat} (h : r < 146097) :
    ∃ a b c d, EraDigits a b c d ∧ r = 36524 * a + 1461 * b + 365 * c + d := by
  refine ⟨min (r / 36524) 3, (r - min (r / 36524) 3 * 36524) / 1461,
    min ((r - min (r / 36524) 3 * 36524) % 1461 / 365) 3,
    (r - min (r / 36524) 3 * 36524) % 1461 -
      365 * min ((r - min (r / 36524) 3 * 36524) % 1461 / 365) 3, ?_, ?_⟩
  · generalize ha : min (r / 36524) 3 = a
    generalize hx : r - a * 36524 = x
    have hx1 : x ≤ 36524 ∧ (x = 36524 → a = 3) := by omega
    generalize hb : x / 1461 = b
    generalize hy : x % 1461 = y
    have hy1 : x = 1461 * b + y ∧ y < 1461 := by omega
    generalize hc : min (y / 365) 3 = c
    unfold EraDigits
    omega
  · generalize ha : min (r / 36524) 3 = a
    have : a * 36524 ≤ r := by omega
    generalize hx : r - a * 36524 = x
    generalize hb : x / 1461 = b
    generalize hy : x % 1461 = y
    generalize hc : min (y / 365) 3 = c
    omega

theorem eraLeap_digits {a b c d : Nat} (h : EraDigits a b c d) :
    eraLeap (100 * a + 4 * b + c) = true ↔ c = 3 ∧ (b ≠ 24 ∨ a = 3) := by
  obtain ⟨ha, hb, hc, hd⟩ := h
  unfold eraLeap
  rw [Bool.and_eq_true, Bool.or_eq_true, decide_eq_true_iff, decide_eq_true_iff, decide_eq_true_iff]
  omega

theorem era_bounds {r : Nat} (h : r < 146097) :
    eraYear r < 400 ∧ eraDoy r < 366 ∧ (eraDoy r = 365 → eraLeap (eraYear r) = true) := by
  obtain ⟨a, b, c, d, hd, rfl⟩ := era_digits h
  rw [(era_of_digits hd).1, (era_of_digits hd).2, eraLeap_digits hd]
  unfold EraDigits at hd
  omega

/-- Whether day `doy` is the last of the March-based year `y`. -/
def LastDoy (y doy : Nat) : Prop := doy = if eraLeap y then 365 else 364

theorem era_succ {r : Nat} (h : r + 1 < 146097) :
    (¬ LastDoy (eraYear r) (eraDoy r) →
      eraYear (r + 1) = eraYear r ∧ eraDoy (r + 1) = eraDoy r + 1) ∧
    (LastDoy (eraYear r) (eraDoy r) →
      eraYear (r + 1) = eraYear r + 1 ∧ eraDoy (r + 1) = 0) := by
  obtain ⟨a, b, c, d, hd, rfl⟩ := era_digits (r := r) (by omega)
  have hl := eraLeap_digits hd
  rw [(era_of_digits hd).1, (era_of_digits hd).2]
  unfold LastDoy
  have hd' := hd
  obtain ⟨ha, hb, hc, hdd⟩ := hd'
  constructor
  · intro hn
    have hdig : EraDigits a b c (d + 1) := by
      refine ⟨ha, hb, hc, ?_⟩
      by_cases hlp : eraLeap (100 * a + 4 * b + c) = true
      · rw [if_pos hlp] at hn
        have := hl.mp hlp
        omega
      · rw [if_neg hlp] at hn
        have : ¬ (c = 3 ∧ (b ≠ 24 ∨ a = 3)) := fun h => hlp (hl.mpr h)
        omega
    have := era_of_digits hdig
    rw [show 36524 * a + 1461 * b + 365 * c + d + 1 = 36524 * a + 1461 * b + 365 * c + (d + 1) from by omega]
    exact this
  · intro hn
    have hval : (c = 3 ∧ (b ≠ 24 ∨ a = 3) ∧ d = 365) ∨
        (¬ (c = 3 ∧ (b ≠ 24 ∨ a = 3)) ∧ d = 364) := by
      by_cases hlp : eraLeap (100 * a + 4 * b + c) = true
      · rw [if_pos hlp] at hn
        have := hl.mp hlp
        omega
      · rw [if_neg hlp] at hn
        have : ¬ (c = 3 ∧ (b ≠ 24 ∨ a = 3)) := fun h => hlp (hl.mpr h)
        omega
    by_cases h1 : c < 3
    · have hdig : EraDigits a b (c + 1) 0 := ⟨ha, hb, by omega, by omega⟩
      have := era_of_digits hdig
      rw [show 36524 * a + 1461 * b + 365 * c + d + 1 = 36524 * a + 1461 * b + 365 * (c + 1) + 0 from by omega]
      omega
    · by_cases h2 : b < 24
      · have hdig : EraDigits a (b + 1) 0 0 := ⟨ha, by omega, by omega, by omega⟩
        have := era_of_digits hdig
        rw [show 36524 * a + 1461 * b + 365 * c + d + 1 = 36524 * a + 1461 * (b + 1) + 365 * 0 + 0 from by omega]
        omega
      · have hdig : EraDigits (a + 1) 0 0 0 := ⟨by omega, by omega, by omega, by omega⟩
        have := era_of_digits hdig
        rw [show 36524 * a + 1461 * b + 365 * c + d + 1 = 36524 * (a + 1) + 1461 * 0 + 365 * 0 + 0 from by omega]
        omega

/-- The length of a month, given leapness. -/
def dim (leap : Bool) (m : Nat) : Nat :=
  if m = 2 then (if leap then 29 else 28)
  else if m = 4 ∨ m = 6 ∨ m = 9 ∨ m = 11 then 30 else 31

theorem daysIn_eq (y : Int) (m : Nat) : daysIn y m = dim (isLeap y) m := by
  unfold daysIn dim
  split <;> simp_all

theorem dim_of_ne {m : Nat} (h : m ≠ 2) (l l' : Bool) : dim l m = dim l' m := by
  unfold dim; rw [if_neg h, if_neg h]

/-- What has to hold of a day of the March-based year. -/
def DoyOk (doy : Nat) (leap : Bool) : Prop :=
  dayOfDoy doy ≤ dim leap (monthOfDoy doy) ∧
  ((doy = (if leap then 365 else 364) ∧
      monthOfDoy doy = 2 ∧ dayOfDoy doy = (if leap then 29 else 28)) ∨
   (doy ≠ (if leap then 365 else 364) ∧
      (dayOfDoy doy < dim leap (monthOfDoy doy) ∧
        monthOfDoy (doy + 1) = monthOfDoy doy ∧ dayOfDoy (doy + 1) = dayOfDoy doy + 1)) ∨
   (doy ≠ (if leap then 365 else 364) ∧
      (¬ dayOfDoy doy < dim leap (monthOfDoy doy) ∧
        monthOfDoy doy ≠ 2 ∧ dayOfDoy (doy + 1) = 1 ∧
        monthOfDoy (doy + 1) = if monthOfDoy doy < 12 then monthOfDoy doy + 1 else 1)))

instance (doy : Nat) (leap : Bool) : Decidable (DoyOk doy leap) := by
  unfold DoyOk; infer_instance

/-- Day-of-year arithmetic, as a complete check over all 366 days. -/
theorem doy_table : ∀ doy < 366,
    (1 ≤ monthOfDoy doy ∧ monthOfDoy doy ≤ 12 ∧ 1 ≤ dayOfDoy doy) ∧
    DoyOk doy true ∧ (doy ≠ 365 → DoyOk doy false) := by
  decide +kernel

theorem doy_ok {doy : Nat} (h : doy < 366) {leap : Bool} (hl : doy = 365 → leap = true) :
    DoyOk doy leap := by
  cases leap with
  | true => exact (doy_table doy h).2.1
  | false => exact (doy_table doy h).2.2 (fun he => by cases hl he)

theorem isLeap_era (q : Int) (y : Nat) : isLeap (q * 400 + y + 1) = eraLeap y := by
  rw [Bool.eq_iff_iff]
  unfold isLeap eraLeap
  rw [Bool.and_eq_true, Bool.or_eq_true, decide_eq_true_iff, decide_eq_true_iff, decide_eq_true_iff,
    Bool.and_eq_true, Bool.or_eq_true, decide_eq_true_iff, decide_eq_true_iff, decide_eq_true_iff]
  omega

/-- Every day number has an existing date. -/
theorem civil_valid (n : Int) : ValidDate (civil n) := by
  rw [civil_eq]
  simp only [ValidDate]
  generalize hr : ((n + 719468) % 146097).toNat = r
  have hlt : r < 146097 := by omega
  obtain ⟨h1, h2, h3⟩ := era_bounds hlt
  generalize hq : (n + 719468) / 146097 = q
  obtain ⟨⟨t1, t2, t3⟩, -⟩ := doy_table _ h2
  refine ⟨t1, t2, t3, ?_⟩
  have t5 := (doy_ok h2 h3).1
  rw [daysIn_eq]
  by_cases hm2 : monthOfDoy (eraDoy r) = 2
  · rw [if_pos (by omega), isLeap_era]; exact t5
  · rw [dim_of_ne hm2 _ (eraLeap (eraYear r))]; exact t5

/-- The successor law: consecutive days have consecutive dates. -/
theorem civil_succ (n : Int) : civil (n + 1) = succDate (civil n) := by
  rw [civil_eq, civil_eq]
  simp only
  generalize hr : ((n + 719468) % 146097).toNat = r
  generalize hq : (n + 719468) / 146097 = q
  have hlt : r < 146097 := by omega
  obtain ⟨h1, h2, h3⟩ := era_bounds hlt
  obtain ⟨⟨t1, t2, t3⟩, -⟩ := doy_table _ h2
  have t5 := (doy_ok h2 h3).2
  have hin : daysIn (if monthOfDoy (eraDoy r) ≤ 2 then q * 400 + (eraYear r : Int) + 1
      else q * 400 + eraYear r) (monthOfDoy (eraDoy r)) =
      dim (eraLeap (eraYear r)) (monthOfDoy (eraDoy r)) := by
    rw [daysIn_eq]
    by_cases hm2 : monthOfDoy (eraDoy r) = 2
    · rw [if_pos (by omega), isLeap_era]
    · exact dim_of_ne hm2 _ _
  have hsucc : ¬ LastDoy (eraYear r) (eraDoy r) →
      (n + 1 + 719468) / 146097 = q ∧ ((n + 1 + 719468) % 146097).toNat = r + 1 ∧
      eraYear (r + 1) = eraYear r ∧ eraDoy (r + 1) = eraDoy r + 1 := by
    intro hlast
    have hw : r + 1 < 146097 := by
      rcases Nat.lt_or_ge (r + 1) 146097 with h | h
      · exact h
      · exfalso
        have hr' : r = 146096 := by omega
        rw [hr'] at hlast
        exact hlast (by unfold LastDoy; decide)
    obtain ⟨e1, e2⟩ := (era_succ hw).1 hlast
    exact ⟨by omega, by omega, e1, e2⟩
  rcases t5 with ⟨hlast, m2, d2⟩ | ⟨hlast, hday, em, ed⟩ | ⟨hlast, hday, hm2, ed, em⟩
  · have hnext : ∃ q' r', (n + 1 + 719468) / 146097 = q' ∧
        ((n + 1 + 719468) % 146097).toNat = r' ∧
        q' * 400 + (eraYear r' : Int) = q * 400 + eraYear r + 1 ∧ eraDoy r' = 0 := by
      by_cases hw : r + 1 < 146097
      · refine ⟨q, r + 1, by omega, by omega, ?_, ?_⟩
        · rw [((era_succ hw).2 hlast).1]; omega
        · exact ((era_succ hw).2 hlast).2
      · have hr' : r = 146096 := by omega
        refine ⟨q + 1, 0, by omega, by omega, ?_, by decide⟩
        have : eraYear r = 399 := by rw [hr']; decide
        rw [this, show eraYear 0 = 0 from by decide]
        omega
    obtain ⟨q', r', e1, e2, e3, e4⟩ := hnext
    have m0 : monthOfDoy 0 = 3 := by decide
    have d0 : dayOfDoy 0 = 1 := by decide
    unfold succDate
    simp only [hin]
    rw [e1, e2, e3, e4, m2, d2, m0, d0, if_neg (by decide), if_neg, if_pos (by decide), if_pos (by decide)]
    cases eraLeap (eraYear r) <;> decide
  · obtain ⟨e1, e2, e3, e4⟩ := hsucc hlast
    unfold succDate
    simp only [hin]
    rw [e1, e2, e3, e4, if_pos hday, em, ed]
  · obtain ⟨e1, e2, e3, e4⟩ := hsucc hlast
    unfold succDate
    simp only [hin]
    rw [e1, e2, e3, e4, if_neg hday, em, ed]
    by_cases hm12 : monthOfDoy (eraDoy r) < 12
    · rw [if_pos hm12, if_pos hm12]
      congr 1
      split <;> split <;> first | rfl | omega
    · rw [if_neg hm12, if_neg hm12]
      congr 1
      rw [if_pos (by omega), if_neg (by omega)]

/-- The epoch. -/
theorem civil_epoch : civil 0 = ⟨1970, 1, 1⟩ := by decide

/-- Weekdays follow one another, and the epoch was a Thursday. -/
theorem weekday_succ (n : Int) :
    weekdayOf 0 = 4 ∧ weekdayOf (n + 1) = if weekdayOf n = 6 then 0 else weekdayOf n + 1 := by
  unfold weekdayOf
  refine ⟨rfl, ?_⟩
  split <;> omega

/-- chrono's last day. -/
theorem chronoMax_date : civil (dayOf chronoMax) = ⟨262142, 12, 31⟩ ∧
    civil (dayOf chronoMax + 1) = ⟨262143, 1, 1⟩ := by decide

end Cinit
