import Verif.Spec.CronMatch
import Verif.Model.Calendar
/-!
# Specification: the date and time the computation aims at

crontab(5) says when jobs are due (`Spec/CronMatch.lean`). What is computed differs from it.
Here is in declarative form what is computed instead: every field is advanced on its own,
then the date is looked for.
-/

namespace Cinit.Spec

open Cinit

/-- `x` is the least listed number from `lo` on (carry 0) or, if there is none, the least
listed number (carry 1). -/
inductive Upcoming (S : Nat → Prop) (lo : Nat) : Nat → Nat → Prop
  | ahead {x : Nat} : S x → lo ≤ x → (∀ y, S y → lo ≤ y → x ≤ y) → Upcoming S lo x 0
  | wrapped {x : Nat} : S x → (∀ y, S y → y < lo) → (∀ y, S y → x ≤ y) → Upcoming S lo x 1

/-- `n` is the first day from `n0` on with the property `P`. -/
def FirstDay (P : Int → Prop) (n0 n : Int) : Prop := n0 ≤ n ∧ P n ∧ ∀ k, n0 ≤ k → k < n → ¬ P k

/-- All listed times of the day are over. -/
def Schedule.Over (s : Schedule) (w : Int) : Prop :=
  ∀ h, s.hour h → ∀ m, s.minute m → wallAt (dayOf w) h m ≤ w

/-- The first day that comes into question: 0 for today, 1 for tomorrow. -/
def Schedule.Skip (s : Schedule) (w : Int) (k : Nat) : Prop :=
  (s.Over w ∧ k = 1) ∨ (¬ s.Over w ∧ k = 0)

/-- The time of day aimed at. -/
def Schedule.TimeChosen (s : Schedule) (w : Int) (h m : Nat) : Prop :=
  ∃ c c', Upcoming s.minute (minuteOf w + 1) m c ∧ Upcoming s.hour (hourOf w + c) h c'

/-- The day of month, the month, and the number of years aimed at. -/
def Schedule.DateChosen (s : Schedule) (w : Int) (day month years : Nat) : Prop :=
  ∃ k c, s.Skip w k ∧ Upcoming s.day ((civil (dayOf w)).day + k) day c ∧
    Upcoming s.month ((civil (dayOf w)).month + c) month years

/-- The weekday aimed at. -/
def Schedule.WeekdayChosen (s : Schedule) (w : Int) (x : Nat) : Prop :=
  ∃ k c, s.Skip w k ∧ Upcoming s.weekday (weekdayOf (dayOf w) + k) x c

/-- The day the weekday leads to. -/
def Schedule.ByWeekday (s : Schedule) (w n : Int) : Prop :=
  ∃ x, s.WeekdayChosen w x ∧ FirstDay (fun k => weekdayOf k = x) (dayOf w) n

/-- The day the day of month and the month lead to: having passed all listed months, the
search is begun 365 days later. -/
def Schedule.ByDate (s : Schedule) (w n : Int) : Prop :=
  ∃ day month years, s.DateChosen w day month years ∧
    FirstDay (fun k => (civil k).day = day ∧ (civil k).month = month)
      (dayOf w + 365 * years) n

/-- The day chosen. -/
def Schedule.DayChosen (s : Schedule) (w n : Int) : Prop :=
  (s.AnyDay ∧ s.AnyMonth ∧ s.ByWeekday w n) ∨
  (¬ (s.AnyDay ∧ s.AnyMonth) ∧ s.AnyWeekday ∧ s.ByDate w n) ∨
  (¬ (s.AnyDay ∧ s.AnyMonth) ∧ ¬ s.AnyWeekday ∧
    ∃ a b, s.ByWeekday w a ∧ s.ByDate w b ∧ n = min a b)

/-! ## Where clocks are changed

Days are counted in steps of 24 hours from the instant the computation begins with, whatever the
clock shows after each of them. -/

/-- The date shown `d` times 24 hours after `t`. -/
def dateAfter (z : Zone) (t : Int) (d : Nat) : Int := dayOf (z.wall (t + d * nsDay))

/-- `d` is the first number of steps from `d0` on with the property `P`. -/
def FirstStep (P : Nat → Prop) (d0 d : Nat) : Prop := d0 ≤ d ∧ P d ∧ ∀ k, d0 ≤ k → k < d → ¬ P k

/-- The steps the weekday leads to: those that would lead to it if clocks were not changed. -/
def Schedule.StepsByWeekday (s : Schedule) (z : Zone) (t : Int) (d : Nat) : Prop :=
  ∃ x, s.WeekdayChosen (z.wall t) x ∧
    FirstStep (fun k => weekdayOf (dayOf (z.wall t) + k) = x) 0 d

/-- The steps the day of month and the month lead to, within the time that can be represented. -/
def Schedule.StepsByDate (s : Schedule) (z : Zone) (t : Int) (d : Nat) : Prop :=
  ∃ day month years, s.DateChosen (z.wall t) day month years ∧
    FirstStep (fun k => (civil (dateAfter z t k)).day = day ∧ (civil (dateAfter z t k)).month = month)
      (365 * years) d ∧ t + d * nsDay ≤ chronoMax

/-- The number of steps chosen. -/
def Schedule.StepsChosen (s : Schedule) (z : Zone) (t : Int) (d : Nat) : Prop :=
  (s.AnyDay ∧ s.AnyMonth ∧ s.StepsByWeekday z t d) ∨
  (¬ (s.AnyDay ∧ s.AnyMonth) ∧ s.AnyWeekday ∧ s.StepsByDate z t d) ∨
  (¬ (s.AnyDay ∧ s.AnyMonth) ∧ ¬ s.AnyWeekday ∧
    ∃ a b, s.StepsByWeekday z t a ∧ s.StepsByDate z t b ∧ d = min a b)

/-- The local time wanted: the time of day chosen on the date the steps lead to. -/
def Schedule.Wanted (s : Schedule) (z : Zone) (t w : Int) : Prop :=
  ∃ d h m, s.StepsChosen z t d ∧ t + d * nsDay ≤ chronoMax ∧ s.TimeChosen (z.wall t) h m ∧
    w = wallAt (dateAfter z t d) h m

/-- `v` is an instant showing the first whole minute from local time `w` on that exists, within 11
days and the time that can be represented. -/
def Occurs (z : Zone) (w v : Int) : Prop :=
  ∃ k : Nat, k ≤ 11 * 24 * 60 ∧ w + k * nsMinute ≤ chronoMax ∧
    z.resolve (w + k * nsMinute) = some v ∧ ∀ j : Nat, j < k → ∀ u, z.wall u ≠ w + j * nsMinute

end Cinit.Spec
