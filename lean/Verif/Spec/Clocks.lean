import Verif.Spec.CronMatch
/-!
# Specification: clocks that are changed

Wall clocks run ahead of or behind UTC by an offset that may change, as it does where there is
daylight saving time.
-/

namespace Cinit.Spec

open Cinit

/-- How far the wall clock is ahead at an instant. -/
def offset (z : Zone) (t : Int) : Int := z.wall t - t

/-- The clock is never put forward or back by more than an hour from what it is at `t`. -/
def WithinHour (z : Zone) (t : Int) : Prop :=
  ∀ u, offset z u ≤ offset z t + nsHour ∧ offset z t ≤ offset z u + nsHour

/-- The clock is never put back. -/
def NeverBack (z : Zone) : Prop := ∀ a b, a < b → z.wall a < z.wall b

/-- The clock is not put back between two instants. -/
def SteadyBetween (z : Zone) (a b : Int) : Prop :=
  ∀ u, a < u → u < b → z.wall a < z.wall u ∧ z.wall u < z.wall b

/-- The clock does not repeat at `t` what it showed before. -/
def NotRepeating (z : Zone) (t : Int) : Prop := ∀ u, u ≤ t → z.wall u ≤ z.wall t

/-- Of several instants with the same reading the first is taken, as the test
`fold_schedules_the_next_execution_to_the_earlier_option` of the project checks. -/
def FirstTaken (z : Zone) : Prop := ∀ w v u, z.resolve w = some v → z.wall u = w → v ≤ u

/-- The wall clock shows a time of day from `a` (included) to `b` (excluded) o'clock. -/
def Between (a b : Int) (w : Int) : Prop := a * nsHour ≤ w % nsDay ∧ w % nsDay < b * nsHour

/-- A job of every day at one time. -/
structure Schedule.Daily (s : Schedule) (h m : Nat) : Prop where
  day : s.AnyDay
  month : s.AnyMonth
  weekday : s.AnyWeekday
  hour : ∀ x, s.hour x ↔ x = h
  minute : ∀ x, s.minute x ↔ x = m

/-- A job of every hour of every day, at any set of minutes. -/
structure Schedule.Hourly (s : Schedule) : Prop where
  day : s.AnyDay
  month : s.AnyMonth
  weekday : s.AnyWeekday
  hour : ∀ x, x ≤ 23 → s.hour x

end Cinit.Spec

namespace Cinit

/-- A clock that is ahead of UTC by `before` until the instant `at'`, and by `after` from then
on. -/
def Zone.change (at' before after : Int) : Zone where
  wall t := if t < at' then t + before else t + after
  resolve w := if w - before < at' then some (w - before)
    else if at' ≤ w - after then some (w - after) else none
  resolve_sound := by
    intro w t h
    split at h
    · cases h; rw [if_pos (by assumption)]; omega
    · split at h
      · cases h; rw [if_neg (by omega)]; omega
      · cases h
  resolve_complete := by
    intro w h t
    split at h
    · cases h
    · split at h
      · cases h
      · split <;> omega

end Cinit
