import Verif.Model.Calendar
import Verif.Spec.Calendar
/-!
# Specification: when a cron schedule fires, after crontab(5)

The schedule is given by five sets of numbers. Following the documentation
(`doc/README.md:131-142`), `*` is not distinguished from the full range: a field is
*restricted* if its set is not the full range.
-/

namespace Cinit.Spec

/-- The five sets of a cron expression. -/
structure Schedule where
  minute : Nat → Prop
  hour : Nat → Prop
  day : Nat → Prop
  month : Nat → Prop
  weekday : Nat → Prop

/-- The day of month field does not restrict anything. -/
def Schedule.AnyDay (s : Schedule) : Prop := ∀ v, 1 ≤ v → v ≤ 31 → s.day v

/-- The month field does not restrict anything. -/
def Schedule.AnyMonth (s : Schedule) : Prop := ∀ v, 1 ≤ v → v ≤ 12 → s.month v

/-- The day of week field does not restrict anything. -/
def Schedule.AnyWeekday (s : Schedule) : Prop := ∀ v, v ≤ 6 → s.weekday v

/-- crontab(5): "commands are executed when the minute, hour, and month of year fields match
the current time, and at least one of the two day fields (day of month, or day of week)
match the current time. [...] If both fields are restricted, the command will be run when
either field matches." With only one of them restricted, this one decides.
`n` is the number of the day. -/
def Schedule.DayMatches (s : Schedule) (n : Int) : Prop :=
  s.month (civil n).month ∧
    ((s.AnyDay ∧ s.AnyWeekday) ∨
     (s.AnyDay ∧ ¬ s.AnyWeekday ∧ s.weekday (weekdayOf n)) ∨
     (¬ s.AnyDay ∧ s.AnyWeekday ∧ s.day (civil n).day) ∨
     (¬ s.AnyDay ∧ ¬ s.AnyWeekday ∧ (s.day (civil n).day ∨ s.weekday (weekdayOf n))))

/-- The wall clock reading `w` is one at which the job has to be run: a full minute whose
components match. -/
def Schedule.Matches (s : Schedule) (w : Int) : Prop :=
  ∃ (n : Int) (h m : Nat), h < 24 ∧ m < 60 ∧ w = wallAt n h m ∧
    s.hour h ∧ s.minute m ∧ s.DayMatches n

end Cinit.Spec
