import Verif.Base.Res
/-!
# Civil dates, wall clocks and time zones

The parts of `chrono` that `src/runtime/cronjob.rs` uses. `chrono` is not part of the
repository; the calendar below is validated against the Gregorian rules in
`Verif.Proofs.Calendar` (`civil_succ`: each day's date is the successor of the previous
day's date), and time zones are arbitrary.

Instants are nanoseconds since 1970-01-01T00:00:00Z; wall clock readings
(`NaiveDateTime`) are nanoseconds since 1970-01-01T00:00:00 on the wall clock.
-/

namespace Cinit

/-- A calendar date. -/
structure Date where
  year : Int
  month : Nat
  day : Nat
  deriving DecidableEq, Repr

/-- The date of the `n`-th day after 1970-01-01 (negative: before), as given by chrono's
`date_naive().year()/month()/day()`. Years start in March internally, so that leap days come
last. -/
def civil (n : Int) : Date :=
  let s := n + 719468            -- days since 0000-03-01
  let q400 := s / 146097
  let r400 := (s % 146097).toNat
  let q100 := min (r400 / 36524) 3
  let r100 := r400 - q100 * 36524
  let q4 := r100 / 1461
  let r4 := r100 % 1461
  let q1 := min (r4 / 365) 3
  let doy := r4 - q1 * 365
  let mp := (5 * doy + 2) / 153
  let day := doy - (153 * mp + 2) / 5 + 1
  let month := if mp < 10 then mp + 3 else mp - 9
  let year := q400 * 400 + (q100 * 100 + q4 * 4 + q1 : Nat)
  { year := if month ≤ 2 then year + 1 else year, month, day }

/-- `weekday().num_days_from_sunday()`; 1970-01-01 was a Thursday. -/
def weekdayOf (n : Int) : Nat := ((n + 4) % 7).toNat

/-- Nanoseconds per minute, hour and day. -/
def nsMinute : Int := 60000000000
def nsHour : Int := 3600000000000
def nsDay : Int := 86400000000000

/-- The day number of a wall clock reading, and the fields `hour()`, `minute()`. -/
def dayOf (w : Int) : Int := w / nsDay
def hourOf (w : Int) : Nat := (w % nsDay / nsHour).toNat
def minuteOf (w : Int) : Nat := (w % nsHour / nsMinute).toNat

/-- `date_naive().and_hms_opt(hour, min, 0)` for the day number `n`. -/
def wallAt (n : Int) (hour min : Nat) : Int := n * nsDay + hour * nsHour + min * nsMinute

/-- `NaiveDateTime::MAX`, the end of the year 262142 (chrono 0.4.41): additions beyond it
panic. 95026236 is the number of the last day of that year, see `chronoMax_date`. -/
def chronoMax : Int := 95026237 * nsDay - 1

/-- The system's local time zone, `chrono::Local`. `wall` is the wall clock reading at an
instant, `resolve` is `and_local_timezone(Local).latest()`. Nothing is assumed about which
of several candidates `resolve` picks in a fold. -/
structure Zone where
  wall : Int → Int
  resolve : Int → Option Int
  resolve_sound : ∀ w t, resolve w = some t → wall t = w
  resolve_complete : ∀ w, resolve w = none → ∀ t, wall t ≠ w

/-- A zone whose clock is always ahead of UTC by `off` nanoseconds. -/
def Zone.fixed (off : Int) : Zone where
  wall t := t + off
  resolve w := some (w - off)
  resolve_sound := by intro w t h; cases h; omega
  resolve_complete := by intro w h; cases h

end Cinit
