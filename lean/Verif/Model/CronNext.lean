import Verif.Model.CronParse
import Verif.Model.Calendar
/-!
# Model of `TimerDescription::get_next_execution`, cronjob.rs:67-200
-/

namespace Cinit

/-- `set.range(from..).next()` on a `BTreeSet`. -/
def firstFrom (s : List Nat) (lo : Nat) : Option Nat := s.find? (fun x => decide (lo ≤ x))

/-- The recurring pattern of cronjob.rs:81-129: the first element from `lo` on and no carry,
or else the smallest element (`iter().next().unwrap()`) and a carry. -/
def pick (s : List Nat) (lo : Nat) : Res Empty (Nat × Nat) :=
  match firstFrom s lo with
  | some x => .ok (x, 0)
  | none =>
    match s with
    | [] => .panic .emptySet
    | x :: _ => .ok (x, 1)

namespace Timer

/-- `from + Duration::days(d)`: panics beyond chrono's range. -/
def addDays (t : Int) (d : Nat) : Res Empty Int :=
  if chronoMax < t + d * nsDay then .panic .dateOverflow else .ok (t + d * nsDay)

/-- cronjob.rs:145-149: the search loop. The fuel is only there to make the recursion
structural: with `daysLeft from` or more it never runs out before the addition overflows
(`searchDate_fuel`). -/
def searchDate (z : Zone) (t : Int) (day month : Nat) : Nat → Nat → Res Empty Nat
  | 0, _ => .panic .dateOverflow
  | fuel + 1, d =>
    addDays t d >>= fun tmp =>
    let date := civil (dayOf (z.wall tmp))
    if date.day ≠ day ∨ date.month ≠ month then searchDate z t day month fuel (d + 1)
    else .ok d

/-- A number of days after which the addition to `t` certainly overflows. -/
def daysLeft (t : Int) : Nat := ((chronoMax - t) / nsDay).toNat + 2

/-- cronjob.rs:169-199: the loop over `next_valid_minute`, starting at `k` minutes.
`Duration::days(11)` is 15840 minutes; having tried them all the code panics. -/
def findValid (z : Zone) (w : Int) : Nat → Nat → Res Empty Int
  | 0, _ => .panic .gapTooLong
  | fuel + 1, k =>
    if chronoMax < w + k * nsMinute then .panic .dateOverflow
    else match z.resolve (w + k * nsMinute) with
      | some v => .ok v
      | none => findValid z w fuel (k + 1)

/-- cronjob.rs:79-129: the components chosen; `carryHour` is the carry out of the hours,
`carryYear` the one out of the months. -/
structure Plan where
  min : Nat
  hour : Nat
  carryHour : Nat
  weekday : Nat
  day : Nat
  month : Nat
  carryYear : Nat
  deriving DecidableEq, Repr

/-- cronjob.rs:79-129. `w` is the wall clock reading of `from_timepoint`. -/
def plan (s : Timer) (w : Int) : Res Empty Plan :=
  let date := civil (dayOf w)
  pick s.minute (minuteOf w + 1) >>= fun min =>
  pick s.hour (hourOf w + min.2) >>= fun hour =>
  pick s.weekday (weekdayOf (dayOf w) + hour.2) >>= fun wd =>
  pick s.day (date.day + hour.2) >>= fun day =>
  pick s.month (date.month + day.2) >>= fun month =>
  .ok { min := min.1, hour := hour.1, carryHour := hour.2, weekday := wd.1, day := day.1,
        month := month.1, carryYear := month.2 }

/-- cronjob.rs:131 -/
def weekdayRelevant (s : Timer) : Bool := s.weekday.length != 7

/-- cronjob.rs:132 -/
def dateRelevant (s : Timer) : Bool := s.day.length != 31 || s.month.length != 12

/-- cronjob.rs:134-140 `week_duration` in days. -/
def weekDuration (today next : Nat) : Nat :=
  if next < today then 7 - (today - next) else next - today

/-- cronjob.rs:142-161: the number of days to add. -/
def planDays (z : Zone) (s : Timer) (t : Int) (p : Plan) : Res Empty Nat :=
  let week := weekDuration (weekdayOf (dayOf (z.wall t))) p.weekday
  let start := p.carryYear * 365
  (if s.dateRelevant then searchDate z t p.day p.month (daysLeft t) start else .ok start)
    >>= fun date =>
  .ok (if s.weekdayRelevant && s.dateRelevant then Min.min week date
    else if !s.weekdayRelevant && s.dateRelevant then date
    else week)

/-- cronjob.rs:78-200 `get_next_execution`. -/
def next (z : Zone) (s : Timer) (t : Int) : Res Empty Int :=
  plan s (z.wall t) >>= fun p =>
  planDays z s t p >>= fun d =>
  addDays t d >>= fun nextDay =>
  if p.hour ≤ 23 ∧ p.min ≤ 59 then
    findValid z (wallAt (dayOf (z.wall nextDay)) p.hour p.min) 15841 0
  else .panic .invalidTime

end Timer

end Cinit
