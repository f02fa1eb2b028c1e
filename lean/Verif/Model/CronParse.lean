import Verif.Model.Config
/-!
# Model of cron expression parsing, `src/runtime/cronjob.rs` lines 30-65 and 203-285
-/

namespace Cinit

/-- `BTreeSet<u32>::insert`; the set is the strictly increasing list of its elements. -/
def setInsert (x : Nat) : List Nat → List Nat
  | [] => [x]
  | y :: ys =>
    if x < y then x :: y :: ys
    else if x = y then y :: ys
    else y :: setInsert x ys

/-- The error messages of `parse_element` and `TimerDescription::parse`. -/
inductive CronParseErr where
  /-- "Invalid range given", cronjob.rs:213 -/
  | invalidBounds
  /-- "Incomplete timer spec", cronjob.rs:217,222 -/
  | incomplete
  /-- "Too many timer specs", cronjob.rs:63 -/
  | tooMany
  /-- "Invalid timespec", cronjob.rs:232,249 (unreachable: `split` yields a piece) -/
  | invalidTimespec
  /-- "Invalid step number", cronjob.rs:235 -/
  | invalidStep
  /-- "Invalid number", cronjob.rs:251 -/
  | invalidNumber
  /-- "Invalid number in end of interval", cronjob.rs:256 -/
  | invalidEnd
  /-- "Invalid range in timer spec", cronjob.rs:263,267 -/
  | outOfRange
  /-- "Interval end < begin", cronjob.rs:271 -/
  | reversed
  deriving DecidableEq, Repr

/-- cronjob.rs:234-238: the step behind the first `/`; anything behind a second `/` is
ignored. -/
def parseStep : List Str → Res CronParseErr Nat
  | [] => .ok 1
  | s :: _ =>
    match parseU32 s with
    | none => .err .invalidStep
    | some n => .ok n

/-- cronjob.rs:240-260: the bounds of an interval; anything behind a second `-` is ignored. -/
def parseBounds (min max : Nat) (interval : Str) : Res CronParseErr (Nat × Nat) :=
  if interval = ['*'] then .ok (min, max)
  else match splitOn '-' interval with
    | [] => .err .invalidTimespec
    | b :: rest =>
      match parseU32 b with
      | none => .err .invalidNumber
      | some b =>
        match rest with
        | [] => .ok (b, b)
        | e :: _ =>
          match parseU32 e with
          | none => .err .invalidEnd
          | some e => .ok (b, e)

/-- `begin..=end`. -/
def rangeIncl (b e : Nat) : List Nat := List.range' b (e + 1 - b)

/-- cronjob.rs:230-279: one round of the loop over the comma-separated pieces. -/
def parseInterval (min max : Nat) (result : List Nat) (interval : Str) :
    Res CronParseErr (List Nat) :=
  match splitOn '/' interval with
  | [] => .err .invalidTimespec
  | interval :: values =>
    parseStep values >>= fun step =>
    parseBounds min max interval >>= fun be =>
    if be.1 < min ∨ max < be.1 then .err .outOfRange
    else if be.2 < min ∨ max < be.2 then .err .outOfRange
    else if be.2 < be.1 then .err .reversed
    -- lines 274-278: the loop runs at least once, so `i % 0` panics
    else if step = 0 then .panic .divByZero
    else .ok ((rangeIncl be.1 be.2).foldl (fun result i =>
      if i % step = be.1 % step then setInsert i result else result) result)

/-- cronjob.rs:211-285 `parse_element`. -/
def parseElement (input : Option Str) (min max : Nat) : Res CronParseErr (List Nat) :=
  if max < min then .err .invalidBounds
  else match input with
    | none => .err .incomplete
    | some timespec =>
      if timespec.isEmpty then .err .incomplete
      else if timespec = ['*'] then
        .ok ((rangeIncl min max).foldl (fun result i => setInsert i result) [])
      else Res.foldlM (parseInterval min max) [] (splitOn ',' timespec)

/-- cronjob.rs:32-42 `TimerDescription`. -/
structure Timer where
  minute : List Nat
  hour : List Nat
  day : List Nat
  month : List Nat
  weekday : List Nat
  deriving DecidableEq, Repr

/-- cronjob.rs:48-65 `TimerDescription::parse`; the iterator is consumed left to right. -/
def Timer.parse (raw : Str) : Res CronParseErr Timer :=
  let it := splitWhitespace raw
  parseElement it[0]? 0 59 >>= fun minute =>
  parseElement it[1]? 0 23 >>= fun hour =>
  parseElement it[2]? 1 31 >>= fun day =>
  parseElement it[3]? 1 12 >>= fun month =>
  parseElement it[4]? 0 6 >>= fun weekday =>
  match it[5]? with
  | none => .ok { minute, hour, day, month, weekday }
  | some _ => .err .tooMany

end Cinit
