import Verif.Base.AMap
import Verif.Model.CronNext
import Verif.Model.Config
/-!
# Model of the cron scheduler, `Cron` in cronjob.rs:287-376, and of `build_cron`,
process_manager_builder.rs:249-278
-/

namespace Cinit

/-- cronjob.rs:287-290 `Error::TimeParseError` -/
inductive CronError where
  | timeParse (msg : CronParseErr) (id : Nat)
  deriving DecidableEq, Repr

/-- cronjob.rs:292-300. `timer` is the `BTreeMap` from instants to process ids: a list in
ascending order of the keys. -/
structure Cron where
  timers : AMap Nat Timer := []
  timer : List (Int × Nat) := []
  deriving DecidableEq, Repr

namespace Cron

/-- `BTreeMap::contains_key` -/
def hasKey (m : List (Int × Nat)) (t : Int) : Bool := m.any (fun e => e.1 == t)

/-- `BTreeMap::insert` -/
def put (t : Int) (id : Nat) : List (Int × Nat) → List (Int × Nat)
  | [] => [(t, id)]
  | (t', id') :: m =>
    if t < t' then (t, id) :: (t', id') :: m
    else if t = t' then (t, id) :: m
    else (t', id') :: put t id m

/-- cronjob.rs:371-373: the loop looking for a free instant. One more round than there are
entries is always enough (`freeSlot_free`), so the fuel does not matter. -/
def freeSlot (m : List (Int × Nat)) : Nat → Int → Res Empty Int
  | 0, t => .ok t
  | fuel + 1, t =>
    if hasKey m t then
      if chronoMax < t + 1 then .panic .dateOverflow else freeSlot m fuel (t + 1)
    else .ok t

/-- cronjob.rs:370-375 `insert_job` -/
def insertJob (c : Cron) (t : Int) (id : Nat) : Res Empty Cron :=
  freeSlot c.timer (c.timer.length + 1) t >>= fun t' =>
  .ok { c with timer := put t' id c.timer }

/-- Lift a computation without error case into one with errors. -/
def lift {ε α : Type} : Res Empty α → Res ε α
  | .ok a => .ok a
  | .panic p => .panic p

/-- cronjob.rs:307-332 `with_jobs`; `clock` are the successive readings of
`Local::now()`. -/
def withJobs (z : Zone) (c : Cron) : List (Nat × ProcessConfig) → List Int → Res CronError Cron
  | [], _ => .ok c
  | (id, pc) :: jobs, clock =>
    match pc.ptype with
    | .cronJob desc =>
      (Timer.parse desc).mapErr (fun s => CronError.timeParse s id) >>= fun td =>
      lift (td.next z (clock.headD 0)) >>= fun t =>
      lift (c.insertJob t id) >>= fun c' =>
      withJobs z { c' with timers := c'.timers.insert id td } jobs clock.tail
    | _ => .panic .invalidProcessType

/-- cronjob.rs:338-357 `pop_runnable` -/
def popRunnable (z : Zone) (c : Cron) (now : Int) : Res Empty (Option Nat × Cron) :=
  match c.timer with
  | [] => .ok (none, c)
  | (t, id) :: rest =>
    if t ≤ now then
      Res.ofOption .cronUnknownId (c.timers.get? id) >>= fun td =>
      td.next z now >>= fun t' =>
      insertJob { c with timer := rest } t' id >>= fun c' =>
      .ok (some id, c')
    else .ok (none, c)

/-- cronjob.rs:360-367 `get_next_execution` -/
def nextExecution (c : Cron) (id : Nat) : Res Empty Int :=
  match c.timer.find? (fun e => id == e.2) with
  | some e => .ok e.1
  | none => .panic .cronUnknownId

end Cron

/-- `iter().enumerate()` from `i` on, restricted to cronjobs, process_manager_builder.rs:250-256 -/
def cronPrograms (i : Nat) : List ProcessConfig → List (Nat × ProcessConfig)
  | [] => []
  | pc :: pcs => if pc.ptype.isCron then (i, pc) :: cronPrograms (i + 1) pcs
    else cronPrograms (i + 1) pcs

/-- process_manager_builder.rs:249-278 `build_cron`; the exit code is 2. The message names
`config.programs[id]`. -/
def buildCron (z : Zone) (config : Config) (clock : List Int) : Res Int Cron :=
  match Cron.withJobs z {} (cronPrograms 0 config.programs) clock with
  | .ok c => .ok c
  | .panic p => .panic p
  | .err (.timeParse _ id) =>
    match config.programs[id]? with
    | some _ => .err 2
    | none => .panic .indexOutOfBounds

end Cinit
