import Verif.Model.Main
/-!
# Model of the log

`src/logging/{mod,stdout,stderr}.rs`, the crates log (levels) and log4rs (`ConfiguredLogger`,
`PatternEncoder`, `ConsoleAppender`), and the messages of `src/runtime`, which are those cinit
writes while programs run. Which of its own messages cinit writes when is left open, except for
the texts they may contain.
-/

namespace Cinit
namespace Logging

/-- `log::Level` -/
inductive Level where
  | error | warn | info | debug | trace
  deriving DecidableEq, Repr

/-- `Display for Level` -/
def Level.show : Level → Str
  | .error => "ERROR".toList
  | .warn => "WARN".toList
  | .info => "INFO".toList
  | .debug => "DEBUG".toList
  | .trace => "TRACE".toList

def Level.rank : Level → Nat
  | .error => 1
  | .warn => 2
  | .info => 3
  | .debug => 4
  | .trace => 5

def filterRank : LevelFilter → Nat
  | .off => 0
  | .error => 1
  | .warn => 2
  | .info => 3
  | .debug => 4
  | .trace => 5

/-- `level <= filter` of the crate log -/
def admits (f : LevelFilter) (l : Level) : Bool := l.rank ≤ filterRank f

/-- Where messages are written to. -/
inductive Stream where
  | stdout | stderr
  deriving DecidableEq, Repr

/-- A call of one of the macros `error!` to `trace!`; the target is the path of the module. -/
structure Record where
  target : List Str
  level : Level
  message : Str
  deriving DecidableEq, Repr

/-- Local time as shown in the log. -/
structure Time where
  year : Nat
  month : Nat
  day : Nat
  hour : Nat
  minute : Nat
  second : Nat
  milli : Nat
  deriving DecidableEq, Repr

/-- Decimal rendering with leading zeros. -/
def pad (width n : Nat) : Str := List.replicate (width - (showNat n).length) '0' ++ showNat n

/-- `%Y-%m-%dT%H:%M:%S.%3f` -/
def Time.show (t : Time) : Str :=
  pad 4 t.year ++ '-' :: pad 2 t.month ++ '-' :: pad 2 t.day ++ 'T' :: pad 2 t.hour ++
    ':' :: pad 2 t.minute ++ ':' :: pad 2 t.second ++ '.' :: pad 3 t.milli

/-- Parts of the pattern of a `PatternEncoder`. -/
inductive Piece where
  /-- `{d(%Y-%m-%dT%H:%M:%S.%3f)}` -/
  | date
  /-- `{level}` -/
  | level
  /-- `{m}` -/
  | message
  /-- `{n}` -/
  | newline
  | literal (s : Str)
  deriving DecidableEq, Repr

/-- `PatternEncoder::encode` -/
def encodePiece (t : Time) (r : Record) : Piece → Str
  | .date => t.show
  | .level => r.level.show
  | .message => r.message
  | .newline => ['\n']
  | .literal s => s

/-- A `ConsoleAppender`. -/
structure Appender where
  stream : Stream
  pattern : List Piece
  deriving DecidableEq, Repr

/-- log4rs `ConfiguredLogger` -/
inductive Logger where
  | node (level : LevelFilter) (appenders : List Appender) (children : List (Str × Logger))

def Logger.level : Logger → LevelFilter
  | .node l _ _ => l

def Logger.appenders : Logger → List Appender
  | .node _ a _ => a

def child (part : Str) : List (Str × Logger) → Option Logger
  | [] => none
  | (k, l) :: rest => if k = part then some l else child part rest

def setChild (part : Str) (l : Logger) (ch : List (Str × Logger)) : List (Str × Logger) :=
  (part, l) :: ch.filter (·.1 ≠ part)

/-- log4rs `ConfiguredLogger::add`. Loggers are added with paths that are not empty. -/
def Logger.add : List Str → List Appender → Bool → LevelFilter → Logger → Logger
  | [], _, _, _, l => l
  | part :: rest, appenders, additive, level, .node lv ap ch =>
    match child part ch with
    | some c => .node lv ap (setChild part (Logger.add rest appenders additive level c) ch)
    | none =>
      match rest with
      | [] =>
        .node lv ap (setChild part
          (.node level (if additive then appenders ++ ap else appenders) []) ch)
      | _ :: _ =>
        .node lv ap (setChild part (Logger.add rest appenders additive level (.node lv ap [])) ch)

/-- log4rs `ConfiguredLogger::find` -/
def Logger.find : List Str → Logger → Logger
  | [], l => l
  | part :: rest, .node lv ap ch =>
    match child part ch with
    | some c => Logger.find rest c
    | none => .node lv ap ch

/-- log4rs `Logger::log`: what is written where. The maximal level of the crate log is that of the
most verbose logger, so it filters nothing in addition. -/
def Logger.log (root : Logger) (t : Time) (r : Record) : List (Stream × Str) :=
  let l := root.find r.target
  if admits l.level r.level then
    l.appenders.map fun a => (a.stream, a.pattern.flatMap (encodePiece t r))
  else []

/-- logging/mod.rs:30-34 -/
def ownAppender : Appender :=
  ⟨.stdout, [.date, .literal [' '], .level, .literal " [cinit] ".toList, .message, .newline]⟩

/-- logging/mod.rs:36-40 -/
def childStdout : Appender :=
  ⟨.stdout, [.date, .literal [' '], .level, .literal [' '], .message, .newline]⟩

/-- logging/mod.rs:42-47 -/
def childStderr : Appender :=
  ⟨.stderr, [.date, .literal [' '], .level, .literal [' '], .message, .newline]⟩

def stdoutTarget : List Str := ["cinit".toList, "logging".toList, "stdout".toList]
def stderrTarget : List Str := ["cinit".toList, "logging".toList, "stderr".toList]

/-- logging/mod.rs:29-75 `initialise` -/
def initialise (verbosity : Nat) : Logger :=
  let root := Logger.node (levelFor verbosity) [ownAppender] []
  let root := root.add stdoutTarget [childStdout] false .info
  root.add stderrTarget [childStderr] false .info

/-- stdout.rs:26-28, stderr.rs:26-28 `log` -/
def programRecord (out : Bool) (name text : Str) : Record :=
  ⟨if out then stdoutTarget else stderrTarget, .info, '[' :: name ++ "] ".toList ++ text⟩

/-! ## Messages of cinit itself -/

/-- The calls of logging macros in `src/runtime`, with the texts that vary. Texts of errors come
from libraries. -/
inductive Msg where
  /-- texts without variable parts -/
  | fixed (level : Level) (text : Str)
  /-- dependency_graph.rs:118 -/
  | alreadyTriggered (id : Nat)
  /-- cronjob.rs:345 -/
  | scheduled (instant : Str)
  /-- process.rs:149 -/
  | starting (name : Str)
  /-- process.rs:161 -/
  | startedName (name : Str)
  /-- process.rs:162 -/
  | startedPid (pid : Int)
  /-- process.rs:201, 218 -/
  | unexpected (key value : Str)
  /-- process.rs:206-207 -/
  | started (level : Level) (name : Str)
  /-- process.rs:210 -/
  | startedAgain (name : Str) (state : PState)
  /-- process.rs:222-223 -/
  | stopping (level : Level) (name : Str)
  /-- process.rs:227 -/
  | status (name value : Str)
  /-- process.rs:233 -/
  | badMainpid (value error : Str)
  /-- process.rs:240, 244 -/
  | mainpid (level : Level) (name : Str) (old new : Int)
  /-- status_reporter.rs:37, notify_manager.rs:47, mod.rs:86, 205, 303, 428 -/
  | failure (level : Level) (what error : Str)
  /-- notify_manager.rs:79 -/
  | received (message : Str) (pid : Int)
  /-- notify_manager.rs:102 -/
  | notAllowed (name : Str)
  /-- notify_manager.rs:115 -/
  | unknownPid (pid : Int)
  /-- notify_manager.rs:154 -/
  | ignored (key value : Str)
  /-- notify_manager.rs:159 -/
  | unparsed (line : Str)
  /-- mod.rs:124, 128, 135, 295: texts of `Debug` -/
  | debugged (what value : Str)
  /-- mod.rs:152-153 -/
  | zombie (level : Level) (pid rc : Int)
  /-- mod.rs:167-168 -/
  | sleeps (level : Level) (name : Str)
  /-- mod.rs:171-172 -/
  | exited (level : Level) (name : Str)
  /-- mod.rs:176-177 -/
  | crashed (level : Level) (name : Str) (rc : Int)
  /-- mod.rs:199, 332 -/
  | counted (pre : Str) (n : Int) (post : Str)
  /-- mod.rs:289 -/
  | childExited (pid status : Int)
  /-- mod.rs:394, 398 -/
  | postponed (level : Level) (name : Str)
  /-- mod.rs:414, 418 -/
  | refused (level : Level) (name : Str) (state : PState)
  deriving DecidableEq, Repr

def Msg.level : Msg → Level
  | .fixed l _ => l
  | .alreadyTriggered _ => .debug
  | .scheduled _ => .debug
  | .starting _ => .info
  | .startedName _ => .trace
  | .startedPid _ => .info
  | .unexpected _ _ => .warn
  | .started l _ => l
  | .startedAgain _ _ => .debug
  | .stopping l _ => l
  | .status _ _ => .trace
  | .badMainpid _ _ => .warn
  | .mainpid l _ _ _ => l
  | .failure l _ _ => l
  | .received _ _ => .debug
  | .notAllowed _ => .warn
  | .unknownPid _ => .warn
  | .ignored _ _ => .info
  | .unparsed _ => .warn
  | .debugged _ _ => .debug
  | .zombie l _ _ => l
  | .sleeps l _ => l
  | .exited l _ => l
  | .crashed l _ _ => l
  | .counted _ _ _ => .debug
  | .childExited _ _ => .debug
  | .postponed l _ => l
  | .refused l _ _ => l

def Msg.text : Msg → Str
  | .fixed _ s => s
  | .alreadyTriggered n =>
    "Process ".toList ++ showNat n ++ " has already triggered its dependants".toList
  | .scheduled s => "Scheduled next execution at ".toList ++ s
  | .starting n => "Starting ".toList ++ n
  | .startedName n => "Started child ".toList ++ n
  | .startedPid p => "Started child ".toList ++ showInt p
  | .unexpected k v => "Expected ".toList ++ k ++ "=1 but value was '".toList ++ v ++ "'".toList
  | .started _ n => "child ".toList ++ n ++ " has started successfully".toList
  | .startedAgain n s =>
    "child ".toList ++ n ++ " in ".toList ++ s.show ++ " state has notified about startup".toList
  | .stopping _ n => "child ".toList ++ n ++ " is shutting down".toList
  | .status n v => "child ".toList ++ n ++ ": ".toList ++ v
  | .badMainpid v e => "could not parse new main pid '".toList ++ v ++ "': ".toList ++ e
  | .mainpid _ n a b =>
    "child ".toList ++ n ++ " main pid is changed from ".toList ++ showInt a ++ " to ".toList ++
      showInt b
  | .failure _ w e => w ++ ": ".toList ++ e
  | .received m p => "Received notification '".toList ++ m ++ "' from ".toList ++ showInt p
  | .notAllowed n => n ++ " is not allowed to send notifications".toList
  | .unknownPid p => "Got notification from unknown pid ".toList ++ showInt p
  | .ignored k v =>
    "notify manager ignores variable '".toList ++ k ++ "' = '".toList ++ v ++ "'".toList
  | .unparsed l => "notify_manager failed to parse status line '".toList ++ l ++ "'".toList
  | .debugged w v => w ++ v
  | .zombie _ p r => "Reaped zombie process ".toList ++ showInt p ++ " with return code ".toList ++
      showInt r
  | .sleeps _ n => "Child ".toList ++ n ++ " has finished and is going to sleep".toList
  | .exited _ n => "Child ".toList ++ n ++ " exited successfully".toList
  | .crashed _ n r => "Child ".toList ++ n ++ " crashed with ".toList ++ showInt r
  | .counted a n b => a ++ showInt n ++ b
  | .childExited p s => "Child ".toList ++ showInt p ++ " has exited with ".toList ++ showInt s
  | .postponed _ n => "Refusing to start cronjob child '".toList ++ n ++
      "' because of uncompleted dependencies".toList
  | .refused _ n s => "Refusing to start child '".toList ++ n ++ "' which is currently ".toList ++
      s.show

/-- The messages without variable parts: process.rs:183, 399, 423, 448; notify_manager.rs:101;
mod.rs:90, 94, 103, 109-110, 267, 300, 312, 319, 338, 346. -/
def fixedMessages : List (Level × Str) :=
  [(.error, "Forking failed".toList), (.debug, "Could not get terminal flags".toList),
   (.debug, "Not running inside tty, using sane defaults".toList),
   (.info, "Pseudo terminals created".toList),
   (.warn, "cinit only accepts notifications from processes of type notify".toList),
   (.debug, "setup successful".toList), (.debug, "Entering poll loop".toList),
   (.info, "Shutting down".toList), (.info, "Exiting".toList), (.trace, "Exiting".toList),
   (.warn, "Received unknown event".toList), (.debug, "No signal received".toList),
   (.info, "Received termination signal".toList), (.info, "Killing children".toList),
   (.warn, "Could not unregister fd from epoll".toList)]

/-- What comes before the error in `Msg.failure`. -/
def failureTexts : List Str :=
  ["Failed to print report".toList, "Failed to receive notification".toList,
   "Failed to register with epoll".toList, "Could not complete epoll".toList,
   "Received unknown signal".toList, "Failed to spawn child".toList]

/-- The messages cinit may write while programs with these `names` run and these `texts` arrive at
the notify socket. -/
def Possible (names texts : List Str) : Msg → Prop
  | .fixed l s => (l, s) ∈ fixedMessages
  | .starting n => n ∈ names
  | .startedName n => n ∈ names
  | .unexpected k v => ∃ t ∈ texts, (k, v) ∈ parseNotification t
  | .started _ n => n ∈ names
  | .startedAgain n _ => n ∈ names
  | .stopping _ n => n ∈ names
  | .status n v => n ∈ names ∧ ∃ t ∈ texts, (Process.keyStatus, v) ∈ parseNotification t
  | .badMainpid v e => (∃ t ∈ texts, (Process.keyMainpid, v) ∈ parseNotification t) ∧ '\n' ∉ e
  | .mainpid _ n _ _ => n ∈ names
  | .failure _ w e => w ∈ failureTexts ∧ '\n' ∉ e
  | .received m _ => m ∈ texts
  | .notAllowed n => n ∈ names
  | .ignored k v => ∃ t ∈ texts, ∃ l ∈ lines t, splitFirst '=' l = (k, some v) ∧ k ∉ allowedKeys
  | .unparsed l => ∃ t ∈ texts, l ∈ lines t ∧ (splitFirst '=' l).2 = none
  | .sleeps _ n => n ∈ names
  | .exited _ n => n ∈ names
  | .crashed _ n _ => n ∈ names
  | .postponed _ n => n ∈ names
  | .refused _ n _ => n ∈ names
  | _ => True

/-- The modules of `src/runtime` and `src/main.rs`; `module_path!()` is the target. -/
def ownTargets : List (List Str) :=
  [["cinit"], ["cinit", "runtime", "dependency_graph"], ["cinit", "runtime", "cronjob"],
   ["cinit", "runtime", "process"], ["cinit", "runtime", "process_manager"],
   ["cinit", "runtime", "process_manager", "notify_manager"],
   ["cinit", "runtime", "process_manager", "status_reporter"]].map (·.map String.toList)

/-- One call of a logging macro: a line of a program, or a message of cinit from a module. -/
inductive Entry where
  | program (out : Bool) (name text : Str)
  | own (target : List Str) (msg : Msg)
  deriving DecidableEq, Repr

def Entry.record : Entry → Record
  | .program out name text => programRecord out name text
  | .own target msg => ⟨target, msg.level, msg.text⟩

/-- All that is written to one of the streams. -/
def console (verbosity : Nat) (stream : Stream) (es : List (Time × Entry)) : Str :=
  es.flatMap fun e => ((initialise verbosity).log e.1 e.2.record).flatMap fun w =>
    if w.1 = stream then w.2 else []

end Logging
end Cinit
