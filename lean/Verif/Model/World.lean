import Verif.Model.CronSched
import Verif.Model.DepGraph
import Verif.Model.Process
import Verif.Model.Utf8
/-!
# The world the event loop runs in

`ProcessManager` (process_manager/mod.rs:51-70) with its `ProcessMap`
(process_map.rs:36-46), the part of the kernel it talks to, the kernel's answers to its
system calls, and a log of everything observable.

A run is a function of the list of answers, one per system call in the order of the calls.
An answer that does not fit the call, or that the kernel cannot give, leads to `Out.stuck`,
as does the end of the list: such a run is the part of an execution before the next answer.
Theorems quantify over all lists of answers, hence over all executions.
-/

namespace Cinit

/-- Signal numbers, signal(7) -/
def SIGINT : Nat := 2
def SIGQUIT : Nat := 3
def SIGTERM : Nat := 15
def SIGCHLD : Nat := 17

/-- What `waitpid(-1, WNOHANG)` reports. -/
inductive RawWait where
  /-- some child has exited with this status -/
  | exited (pid : Int) (code : Nat)
  /-- some child was terminated by this signal -/
  | killed (pid : Int) (sig : Nat)
  /-- children exist, none has changed state -/
  | alive
  /-- stopped, continued, traced -/
  | other
  /-- `ECHILD`, `EINTR` -/
  | error
  deriving DecidableEq, Repr

/-- One event out of `epoll_wait`. -/
structure Ready where
  fd : Int
  inp : Bool
  hup : Bool
  deriving DecidableEq, Repr

/-- The kernel's answer to one system call (or to a fixed group of them). -/
inductive Answer where
  /-- `ProcessManager::setup`, mod.rs:217-246: three times `epoll_ctl`, `prctl` -/
  | setup (ok : Bool)
  /-- `Local::now()` -/
  | now (t : Int)
  /-- `Process::start`, process.rs:151-184: pipes or ptys and `fork`; pid, stdout, stderr -/
  | fork (r : Option (Int × Int × Int))
  /-- `epoll_ctl(ADD)`, mod.rs:333 -/
  | epollAdd (ok : Bool)
  /-- `epoll_wait`, mod.rs:196 -/
  | epoll (r : Option (List Ready))
  /-- `waitpid`, mod.rs:121 -/
  | wait (r : RawWait)
  /-- `read` from the signalfd, mod.rs:277: `none` stands for `Err` and `Ok(None)` -/
  | signal (r : Option Nat)
  /-- `recvmsg`, notify_manager.rs:67: the bytes, and the sender unless there are no
  credentials -/
  | recv (r : Option (List Nat × Option Int))
  /-- `read` from a child, mod.rs:353 -/
  | read (r : Option (List Nat))
  /-- `accept` and `write` to the client, status_reporter.rs:44-46 -/
  | accept (r : Option Bool)
  /-- `kill`, mod.rs:326 -/
  | kill (ok : Bool)
  deriving DecidableEq, Repr

/-- Everything observable, in the order it happens. -/
inductive Event where
  /-- the clock is read for the cron scheduler -/
  | clock (t : Int)
  /-- program `i` is started as process `pid` with these ends of its output streams -/
  | spawned (i : Nat) (pid outFd errFd : Int)
  /-- the output stream `fd` is registered at epoll, which may fail -/
  | watched (fd : Int) (ok : Bool)
  /-- program `i` could not be started -/
  | spawnFailed (i : Nat)
  /-- program `i` is not started as it is in state `s`, mod.rs:414 -/
  | refused (i : Nat) (s : PState)
  /-- cronjob `i` is not started because of uncompleted dependencies, mod.rs:394 -/
  | postponed (i : Nat)
  /-- a child was reaped; `who` is the program cinit takes it for -/
  | waited (pid : Int) (rc : Int) (who : Option Nat)
  /-- a child was reaped without cinit getting to know which one -/
  | lost (pid : Int) (sig : Nat)
  /-- cinit received a signal -/
  | signal (n : Nat)
  /-- cinit sent a signal -/
  | sent (pid : Int) (n : Nat)
  /-- a message arrives on the notify socket -/
  | received (bytes : List Nat)
  /-- the message just received is this text of process `pid` -/
  | datagram (pid : Int) (text : Str)
  /-- the message just received comes without its sender -/
  | unsigned
  /-- output of a child was read -/
  | chunk (fd : Int) (bytes : List Nat)
  /-- a line of child output was logged, to the standard output or error of cinit -/
  | line (out : Bool) (name text : Str)
  /-- an output stream is closed -/
  | hangup (fd : Int)
  /-- cinit waits for something to happen -/
  | polling
  /-- the kernel reports what has happened -/
  | polled (evs : List Ready)
  /-- the kernel reports an error instead -/
  | unpolled
  /-- cinit turns to one of the reports -/
  | ready (ev : Ready)
  /-- what the report promised cannot be read, accepted or answered -/
  | failed
  /-- the kernel knows of no further terminated child -/
  | reaped
  /-- a status report was sent to a client -/
  | report (text : Str)
  /-- cinit ends with this code -/
  | exit (code : Int)
  deriving DecidableEq, Repr

/-- The history, newest event first. -/
abbrev Log := List Event

/-- process_map.rs:36-46 `ProcessMap`, and mod.rs:51-70 `ProcessManager`. `fd_dict` is
represented by its keys. -/
structure Manager where
  procs : List Process
  stdoutDict : AMap Int Nat := []
  stderrDict : AMap Int Nat := []
  pidDict : AMap Int Nat := []
  fdDict : List Int := []
  keepRunning : Bool := true
  deps : DepMgr
  cron : Cron
  signalFd : Int
  statusFd : Int
  notifyFd : Int
  exitCode : Int := 0
  deriving DecidableEq, Repr

/-- The part of the kernel state that restricts its answers. -/
structure Kernel where
  /-- open file descriptors of cinit -/
  fds : List Int
  /-- file descriptors registered at epoll -/
  epoll : List Int := []
  /-- started processes that have not been reaped -/
  children : List Int := []
  deriving DecidableEq, Repr

structure World where
  mgr : Manager
  kernel : Kernel
  answers : List Answer
  log : Log := []
  deriving DecidableEq, Repr

/-- Parameters of a run: the local time zone, the iteration order of hash maps (which may
differ from time to time), the rendering of instants. -/
structure Env where
  zone : Zone
  order : Log → HashOrder
  rfc3339 : Int → Str

/-- Outcome of a part of a run. -/
inductive Out (α : Type) where
  | ok (a : α) (w : World)
  | panic (p : Panic) (w : World)
  | stuck (w : World)
  deriving DecidableEq, Repr

/-- The monad of the event loop. -/
def M (α : Type) := World → Out α

namespace M

def pure {α : Type} (a : α) : M α := fun w => .ok a w

def bind {α β : Type} (x : M α) (f : α → M β) : M β := fun w =>
  match x w with
  | .ok a w' => f a w'
  | .panic p w' => .panic p w'
  | .stuck w' => .stuck w'

instance : Monad M where
  pure := M.pure
  bind := M.bind

def get : M World := fun w => .ok w w

def modifyMgr (f : Manager → Manager) : M Unit := fun w => .ok () { w with mgr := f w.mgr }

def emit (e : Event) : M Unit := fun w => .ok () { w with log := e :: w.log }

def fail {α : Type} (p : Panic) : M α := fun w => .panic p w

/-- No such execution. -/
def stop {α : Type} : M α := fun w => .stuck w

/-- Use a computation on data. -/
def lift {α : Type} : Res Empty α → M α
  | .ok a => pure a
  | .panic p => fail p

/-- `if` without `else`. -/
def when (c : Prop) [Decidable c] (x : M Unit) : M Unit := if c then x else pure ()

/-- A `for` loop. -/
def forEach {α : Type} (f : α → M Unit) : List α → M Unit
  | [] => pure ()
  | a :: as => f a >>= fun _ => forEach f as

end M

/-! ## System calls -/

namespace Sys

/-- The next answer, with what it does to the kernel. -/
def call {α : Type} (f : Kernel → Answer → Option (α × Kernel)) : M α := fun w =>
  match w.answers with
  | [] => .stuck w
  | a :: rest =>
    match f w.kernel a with
    | none => .stuck w
    | some (r, k) => .ok r { w with kernel := k, answers := rest }

/-- `epoll_ctl(ADD)` for the three descriptors of cinit and `prctl`, mod.rs:217-246 -/
def setup (fds : List Int) : M Bool :=
  call fun k a => match a with
    | .setup true => some (true, { k with epoll := fds })
    | .setup false => some (false, k)
    | _ => none

/-- `Local::now()`, mod.rs:390. chrono cannot represent more than `chronoMax`. -/
def now : M Int :=
  call fun k a => match a with
    | .now t => if t ≤ chronoMax then some (t, k) else none
    | _ => none

/-- process.rs:151-184. A new process id is positive and not that of an unreaped child; new
descriptors are not open yet. -/
def fork : M (Option (Int × Int × Int)) :=
  call fun k a => match a with
    | .fork none => some (none, k)
    | .fork (some (pid, out, err)) =>
      if 0 < pid ∧ pid ∉ k.children ∧ out ∉ k.fds ∧ err ∉ k.fds ∧ out ≠ err then
        some (some (pid, out, err),
          { k with children := pid :: k.children, fds := out :: err :: k.fds })
      else none
    | _ => none

/-- `epoll_ctl(ADD)`, mod.rs:333 -/
def epollAdd (fd : Int) : M Bool :=
  call fun k a => match a with
    | .epollAdd ok => some (ok, if ok then { k with epoll := fd :: k.epoll } else k)
    | _ => none

/-- `epoll_ctl(DEL)`, mod.rs:344; failure is ignored -/
def epollDel (fd : Int) : M Unit := fun w =>
  .ok () { w with kernel := { w.kernel with epoll := w.kernel.epoll.filter (· ≠ fd) } }

/-- Dropping an `OwnedFd`. -/
def close (fd : Int) : M Unit := fun w =>
  .ok () { w with kernel := { w.kernel with fds := w.kernel.fds.filter (· ≠ fd) } }

/-- `event_buffer`, mod.rs:195 -/
abbrev eventBuffer : Nat := 10

/-- The time, in milliseconds, after which `epoll_wait` returns even if nothing has happened,
mod.rs:196. Time passes by itself in the model, so this only matters where a theorem speaks of
it. -/
abbrev pollTimeout : Nat := 1000

/-- `epoll_wait`, mod.rs:196: at most as many events as there is room for, on different registered
descriptors -/
def epollWait : M (Option (List Ready)) :=
  call fun k a => match a with
    | .epoll none => some (none, k)
    | .epoll (some l) =>
      if l.length ≤ eventBuffer ∧ (l.map (·.fd)).Nodup ∧ ∀ r ∈ l, r.fd ∈ k.epoll then some (some l, k)
      else none
    | _ => none

/-- `waitpid`, mod.rs:121. Exit statuses are below 256, signal numbers are from 1 to 64. -/
def wait : M RawWait :=
  call fun k a => match a with
    | .wait r => match r with
      | .exited pid code =>
        if 0 < pid ∧ code < 256 then
          some (r, { k with children := k.children.filter (· ≠ pid) }) else none
      | .killed pid sig =>
        if 0 < pid ∧ 1 ≤ sig ∧ sig ≤ 64 then
          some (r, { k with children := k.children.filter (· ≠ pid) }) else none
      | _ => some (r, k)
    | _ => none

/-- Reading the signalfd: it was created for these signals only,
process_manager_builder.rs:125-133 -/
def signal : M (Option Nat) :=
  call fun k a => match a with
    | .signal none => some (none, k)
    | .signal (some n) =>
      if n = SIGCHLD ∨ n = SIGINT ∨ n = SIGTERM ∨ n = SIGQUIT then some (some n, k) else none
    | _ => none

/-- `recvmsg` into a buffer of 4096 bytes, notify_manager.rs:64-72 -/
def recv : M (Option (List Nat × Option Int)) :=
  call fun k a => match a with
    | .recv none => some (none, k)
    | .recv (some (bytes, cred)) =>
      if bytes.length ≤ 4096 ∧ ∀ b ∈ bytes, b < 256 then some (some (bytes, cred), k) else none
    | _ => none

/-- `read` into a buffer of 4096 bytes, mod.rs:352-353 -/
def read : M (Option (List Nat)) :=
  call fun k a => match a with
    | .read none => some (none, k)
    | .read (some bytes) =>
      if bytes.length ≤ 4096 ∧ ∀ b ∈ bytes, b < 256 then some (some bytes, k) else none
    | _ => none

/-- `accept` and the writes, status_reporter.rs:42-50 -/
def accept : M (Option Bool) :=
  call fun k a => match a with
    | .accept r => some (r, k)
    | _ => none

/-- `kill`, mod.rs:326: cannot fail for an unreaped child (cinit is root) -/
def kill (pid : Int) : M Bool :=
  call fun k a => match a with
    | .kill ok => if ok = false ∧ pid ∈ k.children then none else some (ok, k)
    | _ => none

end Sys

end Cinit
