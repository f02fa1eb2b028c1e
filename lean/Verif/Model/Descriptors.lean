import Verif.Model.Kernel
/-!
# Model of cinit's own descriptors

`src/analyse/process_manager_builder.rs`:101, 132, 147 (opening), `src/runtime/process.rs`:148-187
(`start`), 265-283 (`create_std_fds`), 383-457 (`create_ptys`, `create_pipes`),
`src/runtime/process_manager/status_reporter.rs`:42-50 (`write_report`),
`src/runtime/process_map.rs`:76-92 (registering and dropping streams).

Which descriptors the kernel hands out and which calls fail is up to it, except that new
descriptors are unused ones and new pipes are new.
-/

namespace Cinit

namespace Descr

/-- A new pipe (or pseudo terminal): descriptors of cinit's end and of the program's end, and
the two ends. -/
structure Pipe where
  readFd : Nat
  writeFd : Nat
  readEnd : Nat
  writeEnd : Nat
  deriving DecidableEq, Repr

/-- The descriptors of cinit. -/
structure State where
  files : Files
  /-- the streams of programs cinit reads from -/
  streams : List Nat := []
  /-- all the program's ends there have been -/
  writeEnds : List Nat := []

/-- The descriptor and the file are new. -/
def New (s : State) (fd object : Nat) : Prop :=
  s.files fd = none ∧ object ∉ s.writeEnds ∧ ∀ n f, s.files n = some f → f.object ≠ object

/-- What the kernel says to an attempt to start a program. -/
structure StartAnswer where
  /-- `pipe` or `openpty`, twice -/
  pipe1 : Option Pipe
  pipe2 : Option Pipe
  /-- the rest of `create_ptys` -/
  terminal : Bool := true
  fcntl1 : Bool := true
  fcntl2 : Bool := true
  fork : Bool := true

def openPipe (t : Files) (p : Pipe) : Files :=
  (t.set p.readFd (some ⟨p.readEnd, false⟩)).set p.writeFd (some ⟨p.writeEnd, false⟩)

def closePipe (t : Files) (p : Pipe) : Files := (t.close p.readFd).close p.writeFd

/-- `fcntl(.., F_SETFD(FD_CLOEXEC))` -/
def setCloexec (t : Files) (fd : Nat) : Files := t.set fd ((t fd).map fun f => { f with cloexec := true })

/-- process.rs:265-283 `create_std_fds`: the resulting descriptors and the pipes for the standard
output and error. Pipes that are not returned are dropped. -/
def createStdFds (t : Files) (a : StartAnswer) : Files × Option (Pipe × Pipe) :=
  match a.pipe1 with
  | none => (t, none)
  | some p =>
    let t := openPipe t p
    match a.pipe2 with
    | none => (closePipe t p, none)
    | some q =>
      let t := openPipe t q
      if ¬ a.terminal then (closePipe (closePipe t q) p, none) else
      if ¬ a.fcntl1 then (closePipe (closePipe t q) p, none) else
      let t := setCloexec t p.readFd
      if ¬ a.fcntl2 then (closePipe (closePipe t q) p, none) else
      let t := setCloexec t q.readFd
      (t, some (p, q))

/-- process.rs:148-187 `start`: the descriptors of cinit afterwards, and, if a child was forked,
the descriptors it begins with, and the pipes. -/
def start (t : Files) (a : StartAnswer) : Files × Option (Files × Pipe × Pipe) :=
  match createStdFds t a with
  | (t, none) => (t, none)
  | (t, some (p, q)) =>
    if a.fork then ((t.close p.writeFd).close q.writeFd, some (t, p, q))
    else (closePipe (closePipe t q) p, none)

/-- The streams cinit reads from after `start`. -/
def streamsOf : Option (Files × Pipe × Pipe) → List Nat
  | some (_, p, q) => [p.readFd, q.readFd]
  | none => []

/-- What cinit does with descriptors. -/
inductive Op where
  /-- the signal, epoll and socket descriptors, all opened with the flag CLOEXEC -/
  | open (fd object : Nat)
  /-- an attempt to start a program -/
  | start (a : StartAnswer)
  /-- a stream has ended and is dropped -/
  | hangup (fd : Nat)
  /-- a status report: the connection is accepted, without the flag CLOEXEC, written to and
  closed -/
  | report (fd object : Nat)

/-- The pipes the kernel hands out are new, with four different descriptors and ends. -/
def Fresh (s : State) (a : StartAnswer) : Prop :=
  (∀ p, a.pipe1 = some p → New s p.readFd p.readEnd ∧ New s p.writeFd p.writeEnd ∧
    p.readFd ≠ p.writeFd ∧ p.readEnd ≠ p.writeEnd) ∧
  (∀ q, a.pipe2 = some q → New s q.readFd q.readEnd ∧ New s q.writeFd q.writeEnd ∧
    q.readFd ≠ q.writeFd ∧ q.readEnd ≠ q.writeEnd) ∧
  ∀ p q, a.pipe1 = some p → a.pipe2 = some q →
    p.readFd ≠ q.readFd ∧ p.readFd ≠ q.writeFd ∧ p.writeFd ≠ q.readFd ∧ p.writeFd ≠ q.writeFd ∧
    p.readEnd ≠ q.readEnd ∧ p.readEnd ≠ q.writeEnd ∧ p.writeEnd ≠ q.readEnd ∧
    p.writeEnd ≠ q.writeEnd

/-- One step. -/
inductive Step : State → Op → State → Prop where
  | open {s : State} {fd object : Nat} (h : New s fd object) :
    Step s (.open fd object) { s with files := s.files.set fd (some ⟨object, true⟩) }
  | start {s : State} {a : StartAnswer} {t : Files} {r : Option (Files × Pipe × Pipe)}
      (h : Fresh s a) (hs : Descr.start s.files a = (t, r)) :
    Step s (.start a)
      { files := t
        streams := s.streams ++ streamsOf r
        writeEnds := s.writeEnds ++ (a.pipe1.toList ++ a.pipe2.toList).map (·.writeEnd) }
  | hangup {s : State} {fd : Nat} (h : fd ∈ s.streams) :
    Step s (.hangup fd) { s with files := s.files.close fd, streams := s.streams.filter (· ≠ fd) }
  | report {s : State} {fd object : Nat} (h : New s fd object) :
    Step s (.report fd object)
      { s with files := (s.files.set fd (some ⟨object, false⟩)).close fd }

/-- The states reachable from the descriptors cinit was started with. -/
inductive Reachable (t0 : Files) : State → Prop where
  | init : Reachable t0 { files := t0 }
  | step {s s' : State} {op : Op} (h : Reachable t0 s) (hs : Step s op s') : Reachable t0 s'

end Descr

end Cinit
