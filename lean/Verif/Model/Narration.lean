import Verif.Model.Main
import Verif.Model.Messages
/-!
# The event loop with its log

The functions of `Verif.Model.Manager` once more, with every call of a logging macro in
`src/runtime` at its place. `Verif/Proofs/Narration.lean` proves that they do the same apart from
the entries (`start_erases`).

The result of a run is accompanied by the entries written, in order. Texts that come from libraries
and details not modelled are taken from a `Voice`.
-/

namespace Cinit

open M Manager Logging

/-- What the log depends on besides the run. Each is chosen anew at each point of a run. -/
structure Voice where
  /-- the text of an error: `Display` and `Debug` of `nix::errno::Errno` and of
  `std::num::ParseIntError` are single lines -/
  error : Log → Str
  error_line : ∀ l, '\n' ∉ error l
  /-- `Debug` of other values -/
  debug : Log → Str
  /-- `ssi_pid` and `ssi_status` of a `SIGCHLD`, mod.rs:289-292 -/
  sender : Log → Int × Int
  /-- a signal cannot be read since there is none, mod.rs:299-304 -/
  noSignal : Log → Bool
  /-- a program cannot be started since `fork` fails, and not because of its output streams,
  process.rs:151-185 -/
  noFork : Log → Bool
  /-- the flags of the terminal are unknown, process.rs:398 -/
  noFlags : Log → Bool
  /-- the size of the terminal is unknown, process.rs:422 -/
  noSize : Log → Bool
  /-- `create_ptys` succeeds although the program cannot be started, process.rs:448 -/
  ptysCreated : Log → Bool
  /-- a descriptor cannot be removed from epoll, mod.rs:343-347 -/
  notRemoved : Log → Bool

/-- The monad of the event loop, writing entries. -/
def N (α : Type) := World → Out α × List Entry

namespace N

variable {α β : Type}

def pure (a : α) : N α := fun w => (.ok a w, [])

def bind (x : N α) (f : α → N β) : N β := fun w =>
  match x w with
  | (.ok a w', es) => ((f a w').1, es ++ (f a w').2)
  | (.panic p w', es) => (.panic p w', es)
  | (.stuck w', es) => (.stuck w', es)

instance : Monad N where
  pure := N.pure
  bind := N.bind

/-- Something that writes nothing. -/
def lift (x : M α) : N α := fun w => (x w, [])

instance : MonadLift M N := ⟨N.lift⟩

/-- Some entries. -/
def write (es : List Entry) : N Unit := fun w => (.ok () w, es)

/-- A message of one of cinit's modules, under `cinit::runtime`. -/
def say (module : List Str) (msg : Msg) : N Unit :=
  write [.own ("cinit".toList :: "runtime".toList :: module) msg]

/-- `if` without `else`. -/
def when (c : Prop) [Decidable c] (x : N Unit) : N Unit := if c then x else pure ()

/-- A `for` loop. -/
def forEach (f : α → N Unit) : List α → N Unit
  | [] => pure ()
  | a :: as => f a >>= fun _ => forEach f as

end N

namespace Narrated

open N

/-- Modules, by the files in `src/runtime`. -/
def inProcess : List Str := ["process".toList]
def inGraph : List Str := ["dependency_graph".toList]
def inCron : List Str := ["cronjob".toList]
def inManager : List Str := ["process_manager".toList]
def inNotify : List Str := ["process_manager".toList, "notify_manager".toList]
def inStatus : List Str := ["process_manager".toList, "status_reporter".toList]

/-- status_reporter.rs:35-50 `report_status`, `write_report` -/
def reportStatus (v : Voice) (env : Env) : N Unit := do
  match ← Sys.accept with
  | none =>
    let w ← M.get
    M.emit .failed
    say inStatus (.failure .warn "Failed to print report".toList (v.error w.log))
  | some wrote =>
    let w ← M.get
    let text ← M.lift (w.mgr.formatReport env)
    M.emit (if wrote then .report text else .failed)
    N.when (wrote = false)
      (say inStatus (.failure .warn "Failed to print report".toList (v.error w.log)))

/-- mod.rs:318-328 `signal_children` -/
def signalChildren (sig : Nat) : N Unit := do
  say inManager (.fixed .info "Killing children".toList)
  Cinit.signalChildren sig

/-- mod.rs:311-315 `initiate_shutdown` -/
def initiateShutdown (sig : Nat) : N Unit := do
  say inManager (.fixed .info "Received termination signal".toList)
  M.modifyMgr fun m => { m with keepRunning := false }
  signalChildren sig

/-- mod.rs:276-306 `handle_signal` -/
def handleSignal (v : Voice) : N Unit := do
  match ← Sys.signal with
  | none =>
    let w ← M.get
    M.emit .failed
    if v.noSignal w.log then say inManager (.fixed .debug "No signal received".toList)
    else say inManager (.failure .debug "Received unknown signal".toList (v.error w.log))
  | some n =>
    let w ← M.get
    M.emit (.signal n)
    if n = SIGINT ∨ n = SIGQUIT then initiateShutdown n
    else do
      N.when (n = SIGTERM) (initiateShutdown SIGINT)
      N.when (n = SIGCHLD)
        (say inManager (.childExited (v.sender w.log).1 (v.sender w.log).2))

/-! ## notify_manager.rs -/

/-- notify_manager.rs:45-85 `read_notification` as far as errors go, `read_socket` -/
def readSocket (v : Voice) : N (Option (Str × Int)) := do
  match ← Sys.recv with
  | none => do
    let w ← M.get
    M.emit .failed
    say inNotify (.failure .warn "Failed to receive notification".toList (v.error w.log))
    N.pure none
  | some (bytes, cred) =>
    M.emit (.received bytes)
    if bytes.isEmpty then M.fail .emptyDatagram
    else
      let message ← M.lift (sliceToString bytes)
      match cred with
      | none =>
        let w ← M.get
        M.emit .unsigned
        say inNotify (.failure .warn "Failed to receive notification".toList (v.error w.log))
        N.pure none
      | some pid => do
        M.emit (.datagram pid message)
        say inNotify (.received message pid)
        N.pure (some (message, pid))

/-- notify_manager.rs:150-160: what is said about a line -/
def parseMessages (line : Str) : List Msg :=
  match splitFirst '=' line with
  | (_, none) => [.unparsed line]
  | (key, some value) => if allowedKeys.contains key then [] else [.ignored key value]

/-- process.rs:197-256 `handle_notification`: what is said -/
def notificationMessages (v : Voice) (l : Log) (p : Process) (key value : Str) : List Msg :=
  if key = Process.keyReady then
    if value ≠ ['1'] then [.unexpected key value]
    else if p.state = .starting then [.started .info p.name, .started .trace p.name]
    else [.startedAgain p.name p.state]
  else if key = Process.keyStopping then
    if value ≠ ['1'] then [.unexpected key value]
    else [.stopping .info p.name, .stopping .trace p.name]
  else if key = Process.keyStatus then [.status p.name value]
  else if key = Process.keyMainpid then
    match parseI32 value with
    | none => [.badMainpid value (v.error l)]
    | some pid =>
      if pid ≠ p.pid then [.mainpid .info p.name p.pid pid, .mainpid .trace p.name p.pid pid] else []
  else []

/-- notify_manager.rs:107-109: the loop over the variables -/
def variableMessages (v : Voice) (l : Log) (p : Process) : AMap Str Str → List Msg
  | [] => []
  | (key, value) :: rest => notificationMessages v l p key value ++
    variableMessages v l (p.handleNotification key value) rest

/-- dependency_graph.rs:117-120: what `notify_process_finished` says -/
def finishedMessages (d : DepMgr) (i : Nat) : List Msg :=
  match d.nodes.get? i with
  | some n => if n.finished then [.alreadyTriggered i] else []
  | none => []

/-- Messages of one module. -/
def entries (module : List Str) (msgs : List Msg) : List Entry :=
  msgs.map (.own ("cinit".toList :: "runtime".toList :: module))

/-- notify_manager.rs:91-138 `process`, `handle_notification`: what is said. `READY` is among the
variables at most once, so the state of the dependency manager is that before the message. -/
def processEntries (v : Voice) (l : Log) (ord : HashOrder) (m : Manager) (state : Str) (peer : Int) :
    List Entry :=
  match m.processIdForPid peer with
  | none => entries inNotify [.unknownPid peer]
  | some i =>
    match m.procs[i]? with
    | none => []
    | some p =>
      if p.ptype ≠ .notify then
        entries inNotify [.fixed .warn
          "cinit only accepts notifications from processes of type notify".toList,
          .notAllowed p.name]
      else
        let variables := ord.apply (parseNotification state)
        entries inNotify ((lines state).flatMap parseMessages) ++
          entries inProcess (variableMessages v l p variables) ++
          entries inGraph (if AMap.get? variables Process.keyReady = some ['1'] then
            finishedMessages m.deps i else [])

/-- notify_manager.rs:45-60 `read_notification`, `read_notification_internally` -/
def readNotification (v : Voice) (env : Env) : N Unit := do
  match ← readSocket v with
  | none => N.pure ()
  | some (message, peer) =>
    let w ← M.get
    write (processEntries v w.log (env.order w.log) w.mgr message peer)
    let m ← M.lift (w.mgr.process (env.order w.log) message peer)
    M.modifyMgr fun _ => m

/-! ## mod.rs: the rest -/

/-- mod.rs:351-371 `print_child_output`, logging/stdout.rs:26-28, logging/stderr.rs:26-28 -/
def printChildOutput (fd : Int) : N Unit := do
  match ← Sys.read with
  | none => M.emit .failed
  | some bytes =>
    M.emit (.chunk fd bytes)
    let w ← M.get
    let child ← M.lift (w.mgr.processForFd fd)
    N.forEach (fun line => N.when (¬ line.isEmpty) do
        M.emit (.line (w.mgr.isStdout fd) child.name line)
        write [.program (w.mgr.isStdout fd) child.name line])
      (lines (fromUtf8Lossy bytes))

/-- mod.rs:249-269 `handle_event` -/
def handleEvent (v : Voice) (env : Env) (ev : Ready) : N Unit := do
  M.emit (.ready ev)
  let w ← M.get
  if ev.inp then
    if ev.fd = w.mgr.signalFd then handleSignal v
    else if ev.fd = w.mgr.statusFd then reportStatus v env
    else if ev.fd = w.mgr.notifyFd then readNotification v env
    else printChildOutput ev.fd
  else if ev.hup then do
    M.emit (.hangup ev.fd)
    Sys.epollDel ev.fd
    N.when (v.notRemoved w.log)
      (say inManager (.fixed .warn "Could not unregister fd from epoll".toList))
    M.when (ev.fd ∈ w.mgr.fdDict) (Sys.close ev.fd)
    M.modifyMgr (deregisterFd ev.fd)
  else say inManager (.fixed .warn "Received unknown event".toList)

/-- mod.rs:194-208 `dispatch_epoll` -/
def dispatchEpoll (v : Voice) (env : Env) : N Unit := do
  M.emit .polling
  match ← Sys.epollWait with
  | none =>
    let w ← M.get
    M.emit .unpolled
    say inManager (.failure .error "Could not complete epoll".toList (v.error w.log))
  | some evs =>
    M.emit (.polled evs)
    say inManager (.counted "Got ".toList evs.length " events".toList)
    N.forEach (handleEvent v env) evs

/-- mod.rs:165-179: what is said about the end of a child -/
def endMessages (child : Process) (rc : Int) : List Msg :=
  if rc = 0 then
    if child.ptype = .cronjob then [.sleeps .info child.name, .sleeps .trace child.name]
    else [.exited .info child.name, .exited .trace child.name]
  else [.crashed .error child.name rc, .crashed .trace child.name rc]

/-- mod.rs:148-191 `handle_finished_child` -/
def handleFinishedChild (pid rc : Int) : N Unit := do
  let w ← M.get
  match w.mgr.processIdForPid pid with
  | none =>
    M.emit (.waited pid rc none)
    write (entries inManager [.zombie .info pid rc, .zombie .trace pid rc])
  | some i =>
    match w.mgr.procs[i]? with
    | none => M.fail .indexOutOfBounds
    | some child =>
      M.emit (.waited pid rc (some i))
      write (entries inManager (endMessages child rc))
      M.modifyMgr (setProc i { child with state :=
        if rc = 0 then (if child.ptype = .cronjob then .sleeping else .done) else .crashed rc })
      N.when (rc ≠ 0) do
        M.modifyMgr fun m => { m with exitCode := 6 }
        initiateShutdown SIGINT
      M.modifyMgr (deregisterPid pid)
      N.when (child.ptype ≠ .cronjob) do
        let w ← M.get
        write (entries inGraph (finishedMessages w.mgr.deps i))
        let d ← M.lift (w.mgr.deps.notifyProcessFinished i)
        M.modifyMgr fun m => { m with deps := d }

/-- mod.rs:118-139 `look_for_finished_children` -/
def lookForFinishedChildren (v : Voice) : Nat → N Unit
  | 0 => M.stop
  | fuel + 1 => do
    match ← Sys.wait with
    | .exited pid code =>
      let w ← M.get
      say inManager (.debugged "Got signal from child: ".toList (v.debug w.log))
      handleFinishedChild pid code
      lookForFinishedChildren v fuel
    | .killed pid sig =>
      if sig ≤ 31 then do
        let w ← M.get
        say inManager (.debugged "Got signal from child: ".toList (v.debug w.log))
        handleFinishedChild pid sig
        lookForFinishedChildren v fuel
      else M.emit (.lost pid sig)
    | .alive => M.emit .reaped
    | .other =>
      let w ← M.get
      say inManager (.debugged "Got unknown result ".toList (v.debug w.log))
      lookForFinishedChildren v fuel
    | .error => M.emit .reaped

/-- process.rs:381-450 `create_ptys` as far as it is reached before it can fail, and its end;
nothing is said about pipes -/
def ptyMessages (v : Voice) (l : Log) (p : Process) : List Msg :=
  if p.emulatePty then
    (if v.noFlags l then [.fixed .debug "Could not get terminal flags".toList] else []) ++
      (if v.noSize l then [.fixed .debug "Not running inside tty, using sane defaults".toList] else [])
  else []

/-- process.rs:448 -/
def ptysCreated (p : Process) : List Msg :=
  if p.emulatePty then [.fixed .info "Pseudo terminals created".toList] else []

/-- mod.rs:331-340 `register_fd_at_epoll` -/
def registerFd (fd : Int) : N Unit := do
  say inManager (.counted "Registering fd ".toList fd [])
  let ok ← Sys.epollAdd fd
  M.emit (.watched fd ok)
  N.when (ok = false) (say inManager (.fixed .warn "Could not unregister fd from epoll".toList))

/-- mod.rs:411-438 `spawn_child`, process.rs:148-187 `start` -/
def spawnChild (v : Voice) (i : Nat) : N Unit := do
  let w ← M.get
  match w.mgr.procs[i]? with
  | none => M.fail .indexOutOfBounds
  | some child =>
    if child.state ≠ .blocked ∧ child.state ≠ .sleeping then do
      M.emit (.refused i child.state)
      write (entries inManager [.refused .warn child.name child.state,
        .refused .trace child.name child.state])
    else do
      write (entries inProcess [.starting child.name])
      match ← Sys.fork with
      | none =>
        M.emit (.spawnFailed i)
        write (entries inProcess (ptyMessages v w.log child ++
          if v.noFork w.log then ptysCreated child ++ [.fixed .error "Forking failed".toList]
          else if v.ptysCreated w.log then ptysCreated child else []))
        say inManager (.failure .error "Failed to spawn child".toList (v.error w.log))
      | some (pid, out, err) =>
        M.emit (.spawned i pid out err)
        write (entries inProcess (ptyMessages v w.log child ++ ptysCreated child ++
          [.startedName child.name, .startedPid pid]))
        M.modifyMgr (setProc i (child.started pid))
        registerFd out
        registerFd err
        M.modifyMgr (registerPid i pid)
        M.modifyMgr (registerStdout i out)
        M.modifyMgr (registerStderr i err)

/-- mod.rs:384-388 -/
def spawnRunnables (v : Voice) : Nat → N Unit
  | 0 => N.pure ()
  | fuel + 1 => do
    let w ← M.get
    match w.mgr.deps.popRunnable with
    | (none, _) => N.pure ()
    | (some i, d) =>
      M.modifyMgr fun m => { m with deps := d }
      match w.mgr.procs[i]? with
      | none => M.fail .indexOutOfBounds
      | some p =>
        N.when (p.ptype ≠ .cronjob) (spawnChild v i)
        spawnRunnables v fuel

/-- cronjob.rs:341-349: what `pop_runnable` says -/
def cronMessages (env : Env) (c : Cron) (now : Int) : List Msg :=
  match c.timer with
  | [] => []
  | (t, id) :: _ =>
    if t ≤ now then
      match c.timers.get? id with
      | some td =>
        match td.next env.zone now with
        | .ok t' => [.scheduled (env.rfc3339 t')]
        | _ => []
      | none => []
    else []

/-- mod.rs:390-403 -/
def spawnCronjobs (v : Voice) (env : Env) : Nat → N Unit
  | 0 => M.stop
  | fuel + 1 => do
    let t ← Sys.now
    M.emit (.clock t)
    let w ← M.get
    write (entries inCron (cronMessages env w.mgr.cron t))
    match ← M.lift (w.mgr.cron.popRunnable env.zone t) with
    | (none, c) => M.modifyMgr fun m => { m with cron := c }
    | (some i, c) =>
      M.modifyMgr fun m => { m with cron := c }
      match w.mgr.procs[i]? with
      | none => M.fail .indexOutOfBounds
      | some p =>
        cond (w.mgr.deps.isRunnable i) (spawnChild v i) (do
          M.emit (.postponed i)
          write (entries inManager [.postponed .debug p.name, .postponed .trace p.name]))
        spawnCronjobs v env fuel

/-- mod.rs:383-404 `spawn_children` -/
def spawnChildren (v : Voice) (env : Env) : N Unit := do
  let w ← M.get
  spawnRunnables v (w.mgr.deps.runnable.length + 1)
  let w ← M.get
  spawnCronjobs v env (w.answers.length + 1)

/-- mod.rs:95-101 -/
def mainLoop (v : Voice) (env : Env) : Nat → N Unit
  | 0 => M.stop
  | fuel + 1 => do
    let w ← M.get
    if w.mgr.keepRunning && (w.mgr.hasRunningProcesses || w.mgr.deps.hasRunnables) then do
      spawnChildren v env
      dispatchEpoll v env
      let w ← M.get
      lookForFinishedChildren v (w.answers.length + 1)
      mainLoop v env fuel
    else N.pure ()

/-- mod.rs:104-107 -/
def shutdownLoop (v : Voice) (env : Env) : Nat → N Unit
  | 0 => M.stop
  | fuel + 1 => do
    let w ← M.get
    if w.mgr.hasRunningProcesses then do
      dispatchEpoll v env
      let w ← M.get
      lookForFinishedChildren v (w.answers.length + 1)
      shutdownLoop v env fuel
    else N.pure ()

/-- mod.rs:83-113 `start` -/
def start (v : Voice) (env : Env) : N Int := do
  let w ← M.get
  if ← Sys.setup [w.mgr.signalFd, w.mgr.statusFd, w.mgr.notifyFd] then do
    say inManager (.fixed .debug "setup successful".toList)
    say inManager (.fixed .debug "Entering poll loop".toList)
    let w ← M.get
    mainLoop v env (w.answers.length + 1)
    say inManager (.fixed .info "Shutting down".toList)
    let w ← M.get
    shutdownLoop v env (w.answers.length + 1)
    say inManager (.fixed .info "Exiting".toList)
    say inManager (.fixed .trace "Exiting".toList)
    let w ← M.get
    M.emit (.exit w.mgr.exitCode)
    N.pure w.mgr.exitCode
  else do
    let w ← M.get
    say inManager (.failure .error "Failed to register with epoll".toList (v.error w.log))
    M.emit (.exit 3)
    N.pure 3

end Narrated

/-- The entries of the log while the event loop runs. -/
def Machine.entries (x : Machine) (v : Voice) (m : Manager) : List Entry :=
  (Narrated.start v x.env (x.world m)).2

end Cinit
