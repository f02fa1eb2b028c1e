import Verif.Model.World
/-!
# Model of the event loop

`src/runtime/process_manager/{mod,notify_manager,status_reporter}.rs` and
`src/runtime/process_map.rs`, function by function. Log messages of cinit itself
(`info!`, `debug!` and so on) are left out except where an `Event` corresponds to them.
-/

namespace Cinit

open M

namespace Manager

/-! ## process_map.rs -/

/-- process_map.rs:66-68 `has_running_processes` -/
def hasRunningProcesses (m : Manager) : Bool :=
  !m.stdoutDict.isEmpty || !m.stderrDict.isEmpty || !m.pidDict.isEmpty

/-- process_map.rs:71-73 `is_stdout` -/
def isStdout (m : Manager) (fd : Int) : Bool := m.stdoutDict.contains fd

/-- process_map.rs:76-79 `register_stdout` -/
def registerStdout (i : Nat) (fd : Int) (m : Manager) : Manager :=
  { m with stdoutDict := m.stdoutDict.insert fd i, fdDict := fd :: m.fdDict }

/-- process_map.rs:82-85 `register_stderr` -/
def registerStderr (i : Nat) (fd : Int) (m : Manager) : Manager :=
  { m with stderrDict := m.stderrDict.insert fd i, fdDict := fd :: m.fdDict }

/-- process_map.rs:88-92 `deregister_fd` -/
def deregisterFd (fd : Int) (m : Manager) : Manager :=
  { m with
    stderrDict := m.stderrDict.erase fd
    stdoutDict := m.stdoutDict.erase fd
    fdDict := m.fdDict.filter (· ≠ fd) }

/-- process_map.rs:95-103 `process_for_fd` -/
def processForFd (m : Manager) (fd : Int) : Res Empty Process :=
  match m.stdoutDict.get? fd with
  | some i => Res.ofOption .indexOutOfBounds m.procs[i]?
  | none =>
    match m.stderrDict.get? fd with
    | some i => Res.ofOption .indexOutOfBounds m.procs[i]?
    | none => .panic .invalidFd

/-- process_map.rs:106-108 `register_pid` -/
def registerPid (i : Nat) (pid : Int) (m : Manager) : Manager :=
  { m with pidDict := m.pidDict.insert pid i }

/-- process_map.rs:111-113 `deregister_pid` -/
def deregisterPid (pid : Int) (m : Manager) : Manager :=
  { m with pidDict := m.pidDict.erase pid }

/-- process_map.rs:119-121 `process_id_for_pid` -/
def processIdForPid (m : Manager) (pid : Int) : Option Nat := m.pidDict.get? pid

/-- Update of one process through a mutable reference. -/
def setProc (i : Nat) (p : Process) (m : Manager) : Manager :=
  { m with procs := m.procs.set i p }

/-! ## status_reporter.rs -/

/-- status_reporter.rs:57-91: the lines about one program -/
def formatProgram (env : Env) (m : Manager) (id : Nat) (p : Process) : Res Empty Str :=
  let head := "  - name: '".toList ++ p.name ++ "'\n    state: '".toList ++ p.state.show ++
    "'\n".toList
  let status := if p.status.isEmpty then [] else "    status: ".toList ++ p.status ++ ['\n']
  let code := match p.state with
    | .done => "    exit_code: 0\n".toList
    | .crashed rc => "    exit_code: ".toList ++ showInt rc ++ ['\n']
    | _ => []
  let pid := match m.processIdForPid p.pid with
    | some _ => "    pid: ".toList ++ showInt p.pid ++ ['\n']
    | none => []
  if p.ptype = .cronjob then
    m.cron.nextExecution id >>= fun t =>
    .ok (head ++ status ++ code ++ pid ++ "    scheduled_at: '".toList ++ env.rfc3339 t ++
      "'\n".toList)
  else .ok (head ++ status ++ code ++ pid)

/-- status_reporter.rs:56: the loop, starting with the program at index `id` -/
def formatPrograms (env : Env) (m : Manager) : Nat → List Process → Res Empty Str
  | _, [] => .ok []
  | id, p :: ps =>
    formatProgram env m id p >>= fun s =>
    formatPrograms env m (id + 1) ps >>= fun rest => .ok (s ++ rest)

/-- status_reporter.rs:53-94 `format_report` -/
def formatReport (env : Env) (m : Manager) : Res Empty Str :=
  formatPrograms env m 0 m.procs >>= fun s => .ok ("programs:\n".toList ++ s)

end Manager

open Manager

/-- status_reporter.rs:35-50 `report_status`, `write_report`. The text is written piecewise in
Rust; here it is computed first. -/
def reportStatus (env : Env) : M Unit := do
  match ← Sys.accept with
  | none => emit .failed
  | some wrote =>
    let w ← get
    let text ← lift (w.mgr.formatReport env)
    emit (if wrote then .report text else .failed)

/-! ## mod.rs: shutting down -/

/-- mod.rs:318-328 `signal_children` -/
def signalChildren (sig : Nat) : M Unit := do
  let w ← get
  forEach (fun (child : Process) => do
    if ← Sys.kill child.pid then emit (.sent child.pid sig)
    else fail .killFailed) (w.mgr.procs.filter (fun p => p.state = .running))

/-- mod.rs:311-315 `initiate_shutdown` -/
def initiateShutdown (sig : Nat) : M Unit := do
  modifyMgr fun m => { m with keepRunning := false }
  signalChildren sig

/-- mod.rs:276-306 `handle_signal`. `Signal::try_from` succeeds for the signals the descriptor
was made for, and there are no others. -/
def handleSignal : M Unit := do
  match ← Sys.signal with
  | none => emit .failed
  | some n =>
    emit (.signal n)
    if n = SIGINT ∨ n = SIGQUIT then initiateShutdown n
    else when (n = SIGTERM) (initiateShutdown SIGINT)

/-! ## notify_manager.rs -/

/-- libc_helpers.rs:90-102 `slice_to_string`, `rescue_from_libc`: the text up to the first NUL.
The buffer of 4096 bytes behind the slice is filled with NUL beforehand. -/
def sliceToString (bytes : List Nat) : Res Empty Str :=
  if 4096 ≤ bytes.length ∧ 0 ∉ bytes then .panic .undefinedBehaviour
  else Res.ofOption .invalidUtf8 (fromUtf8 (bytes.takeWhile (· ≠ 0)))

/-- notify_manager.rs:63-85 `read_socket`. `iovs().next()` is `None` for an empty message. -/
def readSocket : M (Option (Str × Int)) := do
  match ← Sys.recv with
  | none => do
    emit .failed
    M.pure none
  | some (bytes, cred) =>
    emit (.received bytes)
    if bytes.isEmpty then fail .emptyDatagram
    else
      let message ← lift (sliceToString bytes)
      match cred with
      | none => do
        emit .unsigned
        M.pure none
      | some pid => do
        emit (.datagram pid message)
        M.pure (some (message, pid))

/-- notify_manager.rs:143-147 -/
def allowedKeys : List Str :=
  [Process.keyReady, Process.keyStopping, Process.keyStatus, Process.keyMainpid]

/-- notify_manager.rs:150-160: one line -/
def parseLine (result : AMap Str Str) (line : Str) : AMap Str Str :=
  match splitFirst '=' line with
  | (_, none) => result
  | (key, some value) => if allowedKeys.contains key then result.insert key value else result

/-- notify_manager.rs:141-163 `parse` -/
def parseNotification (state : Str) : AMap Str Str := (lines state).foldl parseLine []

/-- notify_manager.rs:121-138 `handle_notification` -/
def Manager.handleNotification (m : Manager) (i : Nat) (pid : Int) (key value : Str) :
    Res Empty Manager :=
  if key = Process.keyReady then
    if value ≠ ['1'] then .ok m
    else m.deps.notifyProcessFinished i >>= fun d => .ok { m with deps := d }
  else if key = Process.keyMainpid then
    match parseI32 value with
    | none => .ok m
    | some newPid => .ok (registerPid i newPid (deregisterPid pid m))
  else .ok m

/-- notify_manager.rs:91-117 `process` -/
def Manager.process (ord : HashOrder) (m : Manager) (state : Str) (peer : Int) :
    Res Empty Manager :=
  match m.processIdForPid peer with
  | none => .ok m
  | some i =>
    match m.procs[i]? with
    | none => .panic .indexOutOfBounds
    | some p =>
      if p.ptype ≠ .notify then .ok m
      else
        let variables := ord.apply (parseNotification state)
        let p' := variables.foldl (fun q kv => q.handleNotification kv.1 kv.2) p
        Res.foldlM (fun m kv => m.handleNotification i p.pid kv.1 kv.2) (setProc i p' m) variables

/-- notify_manager.rs:45-60 `read_notification`, `read_notification_internally` -/
def readNotification (env : Env) : M Unit := do
  match ← readSocket with
  | none => M.pure ()
  | some (message, peer) =>
    let w ← get
    let m ← lift (w.mgr.process (env.order w.log) message peer)
    modifyMgr fun _ => m

/-! ## mod.rs: the rest -/

/-- mod.rs:351-371 `print_child_output` -/
def printChildOutput (fd : Int) : M Unit := do
  match ← Sys.read with
  | none => emit .failed
  | some bytes =>
    emit (.chunk fd bytes)
    let w ← get
    let child ← lift (w.mgr.processForFd fd)
    forEach (fun line => when (¬ line.isEmpty) (emit (.line (w.mgr.isStdout fd) child.name line)))
      (lines (fromUtf8Lossy bytes))

/-- mod.rs:249-269 `handle_event` -/
def handleEvent (env : Env) (ev : Ready) : M Unit := do
  emit (.ready ev)
  let w ← get
  if ev.inp then
    if ev.fd = w.mgr.signalFd then handleSignal
    else if ev.fd = w.mgr.statusFd then reportStatus env
    else if ev.fd = w.mgr.notifyFd then readNotification env
    else printChildOutput ev.fd
  else if ev.hup then do
    emit (.hangup ev.fd)
    Sys.epollDel ev.fd
    when (ev.fd ∈ w.mgr.fdDict) (Sys.close ev.fd)
    modifyMgr (deregisterFd ev.fd)
  else M.pure ()

/-- mod.rs:194-208 `dispatch_epoll` -/
def dispatchEpoll (env : Env) : M Unit := do
  emit .polling
  match ← Sys.epollWait with
  | none => emit .unpolled
  | some evs =>
    emit (.polled evs)
    forEach (handleEvent env) evs

/-- mod.rs:148-191 `handle_finished_child` -/
def handleFinishedChild (pid rc : Int) : M Unit := do
  let w ← get
  match w.mgr.processIdForPid pid with
  | none => emit (.waited pid rc none)
  | some i =>
    match w.mgr.procs[i]? with
    | none => fail .indexOutOfBounds
    | some child =>
      emit (.waited pid rc (some i))
      modifyMgr (setProc i { child with state :=
        if rc = 0 then (if child.ptype = .cronjob then .sleeping else .done) else .crashed rc })
      when (rc ≠ 0) do
        modifyMgr fun m => { m with exitCode := 6 }
        initiateShutdown SIGINT
      modifyMgr (deregisterPid pid)
      when (child.ptype ≠ .cronjob) do
        let w ← get
        let d ← lift (w.mgr.deps.notifyProcessFinished i)
        modifyMgr fun m => { m with deps := d }

/-- mod.rs:118-139 `look_for_finished_children`. `nix` knows the signals 1 to 31 only: for a
child terminated by another one `waitpid` reaps the child but returns `Err(EINVAL)`, which
ends the loop. Each round needs an answer, so `fuel` is never the limit. -/
def lookForFinishedChildren : Nat → M Unit
  | 0 => stop
  | fuel + 1 => do
    match ← Sys.wait with
    | .exited pid code =>
      handleFinishedChild pid code
      lookForFinishedChildren fuel
    | .killed pid sig =>
      if sig ≤ 31 then do
        handleFinishedChild pid sig
        lookForFinishedChildren fuel
      else emit (.lost pid sig)
    | .alive => emit .reaped
    | .other => lookForFinishedChildren fuel
    | .error => emit .reaped

/-- mod.rs:411-438 `spawn_child` -/
def spawnChild (i : Nat) : M Unit := do
  let w ← get
  match w.mgr.procs[i]? with
  | none => fail .indexOutOfBounds
  | some child =>
    if child.state ≠ .blocked ∧ child.state ≠ .sleeping then emit (.refused i child.state)
    else
      match ← Sys.fork with
      | none => emit (.spawnFailed i)
      | some (pid, out, err) =>
        emit (.spawned i pid out err)
        modifyMgr (setProc i (child.started pid))
        let ok ← Sys.epollAdd out
        emit (.watched out ok)
        let ok ← Sys.epollAdd err
        emit (.watched err ok)
        modifyMgr (registerPid i pid)
        modifyMgr (registerStdout i out)
        modifyMgr (registerStderr i err)

/-- mod.rs:384-388: the loop over the dependency manager's runnables; each round removes one
of them, so their number is enough fuel -/
def spawnRunnables : Nat → M Unit
  | 0 => M.pure ()
  | fuel + 1 => do
    let w ← get
    match w.mgr.deps.popRunnable with
    | (none, _) => M.pure ()
    | (some i, d) =>
      modifyMgr fun m => { m with deps := d }
      match w.mgr.procs[i]? with
      | none => fail .indexOutOfBounds
      | some p =>
        when (p.ptype ≠ .cronjob) (spawnChild i)
        spawnRunnables fuel

/-- mod.rs:390-403: the loop over the cron scheduler; each round needs an answer -/
def spawnCronjobs (env : Env) : Nat → M Unit
  | 0 => stop
  | fuel + 1 => do
    let t ← Sys.now
    emit (.clock t)
    let w ← get
    match ← lift (w.mgr.cron.popRunnable env.zone t) with
    | (none, c) => modifyMgr fun m => { m with cron := c }
    | (some i, c) =>
      modifyMgr fun m => { m with cron := c }
      match w.mgr.procs[i]? with
      | none => fail .indexOutOfBounds
      | some _ =>
        cond (w.mgr.deps.isRunnable i) (spawnChild i) (emit (.postponed i))
        spawnCronjobs env fuel

/-- mod.rs:383-404 `spawn_children` -/
def spawnChildren (env : Env) : M Unit := do
  let w ← get
  spawnRunnables (w.mgr.deps.runnable.length + 1)
  let w ← get
  spawnCronjobs env (w.answers.length + 1)

/-- mod.rs:95-101: the loop of normal operation; each round needs an answer -/
def mainLoop (env : Env) : Nat → M Unit
  | 0 => stop
  | fuel + 1 => do
    let w ← get
    if w.mgr.keepRunning && (w.mgr.hasRunningProcesses || w.mgr.deps.hasRunnables) then do
      spawnChildren env
      dispatchEpoll env
      let w ← get
      lookForFinishedChildren (w.answers.length + 1)
      mainLoop env fuel
    else M.pure ()

/-- mod.rs:104-107: the loop during shutdown -/
def shutdownLoop (env : Env) : Nat → M Unit
  | 0 => stop
  | fuel + 1 => do
    let w ← get
    if w.mgr.hasRunningProcesses then do
      dispatchEpoll env
      let w ← get
      lookForFinishedChildren (w.answers.length + 1)
      shutdownLoop env fuel
    else M.pure ()

/-- mod.rs:83-113 `start`: the exit code -/
def start (env : Env) : M Int := do
  let w ← get
  if ← Sys.setup [w.mgr.signalFd, w.mgr.statusFd, w.mgr.notifyFd] then do
    let w ← get
    mainLoop env (w.answers.length + 1)
    let w ← get
    shutdownLoop env (w.answers.length + 1)
    let w ← get
    emit (.exit w.mgr.exitCode)
    M.pure w.mgr.exitCode
  else do
    emit (.exit 3)
    M.pure 3

end Cinit
