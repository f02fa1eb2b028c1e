import Verif.Spec.Troubles
import Verif.Model.Narration
/-!
# What is written to the log about a run, entry by entry

Functions and relations of the observable history (newest event first), the configuration, and what
the history does not show (`Voice`).
-/

namespace Cinit.Spec

open Cinit Logging

/-- What the log depends on besides the history. -/
structure Telling where
  setting : Setting
  inlets : Inlets
  voice : Voice

/-- signal(7) -/
abbrev Signal.chld : Nat := 17

/-! ## Who writes -/

def byManager : List Str := ["cinit".toList, "runtime".toList, "process_manager".toList]
def byNotify : List Str :=
  ["cinit".toList, "runtime".toList, "process_manager".toList, "notify_manager".toList]
def byStatus : List Str :=
  ["cinit".toList, "runtime".toList, "process_manager".toList, "status_reporter".toList]
def byProcess : List Str := ["cinit".toList, "runtime".toList, "process".toList]
def byGraph : List Str := ["cinit".toList, "runtime".toList, "dependency_graph".toList]
def byCron : List Str := ["cinit".toList, "runtime".toList, "cronjob".toList]

/-- Messages of one module. -/
def said (target : List Str) (msgs : List Msg) : List Entry := msgs.map (.own target)

/-- Entries other than those showing an answer of the kernel to a request for terminated
children. -/
def uttered : Entry → Bool
  | .own _ (.debugged _ _) => false
  | _ => true

/-! ## Messages of programs -/

/-- About a line of a message. -/
def aboutLine (line : Str) : List Msg :=
  if '=' ∉ line then [.unparsed line]
  else if line.takeWhile (· ≠ '=') ∈
      ["READY".toList, "STOPPING".toList, "STATUS".toList, "MAINPID".toList] then []
  else [.ignored (line.takeWhile (· ≠ '=')) ((line.dropWhile (· ≠ '=')).drop 1)]

/-- The variables a message gives a value, with their last values. -/
def assignments (text : Str) : List (Str × Str) :=
  ["READY".toList, "STOPPING".toList, "STATUS".toList, "MAINPID".toList].filterMap
    fun k => (assigned text k).map (Prod.mk k)

/-- About variables taken in the given order, by a program of the given name that is in state `s` and
has main process `pid` before. -/
def aboutValues (name err : Str) (s : PState) (pid : Int) : List (Str × Str) → List Msg
  | [] => []
  | (key, value) :: rest =>
    if key = "READY".toList then
      if value = ['1'] then
        if s = .starting then
          [.started .info name, .started .trace name] ++ aboutValues name err .running pid rest
        else .startedAgain name s :: aboutValues name err s pid rest
      else .unexpected key value :: aboutValues name err s pid rest
    else if key = "STOPPING".toList then
      if value = ['1'] then
        [.stopping .info name, .stopping .trace name] ++ aboutValues name err .stopping pid rest
      else .unexpected key value :: aboutValues name err s pid rest
    else if key = "STATUS".toList then .status name value :: aboutValues name err s pid rest
    else match parseI32 value with
      | none => .badMainpid value err :: aboutValues name err s pid rest
      | some r =>
        if r = pid then aboutValues name err s pid rest
        else [.mainpid .info name pid r, .mainpid .trace name pid r] ++ aboutValues name err s r rest

/-- The messages, if `p` holds. -/
def If (p : Prop) (es es' : List Entry) : Prop := (p → es' = es) ∧ (¬ p → es' = [])

/-- About a message of process `q`. The variables may be taken in any order. -/
def AboutMessage (T : Telling) (past : Log) (q : Int) (text : Str) (es : List Entry) : Prop :=
  match owner T.setting.programs past q with
  | none => es = said byNotify [.received text q, .unknownPid q]
  | some i => ∃ c, T.setting.programs[i]? = some c ∧
    if c.ptype = .notify then
      ∃ vs again, vs.Perm (assignments text) ∧
        If (saysReady text ∧ (Completed T.setting.programs i past ∨ Terminated T.setting.programs false i past))
          (said byGraph [.alreadyTriggered i]) again ∧
        es = said byNotify (.received text q :: (lines text).flatMap aboutLine) ++
          said byProcess (aboutValues c.name (T.voice.error (.datagram q text :: past))
            (state T.setting.programs past i) (mainPid T.setting.programs past i) vs) ++ again
    else es = said byNotify [.received text q, .fixed .warn
      "cinit only accepts notifications from processes of type notify".toList, .notAllowed c.name]

/-! ## Starting programs -/

/-- About the terminals of a program. -/
def aboutTerminals (T : Telling) (past : Log) (c : ProcessConfig) : List Msg :=
  if c.emulatePty then
    (if T.voice.noFlags past then [.fixed .debug "Could not get terminal flags".toList] else []) ++
      (if T.voice.noSize past then
        [.fixed .debug "Not running inside tty, using sane defaults".toList] else [])
  else []

/-- They exist. -/
def terminalsMade (c : ProcessConfig) : List Msg :=
  if c.emulatePty then [.fixed .info "Pseudo terminals created".toList] else []

/-- About a reading of the clock: if the earliest execution planned is due, the instant its
expression selects next. (The execution is planned a few nanoseconds later if others are planned for
that instant.) -/
def AboutClock (X : Setting) (past : Log) (t : Int) (es : List Entry) : Prop :=
  ∃ c, schedule X.zone X.cron past = some c ∧
    (((∀ x ∈ c.timer, t < x.1) ∧ es = []) ∨
      ∃ t0 i rest timer, c.timer = (t0, i) :: rest ∧ t0 ≤ t ∧ c.timers.get? i = some timer ∧
        es = match timer.next X.zone t with
          | .ok t' => said byCron [.scheduled (X.rfc3339 t')]
          | _ => [])

/-! ## The end of processes -/

/-- About the end of a program. -/
def aboutEnd (ps : List ProcessConfig) (i : Nat) (c : ProcessConfig) (rc : Int) : List Msg :=
  if rc ≠ 0 then [.crashed .error c.name rc, .crashed .trace c.name rc]
  else if isCronjob ps i then [.sleeps .info c.name, .sleeps .trace c.name]
  else [.exited .info c.name, .exited .trace c.name]

/-- All programs are asked to terminate. -/
def killing : List Msg :=
  [.fixed .info "Received termination signal".toList, .fixed .info "Killing children".toList]

/-- What remains to be said about the end of a program that has triggered its dependants already,
when all signals to be sent have been sent. -/
def Belated (ps : List ProcessConfig) : Log → List Entry → Prop
  | .sent _ _ :: past, es => Belated ps past es
  | .waited p _ _ :: past, es =>
    match owner ps past p with
    | none => es = []
    | some i => If (¬ isCronjob ps i ∧ (Completed ps i past ∨ Terminated ps false i past))
        (said byGraph [.alreadyTriggered i]) es
  | _, es => es = []

/-! ## All of it -/

/-- What is written because of an event, `past` being the history before it. -/
def Reason (T : Telling) (past : Log) (e : Event) (es : List Entry) : Prop :=
  match e with
  | .failed => es = match past with
    | .ready ev :: _ =>
      if ev.fd = T.inlets.signalFd then said byManager [if T.voice.noSignal past then
          .fixed .debug "No signal received".toList
        else .failure .debug "Received unknown signal".toList (T.voice.error past)]
      else if ev.fd = T.inlets.statusFd then
        said byStatus [.failure .warn "Failed to print report".toList (T.voice.error past)]
      else if ev.fd = T.inlets.notifyFd then
        said byNotify [.failure .warn "Failed to receive notification".toList (T.voice.error past)]
      else []
    | _ => []
  | .unsigned =>
    es = said byNotify [.failure .warn "Failed to receive notification".toList (T.voice.error past)]
  | .unpolled =>
    es = said byManager [.failure .error "Could not complete epoll".toList (T.voice.error past)]
  | .polled evs => es = said byManager [.counted "Got ".toList evs.length " events".toList]
  | .ready ev => es = if ev.inp || ev.hup then []
      else said byManager [.fixed .warn "Received unknown event".toList]
  | .hangup _ => es = if T.voice.notRemoved past then
      said byManager [.fixed .warn "Could not unregister fd from epoll".toList] else []
  | .watched fd ok => es = said byManager (.counted "Registering fd ".toList fd [] ::
      if ok then [] else [.fixed .warn "Could not unregister fd from epoll".toList])
  | .spawned i pid _ _ => ∃ c, T.setting.programs[i]? = some c ∧
      es = said byProcess ([.starting c.name] ++ aboutTerminals T past c ++ terminalsMade c ++
        [.startedName c.name, .startedPid pid])
  | .spawnFailed i => ∃ c, T.setting.programs[i]? = some c ∧
      es = said byProcess ([.starting c.name] ++ aboutTerminals T past c ++
          if T.voice.noFork past then terminalsMade c ++ [.fixed .error "Forking failed".toList]
          else if T.voice.ptysCreated past then terminalsMade c else []) ++
        said byManager [.failure .error "Failed to spawn child".toList (T.voice.error past)]
  | .refused i s => ∃ c, T.setting.programs[i]? = some c ∧
      es = said byManager [.refused .warn c.name s, .refused .trace c.name s]
  | .postponed i => ∃ c, T.setting.programs[i]? = some c ∧
      es = said byManager [.postponed .debug c.name, .postponed .trace c.name]
  | .clock t => AboutClock T.setting past t es
  | .line out name text => es = [.program out name text]
  | .signal n => es = said byManager (
      if n = Signal.int ∨ n = Signal.quit ∨ n = Signal.term then killing
      else if n = Signal.chld then [.childExited (T.voice.sender past).1 (T.voice.sender past).2]
      else [])
  | .waited p rc who => match owner T.setting.programs past p with
    | none => es = said byManager [.zombie .info p rc, .zombie .trace p rc]
    | some i => ∃ c late, T.setting.programs[i]? = some c ∧
        es = said byManager (aboutEnd T.setting.programs i c rc ++ if rc ≠ 0 then killing else []) ++ late ∧
        (if obligations T.setting.programs (.waited p rc who :: past) = [] then
          Belated T.setting.programs (.waited p rc who :: past) late else late = [])
  | .sent pid sig =>
    if obligations T.setting.programs (.sent pid sig :: past) = [] then
      Belated T.setting.programs past es else es = []
  | .datagram q text => AboutMessage T past q text es
  | .polling => If (ShuttingDown T.setting.programs past ∧
        ∀ l', lastWait past = some l' → ¬ ShuttingDown T.setting.programs l')
      (said byManager [.fixed .info "Shutting down".toList]) es
  | .exit code =>
    if code = 3 then
      es = said byManager [.failure .error "Failed to register with epoll".toList (T.voice.error past)]
    else ∃ first, If (∀ l', lastWait past = some l' → ¬ ShuttingDown T.setting.programs l')
        (said byManager [.fixed .info "Shutting down".toList]) first ∧
      es = first ++ said byManager [.fixed .info "Exiting".toList, .fixed .trace "Exiting".toList]
  | _ => es = []

/-- Entries can be shared out among the events of a run, in order, such that each event is the reason
for its share. -/
def Account (T : Telling) : Log → List Entry → Prop
  | [], es => es = []
  | e :: past, es => ∃ old new, es = old ++ new ∧ Account T past old ∧ Reason T past e new

/-- What has been said about something that has not happened yet. -/
def Begun (T : Telling) (es : List Entry) : Prop :=
  (∃ c ∈ T.setting.programs, es = said byProcess [.starting c.name]) ∨
  ∃ fd, es = said byManager [.counted "Registering fd ".toList fd []]

/-- What is said before anything has happened, if the set-up of cinit succeeds. -/
def greeting : List Entry :=
  said byManager [.fixed .debug "setup successful".toList, .fixed .debug "Entering poll loop".toList]

end Cinit.Spec
