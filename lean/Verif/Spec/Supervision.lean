import Verif.Model.World
import Verif.Spec.DepGraph
/-!
# What a history of events means

Functions of the observable history (newest event first) and the configured programs `ps`
only: nothing here mentions the process manager or its tables.
-/

namespace Cinit.Spec

open Cinit

/-- Program `i` is of type notify. -/
def isNotify (ps : List ProcessConfig) (i : Nat) : Prop :=
  ∃ c, ps[i]? = some c ∧ c.ptype = .notify

/-- Program `i` is a cronjob. -/
def isCronjob (ps : List ProcessConfig) (i : Nat) : Prop :=
  ∃ c, ps[i]? = some c ∧ ∃ t, c.ptype = .cronJob t

instance (ps : List ProcessConfig) (i : Nat) : Decidable (isNotify ps i) :=
  match h : ps[i]? with
  | some c => if h' : c.ptype = .notify then isTrue ⟨c, h, h'⟩
    else isFalse (by rintro ⟨c', h1, h2⟩; rw [h] at h1; cases h1; exact h' h2)
  | none => isFalse (by rintro ⟨c', h1, -⟩; rw [h] at h1; cases h1)

instance (ps : List ProcessConfig) (i : Nat) : Decidable (isCronjob ps i) :=
  match h : ps[i]? with
  | some c => match h' : c.ptype with
    | .cronJob t => isTrue ⟨c, h, t, h'⟩
    | .oneshot => isFalse (by rintro ⟨c', h1, t, h2⟩; rw [h] at h1; cases h1; rw [h'] at h2; cases h2)
    | .notify => isFalse (by rintro ⟨c', h1, t, h2⟩; rw [h] at h1; cases h1; rw [h'] at h2; cases h2)
  | none => isFalse (by rintro ⟨c', h1, -⟩; rw [h] at h1; cases h1)

/-! ## Notification messages -/

/-- The value a line of the form `key=value` gives to `key`. -/
def valueIn (key line : Str) : Option Str :=
  if (key ++ ['=']).isPrefixOf line then some (line.drop (key.length + 1)) else none

/-- The value a message gives to `key`: that of the last such line. -/
def assigned (text key : Str) : Option Str := ((lines text).filterMap (valueIn key)).getLast?

/-- The message says `READY=1`. -/
def saysReady (text : Str) : Prop := assigned text "READY".toList = some ['1']

/-- The message says `STOPPING=1`. -/
def saysStopping (text : Str) : Prop := assigned text "STOPPING".toList = some ['1']

/-- The new main process the message announces. -/
def newMainPid (text : Str) : Option Int := (assigned text "MAINPID".toList).bind parseI32

instance (text : Str) : Decidable (saysReady text) := inferInstanceAs (Decidable (_ = _))
instance (text : Str) : Decidable (saysStopping text) := inferInstanceAs (Decidable (_ = _))

/-! ## Which program does a process belong to -/

/-- The program whose main process `p` is. -/
def owner (ps : List ProcessConfig) : Log → Int → Option Nat
  | [], _ => none
  | .spawned i q _ _ :: l, p => if p = q then some i else owner ps l p
  | .waited q _ _ :: l, p => if p = q then none else owner ps l p
  | .datagram q text :: l, p =>
    match owner ps l q, newMainPid text with
    | some i, some r =>
      if isNotify ps i then
        if p = r then some i else if p = q then none else owner ps l p
      else owner ps l p
    | _, _ => owner ps l p
  | _ :: l, p => owner ps l p

/-- A message that counts: its sender is the main process of program `i` of type notify. -/
def Accepts (ps : List ProcessConfig) (l : Log) (q : Int) (i : Nat) : Prop :=
  owner ps l q = some i ∧ isNotify ps i

instance (ps : List ProcessConfig) (l : Log) (q : Int) (i : Nat) : Decidable (Accepts ps l q i) :=
  inferInstanceAs (Decidable (_ ∧ _))

/-- The process most recently known as main process of program `i`, 0 if there was none. -/
def mainPid (ps : List ProcessConfig) : Log → Nat → Int
  | [], _ => 0
  | .spawned j q _ _ :: l, i => if i = j then q else mainPid ps l i
  | .datagram q text :: l, i =>
    if Accepts ps l q i then (newMainPid text).getD (mainPid ps l i) else mainPid ps l i
  | _ :: l, i => mainPid ps l i

/-! ## The state of a program -/

/-- The state program `i` is in. -/
def state (ps : List ProcessConfig) : Log → Nat → PState
  | [], i => if isCronjob ps i then .sleeping else .blocked
  | .spawned j _ _ _ :: l, i =>
    if i = j then (if isNotify ps i then .starting else .running) else state ps l i
  | .waited p rc _ :: l, i =>
    if owner ps l p = some i then
      if rc ≠ 0 then .crashed rc else if isCronjob ps i then .sleeping else .done
    else state ps l i
  | .datagram q text :: l, i =>
    if Accepts ps l q i then
      if saysStopping text then .stopping
      else if saysReady text ∧ state ps l i = .starting then .running
      else state ps l i
    else state ps l i
  | _ :: l, i => state ps l i

/-- The status text of program `i`. -/
def status (ps : List ProcessConfig) : Log → Nat → Str
  | [], _ => []
  | .datagram q text :: l, i =>
    if Accepts ps l q i then (assigned text "STATUS".toList).getD (status ps l i)
    else status ps l i
  | _ :: l, i => status ps l i

/-! ## Milestones -/

/-- Something holds of some event of the history and what was before it. -/
def Sometime (φ : Event → Log → Prop) : Log → Prop
  | [] => False
  | e :: l => φ e l ∨ Sometime φ l

/-- Something holds of each event of the history and what was before it. -/
def Always (φ : Event → Log → Prop) : Log → Prop
  | [] => True
  | e :: l => φ e l ∧ Always φ l

/-- Program `i` has been started. -/
def Started (i : Nat) (l : Log) : Prop := ∃ p o e, Event.spawned i p o e ∈ l

/-- Starting program `i` has been tried. -/
def Attempted (i : Nat) (l : Log) : Prop := Started i l ∨ .spawnFailed i ∈ l

/-- The main process of program `i` has terminated with the given kind of result. -/
def Terminated (ps : List ProcessConfig) (ok : Bool) (i : Nat) : Log → Prop :=
  Sometime fun e past => ∃ p rc who, e = .waited p rc who ∧ owner ps past p = some i ∧
    (rc = 0 ↔ ok = true)

/-- Program `i` of type notify has announced to be ready. -/
def Announced (ps : List ProcessConfig) (i : Nat) : Log → Prop :=
  Sometime fun e past => ∃ q text, e = .datagram q text ∧ Accepts ps past q i ∧ saysReady text

/-- Program `i` has done what its dependants wait for. -/
def Completed (ps : List ProcessConfig) (i : Nat) (l : Log) : Prop :=
  Terminated ps true i l ∨ Announced ps i l

/-- Some program has terminated unsuccessfully. -/
def SomeCrash (ps : List ProcessConfig) (l : Log) : Prop := ∃ i, Terminated ps false i l

/-! The numbers of signals, signal(7). -/
abbrev Signal.int : Nat := 2
abbrev Signal.quit : Nat := 3
abbrev Signal.term : Nat := 15

/-- cinit has been asked to terminate. -/
def Asked (l : Log) : Prop := .signal Signal.int ∈ l ∨ .signal Signal.quit ∈ l ∨ .signal Signal.term ∈ l

/-- cinit is shutting down. -/
def ShuttingDown (ps : List ProcessConfig) (l : Log) : Prop := Asked l ∨ SomeCrash ps l

/-! ## Output streams -/

/-- The program and the stream (`true` for standard output) behind an open descriptor. -/
def stream : Log → Int → Option (Nat × Bool)
  | [], _ => none
  | .spawned i _ o e :: l, fd =>
    if fd = o then some (i, true) else if fd = e then some (i, false) else stream l fd
  | .hangup g :: l, fd => if fd = g then none else stream l fd
  | _ :: l, fd => stream l fd

/-! ## Obligations -/

/-- The running programs, in the order of the configuration. -/
def runningPrograms (ps : List ProcessConfig) (l : Log) : List Nat :=
  (List.range ps.length).filter (fun i => state ps l i = .running)

/-- The events that have to follow an event immediately: `l` is the history including it. -/
def reaction (ps : List ProcessConfig) : Log → List Event
  | .signal n :: l =>
    if n = Signal.int ∨ n = Signal.quit then
      (runningPrograms ps l).map (fun i => .sent (mainPid ps l i) n)
    else if n = Signal.term then (runningPrograms ps l).map (fun i => .sent (mainPid ps l i) Signal.int)
    else []
  | .waited p rc who :: l =>
    if rc ≠ 0 ∧ (owner ps l p).isSome then
      (runningPrograms ps (.waited p rc who :: l)).map (fun i => .sent (mainPid ps l i) Signal.int)
    else []
  | .chunk fd bytes :: l =>
    match stream l fd with
    | none => []
    | some (i, out) =>
      ((lines (fromUtf8Lossy bytes)).filter (fun t => !t.isEmpty)).map
        (fun t => .line out ((ps[i]?.map (·.name)).getD []) t)
  | _ => []

/-- What has to follow next. -/
def obligations (ps : List ProcessConfig) : Log → List Event
  | [] => []
  | e :: l => match obligations ps l with
    | _ :: rest => rest
    | [] => reaction ps (e :: l)

/-- Signals sent and lines logged: the events that only occur as reactions. -/
def isReaction : Event → Prop
  | .sent _ _ => True
  | .line _ _ _ => True
  | _ => False

/-! ## The status report -/

/-- The name of a state, as documented in doc/README.md. -/
def word : PState → Str
  | .blocked => "blocked".toList
  | .sleeping => "sleeping".toList
  | .starting => "starting".toList
  | .running => "running".toList
  | .stopping => "stopping".toList
  | .done => "done".toList
  | .crashed _ => "crashed".toList

/-- What the report says about program `i`, line by line. `pids` are the processes shown,
`plan` the planned executions, as text. -/
def reportLines (ps : List ProcessConfig) (l : Log) (shown : Nat → Bool) (plan : Nat → Str)
    (i : Nat) (name : Str) : List Str :=
  ["  - name: '".toList ++ name ++ ['\''],
   "    state: '".toList ++ word (state ps l i) ++ ['\'']] ++
  (if status ps l i = [] then [] else ["    status: ".toList ++ status ps l i]) ++
  (match state ps l i with
    | .done => ["    exit_code: 0".toList]
    | .crashed rc => ["    exit_code: ".toList ++ showInt rc]
    | _ => []) ++
  (if shown i then ["    pid: ".toList ++ showInt (mainPid ps l i)] else []) ++
  (if isCronjob ps i then ["    scheduled_at: '".toList ++ plan i ++ ['\'']] else [])

/-- A text made of lines. -/
def unlines (ls : List Str) : Str := ls.flatMap (· ++ ['\n'])

/-- The status report. -/
def reportText (ps : List ProcessConfig) (l : Log) (shown : Nat → Bool) (plan : Nat → Str) : Str :=
  unlines ("programs:".toList ::
    (enumerate ps).flatMap (fun x => reportLines ps l shown plan x.1 x.2.name))

/-! ## Processes and time -/

/-- Process `p` was started by cinit and has not been reaped. -/
def Unreaped : Log → Int → Prop
  | [], _ => False
  | .spawned _ q _ _ :: l, p => p = q ∨ Unreaped l p
  | .waited q _ _ :: l, p => p ≠ q ∧ Unreaped l p
  | .lost q _ :: l, p => p ≠ q ∧ Unreaped l p
  | _ :: l, p => Unreaped l p

/-- The cron schedule `c` after all clock readings of the history. -/
def schedule (z : Zone) (c : Cron) : Log → Option Cron
  | [] => some c
  | .clock t :: l =>
    match schedule z c l with
    | some c' => (match c'.popRunnable z t with
      | .ok r => some r.2
      | _ => none)
    | none => none
  | _ :: l => schedule z c l

/-- Cronjob `i` is due: the clock has just been read and the scheduler has named `i`. -/
def Due (z : Zone) (c : Cron) (i : Nat) (l : Log) : Prop :=
  ∃ t past c' c'', l = .clock t :: past ∧ schedule z c past = some c' ∧
    c'.popRunnable z t = .ok (some i, c'')

/-- The clock has just been read and the scheduler has named no cronjob. -/
def NothingDue (z : Zone) (c : Cron) (l : Log) : Prop :=
  ∃ t past c' c'', l = .clock t :: past ∧ schedule z c past = some c' ∧
    c'.popRunnable z t = .ok (none, c'')

/-! ## The contract of the event loop -/

/-- What is fixed during a run: the configured programs, the local time zone, the initial
cron schedule, the rendering of instants. -/
structure Setting where
  programs : List ProcessConfig
  zone : Zone
  cron : Cron
  rfc3339 : Int → Str

/-- All programs `i` waits for have completed. -/
def Unblocked (ps : List ProcessConfig) (i : Nat) (l : Log) : Prop :=
  ∀ j, DependsOn ps j i → Completed ps j l

/-- The history when cinit last began to wait for something to happen. -/
def lastWait : Log → Option Log
  | [] => none
  | .polling :: l => some l
  | _ :: l => lastWait l

/-- Some program has a main process or some output stream is open. -/
def Busy (ps : List ProcessConfig) (l : Log) : Prop :=
  (∃ p i, owner ps l p = some i) ∨ ∃ fd x, stream l fd = some x

/-- What program `i` waits for has been completed since cinit last waited for something to
happen. -/
def Released (ps : List ProcessConfig) (i : Nat) (l : Log) : Prop :=
  i < ps.length ∧ Unblocked ps i l ∧ ∀ l', lastWait l = some l' → ¬ Unblocked ps i l'

/-- Something is left to wait for or to be started. -/
def Occupied (ps : List ProcessConfig) (l : Log) : Prop :=
  Busy ps l ∨ (¬ ShuttingDown ps l ∧ ∃ i, Released ps i l)

/-- When cinit may try to start a program. -/
structure MayStart (X : Setting) (i : Nat) (past : Log) : Prop where
  known : i < X.programs.length
  unblocked : Unblocked X.programs i past
  idle : state X.programs past i = .blocked ∨ state X.programs past i = .sleeping
  open_ : ¬ ShuttingDown X.programs past
  once : ¬ isCronjob X.programs i → ¬ Attempted i past
  due : isCronjob X.programs i → Due X.zone X.cron i past

/-- What holds whenever an event happens, `past` being the history before it. -/
def Rule (X : Setting) (past : Log) : Event → Prop
  | .spawned i p o e => MayStart X i past ∧ 0 < p ∧ ¬ Unreaped past p ∧ stream past o = none ∧
      stream past e = none ∧ o ≠ e
  | .spawnFailed i => MayStart X i past
  | .refused i s => isCronjob X.programs i ∧ Unblocked X.programs i past ∧
      Due X.zone X.cron i past ∧ s = state X.programs past i ∧ s = .running
  | .postponed i => isCronjob X.programs i ∧ Due X.zone X.cron i past ∧
      ¬ Unblocked X.programs i past
  | .waited p _ who => 0 < p ∧ who = owner X.programs past p
  | .chunk fd _ => ∃ x, stream past fd = some x
  | .datagram _ text => ∃ bytes past', past = .received bytes :: past' ∧
      fromUtf8 (bytes.takeWhile (· ≠ 0)) = some text
  | .clock _ => Occupied X.programs past
  | .polling => Occupied X.programs past ∧
      (¬ ShuttingDown X.programs past →
      (∀ i, i < X.programs.length → ¬ isCronjob X.programs i → Unblocked X.programs i past →
        Attempted i past) ∧
      NothingDue X.zone X.cron past)
  | .report text => ∃ shown plan,
      text = reportText X.programs past shown plan ∧
      (∀ i, i < X.programs.length →
        (shown i = true ↔ ∃ j, owner X.programs past (mainPid X.programs past i) = some j)) ∧
      (∀ i, isCronjob X.programs i → ∃ c t, schedule X.zone X.cron past = some c ∧
        c.nextExecution i = .ok t ∧ plan i = X.rfc3339 t)
  | .exit code => (code = 3 ∧ past = []) ∨
      ((∀ p, owner X.programs past p = none) ∧ (∀ fd, stream past fd = none) ∧
      (SomeCrash X.programs past → code = 6) ∧ (¬ SomeCrash X.programs past → code = 0) ∧
      (¬ ShuttingDown X.programs past → ∀ i, i < X.programs.length →
        ¬ isCronjob X.programs i → Unblocked X.programs i past → Attempted i past))
  | _ => True

/-- Starting program `i` is tried, or it is said why not. -/
def attends (i : Nat) : Event → Prop
  | .spawned j _ _ _ => j = i
  | .spawnFailed j => j = i
  | .refused j _ => j = i
  | .postponed j => j = i
  | _ => False

/-- Reactions follow at once and only when there is something to react to, nothing happens
after planning has failed, a cronjob that is due is attended to at once, and each event obeys
its rule. -/
def Legal (X : Setting) (e : Event) (past : Log) : Prop :=
  ((match obligations X.programs past with
    | x :: _ => e = x
    | [] => ¬ isReaction e) ∧ schedule X.zone X.cron past ≠ none ∧
      ∀ i, Due X.zone X.cron i past → attends i e) ∧ Rule X past e

end Cinit.Spec
