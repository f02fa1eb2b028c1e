import Verif.Base.Text
/-!
# Model of a single process, `src/runtime/process.rs`

Lines 46-140 (data), 148-187 (`start`, the parent's side), 197-256
(`handle_notification`). The child's side is in `Verif.Model.Child`.
-/

namespace Cinit

/-- process.rs:50 `EXIT_CODE` -/
def processExitCode : Int := 4

/-- process.rs:57-63 `ProcessType` -/
inductive PType where
  | oneshot
  | notify
  | cronjob
  deriving DecidableEq, Repr

/-- process.rs:67-91 `ProcessState` -/
inductive PState where
  | blocked
  | sleeping
  | starting
  | running
  | stopping
  | done
  | crashed (rc : Int)
  deriving DecidableEq, Repr

/-- process.rs:95-108 `Display for ProcessState` -/
def PState.show : PState → Str
  | .blocked => ['b', 'l', 'o', 'c', 'k', 'e', 'd']
  | .sleeping => ['s', 'l', 'e', 'e', 'p', 'i', 'n', 'g']
  | .starting => ['s', 't', 'a', 'r', 't', 'i', 'n', 'g']
  | .running => ['r', 'u', 'n', 'n', 'i', 'n', 'g']
  | .stopping => ['s', 't', 'o', 'p', 'p', 'i', 'n', 'g']
  | .done => ['d', 'o', 'n', 'e']
  | .crashed _ => ['c', 'r', 'a', 's', 'h', 'e', 'd']

/-- process.rs:114-140 `Process`. `CString`s are their contents; `PathBuf` is text. -/
structure Process where
  name : Str
  path : Str
  args : List Str
  workdir : Str
  uid : Nat
  gid : Nat
  emulatePty : Bool
  capabilities : List Str
  env : List Str
  state : PState
  ptype : PType
  pid : Int
  status : Str
  deriving DecidableEq, Repr

namespace Process

/-- process.rs:160-171: what `start` changes in the parent once `fork` has succeeded. -/
def started (p : Process) (child : Int) : Process :=
  { p with
    state := match p.ptype with
      | .notify => .starting
      | _ => .running
    pid := child }

/-- The keys of interest, process.rs:199-230 -/
def keyReady : Str := ['R', 'E', 'A', 'D', 'Y']
def keyStopping : Str := ['S', 'T', 'O', 'P', 'P', 'I', 'N', 'G']
def keyStatus : Str := ['S', 'T', 'A', 'T', 'U', 'S']
def keyMainpid : Str := ['M', 'A', 'I', 'N', 'P', 'I', 'D']

/-- process.rs:197-256 `handle_notification` -/
def handleNotification (p : Process) (key value : Str) : Process :=
  if key = keyReady then
    if value ≠ ['1'] then p
    else if p.state = .starting then { p with state := .running }
    else p
  else if key = keyStopping then
    if value ≠ ['1'] then p
    else { p with state := .stopping }
  else if key = keyStatus then { p with status := value }
  else if key = keyMainpid then
    match parseI32 value with
    | none => p
    | some pid => { p with pid := pid }
  else p

end Process

end Cinit
