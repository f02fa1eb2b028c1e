import Verif.Spec.Supervision
/-!
# Vocabulary for statements about histories
-/

namespace Cinit.Spec

open Cinit

/-- Event `e` happened during history `l`; `past` is what was before it. -/
def Happened (l : Log) (e : Event) (past : Log) : Prop := ∃ later, l = later ++ e :: past

/-- Program `i` is alive: it has been started and its main process has not been seen to
terminate since. -/
def Alive (ps : List ProcessConfig) (i : Nat) : Log → Prop
  | [] => False
  | .spawned j _ _ _ :: l => i = j ∨ Alive ps i l
  | .waited p _ _ :: l => owner ps l p ≠ some i ∧ Alive ps i l
  | _ :: l => Alive ps i l

/-- The steps of the life cycle of a program. -/
inductive Step (notify cron : Prop) : PState → PState → Prop where
  | startNotify : notify → Step notify cron .blocked .starting
  | start : ¬ notify → ¬ cron → Step notify cron .blocked .running
  | wake : cron → Step notify cron .sleeping .running
  | ready : notify → Step notify cron .starting .running
  | stopStarting : notify → Step notify cron .starting .stopping
  | stopRunning : notify → Step notify cron .running .stopping
  | finish (s : PState) : (s = .starting ∨ s = .running ∨ s = .stopping) → ¬ cron →
      Step notify cron s .done
  | sleep : cron → Step notify cron .running .sleeping
  | crash (s : PState) (rc : Int) : (s = .starting ∨ s = .running ∨ s = .stopping) → rc ≠ 0 →
      Step notify cron s (.crashed rc)

/-- The main process of program `i` died unsuccessfully, whether or not cinit has noticed. -/
def Died (ps : List ProcessConfig) (i : Nat) (l : Log) : Prop :=
  Terminated ps false i l ∨
  Sometime (fun e past => ∃ p sig, e = .lost p sig ∧ owner ps past p = some i) l

/-- Nothing confuses which process belongs to which program: no program claims another
program's main process, no new process has the id of a process regarded as a main process, no
main process dies unnoticed. -/
def Undisturbed (ps : List ProcessConfig) : Log → Prop :=
  Always fun e past =>
    (∀ q text i r, e = .datagram q text → Accepts ps past q i → newMainPid text = some r →
      owner ps past r = none ∨ owner ps past r = some i) ∧
    (∀ i p o r, e = .spawned i p o r → owner ps past p = none) ∧
    (∀ p sig, e = .lost p sig → owner ps past p = none)

/-- No message that counts announces another main process, and no process dies by a real-time
signal. -/
def Plain (ps : List ProcessConfig) : Log → Prop :=
  Always fun e past =>
    (∀ q text i, e = .datagram q text → Accepts ps past q i → newMainPid text = none) ∧
    ∀ p sig, e ≠ .lost p sig

/-- The bytes read from the given stream of program `i`, read by read, oldest first. -/
def bytesRead (i : Nat) (out : Bool) : Log → List (List Nat)
  | [] => []
  | .chunk fd bytes :: l =>
    if stream l fd = some (i, out) then bytesRead i out l ++ [bytes] else bytesRead i out l
  | _ :: l => bytesRead i out l

/-- The lines logged under a name for a stream, oldest first. -/
def linesLogged (name : Str) (out : Bool) : Log → List Str
  | [] => []
  | .line o n t :: l =>
    if o = out ∧ n = name then linesLogged name out l ++ [t] else linesLogged name out l
  | _ :: l => linesLogged name out l

end Cinit.Spec
