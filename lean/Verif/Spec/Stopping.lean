import Verif.Spec.History
/-!
# What asking cinit to stop leads to

Functions of the observable history (newest event first) and the configured programs `ps`.
-/

namespace Cinit.Spec

open Cinit

/-- The signal that has to be sent to the running programs because of event `e`, `l` being what
was before: SIGINT and SIGQUIT are passed on, SIGTERM is replaced by SIGINT, and if a program
ends unsuccessfully the others are sent SIGINT. -/
def order (ps : List ProcessConfig) (l : Log) : Event → Option Nat
  | .signal n =>
    if n = Signal.int ∨ n = Signal.quit then some n
    else if n = Signal.term then some Signal.int else none
  | .waited p rc _ => if rc ≠ 0 ∧ (owner ps l p).isSome then some Signal.int else none
  | _ => none

/-- All signals that have to be sent in the course of a history, oldest first. -/
def ordered (ps : List ProcessConfig) : Log → List (Int × Nat)
  | [] => []
  | e :: l => ordered ps l ++
    match order ps l e with
    | none => []
    | some n => (runningPrograms ps (e :: l)).map (fun i => (mainPid ps l i, n))

/-- All signals sent in the course of a history, oldest first. -/
def signalled : Log → List (Int × Nat)
  | [] => []
  | .sent p n :: l => signalled l ++ [(p, n)]
  | _ :: l => signalled l

/-- How often program `i` has to be sent a signal in the course of a history. -/
def timesOrdered (ps : List ProcessConfig) (i : Nat) : Log → Nat
  | [] => 0
  | e :: l => timesOrdered ps i l +
    if (order ps l e).isSome ∧ state ps (e :: l) i = .running then 1 else 0

/-- How often cinit is asked to terminate in the course of a history. -/
def timesAsked : Log → Nat
  | [] => 0
  | .signal n :: l =>
    timesAsked l + if n = Signal.int ∨ n = Signal.quit ∨ n = Signal.term then 1 else 0
  | _ :: l => timesAsked l

/-- Programs have ended unsuccessfully as often as this in the course of a history. -/
def timesCrashed (ps : List ProcessConfig) : Log → Nat
  | [] => 0
  | .waited p rc _ :: l =>
    timesCrashed ps l + if rc ≠ 0 ∧ (owner ps l p).isSome then 1 else 0
  | _ :: l => timesCrashed ps l

end Cinit.Spec
