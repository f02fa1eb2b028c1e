import Verif.Spec.Fates
/-!
# What the log of cinit tells, in order
-/

namespace Cinit.Spec

open Cinit Logging

/-- What is of interest in the log: the life of programs, their status texts, and their output. -/
inductive Item where
  | life (msg : Msg)
  | status (name text : Str)
  | line (out : Bool) (name text : Str)
  deriving DecidableEq, Repr

/-- An entry of interest. -/
def itemOf : Entry → Option Item
  | .program o n t => some (.line o n t)
  | .own _ (.status n s) => some (.status n s)
  | .own _ msg => if msg.isLife then some (.life msg) else none

/-- The status text in a message, if the sender may publish one. -/
def publishes (ps : List ProcessConfig) (past : Log) (q : Int) (text : Str) : List (Str × Str) :=
  match owner ps past q with
  | none => []
  | some i =>
    if isNotify ps i then
      ((ps[i]?.bind fun c => (assigned text "STATUS".toList).map fun s => (c.name, s))).toList
    else []

/-- What an event gives reason to tell. -/
def items (ps : List ProcessConfig) (past : Log) : Event → List Item
  | .line o n t => [.line o n t]
  | .datagram q text => (publishes ps past q text).map fun s => .status s.1 s.2
  | e => (lifeMessages ps e).map .life

/-- What there is to tell about a run. -/
def tale (ps : List ProcessConfig) : Log → List Item
  | [] => []
  | e :: past => tale ps past ++ items ps past e

end Cinit.Spec
