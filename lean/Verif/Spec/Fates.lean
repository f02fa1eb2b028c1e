import Verif.Spec.Logging
import Verif.Model.Messages
/-!
# What the log tells about the life of programs
-/

namespace Cinit.Spec

open Cinit Logging

/-- What may become of programs, and of processes that do not belong to any. -/
inductive Fate where
  | starts (name : Str)
  | completes (name : Str)
  | sleeps (name : Str)
  | crashes (name : Str) (rc : Int)
  | reaped (pid rc : Int)
  deriving DecidableEq, Repr

/-- The words for it. -/
def Fate.words : Fate → Str
  | .starts n => "Starting ".toList ++ n
  | .completes n => "Child ".toList ++ n ++ " exited successfully".toList
  | .sleeps n => "Child ".toList ++ n ++ " has finished and is going to sleep".toList
  | .crashes n rc => "Child ".toList ++ n ++ " crashed with ".toList ++ showInt rc
  | .reaped pid rc =>
    "Reaped zombie process ".toList ++ showInt pid ++ " with return code ".toList ++ showInt rc

/-- What happens to programs at an event. -/
def fate (ps : List ProcessConfig) (past : Log) : Event → Option Fate
  | .spawned i _ _ _ => ps[i]?.map fun c => .starts c.name
  | .spawnFailed i => ps[i]?.map fun c => .starts c.name
  | .waited p rc _ =>
    match owner ps past p with
    | none => some (.reaped p rc)
    | some i => ps[i]?.map fun c =>
      if rc ≠ 0 then .crashes c.name rc
      else if isCronjob ps i then .sleeps c.name
      else .completes c.name
  | _ => none

/-- What happened to programs in the course of a run. -/
def fates (ps : List ProcessConfig) : Log → List Fate
  | [] => []
  | e :: past => fates ps past ++ (fate ps past e).toList

/-- The status texts published by programs in the course of a run, with their names. -/
def published (ps : List ProcessConfig) : Log → List (Str × Str)
  | [] => []
  | .datagram q text :: past => published ps past ++
    (match owner ps past q with
    | none => []
    | some i =>
      if isNotify ps i then
        ((ps[i]?.bind fun c => (assigned text "STATUS".toList).map fun s => (c.name, s))).toList
      else [])
  | _ :: past => published ps past

/-- A message about the life of a program. -/
def lifeOf : Time × Entry → Option Msg
  | (_, .own _ msg) => if msg.isLife then some msg else none
  | (_, .program ..) => none

/-- A message about the status text of a program. -/
def statusOf : Time × Entry → Option (Str × Str)
  | (_, .own _ (.status n s)) => some (n, s)
  | _ => none

/-- The entries fit the history of a run, and the messages about the life of programs and their
status texts are those that belong to its events. -/
structure Narrates (ps : List ProcessConfig) (log : Log) (es : List (Time × Entry)) : Prop
    extends Accords (ps.map (·.name)) log es where
  life : es.filterMap lifeOf = lifeLog ps log
  status : es.filterMap statusOf = published ps log

open Classical in
/-- What a reader of the log of cinit finds out about the life of programs: of the messages under
the name of cinit those that tell something about it. -/
noncomputable def retold (log : Str) : List Str :=
  (messagesUnder "cinit".toList log).filter fun s => ∃ f : Fate, s = f.words

end Cinit.Spec
