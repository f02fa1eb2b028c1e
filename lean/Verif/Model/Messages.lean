import Verif.Model.Logging
/-!
# The messages about the life of programs

Which messages cinit logs when it starts a program, refuses to, or sees it end, exactly as in
`src/runtime/process_manager/mod.rs` and `src/runtime/process.rs`. All other messages stay open as
in `Model/Logging.lean`.
-/

namespace Cinit.Logging

/-- mod.rs:165-179, part of `handle_finished_child` -/
def endMessages (c : ProcessConfig) (rc : Int) : List Msg :=
  if rc = 0 then
    match c.ptype with
    | .cronJob _ => [.sleeps .info c.name, .sleeps .trace c.name]
    | _ => [.exited .info c.name, .exited .trace c.name]
  else [.crashed .error c.name rc, .crashed .trace c.name rc]

/-- The messages about the life of programs that belong to an event:
process.rs:149, which comes before anything that can fail; mod.rs:151-153, 165-179, 394-398,
414-418. -/
def lifeMessages (ps : List ProcessConfig) : Event → List Msg
  | .spawned i _ _ _ => ps[i]?.toList.map fun c => .starting c.name
  | .spawnFailed i => ps[i]?.toList.map fun c => .starting c.name
  | .waited pid rc none => [.zombie .info pid rc, .zombie .trace pid rc]
  | .waited _ rc (some i) => ps[i]?.toList.flatMap fun c => endMessages c rc
  | .refused i s => ps[i]?.toList.flatMap fun c => [.refused .warn c.name s, .refused .trace c.name s]
  | .postponed i =>
    ps[i]?.toList.flatMap fun c => [.postponed .debug c.name, .postponed .trace c.name]
  | _ => []

/-- These messages. -/
def Msg.isLife : Msg → Bool
  | .starting _ | .zombie .. | .sleeps .. | .exited .. | .crashed .. | .refused .. | .postponed ..
    => true
  | _ => false

/-- The messages about the life of programs in the course of a run. -/
def lifeLog (ps : List ProcessConfig) : Log → List Msg
  | [] => []
  | e :: past => lifeLog ps past ++ lifeMessages ps e

end Cinit.Logging
