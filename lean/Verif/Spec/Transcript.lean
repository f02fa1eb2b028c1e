import Verif.Model.World
/-!
# What the kernel tells and what the history says

The history of a run against the answers of the kernel, one by one.
-/

namespace Cinit.Spec

open Cinit

/-- What can be learned from the answers of the kernel. -/
inductive Fact where
  | time (t : Int)
  | child (pid out err : Int)
  | noChild
  | watching (ok : Bool)
  | happened (evs : List Ready)
  | died (pid status : Int)
  | vanished (pid : Int) (sig : Nat)
  | noneDied
  | noReport
  | noSender
  | signalled (n : Nat)
  | message (bytes : List Nat)
  | sender (pid : Int)
  | output (bytes : List Nat)
  | answered
  | failure
  | delivered
  deriving DecidableEq, Repr

/-- What one answer tells. The status of a child killed by a signal is the signal; real-time
signals are beyond the library used. -/
def told : Answer → List Fact
  | .setup _ => []
  | .now t => [.time t]
  | .fork none => [.noChild]
  | .fork (some (pid, out, err)) => [.child pid out err]
  | .epollAdd ok => [.watching ok]
  | .epoll none => [.noReport]
  | .epoll (some evs) => [.happened evs]
  | .wait (.exited pid code) => [.died pid code]
  | .wait (.killed pid sig) => if sig < 32 then [.died pid sig] else [.vanished pid sig]
  | .wait .alive => [.noneDied]
  | .wait .other => []
  | .wait .error => [.noneDied]
  | .signal none => [.failure]
  | .signal (some n) => [.signalled n]
  | .recv none => [.failure]
  | .recv (some (bytes, none)) => [.message bytes, .noSender]
  | .recv (some (bytes, some pid)) => [.message bytes, .sender pid]
  | .read none => [.failure]
  | .read (some bytes) => [.output bytes]
  | .accept (some true) => [.answered]
  | .accept _ => [.failure]
  | .kill true => [.delivered]
  | .kill false => []

/-- What an event says about the answers of the kernel. -/
def seen : Event → List Fact
  | .clock t => [.time t]
  | .spawned _ pid out err => [.child pid out err]
  | .watched _ ok => [.watching ok]
  | .spawnFailed _ => [.noChild]
  | .waited pid status _ => [.died pid status]
  | .lost pid sig => [.vanished pid sig]
  | .signal n => [.signalled n]
  | .sent _ _ => [.delivered]
  | .received bytes => [.message bytes]
  | .datagram pid _ => [.sender pid]
  | .chunk _ bytes => [.output bytes]
  | .unsigned => [.noSender]
  | .polled evs => [.happened evs]
  | .unpolled => [.noReport]
  | .failed => [.failure]
  | .reaped => [.noneDied]
  | .report _ => [.answered]
  | .refused _ _ | .postponed _ | .line _ _ _ | .hangup _ | .polling | .ready _ | .exit _ => []

/-- What a history says, in the order of the events. -/
def account (l : Log) : List Fact := l.reverse.flatMap seen

end Cinit.Spec
