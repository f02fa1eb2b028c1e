import Verif.Spec.Arrivals
/-!
# In which order the kernel reports

What epoll(7) does if more descriptors have something to tell than are asked for: they take turns. A
descriptor that has been reported goes to the end of the queue.
-/

namespace Cinit.Spec

open Cinit

/-- The descriptor has been reported in this stretch of a history and not been given up since. -/
def hadTurn (g : Int) : Log → Prop
  | [] => False
  | .polled evs :: l => g ∈ evs.map (·.fd) ∨ hadTurn g l
  | .hangup g' :: l => g ≠ g' ∧ hadTurn g l
  | _ :: l => hadTurn g l

/-- The kernel's guarantee for a descriptor that has something to tell throughout this stretch of
a history, `room` being the number of reports asked for: it is passed over only if all the room
is taken by others, each of which has not been reported in this stretch before. -/
def TakesTurns (room : Nat) (fd : Int) : Log → Prop
  | [] => True
  | .polled evs :: l => (fd ∉ evs.map (·.fd) →
      evs.length = room ∧ ∀ ev ∈ evs, ¬ hadTurn ev.fd l) ∧ TakesTurns room fd l
  | _ :: l => TakesTurns room fd l

/-- The number of programs started. -/
def starts : Log → Nat
  | [] => 0
  | .spawned _ _ _ _ :: l => starts l + 1
  | _ :: l => starts l

end Cinit.Spec
