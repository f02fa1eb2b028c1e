import Verif.Model.Status
import Verif.Spec.Utf8
/-!
# Specification: clients of the status socket
-/

namespace Cinit.Spec

open Cinit Status

/-- cinit goes on after dealing with the client. -/
def Outcome.Over : Outcome → Prop
  | .sent _ | .broken _ => True
  | .blocked _ => False

/-- The memory the kernel needs for writes. -/
def memory (overhead : Nat) (ws : List (List Nat)) : Nat :=
  (ws.map fun b => b.length + overhead).sum

/-- The client goes on reading, up to `n` bytes at a time, `k` times. -/
def patient : Nat → Nat → List Move
  | 0, _ => []
  | k + 1, n => .read n :: .cinit :: patient k n

/-- A connection at its beginning. -/
def fresh (capacity overhead : Nat) : Conn := { capacity := capacity, overhead := overhead }

end Cinit.Spec
