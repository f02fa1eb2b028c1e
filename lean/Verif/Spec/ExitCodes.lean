import Verif.Model.World
/-!
# How processes end, and what is told of it
-/

namespace Cinit.Spec

open Cinit

/-- The same answer of the kernel, except that a process killed by one of the signals 1 to 31 has
exited with the number of the signal as its exit code instead. -/
def disguised : Answer → Answer
  | .wait (.killed p n) => if 1 ≤ n ∧ n ≤ 31 then .wait (.exited p n) else .wait (.killed p n)
  | a => a

/-- The main process of program `i` has been found dead, with this number. -/
def Numbered (i : Nat) (p n : Int) (l : Log) : Prop := .waited p n (some i) ∈ l

end Cinit.Spec
