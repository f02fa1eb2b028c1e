import Verif.Model.Calendar
/-!
# Times without changes of the clock
-/

namespace Cinit.Spec

open Cinit

/-- From `a` to `b` the wall clock is ahead of UTC by `off`, and what it shows then it shows at no
other time `chrono` would prefer. -/
def Steady (z : Zone) (off a b : Int) : Prop :=
  ∀ u, a ≤ u → u ≤ b → z.wall u = u + off ∧ z.resolve (u + off) = some u

end Cinit.Spec
