import Verif.Spec.Arrivals
/-!
# How many output streams are open at a time
-/

namespace Cinit.Spec

open Cinit

/-- Program `i` has an open output stream. -/
def Streaming (i : Nat) (l : Log) : Prop := ∃ fd out, stream l fd = some (i, out)

instance (i : Nat) (l : Log) : Decidable (∃ fd ∈ openStreams l, ∃ out, stream l fd = some (i, out)) :=
  List.decidableBEx (p := fun fd => ∃ out, stream l fd = some (i, out)) _

/-- The number of times a program was started though an output stream of an earlier execution of
it was still open. -/
def overlaps : Log → Nat
  | [] => 0
  | .spawned i _ _ _ :: l =>
    if ∃ fd ∈ openStreams l, ∃ out, stream l fd = some (i, out) then overlaps l + 1 else overlaps l
  | _ :: l => overlaps l

end Cinit.Spec
