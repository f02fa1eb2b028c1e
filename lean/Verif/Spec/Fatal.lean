import Verif.Spec.Utf8
/-!
# Messages that make cinit abort
-/

namespace Cinit.Spec

/-- A message that is empty, fills the buffer without a NUL byte, or is no text up to the first
NUL byte. -/
def Fatal (bytes : List Nat) : Prop :=
  bytes = [] ∨ (4096 ≤ bytes.length ∧ 0 ∉ bytes) ∨ ∀ text, bytes.takeWhile (· ≠ 0) ≠ encode text

end Cinit.Spec
