import Verif.Spec.CronExpr
/-!
# Decimal notation of integers
-/

namespace Cinit.Spec

open Cinit

/-- The text denotes the integer: digits, possibly after a sign. -/
inductive IntText : Str → Int → Prop
  | plain {s : Str} {n : Nat} : Numeral s n → IntText s n
  | plus {s : Str} {n : Nat} : Numeral s n → IntText ('+' :: s) n
  | minus {s : Str} {n : Nat} : Numeral s n → IntText ('-' :: s) (-n)

/-- The shortest such text: no needless zeros and signs. -/
inductive Written : Str → Int → Prop
  | nonneg {s : Str} {n : Nat} : Numeral s n → (s.head? = some '0' → s = ['0']) → Written s n
  | neg {s : Str} {n : Nat} : Numeral s n → s.head? ≠ some '0' → Written ('-' :: s) (-n)

end Cinit.Spec
