import Verif.Base.Text
/-!
# Lines of a text

A line ends with a line feed, which may be preceded by one carriage return; the last line need
not end.
-/

namespace Cinit.Spec

open Cinit

/-- The text consists of these lines. -/
inductive LinesOf : List Str → Str → Prop
  | nil : LinesOf [] []
  | last (w : Str) : w ≠ [] → '\n' ∉ w → LinesOf [w] w
  | lf (w t : Str) (ws : List Str) : '\n' ∉ w → w.getLast? ≠ some '\r' → LinesOf ws t →
      LinesOf (w :: ws) (w ++ '\n' :: t)
  | crlf (w t : Str) (ws : List Str) : '\n' ∉ w → LinesOf ws t →
      LinesOf (w :: ws) (w ++ '\r' :: '\n' :: t)

/-- The text without its line ends. -/
def unterminated : Str → Str
  | [] => []
  | '\n' :: t => unterminated t
  | '\r' :: '\n' :: t => unterminated t
  | c :: t => c :: unterminated t

end Cinit.Spec
