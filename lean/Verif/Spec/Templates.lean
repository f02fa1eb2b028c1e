import Verif.Base.Res
/-!
# Specification: templates

After doc/README.md, sections "args" and "env": `{{ VAR }}` stands for the value of the
variable `VAR`. Independent of the model: a template is a sequence of texts and references.
-/

namespace Cinit.Spec

/-- A part of a template: plain text, or a reference to a variable, surrounded by blanks. -/
inductive Piece where
  | text (t : Str)
  | ref (left right : Nat) (name : Str)
  deriving DecidableEq, Repr

/-- The name of a variable is made of capital letters, digits and underscores and does not
begin with a digit. -/
def Named : Str → Prop
  | [] => False
  | c :: cs => (c.isUpper ∨ c = '_') ∧ ∀ d ∈ cs, d.isUpper ∨ d = '_' ∨ d.isDigit

/-- Texts without braces, references to variables with names. -/
def Piece.Plain : Piece → Prop
  | .text t => '{' ∉ t
  | .ref _ _ n => Named n

/-- How a part is written. -/
def Piece.written : Piece → Str
  | .text t => t
  | .ref l r n => ['{', '{'] ++ List.replicate l ' ' ++ n ++ List.replicate r ' ' ++ ['}', '}']

/-- How a template is written. -/
def written (ps : List Piece) : Str := (ps.map Piece.written).flatten

/-- The text meant by a part: for a reference the value, unchanged. -/
def Piece.meant (values : Str → Option Str) : Piece → Option Str
  | .text t => some t
  | .ref _ _ n => values n

/-- The text meant by a template; none if a variable is referred to that has no value. -/
def filled (values : Str → Option Str) : List Piece → Option Str
  | [] => some []
  | p :: ps => (p.meant values).bind fun t => (filled values ps).map (t ++ ·)

/-- The template refers to the variable. -/
def RefersTo (ps : List Piece) (x : Str) : Prop := ∃ l r, .ref l r x ∈ ps

/-- The ending of a name makes tera take the template for markup. -/
def Markup (name : Str) : Prop :=
  ['.', 'h', 't', 'm', 'l'] <:+ name ∨ ['.', 'h', 't', 'm'] <:+ name ∨ ['.', 'x', 'm', 'l'] <:+ name

/-- How a browser reads text in markup: the six references to characters stand for `&`, `<`, `>`,
the two quotation marks and the slash, everything else for itself. -/
def readMarkup : Str → Str
  | '&' :: 'a' :: 'm' :: 'p' :: ';' :: t => '&' :: readMarkup t
  | '&' :: 'l' :: 't' :: ';' :: t => '<' :: readMarkup t
  | '&' :: 'g' :: 't' :: ';' :: t => '>' :: readMarkup t
  | '&' :: 'q' :: 'u' :: 'o' :: 't' :: ';' :: t => '"' :: readMarkup t
  | '&' :: '#' :: 'x' :: '2' :: '7' :: ';' :: t => '\'' :: readMarkup t
  | '&' :: '#' :: 'x' :: '2' :: 'F' :: ';' :: t => '/' :: readMarkup t
  | c :: t => c :: readMarkup t
  | [] => []

end Cinit.Spec
