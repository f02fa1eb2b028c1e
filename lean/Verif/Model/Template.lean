import Verif.Base.Res
/-!
# Model of the tera engine, as far as cinit's documentation uses it

process_builder.rs:341-353 `render_template` makes an engine with default settings, adds the
text as a template of the given name, puts all variables into the context and renders it. tera
itself is a dependency whose source is not in /repo. The model covers the templates made
of text without `{` and of references `{{ VAR }}` to variables whose names are made of capital
letters, digits and underscores, after https://tera.netlify.app/docs/:

* a reference is replaced by the value of the variable; the value is not searched for
  references again;
* a reference to a variable that is not in the context is an error;
* if the name of the template ends in `.html`, `.htm` or `.xml`, the default of
  `autoescape_on`, the characters `& < > " ' /` of values are replaced by entities.

Everything else (filters, expressions, statements, comments, white space control) is left open.
-/

namespace Cinit.Template

/-- A template, character by character. -/
inductive Token where
  | char (c : Char)
  | ref (name : Str)
  deriving DecidableEq, Repr

/-- First character of a name of the covered kind. -/
def firstChar (c : Char) : Bool := c.isUpper || c == '_'

/-- Further characters. -/
def nameChar (c : Char) : Bool := c.isUpper || c == '_' || c.isDigit

/-- What follows `{{`: blanks, a name, blanks and `}}`; yields the name and the rest. -/
def reference (t : Str) : Option (Str × Str) :=
  let t := t.dropWhile (· == ' ')
  let name := t.takeWhile nameChar
  match (t.dropWhile nameChar).dropWhile (· == ' ') with
  | '}' :: '}' :: rest =>
    match name with
    | [] => none
    | c :: _ => if firstChar c then some (name, rest) else none
  | _ => none

/-- Splits a template into characters and references; `none` stands for a template that is not
covered. The number bounds the steps. -/
def parse : Nat → Str → Option (List Token)
  | _, [] => some []
  | 0, _ :: _ => none
  | n + 1, c :: t =>
    if c = '{' then
      match t with
      | '{' :: t' => (reference t').bind fun x => (parse n x.2).map (.ref x.1 :: ·)
      | _ => none
    else (parse n t).map (.char c :: ·)

/-- `tera::escape_html` -/
def escapeChar (c : Char) : Str :=
  if c = '&' then ['&', 'a', 'm', 'p', ';']
  else if c = '<' then ['&', 'l', 't', ';']
  else if c = '>' then ['&', 'g', 't', ';']
  else if c = '"' then ['&', 'q', 'u', 'o', 't', ';']
  else if c = '\'' then ['&', '#', 'x', '2', '7', ';']
  else if c = '/' then ['&', '#', 'x', '2', 'F', ';']
  else [c]

def escapeHtml (t : Str) : Str := t.flatMap escapeChar

/-- The default of `Tera::autoescape_on` -/
def escapes (name : Str) : Bool :=
  ['.', 'h', 't', 'm', 'l'].isSuffixOf name || ['.', 'h', 't', 'm'].isSuffixOf name ||
    ['.', 'x', 'm', 'l'].isSuffixOf name

/-- Renders the tokens. -/
def fill (escape : Bool) (context : Str → Option Str) : List Token → Option Str
  | [] => some []
  | .char c :: ts => (fill escape context ts).map (c :: ·)
  | .ref n :: ts =>
    (context n).bind fun v =>
    (fill escape context ts).map ((if escape then escapeHtml v else v) ++ ·)

/-- The function renders all covered templates like tera. -/
def LikeTera (render : Str → (Str → Option Str) → Str → Option Str) : Prop :=
  ∀ name context raw ts, parse raw.length raw = some ts →
    render name context raw = fill (escapes name) context ts

/-- An engine that takes everything not covered for an error. -/
def engine (name : Str) (context : Str → Option Str) (raw : Str) : Option Str :=
  (parse raw.length raw).bind (fill (escapes name) context)

end Cinit.Template
