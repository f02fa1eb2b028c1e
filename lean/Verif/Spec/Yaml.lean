import Verif.Spec.Supervision
import Mathlib.Data.List.Forall2
/-!
# Reading a status report

The part of YAML 1.2 a status report is made of: a mapping with the key `programs`, of which the
value is a sequence of mappings from keys to scalars, one per line. Numbers in brackets are those of
the productions of the YAML specification. A scalar is plain or single-quoted and is followed by
nothing but white space or a comment. All other styles (double-quoted scalars, flow collections,
block scalars, anchors, aliases, tags, scalars of several lines) never stand for the text they are
written as and are left out. What type a plain scalar is resolved to is left open: the reader gets
the text of the scalar.
-/

namespace Cinit.Spec.Yaml

/-- [33] s-white -/
def white (c : Char) : Bool := c == ' ' || c == '\t'

/-- [27] nb-char: [1] c-printable without line breaks and the byte order mark -/
def printable (c : Char) : Bool :=
  c == '\t' || (0x20 ≤ c.toNat && c.toNat ≤ 0x7e) || c.toNat == 0x85 ||
  (0xa0 ≤ c.toNat && c.toNat ≤ 0xd7ff) ||
  (0xe000 ≤ c.toNat && c.toNat ≤ 0xfffd && c.toNat != 0xfeff) || 0x10000 ≤ c.toNat

/-- [22] c-indicator -/
def indicator (c : Char) : Bool :=
  ['-', '?', ':', ',', '[', ']', '{', '}', '#', '&', '*', '!', '|', '>', '\'', '"', '%', '@',
    '`'].contains c

/-- The text goes on with a character that is no white space: [128] ns-plain-safe(flow-out). -/
def goesOn : Str → Bool
  | [] => false
  | c :: _ => !white c

/-- The rest of a plain scalar behind `prev`: [130] ns-plain-char, [132] nb-ns-plain-in-line. A
colon has to be followed and a number sign to be preceded by a character that is no white space, the
last character is no white space. -/
def plainRest : Char → Str → Bool
  | prev, [] => !white prev
  | prev, c :: rest =>
    printable c && (c != '#' || !white prev) && (c != ':' || goesOn rest) && plainRest c rest

/-- A plain scalar: [126] ns-plain-first, [133] ns-plain-one-line -/
def plain : Str → Bool
  | [] => false
  | c :: rest =>
    printable c && !white c &&
    (!indicator c || (['-', '?', ':'].contains c && goesOn rest)) && plainRest c rest

/-- [117] c-quoted-quote: within single quotes an apostrophe is written twice. -/
def escape (v : Str) : Str := v.flatMap fun c => if c = '\'' then ['\'', '\''] else [c]

/-- What may follow a scalar in its line: white space, [77] s-b-comment -/
inductive Trailing : Str → Prop
  | blank {w : Str} : (∀ c ∈ w, white c = true) → Trailing w
  | comment {w t : Str} : w ≠ [] → (∀ c ∈ w, white c = true) → (∀ c ∈ t, printable c = true) →
      Trailing (w ++ '#' :: t)

/-- `raw` is a scalar with text `v`, with what follows it in its line. -/
inductive Scalar : Str → Str → Prop
  | plain {v r : Str} : plain v = true → Trailing r → Scalar (v ++ r) v
  | quoted {v r : Str} : (∀ c ∈ v, printable c = true) → Trailing r →
      Scalar ('\'' :: (escape v ++ '\'' :: r)) v

/-- `raw`, all that follows `key:`, is separated from it by white space and has the value `v`. -/
def Value (raw v : Str) : Prop :=
  ∃ w s, w ≠ [] ∧ (∀ c ∈ w, white c = true) ∧ raw = w ++ s ∧ Scalar s v

/-- The keys looked at. -/
def keyChar (c : Char) : Bool := c.isAlpha || c == '_'

/-- The lines of one program: its keys, each with all that follows `key:`. -/
def itemLines : List (Str × Str) → List Str
  | [] => []
  | f :: fs => ("  - ".toList ++ f.1 ++ ':' :: f.2) ::
      fs.map fun g => "    ".toList ++ g.1 ++ ':' :: g.2

/-- The document with these programs. -/
def document (d : List (List (Str × Str))) : Str :=
  unlines ("programs:".toList :: d.flatMap itemLines)

/-- A field as written and as read. -/
def Field (raw read : Str × Str) : Prop :=
  raw.1 = read.1 ∧ (∀ c ∈ raw.1, keyChar c = true) ∧ Value raw.2 read.2

/-- A reader of YAML finds in the text these programs, each with these keys and values. -/
def Reads (text : Str) (d : List (List (Str × Str))) : Prop :=
  ∃ raw, List.Forall₂ (List.Forall₂ Field) raw d ∧ [] ∉ raw ∧ text = document raw

end Cinit.Spec.Yaml

namespace Cinit.Spec

/-- What a status report has to say about program `i`: its keys and values. -/
def reported (ps : List ProcessConfig) (l : Log) (shown : Nat → Bool) (plan : Nat → Str)
    (i : Nat) (name : Str) : List (Str × Str) :=
  [("name".toList, name), ("state".toList, word (state ps l i))] ++
  (if status ps l i = [] then [] else [("status".toList, status ps l i)]) ++
  (match state ps l i with
    | .done => [("exit_code".toList, ['0'])]
    | .crashed rc => [("exit_code".toList, showInt rc)]
    | _ => []) ++
  (if shown i then [("pid".toList, showInt (mainPid ps l i))] else []) ++
  (if isCronjob ps i then [("scheduled_at".toList, plan i)] else [])

end Cinit.Spec
