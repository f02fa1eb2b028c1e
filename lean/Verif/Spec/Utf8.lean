import Verif.Base.Text
/-!
# UTF-8: the encoding

Written after RFC 3629, section 3. What is made of bytes that are no encoded text is described
after "U+FFFD Substitution of Maximal Subparts" of the Unicode standard, section 3.9.
-/

namespace Cinit.Spec

open Cinit

/-- The bytes of a character. -/
def encodeChar (c : Char) : List Nat :=
  let n := c.toNat
  if n < 0x80 then [n]
  else if n < 0x800 then [0xC0 + n / 64, 0x80 + n % 64]
  else if n < 0x10000 then [0xE0 + n / 4096, 0x80 + n / 64 % 64, 0x80 + n % 64]
  else [0xF0 + n / 262144, 0x80 + n / 4096 % 64, 0x80 + n / 64 % 64, 0x80 + n % 64]

/-- The bytes of a text. -/
def encode (t : Str) : List Nat := t.flatMap encodeChar

/-- The bytes are the beginning of a character. -/
def Viable (s : List Nat) : Prop := ∃ c, s <+: encodeChar c

/-- The bytes decoded, `none` standing for an error. Bytes that do not begin with a character begin
with an error: the longest part of them that is the beginning of a character, or else a single
byte. -/
inductive Decoded : List Nat → List (Option Char) → Prop
  | nil : Decoded [] []
  | char (c : Char) {bs : List Nat} {out : List (Option Char)} : Decoded bs out →
      Decoded (encodeChar c ++ bs) (some c :: out)
  | error {s bs : List Nat} {out : List (Option Char)} : s ≠ [] →
      (∀ c, ¬ encodeChar c <+: s ++ bs) → (s.length = 1 ∨ Viable s) →
      (∀ s', s' <+: s ++ bs → s.length < s'.length → ¬ Viable s') → Decoded bs out →
      Decoded (s ++ bs) (none :: out)

/-- The text that is shown for the bytes. -/
def ShownAs (bs : List Nat) (t : Str) : Prop :=
  ∃ out, Decoded bs out ∧ t = out.map (·.getD '\uFFFD')

end Cinit.Spec
