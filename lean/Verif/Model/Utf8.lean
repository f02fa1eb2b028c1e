import Verif.Base.Text
/-!
# UTF-8 decoding as done by the Rust standard library

`String::from_utf8_lossy` (process_manager/mod.rs:356) and `CStr::to_str`
(libc_helpers.rs:99). Bytes are natural numbers below 256. The decoder is the one
documented for `Utf8Chunks`: a maximal prefix of a valid sequence that is not continued
correctly counts as one error, and decoding resumes at the byte that did not fit.
-/

namespace Cinit

/-- What the first byte of a sequence says. -/
inductive Lead where
  /-- a complete character -/
  | single (c : Char)
  /-- `k` more bytes, payload so far, bounds for the next byte -/
  | more (k acc lo hi : Nat)
  /-- not the start of anything -/
  | bad
  deriving DecidableEq, Repr

/-- Table 3-7 of the Unicode standard. -/
def leadByte (b : Nat) : Lead :=
  if b < 0x80 then .single (Char.ofNat b)
  else if b < 0xC2 then .bad
  else if b < 0xE0 then .more 1 (b - 0xC0) 0x80 0xBF
  else if b = 0xE0 then .more 2 0 0xA0 0xBF
  else if b = 0xED then .more 2 0xD 0x80 0x9F
  else if b < 0xF0 then .more 2 (b - 0xE0) 0x80 0xBF
  else if b = 0xF0 then .more 3 0 0x90 0xBF
  else if b < 0xF4 then .more 3 (b - 0xF0) 0x80 0xBF
  else if b = 0xF4 then .more 3 4 0x80 0x8F
  else .bad

/-- Decoder state: nothing pending, or a sequence under way. -/
abbrev Utf8State := Option (Nat × Nat × Nat × Nat)

/-- The decoder: `none` marks an error. -/
def utf8Go : Utf8State → List Nat → List (Option Char)
  | none, [] => []
  | some _, [] => [none]
  | none, b :: bs =>
    match leadByte b with
    | .single c => some c :: utf8Go none bs
    | .more k acc lo hi => utf8Go (some (k, acc, lo, hi)) bs
    | .bad => none :: utf8Go none bs
  | some (k, acc, lo, hi), b :: bs =>
    if lo ≤ b ∧ b ≤ hi then
      if k ≤ 1 then some (Char.ofNat (acc * 64 + (b - 0x80))) :: utf8Go none bs
      else utf8Go (some (k - 1, acc * 64 + (b - 0x80), 0x80, 0xBF)) bs
    else
      none :: (match leadByte b with
        | .single c => some c :: utf8Go none bs
        | .more k acc lo hi => utf8Go (some (k, acc, lo, hi)) bs
        | .bad => none :: utf8Go none bs)

def utf8 (bs : List Nat) : List (Option Char) := utf8Go none bs

/-- U+FFFD -/
def replacementChar : Char := Char.ofNat 0xFFFD

/-- `String::from_utf8_lossy` -/
def fromUtf8Lossy (bs : List Nat) : Str := (utf8 bs).map (·.getD replacementChar)

/-- All present, or nothing. -/
def sequence {α : Type} : List (Option α) → Option (List α)
  | [] => some []
  | none :: _ => none
  | some a :: l => (sequence l).map (a :: ·)

/-- `str::from_utf8(..).ok()` -/
def fromUtf8 (bs : List Nat) : Option Str := sequence (utf8 bs)

end Cinit
