import Verif.Base.Res
import Mathlib.Data.List.Forall2
/-!
# Specification: the meaning of cron expressions, after crontab(5)

Independent of the parser: an abstract syntax, its concrete spellings, and its meaning.
-/

namespace Cinit.Spec

/-- One comma-separated element of a field. -/
inductive CronItem where
  /-- `*` -/
  | star
  /-- `*/k` -/
  | starStep (k : Nat)
  /-- `n` -/
  | num (n : Nat)
  /-- `a-b` -/
  | range (a b : Nat)
  /-- `a-b/k` -/
  | rangeStep (a b k : Nat)
  deriving DecidableEq, Repr

/-- The values denoted by an element of a field whose domain is `lo..hi`. -/
def CronItem.Denotes (lo hi : Nat) : CronItem → Nat → Prop
  | .star, v => lo ≤ v ∧ v ≤ hi
  | .starStep k, v => ∃ m, v = lo + m * k ∧ v ≤ hi
  | .num n, v => v = n
  | .range a b, v => a ≤ v ∧ v ≤ b
  | .rangeStep a b k, v => ∃ m, v = a + m * k ∧ v ≤ b

/-- Every number lies in the domain. -/
def CronItem.InRange (lo hi : Nat) : CronItem → Prop
  | .star => True
  | .starStep _ => True
  | .num n => lo ≤ n ∧ n ≤ hi
  | .range a b => (lo ≤ a ∧ a ≤ hi) ∧ (lo ≤ b ∧ b ≤ hi)
  | .rangeStep a b _ => (lo ≤ a ∧ a ≤ hi) ∧ (lo ≤ b ∧ b ≤ hi)

/-- Ranges are not reversed. -/
def CronItem.Ordered : CronItem → Prop
  | .range a b => a ≤ b
  | .rangeStep a b _ => a ≤ b
  | _ => True

/-- The step, where there is one, is positive (and fits in 32 bits). -/
def CronItem.StepOk : CronItem → Prop
  | .starStep k => 0 < k ∧ k < 2 ^ 32
  | .rangeStep _ _ k => 0 < k ∧ k < 2 ^ 32
  | _ => True

/-- `Numeral s n`: the nonempty digit string `s` denotes `n` in decimal notation (leading
zeros allowed). -/
inductive Numeral : Str → Nat → Prop where
  | digit {d : Nat} (h : d < 10) : Numeral [Char.ofNat (48 + d)] d
  | snoc {s : Str} {n d : Nat} (hs : Numeral s n) (h : d < 10) :
      Numeral (s ++ [Char.ofNat (48 + d)]) (10 * n + d)

/-- The spellings of an element. -/
inductive CronItem.Spelling : CronItem → Str → Prop where
  | star : Spelling .star ['*']
  | starStep {k : Nat} {s : Str} (h : Numeral s k) : Spelling (.starStep k) ('*' :: '/' :: s)
  | num {n : Nat} {s : Str} (h : Numeral s n) : Spelling (.num n) s
  | range {a b : Nat} {s t : Str} (ha : Numeral s a) (hb : Numeral t b) :
      Spelling (.range a b) (s ++ '-' :: t)
  | rangeStep {a b k : Nat} {s t u : Str} (ha : Numeral s a) (hb : Numeral t b)
      (hk : Numeral u k) : Spelling (.rangeStep a b k) (s ++ '-' :: t ++ '/' :: u)

/-- The spellings of a field: its elements separated by commas. -/
inductive FieldSpelling : List CronItem → Str → Prop where
  | one {i : CronItem} {s : Str} (h : i.Spelling s) : FieldSpelling [i] s
  | cons {i : CronItem} {s t : Str} {is : List CronItem} (h : i.Spelling s)
      (ht : FieldSpelling is t) : FieldSpelling (i :: is) (s ++ ',' :: t)

/-- The values denoted by a field. -/
def FieldDenotes (lo hi : Nat) (items : List CronItem) (v : Nat) : Prop :=
  ∃ i ∈ items, i.Denotes lo hi v

/-- A field that is to be accepted. -/
def FieldOk (lo hi : Nat) (items : List CronItem) : Prop :=
  ∀ i ∈ items, i.InRange lo hi ∧ i.Ordered ∧ i.StepOk

/-- The white space characters of the Unicode standard (property `White_Space`). -/
def IsSpace (c : Char) : Prop :=
  c.toNat ∈ [0x9, 0xA, 0xB, 0xC, 0xD, 0x20, 0x85, 0xA0, 0x1680, 0x2000, 0x2001, 0x2002, 0x2003,
    0x2004, 0x2005, 0x2006, 0x2007, 0x2008, 0x2009, 0x200A, 0x2028, 0x2029, 0x202F, 0x205F, 0x3000]

/-- `Words ws s`: the text `s` consists of the words `ws` (nonempty, free of white space),
separated by nonempty white space, possibly surrounded by white space. -/
inductive Words : List Str → Str → Prop where
  | nil {sp : Str} (h : ∀ c ∈ sp, IsSpace c) : Words [] sp
  | cons {sp w t : Str} {ws : List Str} (hsp : ∀ c ∈ sp, IsSpace c) (hw : w ≠ [])
      (hns : ∀ c ∈ w, ¬ IsSpace c) (hsep : ∀ c, t.head? = some c → IsSpace c)
      (ht : Words ws t) : Words (w :: ws) (sp ++ w ++ t)

/-- A spelling of zero: one or more `0`, possibly signed with `+`. -/
def ZeroNumeral (z : Str) : Prop :=
  ∃ d : Str, (z = d ∨ z = '+' :: d) ∧ d ≠ [] ∧ ∀ c ∈ d, c = '0'

/-- The text contains a step of zero. -/
def ZeroStep (s : Str) : Prop :=
  ∃ pre z post, s = pre ++ '/' :: z ++ post ∧ ZeroNumeral z ∧
    ∀ c, post.head? = some c → c = ',' ∨ c = '/' ∨ IsSpace c

/-- What the code accepts as a number: a numeral, possibly signed with `+`. -/
inductive LooseNum : Str → Nat → Prop where
  | plain {s : Str} {n : Nat} (h : Numeral s n) : LooseNum s n
  | plus {s : Str} {n : Nat} (h : Numeral s n) : LooseNum ('+' :: s) n

/-- `LooseBase lo hi b e s`: the text `s` is accepted as the interval from `b` to `e`.  In
contrast to `CronItem.Spelling` anything but a slash may follow a second dash. -/
inductive LooseBase (lo hi : Nat) : Nat → Nat → Str → Prop where
  | star : LooseBase lo hi lo hi ['*']
  | num {s : Str} {n : Nat} (h : LooseNum s n) : LooseBase lo hi n n s
  | range {s t : Str} {a b : Nat} (ha : LooseNum s a) (hb : LooseNum t b) :
      LooseBase lo hi a b (s ++ '-' :: t)
  | rangeJunk {s t junk : Str} {a b : Nat} (ha : LooseNum s a) (hb : LooseNum t b)
      (hj : '/' ∉ junk) :
      LooseBase lo hi a b (s ++ '-' :: t ++ '-' :: junk)

/-- `LoosePiece lo hi b e k s`: the text `s` is accepted as every `k`-th value from `b` to
`e`.  Anything may follow a second slash, and a single number may have a step. -/
inductive LoosePiece (lo hi : Nat) : Nat → Nat → Nat → Str → Prop where
  | plain {s : Str} {b e : Nat} (h : LooseBase lo hi b e s) : LoosePiece lo hi b e 1 s
  | step {s u : Str} {b e k : Nat} (h : LooseBase lo hi b e s) (hk : LooseNum u k) :
      LoosePiece lo hi b e k (s ++ '/' :: u)
  | stepJunk {s u junk : Str} {b e k : Nat} (h : LooseBase lo hi b e s) (hk : LooseNum u k) :
      LoosePiece lo hi b e k (s ++ '/' :: u ++ '/' :: junk)

/-- A comma-separated piece with at most one dash, at most one slash, no plus sign, and a step
only behind `*` or a range. -/
def TidyPiece (w : Str) : Prop :=
  w.count '-' ≤ 1 ∧ w.count '/' ≤ 1 ∧ '+' ∉ w ∧ ('/' ∈ w → '*' ∈ w ∨ '-' ∈ w)

/-- `Commas ws s`: the text `s` consists of the comma-free pieces `ws`, separated by commas. -/
inductive Commas : List Str → Str → Prop where
  | one {w : Str} (h : ',' ∉ w) : Commas [w] w
  | cons {w t : Str} {ws : List Str} (h : ',' ∉ w) (ht : Commas ws t) :
      Commas (w :: ws) (w ++ ',' :: t)

/-- `LooseField lo hi s ok`: the text `s` is accepted as a field with values from `lo` to `hi`, and
stands for the values that are `ok`. -/
def LooseField (lo hi : Nat) (s : Str) (ok : Nat → Prop) : Prop :=
  ∃ (ws : List Str) (ds : List (Nat × Nat × Nat)), Commas ws s ∧
    List.Forall₂ (fun w d => LoosePiece lo hi d.1 d.2.1 d.2.2 w ∧
      lo ≤ d.1 ∧ d.1 ≤ d.2.1 ∧ d.2.1 ≤ hi ∧ 0 < d.2.2 ∧ d.2.2 < 2 ^ 32) ws ds ∧
    ∀ v, ok v ↔ ∃ d ∈ ds, d.1 ≤ v ∧ v ≤ d.2.1 ∧ d.2.2 ∣ v - d.1

/-! ## What is wrong with an expression -/

/-- A number that fits in 32 bits, possibly signed with `+`. -/
def Number (s : Str) : Prop := ∃ n, LooseNum s n ∧ n < 2 ^ 32

/-- What lies before the first, and between the first and the second occurrence of a character. -/
def firstPart (c : Char) (s : Str) : Str := s.takeWhile (fun x => decide (x ≠ c))
def secondPart (c : Char) (s : Str) : Str := firstPart c ((s.dropWhile (fun x => decide (x ≠ c))).drop 1)

/-- What is wrong with one comma-separated piece of a field with values from `lo` to `hi`, by the
text of the message. -/
def PieceWrong (lo hi : Nat) (piece : Str) (text : String) : Prop :=
  (text = "Invalid step number" ∧ '/' ∈ piece ∧ ¬ Number (secondPart '/' piece)) ∨
  (text = "Invalid number" ∧ firstPart '/' piece ≠ ['*'] ∧
    ¬ Number (firstPart '-' (firstPart '/' piece))) ∨
  (text = "Invalid number in end of interval" ∧ '-' ∈ firstPart '/' piece ∧
    ¬ Number (secondPart '-' (firstPart '/' piece))) ∨
  (text = "Invalid range in timer spec" ∧ ∃ b e k, LoosePiece lo hi b e k piece ∧
    (b < lo ∨ hi < b ∨ e < lo ∨ hi < e)) ∨
  (text = "Interval end < begin" ∧ ∃ b e k, LoosePiece lo hi b e k piece ∧ e < b)

/-- The values of the five fields. -/
def domains : List (Nat × Nat) := [(0, 59), (0, 23), (1, 31), (1, 12), (0, 6)]

/-- What is wrong with an expression, by the text of the message. -/
def TimerWrong (expr : Str) (text : String) : Prop :=
  ∃ ws, Words ws expr ∧
    ((text = "Incomplete timer spec" ∧ ws.length < 5) ∨
     (text = "Too many timer specs" ∧ 5 < ws.length) ∨
     ∃ (i : Nat) (field : Str) (lo hi : Nat) (pieces : List Str) (piece : Str),
       ws[i]? = some field ∧ domains[i]? = some (lo, hi) ∧
       Commas pieces field ∧ piece ∈ pieces ∧ PieceWrong lo hi piece text)

end Cinit.Spec
