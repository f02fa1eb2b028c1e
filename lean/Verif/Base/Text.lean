import Verif.Base.Res
/-!
# Rust string primitives used by cinit

Models of the `std` string functions the code calls (not code of `/repo` itself; each
definition names the `std` function and a place where cinit uses it).
-/

namespace Cinit

/-- `str::split(pred)`: pieces between separators, always at least one piece.
Used in cronjob.rs:228,231,246 and startup_checks.rs:43. -/
def splitWith (p : Char → Bool) : Str → List Str
  | [] => [[]]
  | c :: cs =>
    if p c then [] :: splitWith p cs
    else match splitWith p cs with
      | [] => [[c]]
      | w :: ws => (c :: w) :: ws

/-- `str::split(c)` for a single character. -/
def splitOn (c : Char) : Str → List Str := splitWith (fun x => x == c)

/-- `char::is_whitespace` (Unicode property `White_Space`). -/
def isWhitespace (c : Char) : Bool :=
  let n := c.toNat
  (9 ≤ n && n ≤ 13) || n == 32 || n == 0x85 || n == 0xA0 || n == 0x1680 ||
  (0x2000 ≤ n && n ≤ 0x200A) || n == 0x2028 || n == 0x2029 || n == 0x202F || n == 0x205F ||
  n == 0x3000

/-- `str::split_whitespace`: maximal runs of non-whitespace. Used in cronjob.rs:49. -/
def splitWhitespace (s : Str) : List Str :=
  (splitWith isWhitespace s).filter (fun w => !w.isEmpty)

/-- `str::split_inclusive(c)`. -/
def splitInclusive (c : Char) : Str → List Str
  | [] => []
  | x :: xs =>
    if x = c then [x] :: splitInclusive c xs
    else match splitInclusive c xs with
      | [] => [[x]]
      | w :: ws => (x :: w) :: ws

/-- `str::strip_suffix(c)`, returning the input unchanged together with a flag if the
suffix is absent. -/
def stripSuffix (c : Char) (s : Str) : Option Str :=
  if s.getLast? = some c then some s.dropLast else none

/-- One piece of `str::lines`: drop a final `\n`, and then a final `\r`. -/
def chompLine (l : Str) : Str :=
  match stripSuffix '\n' l with
  | none => l
  | some l' =>
    match stripSuffix '\r' l' with
    | none => l'
    | some l'' => l''

/-- `str::lines`. Used in notify_manager.rs:149 and process_manager/mod.rs:357. -/
def lines (s : Str) : List Str := (splitInclusive '\n' s).map chompLine

/-- `str::splitn(2, c)`: the part before the first `c`, and the rest if `c` occurs.
Used in notify_manager.rs:150. -/
def splitFirst (c : Char) : Str → Str × Option Str
  | [] => ([], none)
  | x :: xs =>
    if x = c then ([], some xs)
    else let r := splitFirst c xs; (x :: r.1, r.2)

/-- Value of an ASCII decimal digit. -/
def digitVal (c : Char) : Option Nat :=
  if 48 ≤ c.toNat ∧ c.toNat ≤ 57 then some (c.toNat - 48) else none

/-- Decimal digits, most significant first, with accumulator. -/
def parseDigits (acc : Nat) : Str → Option Nat
  | [] => some acc
  | c :: cs =>
    match digitVal c with
    | none => none
    | some d => parseDigits (acc * 10 + d) cs

/-- Strip one leading `+` unless it is the whole string (`from_str_radix`). -/
def stripPlus : Str → Str
  | '+' :: c :: cs => c :: cs
  | s => s

/-- `str::parse::<u32>()`; `none` is `Err`. Overflow is detected on the final value,
which is equivalent to Rust's check at each digit. Used in cronjob.rs:235,250,255 and
startup_checks.rs:46,47. -/
def parseU32 (s : Str) : Option Nat :=
  match s with
  | [] => none
  | s =>
    match parseDigits 0 (stripPlus s) with
    | none => none
    | some n => if n ≤ 4294967295 then some n else none

/-- `str::parse::<libc::pid_t>()` (`i32`). Used in process.rs:231, notify_manager.rs:129. -/
def parseI32 (s : Str) : Option Int :=
  match s with
  | [] => none
  | '-' :: c :: cs =>
    match parseDigits 0 (c :: cs) with
    | none => none
    | some n => if n ≤ 2147483648 then some (-(n : Int)) else none
  | s =>
    match parseDigits 0 (stripPlus s) with
    | none => none
    | some n => if n ≤ 2147483647 then some (n : Int) else none

/-- Decimal rendering of a natural number (`Display for u32/usize`), with fuel. -/
def showNatAux : Nat → Nat → Str → Str
  | 0, _, acc => acc
  | fuel + 1, n, acc =>
    let acc' := Char.ofNat (48 + n % 10) :: acc
    if n / 10 = 0 then acc' else showNatAux fuel (n / 10) acc'

/-- `Display` of an unsigned integer. -/
def showNat (n : Nat) : Str := showNatAux (n + 1) n []

/-- `Display` of a signed integer. -/
def showInt : Int → Str
  | .ofNat n => showNat n
  | .negSucc n => '-' :: showNat (n + 1)

/-- Byte-wise (equivalently: code-point-wise) lexicographic order of Rust `String`s. -/
def strLe : Str → Str → Bool
  | [], _ => true
  | _ :: _, [] => false
  | a :: as, b :: bs =>
    if a.toNat < b.toNat then true
    else if b.toNat < a.toNat then false
    else strLe as bs

/-- Insertion into a sorted list. -/
def insertSorted (x : Str) : List Str → List Str
  | [] => [x]
  | y :: ys => if strLe x y then x :: y :: ys else y :: insertSorted x ys

/-- `sort_unstable()` on `Vec<String>`; the order is total, so the sorted result is unique
and the algorithm irrelevant. Used in config/mod.rs:214. -/
def sortStr (l : List Str) : List Str := l.foldr insertSorted []

/-- `Vec::dedup()`: remove consecutive duplicates. Used in config/mod.rs:215. -/
def dedupAdj : List Str → List Str
  | [] => []
  | [x] => [x]
  | x :: y :: ys => if x = y then dedupAdj (y :: ys) else x :: dedupAdj (y :: ys)

end Cinit
