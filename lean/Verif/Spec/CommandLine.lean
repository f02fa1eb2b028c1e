import Verif.Model.Utf8
/-!
# What a command line stands for

The options as documented in doc/README.md ("Usage") and the conventions of getopt(3) for spelling
them: letters may be joined after one dash, the value of an option may follow in the same argument,
with or without `=`, or be the next argument. Arguments are lists of bytes.
-/

namespace Cinit.Spec

open Cinit

/-- The options that do not make cinit print something and exit. -/
inductive Opt where
  | config (path : List Nat)
  | verbose
  deriving DecidableEq, Repr

/-- An argument that looks like an option: it begins with a dash and is not a single dash. -/
def Dashed (a : List Nat) : Prop := ∃ b rest, a = '-'.toNat :: b :: rest

/-- What letters after one dash stand for, and whether the value of the last one is the next
argument. -/
inductive Letters : List Nat → List Opt → Bool → Prop where
  | none : Letters [] [] false
  | verbose {cs : List Nat} {os : List Opt} {w : Bool} : Letters cs os w →
      Letters ('v'.toNat :: cs) (.verbose :: os) w
  | config : Letters ['c'.toNat] [] true
  | equals (path : List Nat) : Letters ('c'.toNat :: '='.toNat :: path) [.config path] false
  | joined (path : List Nat) : path ≠ [] → path.head? ≠ some '='.toNat →
      Letters ('c'.toNat :: path) [.config path] false

/-- The bytes of `--config`, `--verbose` and so on. -/
def word' (s : String) : List Nat := s.toList.map Char.toNat

/-- What arguments, none of which is the end mark `--`, stand for. -/
inductive Open : List Opt → List (List Nat) → Prop where
  | nil : Open [] []
  | verbose {os : List Opt} {as : List (List Nat)} : Open os as →
      Open (.verbose :: os) (word' "--verbose" :: as)
  | config {path : List Nat} {os : List Opt} {as : List (List Nat)} : ¬ Dashed path → Open os as →
      Open (.config path :: os) (word' "--config" :: path :: as)
  | equals {path : List Nat} {os : List Opt} {as : List (List Nat)} : Open os as →
      Open (.config path :: os) ((word' "--config=" ++ path) :: as)
  | letters {cs : List Nat} {os os' : List Opt} {as : List (List Nat)} : cs ≠ [] →
      Letters cs os false → Open os' as → Open (os ++ os') (('-'.toNat :: cs) :: as)
  | value {cs path : List Nat} {os os' : List Opt} {as : List (List Nat)} :
      Letters cs os true → ¬ Dashed path → Open os' as →
      Open (os ++ .config path :: os') (('-'.toNat :: cs) :: path :: as)

/-- What the arguments stand for. They may end with `--`. -/
def Stands (os : List Opt) (as : List (List Nat)) : Prop :=
  Open os as ∨ ∃ bs, as = bs ++ [word' "--"] ∧ Open os bs

/-- An argument that makes cinit print something and exit: the word, or the letter, possibly after
other letters without value. -/
def Prints (name : String) (letter : Char) (a : List Nat) : Prop :=
  a = word' name ∨ ∃ k rest,
    a = '-'.toNat :: (List.replicate k 'v'.toNat ++ letter.toNat :: rest)

/-- The paths given, in order. -/
def pathsIn : List Opt → List (List Nat)
  | [] => []
  | .config p :: os => p :: pathsIn os
  | .verbose :: os => pathsIn os

/-- How often more information is asked for. -/
def verbosityIn : List Opt → Nat
  | [] => 0
  | .config _ :: os => verbosityIn os
  | .verbose :: os => verbosityIn os + 1

/-- The options are not contradictory: at most one path, and that is a text. -/
def Consistent (os : List Opt) (path : Option Str) : Prop :=
  (pathsIn os = [] ∧ path = none) ∨
    ∃ p text, pathsIn os = [p] ∧ fromUtf8 p = some text ∧ path = some text

end Cinit.Spec
