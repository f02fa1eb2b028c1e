import Verif.Base.Res
/-!
# Specification: the environment and the arguments of a program

After doc/README.md, sections "Environment" and "args". Independent of the model: an
environment is a function from names to values.
-/

namespace Cinit.Spec

/-- An environment block holds the variable `k` with value `v`. -/
def EnvHas (env : List Str) (k v : Str) : Prop := k ++ '=' :: v ∈ env

/-- The name of an entry of an environment block: everything before the first `=`. -/
def entryName (e : Str) : Str := e.takeWhile (fun c => decide (c ≠ '='))

/-- Names of variables do not contain `=`. -/
def ProperName (k : Str) : Prop := '=' ∉ k

/-- The nine documented variables. -/
def documented : List Str :=
  [['H', 'O', 'M', 'E'], ['L', 'A', 'N', 'G'], ['L', 'A', 'N', 'G', 'U', 'A', 'G', 'E'],
   ['L', 'O', 'G', 'N', 'A', 'M', 'E'], ['P', 'A', 'T', 'H'], ['P', 'W', 'D'],
   ['S', 'H', 'E', 'L', 'L'], ['T', 'E', 'R', 'M'], ['U', 'S', 'E', 'R']]

/-- The variable announcing the notification socket, and its value. -/
def notifyVar : Str := ['N', 'O', 'T', 'I', 'F', 'Y', '_', 'S', 'O', 'C', 'K', 'E', 'T']
def notifyPath : Str :=
  ['/', 'r', 'u', 'n', '/', 'c', 'i', 'n', 'i', 't', '-', 'n', 'o', 't', 'i', 'f', 'y', '.',
    's', 'o', 'c', 'k', 'e', 't']

/-- The default value of a variable: for `HOME` and `PWD` the user's home directory, for
`USER` and `LOGNAME` the user's name, for `SHELL` `/bin/sh`, for the others of the documented
nine the value in cinit's environment or the empty text. -/
def defaultValue (getenv : Str → Option Str) (home user : Str) (k : Str) : Option Str :=
  if k = ['H', 'O', 'M', 'E'] ∨ k = ['P', 'W', 'D'] then some home
  else if k = ['U', 'S', 'E', 'R'] ∨ k = ['L', 'O', 'G', 'N', 'A', 'M', 'E'] then some user
  else if k = ['S', 'H', 'E', 'L', 'L'] then some ['/', 'b', 'i', 'n', '/', 's', 'h']
  else if k ∈ documented then some ((getenv k).getD [])
  else none

/-- The value of `k` after the assignments `earlier` (latest first): an assignment without
value forwards cinit's own value if there is one; an assignment with a value assigns the
rendering of the template, in the environment of the assignments before it, or the raw text
if it cannot be rendered. -/
def valueAfter (getenv : Str → Option Str) (render : Str → (Str → Option Str) → Str → Option Str)
    (dflt : Str → Option Str) : List (Str × Option Str) → Str → Option Str
  | [], k => dflt k
  | (k', none) :: earlier, k =>
    if k = k' then (getenv k).or (valueAfter getenv render dflt earlier k)
    else valueAfter getenv render dflt earlier k
  | (k', some raw) :: earlier, k =>
    if k = k' then some ((render k' (valueAfter getenv render dflt earlier) raw).getD raw)
    else valueAfter getenv render dflt earlier k

/-- Some assignment in the list mentions `k`. -/
def Mentions (env : List (List (Str × Option Str))) (k : Str) : Prop :=
  ∃ entry ∈ env, ∃ v, (k, v) ∈ entry

/-- The record the database associates with a pair of optional id and name, if the pair is
proper: not both may be given, and giving neither means id 0. -/
def Resolved {α : Type} (byId : Nat → Option α) (byName : Str → Option α) :
    Option Nat → Option Str → α → Prop
  | none, none, r => byId 0 = some r
  | some i, none, r => byId i = some r
  | none, some n, r => byName n = some r
  | some _, some _, _ => False

end Cinit.Spec
