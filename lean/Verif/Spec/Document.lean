import Verif.Model.Document
import Mathlib.Data.List.Forall2
/-!
# What configuration files mean

doc/README.md, section Configuration, states the keys, the shape of their values and the
defaults. Here this is a relation between documents and configurations.
-/

namespace Cinit.Spec

/-- A text, quoted or not. -/
def IsText (n : Node) (t : Str) : Prop := ∃ plain, n = .scalar ⟨t, plain⟩

/-- Nothing at all. -/
def IsVoid (n : Node) : Prop := n = .scalar ⟨[], true⟩

/-- Nothing, or one of the notations for it. -/
def IsNull (r : Reading) (n : Node) : Prop :=
  ∃ t, n = .scalar ⟨t, true⟩ ∧ (t = [] ∨ r.null t = true)

def IsFlag (r : Reading) (n : Node) (b : Bool) : Prop :=
  ∃ t, n = .scalar ⟨t, true⟩ ∧ r.bool t = some b

def IsNumber (r : Reading) (n : Node) (v : Nat) : Prop :=
  ∃ t, n = .scalar ⟨t, true⟩ ∧ r.int t = some v

/-- Something or nothing. -/
def IsOptional (r : Reading) {α : Type} (P : Node → α → Prop) (n : Node) (o : Option α) : Prop :=
  (IsNull r n ∧ o = none) ∨ (¬ IsNull r n ∧ ∃ a, o = some a ∧ P n a)

/-- A list. -/
def IsList {α : Type} (P : Node → α → Prop) (n : Node) (l : List α) : Prop :=
  (∃ ns, n = .seq ns ∧ List.Forall₂ P ns l) ∨ (IsVoid n ∧ l = [])

/-- Keys with values. -/
def IsMapping (n : Node) (l : List (Str × Node)) : Prop :=
  (∃ ns, n = .map ns ∧ List.Forall₂ (fun e f => IsText e.1 f.1 ∧ f.2 = e.2) ns l) ∨
  (IsVoid n ∧ l = [])

/-- The values given for a key. -/
def valuesOf (l : List (Str × Node)) (key : String) : List Node :=
  (l.filter (fun e => e.1 = key.toList)).map (·.2)

/-- The key is given exactly once, and with the value `a`. -/
def Required (l : List (Str × Node)) (key : String) {α : Type} (P : Node → α → Prop) (a : α) :
    Prop := ∃ n, valuesOf l key = [n] ∧ P n a

/-- The key is given at most once; if it is not given, its value is the default. -/
def Defaulted (l : List (Str × Node)) (key : String) {α : Type} (P : Node → α → Prop)
    (default a : α) : Prop :=
  (valuesOf l key = [] ∧ a = default) ∨ Required l key P a

/-- The type of a program; cronjobs have a timer. -/
inductive IsType (r : Reading) : Node → CfgType → Prop
  | oneshot {n} : IsText n "oneshot".toList → IsType r n .oneshot
  | notify {n} : IsText n "notify".toList → IsType r n .notify
  | oneshot' {k v} : IsText k "oneshot".toList → IsNull r v → IsType r (.map [(k, v)]) .oneshot
  | notify' {k v} : IsText k "notify".toList → IsNull r v → IsType r (.map [(k, v)]) .notify
  | cronjob {k v l t} : IsText k "cronjob".toList → IsMapping v l → Required l "timer" IsText t →
    IsType r (.map [(k, v)]) (.cronJob t)

/-- Environment variables, with a value or to be passed on; of several values for the same
variable the last one counts. -/
def IsVariables (r : Reading) (n : Node) (vs : List (Str × Option Str)) : Prop :=
  ∃ l, IsMapping n l ∧ (∀ e ∈ l, ∃ v, IsOptional r IsText e.2 v) ∧ (vs.map (·.1)).Nodup ∧
    ∀ k v, (k, v) ∈ vs ↔ ∃ front back n, l = front ++ (k, n) :: back ∧
      k ∉ back.map (·.1) ∧ IsOptional r IsText n v

/-- A program, given by its keys. -/
structure HasFields (r : Reading) (l : List (Str × Node)) (c : ProcessConfig) : Prop where
  name : Required l "name" IsText c.name
  path : Defaulted l "path" (IsOptional r IsText) none c.path
  args : Defaulted l "args" (IsList IsText) [] c.args
  workdir : Defaulted l "workdir" (IsOptional r IsText) none c.workdir
  type : Defaulted l "type" (IsType r) .oneshot c.ptype
  uid : Defaulted l "uid" (IsOptional r (IsNumber r)) none c.uid
  gid : Defaulted l "gid" (IsOptional r (IsNumber r)) none c.gid
  user : Defaulted l "user" (IsOptional r IsText) none c.user
  group : Defaulted l "group" (IsOptional r IsText) none c.group
  before : Defaulted l "before" (IsList IsText) [] c.before
  after : Defaulted l "after" (IsList IsText) [] c.after
  pty : Defaulted l "pty" (IsFlag r) false c.emulatePty
  capabilities : Defaulted l "capabilities" (IsList IsText) [] c.capabilities
  env : Defaulted l "env" (IsList (IsVariables r)) [] c.env

/-- A program; the meaning of a list of values is left open. -/
def IsProgram (r : Reading) (n : Node) (c : ProcessConfig) : Prop :=
  (∃ l, IsMapping n l ∧ HasFields r l c) ∨ (∃ ns, n = .seq ns ∧ r.listedProgram ns = some c)

/-- A file; the meaning of a list of values is left open. -/
def IsConfig (r : Reading) (n : Node) (c : Config) : Prop :=
  (∃ l, IsMapping n l ∧ Required l "programs" (IsList (IsProgram r)) c.programs) ∨
  (∃ ns, n = .seq ns ∧ r.listedConfig ns = some c)

/-- The same program, apart from the order of the variables within an element of `env`. -/
def SameProgram (c c' : ProcessConfig) : Prop :=
  List.Forall₂ List.Perm c.env c'.env ∧ { c with env := [] } = { c' with env := [] }

/-- The keys documented. -/
def programKeys : List String :=
  ["name", "path", "args", "workdir", "type", "uid", "gid", "user", "group", "before", "after",
   "pty", "capabilities", "env"]

end Cinit.Spec
