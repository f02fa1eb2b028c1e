import Verif.Spec.Complaints
import Verif.Spec.Environment
/-!
# What cinit warns about when it starts

Written from the documentation of `src/analyse/process_builder.rs` and the wording of the
messages.
-/

namespace Cinit.Spec

open Cinit Logging

/-- About an assignment of a template to a variable, by the outcome of rendering it in the
environment of the assignments before. -/
def envRemark (h : Herald) (k : Str) (context : Str → Option Str) (raw : Str) :
    Option Str → List Str
  | none => ["Templating of environment variable ".toList ++ k ++
      (" failed. cinit will use raw value\n".toList ++ h.teraError k context raw)]
  | some v =>
    if '{' ∈ v ∨ '}' ∈ v then
      ["Environment variable ".toList ++ k ++ (" looks like a tera template but has value '".toList ++
        (v ++ "' after instantiation. cinit will use raw value".toList))]
    else []

/-- About assignments, of which the latest is first. -/
def envRemarks (h : Herald) (getenv : Str → Option Str)
    (render : Str → (Str → Option Str) → Str → Option Str) (dflt : Str → Option Str) :
    List (Str × Option Str) → List Str
  | [] => []
  | (_, none) :: earlier => envRemarks h getenv render dflt earlier
  | (k, some raw) :: earlier =>
    envRemarks h getenv render dflt earlier ++
      envRemark h k (valueAfter getenv render dflt earlier) raw
        (render k (valueAfter getenv render dflt earlier) raw)

/-- The title of the template for an argument. -/
def argTitle (i : Nat) : Str := ['A', 'r', 'g', 'u', 'm', 'e', 'n', 't', ' '] ++ showNat i

/-- About an argument, by the outcome of rendering it in the environment of the program. -/
def argRemark (h : Herald) (i : Nat) (context : Str → Option Str) (raw : Str) :
    Option Str → List Str
  | none => ["Templating of argument ".toList ++ showNat i ++
      (" failed. cinit will use raw value\n".toList ++
        h.teraError (['A', 'r', 'g', 'u', 'm', 'e', 'n', 't', ' '] ++ showNat i) context raw)]
  | some v =>
    if '{' ∈ v ∨ '}' ∈ v then
      ["Argument ".toList ++ showNat i ++ (" looks like a tera template but has value '".toList ++
        (v ++ "' after instantiation. cinit will use raw value".toList))]
    else []

/-- About the arguments from number `i` on. -/
def argRemarks (h : Herald) (render : Str → (Str → Option Str) → Str → Option Str)
    (context : Str → Option Str) (i : Nat) : List Str → List Str
  | [] => []
  | raw :: rest =>
    argRemark h i context raw
      (render (['A', 'r', 'g', 'u', 'm', 'e', 'n', 't', ' '] ++ showNat i) context raw) ++
    argRemarks h render context (i + 1) rest

/-- The environment of a program with this user as the configuration has it. -/
def ownSettings (s : Surroundings) (user : User) (c : ProcessConfig) : Str → Option Str :=
  valueAfter s.getenv s.render (defaultValue s.getenv user.dir user.name) c.env.flatten.reverse

/-- The environment a program with this user gets. -/
def environment (s : Surroundings) (user : User) (c : ProcessConfig) (k : Str) : Option Str :=
  if c.ptype = .notify ∧ k = notifyVar then some notifyPath else ownSettings s user c k

/-- About the socket for notifications. -/
def notifyRemark (name : Str) : List Str :=
  ["program '".toList ++ name ++ "' must not have NOTIFY_SOCKET because it's type notify".toList,
   "The value from the configuration file is ignored".toList]

/-- About a program. -/
def programRemarks (h : Herald) (s : Surroundings) (user : User) (c : ProcessConfig) : List Str :=
  envRemarks h s.getenv s.render (defaultValue s.getenv user.dir user.name) c.env.flatten.reverse ++
  ((if c.ptype = .notify ∧ (ownSettings s user c notifyVar).isSome then notifyRemark c.name else []) ++
   argRemarks h s.render (environment s user c) 0 c.args)

/-- About the kernel. -/
def KernelRemarks (h : Herald) : Option Str → List Str → Prop
  | none, ws => ws = ["Could not read kernel version: ".toList ++ h.unameError]
  | some text, ws =>
    (∃ major minor, Release text major minor) ∧ ws = [] ∨
    (¬ ∃ major minor, Release text major minor) ∧
      ws = ["Could not determine kernel version from input '".toList ++ text ++ "'".toList]

end Cinit.Spec
