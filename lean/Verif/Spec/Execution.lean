import Verif.Model.Process
/-!
# Specification: what a program is executed with
-/

namespace Cinit.Spec

/-- Everything that has a bearing on how a program is executed. -/
structure Attributes where
  name : Str
  path : Str
  args : List Str
  env : List Str
  workdir : Str
  uid : Nat
  gid : Nat
  pty : Bool
  capabilities : List Str
  type : PType
  deriving DecidableEq, Repr

/-- The attributes of a program. -/
def attributes (p : Process) : Attributes :=
  ⟨p.name, p.path, p.args, p.env, p.workdir, p.uid, p.gid, p.emulatePty, p.capabilities, p.ptype⟩

end Cinit.Spec
