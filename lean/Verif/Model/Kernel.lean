import Verif.Base.Text
/-!
# The kernel's side of starting a program

What `capset(2)`, `setuid(2)`, `setgid(2)`, `setgroups(2)`, `prctl(2)`, `dup2(2)` and `execve(2)`
do to the credentials and descriptors of a process, after capabilities(7) and
`security/commoncap.c`, `kernel/sys.c` of Linux. This is an assumption about the environment of
cinit, not a model of its code. Left out: user namespaces, security modules, `no_new_privs`,
tracing, file system ids, capabilities unknown to the kernel (calls with them are refused, and
any call may be refused for reasons outside of this model, see `Verif.Model.Child`).
-/

namespace Cinit

/-- Capabilities, by their numbers in `linux/capability.h`. -/
abbrev Cap := Fin 64

/-- A set of capabilities. -/
abbrev Caps := Cap → Bool

namespace Caps

def empty : Caps := fun _ => false
def inter (a b : Caps) : Caps := fun c => a c && b c
def union (a b : Caps) : Caps := fun c => a c || b c
def insert (c : Cap) (a : Caps) : Caps := fun d => d == c || a d
def Subset (a b : Caps) : Prop := ∀ c, a c = true → b c = true
def ofList (l : List Cap) : Caps := fun c => l.contains c

instance (a b : Caps) : Decidable (a.Subset b) := inferInstanceAs (Decidable (∀ _, _))

end Caps

def capSetgid : Cap := 6
def capSetuid : Cap := 7
def capSetpcap : Cap := 8
def capSetfcap : Cap := 31

/-- The credentials of a process, credentials(7) and capabilities(7). -/
structure Cred where
  ruid : Nat
  euid : Nat
  suid : Nat
  rgid : Nat
  egid : Nat
  sgid : Nat
  groups : List Nat
  permitted : Caps
  effective : Caps
  inheritable : Caps
  ambient : Caps
  bounding : Caps
  /-- the securebits -/
  keepCaps : Bool := false
  keepCapsLocked : Bool := false
  noSetuidFixup : Bool := false
  noRoot : Bool := false
  noAmbientRaise : Bool := false

namespace Cred

/-- `capset(2)`, `cap_capset` in commoncap.c. -/
def capset (c : Cred) (eff perm inh : Caps) : Option Cred :=
  if (c.effective capSetpcap = true ∨ inh.Subset (c.inheritable.union c.permitted)) ∧
      inh.Subset (c.inheritable.union c.bounding) ∧ perm.Subset c.permitted ∧ eff.Subset perm then
    some { c with
      effective := eff, permitted := perm, inheritable := inh,
      ambient := c.ambient.inter (perm.inter inh) }
  else none

/-- `prctl(PR_SET_KEEPCAPS)` -/
def setKeepCaps (c : Cred) (b : Bool) : Option Cred :=
  if c.keepCapsLocked then none else some { c with keepCaps := b }

/-- `setgid(2)` -/
def setgid (c : Cred) (g : Nat) : Option Cred :=
  if c.effective capSetgid then some { c with rgid := g, egid := g, sgid := g }
  else if g = c.rgid ∨ g = c.sgid then some { c with egid := g }
  else none

/-- `setgroups(2)` -/
def setgroups (c : Cred) (gs : List Nat) : Option Cred :=
  if c.effective capSetgid then some { c with groups := gs } else none

/-- `cap_emulate_setxuid` in commoncap.c: the effect on capabilities of the change of the user
ids from `c` to `d` -/
def fixup (c d : Cred) : Cred :=
  if c.noSetuidFixup then d else
  let d :=
    if (c.ruid = 0 ∨ c.euid = 0 ∨ c.suid = 0) ∧ d.ruid ≠ 0 ∧ d.euid ≠ 0 ∧ d.suid ≠ 0 then
      let d := if c.keepCaps then d else { d with permitted := Caps.empty, effective := Caps.empty }
      { d with ambient := Caps.empty }
    else d
  if c.euid = 0 ∧ d.euid ≠ 0 then { d with effective := Caps.empty }
  else if c.euid ≠ 0 ∧ d.euid = 0 then { d with effective := d.permitted }
  else d

/-- `setuid(2)` -/
def setuid (c : Cred) (u : Nat) : Option Cred :=
  if c.effective capSetuid then some (c.fixup { c with ruid := u, euid := u, suid := u })
  else if u = c.ruid ∨ u = c.suid then some (c.fixup { c with euid := u })
  else none

/-- `prctl(PR_CAP_AMBIENT, PR_CAP_AMBIENT_CLEAR_ALL)` -/
def ambientClear (c : Cred) : Option Cred := some { c with ambient := Caps.empty }

/-- `prctl(PR_CAP_AMBIENT, PR_CAP_AMBIENT_RAISE)` -/
def ambientRaise (c : Cred) (cap : Cap) : Option Cred :=
  if c.permitted cap ∧ c.inheritable cap ∧ ¬ c.noAmbientRaise then
    some { c with ambient := Caps.insert cap c.ambient }
  else none

end Cred

/-- What matters of an executable file: set-user-id and set-group-id, and file capabilities
(permitted, inheritable, effective). -/
structure ExeFile where
  setuid : Option Nat := none
  setgid : Option Nat := none
  caps : Option (Caps × Caps × Bool) := none

/-- Nothing privileged about the file. -/
def ExeFile.plain : ExeFile := {}

/-- `execve(2)`, `cap_bprm_creds_from_file` in commoncap.c. -/
def Cred.exec (c : Cred) (f : ExeFile) : Cred :=
  let euid := f.setuid.getD c.euid
  let egid := f.setgid.getD c.egid
  let hasFcap := f.caps.isSome
  let (perm, eff) := match f.caps with
    | none => (Caps.empty, false)
    | some (fp, fi, fe) => ((c.bounding.inter fp).union (c.inheritable.inter fi), fe)
  let rootPrivileged := ¬ c.noRoot ∧ ¬ (hasFcap ∧ c.ruid ≠ 0 ∧ euid = 0)
  let perm := if rootPrivileged ∧ (euid = 0 ∨ c.ruid = 0)
    then c.bounding.union c.inheritable else perm
  let eff := if rootPrivileged ∧ euid = 0 then true else eff
  let isSetid := euid ≠ c.ruid ∨ egid ≠ c.rgid
  let ambient := if hasFcap ∨ isSetid then Caps.empty else c.ambient
  let perm := perm.union ambient
  { c with
    euid := euid, suid := euid, egid := egid, sgid := egid
    ambient := ambient, permitted := perm, effective := if eff then perm else ambient
    keepCaps := false }

/-- An open file as seen through a descriptor: which one, and whether the descriptor is closed
by `execve`. -/
structure File where
  object : Nat
  cloexec : Bool
  deriving DecidableEq, Repr

/-- A table of descriptors. -/
abbrev Files := Nat → Option File

namespace Files

def set (t : Files) (fd : Nat) (f : Option File) : Files := fun n => if n = fd then f else t n

def close (t : Files) (fd : Nat) : Files := t.set fd none

/-- `dup2(2)` -/
def dup2 (t : Files) (a b : Nat) : Option Files :=
  match t a with
  | none => none
  | some f => some (if a = b then t else t.set b (some { f with cloexec := false }))

/-- The descriptors that survive `execve`. -/
def exec (t : Files) : Files := fun n =>
  match t n with
  | some f => if f.cloexec then none else some f
  | none => none

end Files

end Cinit
