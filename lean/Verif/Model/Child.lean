import Verif.Model.Kernel
import Verif.Model.Process
import Verif.Model.PathSearch
/-!
# Model of the child's side of starting a program

`src/runtime/process.rs`: lines 148-187 (`start`, from `fork` on), 265-283 (`create_std_fds`),
293-326 (`setup_child`), 345-381 (`set_user_and_caps`), 452-462 (`create_pipes`, `map_to_errno`);
the crate caps 0.5.5 (`set`, `clear`, `Capability::from_str`).

Every system call may be refused by the kernel for reasons of its own: the answers are a list,
`none` meaning that the kernel does not object beyond the rules of `Verif.Model.Kernel`. A child
that has used up the answers is unfinished.
-/

namespace Cinit

namespace Child

/-- The system calls made by the child. `capset` is labelled with the set replaced. -/
inductive Call where
  | dup2 (a b : Nat)
  | sigprocmask (mask : List Nat)
  | chdir (path : Str)
  | capget
  | capsetInheritable (caps : List Cap)
  | capsetEffective (caps : List Cap)
  | keepCaps (b : Bool)
  | setgid (g : Nat)
  | setgroups (gs : List Nat)
  | setuid (u : Nat)
  | ambientClear
  | ambientRaise (c : Cap)
  | execvpe (path : Str) (args env : List Str)
  deriving DecidableEq, Repr

/-- The state of the child. -/
structure Proc where
  cred : Cred
  files : Files
  /-- blocked signals -/
  mask : List Nat
  /-- ignored signals -/
  ignored : List Nat
  cwd : Str
  answers : List (Option Nat)
  /-- the calls made and whether they succeeded, newest first -/
  calls : List (Call × Bool) := []
  /-- what was written, and to which file, newest first -/
  written : List (Nat × Str) := []

/-- The files there are: the value of `PATH` in the environment of cinit, and what `execve` does
with a path, given the credentials of the caller and its working directory. -/
structure Disk where
  path : Option Str
  attempt : Cred → Str → Str → PathSearch.Attempt

/-- The program as it begins to run; `path` and `file` are what `execve` succeeded with. -/
structure Image where
  path : Str
  file : ExeFile
  args : List Str
  env : List Str
  cred : Cred
  files : Files
  mask : List Nat
  ignored : List Nat
  cwd : Str

/-- Outcome of a part of the child's work; errors are numbers as in `errno.h`. -/
inductive Ret (α : Type) where
  | ok (a : α) (s : Proc)
  | err (e : Nat) (s : Proc)
  | panic (p : Panic) (s : Proc)
  | stuck (s : Proc)

/-- The monad of the child. -/
def C (α : Type) := Proc → Ret α

namespace C

def pure {α : Type} (a : α) : C α := fun s => .ok a s

def bind {α β : Type} (x : C α) (f : α → C β) : C β := fun s =>
  match x s with
  | .ok a s' => f a s'
  | .err e s' => .err e s'
  | .panic p s' => .panic p s'
  | .stuck s' => .stuck s'

instance : Monad C where
  pure := C.pure
  bind := C.bind

end C

def ePerm : Nat := 1
def eInval : Nat := 22

/-- A system call, `act` being what the kernel does if it does not refuse. -/
def sys (call : Call) (act : Proc → Option Proc) : C Unit := fun s =>
  match s.answers with
  | [] => .stuck s
  | some e :: rest => .err e { s with answers := rest, calls := (call, false) :: s.calls }
  | none :: rest =>
    match act s with
    | none => .err ePerm { s with answers := rest, calls := (call, false) :: s.calls }
    | some s' => .ok () { s' with answers := rest, calls := (call, true) :: s.calls }

/-- A system call that concerns the credentials only. -/
def sysCred (call : Call) (act : Cred → Option Cred) : C Unit :=
  sys call fun s => (act s.cred).map fun c => { s with cred := c }

/-- A call that is refused without asking the kernel. -/
def refuse (call : Call) (e : Nat) : C Unit := fun s =>
  .err e { s with calls := (call, false) :: s.calls }

def abort {α : Type} (p : Panic) : C α := fun s => .panic p s

/-- `println!`: the standard library ignores a closed standard output. -/
def println (text : Str) : C Unit := fun s =>
  match s.files 1 with
  | none => .ok () s
  | some f => .ok () { s with written := (f.object, text) :: s.written }

/-- Dropping an `OwnedFd`. -/
def drop (fd : Nat) : C Unit := fun s => .ok () { s with files := s.files.close fd }

/-- process.rs:296-297 `while unistd::dup2(..).is_err() {}` -/
def dup2Go (a b : Nat) : List (Option Nat) → Proc → Ret Unit
  | [], s => .stuck { s with answers := [] }
  | some _ :: rest, s => dup2Go a b rest { s with calls := (.dup2 a b, false) :: s.calls }
  | none :: rest, s =>
    match s.files.dup2 a b with
    | none => dup2Go a b rest { s with calls := (.dup2 a b, false) :: s.calls }
    | some t => .ok () { s with files := t, answers := rest, calls := (.dup2 a b, true) :: s.calls }

def dup2Loop (a b : Nat) : C Unit := fun s => dup2Go a b s.answers s

/-- The names of the crate caps for the capabilities, by number. -/
def capNames : List Str :=
  ["CAP_CHOWN", "CAP_DAC_OVERRIDE", "CAP_DAC_READ_SEARCH", "CAP_FOWNER", "CAP_FSETID", "CAP_KILL",
   "CAP_SETGID", "CAP_SETUID", "CAP_SETPCAP", "CAP_LINUX_IMMUTABLE", "CAP_NET_BIND_SERVICE",
   "CAP_NET_BROADCAST", "CAP_NET_ADMIN", "CAP_NET_RAW", "CAP_IPC_LOCK", "CAP_IPC_OWNER",
   "CAP_SYS_MODULE", "CAP_SYS_RAWIO", "CAP_SYS_CHROOT", "CAP_SYS_PTRACE", "CAP_SYS_PACCT",
   "CAP_SYS_ADMIN", "CAP_SYS_BOOT", "CAP_SYS_NICE", "CAP_SYS_RESOURCE", "CAP_SYS_TIME",
   "CAP_SYS_TTY_CONFIG", "CAP_MKNOD", "CAP_LEASE", "CAP_AUDIT_WRITE", "CAP_AUDIT_CONTROL",
   "CAP_SETFCAP", "CAP_MAC_OVERRIDE", "CAP_MAC_ADMIN", "CAP_SYSLOG", "CAP_WAKE_ALARM",
   "CAP_BLOCK_SUSPEND", "CAP_AUDIT_READ", "CAP_PERFMON", "CAP_BPF",
   "CAP_CHECKPOINT_RESTORE"].map String.toList

/-- `Capability::from_str` -/
def capFromStr (s : Str) : Option Cap := (capNames.findIdx? (· == s)).map (Fin.ofNat 64)

/-- process.rs:459-462 `map_to_errno`; the description of the error is `reason`. -/
def mapToErrno {α : Type} (reason : Str) (x : C α) : C α := fun s =>
  match x s with
  | .err _ s' =>
    match println ("capability error: ".toList ++ reason) s' with
    | .ok _ s'' => .err eInval s''
    | .err e s'' => .err e s''
    | .panic p s'' => .panic p s''
    | .stuck s'' => .stuck s''
  | r => r

/-- caps `set(None, CapSet::Inheritable, ..)`: the sets are read and written back with one of
them replaced. -/
def applyInheritable (caps : List Cap) : C Unit := do
  sys .capget some
  sysCred (.capsetInheritable caps) fun c => c.capset c.effective c.permitted (Caps.ofList caps)

/-- caps `set(None, CapSet::Effective, ..)` -/
def applyEffective (caps : List Cap) : C Unit := do
  sys .capget some
  sysCred (.capsetEffective caps) fun c => c.capset (Caps.ofList caps) c.permitted c.inheritable

/-- caps `clear(None, CapSet::Ambient)` -/
def clearAmbient : C Unit := sysCred .ambientClear Cred.ambientClear

def raiseAll : List Cap → C Unit
  | [] => pure ()
  | c :: cs => do
    sysCred (.ambientRaise c) (·.ambientRaise c)
    raiseAll cs

/-- caps `set(None, CapSet::Ambient, ..)`: clear, then raise one by one, in the order of the hash
set. -/
def applyAmbient (ord : HashOrder) (caps : List Cap) : C Unit := do
  clearAmbient
  raiseAll (ord.apply caps)

/-- process.rs:349-358: the configured capabilities that are known, others are mentioned. -/
def knownCaps : List Str → List Cap → C (List Cap)
  | [], acc => pure acc
  | raw :: rest, acc =>
    match capFromStr raw with
    | some c => knownCaps rest (if c ∈ acc then acc else acc ++ [c])
    | none => do
      println ("Failed to set ".toList ++ raw)
      knownCaps rest acc

/-- `HashSet::insert` -/
def insertCap (c : Cap) (l : List Cap) : List Cap := if c ∈ l then l else l ++ [c]

/-- process.rs:345-381 `set_user_and_caps`; `reason` describes errors. -/
def setUserAndCaps (ord : HashOrder) (reason : Str) (p : Process) : C Unit := do
  let actual ← knownCaps p.capabilities []
  let temporary := insertCap capSetfcap (insertCap capSetpcap (insertCap capSetgid
    (insertCap capSetuid actual)))
  mapToErrno reason (applyInheritable temporary)
  mapToErrno reason (applyEffective temporary)
  sysCred (.keepCaps true) (·.setKeepCaps true)
  sysCred (.setgid p.gid) (·.setgid p.gid)
  sysCred (.setgroups [p.gid]) (·.setgroups [p.gid])
  sysCred (.setuid p.uid) (·.setuid p.uid)
  sysCred (.keepCaps false) (·.setKeepCaps false)
  mapToErrno reason (applyInheritable temporary)
  mapToErrno reason (applyEffective temporary)
  mapToErrno reason clearAmbient
  mapToErrno reason (applyAmbient ord actual)
  mapToErrno reason (applyInheritable actual)
  mapToErrno reason (applyEffective actual)

/-- process.rs:302-305 `set_current_dir`: a path with a NUL byte is refused without asking the
kernel, with the error EINVAL. -/
def setCurrentDir (path : Str) : C Unit :=
  if '\x00' ∈ path then refuse (.chdir path) eInval
  else sys (.chdir path) fun s => some { s with cwd := path }

/-- The program `p` replaces the child, `f` being the file found at `path`. -/
def image (p : Process) (path : Str) (f : ExeFile) (s : Proc) : Image :=
  { path := path, file := f, args := p.args, env := p.env, cred := s.cred.exec f
    files := s.files.exec, mask := s.mask, ignored := s.ignored, cwd := s.cwd }

/-- process.rs:309-323 `execvpe`. The search along `PATH` takes place in the child, with the
credentials and in the directory set before. A search of several directories is one call as far
as objections of the kernel on its own account are concerned. -/
def findAndExec (d : Disk) (p : Process) : C Image := fun s =>
  match s.answers with
  | [] => .stuck s
  | some e :: rest =>
    .err e { s with answers := rest, calls := (.execvpe p.path p.args p.env, false) :: s.calls }
  | none :: rest =>
    match PathSearch.execvpe d.path (d.attempt s.cred s.cwd) p.path with
    | .failed e =>
      .err e { s with answers := rest, calls := (.execvpe p.path p.args p.env, false) :: s.calls }
    | .found path f =>
      .ok (image p path f s)
        { s with answers := rest, calls := (.execvpe p.path p.args p.env, true) :: s.calls }

/-- process.rs:309-323 `CString::new(..).unwrap()`, `execvpe`. -/
def exec (d : Disk) (p : Process) : C Image :=
  if '\x00' ∈ p.path then abort .nulByte else findAndExec d p

/-- process.rs:293-323, without what happens when variables go out of scope. -/
def setupBody (ord : HashOrder) (reason : Str) (d : Disk) (p : Process)
    (stdout stderr : Nat) : C Image := do
  dup2Loop stdout 1
  dup2Loop stderr 2
  sys (.sigprocmask []) fun s => some { s with mask := [] }
  drop stdout
  drop stderr
  setCurrentDir p.workdir
  setUserAndCaps ord reason p
  exec d p

/-- process.rs:293-326 `setup_child`. When it fails, `new_stdout` and `new_stderr`, which own the
descriptors 1 and 2, are dropped, and so are `stdout` and `stderr` unless they have been
before. -/
def setupChild (ord : HashOrder) (reason : Str) (d : Disk) (p : Process)
    (stdout stderr : Nat) : C Image := fun s =>
  match setupBody ord reason d p stdout stderr s with
  | .err e s' =>
    .err e { s' with
      files := (((s'.files.close 2).close 1).close stderr).close stdout }
  | r => r

/-- How the child ends. -/
inductive End where
  | executed (image : Image) (s : Proc)
  | exited (code : Int) (s : Proc)
  | panicked (p : Panic) (s : Proc)
  | unfinished (s : Proc)

/-- process.rs:171-182: the child's part of `start`; `desc` describes error numbers. -/
def run (ord : HashOrder) (reason : Str) (desc : Nat → Str) (d : Disk)
    (p : Process) (stdout stderr : Nat) (s : Proc) : End :=
  match setupChild ord reason d p stdout stderr s with
  | .ok image s' => .executed image s'
  | .err e s' =>
    match println ("Could not exec child ".toList ++ p.name ++ ": ".toList ++ desc e) s' with
    | .ok _ s'' => .exited processExitCode s''
    | .err _ s'' => .exited processExitCode s''
    | .panic q s'' => .panicked q s''
    | .stuck s'' => .unfinished s''
  | .panic q s' => .panicked q s'
  | .stuck s' => .unfinished s'

end Child

end Cinit
