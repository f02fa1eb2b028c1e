import Verif.Model.Child
/-!
# What the execution of a program should look like

Functions of the configured program and of the calls made only.
-/

namespace Cinit.Spec

open Cinit Child

/-- The name of a capability, capabilities(7). -/
def capName (c : Cap) : Option Str :=
  match c.val with
  | 0 => some "CAP_CHOWN".toList
  | 1 => some "CAP_DAC_OVERRIDE".toList
  | 2 => some "CAP_DAC_READ_SEARCH".toList
  | 3 => some "CAP_FOWNER".toList
  | 4 => some "CAP_FSETID".toList
  | 5 => some "CAP_KILL".toList
  | 6 => some "CAP_SETGID".toList
  | 7 => some "CAP_SETUID".toList
  | 8 => some "CAP_SETPCAP".toList
  | 9 => some "CAP_LINUX_IMMUTABLE".toList
  | 10 => some "CAP_NET_BIND_SERVICE".toList
  | 11 => some "CAP_NET_BROADCAST".toList
  | 12 => some "CAP_NET_ADMIN".toList
  | 13 => some "CAP_NET_RAW".toList
  | 14 => some "CAP_IPC_LOCK".toList
  | 15 => some "CAP_IPC_OWNER".toList
  | 16 => some "CAP_SYS_MODULE".toList
  | 17 => some "CAP_SYS_RAWIO".toList
  | 18 => some "CAP_SYS_CHROOT".toList
  | 19 => some "CAP_SYS_PTRACE".toList
  | 20 => some "CAP_SYS_PACCT".toList
  | 21 => some "CAP_SYS_ADMIN".toList
  | 22 => some "CAP_SYS_BOOT".toList
  | 23 => some "CAP_SYS_NICE".toList
  | 24 => some "CAP_SYS_RESOURCE".toList
  | 25 => some "CAP_SYS_TIME".toList
  | 26 => some "CAP_SYS_TTY_CONFIG".toList
  | 27 => some "CAP_MKNOD".toList
  | 28 => some "CAP_LEASE".toList
  | 29 => some "CAP_AUDIT_WRITE".toList
  | 30 => some "CAP_AUDIT_CONTROL".toList
  | 31 => some "CAP_SETFCAP".toList
  | 32 => some "CAP_MAC_OVERRIDE".toList
  | 33 => some "CAP_MAC_ADMIN".toList
  | 34 => some "CAP_SYSLOG".toList
  | 35 => some "CAP_WAKE_ALARM".toList
  | 36 => some "CAP_BLOCK_SUSPEND".toList
  | 37 => some "CAP_AUDIT_READ".toList
  | 38 => some "CAP_PERFMON".toList
  | 39 => some "CAP_BPF".toList
  | 40 => some "CAP_CHECKPOINT_RESTORE".toList
  | _ => none

/-- The capability is configured. -/
def Configured (names : List Str) (c : Cap) : Prop := ∃ n, capName c = some n ∧ n ∈ names

instance (names : List Str) (c : Cap) : Decidable (Configured names c) :=
  match h : capName c with
  | none => isFalse (by rintro ⟨n, h1, -⟩; rw [h] at h1; cases h1)
  | some n =>
    if hm : n ∈ names then isTrue ⟨n, h, hm⟩
    else isFalse (by rintro ⟨n', h1, h2⟩; rw [h] at h1; cases h1; exact hm h2)

/-- The set of the configured capabilities. -/
def configured (names : List Str) : Caps := fun c => decide (Configured names c)

/-- The configured names that are no capabilities. -/
def unknown (names : List Str) : List Str := names.filter fun n => decide (∀ c, capName c ≠ some n)

/-- Acting as the program is configured to: with its user, group and capabilities only. -/
structure ActsAs (p : Process) (c : Cred) : Prop where
  user : c.ruid = p.uid ∧ c.euid = p.uid ∧ c.suid = p.uid
  group : c.rgid = p.gid ∧ c.egid = p.gid ∧ c.sgid = p.gid ∧ c.groups = [p.gid]
  caps : c.effective = configured p.capabilities

/-- A call that is repeated until it succeeds. -/
def Retried : Call → Prop
  | .dup2 _ _ => True
  | _ => False

/-- A call that has failed for good. -/
def Failed (x : Call × Bool) : Prop := x.2 = false ∧ ¬ Retried x.1

/-- A program has been executed. -/
def Execs (x : Call × Bool) : Prop := ∃ p a e, x = (.execvpe p a e, true)

/-- A call about capabilities. -/
def AboutCaps : Call → Bool
  | .capget => true
  | .capsetInheritable _ => true
  | .capsetEffective _ => true
  | .ambientClear => true
  | .ambientRaise _ => true
  | _ => false

/-- A call made before capabilities are looked at. -/
def Early : Call → Bool
  | .dup2 _ _ => true
  | .sigprocmask _ => true
  | .chdir _ => true
  | _ => false

end Cinit.Spec
