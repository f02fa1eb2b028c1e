import Verif.Model.Kernel
import Verif.Model.Manager
/-!
# What is attached to messages on the notify socket

The way of a message from `sendmsg(2)` in some process to `read_socket` of cinit, as far as
its control messages go: `__scm_send`, `scm_check_creds`, `put_cmsg`, `scm_detach_fds` and
`scm_recv` of Linux (`include/net/scm.h`, `net/core/scm.c`), `cmsg_space!`, `recvmsg` and
`RecvMsg::cmsgs` of nix 0.30.1 and notify_manager.rs:63-85. The kernel's part is an assumption
about the environment of cinit. Left out: senders in other pid or user namespaces, the limit on
open descriptors, messages the kernel refuses because of their size (these are not received).
-/

namespace Cinit
namespace Datagrams

/-! ## Sending -/

def capSysAdmin : Cap := 21

/-- `struct ucred` -/
structure Claim where
  pid : Int
  uid : Nat
  gid : Nat
  deriving DecidableEq, Repr

/-- What a process passes to `sendmsg`: data, credentials (`SCM_CREDENTIALS`) if it likes to, and
a number of descriptors (`SCM_RIGHTS`). -/
structure Sending where
  bytes : List Nat
  claim : Option Claim := none
  fds : Nat := 0

/-- The sending process. -/
structure Sender where
  pid : Int
  cred : Cred

/-- A message in the queue of the socket. -/
structure Datagram where
  bytes : List Nat
  creds : Claim
  fds : Nat
  deriving DecidableEq, Repr

/-- `scm_check_creds` -/
def MayClaim (s : Sender) (c : Claim) : Prop :=
  (c.pid = s.pid ∨ s.cred.effective capSysAdmin = true) ∧
  (c.uid = s.cred.ruid ∨ c.uid = s.cred.euid ∨ c.uid = s.cred.suid ∨
    s.cred.effective capSetuid = true) ∧
  (c.gid = s.cred.rgid ∨ c.gid = s.cred.egid ∨ c.gid = s.cred.sgid ∨
    s.cred.effective capSetgid = true)

instance (s : Sender) (c : Claim) : Decidable (MayClaim s c) :=
  inferInstanceAs (Decidable (_ ∧ _ ∧ _))

/-- `__scm_send`: `alive` are the ids of existing processes. Without credentials given, those of
the sender are used (`maybe_add_creds`). At most 253 descriptors may be attached
(`SCM_MAX_FD`). -/
def send (alive : Int → Bool) (s : Sender) (m : Sending) : Option Datagram :=
  if 253 < m.fds then none
  else match m.claim with
    | none => some ⟨m.bytes, ⟨s.pid, s.cred.ruid, s.cred.rgid⟩, m.fds⟩
    | some c =>
      if MayClaim s c ∧ (c.pid = s.pid ∨ alive c.pid = true) then some ⟨m.bytes, c, m.fds⟩
      else none

/-! ## Receiving -/

/-- `CMSG_ALIGN` on machines of 64 bits -/
def align (n : Nat) : Nat := (n + 7) / 8 * 8

/-- `sizeof(struct cmsghdr)` -/
def header : Nat := 16

/-- `CMSG_LEN` -/
def cmsgLen (n : Nat) : Nat := align header + n

/-- `CMSG_SPACE`; `cmsg_space!` is the size of a buffer for it. -/
def cmsgSpace (n : Nat) : Nat := align header + align n

/-- `sizeof(struct ucred)` -/
def ucredSize : Nat := 12

/-- A control message; `cut` is one the buffer was too small for. -/
inductive Ctl where
  | credentials (c : Claim)
  | rights (n : Nat)
  | cut
  deriving DecidableEq, Repr

/-- The `struct msghdr` while `recvmsg` fills the buffer: space left, messages written, the flag
`MSG_CTRUNC`, and the number of descriptors opened in the receiving process. -/
structure Buffer where
  left : Nat
  ctls : List Ctl := []
  truncated : Bool := false
  opened : Nat := 0
  deriving DecidableEq, Repr

/-- `put_cmsg` for `SCM_CREDENTIALS` -/
def putCreds (c : Claim) (b : Buffer) : Buffer :=
  if b.left < header then { b with truncated := true }
  else
    let left := b.left - min (cmsgSpace ucredSize) b.left
    if b.left < cmsgLen ucredSize then
      { b with left := left, ctls := b.ctls ++ [.cut], truncated := true }
    else { b with left := left, ctls := b.ctls ++ [.credentials c] }

/-- `scm_detach_fds`: as many descriptors as there is space for are opened, the rest is
dropped. -/
def detachFds (n : Nat) (b : Buffer) : Buffer :=
  let fdmax := if b.left ≤ header then 0 else (b.left - header) / 4
  let i := min n fdmax
  let b := if 0 < i then
      { b with left := b.left - min (cmsgSpace (i * 4)) b.left, ctls := b.ctls ++ [.rights i],
               opened := b.opened + i }
    else b
  if i < n then { b with truncated := true } else b

/-- `scm_recv` at a socket with `SO_PASSCRED` (process_manager_builder.rs:161) -/
def receive (space : Nat) (d : Datagram) : Buffer :=
  let b := putCreds d.creds { left := space }
  if 0 < d.fds then detachFds d.fds b else b

/-- notify_manager.rs:65 -/
def controlSpace : Nat := cmsgSpace ucredSize

/-- `RecvMsg::cmsgs`: ENOBUFS if the control messages were truncated -/
def cmsgs (b : Buffer) : Option (List Ctl) := if b.truncated then none else some b.ctls

/-- notify_manager.rs:76-82: the first credentials -/
def firstCreds : List Ctl → Option Int
  | [] => none
  | .credentials c :: _ => some c.pid
  | _ :: l => firstCreds l

/-- notify_manager.rs:67-84 in terms of the model of the event loop: the first 4096 bytes, and the
sender unless `read_socket` fails after the text was looked at. -/
def arrival (d : Datagram) : Answer :=
  .recv (some (d.bytes.take 4096, (cmsgs (receive controlSpace d)).bind firstCreds))

end Datagrams
end Cinit
