import Verif.Spec.Supervision
/-!
# Which report of the kernel an event serves

Functions of the observable history only (newest event first).
-/

namespace Cinit.Spec

open Cinit

/-- The descriptors cinit itself listens to. -/
structure Inlets where
  signalFd : Int
  statusFd : Int
  notifyFd : Int
  deriving DecidableEq, Repr

/-- The reports of the kernel cinit has not turned to yet. -/
def pending : Log → List Ready
  | [] => []
  | .polled evs :: _ => evs
  | .ready _ :: l => (pending l).tail
  | _ :: l => pending l

/-- The report cinit has just turned to and not acted upon yet. -/
def hand : Log → Option Ready
  | .ready ev :: _ => if ev.inp || ev.hup then some ev else none
  | _ => none

/-- Since cinit last waited for something to happen it has reaped terminated children until
the kernel knew of no further one, or told about a child in a way cinit cannot understand. -/
def Swept : Log → Prop
  | [] => True
  | .polling :: _ => False
  | .reaped :: _ => True
  | .lost _ _ :: _ => True
  | _ :: l => Swept l

/-- What an event has to do with the reports of the kernel, `past` being the history before
it. -/
def Serves (d : Inlets) (e : Event) (past : Log) : Prop :=
  match e with
  | .ready ev => hand past = none ∧ (pending past).head? = some ev
  | .signal _ => ∃ ev, hand past = some ev ∧ ev.inp = true ∧ ev.fd = d.signalFd
  | .report _ => ∃ ev, hand past = some ev ∧ ev.inp = true ∧ ev.fd = d.statusFd ∧
      ev.fd ≠ d.signalFd
  | .received _ => ∃ ev, hand past = some ev ∧ ev.inp = true ∧ ev.fd = d.notifyFd ∧
      ev.fd ≠ d.signalFd ∧ ev.fd ≠ d.statusFd
  | .chunk fd _ => ∃ ev, hand past = some ev ∧ ev.inp = true ∧ ev.fd = fd ∧
      fd ≠ d.signalFd ∧ fd ≠ d.statusFd ∧ fd ≠ d.notifyFd
  | .hangup fd => hand past = some ⟨fd, false, true⟩
  | .failed => ∃ ev, hand past = some ev ∧ ev.inp = true
  | .sent _ _ | .line _ _ _ | .datagram _ _ => hand past = none
  | .unsigned => ∃ bytes l, past = .received bytes :: l
  | .polled _ | .unpolled => ∃ l, past = .polling :: l
  | .waited _ _ _ | .lost _ _ | .reaped => hand past = none ∧ pending past = [] ∧ ¬ Swept past
  | .clock _ | .spawned _ _ _ _ | .watched _ _ | .spawnFailed _ | .refused _ _ | .postponed _
  | .polling | .exit _ => hand past = none ∧ pending past = [] ∧ Swept past

/-- The output stream of the program just started that has to be registered at epoll next. -/
def unwatched : Log → Option Int
  | .spawned _ _ out _ :: _ => some out
  | .watched _ _ :: .spawned _ _ _ err :: _ => some err
  | _ => none

/-- Once a program has been started, its output streams are registered at once, and this is not
done at any other time. -/
def Watches (e : Event) (past : Log) : Prop :=
  match unwatched past with
  | some fd => ∃ ok, e = .watched fd ok
  | none => ∀ fd ok, e ≠ .watched fd ok

/-- The descriptors cinit listens to: its own ones and the output streams registered, until
they are hung up. -/
def listening (d : Inlets) : Log → Int → Prop
  | [], fd => fd = d.signalFd ∨ fd = d.statusFd ∨ fd = d.notifyFd
  | .watched g ok :: l, fd => (fd = g ∧ ok = true) ∨ listening d l fd
  | .hangup g :: l, fd => fd ≠ g ∧ listening d l fd
  | _ :: l, fd => listening d l fd

/-- The kernel reports on at most ten different descriptors at a time, all of them registered, and
new descriptors are none of `fds`. -/
def Told (d : Inlets) (fds : List Int) (e : Event) (past : Log) : Prop :=
  match e with
  | .polled evs => evs.length ≤ 10 ∧ (evs.map (·.fd)).Nodup ∧ ∀ r ∈ evs, listening d past r.fd
  | .spawned _ _ o r => o ∉ fds ∧ r ∉ fds
  | _ => True

end Cinit.Spec
