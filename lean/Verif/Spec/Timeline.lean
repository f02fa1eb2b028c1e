import Verif.Spec.Service
/-!
# What programs do meanwhile

A history of cinit interleaved with what other processes do at the same time, as far as messages
on the notify socket and the ends of processes are concerned: unlike the history alone this tells
what has been sent and not been read yet.
-/

namespace Cinit.Spec

open Cinit

/-- Something cinit does or notices, or something another process does. -/
inductive Happening where
  | cinit (e : Event)
  /-- a process sends a message to the notify socket -/
  | sends (q : Int) (bytes : List Nat)
  /-- a process ends that cinit is to be told of: its child, or one handed over to it -/
  | ends (q : Int)
  deriving DecidableEq, Repr

/-- Everything in the order it happens, newest first. -/
abbrev Timeline := List Happening

/-- The part of it that concerns cinit. -/
def history : Timeline → Log
  | [] => []
  | .cinit e :: t => e :: history t
  | _ :: t => history t

/-- The messages that have been sent and not been read, oldest first. -/
def unread : Timeline → List (Int × List Nat)
  | [] => []
  | .sends q b :: t => unread t ++ [(q, b)]
  | .cinit (.received _) :: t => (unread t).tail
  | _ :: t => unread t

/-- The process has ended and cinit has not been told so. -/
def ended (q : Int) : Timeline → Prop
  | [] => False
  | .ends p :: t => p = q ∨ ended q t
  | .cinit (.waited p _ _) :: t => p ≠ q ∧ ended q t
  | .cinit (.lost p _) :: t => p ≠ q ∧ ended q t
  | _ :: t => ended q t

/-- What the kernel guarantees: dead processes send nothing, messages are delivered in the order
they were sent, up to 4096 bytes of them; whoever waits is told of a waiting message unless there
are ten other things to tell; processes are reaped once they have ended, and the kernel knows of
no further terminated child only if there is none. -/
def Possible (notify : Int) (h : Happening) (t : Timeline) : Prop :=
  match h with
  | .sends q _ => ¬ ended q t
  | .ends q => ¬ ended q t
  | .cinit (.received b) => ∃ q b' rest, unread t = (q, b') :: rest ∧ b = b'.take 4096
  | .cinit (.polled evs) =>
    (unread t ≠ [] → evs.length < 10 → ∃ ev ∈ evs, ev.fd = notify ∧ ev.inp = true)
  | .cinit (.waited q _ _) => ended q t
  | .cinit (.lost q _) => ended q t
  | .cinit .reaped => ∀ q, ¬ ended q t
  | .cinit _ => True

/-- The kernel has kept its guarantees all the time. -/
def Plausible (notify : Int) : Timeline → Prop
  | [] => True
  | h :: t => Possible notify h t ∧ Plausible notify t

end Cinit.Spec
