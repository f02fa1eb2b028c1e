import Verif.Spec.History
import Verif.Spec.Service
/-!
# Who holds the output streams of programs, and what is written to them

A history of cinit interleaved with what other processes do with the output streams of programs.
A process started by cinit holds the writing ends of its two streams and no others (C64, C68); they
are inherited by the processes it creates. What is written waits until cinit reads it, pipe(7),
pty(7). If the stream is a terminal, what the terminal makes of the bytes counts as what is written.
-/

namespace Cinit.Spec

open Cinit

/-- The ways by which others turn to cinit itself. -/
inductive Door where
  /-- the signal descriptor -/
  | signals
  /-- the status socket, waiting for clients -/
  | clients
  /-- the notify socket -/
  | messages
  deriving DecidableEq, Repr

/-- Something cinit does or notices, or something other processes do. Streams are named by the
descriptors of cinit's ends of them. -/
inductive Act where
  | cinit (e : Event)
  /-- a process creates another one, which inherits the streams -/
  | forks (p c : Int)
  /-- a process hands a stream to another one -/
  | passes (p q fd : Int)
  /-- a process closes a stream, or replaces it -/
  | closes (q fd : Int)
  /-- a process ends -/
  | ends (q : Int)
  /-- a process writes to a stream -/
  | writes (q fd : Int) (bytes : List Nat)
  /-- a signal, a client or a message arrives -/
  | arrives (door : Door)
  deriving DecidableEq, Repr

/-- Everything in the order it happens, newest first. -/
abbrev Play := List Act

/-- The part of it that concerns cinit. -/
def Play.log : Play → Log
  | [] => []
  | .cinit e :: t => e :: Play.log t
  | _ :: t => Play.log t

/-- Process `q` can write to the stream. -/
def holds (q fd : Int) : Play → Prop
  | [] => False
  | .cinit (.spawned _ p o r) :: t => (q = p ∧ (fd = o ∨ fd = r)) ∨ (q ≠ p ∧ holds q fd t)
  | .forks p c :: t => (q = c ∧ holds p fd t) ∨ (q ≠ c ∧ holds q fd t)
  | .passes _ q' g :: t => (q = q' ∧ fd = g) ∨ holds q fd t
  | .closes q' g :: t => ¬ (q = q' ∧ fd = g) ∧ holds q fd t
  | .ends q' :: t => q ≠ q' ∧ holds q fd t
  | _ :: t => holds q fd t

/-- What has been written to the stream and not been read yet. -/
def buffer (fd : Int) : Play → List Nat
  | [] => []
  | .writes _ g bytes :: t => if g = fd then buffer fd t ++ bytes else buffer fd t
  | .cinit (.chunk g bytes) :: t =>
    if g = fd then (buffer fd t).drop bytes.length else buffer fd t
  | _ :: t => buffer fd t

/-- What the kernel guarantees: only those who hold a stream can write to it and hand it on, what
is read is the beginning of what has been written, a stream it reports on is said to have something
to be read if it has, and to have ended only if nobody can write to it any more. -/
def Honest (a : Act) (t : Play) : Prop :=
  match a with
  | .cinit (.chunk fd bytes) => bytes <+: buffer fd t
  | .cinit (.polled evs) => ∀ ev ∈ evs, ∀ y, stream t.log ev.fd = some y →
      (buffer ev.fd t ≠ [] → ev.inp = true) ∧ (ev.hup = true → ∀ q, ¬ holds q ev.fd t)
  | .passes p _ fd => holds p fd t
  | .writes q fd _ => holds q fd t
  | _ => True

/-- The kernel has kept its guarantees all the time. -/
def Orderly : Play → Prop
  | [] => True
  | a :: t => Honest a t ∧ Orderly t

/-- Everything any process has written to the given output stream of program `i`, oldest first. -/
def outputOf (i : Nat) (out : Bool) : Play → List Nat
  | [] => []
  | .writes _ fd bytes :: t =>
    if stream (Play.log t) fd = some (i, out) then outputOf i out t ++ bytes else outputOf i out t
  | _ :: t => outputOf i out t

/-- Everything any process has written to the stream with this descriptor, oldest first. -/
def writtenTo (fd : Int) : Play → List Nat
  | [] => []
  | .writes _ g bytes :: t => if g = fd then writtenTo fd t ++ bytes else writtenTo fd t
  | _ :: t => writtenTo fd t

/-- Everything cinit has read from the stream with this descriptor, oldest first. -/
def readFrom (fd : Int) : Log → List Nat
  | [] => []
  | .chunk g bytes :: l => if g = fd then readFrom fd l ++ bytes else readFrom fd l
  | _ :: l => readFrom fd l

end Cinit.Spec
