import Verif.Spec.Streams
/-!
# How much there is for cinit to do

On top of the histories of `Spec/Streams.lean`: what arrives, and how often cinit is woken up.
-/

namespace Cinit.Spec

open Cinit

/-- Signals, clients or messages that have arrived and not been taken. A client that is accepted but
cannot be answered still counts. -/
def waiting (k : Door) : Play → Nat
  | [] => 0
  | .arrives k' :: t => if k' = k then waiting k t + 1 else waiting k t
  | .cinit (.signal _) :: t => if k = .signals then waiting k t - 1 else waiting k t
  | .cinit (.report _) :: t => if k = .clients then waiting k t - 1 else waiting k t
  | .cinit (.received _) :: t => if k = .messages then waiting k t - 1 else waiting k t
  | _ :: t => waiting k t

/-- What the kernel guarantees besides `Honest`: nothing is taken that has not arrived, reading what
has been announced yields something, and what is reported is something to be read or the end of
a stream. -/
def Prompt (a : Act) (t : Play) : Prop :=
  match a with
  | .cinit (.signal _) => 0 < waiting .signals t
  | .cinit (.report _) => 0 < waiting .clients t
  | .cinit (.received _) => 0 < waiting .messages t
  | .cinit (.chunk _ bytes) => bytes ≠ []
  | .cinit (.polled evs) => ∀ ev ∈ evs, ev.inp = true ∨
      (ev.hup = true ∧ ∃ y, stream t.log ev.fd = some y)
  | _ => True

/-- The kernel has kept these guarantees all the time. -/
def Reliable : Play → Prop
  | [] => True
  | a :: t => (Honest a t ∧ Prompt a t) ∧ Reliable t

/-- Further: if there is something to be read from a registered stream, or nobody can write to it any
more, the kernel reports something. -/
def Punctual (d : Inlets) : Play → Prop
  | [] => True
  | .cinit (.polled evs) :: t => ((∃ fd y, stream (Play.log t) fd = some y ∧
      listening d (Play.log t) fd ∧
      (buffer fd t ≠ [] ∨ ∀ q, ¬ holds q fd t)) → evs ≠ []) ∧ Punctual d t
  | _ :: t => Punctual d t

/-- What comes in: each signal, client, message and byte counts once, each program started twice, for
the ends of its two output streams. -/
def inflow : Play → Nat
  | [] => 0
  | .arrives _ :: t => inflow t + 1
  | .writes _ _ bytes :: t => inflow t + bytes.length
  | .cinit (.spawned _ _ _ _) :: t => inflow t + 2
  | _ :: t => inflow t

/-- The number of times cinit was woken up before its time was up. -/
def wakes : Log → Nat
  | [] => 0
  | .polled evs :: l => if evs = [] then wakes l else wakes l + 1
  | _ :: l => wakes l

/-- The number of times reading, accepting or answering has failed. -/
def failures : Log → Nat
  | [] => 0
  | .failed :: l => failures l + 1
  | _ :: l => failures l

/-- The number of times cinit has gone on after waiting, whether woken up or not. -/
def rounds : Log → Nat
  | [] => 0
  | .polled _ :: l => rounds l + 1
  | _ :: l => rounds l

/-- The descriptors of open output streams. -/
def openStreams : Log → List Int
  | [] => []
  | .spawned _ _ o r :: l => o :: r :: openStreams l
  | .hangup g :: l => (openStreams l).filter (· ≠ g)
  | _ :: l => openStreams l

/-- What is left to be done: what has arrived, what has been written, and the ends of open
streams. -/
def backlog (t : Play) : Nat :=
  waiting .signals t + waiting .clients t + waiting .messages t +
    ((openStreams t.log).map fun fd => (buffer fd t).length + 1).sum

end Cinit.Spec
