import Verif.Model.World
import Verif.Spec.Utf8
/-!
# What programs write, and everything else
-/

namespace Cinit.Spec

open Cinit

/-- Bytes that fit into the buffer of `read`. -/
def Readable (bytes : List Nat) : Prop := bytes.length ≤ 4096 ∧ ∀ b ∈ bytes, b < 256

/-- The same answer of the kernel, except for the bytes some program has written. -/
inductive SameButOutput : Answer → Answer → Prop
  | same (a : Answer) : SameButOutput a a
  | output (b c : List Nat) : Readable b → Readable c →
      SameButOutput (.read (some b)) (.read (some c))

/-- The same answer of the kernel, except that a client may go away before it has read its report,
or stay. -/
inductive SameButClients : Answer → Answer → Prop
  | same (a : Answer) : SameButClients a a
  | client (b c : Bool) : SameButClients (.accept (some b)) (.accept (some c))

/-- Events, without the lines that are logged for programs, and without the bytes they have
written. That there was something to read remains. -/
def heardless : Event → Option Event
  | .chunk fd _ => some (.chunk fd [])
  | .line .. => none
  | e => some e

/-- The history without what programs have written. -/
def unheard (l : Log) : Log := l.filterMap heardless

/-- Events, with failures in place of the reports. -/
def clientless : Event → Option Event
  | .report _ => some .failed
  | e => some e

/-- The history without what becomes of clients. -/
def unasked (l : Log) : Log := l.filterMap clientless

/-- The same answer of the kernel, except for the time of the clock. -/
inductive SameButTime : Answer → Answer → Prop
  | same (a : Answer) : SameButTime a a
  | time (t u : Int) : t ≤ chronoMax → u ≤ chronoMax → SameButTime (.now t) (.now u)

/-- Events, without the time of the clock. That it is read remains. -/
def timeless : Event → Option Event
  | .clock _ => some (.clock 0)
  | e => some e

/-- The history without the time of the clock. -/
def untimed (l : Log) : Log := l.filterMap timeless

/-- Bytes that can be received as a text without aborting cinit, see C47. -/
def Intelligible (bytes : List Nat) : Prop :=
  Readable bytes ∧ bytes ≠ [] ∧ ¬ (4096 ≤ bytes.length ∧ 0 ∉ bytes) ∧
    ∃ text, bytes.takeWhile (· ≠ 0) = encode text

/-- The same answer of the kernel, except for what messages say, and who sends them. -/
inductive SameButMessages : Answer → Answer → Prop
  | same (a : Answer) : SameButMessages a a
  | message (b c : List Nat) (q r : Int) : Intelligible b → Intelligible c →
      SameButMessages (.recv (some (b, some q))) (.recv (some (c, some r)))

/-- Events, without messages and their senders. That there were messages remains. -/
def wordless : Event → Option Event
  | .received _ => some (.received [])
  | .datagram _ _ => some (.datagram 0 [])
  | e => some e

/-- The history without what messages say and who sends them. -/
def unsaid (l : Log) : Log := l.filterMap wordless

end Cinit.Spec
