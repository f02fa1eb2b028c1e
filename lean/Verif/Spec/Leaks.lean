import Verif.Model.Descriptors
import Verif.Spec.Supervision
/-!
# The descriptors of cinit in the course of a run
-/

namespace Cinit.Spec

open Cinit Descr

/-- Events that have nothing to do with opening and closing descriptors. -/
def handsOff : Event → Bool
  | .spawned _ _ _ _ | .spawnFailed _ | .hangup _ | .report _ | .failed => false
  | _ => true

/-- The descriptors of cinit after a history of the event loop, if they were those of `d0` at its
beginning: each event comes with the operations on descriptors of the function behind it
(`Model/Descriptors.lean`). -/
inductive Follows (d0 : State) : Log → State → Prop where
  | begin : Follows d0 [] d0
  | spawned {l : Log} {d d' : State} {a : StartAnswer} {c : Files} {o e : Pipe} {i : Nat} {p : Int}
      (h : Follows d0 l d) (hs : Step d (.start a) d')
      (hr : (Descr.start d.files a).2 = some (c, o, e)) :
      Follows d0 (.spawned i p o.readFd e.readFd :: l) d'
  | spawnFailed {l : Log} {d d' : State} {a : StartAnswer} {i : Nat}
      (h : Follows d0 l d) (hs : Step d (.start a) d') (hr : (Descr.start d.files a).2 = none) :
      Follows d0 (.spawnFailed i :: l) d'
  | hangup {l : Log} {d d' : State} {n : Nat} (h : Follows d0 l d) (hs : Step d (.hangup n) d') :
      Follows d0 (.hangup n :: l) d'
  /-- hanging up on a descriptor that is no stream -/
  | ignored {l : Log} {d : State} {fd : Int} (h : Follows d0 l d)
      (hn : ∀ n : Nat, fd = n → n ∉ d.streams) : Follows d0 (.hangup fd :: l) d
  | report {l : Log} {d d' : State} {fd object : Nat} {text : Str} (h : Follows d0 l d)
      (hs : Step d (.report fd object) d') : Follows d0 (.report text :: l) d'
  /-- a status report fails after the client has been accepted -/
  | broken {l : Log} {d d' : State} {fd object : Nat} (h : Follows d0 l d)
      (hs : Step d (.report fd object) d') : Follows d0 (.failed :: l) d'
  | failed {l : Log} {d : State} (h : Follows d0 l d) : Follows d0 (.failed :: l) d
  | other {l : Log} {d : State} {e : Event} (h : Follows d0 l d) (he : handsOff e = true) :
      Follows d0 (e :: l) d

end Cinit.Spec
