import Verif.Model.Sockets
/-!
# Specification: sockets everybody can use
-/

namespace Cinit.Spec

open Cinit Sockets

/-- At the path there is the socket `id`, everybody may use it, senders are identified, and
cinit holds it. -/
structure Offered (s : State) (path : Str) (id : Nat) (stream : Bool) : Prop where
  node : s.nodes path = some (.socket id 0o777)
  sock : s.socks[id]? = some { stream := stream, passCred := true, listening := stream }
  held : id ∈ s.held

/-- The kernel does not object to anything on its own account. -/
def Willing (s : State) : Prop := ∀ a ∈ s.answers, a = none

/-- Something stands in the way of the sockets, and the kernel calls it `e`: a directory is at one
of the paths (21, `EISDIR`), or the kernel objects on its own account. (Only if it denies the
existence of a file there is one, it may find the path in use, 98, `EADDRINUSE`.) -/
def SocketTrouble (s : State) (e : Nat) : Prop :=
  (e = 21 ∧ (s.nodes "/run/cinit.socket".toList = some .directory ∨
    s.nodes "/run/cinit-notify.socket".toList = some .directory)) ∨
  ¬ Willing s ∧ (some e ∈ s.answers ∨ e = 98)

end Cinit.Spec
