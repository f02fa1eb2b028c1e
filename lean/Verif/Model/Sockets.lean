import Verif.Base.Res
/-!
# Model of how cinit sets up its sockets

`src/analyse/process_manager_builder.rs`: lines 110-115 (`setup_file_descriptors`), 125-133
(`setup_signal_handler`), 138-171 (`setup_unix_socket`).

Every system call may be refused by the kernel for reasons of its own: the answers are a list,
`none` meaning that the kernel does not object beyond what is modelled here; a list that is used
up does not object either.
-/

namespace Cinit.Sockets

/-- What a path may refer to. -/
inductive Node where
  | directory
  | other
  | socket (id mode : Nat)
  deriving DecidableEq, Repr

/-- A socket. -/
structure Sock where
  stream : Bool
  passCred : Bool := false
  listening : Bool := false
  deriving DecidableEq, Repr

/-- The part of the system concerned. -/
structure State where
  nodes : Str → Option Node
  /-- sockets ever created, by number -/
  socks : List Sock := []
  /-- sockets cinit holds a descriptor of -/
  held : List Nat := []
  /-- blocked signals -/
  mask : List Nat := []
  umask : Nat := 0o022
  answers : List (Option Nat) := []
  /-- what was logged (level `DEBUG`) -/
  messages : List Str := []

/-- Outcome; errors are numbers as in `errno.h`. -/
inductive Ret (α : Type) where
  | ok (a : α) (s : State)
  | err (e : Nat) (s : State)

/-- The monad of the set-up. -/
def S (α : Type) := State → Ret α

namespace S

def pure {α : Type} (a : α) : S α := fun s => .ok a s

def bind {α β : Type} (x : S α) (f : α → S β) : S β := fun s =>
  match x s with
  | .ok a s' => f a s'
  | .err e s' => .err e s'

instance : Monad S where
  pure := S.pure
  bind := S.bind

end S

/-- A system call, `act` being what the kernel does if it does not refuse. -/
def sys {α : Type} (act : State → Except Nat (α × State)) : S α := fun s =>
  match s.answers.headD none with
  | some e => .err e { s with answers := s.answers.tail }
  | none =>
    match act s with
    | .error e => .err e { s with answers := s.answers.tail }
    | .ok (a, s') => .ok a { s' with answers := s.answers.tail }

def eNoEnt : Nat := 2
def eIsDir : Nat := 21
def eAddrInUse : Nat := 98

def State.put (s : State) (path : Str) (n : Option Node) : State :=
  { s with nodes := fun p => if p = path then n else s.nodes p }

/-- `unlink(2)` -/
def unlink (path : Str) : S Unit := sys fun s =>
  match s.nodes path with
  | none => .error eNoEnt
  | some .directory => .error eIsDir
  | some _ => .ok ((), s.put path none)

/-- `socket(2)` -/
def socket (stream : Bool) : S Nat := sys fun s =>
  .ok (s.socks.length, { s with socks := s.socks ++ [{ stream := stream }],
                                held := s.socks.length :: s.held })

/-- `bind(2)`: the mode is limited by the file mode creation mask. -/
def bind (id : Nat) (path : Str) : S Unit := sys fun s =>
  match s.nodes path with
  | some _ => .error eAddrInUse
  | none => .ok ((), s.put path (some (.socket id (0o777 - (0o777 &&& s.umask)))))

/-- `chmod(2)` -/
def chmod (path : Str) (mode : Nat) : S Unit := sys fun s =>
  match s.nodes path with
  | none => .error eNoEnt
  | some (.socket id _) => .ok ((), s.put path (some (.socket id mode)))
  | some _ => .ok ((), s)

/-- Changing a socket. -/
def State.change (s : State) (id : Nat) (f : Sock → Sock) : State :=
  { s with socks := s.socks.modify id f }

/-- `setsockopt(SO_PASSCRED, true)` -/
def setPassCred (id : Nat) : S Unit := sys fun s =>
  .ok ((), s.change id fun x => { x with passCred := true })

/-- `listen(2)` -/
def listen (id : Nat) : S Unit := sys fun s =>
  .ok ((), s.change id fun x => { x with listening := true })

/-- Dropping the `OwnedFd` of a socket. -/
def State.drop (s : State) (id : Nat) : State := { s with held := s.held.erase id }

/-- process_manager_builder.rs:139-142: a path that does not exist is fine. -/
def removeFile (path : Str) : S Unit := fun s =>
  match unlink path s with
  | .err e s' => if e = eNoEnt then .ok () s' else .err e s'
  | r => r

/-- process_manager_builder.rs:151-168: everything after `socket`. -/
def offer (path : Str) (stream : Bool) (id : Nat) : S Unit := do
  bind id path
  chmod path 0o777
  setPassCred id
  if stream then listen id else pure ()

/-- process_manager_builder.rs:138-171 `setup_unix_socket`. The descriptor is dropped if a call
fails. -/
def setupUnixSocket (path : Str) (stream : Bool) : S Nat := do
  removeFile path
  let id ← socket stream
  fun s =>
    match offer path stream id s with
    | .ok _ s' =>
      .ok id { s' with messages := s'.messages ++ [path ++ " unix domain socket open".toList] }
    | .err e s' => .err e (s'.drop id)

/-- Signal numbers. -/
def sigChld : Nat := 17
def sigInt : Nat := 2
def sigTerm : Nat := 15
def sigQuit : Nat := 3

/-- process_manager_builder.rs:125-133 `setup_signal_handler`: the signals of the descriptor. -/
def setupSignalHandler : S (List Nat) := do
  let signals := [sigChld, sigInt, sigTerm, sigQuit]
  sys fun s => .ok ((), { s with mask := s.mask ++ signals })
  sys fun s => .ok (signals, s)

/-- process_manager_builder.rs:65 -/
def statusPath : Str := "/run/cinit.socket".toList

/-- process_manager_builder.rs:68 -/
def notifyPath : Str := "/run/cinit-notify.socket".toList

/-- process_manager_builder.rs:110-115 `setup_file_descriptors`: the signals of the signal
descriptor, and the sockets. If the last step fails, the socket of the one before is dropped. -/
def setupFileDescriptors : S (List Nat × Nat × Nat) := do
  let signals ← setupSignalHandler
  let status ← setupUnixSocket statusPath true
  fun s =>
    match setupUnixSocket notifyPath false s with
    | .ok notify s' => .ok (signals, status, notify) s'
    | .err e s' => .err e (s'.drop status)

end Cinit.Sockets
