import Verif.Model.Manager
/-!
# Model of how a status report is sent

`src/runtime/process_manager/status_reporter.rs`: lines 42-94 (`write_report`, `format_report`),
write by write, together with what a client may do meanwhile. In `Model/Manager.lean` this is one
answer of the kernel.

The connection is a stream socket in blocking mode: `write(2)` waits until there is room, fails
(`EPIPE`) if the client has closed the connection, and is never interrupted, signals being blocked.
-/

namespace Cinit.Status

open Cinit Manager

/-- What happens on a connection: the client reads up to a number of bytes, closes the connection,
or cinit gets its turn. -/
inductive Move where
  | read (n : Nat)
  | close
  | cinit
  deriving DecidableEq, Repr

/-- A connection. The kernel keeps what has been written and not been read, and admits the next
write if what it keeps uses less memory than `capacity` (`sk_sndbuf`); every write needs
`overhead` in addition to its bytes. -/
structure Conn where
  capacity : Nat
  overhead : Nat
  queue : List (List Nat) := []
  received : List Nat := []
  closed : Bool := false
  deriving DecidableEq, Repr

namespace Conn

/-- The memory in use. -/
def used (c : Conn) : Nat := (c.queue.map fun b => b.length + c.overhead).sum

/-- The client reads up to `n` bytes: the bytes read and what is left. -/
def take : Nat → List (List Nat) → List Nat × List (List Nat)
  | _, [] => ([], [])
  | n, b :: bs =>
    if n = 0 then ([], b :: bs)
    else if b.length ≤ n then
      let r := take (n - b.length) bs
      (b ++ r.1, r.2)
    else (b.take n, b.drop n :: bs)

def read (c : Conn) (n : Nat) : Conn :=
  let r := take n c.queue
  { c with queue := r.2, received := c.received ++ r.1 }

/-- The kernel takes what is written. -/
def push (c : Conn) (b : List Nat) : Conn := { c with queue := c.queue ++ [b] }

end Conn

/-- How sending a report ends: it is sent, a write fails, or cinit waits forever. -/
inductive Outcome where
  | sent (c : Conn)
  | broken (c : Conn)
  | blocked (c : Conn)
  deriving DecidableEq, Repr

/-- The writes, one after the other, in the course of `moves`; after them the client does nothing
any more and keeps the connection open. -/
def serve : List (List Nat) → List Move → Conn → Outcome
  | [], _, c => .sent c
  | b :: bs, [], c =>
    if c.closed then .broken c
    else if c.used < c.capacity then serve bs [] (c.push b)
    else .blocked c
  | b :: bs, .read n :: ms, c => serve (b :: bs) ms (if c.closed then c else c.read n)
  | b :: bs, .close :: ms, c => serve (b :: bs) ms { c with closed := true }
  | b :: bs, .cinit :: ms, c =>
    if c.closed then .broken c
    else if c.used < c.capacity then serve bs ms (c.push b)
    else serve (b :: bs) ms c
  termination_by bs ms => bs.length + ms.length

/-- `write_fmt` with the pieces of a format string and its arguments: every non-empty one is a
`write_all`. -/
def writes (pieces : List Str) : List Str := pieces.filter (· ≠ [])

/-- `Display` of an integer: a sign is a write of its own. -/
def numberPieces : Int → List Str
  | .ofNat n => [showNat n]
  | .negSucc n => [['-'], showNat (n + 1)]

/-- status_reporter.rs:57-61 -/
def headPieces (p : Process) : List Str :=
  ["  - name: '".toList, p.name, "'\n    state: '".toList, p.state.show, "'\n".toList]

/-- status_reporter.rs:63-66 -/
def statusPieces (p : Process) : List Str :=
  if p.status.isEmpty then [] else ["    status: ".toList, p.status, ['\n']]

/-- status_reporter.rs:68-78 -/
def codePieces (p : Process) : List Str :=
  match p.state with
  | .done => ["    exit_code: 0\n".toList]
  | .crashed rc => ["    exit_code: ".toList] ++ numberPieces rc ++ [['\n']]
  | _ => []

/-- status_reporter.rs:80-83 -/
def pidPieces (m : Manager) (p : Process) : List Str :=
  match m.processIdForPid p.pid with
  | some _ => ["    pid: ".toList] ++ numberPieces p.pid ++ [['\n']]
  | none => []

/-- status_reporter.rs:57-91: the writes about one program -/
def programPieces (env : Env) (m : Manager) (id : Nat) (p : Process) : Res Empty (List Str) :=
  let pieces := headPieces p ++ statusPieces p ++ codePieces p ++ pidPieces m p
  if p.ptype = .cronjob then
    m.cron.nextExecution id >>= fun t =>
    .ok (writes (pieces ++ ["    scheduled_at: '".toList, env.rfc3339 t, "'\n".toList]))
  else .ok (writes pieces)

/-- status_reporter.rs:56: the loop, starting with the program at index `id` -/
def programsPieces (env : Env) (m : Manager) : Nat → List Process → Res Empty (List Str)
  | _, [] => .ok []
  | id, p :: ps =>
    programPieces env m id p >>= fun s =>
    programsPieces env m (id + 1) ps >>= fun rest => .ok (s ++ rest)

/-- status_reporter.rs:53-94 `format_report` -/
def reportPieces (env : Env) (m : Manager) : Res Empty (List Str) :=
  programsPieces env m 0 m.procs >>= fun s => .ok ("programs:\n".toList :: s)

/-- status_reporter.rs:35-50 `report_status`, `write_report` once a client is accepted. The
connection is closed twice in the end (`close` and the destructor of `File`); the second time
this fails without consequences, as nothing has been opened in between. A call that never returns
is one without answer. -/
def reportStatus (env : Env) (encode : Str → List Nat) (moves : List Move) (c : Conn) : M Unit :=
  fun w =>
  match reportPieces env w.mgr with
  | .panic p => .panic p w
  | .ok pieces =>
    match serve (pieces.map encode) moves c with
    | .sent _ => .ok () { w with log := .report pieces.flatten :: w.log }
    | .broken _ => .ok () { w with log := .failed :: w.log }
    | .blocked _ => .stuck w

end Cinit.Status
