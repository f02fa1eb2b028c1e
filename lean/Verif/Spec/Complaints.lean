import Verif.Model.Prologue
import Verif.Spec.Main
import Verif.Spec.Sockets
/-!
# What can be wrong when cinit starts, and how it is to be told

Written from doc/Integration.md ("Exit Codes"), doc/README.md and the wording of the messages.
A message is true if what it says about the kernel, the user, the files, the named program or the
sockets is so.
-/

namespace Cinit.Spec

open Cinit Logging

/-! ## Faults -/

/-- What the file tree holds at a position. -/
def nodeAt : FileTree → List Nat → Option FileTree
  | t, [] => some t
  | .dir es, i :: p => (es[i]?).bind fun t => nodeAt t p
  | _, _ :: _ => none

/-- The reasons for not starting. -/
inductive Fault where
  | oldKernel
  | notRoot
  /-- the position in the file tree, from the root -/
  | unreadable (pos : List Nat)
  | malformed (contents : List Str)
  | twice (program : Str)
  | doubled (program : Str) (field : MergeField)
  | cronDropin (program : Str)
  | cronBefore (program : Str)
  | identity (program : Str)
  | noPath (program : Str)
  | cycle (program : Str)
  | unknownAfter (dependency program : Str)
  | unknownBefore (dependency program : Str)
  | afterCron (program : Str)
  | timer (program : Str) (why : String)
  /-- the error as in `errno.h` -/
  | sockets (error : Nat)

namespace Fault

/-- The exit code, doc/Integration.md. -/
def code : Fault → Int
  | oldKernel | notRoot => 5
  | unreadable _ | malformed _ | twice _ | doubled _ _ | cronDropin _ => 1
  | _ => 2

/-- What is said. -/
def words (h : Herald) : Fault → List Str
  | oldKernel => ["Your kernel is older than 4.3. Ambient capabilities".toList,
      "are not supported on your kernel but are needed for".toList,
      "cinit to work properly. Aborting".toList]
  | notRoot => ["cinit is not running as root. This is".toList,
      "needed to switch users and capabilities".toList, "Aborting".toList]
  | unreadable pos =>
    [match h.failure pos.reverse with
    | .metadata => "Failed to read metadata of ".toList ++ h.path pos.reverse ++
        (": ".toList ++ h.ioError pos.reverse)
    | .listing => "Failed to get directory content of ".toList ++ h.path pos.reverse ++
        (": ".toList ++ h.ioError pos.reverse)
    | .entry => "Failed to read ".toList ++ h.path pos.dropLast.reverse ++
        (": ".toList ++ h.ioError pos.reverse)
    | .content => "Failed to read file ".toList ++ h.path pos.reverse ++
        (": ".toList ++ h.ioError pos.reverse)]
  | malformed cs => "Could not parse config: ".toList :: cs.map h.yamlError
  | twice n => ["Duplicate program found for name ".toList ++ n]
  | doubled n f => ["Configuration drop-in for ".toList ++ n ++
      (" contains duplicate field ".toList ++ match f with
        | .workdir => "workdir".toList
        | .uid => "uid".toList
        | .gid => "gid".toList
        | .user => "user".toList
        | .group => "group".toList)]
  | cronDropin n => ["Configuration drop-in for ".toList ++ n ++ " changes type to cronjob".toList]
  | cronBefore n => ["Program ".toList ++ n ++
      " contains error: Cronjobs may not have dependencies".toList]
  | identity n => ["Program ".toList ++ n ++ " contains error: User/Group config invalid".toList]
  | noPath n => ["Program ".toList ++ n ++ " contains error: Missing 'path' attribute".toList]
  | cycle n => ["Found cycle involving process '".toList ++ n ++ "'".toList]
  | unknownAfter d n => ["Unknown 'after' dependency '".toList ++ d ++
      ("' of program ".toList ++ n)]
  | unknownBefore d n => ["Unknown 'before' dependency '".toList ++ d ++
      ("' of program ".toList ++ n)]
  | afterCron n => ["Program ".toList ++ n ++
      " contains error: Depending on cronjobs is not allowed".toList]
  | timer n why => ["Timer parse error for program '".toList ++ n ++ ("': ".toList ++ why.toList)]
  | sockets e => ["Could not setup sockets: ".toList ++ h.socketError e]

/-- How often entries give a field. -/
def times (es : List ProcessConfig) : MergeField → Nat
  | .workdir => (given (·.workdir) es).length
  | .uid => (given (·.uid) es).length
  | .gid => (given (·.gid) es).length
  | .user => (given (·.user) es).length
  | .group => (given (·.group) es).length

/-- The programs that are configured. What they are is the subject of C01 to C06. -/
def Configured (x : Machine) (ps : List ProcessConfig) : Prop :=
  parseConfig x.yaml x.mergeOrder x.tree = .ok ⟨ps⟩

/-- A program of this name is configured and such that ... -/
def Of (x : Machine) (n : Str) (P : List ProcessConfig → ProcessConfig → Prop) : Prop :=
  ∃ ps, Configured x ps ∧ ∃ c ∈ ps, c.name = n ∧ P ps c

/-- The fault is there. -/
def Present (x : Machine) : Fault → Prop
  | oldKernel => ∃ text major minor, x.release = some text ∧ Release text major minor ∧
      Old major minor
  | notRoot => x.uid ≠ 0
  | unreadable pos => nodeAt x.tree pos = some .unreadable
  | malformed cs => cs ≠ [] ∧ ∀ c, c ∈ cs ↔ x.yaml c = none ∧ ∃ p, FileAt x.tree p c
  | twice n => ∃ es, AllEntries x.yaml x.tree es ∧ 2 ≤ (given (·.path) (entriesOf es n)).length
  | doubled n f => ∃ es, AllEntries x.yaml x.tree es ∧ 2 ≤ times (entriesOf es n) f
  | cronDropin n => ∃ es, AllEntries x.yaml x.tree es ∧ CronDropin (entriesOf es n)
  | cronBefore n => Of x n fun _ c => (∃ t, c.ptype = .cronJob t) ∧ c.before ≠ []
  | identity n => Of x n fun _ c =>
      (∀ user, ¬ Resolved x.surroundings.userById x.surroundings.userByName c.uid c.user user) ∨
      ∀ group, ¬ Resolved x.surroundings.groupById x.surroundings.groupByName c.gid c.group group
  | noPath n => Of x n fun _ c => c.path = none
  | cycle n => Of x n fun ps _ => Relation.TransGen (NameDependsOn ps) n n
  | unknownAfter d n => Of x n fun ps c => d ∈ c.after ∧ ∀ c' ∈ ps, c'.name ≠ d
  | unknownBefore d n => Of x n fun ps c => d ∈ c.before ∧ ∀ c' ∈ ps, c'.name ≠ d
  | afterCron n => Of x n fun ps c => ∃ c' ∈ ps, c'.name ∈ c.after ∧ ∃ t, c'.ptype = .cronJob t
  | timer n why => Of x n fun _ c => ∃ expr, c.ptype = .cronJob expr ∧ TimerWrong expr why
  | sockets e => SocketTrouble x.system e

/-- It is about dependencies between programs. -/
def InDependencies : Fault → Prop
  | cycle _ | unknownAfter _ _ | unknownBefore _ _ | afterCron _ => True
  | _ => False

end Fault

/-- The texts of the messages of a level. -/
def textsAt (l : Level) (rs : List Record) : List Str :=
  (rs.filter (fun r => decide (r.level = l))).map (·.message)

end Cinit.Spec
