import Verif.Model.Main
import Verif.Spec.Config
import Verif.Spec.CronExpr
import Verif.Spec.DepGraph
import Verif.Spec.Environment
/-!
# Preconditions and validity of configurations

Written from doc/Integration.md ("Exit Codes") and doc/README.md.
-/

namespace Cinit.Spec

open Cinit

/-- The release text of the kernel starts with the version `major.minor`, the end of the text or
another dot follows. -/
def Release (text : Str) (major minor : Nat) : Prop :=
  ∃ a b, LooseNum a major ∧ LooseNum b minor ∧ major < 2 ^ 32 ∧ minor < 2 ^ 32 ∧
    (text = a ++ '.' :: b ∨ ∃ rest, text = a ++ '.' :: b ++ '.' :: rest)

/-- A version older than 4.3 -/
def Old (major minor : Nat) : Prop := major < 4 ∨ (major = 4 ∧ minor < 3)

/-- cinit must not run: it is not root, or the kernel is known to be too old. -/
def Refused (release : Option Str) (uid : Nat) : Prop :=
  uid ≠ 0 ∨ ∃ text major minor, release = some text ∧ Release text major minor ∧ Old major minor

/-- The program cannot be run by itself. -/
def Unbuildable (s : Surroundings) (c : ProcessConfig) : Prop :=
  (c.ptype.isCron = true ∧ c.before ≠ []) ∨
  (∀ user, ¬ Resolved s.userById s.userByName c.uid c.user user) ∨
  (∀ group, ¬ Resolved s.groupById s.groupByName c.gid c.group group) ∨ c.path = none

/-- The configuration makes no sense: a program cannot be run, the dependencies are unknown,
contradictory or wait for a cronjob, or a cronjob's expression is malformed. -/
def Invalid (s : Surroundings) (ps : List ProcessConfig) : Prop :=
  (∃ c ∈ ps, Unbuildable s c) ∨ ¬ RefsKnown ps ∨ ¬ NoAfterCron ps ∨ ¬ Acyclic ps ∨
  ∃ c ∈ ps, ∃ expr why, c.ptype = .cronJob expr ∧ TimerWrong expr why

/-- The configuration cannot be read. -/
def Unreadable (yaml : Str → Option Config) (tree : FileTree) : Prop :=
  HasUnreadable tree ∨ ∃ p content, FileAt tree p content ∧ yaml content = none

/-- All program entries of a tree of readable files, file by file, in some order. -/
def AllEntries (yaml : Str → Option Config) (tree : FileTree) (es : List ProcessConfig) : Prop :=
  ∃ fs : List (List Nat × Str), fs.Nodup ∧ (∀ p c, (p, c) ∈ fs ↔ FileAt tree p c) ∧
    es = fs.flatMap (fun f => ((yaml f.2).map (·.programs)).getD [])

end Cinit.Spec
