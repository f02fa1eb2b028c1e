import Verif.Model.Config
/-!
# What the dependency declarations mean
-/

namespace Cinit.Spec

open Cinit

/-- Program number `j` must wait for program number `i`: `i` lists `j` under `before`, or `j`
lists `i` under `after`. -/
def DependsOn (ps : List ProcessConfig) (i j : Nat) : Prop :=
  ∃ ci cj, ps[i]? = some ci ∧ ps[j]? = some cj ∧ (cj.name ∈ ci.before ∨ ci.name ∈ cj.after)

/-- Every name mentioned under `before`/`after` is configured. -/
def RefsKnown (ps : List ProcessConfig) : Prop :=
  ∀ c ∈ ps, ∀ n, n ∈ c.before ∨ n ∈ c.after → ∃ c' ∈ ps, c'.name = n

/-- No `after` entry names a cronjob. -/
def NoAfterCron (ps : List ProcessConfig) : Prop :=
  ∀ c ∈ ps, ∀ n ∈ c.after, ∀ c' ∈ ps, c'.name = n → ∀ t, c'.ptype ≠ .cronJob t

/-- The precedence relation has no cycle. -/
def Acyclic (ps : List ProcessConfig) : Prop :=
  ∀ i, ¬ Relation.TransGen (DependsOn ps) i i

/-- Unique program names. -/
def UniqueNames (ps : List ProcessConfig) : Prop := (ps.map (·.name)).Nodup

end Cinit.Spec

namespace Cinit.Spec

open Cinit

/-- The same relation between program names. -/
def NameDependsOn (ps : List ProcessConfig) (a b : Str) : Prop :=
  ∃ ca ∈ ps, ∃ cb ∈ ps, ca.name = a ∧ cb.name = b ∧ (b ∈ ca.before ∨ a ∈ cb.after)

/-- What happens to a dependency manager: a program is reported finished, or the next
runnable program is asked for. -/
inductive DepOp where
  | finish (i : Nat)
  | pop
  deriving DecidableEq, Repr

end Cinit.Spec
