import Verif.Model.Config
/-!
# What loading a configuration should mean

Written from doc/README.md ("Merging configuration"); refers only to the configuration
entries themselves, not to the merging functions of the model.
-/

namespace Cinit.Spec

open Cinit

/-- The entries bearing a given name, in the order they were encountered. -/
def entriesOf (es : List ProcessConfig) (n : Str) : List ProcessConfig :=
  es.filter (fun e => e.name = n)

/-- The values given for an optional field. -/
def given {α : Type} (f : ProcessConfig → Option α) (es : List ProcessConfig) : List α :=
  es.filterMap f

/-- Two entries give the same single-valued field. -/
def DuplicateField (es : List ProcessConfig) : Prop :=
  2 ≤ (given (·.path) es).length ∨ 2 ≤ (given (·.workdir) es).length ∨
  2 ≤ (given (·.uid) es).length ∨ 2 ≤ (given (·.gid) es).length ∨
  2 ≤ (given (·.user) es).length ∨ 2 ≤ (given (·.group) es).length

/-- An entry without path declares a cronjob. -/
def CronDropin (es : List ProcessConfig) : Prop :=
  ∃ e ∈ es, e.path = none ∧ ∃ t, e.ptype = .cronJob t

/-- The entries of one program conflict. -/
def Conflict (es : List ProcessConfig) : Prop := DuplicateField es ∨ CronDropin es

/-- `p` is the entry that holds the path; `pre`/`post` are the drop-ins before/after it. -/
def PathHolder (es pre : List ProcessConfig) (p : ProcessConfig) (post : List ProcessConfig) :
    Prop :=
  es = pre ++ p :: post ∧ p.path.isSome ∧ ∀ e ∈ pre ++ post, e.path = none

/-- A regular file with the given content sits at the given position of the tree
(a position is the list of entry indices leading to it). -/
inductive FileAt : FileTree → List Nat → Str → Prop
  | here (c : Str) : FileAt (.file c) [] c
  | inside {es : List FileTree} {i : Nat} {t : FileTree} {p : List Nat} {c : Str} :
      es[i]? = some t → FileAt t p c → FileAt (.dir es) (i :: p) c

/-- Something unreadable sits somewhere in the tree. -/
inductive HasUnreadable : FileTree → Prop
  | here : HasUnreadable .unreadable
  | inside {es : List FileTree} {t : FileTree} : t ∈ es → HasUnreadable t →
      HasUnreadable (.dir es)

/-- A directory entry whose name is not UTF-8 sits somewhere in the tree. -/
inductive HasBadName : FileTree → Prop
  | here : HasBadName .badName
  | inside {es : List FileTree} {t : FileTree} : t ∈ es → HasBadName t →
      HasBadName (.dir es)

end Cinit.Spec
