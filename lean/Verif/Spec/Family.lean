import Verif.Spec.Timeline
/-!
# Who is told of the end of a process

A history of cinit interleaved with what becomes of processes: they create others, end, and are
reaped by their parents. The parent of a process whose parent ends is cinit from then on, since
cinit has declared itself a reaper (`PR_SET_CHILD_SUBREAPER`,
src/runtime/process_manager/mod.rs:213-222).
-/

namespace Cinit.Spec

open Cinit

/-- Something cinit does or notices, or something that happens to other processes. -/
inductive Deed where
  | cinit (e : Event)
  /-- a process creates another one -/
  | forks (p c : Int)
  /-- a process ends -/
  | ends (q : Int)
  /-- a process other than cinit waits for its child -/
  | reaps (p c : Int)
  deriving DecidableEq, Repr

/-- Everything in the order it happens, newest first. -/
abbrev Saga := List Deed

/-- The part of it that concerns cinit. -/
def Saga.log : Saga → Log
  | [] => []
  | .cinit e :: t => e :: Saga.log t
  | _ :: t => Saga.log t

inductive Parent where
  | cinit
  | other (p : Int)
  deriving DecidableEq, Repr

/-- The parent of a process that has been started below cinit and not been reaped. -/
def parent (q : Int) : Saga → Option Parent
  | [] => none
  | .cinit (.spawned _ p _ _) :: t => if p = q then some .cinit else parent q t
  | .cinit (.waited p _ _) :: t => if p = q then none else parent q t
  | .cinit (.lost p _) :: t => if p = q then none else parent q t
  | .cinit _ :: t => parent q t
  | .forks p c :: t => if c = q then some (.other p) else parent q t
  | .ends p :: t => if parent q t = some (.other p) then some .cinit else parent q t
  | .reaps _ c :: t => if c = q then none else parent q t

/-- The process has ended and nobody has waited for it. -/
def zombie (q : Int) : Saga → Bool
  | [] => false
  | .ends p :: t => p = q || zombie q t
  | .cinit (.waited p _ _) :: t => p ≠ q && zombie q t
  | .cinit (.lost p _) :: t => p ≠ q && zombie q t
  | .reaps _ c :: t => c ≠ q && zombie q t
  | _ :: t => zombie q t

/-- What the kernel guarantees: ids of existing processes are not given to new ones, processes end
once, only parents wait for their children, only for those that have ended, and cinit is told that
there is no further one only if there is none. -/
def Natural (d : Deed) (t : Saga) : Prop :=
  match d with
  | .cinit (.spawned _ p _ _) => parent p t = none
  | .cinit (.waited q _ _) => parent q t = some .cinit ∧ zombie q t = true
  | .cinit (.lost q _) => parent q t = some .cinit ∧ zombie q t = true
  | .cinit .reaped => ∀ q, parent q t = some .cinit → zombie q t = false
  | .cinit _ => True
  | .forks p c => (parent p t).isSome = true ∧ zombie p t = false ∧ parent c t = none ∧ p ≠ c
  | .ends q => (parent q t).isSome = true ∧ zombie q t = false
  | .reaps p c => parent c t = some (.other p) ∧ zombie c t = true

/-- The kernel has kept its guarantees all the time. -/
def Lawful : Saga → Prop
  | [] => True
  | d :: t => Natural d t ∧ Lawful t

/-- The process is there and has not ended. -/
def Lives (q : Int) (t : Saga) : Prop := (parent q t).isSome = true ∧ zombie q t = false

end Cinit.Spec
