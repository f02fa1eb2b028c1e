import Verif.Spec.History
import Verif.Model.Logging
/-!
# Reading the log

What doc/README.md, section Logging, says about the format: each line is
`<TIMESTAMP> <LEVEL> [<NAME>] <MESSAGE>`, where the name is `cinit` or that of a program.
-/

namespace Cinit.Spec

open Cinit Logging

/-- The lines of a text, without what follows the last line feed. -/
def logLines : Str → List Str
  | [] => []
  | c :: t =>
    if c = '\n' then [] :: logLines t
    else match logLines t with
      | [] => []
      | l :: ls => (c :: l) :: ls

/-- The text before and after the first occurrence of a character. -/
def cut (c : Char) (s : Str) : Str × Str :=
  (s.takeWhile (· ≠ c), (s.dropWhile (· ≠ c)).drop 1)

/-- What a line of the log says. -/
structure Shown where
  level : Str
  name : Str
  message : Str
  deriving DecidableEq, Repr

/-- A line taken apart as documented. -/
def readLine (line : Str) : Option Shown :=
  let afterTime := (cut ' ' line).2
  let level := (cut ' ' afterTime).1
  match (cut ' ' afterTime).2 with
  | '[' :: rest =>
    match (cut ']' rest).2 with
    | ' ' :: message => some ⟨level, (cut ']' rest).1, message⟩
    | _ => none
  | _ => none

/-- The messages a reader of the log finds under a name. -/
def messagesUnder (name : Str) (log : Str) : List Str :=
  (logLines log).filterMap fun l =>
    match readLine l with
    | some s => if s.name = name then some s.message else none
    | none => none

/-- What is to be shown for an entry. -/
def view : Entry → Shown
  | .program _ name text => ⟨"INFO".toList, name, text⟩
  | .own _ msg => ⟨msg.level.show, "cinit".toList, msg.text⟩

/-- How verbose messages are to be shown, by the number of `-v`. -/
def wanted (verbosity : Nat) : Level → Bool
  | .error | .warn | .info => true
  | .debug => verbosity = 1 ∨ verbosity = 2
  | .trace => verbosity = 2

/-- On which stream an entry is to be shown. -/
def shownOn (verbosity : Nat) (s : Stream) : Entry → Bool
  | .program out _ _ => (if out then Stream.stdout else .stderr) = s
  | .own _ msg => s = .stdout ∧ wanted verbosity msg.level

/-- The program's lines in a history, in the order they were logged. -/
def programEntries : Log → List Entry
  | [] => []
  | .line o n t :: l => programEntries l ++ [.program o n t]
  | _ :: l => programEntries l

def ofProgram : Entry → Bool
  | .program .. => true
  | .own .. => false

/-- The texts that arrived at the notify socket. -/
def textsReceived : Log → List Str
  | [] => []
  | .datagram _ t :: l => t :: textsReceived l
  | _ :: l => textsReceived l

/-- The entries fit the history of a run of programs with these names: the lines of the programs
are those of the history, and the other messages are possible. -/
structure Accords (names : List Str) (log : Log) (es : List (Time × Entry)) : Prop where
  programs : (es.map (·.2)).filter ofProgram = programEntries log
  own : ∀ t target msg, (t, .own target msg) ∈ es → target ∈ ownTargets ∧
    Possible names (textsReceived log) msg

end Cinit.Spec
