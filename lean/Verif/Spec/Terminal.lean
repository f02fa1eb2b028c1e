import Verif.Model.Terminal
/-!
# What programs are promised about their terminals
-/

namespace Cinit.Spec

open Cinit Tty

/-- The bits of the number are these. -/
def Bits (n : Nat) (l : List Nat) : Prop := ∀ k, n.testBit k = true ↔ k ∈ l

/-- The settings of the terminal of a program: those of Linux, or, if cinit has got a terminal
itself, as cinit's, except for: breaks interrupt, parity is checked, input is stripped to seven
bits, carriage returns are read as line feeds, output can be stopped (`BRKINT`, `INPCK`, `ISTRIP`,
`ICRNL`, `IXON`); output is processed (`OPOST`); signals, line editing, echo and extensions (`ISIG`,
`ICANON`, `ECHO`, `IEXTEN`). -/
def Set (std : Termios) (own : Option Termios) (t : Termios) : Prop :=
  match own with
  | none => t = std
  | some o => Bits t.input [1, 4, 5, 8, 10] ∧ Bits t.output [0] ∧ Bits t.local_ [0, 1, 3, 15] ∧
      t.control = o.control ∧ t.chars = o.chars

/-- The terminal belongs to the user and group, who may read and write, respectively write, and
nobody else; it is as large as cinit's or 24 times 80, and set up. -/
structure Proper (std : Termios) (uid gid : Nat) (attr : Option Termios) (size : Option Size)
    (t : Pty) : Prop where
  uid : t.uid = uid
  gid : t.gid = gid
  mode : Bits t.mode [4, 7, 8]
  size : t.size = (match size with
    | some s => s
    | none => ⟨24, 80, 0, 0⟩)
  termios : Set std attr t.termios

/-- New terminals are new. -/
def NewPtys (k : List Pty) (a : Answers) : Prop :=
  (∀ n, a.pty1 = some n → ∀ t ∈ k, t.name ≠ n.name ∧ t.slave ≠ n.slave ∧ t.master ≠ n.master) ∧
  (∀ n, a.pty2 = some n → ∀ t ∈ k, t.name ≠ n.name ∧ t.slave ≠ n.slave ∧ t.master ≠ n.master) ∧
  ∀ n n', a.pty1 = some n → a.pty2 = some n' →
    n.name ≠ n'.name ∧ n.slave ≠ n'.slave ∧ n.master ≠ n'.master

end Cinit.Spec
