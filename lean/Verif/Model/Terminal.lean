import Verif.Base.Text
/-!
# Model of pseudo terminals

`src/runtime/process.rs`:383-450 (`create_ptys`), `src/util/libc_helpers.rs`:30-49
(`get_terminal_size`, `ttyname`).

The kernel's side (`openpty(3)`, `ttyname(3)`, `chown(2)`, `fchmod(2)`, the output processing of
terminals, termios(3)) is an assumption about the environment. Any call may fail. A terminal is gone
when both its descriptors are closed.
-/

namespace Cinit.Tty

/-- `struct winsize` -/
structure Size where
  rows : Nat
  cols : Nat
  xpixel : Nat
  ypixel : Nat
  deriving DecidableEq, Repr

/-- `struct termios`, with the bits of `asm-generic/termbits.h` -/
structure Termios where
  input : Nat
  output : Nat
  control : Nat
  local_ : Nat
  chars : List Nat
  deriving DecidableEq, Repr

def BRKINT : Nat := 0x002
def INPCK : Nat := 0x010
def ISTRIP : Nat := 0x020
def ICRNL : Nat := 0x100
def IXON : Nat := 0x400
def OPOST : Nat := 0x001
def ONLCR : Nat := 0x004
def ISIG : Nat := 0x0001
def ICANON : Nat := 0x0002
def ECHO : Nat := 0x0008
def IEXTEN : Nat := 0x8000

/-- A pseudo terminal: its file below `/dev/pts`, the two descriptors of cinit, its settings, and
the owner and mode of the file. -/
structure Pty where
  name : Str
  master : Nat
  slave : Nat
  size : Size
  termios : Termios
  uid : Nat
  gid : Nat
  mode : Nat
  deriving DecidableEq, Repr

/-- What the kernel makes up for a new terminal. -/
structure New where
  name : Str
  master : Nat
  slave : Nat
  uid : Nat
  gid : Nat
  mode : Nat
  deriving DecidableEq, Repr

/-- The answers of the kernel to the calls of `create_ptys`, in their order; `none` and `false` are
failures. -/
structure Answers where
  /-- `tcgetattr` of the standard input -/
  attr : Option Termios
  /-- `ioctl(TIOCGWINSZ)` of the standard input -/
  size : Option Size
  pty1 : Option New
  pty2 : Option New
  name1 : Bool := true
  name2 : Bool := true
  chown1 : Bool := true
  chown2 : Bool := true
  chmod1 : Bool := true
  chmod2 : Bool := true

/-- `openpty(3)`: without settings the kernel's own are used. -/
def openpty (std : Termios) (n : New) (size : Size) (t : Option Termios) : Pty :=
  ⟨n.name, n.master, n.slave, size, t.getD std, n.uid, n.gid, n.mode⟩

/-- `ttyname(3)` -/
def ttyname (k : List Pty) (fd : Nat) : Option Str := (k.find? (·.slave == fd)).map (·.name)

/-- `chown(2)`: by the name of the file -/
def chown (k : List Pty) (name : Str) (uid gid : Nat) : List Pty :=
  k.map fun t => if t.name = name then { t with uid := uid, gid := gid } else t

/-- `fchmod(2)`: by descriptor -/
def fchmod (k : List Pty) (fd mode : Nat) : List Pty :=
  k.map fun t => if t.slave = fd then { t with mode := mode } else t

/-- Both descriptors of a terminal are closed. -/
def drop (k : List Pty) (t : Pty) : List Pty := k.filter (·.master != t.master)

/-- process.rs:400-422: the settings for the new terminals, from those of the standard input -/
def settings (t : Termios) : Termios :=
  { t with
    input := BRKINT ||| ICRNL ||| INPCK ||| ISTRIP ||| IXON
    output := OPOST
    local_ := ECHO ||| ICANON ||| IEXTEN ||| ISIG }

/-- process.rs:424-432 -/
def defaultSize : Size := ⟨24, 80, 0, 0⟩

/-- process.rs:440-443 `S_IRUSR | S_IWUSR | S_IWGRP` -/
def mode : Nat := 0o400 ||| 0o200 ||| 0o020

/-- process.rs:383-450 `create_ptys` of a process with the given user and group: the terminals
afterwards and, if it succeeds, the descriptors (of cinit and of the program) for the standard output
and error. Where it returns early, the terminals opened so far are dropped. `std` are the settings
the kernel uses if none are given. -/
def createPtys (std : Termios) (uid gid : Nat) (a : Answers) (k : List Pty) :
    List Pty × Option ((Nat × Nat) × (Nat × Nat)) :=
  let termios := a.attr.map settings
  let size := a.size.getD defaultSize
  match a.pty1 with
  | none => (k, none)
  | some n1 =>
    let stdout := openpty std n1 size termios
    let k := stdout :: k
    match a.pty2 with
    | none => (drop k stdout, none)
    | some n2 =>
      let stderr := openpty std n2 size termios
      let k := stderr :: k
      let fail := fun k => (drop (drop k stderr) stdout, none)
      match (if a.name1 then ttyname k stdout.slave else none) with
      | none => fail k
      | some outName =>
        match (if a.name2 then ttyname k stderr.slave else none) with
        | none => fail k
        | some errName =>
          if ¬ a.chown1 then fail k else
          let k := chown k outName uid gid
          if ¬ a.chown2 then fail k else
          let k := chown k errName uid gid
          if ¬ a.chmod1 then fail k else
          let k := fchmod k stdout.slave mode
          if ¬ a.chmod2 then fail k else
          let k := fchmod k stderr.slave mode
          (k, some ((stdout.master, stdout.slave), (stderr.master, stderr.slave)))

/-- What is read from the terminal when bytes are written to it: with the flags `OPOST` and `ONLCR`
each line feed is preceded by a carriage return. The other flags of output processing are assumed
not to be set, as is the case for the settings of Linux and those of `settings`. -/
def output (t : Termios) (bytes : List Nat) : List Nat :=
  if t.output.testBit 0 ∧ t.output.testBit 2 then
    bytes.flatMap fun b => if b = 10 then [13, 10] else [b]
  else bytes

/-- The settings of new terminals of Linux, `tty_std_termios` in `drivers/tty/tty_io.c`. -/
def linux : Termios :=
  ⟨ICRNL ||| IXON, OPOST ||| ONLCR, 0x4BF, ISIG ||| ICANON ||| ECHO ||| 0x10 ||| 0x20 ||| 0x200 |||
    0x800 ||| IEXTEN, [3, 28, 127, 21, 4, 0, 1, 0, 17, 19, 26, 0, 18, 15, 23, 22, 0, 0, 0]⟩

end Cinit.Tty
