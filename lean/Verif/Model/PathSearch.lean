import Verif.Base.Text
import Verif.Model.Kernel
/-!
# Model of the search for the file of a program

`execvpe` is called with the path of the program, `src/runtime/process.rs:309-323`. It is a
function of the C library: here that of musl 1.2 (`src/process/execvp.c`), for which cinit is
built (`README.md`). The environment passed to it is that of the program to be, but the
variable `PATH` is looked up in the environment of the calling process, i.e. in cinit's.
-/

namespace Cinit.PathSearch

/-- Error numbers of `errno.h`. -/
def eNoEnt : Nat := 2
def eAcces : Nat := 13
def eNotDir : Nat := 20
def eNameTooLong : Nat := 36

/-- What `execve` does with a path: it is refused, or the file is executed. -/
inductive Attempt where
  | refused (e : Nat)
  | runs (f : ExeFile)

/-- The size of a text in bytes. -/
def bytes (s : Str) : Nat := (s.map Char.utf8Size).sum

/-- The default if there is no variable `PATH`. -/
def defaultPath : Str := "/usr/local/bin:/bin:/usr/bin".toList

/-- The path tried for a directory; the empty text is the working directory. -/
def candidate (dir file : Str) : Str := if dir = [] then file else dir ++ '/' :: file

/-- The outcome: an error, or the path and the file executed. -/
inductive Outcome where
  | failed (e : Nat)
  | found (path : Str) (f : ExeFile)

/-- The loop over the directories; `denied` is `seen_eacces`, `last` the last error. Directories
of `PATH_MAX` bytes or more are skipped. -/
def search (attempt : Str → Attempt) (file : Str) : List Str → Bool → Nat → Outcome
  | [], denied, last => .failed (if denied then eAcces else last)
  | dir :: dirs, denied, last =>
    if 4096 ≤ bytes dir then search attempt file dirs denied last
    else match attempt (candidate dir file) with
      | .runs f => .found (candidate dir file) f
      | .refused e =>
        if e = eAcces then search attempt file dirs true e
        else if e = eNoEnt ∨ e = eNotDir then search attempt file dirs denied e
        else .failed e

/-- `execvpe`, with `path` the value of `PATH` in the environment of the calling process. -/
def execvpe (path : Option Str) (attempt : Str → Attempt) (file : Str) : Outcome :=
  if file = [] then .failed eNoEnt
  else if '/' ∈ file then
    match attempt file with
    | .runs f => .found file f
    | .refused e => .failed e
  else if 255 < bytes file then .failed eNameTooLong
  else search attempt file (splitOn ':' (path.getD defaultPath)) false eNoEnt

end Cinit.PathSearch
