import Verif.Model.PathSearch
/-!
# Specification: searching along `PATH`, after execvp(3)
-/

namespace Cinit.Spec

open Cinit PathSearch

/-- The text lists the directories, separated by colons. -/
inductive Directories : List Str → Str → Prop
  | last {d : Str} : ':' ∉ d → Directories [d] d
  | more {d : Str} {ds : List Str} {s : Str} : ':' ∉ d → Directories ds s →
    Directories (d :: ds) (d ++ ':' :: s)

/-- The file of this name in the directory; the working directory for the empty text. -/
inductive InDir : Str → Str → Str → Prop
  | here {file : Str} : InDir [] file file
  | dir {d file : Str} : d ≠ [] → InDir d file (d ++ "/".toList ++ file)

/-- There is no such file in the directory, or it must not be executed. -/
def Absent (attempt : Str → Attempt) (d file : Str) : Prop :=
  ∀ q, InDir d file q →
    attempt q = .refused 2 ∨ attempt q = .refused 13 ∨ attempt q = .refused 20

/-- `q` is the first file of this name in the directories that may be executed. -/
def FirstAlong (attempt : Str → Attempt) (dirs : List Str) (file q : Str) (f : ExeFile) : Prop :=
  ∃ pre d post, dirs = pre ++ d :: post ∧ (∀ x ∈ pre, Absent attempt x file) ∧
    InDir d file q ∧ attempt q = .runs f

/-- The size of a text in UTF-8. -/
def size (s : Str) : Nat := (String.ofList s).utf8ByteSize

/-- The directories of a path that can be searched: a path has at most 4095 bytes. -/
def usual (dirs : List Str) : List Str := dirs.filter fun d => size d < 4096

/-- The directories searched if there is no `PATH`. -/
def fallback : List Str := ["/usr/local/bin".toList, "/bin".toList, "/usr/bin".toList]

end Cinit.Spec
