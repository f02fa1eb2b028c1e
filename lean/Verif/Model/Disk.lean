import Verif.Model.Config
/-!
# Model of what `read_config` finds on a disk with links

`Model/Config.lean` describes reading the configuration as a function of the tree that
`fs::metadata`, `fs::read_dir` and `read_file` show. Here the tree is computed from the contents of
a file system: inodes, directories with names, symbolic links. Simplified: reading takes place at
one point of time; every directory may be searched (cinit runs as root); names have at most 255
bytes, so that only the whole path can be too long; what `read_dir` reports as an error is an
error of the whole directory.
-/

namespace Cinit.Disk

/-- A name in a directory. `none` is a name that is not UTF-8. -/
structure Entry where
  name : Option Str
  inode : Nat
  deriving DecidableEq, Repr

/-- What an inode is. The content of a file is `none` if it cannot be read or is not UTF-8. A
directory knows its parent (`..`) and whether it can be listed. -/
inductive Node where
  | file (content : Option Str)
  | dir (parent : Nat) (entries : List Entry) (listable : Bool)
  | link (target : Str)
  | special
  deriving DecidableEq, Repr

/-- A file system, its root directory and the working directory of cinit. -/
structure Disk where
  node : Nat → Node
  root : Nat
  cwd : Nat

/-- path_resolution(7): the components of a path. An empty component, from several slashes or one at
the end, is the directory itself. -/
def components (path : Str) : List Str :=
  (splitOn '/' path).map fun c => if c = [] then ['.'] else c

/-- path_resolution(7): where the resolution of a path begins. -/
def Disk.start (disk : Disk) (d : Nat) (path : Str) : Nat :=
  if path.head? = some '/' then disk.root else d

/-- The inode a name stands for in a directory. -/
def lookup (entries : List Entry) (name : Str) : Option Nat :=
  (entries.find? fun e => decide (e.name = some name)).map (·.inode)

/-- path_resolution(7): following the components of a path while no link is met. `follow` is applied
when one is; `left` is how many further links may be met. -/
def Disk.walkWith (disk : Disk) (follow : Nat → List Str → Option (Nat × Nat)) (left : Nat) :
    Nat → List Str → Option (Nat × Nat)
  | d, [] => some (d, left)
  | d, c :: cs =>
    match disk.node d with
    | .dir parent entries _ =>
      if c = ['.'] then disk.walkWith follow left d cs
      else if c = ['.', '.'] then disk.walkWith follow left parent cs
      else match lookup entries c with
        | none => none
        | some i =>
          match disk.node i with
          | .link target => follow (disk.start d target) (components target ++ cs)
          | _ => disk.walkWith follow left i cs
    | _ => none

/-- path_resolution(7): following the components of a path; links are followed also at the end. With
the inode comes how many further links may be met. -/
def Disk.walk (disk : Disk) : Nat → Nat → List Str → Option (Nat × Nat)
  | 0 => disk.walkWith (fun _ _ => none) 0
  | left + 1 => disk.walkWith (disk.walk left) (left + 1)

/-- The size of a path in bytes. -/
def bytes (path : Str) : Nat := (path.map Char.utf8Size).sum

/-- limits.h `PATH_MAX`, with the NUL character at the end. -/
def pathMax : Nat := 4096

/-- path_resolution(7) `MAXSYMLINKS`: how many links may be met in the resolution of a path. -/
def maxLinks : Nat := 40

/-- config_parser.rs:54 `fs::metadata`: the inode at a path, if there is any. -/
def Disk.metadata (disk : Disk) (path : Str) : Option Nat :=
  if path = [] ∨ pathMax ≤ bytes path then none
  else (disk.walk maxLinks (disk.start disk.cwd path) (components path)).map (·.1)

/-- config_parser.rs:78 `DirEntry::path`, that is `Path::join` of the path and a name. -/
def join (path name : Str) : Str :=
  if path.getLast? = some '/' then path ++ name else path ++ '/' :: name

/-- config_parser.rs:53-100: what `read_config` gets to see at a path. The recursion ends because
paths become longer; `fuel` is an upper bound for what can be added to the path. -/
def Disk.view (disk : Disk) : Nat → Str → FileTree
  | 0, _ => .unreadable
  | fuel + 1, path =>
    match disk.metadata path with
    | none => .unreadable
    | some i =>
      match disk.node i with
      | .file (some content) => .file content
      | .file none => .unreadable
      | .dir _ _ false => .unreadable
      | .dir _ entries true =>
        .dir (entries.map fun e =>
          match e.name with
          | none => .badName
          | some n => disk.view fuel (join path n))
      | .link _ => .other
      | .special => .other

/-- The tree at a path. -/
def Disk.tree (disk : Disk) (path : Str) : FileTree := disk.view pathMax path

end Cinit.Disk
