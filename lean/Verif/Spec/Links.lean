import Verif.Model.Disk
/-!
# Which files a path leads to

Written from path_resolution(7).
-/

namespace Cinit.Spec

open Cinit Cinit.Disk

/-- In the directory `d` the name `n` stands for the inode `i`. -/
def Names (disk : Disk) (d : Nat) (n : Str) (i : Nat) : Prop :=
  ∃ parent entries listable, disk.node d = .dir parent entries listable ∧ ⟨some n, i⟩ ∈ entries

/-- An inode is a directory, with this parent. -/
def IsDir (disk : Disk) (d parent : Nat) : Prop :=
  ∃ entries listable, disk.node d = .dir parent entries listable

/-- The pieces of a path are separated by slashes. -/
inductive Pieces : List Str → Str → Prop
  | last {w : Str} : '/' ∉ w → Pieces [w] w
  | more {w : Str} {ws : List Str} {s : Str} : '/' ∉ w → Pieces ws s →
      Pieces (w :: ws) (w ++ '/' :: s)

/-- Where a path begins if it is used in the directory `d`. -/
def Begins (disk : Disk) (d : Nat) (path : Str) (b : Nat) : Prop :=
  (b = disk.root ∧ ∃ s, path = '/' :: s) ∨ (b = d ∧ ∀ s, path ≠ '/' :: s)

/-- From the directory `d` the pieces of a path lead to the inode `i` across `k` links. -/
inductive Leads (disk : Disk) : Nat → List Str → Nat → Nat → Prop
  | done (d : Nat) : Leads disk d [] 0 d
  | here {d parent : Nat} {w : Str} {ws : List Str} {k i : Nat} : IsDir disk d parent →
      (w = [] ∨ w = ['.']) → Leads disk d ws k i → Leads disk d (w :: ws) k i
  | up {d parent : Nat} {ws : List Str} {k i : Nat} : IsDir disk d parent →
      Leads disk parent ws k i → Leads disk d (['.', '.'] :: ws) k i
  | enter {d j : Nat} {w : Str} {ws : List Str} {k i : Nat} : Names disk d w j →
      (∀ target, disk.node j ≠ .link target) → Leads disk j ws k i → Leads disk d (w :: ws) k i
  | link {d j b : Nat} {w target : Str} {ts ws : List Str} {k i : Nat} : Names disk d w j →
      disk.node j = .link target → Begins disk d target b → Pieces ts target →
      Leads disk b (ts ++ ws) k i → Leads disk d (w :: ws) (k + 1) i

/-- A path leads to the inode `i` across `k` links. -/
def PathTo (disk : Disk) (path : Str) (k i : Nat) : Prop :=
  path ≠ [] ∧ ∃ b ws, Begins disk disk.cwd path b ∧ Pieces ws path ∧ Leads disk b ws k i

/-- The inode `i` is at a path: the path has at most 4095 bytes and there are at most 40 links. -/
def At (disk : Disk) (path : Str) (i : Nat) : Prop :=
  (path.map Char.utf8Size).sum < 4096 ∧ ∃ k ≤ 40, PathTo disk path k i

/-- The path of a name in the directory with a given path. -/
inductive Below : Str → Str → Str → Prop
  | slash {path n : Str} : Below (path ++ ['/']) n (path ++ '/' :: n)
  | plain {path n : Str} : path.getLast? ≠ some '/' → Below path n (path ++ '/' :: n)

/-- Names in a directory are distinct, not empty, not `.` and `..`, and have no slashes. -/
structure WellNamed (disk : Disk) : Prop where
  distinct : ∀ d parent entries listable, disk.node d = .dir parent entries listable →
    (entries.map (·.name)).Nodup
  proper : ∀ d n i, Names disk d n i → n ≠ [] ∧ n ≠ ['.'] ∧ n ≠ ['.', '.'] ∧ '/' ∉ n

/-- From a path on the names lead to the inode `i`, each being a name in the directory at the path
made of those before it. -/
inductive Found (disk : Disk) : Str → List Str → Nat → Prop
  | here {path : Str} {i : Nat} : At disk path i → Found disk path [] i
  | inside {path path' n : Str} {ns : List Str} {d j i : Nat} : At disk path d →
      Names disk d n j → Below path n path' → Found disk path' ns i → Found disk path (n :: ns) i

/-- Beneath a path there is something that cannot be read: a name that leads nowhere (because the
link is dangling, there are too many links, or the path is too long), a directory that cannot be
listed, a file that cannot be read, or a name that is not UTF-8. -/
inductive Trouble (disk : Disk) : Str → Prop
  | nowhere {path : Str} : (∀ i, ¬ At disk path i) → Trouble disk path
  | file {path : Str} {i : Nat} : At disk path i → disk.node i = .file none → Trouble disk path
  | dir {path : Str} {d parent : Nat} {entries : List Entry} : At disk path d →
      disk.node d = .dir parent entries false → Trouble disk path
  | name {path : Str} {d parent j : Nat} {entries : List Entry} {listable : Bool} :
      At disk path d → disk.node d = .dir parent entries listable → ⟨none, j⟩ ∈ entries →
      Trouble disk path
  | inside {path path' n : Str} {d j : Nat} : At disk path d → Names disk d n j →
      Below path n path' → Trouble disk path' → Trouble disk path

/-- The names lead from a directory to the inode `i`, without links. -/
inductive Chain (disk : Disk) : Nat → List Str → Nat → Prop
  | done (d : Nat) : Chain disk d [] d
  | step {d j i : Nat} {n : Str} {ns : List Str} : Names disk d n j → Chain disk j ns i →
      Chain disk d (n :: ns) i

/-- A disk without links of any kind: no symbolic link, no inode with two names, no directory within
itself. -/
structure Unlinked (disk : Disk) : Prop where
  noLink : ∀ i target, disk.node i ≠ .link target
  oneName : ∀ d n d' n' i, Names disk d n i → Names disk d' n' i → d = d' ∧ n = n'
  acyclic : ∀ d ns, Chain disk d ns d → ns = []

end Cinit.Spec
