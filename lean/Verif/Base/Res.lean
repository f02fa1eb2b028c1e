/-!
# Results, panics and arbitrary hash orders

Basic vocabulary shared by all model files.
-/

namespace Cinit

/-- Rust `String`/`&str`/`CString` contents: the list of its characters. -/
abbrev Str := List Char

/-- Reasons for which the Rust code can abort by a panic. One constructor per
class of panicking expression in `/repo/src`. -/
inductive Panic where
  /-- `HashMap::get_mut(..).expect("invalid process id" / "Invalid index")`,
      dependency_graph.rs:116,123 -/
  | invalidProcessId
  /-- `successor.predecessor_count -= 1` below zero, dependency_graph.rs:124 -/
  | underflow
  /-- `expect("Invalid index in name_dict")`, dependency_graph.rs:158-184 -/
  | nameMissing
  /-- `panic!("Duplicate name ..")`, dependency_graph.rs:221 -/
  | duplicateName
  /-- slice/`Vec` index out of range -/
  | indexOutOfBounds
  /-- `expect("Has been checked above")` and relatives, process_manager/mod.rs:157,162,
      notify_manager.rs:98 -/
  | checkedAbove
  /-- `panic!("Requested invalid fd")`, process_map.rs:101 -/
  | invalidFd
  /-- `panic!("Queried cron manager with invalid id")`, cronjob.rs:366, and
      `self.timers[&process_id]`, cronjob.rs:344 -/
  | cronUnknownId
  /-- `panic!("Got invalid process type")`, cronjob.rs:316 -/
  | invalidProcessType
  /-- `unwrap()` of an empty set's first element, cronjob.rs:85,96,106,116,127 -/
  | emptySet
  /-- `i % step` with `step = 0`, cronjob.rs:275 -/
  | divByZero
  /-- `and_hms_opt(..).unwrap()`, cronjob.rs:168 -/
  | invalidTime
  /-- overflow of `DateTime + Duration`, cronjob.rs:145-160 -/
  | dateOverflow
  /-- `panic!("System local timezone has no valid times ..")`, cronjob.rs:194 -/
  | gapTooLong
  /-- `CString::new(..).expect(..)` on an interior NUL -/
  | nulByte
  /-- `signal::kill(..).expect(..)`, process_manager/mod.rs:326 -/
  | killFailed
  /-- `Signal::try_from(..).unwrap()`, process_manager/mod.rs:279 -/
  | badSignal
  /-- `to_str().expect("Could not rescue cstring")`, libc_helpers.rs:100 -/
  | invalidUtf8
  /-- `result.iovs().next().unwrap()`, notify_manager.rs:74 -/
  | emptyDatagram
  /-- `assert_eq!(self.name, other.name)`, config/mod.rs:144 -/
  | nameMismatch
  /-- not a panic but worse: `CStr::from_ptr` reads past the end of a buffer without NUL,
      libc_helpers.rs:98 -/
  | undefinedBehaviour
  /-- `Epoll::new(..).expect(..)`, process_manager_builder.rs:101-102 -/
  | epollFailed
  deriving DecidableEq, Repr

/-- Outcome of a Rust function that may return `Ok`, return `Err`, or panic. -/
inductive Res (ε : Type) (α : Type) where
  | ok (a : α)
  | err (e : ε)
  | panic (p : Panic)
  deriving DecidableEq, Repr

namespace Res

variable {ε α β : Type}

/-- Sequencing, i.e. Rust's `?` together with unwinding. -/
def bind (x : Res ε α) (f : α → Res ε β) : Res ε β :=
  match x with
  | ok a => f a
  | err e => err e
  | panic p => panic p

instance : Monad (Res ε) where
  pure := ok
  bind := bind

@[simp] theorem bind_ok (a : α) (f : α → Res ε β) : (ok a >>= f) = f a := rfl
@[simp] theorem bind_err (e : ε) (f : α → Res ε β) : ((err e : Res ε α) >>= f) = err e := rfl
@[simp] theorem bind_panic (p : Panic) (f : α → Res ε β) :
    ((panic p : Res ε α) >>= f) = panic p := rfl
@[simp] theorem pure_eq (a : α) : (pure a : Res ε α) = ok a := rfl

theorem bind_eq_ok {x : Res ε α} {f : α → Res ε β} {b : β} :
    (x >>= f) = ok b ↔ ∃ a, x = ok a ∧ f a = ok b := by
  cases x <;> simp

/-- Rust's `Option::expect`/`unwrap`. -/
def ofOption (p : Panic) : Option α → Res ε α
  | some a => ok a
  | none => panic p

theorem bind_eq_err {x : Res ε α} {f : α → Res ε β} {e : ε} :
    (x >>= f) = err e ↔ x = err e ∨ ∃ a, x = ok a ∧ f a = err e := by
  cases x with
  | ok a => simp
  | err e' => simp
  | panic p => simp

theorem bind_eq_panic {x : Res ε α} {f : α → Res ε β} {p : Panic} :
    (x >>= f) = panic p ↔ x = panic p ∨ ∃ a, x = ok a ∧ f a = panic p := by
  cases x with
  | ok a => simp
  | err e' => simp
  | panic p => simp

@[simp] theorem ofOption_some (p : Panic) (a : α) : (ofOption p (some a) : Res ε α) = ok a := rfl
@[simp] theorem ofOption_none (p : Panic) : (ofOption p none : Res ε α) = panic p := rfl

/-- Rust's `map_err`. -/
def mapErr {ε' : Type} (f : ε → ε') : Res ε α → Res ε' α
  | ok a => ok a
  | err e => err (f e)
  | panic p => panic p

/-- Fold with early exit: a Rust `for` loop whose body uses `?`. -/
def foldlM {σ : Type} (f : σ → α → Res ε σ) : σ → List α → Res ε σ
  | s, [] => ok s
  | s, a :: as => f s a >>= fun s' => foldlM f s' as

@[simp] theorem foldlM_nil {σ : Type} (f : σ → α → Res ε σ) (s : σ) : foldlM f s [] = ok s := rfl
@[simp] theorem foldlM_cons {σ : Type} (f : σ → α → Res ε σ) (s : σ) (a : α) (as : List α) :
    foldlM f s (a :: as) = (f s a >>= fun s' => foldlM f s' as) := rfl

/-- `iter().map(f).collect::<Result<Vec<_>, _>>()`, left to right with early exit. -/
def mapM' (f : α → Res ε β) : List α → Res ε (List β)
  | [] => ok []
  | a :: as => f a >>= fun b => mapM' f as >>= fun bs => ok (b :: bs)

end Res

/-- An arbitrary iteration order for a Rust `HashMap`/`HashSet`: some permutation of the
contents. The std hasher is randomly seeded, so nothing more may be assumed. -/
structure HashOrder where
  apply : {α : Type} → List α → List α
  perm : ∀ {α : Type} (l : List α), (apply l).Perm l

/-- A trivial order, to show the structure is inhabited. -/
def HashOrder.id : HashOrder := ⟨fun l => l, fun _ => .refl _⟩

/-- Another inhabitant: reversal. -/
def HashOrder.rev : HashOrder := ⟨fun l => l.reverse, fun l => List.reverse_perm l⟩

end Cinit
