import Verif.Spec.Document
import Verif.Base.AMap
import Mathlib.Data.List.Nodup
/-!
# Reading documents
-/

namespace Cinit

open Decode Spec

variable {r : Reading} {ord : HashOrder}

theorem text_iff {n : Node} {t : Str} : text n = some t ↔ IsText n t := by
  cases n with
  | scalar s =>
    obtain ⟨u, p⟩ := s
    simp [text, IsText]
  | seq l => simp [text, IsText]
  | map l => simp [text, IsText]

theorem isVoid_iff {n : Node} : isVoid n = true ↔ IsVoid n := by
  cases n with
  | scalar s =>
    obtain ⟨u, p⟩ := s
    simp [isVoid, IsVoid, and_comm]
  | seq l => simp [isVoid, IsVoid]
  | map l => simp [isVoid, IsVoid]

theorem isNull_iff {n : Node} : isNull r n = true ↔ IsNull r n := by
  cases n with
  | scalar s =>
    obtain ⟨u, p⟩ := s
    simp [isNull, IsNull, and_comm]
  | seq l => simp [isNull, IsNull]
  | map l => simp [isNull, IsNull]

theorem bool_iff {n : Node} {b : Bool} : Decode.bool r n = some b ↔ IsFlag r n b := by
  cases n with
  | scalar s =>
    obtain ⟨u, p⟩ := s
    cases p <;> simp [Decode.bool, IsFlag]
  | seq l => simp [Decode.bool, IsFlag]
  | map l => simp [Decode.bool, IsFlag]

theorem int_iff {n : Node} {v : Nat} : Decode.int r n = some v ↔ IsNumber r n v := by
  cases n with
  | scalar s =>
    obtain ⟨u, p⟩ := s
    cases p <;> simp [Decode.int, IsNumber]
  | seq l => simp [Decode.int, IsNumber]
  | map l => simp [Decode.int, IsNumber]

theorem optional_iff {α : Type} {f : Node → Option α} {P : Node → α → Prop}
    (h : ∀ {n a}, f n = some a ↔ P n a) {n : Node} {o : Option α} :
    Decode.optional r f n = some o ↔ IsOptional r P n o := by
  unfold Decode.optional IsOptional
  rw [← isNull_iff]
  by_cases hn : isNull r n = true
  · simp [hn, eq_comm]
  · rw [if_neg hn, Option.map_eq_some_iff]
    constructor
    · rintro ⟨a, h1, rfl⟩
      exact .inr ⟨hn, a, rfl, h.mp h1⟩
    · rintro (⟨h1, -⟩ | ⟨-, a, rfl, h1⟩)
      · exact absurd h1 hn
      · exact ⟨a, h.mpr h1, rfl⟩

theorem all_sound {α β : Type} {f : α → Option β} {P : α → β → Prop}
    (h : ∀ n a, f n = some a → P n a) {l : List α} {bs : List β} (hl : all f l = some bs) :
    List.Forall₂ P l bs := by
  induction l generalizing bs with
  | nil => cases hl; exact .nil
  | cons a l ih =>
    simp only [all, Option.bind_eq_some_iff, Option.map_eq_some_iff] at hl
    obtain ⟨b, h1, bs', h2, rfl⟩ := hl
    exact .cons (h _ _ h1) (ih h2)

theorem all_complete {α β : Type} {f : α → Option β} {P : α → β → Prop} {E : β → β → Prop}
    (h : ∀ n a, P n a → ∃ a', f n = some a' ∧ E a' a) {l : List α} {bs : List β}
    (hl : List.Forall₂ P l bs) : ∃ bs', all f l = some bs' ∧ List.Forall₂ E bs' bs := by
  induction hl with
  | nil => exact ⟨[], rfl, .nil⟩
  | cons h1 _ ih =>
    obtain ⟨b, hb, hE⟩ := h _ _ h1
    obtain ⟨bs', hbs, hEs⟩ := ih
    exact ⟨b :: bs', by simp [all, hb, hbs], .cons hE hEs⟩

theorem list_sound {α : Type} {f : Node → Option α} {P : Node → α → Prop}
    (h : ∀ n a, f n = some a → P n a) {n : Node} {l : List α} (hl : list f n = some l) :
    IsList P n l := by
  unfold list at hl
  split at hl
  · exact .inl ⟨_, rfl, all_sound h hl⟩
  · split at hl
    · rename_i hv
      cases hl
      exact .inr ⟨isVoid_iff.mp hv, rfl⟩
    · cases hl

theorem list_complete {α : Type} {f : Node → Option α} {P : Node → α → Prop} {E : α → α → Prop}
    (h : ∀ n a, P n a → ∃ a', f n = some a' ∧ E a' a) {n : Node} {l : List α}
    (hl : IsList P n l) : ∃ l', list f n = some l' ∧ List.Forall₂ E l' l := by
  rcases hl with ⟨ns, rfl, hl⟩ | ⟨hv, rfl⟩
  · exact all_complete h hl
  · cases hv
    exact ⟨[], rfl, .nil⟩

theorem list_iff {α : Type} {f : Node → Option α} {P : Node → α → Prop}
    (h : ∀ {n a}, f n = some a ↔ P n a) {n : Node} {l : List α} :
    list f n = some l ↔ IsList P n l := by
  constructor
  · exact list_sound fun _ _ => h.mp
  · intro hl
    obtain ⟨l', h1, h2⟩ := list_complete (E := Eq) (fun _ _ hp => ⟨_, h.mpr hp, rfl⟩) hl
    rw [h1, List.forall₂_eq_eq_eq.subst (motive := fun R => R l' l) h2]

/-- The entries of a mapping with texts as keys. -/
def keyed : List (Node × Node) → Option (List (Str × Node)) :=
  all fun e => (text e.1).map fun k => (k, e.2)

theorem keyed_cons {k v : Node} {l : List (Node × Node)} :
    keyed ((k, v) :: l) = (text k).bind fun k => (keyed l).map ((k, v) :: ·) := by
  show (((text k).map _).bind fun b => _) = _
  cases text k <;> rfl

theorem isMapping_iff {n : Node} {l : List (Str × Node)} :
    ((entries n).bind keyed) = some l ↔ IsMapping n l := by
  have key : ∀ {ns : List (Node × Node)} {l : List (Str × Node)}, keyed ns = some l ↔
      List.Forall₂ (fun e f => IsText e.1 f.1 ∧ f.2 = e.2) ns l := by
    intro ns l
    constructor
    · refine all_sound fun e f h => ?_
      simp only [Option.map_eq_some_iff] at h
      obtain ⟨k, h1, rfl⟩ := h
      exact ⟨text_iff.mp h1, rfl⟩
    · intro h
      obtain ⟨l', h1, h2⟩ := all_complete (f := fun e : Node × Node => (text e.1).map fun k => (k, e.2))
        (E := Eq) (fun e f h => ⟨f, by
          obtain ⟨k, v⟩ := f
          rw [text_iff.mpr h.1]
          have : v = e.2 := h.2
          rw [this]
          rfl, rfl⟩) h
      rw [List.forall₂_eq_eq_eq.subst (motive := fun R => R l' l) h2] at h1
      exact h1
  cases n with
  | scalar s =>
    unfold entries IsMapping
    by_cases hv : isVoid (.scalar s) = true
    · have := isVoid_iff.mp hv
      cases this
      simp [isVoid, keyed, all, IsVoid, eq_comm]
    · simp only [hv]
      rw [isVoid_iff] at hv
      simp [hv]
  | seq ns => simp [entries, IsMapping, isVoid, IsVoid]
  | map ns =>
    simp only [entries, Option.bind_some, IsMapping, key]
    constructor
    · exact fun h => .inl ⟨ns, rfl, h⟩
    · rintro (⟨ns', h, h'⟩ | ⟨h, -⟩)
      · cases h; exact h'
      · cases h

/-- What a field becomes. -/
def gather {α : Type} (key : Str) (dec : Node → Option α) :
    Option α → List (Str × Node) → Option (Option α)
  | o, [] => some o
  | o, (k, n) :: l => if k = key then (once o (dec n)).bind (gather key dec · l)
    else gather key dec o l

theorem gather_some {α : Type} {key : String} {dec : Node → Option α} {a : α} {o : Option α}
    {l : List (Str × Node)} :
    gather key.toList dec (some a) l = some o ↔ valuesOf l key = [] ∧ o = some a := by
  induction l with
  | nil => simp [gather, valuesOf, eq_comm]
  | cons e l ih =>
    obtain ⟨k, n⟩ := e
    by_cases hk : k = key.toList
    · simp [gather, hk, once, valuesOf]
    · simp only [gather, hk, if_false, ih]
      simp [valuesOf, hk]

theorem gather_none {α : Type} {key : String} {dec : Node → Option α} {o : Option α}
    {l : List (Str × Node)} :
    gather key.toList dec none l = some o ↔
      (valuesOf l key = [] ∧ o = none) ∨ ∃ n a, valuesOf l key = [n] ∧ dec n = some a ∧ o = some a := by
  induction l with
  | nil => simp [gather, valuesOf, eq_comm]
  | cons e l ih =>
    obtain ⟨k, n⟩ := e
    by_cases hk : k = key.toList
    · have hg : valuesOf ((k, n) :: l) key = n :: valuesOf l key := by simp [valuesOf, hk]
      rw [hg]
      simp only [gather, hk, if_true, once, Option.isSome_none, Bool.false_eq_true, if_false]
      cases hd : dec n with
      | none =>
        simp only [Option.map_none, Option.bind_none, reduceCtorEq, false_and, false_or, false_iff]
        rintro ⟨n', a, h1, h2, -⟩
        injection h1 with h1 _
        rw [← h1, hd] at h2
        cases h2
      | some a =>
        simp only [Option.map_some, Option.bind_some, gather_some, reduceCtorEq, false_and,
          false_or]
        constructor
        · rintro ⟨h1, rfl⟩
          exact ⟨n, a, by rw [h1], hd, rfl⟩
        · rintro ⟨n', a', h1, h2, rfl⟩
          injection h1 with h1 h3
          rw [← h1, hd] at h2
          cases h2
          exact ⟨h3, rfl⟩
    · simp only [gather, hk, if_false, ih]
      simp [valuesOf, hk]

theorem timer_eq {t : Option Str} {l : List (Node × Node)} :
    timer t l = (keyed l).bind (gather "timer".toList text t) := by
  induction l generalizing t with
  | nil => rfl
  | cons e l ih =>
    obtain ⟨k, v⟩ := e
    rw [keyed_cons]
    unfold timer
    cases hk : text k with
    | none => rfl
    | some k =>
      simp only [Option.bind_some]
      split
      · rename_i hk
        cases ho : once t (text v) with
        | none => cases keyed l <;> simp only [Option.bind_none, Option.map_none, Option.map_some,
            Option.bind_some, gather, hk, ho, if_true]
        | some t' =>
          simp only [Option.bind_some, ih]
          cases keyed l <;> simp only [Option.bind_none, Option.map_none, Option.map_some,
            Option.bind_some, gather, hk, ho, if_true]
      · rename_i hk
        rw [ih]
        cases keyed l <;> simp only [Option.bind_none, Option.map_none, Option.map_some,
            Option.bind_some, gather, hk, if_false]

theorem gather_required {α : Type} {key : String} {dec : Node → Option α}
    {P : Node → α → Prop} (h : ∀ {n a}, dec n = some a ↔ P n a) {l : List (Str × Node)} {a : α} :
    gather key.toList dec none l = some (some a) ↔ Required l key P a := by
  rw [gather_none]
  simp [Required, h]

theorem gather_defaulted {α : Type} {key : String} {dec : Node → Option α}
    {P : Node → α → Prop} (h : ∀ {n a}, dec n = some a ↔ P n a) {l : List (Str × Node)}
    {d a : α} :
    (∃ o, gather key.toList dec none l = some o ∧ o.getD d = a) ↔ Defaulted l key P d a := by
  simp only [gather_none]
  unfold Defaulted Required
  constructor
  · rintro ⟨o, ⟨h1, rfl⟩ | ⟨n, a', h1, h2, rfl⟩, rfl⟩
    · exact .inl ⟨h1, rfl⟩
    · exact .inr ⟨n, h1, h.mp h2⟩
  · rintro (⟨h1, rfl⟩ | ⟨n, h1, h2⟩)
    · exact ⟨none, .inl ⟨h1, rfl⟩, rfl⟩
    · exact ⟨some a, .inr ⟨n, a, h1, h.mpr h2, rfl⟩, rfl⟩

theorem type_iff {n : Node} {t : CfgType} : Decode.type r n = some t ↔ IsType r n t := by
  constructor
  · intro h
    unfold Decode.type at h
    split at h
    · rename_i s
      obtain ⟨u, p⟩ := s
      split at h
      · rename_i hu; cases h; exact .oneshot ⟨p, by simp at hu; simp [hu]⟩
      · split at h
        · rename_i hu; cases h; exact .notify ⟨p, by simp at hu; simp [hu]⟩
        · cases h
    · rename_i k v
      simp only [Option.bind_eq_some_iff] at h
      obtain ⟨k', hk, h⟩ := h
      rw [text_iff] at hk
      split at h
      · rename_i e
        split at h
        · rename_i hn; cases h; exact .oneshot' (e ▸ hk) (isNull_iff.mp hn)
        · cases h
      · split at h
        · rename_i e
          split at h
          · rename_i hn; cases h; exact .notify' (e ▸ hk) (isNull_iff.mp hn)
          · cases h
        · split at h
          · rename_i e
            simp only [Option.bind_eq_some_iff, Option.map_eq_some_iff, timer_eq] at h
            obtain ⟨l, hl, o, ⟨l', hl', ho⟩, t', rfl, rfl⟩ := h
            refine .cronjob (e ▸ hk) (l := l') (isMapping_iff.mp ?_)
              ((gather_required text_iff).mp ho)
            rw [hl]
            exact hl'
          · cases h
    · cases h
  · intro h
    cases h with
    | oneshot h =>
      obtain ⟨p, rfl⟩ := h
      simp only [Decode.type, if_true]
    | notify h =>
      obtain ⟨p, rfl⟩ := h
      simp only [Decode.type]
      rw [if_neg (by decide), if_pos trivial]
    | oneshot' hk hv =>
      rw [← text_iff] at hk
      rw [← isNull_iff] at hv
      simp only [Decode.type, hk, hv, if_true, Option.bind_some]
    | notify' hk hv =>
      rw [← text_iff] at hk
      rw [← isNull_iff] at hv
      unfold Decode.type
      simp only [hk, Option.bind_some]
      rw [if_neg (by decide), if_pos trivial, if_pos hv]
    | cronjob hk hv ht =>
      rw [← text_iff] at hk
      rw [← isMapping_iff, Option.bind_eq_some_iff] at hv
      obtain ⟨l', h1, h2⟩ := hv
      rw [← gather_required text_iff] at ht
      unfold Decode.type
      simp only [hk, Option.bind_some]
      rw [if_neg (by decide), if_neg (by decide), if_pos trivial, h1]
      simp only [Option.bind_some, timer_eq, h2, ht, Option.map_some]

/-- The name of a field. -/
def Field.key : Field → String
  | .name => "name" | .path => "path" | .args => "args" | .workdir => "workdir"
  | .type => "type" | .uid => "uid" | .gid => "gid" | .user => "user" | .group => "group"
  | .before => "before" | .after => "after" | .pty => "pty"
  | .capabilities => "capabilities" | .env => "env" | .unknown => ""

theorem Field.of_iff (k : Str) {f : Field} (hf : f ≠ .unknown) :
    Field.of k = f ↔ k = (Field.key f).toList := by
  constructor
  · intro h
    unfold Field.of at h
    by_cases e : k = "name".toList
    · rw [if_pos e] at h
      rw [← h]
      exact e
    rw [if_neg e] at h
    clear e
    by_cases e : k = "path".toList
    · rw [if_pos e] at h
      rw [← h]
      exact e
    rw [if_neg e] at h
    clear e
    by_cases e : k = "args".toList
    · rw [if_pos e] at h
      rw [← h]
      exact e
    rw [if_neg e] at h
    clear e
    by_cases e : k = "workdir".toList
    · rw [if_pos e] at h
      rw [← h]
      exact e
    rw [if_neg e] at h
    clear e
    by_cases e : k = "type".toList
    · rw [if_pos e] at h
      rw [← h]
      exact e
    rw [if_neg e] at h
    clear e
    by_cases e : k = "uid".toList
    · rw [if_pos e] at h
      rw [← h]
      exact e
    rw [if_neg e] at h
    clear e
    by_cases e : k = "gid".toList
    · rw [if_pos e] at h
      rw [← h]
      exact e
    rw [if_neg e] at h
    clear e
    by_cases e : k = "user".toList
    · rw [if_pos e] at h
      rw [← h]
      exact e
    rw [if_neg e] at h
    clear e
    by_cases e : k = "group".toList
    · rw [if_pos e] at h
      rw [← h]
      exact e
    rw [if_neg e] at h
    clear e
    by_cases e : k = "before".toList
    · rw [if_pos e] at h
      rw [← h]
      exact e
    rw [if_neg e] at h
    clear e
    by_cases e : k = "after".toList
    · rw [if_pos e] at h
      rw [← h]
      exact e
    rw [if_neg e] at h
    clear e
    by_cases e : k = "pty".toList
    · rw [if_pos e] at h
      rw [← h]
      exact e
    rw [if_neg e] at h
    clear e
    by_cases e : k = "capabilities".toList
    · rw [if_pos e] at h
      rw [← h]
      exact e
    rw [if_neg e] at h
    clear e
    by_cases e : k = "env".toList
    · rw [if_pos e] at h
      rw [← h]
      exact e
    rw [if_neg e] at h
    clear e
    exact absurd h.symm hf
  · rintro rfl
    cases f <;> first
      | decide
      | exact absurd rfl hf

/-- Reading the entries one after another gives the same as reading each field on its own. -/
theorem slots_iff {s s' : Slots} {l : List (Node × Node)} :
    slots r ord s l = some s' ↔ ∃ kl, keyed l = some kl ∧
      gather "name".toList text s.name kl = some s'.name ∧
      gather "path".toList (Decode.optional r text) s.path kl = some s'.path ∧
      gather "args".toList (Decode.list text) s.args kl = some s'.args ∧
      gather "workdir".toList (Decode.optional r text) s.workdir kl = some s'.workdir ∧
      gather "type".toList (Decode.type r) s.type kl = some s'.type ∧
      gather "uid".toList (Decode.optional r (Decode.int r)) s.uid kl = some s'.uid ∧
      gather "gid".toList (Decode.optional r (Decode.int r)) s.gid kl = some s'.gid ∧
      gather "user".toList (Decode.optional r text) s.user kl = some s'.user ∧
      gather "group".toList (Decode.optional r text) s.group kl = some s'.group ∧
      gather "before".toList (Decode.list text) s.before kl = some s'.before ∧
      gather "after".toList (Decode.list text) s.after kl = some s'.after ∧
      gather "pty".toList (Decode.bool r) s.pty kl = some s'.pty ∧
      gather "capabilities".toList (Decode.list text) s.capabilities kl =
        some s'.capabilities ∧
      gather "env".toList (Decode.list (envEntry r ord)) s.env kl = some s'.env := by
  induction l generalizing s with
  | nil =>
    simp only [slots, keyed, all, Option.some.injEq, exists_eq_left', gather]
    cases s; cases s'
    simp only [Slots.mk.injEq]
  | cons e l ih =>
    obtain ⟨k, v⟩ := e
    rw [keyed_cons]
    unfold slots
    cases hk : text k with
    | none => simp only [Option.bind_none, reduceCtorEq, false_and, exists_false]
    | some k =>
      simp only [Option.bind_some]
      have f1 := Field.of_iff k (f := .name) (by decide)
      have f2 := Field.of_iff k (f := .path) (by decide)
      have f3 := Field.of_iff k (f := .args) (by decide)
      have f4 := Field.of_iff k (f := .workdir) (by decide)
      have f5 := Field.of_iff k (f := .type) (by decide)
      have f6 := Field.of_iff k (f := .uid) (by decide)
      have f7 := Field.of_iff k (f := .gid) (by decide)
      have f8 := Field.of_iff k (f := .user) (by decide)
      have f9 := Field.of_iff k (f := .group) (by decide)
      have f10 := Field.of_iff k (f := .before) (by decide)
      have f11 := Field.of_iff k (f := .after) (by decide)
      have f12 := Field.of_iff k (f := .pty) (by decide)
      have f13 := Field.of_iff k (f := .capabilities) (by decide)
      have f14 := Field.of_iff k (f := .env) (by decide)
      simp only [Field.key] at f1 f2 f3 f4 f5 f6 f7 f8 f9 f10 f11 f12 f13 f14
      cases hl : keyed l with
      | none =>
        simp only [hl, reduceCtorEq, false_and, exists_false] at ih
        simp only [Option.map_none, reduceCtorEq, false_and, exists_false, iff_false]
        cases hs : slot r ord s (Field.of k) v with
        | none => simp
        | some s1 => exact (ih (s := s1)).mp
      | some kl =>
        simp only [hl, Option.some.injEq, exists_eq_left'] at ih
        simp only [Option.map_some, Option.some.injEq, exists_eq_left', gather]
        simp only [← f1, ← f2, ← f3, ← f4, ← f5, ← f6, ← f7, ← f8, ← f9, ← f10, ← f11, ← f12,
          ← f13, ← f14]
        cases Field.of k <;> simp only [slot, reduceCtorEq, if_false, if_true]
        case unknown => exact ih
        case name => cases once s.name (text v) <;> simp [ih]
        case path => cases once s.path (Decode.optional r text v) <;> simp [ih]
        case args => cases once s.args (Decode.list text v) <;> simp [ih]
        case workdir => cases once s.workdir (Decode.optional r text v) <;> simp [ih]
        case type => cases once s.type (Decode.type r v) <;> simp [ih]
        case uid => cases once s.uid (Decode.optional r (Decode.int r) v) <;> simp [ih]
        case gid => cases once s.gid (Decode.optional r (Decode.int r) v) <;> simp [ih]
        case user => cases once s.user (Decode.optional r text v) <;> simp [ih]
        case group => cases once s.group (Decode.optional r text v) <;> simp [ih]
        case before => cases once s.before (Decode.list text v) <;> simp [ih]
        case after => cases once s.after (Decode.list text v) <;> simp [ih]
        case pty => cases once s.pty (Decode.bool r v) <;> simp [ih]
        case capabilities => cases once s.capabilities (Decode.list text v) <;> simp [ih]
        case env => cases once s.env (Decode.list (envEntry r ord) v) <;> simp [ih]

/-- Entry `n` is the last one of `k`. -/
def Last (l : List (Str × Node)) (k : Str) (n : Node) : Prop :=
  ∃ front back, l = front ++ (k, n) :: back ∧ k ∉ back.map (·.1)

theorem last_cons {l : List (Str × Node)} {k k' : Str} {n n' : Node} :
    Last ((k', n') :: l) k n ↔ Last l k n ∨ (k' = k ∧ n' = n ∧ k ∉ l.map (·.1)) := by
  constructor
  · rintro ⟨front, back, h1, h2⟩
    cases front with
    | nil =>
      injection h1 with h1 h3
      cases h1
      exact .inr ⟨rfl, rfl, h3 ▸ h2⟩
    | cons e front =>
      injection h1 with h1 h3
      exact .inl ⟨front, back, h3, h2⟩
  · rintro (⟨front, back, rfl, h2⟩ | ⟨rfl, rfl, h2⟩)
    · exact ⟨(k', n') :: front, back, rfl, h2⟩
    · exact ⟨[], l, rfl, h2⟩

theorem last_mem {l : List (Str × Node)} {k : Str} {n : Node} (h : Last l k n) :
    k ∈ l.map (·.1) := by
  obtain ⟨front, back, rfl, -⟩ := h
  simp

theorem insertAll_sound {m m' : AMap Str (Option Str)} {l : List (Node × Node)}
    (h : insertAll r m l = some m') : ∃ kl, keyed l = some kl ∧
      (∀ e ∈ kl, ∃ v, IsOptional r IsText e.2 v) ∧ (AMap.WF m → AMap.WF m') ∧
      ∀ k v, m'.get? k = some v ↔ (∃ n, Last kl k n ∧ IsOptional r IsText n v) ∨
        (k ∉ kl.map (·.1) ∧ m.get? k = some v) := by
  induction l generalizing m with
  | nil =>
    cases h
    refine ⟨[], rfl, by simp, fun h => h, fun k v => ?_⟩
    simp [Last]
  | cons e l ih =>
    obtain ⟨kn, vn⟩ := e
    simp only [insertAll, Option.bind_eq_some_iff] at h
    obtain ⟨k, hk, v, hv, h⟩ := h
    obtain ⟨kl, h1, h2, h3, h4⟩ := ih h
    rw [optional_iff text_iff] at hv
    refine ⟨(k, vn) :: kl, ?_, ?_, fun hm => h3 (hm.insert k v), fun k' v' => ?_⟩
    · rw [keyed_cons, hk, h1]
      rfl
    · intro e he
      rcases List.mem_cons.mp he with rfl | he
      · exact ⟨v, hv⟩
      · exact h2 e he
    · rw [h4]
      by_cases hkk : k = k'
      · subst hkk
        rw [AMap.get?_insert_self]
        simp only [last_cons, List.map_cons, List.mem_cons, true_or, not_true_eq_false, false_and,
          or_false, Option.some.injEq]
        constructor
        · rintro (⟨n, hn, ho⟩ | ⟨hn, rfl⟩)
          · exact ⟨n, .inl hn, ho⟩
          · exact ⟨vn, .inr ⟨trivial, rfl, hn⟩, hv⟩
        · rintro ⟨n, hn | ⟨-, rfl, hn⟩, ho⟩
          · exact .inl ⟨n, hn, ho⟩
          · refine .inr ⟨hn, ?_⟩
            rw [← optional_iff text_iff] at hv ho
            rw [hv] at ho
            exact Option.some.inj ho
      · rw [AMap.get?_insert_ne _ _ hkk]
        simp [last_cons, hkk, Ne.symm hkk]

theorem insertAll_complete {m : AMap Str (Option Str)} {l : List (Node × Node)}
    {kl : List (Str × Node)} (hl : keyed l = some kl)
    (h : ∀ e ∈ kl, ∃ v, IsOptional r IsText e.2 v) : ∃ m', insertAll r m l = some m' := by
  induction l generalizing m kl with
  | nil => exact ⟨m, rfl⟩
  | cons e l ih =>
    obtain ⟨kn, vn⟩ := e
    rw [keyed_cons] at hl
    simp only [Option.bind_eq_some_iff, Option.map_eq_some_iff] at hl
    obtain ⟨k, hk, kl', hl, rfl⟩ := hl
    obtain ⟨v, hv⟩ := h _ (List.mem_cons_self ..)
    rw [← optional_iff text_iff] at hv
    obtain ⟨m', hm⟩ := ih (m := m.insert k v) hl fun e he => h e (List.mem_cons_of_mem _ he)
    exact ⟨m', by simp only [insertAll, hk, Option.bind_some, hv, hm]⟩

theorem envEntry_sound {n : Node} {vs : List (Str × Option Str)}
    (h : envEntry r ord n = some vs) : IsVariables r n vs := by
  simp only [envEntry, Option.bind_eq_some_iff, Option.map_eq_some_iff] at h
  obtain ⟨l, h1, m, h2, rfl⟩ := h
  obtain ⟨kl, h3, h4, h5, h6⟩ := insertAll_sound h2
  have hw := h5 AMap.WF.nil
  refine ⟨kl, isMapping_iff.mp (by rw [h1]; exact h3), h4,
    ((ord.perm m).map _).nodup_iff.mpr hw, fun k v => ?_⟩
  rw [(ord.perm m).mem_iff, AMap.mem_iff_get? hw, h6]
  simp only [AMap.get?_nil, reduceCtorEq, and_false, or_false]
  constructor
  · rintro ⟨n, ⟨front, back, e, hn⟩, ho⟩
    exact ⟨front, back, n, e, hn, ho⟩
  · rintro ⟨front, back, n, e, hn, ho⟩
    exact ⟨n, ⟨front, back, e, hn⟩, ho⟩

theorem envEntry_complete {n : Node} {vs : List (Str × Option Str)} (h : IsVariables r n vs) :
    ∃ vs', envEntry r ord n = some vs' ∧ vs'.Perm vs := by
  obtain ⟨kl, h1, h2, h3, h4⟩ := h
  have h1' := isMapping_iff.mpr h1
  rw [Option.bind_eq_some_iff] at h1'
  obtain ⟨l, hl, hk⟩ := h1'
  obtain ⟨m, hm⟩ := insertAll_complete (m := []) hk h2
  have hv : envEntry r ord n = some (ord.apply m) := by
    simp only [envEntry, hl, Option.bind_some, hm, Option.map_some]
  refine ⟨_, hv, ?_⟩
  obtain ⟨kl', g1, g2, g3, g4⟩ := envEntry_sound hv
  have : kl' = kl := by
    have := isMapping_iff.mpr g1
    rw [isMapping_iff.mpr h1] at this
    exact (Option.some.inj this).symm
  subst this
  refine (List.perm_ext_iff_of_nodup (List.Nodup.of_map _ g3) (List.Nodup.of_map _ h3)).mpr fun e => ?_
  obtain ⟨k, v⟩ := e
  rw [g4, h4]

/-- Defaults, when a value is only read up to some equivalence. -/
theorem gather_complete {α : Type} {key : String} {dec : Node → Option α}
    {P : Node → α → Prop} {E : α → α → Prop} {d : α} (hd : E d d)
    (h : ∀ n a, P n a → ∃ a', dec n = some a' ∧ E a' a) {l : List (Str × Node)} {a : α}
    (hl : Defaulted l key P d a) :
    ∃ o, gather key.toList dec none l = some o ∧ E (o.getD d) a := by
  rcases hl with ⟨h1, rfl⟩ | ⟨n, h1, h2⟩
  · exact ⟨none, gather_none.mpr (.inl ⟨h1, rfl⟩), hd⟩
  · obtain ⟨a', h3, h4⟩ := h n a h2
    exact ⟨some a', gather_none.mpr (.inr ⟨n, a', h1, h3, rfl⟩), h4⟩

theorem gather_sound {α : Type} {key : String} {dec : Node → Option α}
    {P : Node → α → Prop} (h : ∀ n a, dec n = some a → P n a) {l : List (Str × Node)} {d : α}
    {o : Option α} (hl : gather key.toList dec none l = some o) :
    Defaulted l key P d (o.getD d) := by
  rcases gather_none.mp hl with ⟨h1, rfl⟩ | ⟨n, a, h1, h2, rfl⟩
  · exact .inl ⟨h1, rfl⟩
  · exact .inr ⟨n, h1, h n a h2⟩

theorem program_sound {n : Node} {c : ProcessConfig} (h : program r ord n = some c) :
    IsProgram r n c := by
  unfold program at h
  split at h
  · exact .inr ⟨_, rfl, h⟩
  · simp only [Option.bind_eq_some_iff] at h
    obtain ⟨l, h1, s, h2, h3⟩ := h
    obtain ⟨kl, hk, g1, g2, g3, g4, g5, g6, g7, g8, g9, g10, g11, g12, g13, g14⟩ :=
      slots_iff.mp h2
    simp only [finish, Option.map_eq_some_iff] at h3
    obtain ⟨name, hn, rfl⟩ := h3
    rw [hn] at g1
    refine .inl ⟨kl, isMapping_iff.mp (by rw [h1]; exact hk), ?_⟩
    have ht : ∀ n a, text n = some a → IsText n a := fun _ _ => text_iff.mp
    have hl : ∀ n a, Decode.list text n = some a → IsList IsText n a :=
      fun _ _ => (list_iff text_iff).mp
    have ho : ∀ n a, Decode.optional r text n = some a → IsOptional r IsText n a :=
      fun _ _ => (optional_iff text_iff).mp
    have hi : ∀ n a, Decode.optional r (Decode.int r) n = some a →
      IsOptional r (IsNumber r) n a := fun _ _ => (optional_iff int_iff).mp
    exact ⟨(gather_required text_iff).mp g1, gather_sound ho g2, gather_sound hl g3,
      gather_sound ho g4, gather_sound (fun _ _ => type_iff.mp) g5, gather_sound hi g6,
      gather_sound hi g7, gather_sound ho g8, gather_sound ho g9, gather_sound hl g10,
      gather_sound hl g11, gather_sound (fun _ _ => bool_iff.mp) g12, gather_sound hl g13,
      gather_sound (fun _ _ => list_sound fun _ _ => envEntry_sound) g14⟩

theorem program_complete {n : Node} {c : ProcessConfig} (h : IsProgram r n c) :
    ∃ c', program r ord n = some c' ∧ SameProgram c' c := by
  rcases h with ⟨kl, hm, h⟩ | ⟨ns, rfl, h⟩
  · have hm' := isMapping_iff.mpr hm
    rw [Option.bind_eq_some_iff] at hm'
    obtain ⟨l, hl, hk⟩ := hm'
    have hns : ∀ ns, n ≠ .seq ns := by
      rintro ns rfl
      rcases hm with ⟨_, e, -⟩ | ⟨e, -⟩ <;> cases e
    have g1 := (gather_required text_iff).mpr h.name
    obtain ⟨o2, g2, e2⟩ := (gather_defaulted (optional_iff text_iff)).mpr h.path
    obtain ⟨o3, g3, e3⟩ := (gather_defaulted (list_iff text_iff)).mpr h.args
    obtain ⟨o4, g4, e4⟩ := (gather_defaulted (optional_iff text_iff)).mpr h.workdir
    obtain ⟨o5, g5, e5⟩ := (gather_defaulted type_iff).mpr h.type
    obtain ⟨o6, g6, e6⟩ := (gather_defaulted (optional_iff int_iff)).mpr h.uid
    obtain ⟨o7, g7, e7⟩ := (gather_defaulted (optional_iff int_iff)).mpr h.gid
    obtain ⟨o8, g8, e8⟩ := (gather_defaulted (optional_iff text_iff)).mpr h.user
    obtain ⟨o9, g9, e9⟩ := (gather_defaulted (optional_iff text_iff)).mpr h.group
    obtain ⟨o10, g10, e10⟩ := (gather_defaulted (list_iff text_iff)).mpr h.before
    obtain ⟨o11, g11, e11⟩ := (gather_defaulted (list_iff text_iff)).mpr h.after
    obtain ⟨o12, g12, e12⟩ := (gather_defaulted bool_iff).mpr h.pty
    obtain ⟨o13, g13, e13⟩ := (gather_defaulted (list_iff text_iff)).mpr h.capabilities
    obtain ⟨o14, g14, e14⟩ := gather_complete (E := List.Forall₂ List.Perm) .nil
      (fun n a (h : IsList (IsVariables r) n a) => list_complete
        (fun n a (h : IsVariables r n a) => envEntry_complete (ord := ord) h) h) h.env
    have hs : slots r ord {} l = some ⟨some c.name, o2, o3, o4, o5, o6, o7, o8, o9, o10, o11,
        o12, o13, o14⟩ :=
      slots_iff.mpr ⟨kl, hk, g1, g2, g3, g4, g5, g6, g7, g8, g9, g10, g11, g12, g13, g14⟩
    have hp : program r ord n = (entries n).bind fun l => (slots r ord {} l).bind finish := by
      unfold program
      split
      · exact absurd rfl (hns _)
      · rfl
    refine ⟨{ c with env := o14.getD [] }, ?_, e14, rfl⟩
    rw [hp, hl]
    simp only [Option.bind_some, hs, finish, Option.map_some, e2, e3, e4, e5, e6, e7, e8, e9,
      e10, e11, e12, e13]
  · exact ⟨c, h, List.forall₂_same.mpr fun _ _ => .refl _, rfl⟩

theorem programs_eq {ps : Option (List ProcessConfig)} {l : List (Node × Node)} :
    programs r ord ps l =
      (keyed l).bind (gather "programs".toList (Decode.list (program r ord)) ps) := by
  induction l generalizing ps with
  | nil => rfl
  | cons e l ih =>
    obtain ⟨k, v⟩ := e
    rw [keyed_cons]
    unfold programs
    cases hk : text k with
    | none => rfl
    | some k =>
      simp only [Option.bind_some]
      split
      · rename_i hk
        cases ho : once ps (Decode.list (program r ord) v) with
        | none => cases keyed l <;> simp only [Option.bind_none, Option.map_none, Option.map_some,
            Option.bind_some, gather, hk, ho, if_true]
        | some t' =>
          simp only [Option.bind_some, ih]
          cases keyed l <;> simp only [Option.bind_none, Option.map_none, Option.map_some,
            Option.bind_some, gather, hk, ho, if_true]
      · rename_i hk
        rw [ih]
        cases keyed l <;> simp only [Option.bind_none, Option.map_none, Option.map_some,
            Option.bind_some, gather, hk, if_false]

theorem config_sound {n : Node} {c : Config} (h : config r ord n = some c) : IsConfig r n c := by
  unfold config at h
  split at h
  · exact .inr ⟨_, rfl, h⟩
  · simp only [Option.bind_eq_some_iff, Option.map_eq_some_iff, programs_eq] at h
    obtain ⟨l, h1, o, ⟨kl, h2, h3⟩, ps, rfl, rfl⟩ := h
    refine .inl ⟨kl, isMapping_iff.mp (by rw [h1]; exact h2), ?_⟩
    rcases gather_none.mp h3 with ⟨-, h4⟩ | ⟨n, a, h4, h5, h6⟩
    · cases h4
    · cases h6
      exact ⟨n, h4, list_sound (fun _ _ => program_sound) h5⟩

theorem config_complete {n : Node} {c : Config} (h : IsConfig r n c) :
    ∃ c', config r ord n = some c' ∧ List.Forall₂ SameProgram c'.programs c.programs := by
  rcases h with ⟨kl, hm, np, h1, h2⟩ | ⟨ns, rfl, h⟩
  · have hm' := isMapping_iff.mpr hm
    rw [Option.bind_eq_some_iff] at hm'
    obtain ⟨l, hl, hk⟩ := hm'
    obtain ⟨ps, h3, h4⟩ := list_complete (E := SameProgram)
      (fun n a (h : IsProgram r n a) => program_complete (ord := ord) h) h2
    have hg : gather "programs".toList (Decode.list (program r ord)) none kl = some (some ps) :=
      gather_none.mpr (.inr ⟨np, ps, h1, h3, rfl⟩)
    have hp : config r ord n = (entries n).bind fun l =>
        (programs r ord none l).bind fun ps => ps.map (⟨·⟩) := by
      unfold config
      split
      · rcases hm with ⟨_, e, -⟩ | ⟨e, -⟩ <;> cases e
      · rfl
    refine ⟨⟨ps⟩, ?_, h4⟩
    rw [hp, hl]
    simp only [Option.bind_some, programs_eq, hk, hg, Option.map_some]
  · exact ⟨c, h, List.forall₂_same.mpr fun _ _ => ⟨List.forall₂_same.mpr fun _ _ => .refl _, rfl⟩⟩

end Cinit
