import Verif.Base.Res
/-!
# Association maps: the model of `std::collections::HashMap`

Keys are unique by construction of `insert`. The order of the list carries no
meaning; whenever Rust iterates, the model goes through `HashOrder`.
-/

namespace Cinit

abbrev AMap (κ ν : Type) := List (κ × ν)

namespace AMap

variable {κ ν : Type} [DecidableEq κ]

/-- `HashMap::get` -/
def get? : AMap κ ν → κ → Option ν
  | [], _ => none
  | (k', v) :: m, k => if k' = k then some v else get? m k

/-- `HashMap::remove` (the map part) -/
def erase : AMap κ ν → κ → AMap κ ν
  | [], _ => []
  | (k', v) :: m, k => if k' = k then erase m k else (k', v) :: erase m k

/-- `HashMap::insert` (the map part) -/
def insert (m : AMap κ ν) (k : κ) (v : ν) : AMap κ ν := (k, v) :: erase m k

/-- `HashMap::keys` -/
def keys (m : AMap κ ν) : List κ := m.map (·.1)

/-- `HashMap::contains_key` -/
def contains (m : AMap κ ν) (k : κ) : Bool := (get? m k).isSome

@[simp] theorem get?_nil (k : κ) : get? ([] : AMap κ ν) k = none := rfl

@[simp] theorem get?_cons (k' : κ) (v : ν) (m : AMap κ ν) (k : κ) :
    get? ((k', v) :: m) k = if k' = k then some v else get? m k := rfl

theorem get?_erase (m : AMap κ ν) (k k' : κ) :
    get? (erase m k) k' = if k = k' then none else get? m k' := by
  induction m with
  | nil => simp [erase]
  | cons p m ih =>
    obtain ⟨a, v⟩ := p
    simp only [erase]
    split
    · rename_i h; subst h
      rw [ih]; split <;> simp_all
    · rename_i h
      simp only [get?_cons, ih]
      split
      · rename_i h2; subst h2; split
        · rename_i h3; exact absurd h3.symm h
        · rfl
      · rfl

@[simp] theorem get?_erase_self (m : AMap κ ν) (k : κ) : get? (erase m k) k = none := by
  simp [get?_erase]

theorem get?_erase_ne (m : AMap κ ν) {k k' : κ} (h : k ≠ k') :
    get? (erase m k) k' = get? m k' := by
  simp [get?_erase, h]

theorem get?_insert (m : AMap κ ν) (k : κ) (v : ν) (k' : κ) :
    get? (insert m k v) k' = if k = k' then some v else get? m k' := by
  simp only [insert, get?_cons]
  split
  · rfl
  · rename_i h; rw [get?_erase_ne _ h]

@[simp] theorem get?_insert_self (m : AMap κ ν) (k : κ) (v : ν) :
    get? (insert m k v) k = some v := by simp [get?_insert]

theorem get?_insert_ne (m : AMap κ ν) {k k' : κ} (v : ν) (h : k ≠ k') :
    get? (insert m k v) k' = get? m k' := by simp [get?_insert, h]

theorem mem_of_get? {m : AMap κ ν} {k : κ} {v : ν} (h : get? m k = some v) : (k, v) ∈ m := by
  induction m with
  | nil => simp at h
  | cons p m ih =>
    obtain ⟨a, b⟩ := p
    simp only [get?_cons] at h
    split at h
    · simp_all
    · exact List.mem_cons_of_mem _ (ih h)

theorem get?_isSome_iff_mem_keys (m : AMap κ ν) (k : κ) :
    (get? m k).isSome ↔ k ∈ keys m := by
  induction m with
  | nil => simp [keys]
  | cons p m ih =>
    obtain ⟨a, b⟩ := p
    simp only [get?_cons, keys, List.map_cons, List.mem_cons]
    split
    · rename_i h; simp [h]
    · rename_i h
      have h' : ¬ k = a := fun e => h e.symm
      simp only [h', false_or]
      exact ih

theorem get?_eq_none_iff (m : AMap κ ν) (k : κ) : get? m k = none ↔ k ∉ keys m := by
  rw [← get?_isSome_iff_mem_keys]; cases get? m k <;> simp

theorem mem_keys_of_get? {m : AMap κ ν} {k : κ} {v : ν} (h : get? m k = some v) :
    k ∈ keys m := by
  rw [← get?_isSome_iff_mem_keys]; simp [h]

theorem exists_get?_of_mem_keys {m : AMap κ ν} {k : κ} (h : k ∈ keys m) :
    ∃ v, get? m k = some v := by
  rw [← get?_isSome_iff_mem_keys] at h
  exact Option.isSome_iff_exists.mp h

theorem mem_keys_erase (m : AMap κ ν) (k k' : κ) :
    k' ∈ keys (erase m k) ↔ k' ∈ keys m ∧ k' ≠ k := by
  rw [← get?_isSome_iff_mem_keys, ← get?_isSome_iff_mem_keys, get?_erase]
  split
  · rename_i h; simp [h]
  · rename_i h
    have : k' ≠ k := fun e => h e.symm
    simp [this]

theorem mem_keys_insert (m : AMap κ ν) (k : κ) (v : ν) (k' : κ) :
    k' ∈ keys (insert m k v) ↔ k' = k ∨ k' ∈ keys m := by
  rw [← get?_isSome_iff_mem_keys, ← get?_isSome_iff_mem_keys, get?_insert]
  split
  · rename_i h; simp [h]
  · rename_i h
    have : k' ≠ k := fun e => h e.symm
    simp [this]

/-- The key-uniqueness invariant. -/
def WF (m : AMap κ ν) : Prop := (keys m).Nodup

omit [DecidableEq κ] in
theorem WF.nil : WF ([] : AMap κ ν) := by simp [WF, keys]

theorem erase_sublist (m : AMap κ ν) (k : κ) : (erase m k).Sublist m := by
  induction m with
  | nil => simp [erase]
  | cons p m ih =>
    obtain ⟨a, b⟩ := p
    simp only [erase]
    split
    · exact ih.cons _
    · exact ih.cons_cons _

theorem WF.erase {m : AMap κ ν} (h : WF m) (k : κ) : WF (erase m k) :=
  List.Nodup.sublist ((erase_sublist m k).map _) h

theorem WF.insert {m : AMap κ ν} (h : WF m) (k : κ) (v : ν) : WF (insert m k v) := by
  show (k :: keys (AMap.erase m k)).Nodup
  rw [List.nodup_cons]
  refine ⟨?_, h.erase k⟩
  rw [mem_keys_erase]; simp

theorem get?_of_mem {m : AMap κ ν} (h : WF m) {k : κ} {v : ν} (hm : (k, v) ∈ m) :
    get? m k = some v := by
  induction m with
  | nil => simp at hm
  | cons p m ih =>
    obtain ⟨a, b⟩ := p
    simp only [WF, keys, List.map_cons, List.nodup_cons] at h
    simp only [List.mem_cons, Prod.mk.injEq] at hm
    simp only [get?_cons]
    rcases hm with ⟨rfl, rfl⟩ | hm
    · simp
    · have : a ≠ k := by
        intro e; subst e
        exact h.1 (List.mem_map_of_mem (f := (·.1)) hm)
      simp [this, ih h.2 hm]

theorem mem_iff_get? {m : AMap κ ν} (h : WF m) {k : κ} {v : ν} :
    (k, v) ∈ m ↔ get? m k = some v := ⟨get?_of_mem h, mem_of_get?⟩

/-- Two well-formed maps with the same lookup have the same entries up to order. -/
theorem perm_of_get?_eq [DecidableEq ν] {m m' : AMap κ ν} (h : WF m) (h' : WF m')
    (e : ∀ k, get? m k = get? m' k) : List.Perm m m' := by
  have nd : ∀ {l : AMap κ ν}, WF l → l.Nodup := by
    intro l hl
    exact List.Pairwise.of_map (fun (p : κ × ν) => p.1) (fun a b hab e => hab (by rw [e])) hl
  rw [List.perm_ext_iff_of_nodup (nd h) (nd h')]
  rintro ⟨k, v⟩
  rw [mem_iff_get? h, mem_iff_get? h', e]

theorem isEmpty_iff_get? (m : AMap κ ν) : m.isEmpty = true ↔ ∀ k, get? m k = none := by
  cases m with
  | nil => simp
  | cons p m =>
    simp only [List.isEmpty_cons, Bool.false_eq_true, false_iff]
    intro h
    have := h p.1
    obtain ⟨a, b⟩ := p
    simp at this

end AMap
end Cinit
