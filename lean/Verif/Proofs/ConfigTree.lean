import Verif.Spec.Config
/-!
# Lemmas about reading the configuration tree
-/

namespace Cinit

open Spec

mutual
/-- All regular files with their positions, depth first. -/
def filesOf : FileTree → List (List Nat × Str)
  | .file c => [([], c)]
  | .dir es => filesOfEntries 0 es
  | .other => []
  | .unreadable => []
  | .badName => []
def filesOfEntries (i : Nat) : List FileTree → List (List Nat × Str)
  | [] => []
  | t :: ts => (filesOf t).map (fun x => (i :: x.1, x.2)) ++ filesOfEntries (i + 1) ts
end

mutual
theorem mem_filesOf : (t : FileTree) → (p : List Nat) → (c : Str) →
    ((p, c) ∈ filesOf t ↔ FileAt t p c)
  | .file c', p, c => by
    simp only [filesOf, List.mem_singleton, Prod.mk.injEq]
    constructor
    · rintro ⟨rfl, rfl⟩; exact .here _
    · intro h; cases h; exact ⟨rfl, rfl⟩
  | .dir es, p, c => by
    simp only [filesOf]
    rw [mem_filesOfEntries es 0 p c]
    constructor
    · rintro ⟨k, t, q, hk, rfl, hq⟩
      rw [Nat.zero_add]; exact .inside hk hq
    · intro h
      cases h with
      | inside hk hq => exact ⟨_, _, _, hk, by rw [Nat.zero_add], hq⟩
  | .other, p, c => by simp only [filesOf]; exact ⟨fun h => (by cases h), fun h => by cases h⟩
  | .unreadable, p, c => by simp only [filesOf]; exact ⟨fun h => (by cases h), fun h => by cases h⟩
  | .badName, p, c => by simp only [filesOf]; exact ⟨fun h => (by cases h), fun h => by cases h⟩
theorem mem_filesOfEntries : (es : List FileTree) → (i : Nat) → (p : List Nat) → (c : Str) →
    ((p, c) ∈ filesOfEntries i es ↔
      ∃ k t q, es[k]? = some t ∧ p = (i + k) :: q ∧ FileAt t q c)
  | [], i, p, c => by simp [filesOfEntries]
  | t :: ts, i, p, c => by
    simp only [filesOfEntries, List.mem_append, List.mem_map, Prod.exists, Prod.mk.injEq]
    rw [mem_filesOfEntries ts (i + 1) p c]
    constructor
    · rintro (⟨q, c', hq, rfl, rfl⟩ | ⟨k, t', q, hk, rfl, hq⟩)
      · exact ⟨0, t, q, by simp, by simp, (mem_filesOf t q c').mp hq⟩
      · exact ⟨k + 1, t', q, by simpa using hk, by congr 1; omega, hq⟩
    · rintro ⟨k, t', q, hk, rfl, hq⟩
      cases k with
      | zero =>
        simp at hk; subst hk
        exact .inl ⟨q, c, (mem_filesOf t q c).mpr hq, by simp, rfl⟩
      | succ k => exact .inr ⟨k, t', q, by simpa using hk, by congr 1; omega, hq⟩
end

theorem nodup_append' {α : Type} {a b : List α} (ha : a.Nodup) (hb : b.Nodup)
    (h : ∀ x ∈ a, x ∉ b) : (a ++ b).Nodup := by
  rw [List.nodup_append]
  exact ⟨ha, hb, fun x hx y hy e => h x hx (e ▸ hy)⟩

theorem nodup_map_inj {α β : Type} {f : α → β} {l : List α} (hf : ∀ x y, f x = f y → x = y)
    (h : l.Nodup) : (l.map f).Nodup := by
  unfold List.Nodup at *
  rw [List.pairwise_map]
  exact h.imp fun hne e => hne (hf _ _ e)

mutual
theorem filesOf_nodup : (t : FileTree) → (filesOf t).Nodup
  | .file c => by simp [filesOf]
  | .dir es => by simp only [filesOf]; exact filesOfEntries_nodup es 0
  | .other => by simp [filesOf]
  | .unreadable => by simp [filesOf]
  | .badName => by simp [filesOf]
theorem filesOfEntries_nodup : (es : List FileTree) → (i : Nat) → (filesOfEntries i es).Nodup
  | [], i => by simp [filesOfEntries]
  | t :: ts, i => by
    simp only [filesOfEntries]
    apply nodup_append'
    · apply nodup_map_inj _ (filesOf_nodup t)
      rintro ⟨a, b⟩ ⟨c, d⟩ h
      simpa using h
    · exact filesOfEntries_nodup ts (i + 1)
    · rintro ⟨p, c⟩ h1 h2
      rw [mem_filesOfEntries] at h2
      obtain ⟨k, t', q, -, rfl, -⟩ := h2
      simp at h1
      omega
end

mutual
theorem readConfig_cases : (t : FileTree) →
    (¬ HasUnreadable t ∧ ¬ HasBadName t ∧ readConfig t = .ok ((filesOf t).map (·.2))) ∨
    (HasUnreadable t ∧ readConfig t = .err 1) ∨
    (HasBadName t ∧ readConfig t = .panic .invalidUtf8)
  | .file c => .inl ⟨by rintro ⟨⟩, by rintro ⟨⟩, rfl⟩
  | .dir es => by
    rcases readEntries_cases es 0 with ⟨h1, h2, h3⟩ | ⟨⟨t, ht, h1⟩, h3⟩ | ⟨⟨t, ht, h1⟩, h3⟩
    · refine .inl ⟨?_, ?_, ?_⟩
      · intro h; cases h with | inside ht h => exact h1 _ ht h
      · intro h; cases h with | inside ht h => exact h2 _ ht h
      · simpa only [readConfig, filesOf] using h3
    · exact .inr (.inl ⟨.inside ht h1, by simpa only [readConfig] using h3⟩)
    · exact .inr (.inr ⟨.inside ht h1, by simpa only [readConfig] using h3⟩)
  | .other => .inl ⟨by rintro ⟨⟩, by rintro ⟨⟩, rfl⟩
  | .unreadable => .inr (.inl ⟨.here, rfl⟩)
  | .badName => .inr (.inr ⟨.here, rfl⟩)
theorem readEntries_cases : (es : List FileTree) → (i : Nat) →
    ((∀ t ∈ es, ¬ HasUnreadable t) ∧ (∀ t ∈ es, ¬ HasBadName t) ∧
      readEntries es = .ok ((filesOfEntries i es).map (·.2))) ∨
    ((∃ t ∈ es, HasUnreadable t) ∧ readEntries es = .err 1) ∨
    ((∃ t ∈ es, HasBadName t) ∧ readEntries es = .panic .invalidUtf8)
  | [], i => .inl ⟨by simp, by simp, rfl⟩
  | t :: ts, i => by
    rcases readConfig_cases t with ⟨h1, h2, h3⟩ | ⟨h1, h3⟩ | ⟨h1, h3⟩
    · rcases readEntries_cases ts (i + 1) with ⟨g1, g2, g3⟩ | ⟨⟨t', ht, g1⟩, g3⟩ | ⟨⟨t', ht, g1⟩, g3⟩
      · refine .inl ⟨by simpa using ⟨h1, g1⟩, by simpa using ⟨h2, g2⟩, ?_⟩
        simp [readEntries, h3, g3, filesOfEntries]
      · exact .inr (.inl ⟨⟨t', by simp [ht], g1⟩, by simp [readEntries, h3, g3]⟩)
      · exact .inr (.inr ⟨⟨t', by simp [ht], g1⟩, by simp [readEntries, h3, g3]⟩)
    · exact .inr (.inl ⟨⟨t, by simp, h1⟩, by simp [readEntries, h3]⟩)
    · exact .inr (.inr ⟨⟨t, by simp, h1⟩, by simp [readEntries, h3]⟩)
end

theorem foldl_config_merge (l : List Config) (c : Config) :
    (l.foldl Config.merge c).programs = c.programs ++ l.flatMap (·.programs) := by
  induction l generalizing c with
  | nil => simp
  | cons x xs ih => simp [ih, Config.merge]

theorem parseRawConfig_ok {yaml : Str → Option Config} {raw : List Str} {c : Config}
    (h : parseRawConfig yaml raw = .ok c) :
    (∀ s ∈ raw, (yaml s).isSome) ∧ c.programs = (raw.filterMap yaml).flatMap (·.programs) := by
  unfold parseRawConfig at h
  split at h
  · cases h
  · rename_i hn
    cases h
    refine ⟨?_, ?_⟩
    · intro s hs
      simp at hn
      cases hy : yaml s with
      | none => exact absurd hy (hn s hs)
      | some v => rfl
    · rw [foldl_config_merge]; simp

theorem parseRawConfig_err {yaml : Str → Option Config} {raw : List Str}
    (h : ∃ s ∈ raw, yaml s = none) : parseRawConfig yaml raw = .err 1 := by
  unfold parseRawConfig
  obtain ⟨s, hs, hy⟩ := h
  rw [if_pos]
  · rfl
  · simp only [List.any_map, List.any_eq_true]
    exact ⟨s, hs, by simp [hy]⟩

end Cinit
