import Verif.Base.Text
/-!
# Lemmas about the string primitives
-/

namespace Cinit

theorem strLe_refl (a : Str) : strLe a a = true := by
  induction a with
  | nil => rfl
  | cons x xs ih => simp [strLe, ih]

theorem strLe_total (a b : Str) : strLe a b = true ∨ strLe b a = true := by
  induction a generalizing b with
  | nil => simp [strLe]
  | cons x xs ih =>
    cases b with
    | nil => simp [strLe]
    | cons y ys =>
      simp only [strLe]
      split
      · simp
      · split
        · simp
        · simpa using ih ys

theorem strLe_antisymm {a b : Str} (h1 : strLe a b = true) (h2 : strLe b a = true) : a = b := by
  induction a generalizing b with
  | nil => cases b with
    | nil => rfl
    | cons y ys => simp [strLe] at h2
  | cons x xs ih =>
    cases b with
    | nil => simp [strLe] at h1
    | cons y ys =>
      simp only [strLe] at h1 h2
      by_cases hxy : x.toNat < y.toNat
      · have hyx : ¬ y.toNat < x.toNat := by omega
        simp [hxy, hyx] at h2
      · by_cases hyx : y.toNat < x.toNat
        · simp [hxy, hyx] at h1
        · simp only [hxy, hyx, if_false] at h1 h2
          have he : x.toNat = y.toNat := by omega
          have : x = y := by
            apply Char.ext
            exact UInt32.toNat_inj.mp he
          subst this
          rw [ih h1 h2]

theorem strLe_trans {a b c : Str} (h1 : strLe a b = true) (h2 : strLe b c = true) :
    strLe a c = true := by
  induction a generalizing b c with
  | nil => simp [strLe]
  | cons x xs ih =>
    cases b with
    | nil => simp [strLe] at h1
    | cons y ys =>
      cases c with
      | nil => simp [strLe] at h2
      | cons z zs =>
        have h1' : x.toNat < y.toNat ∨ (x.toNat = y.toNat ∧ strLe xs ys = true) := by
          simp only [strLe] at h1
          by_cases hxy : x.toNat < y.toNat
          · exact .inl hxy
          · by_cases hyx : y.toNat < x.toNat
            · simp [hxy, hyx] at h1
            · simp only [hxy, hyx, if_false] at h1
              exact .inr ⟨by omega, h1⟩
        have h2' : y.toNat < z.toNat ∨ (y.toNat = z.toNat ∧ strLe ys zs = true) := by
          simp only [strLe] at h2
          by_cases hxy : y.toNat < z.toNat
          · exact .inl hxy
          · by_cases hyx : z.toNat < y.toNat
            · simp [hxy, hyx] at h2
            · simp only [hxy, hyx, if_false] at h2
              exact .inr ⟨by omega, h2⟩
        simp only [strLe]
        by_cases hxz : x.toNat < z.toNat
        · simp [hxz]
        · have : ¬ z.toNat < x.toNat := by omega
          simp only [hxz, this, if_false]
          rcases h1' with h1' | h1'
          · omega
          · rcases h2' with h2' | h2'
            · omega
            · exact ih h1'.2 h2'.2

theorem mem_insertSorted {x y : Str} {l : List Str} :
    y ∈ insertSorted x l ↔ y = x ∨ y ∈ l := by
  induction l with
  | nil => simp [insertSorted]
  | cons z zs ih =>
    simp only [insertSorted]
    split
    · simp
    · simp [ih]; grind

theorem mem_sortStr {y : Str} {l : List Str} : y ∈ sortStr l ↔ y ∈ l := by
  induction l with
  | nil => simp [sortStr]
  | cons x xs ih =>
    show y ∈ insertSorted x (sortStr xs) ↔ _
    rw [mem_insertSorted, ih]; simp

theorem insertSorted_sorted {x : Str} {l : List Str}
    (h : l.Pairwise (fun a b => strLe a b = true)) :
    (insertSorted x l).Pairwise (fun a b => strLe a b = true) := by
  induction l with
  | nil => simp [insertSorted]
  | cons y ys ih =>
    simp only [insertSorted]
    rw [List.pairwise_cons] at h
    split
    · rename_i hle
      refine List.pairwise_cons.mpr ⟨?_, List.pairwise_cons.mpr h⟩
      intro a ha
      rcases List.mem_cons.mp ha with rfl | ha
      · exact hle
      · exact strLe_trans hle (h.1 a ha)
    · rename_i hle
      refine List.pairwise_cons.mpr ⟨?_, ih h.2⟩
      intro a ha
      rcases mem_insertSorted.mp ha with rfl | ha
      · rcases strLe_total a y with h' | h'
        · exact absurd h' hle
        · exact h'
      · exact h.1 a ha

theorem sortStr_sorted (l : List Str) :
    (sortStr l).Pairwise (fun a b => strLe a b = true) := by
  induction l with
  | nil => simp [sortStr]
  | cons x xs ih => exact insertSorted_sorted ih

theorem mem_dedupAdj {x : Str} (l : List Str) : x ∈ dedupAdj l ↔ x ∈ l := by
  fun_induction dedupAdj l <;> simp_all

theorem dedupAdj_nodup {l : List Str} (h : l.Pairwise (fun a b => strLe a b = true)) :
    (dedupAdj l).Nodup := by
  fun_induction dedupAdj l with
  | case1 => simp
  | case2 => simp
  | case3 y ys ih => exact ih (List.pairwise_cons.mp h).2
  | case4 x y ys hne ih =>
    have h' := List.pairwise_cons.mp h
    refine List.nodup_cons.mpr ⟨?_, ih h'.2⟩
    rw [mem_dedupAdj]
    intro hm
    rcases List.mem_cons.mp hm with e | hm
    · exact hne e
    · have h1 := h'.1 y (by simp)
      have h2 := (List.pairwise_cons.mp h'.2).1 x hm
      exact hne (strLe_antisymm h1 h2)

end Cinit
