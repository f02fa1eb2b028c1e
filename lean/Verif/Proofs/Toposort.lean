import Verif.Model.DepGraph
/-!
# An instance of the `Toposort` interface

Shows that the assumptions made about petgraph's `toposort` are satisfiable, and gives an
executable instance for the concrete examples. (Warshall's transitive closure.)
-/

namespace Cinit

/-- Transitive closure through the intermediate nodes `ks`. -/
def warshall : List Nat → (Nat → Nat → Bool) → Nat → Nat → Bool
  | [], r => r
  | k :: ks, r => warshall ks (fun i j => r i j || (r i k && r k j))

/-- Paths whose interior nodes are in `K`. -/
inductive PathIn (r : Nat → Nat → Prop) (K : Nat → Prop) : Nat → Nat → Prop
  | edge {i j : Nat} : r i j → PathIn r K i j
  | via {i m j : Nat} : K m → PathIn r K i m → PathIn r K m j → PathIn r K i j

theorem PathIn.transGen {r : Nat → Nat → Prop} {K : Nat → Prop} {i j : Nat}
    (h : PathIn r K i j) : Relation.TransGen r i j := by
  induction h with
  | edge h => exact .single h
  | via _ _ _ ih1 ih2 => exact Relation.TransGen.trans ih1 ih2

theorem PathIn.split {r : Nat → Nat → Prop} {K : Nat → Prop} {k i j : Nat}
    (h : PathIn r (fun m => m = k ∨ K m) i j) :
    PathIn r K i j ∨ (PathIn r K i k ∧ PathIn r K k j) := by
  induction h with
  | edge h => exact .inl (.edge h)
  | via hm _ _ ih1 ih2 =>
    rcases hm with rfl | hm
    · refine .inr ⟨?_, ?_⟩
      · rcases ih1 with h | h
        · exact h
        · exact h.1
      · rcases ih2 with h | h
        · exact h
        · exact h.2
    · rcases ih1 with h1 | ⟨h1, h1'⟩ <;> rcases ih2 with h2 | ⟨h2, h2'⟩
      · exact .inl (.via hm h1 h2)
      · exact .inr ⟨.via hm h1 h2, h2'⟩
      · exact .inr ⟨h1, .via hm h1' h2⟩
      · exact .inr ⟨h1, h2'⟩

theorem warshall_sound (e : Nat → Nat → Prop) (ks : List Nat) (r : Nat → Nat → Bool)
    (hr : ∀ i j, r i j = true → Relation.TransGen e i j) {i j : Nat}
    (h : warshall ks r i j = true) : Relation.TransGen e i j := by
  induction ks generalizing r with
  | nil => exact hr i j h
  | cons k ks ih =>
    refine ih _ ?_ h
    intro a b hab
    simp at hab
    rcases hab with hab | ⟨h1, h2⟩
    · exact hr a b hab
    · exact Relation.TransGen.trans (hr a k h1) (hr k b h2)

theorem warshall_complete (e : Nat → Nat → Prop) (ks : List Nat) (r : Nat → Nat → Bool)
    (K : Nat → Prop) (hr : ∀ i j, PathIn e K i j → r i j = true) {i j : Nat}
    (h : PathIn e (fun m => m ∈ ks ∨ K m) i j) : warshall ks r i j = true := by
  induction ks generalizing r K with
  | nil =>
    refine hr i j ?_
    clear hr
    induction h with
    | edge h => exact .edge h
    | via hm _ _ h1 h2 =>
      rcases hm with hm | hm
      · cases hm
      · exact .via hm h1 h2
  | cons k ks ih =>
    refine ih _ (fun m => m = k ∨ K m) ?_ ?_
    · intro a b hab
      rcases hab.split with h | ⟨h1, h2⟩
      · simp [hr a b h]
      · simp [hr a k h1, hr k b h2]
    · clear ih hr
      induction h with
      | edge h => exact .edge h
      | via hm _ _ h1 h2 =>
        refine .via ?_ h1 h2
        rcases hm with hm | hm
        · rcases List.mem_cons.mp hm with hm | hm
          · exact .inr (.inl hm)
          · exact .inl hm
        · exact .inr (.inr hm)

theorem pathIn_of_transGen {nodes : List Nat} {edges : List (Nat × Nat)}
    (hin : ∀ e ∈ edges, e.1 ∈ nodes ∧ e.2 ∈ nodes) {i j : Nat}
    (h : Relation.TransGen (EdgeRel edges) i j) :
    PathIn (EdgeRel edges) (fun m => m ∈ nodes ∨ False) i j := by
  induction h with
  | single h => exact .edge h
  | tail _ h2 ih => exact .via (.inl (hin _ h2).1) ih (.edge h2)

/-- The closure of an edge list. -/
def closure (nodes : List Nat) (edges : List (Nat × Nat)) : Nat → Nat → Bool :=
  warshall nodes (fun i j => edges.contains (i, j))

theorem closure_iff {nodes : List Nat} {edges : List (Nat × Nat)}
    (hin : ∀ e ∈ edges, e.1 ∈ nodes ∧ e.2 ∈ nodes) (i j : Nat) :
    closure nodes edges i j = true ↔ Relation.TransGen (EdgeRel edges) i j := by
  constructor
  · apply warshall_sound
    intro a b h
    exact .single (by simpa [EdgeRel] using h)
  · intro h
    refine warshall_complete (EdgeRel edges) nodes _ (fun _ => False) ?_
      (pathIn_of_transGen hin h)
    intro a b hab
    cases hab with
    | edge h => exact List.contains_iff_mem.mpr h
    | via h => exact h.elim

theorem mem_nodes_of_cycle {nodes : List Nat} {edges : List (Nat × Nat)}
    (hin : ∀ e ∈ edges, e.1 ∈ nodes ∧ e.2 ∈ nodes) {i j : Nat}
    (h : Relation.TransGen (EdgeRel edges) i j) : j ∈ nodes := by
  cases h with
  | single h => exact (hin _ h).2
  | tail _ h => exact (hin _ h).2

/-- An executable `Toposort`. -/
def Toposort.warshall : Toposort where
  run nodes edges := nodes.find? (fun i => closure nodes edges i i)
  none_of_acyclic := by
    intro nodes edges hin hac
    rw [List.find?_eq_none]
    intro i _ h
    exact hac i ((closure_iff hin i i).mp h)
  some_of_cyclic := by
    intro nodes edges hin ⟨i, hi⟩
    cases hf : nodes.find? (fun i => closure nodes edges i i) with
    | none =>
      rw [List.find?_eq_none] at hf
      exact absurd ((closure_iff hin i i).mpr hi) (hf i (mem_nodes_of_cycle hin hi))
    | some k =>
      exact ⟨k, rfl, List.mem_of_find?_eq_some hf,
        (closure_iff hin k k).mp (List.find?_some (p := fun i => closure nodes edges i i) hf)⟩

end Cinit
