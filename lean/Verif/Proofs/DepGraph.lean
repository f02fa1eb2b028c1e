import Verif.Model.DepGraph
import Verif.Spec.DepGraph
import Mathlib.Data.Fintype.Card
/-!
# Lemmas about the dependency graph
-/

namespace Cinit

open Spec

/-! ## Sums over maps -/

namespace AMap

/-- Sum of a measure over all values. -/
def sumBy {κ ν : Type} (f : ν → Nat) (m : AMap κ ν) : Nat := (m.map (fun x => f x.2)).sum

variable {κ ν : Type} [DecidableEq κ]

theorem erase_of_not_mem {m : AMap κ ν} {k : κ} (h : k ∉ keys m) : erase m k = m := by
  induction m with
  | nil => rfl
  | cons x xs ih =>
    obtain ⟨k', v'⟩ := x
    have h' : k ≠ k' ∧ k ∉ keys xs := by simpa [keys] using h
    have : erase ((k', v') :: xs) k = (k', v') :: erase xs k := by simp [erase, Ne.symm h'.1]
    rw [this, ih h'.2]

theorem sumBy_erase {m : AMap κ ν} {k : κ} {v : ν} (f : ν → Nat) (hwf : WF m)
    (h : get? m k = some v) : sumBy f m = f v + sumBy f (erase m k) := by
  induction m with
  | nil => cases h
  | cons x xs ih =>
    obtain ⟨k', v'⟩ := x
    have hnd : k' ∉ keys xs ∧ WF xs := by
      simpa [WF, keys] using hwf
    rw [get?_cons] at h
    by_cases hk : k' = k
    · subst hk
      simp at h
      subst h
      have : erase ((k', v') :: xs) k' = xs := by
        have h1 : erase ((k', v') :: xs) k' = erase xs k' := by simp [erase]
        rw [h1]
        exact erase_of_not_mem hnd.1
      rw [this]
      simp [sumBy]
    · simp [hk] at h
      have he : erase ((k', v') :: xs) k = (k', v') :: erase xs k := by
        simp [erase, hk]
      rw [he]
      have := ih hnd.2 h
      simp only [sumBy, List.map_cons, List.sum_cons] at this ⊢
      omega

theorem sumBy_insert {m : AMap κ ν} {k : κ} {v : ν} (v' : ν) (f : ν → Nat) (hwf : WF m)
    (h : get? m k = some v) : sumBy f (insert m k v') + f v = sumBy f m + f v' := by
  have h1 := sumBy_erase f hwf h
  have h2 : sumBy f (insert m k v') = f v' + sumBy f (erase m k) := by
    simp [sumBy, insert]
  omega

theorem sumBy_eq_zero {m : AMap κ ν} {f : ν → Nat} (hwf : WF m) :
    sumBy f m = 0 ↔ ∀ k v, get? m k = some v → f v = 0 := by
  unfold sumBy
  rw [List.sum_eq_zero_iff_forall_eq_nat]
  constructor
  · intro h k v hg
    exact h _ (List.mem_map.mpr ⟨(k, v), mem_of_get? hg, rfl⟩)
  · intro h n hn
    obtain ⟨⟨k, v⟩, hm, rfl⟩ := List.mem_map.mp hn
    exact h k v (get?_of_mem hwf hm)

end AMap

/-! ## Enumeration and names -/

theorem mem_enumerate {α : Type} {l : List α} {i : Nat} {a : α} :
    (i, a) ∈ enumerate l ↔ l[i]? = some a := by
  simp only [enumerate, List.mem_map, Prod.mk.injEq, Prod.exists]
  constructor
  · rintro ⟨a', i', h, rfl, rfl⟩
    exact List.mem_zipIdx_iff_getElem?.mp h
  · intro h
    exact ⟨a, i, List.mem_zipIdx_iff_getElem?.mpr h, rfl, rfl⟩

theorem getElem?_enumerate {α : Type} (l : List α) (i : Nat) :
    (enumerate l)[i]? = (l[i]?).map (fun a => (i, a)) := by
  simp only [enumerate, List.getElem?_map, List.getElem?_zipIdx, Option.map_map]
  congr 1
  funext a
  simp

theorem map_snd_enumerate {α : Type} (l : List α) : (enumerate l).map (·.2) = l := by
  simp only [enumerate, List.map_map]
  exact List.zipIdx_map_fst 0 l

theorem map_fst_enumerate {α : Type} (l : List α) : (enumerate l).map (·.1) = List.range l.length := by
  simp only [enumerate, List.map_map]
  have := List.zipIdx_map_snd 0 l
  rw [List.range_eq_range']
  exact this

namespace DepMgr

/-- What the name dictionary contains. -/
def NameDict (ps : List ProcessConfig) (nd : AMap Str Nat) : Prop :=
  ∀ n i, nd.get? n = some i ↔ ∃ c, ps[i]? = some c ∧ c.name = n

theorem buildNameDict_fold (l : List (Nat × ProcessConfig)) (acc : AMap Str Nat)
    (hnd : (l.map (·.2.name)).Nodup) (hdis : ∀ d ∈ l, acc.get? d.2.name = none) :
    ∃ nd, Res.foldlM (fun (result : AMap Str Nat) (d : Nat × ProcessConfig) =>
      if result.contains d.2.name then (.panic .duplicateName : Res DepError _)
      else .ok (result.insert d.2.name d.1)) acc l = .ok nd ∧
      ∀ n i, nd.get? n = some i ↔
        acc.get? n = some i ∨ ∃ c, (i, c) ∈ l ∧ c.name = n := by
  induction l generalizing acc with
  | nil => exact ⟨acc, rfl, by simp⟩
  | cons d ds ih =>
    obtain ⟨k, c⟩ := d
    simp only [List.map_cons, List.nodup_cons] at hnd
    have h0 : acc.get? c.name = none := hdis (k, c) (by simp)
    have hc : acc.contains c.name = false := by
      simp [AMap.contains, h0]
    obtain ⟨nd, h1, h2⟩ := ih (acc.insert c.name k) hnd.2 (by
      intro d hd
      rw [AMap.get?_insert_ne]
      · exact hdis d (by simp [hd])
      · intro e
        exact hnd.1 (List.mem_map.mpr ⟨d, hd, e.symm⟩))
    refine ⟨nd, by simp [hc, h1], ?_⟩
    intro n i
    rw [h2 n i, AMap.get?_insert]
    by_cases hn : c.name = n
    · subst hn
      simp only [if_true, Option.some.injEq, h0, List.mem_cons, Prod.mk.injEq]
      constructor
      · rintro (rfl | ⟨c', hm, he⟩)
        · exact .inr ⟨c, .inl ⟨rfl, rfl⟩, rfl⟩
        · exact .inr ⟨c', .inr hm, he⟩
      · rintro (h | ⟨c', ⟨rfl, rfl⟩ | hm, he⟩)
        · cases h
        · exact .inl rfl
        · exact .inr ⟨c', hm, he⟩
    · simp only [hn, if_false, List.mem_cons, Prod.mk.injEq]
      constructor
      · rintro (h | ⟨c', hm, he⟩)
        · exact .inl h
        · exact .inr ⟨c', .inr hm, he⟩
      · rintro (h | ⟨c', ⟨rfl, rfl⟩ | hm, he⟩)
        · exact .inl h
        · exact absurd he hn
        · exact .inr ⟨c', hm, he⟩

theorem buildNameDict_ok {ps : List ProcessConfig} (h : UniqueNames ps) :
    ∃ nd, buildNameDict (enumerate ps) = .ok nd ∧ NameDict ps nd := by
  obtain ⟨nd, h1, h2⟩ := buildNameDict_fold (enumerate ps) [] (by
    have : (enumerate ps).map (·.2.name) = ps.map (·.name) := by
      conv_rhs => rw [← map_snd_enumerate ps]
      rw [List.map_map]; rfl
    rw [this]; exact h) (by simp)
  refine ⟨nd, h1, ?_⟩
  intro n i
  rw [h2]
  simp [mem_enumerate]

theorem NameDict.none_iff {ps : List ProcessConfig} {nd : AMap Str Nat} (h : NameDict ps nd)
    (n : Str) : nd.get? n = none ↔ ∀ c ∈ ps, c.name ≠ n := by
  constructor
  · intro hn c hc e
    obtain ⟨i, hi⟩ := List.mem_iff_getElem?.mp hc
    have := (h n i).mpr ⟨c, hi, e⟩
    rw [hn] at this; cases this
  · intro hn
    cases hg : nd.get? n with
    | none => rfl
    | some i =>
      obtain ⟨c, hi, e⟩ := (h n i).mp hg
      exact absurd e (hn c (List.mem_iff_getElem?.mpr ⟨i, hi⟩))

/-! ## Reference validation -/

theorem validateAfter_cases {ps : List ProcessConfig} {nd : AMap Str Nat} (h : NameDict ps nd)
    (pi : Nat) (l : List Str) (k : Nat) :
    (validateAfter (enumerate ps) nd pi k l = .ok () ∧
      ∀ n ∈ l, (∃ c ∈ ps, c.name = n) ∧ ∀ i c, nd.get? n = some i → ps[i]? = some c →
        c.ptype.isCron = false) ∨
    (∃ m n, validateAfter (enumerate ps) nd pi k l = .err (.unknownAfterReference pi (k + m)) ∧
      l[m]? = some n ∧ ∀ c ∈ ps, c.name ≠ n) ∨
    (validateAfter (enumerate ps) nd pi k l = .err (.cronjobDependency pi) ∧
      ∃ n ∈ l, ∃ c ∈ ps, c.name = n ∧ c.ptype.isCron = true) := by
  induction l generalizing k with
  | nil => exact .inl ⟨rfl, by simp⟩
  | cons d ds ih =>
    unfold validateAfter
    cases hg : nd.get? d with
    | none => exact .inr (.inl ⟨0, d, rfl, rfl, (h.none_iff d).mp hg⟩)
    | some i =>
      obtain ⟨c, hc, hn⟩ := (h d i).mp hg
      have hmem : c ∈ ps := List.mem_iff_getElem?.mpr ⟨i, hc⟩
      simp only [getElem?_enumerate, hc, Option.map_some]
      cases hcr : c.ptype.isCron with
      | true =>
        exact .inr (.inr ⟨by simp, d, by simp, c, hmem, hn, hcr⟩)
      | false =>
        simp only [Bool.false_eq_true, if_false]
        rcases ih (k + 1) with ⟨h1, h2⟩ | ⟨m, n, h1, h2, h3⟩ | ⟨h1, n, hn', h2⟩
        · refine .inl ⟨h1, ?_⟩
          intro n hn'
          rcases List.mem_cons.mp hn' with rfl | hn'
          · refine ⟨⟨c, hmem, hn⟩, ?_⟩
            intro i' c' hi' hc'
            rw [hg] at hi'; cases hi'
            rw [hc] at hc'; cases hc'
            exact hcr
          · exact h2 n hn'
        · exact .inr (.inl ⟨m + 1, n, by rw [h1]; congr 2; omega, by simpa using h2, h3⟩)
        · exact .inr (.inr ⟨h1, n, by simp [hn'], h2⟩)

theorem validateBefore_cases {ps : List ProcessConfig} {nd : AMap Str Nat}
    (h : NameDict ps nd) (pi : Nat) (l : List Str) (k : Nat) :
    (validateBefore nd pi k l = .ok () ∧ ∀ n ∈ l, ∃ c ∈ ps, c.name = n) ∨
    (∃ m n, validateBefore nd pi k l = .err (.unknownBeforeReference pi (k + m)) ∧
      l[m]? = some n ∧ ∀ c ∈ ps, c.name ≠ n) := by
  induction l generalizing k with
  | nil => exact .inl ⟨rfl, by simp⟩
  | cons d ds ih =>
    unfold validateBefore
    cases hg : nd.get? d with
    | none => exact .inr ⟨0, d, rfl, rfl, (h.none_iff d).mp hg⟩
    | some i =>
      obtain ⟨c, hc, hn⟩ := (h d i).mp hg
      have hmem : c ∈ ps := List.mem_iff_getElem?.mpr ⟨i, hc⟩
      simp only
      rcases ih (k + 1) with ⟨h1, h2⟩ | ⟨m, n, h1, h2, h3⟩
      · refine .inl ⟨h1, ?_⟩
        intro n hn'
        rcases List.mem_cons.mp hn' with rfl | hn'
        · exact ⟨c, hmem, hn⟩
        · exact h2 n hn'
      · exact .inr ⟨m + 1, n, by rw [h1]; congr 2; omega, by simpa using h2, h3⟩

/-- What each reported dependency error asserts about the configuration. -/
def Culprit (ps : List ProcessConfig) : DepError → Prop
  | .unknownAfterReference i k =>
    ∃ c n, ps[i]? = some c ∧ c.after[k]? = some n ∧ ∀ c' ∈ ps, c'.name ≠ n
  | .unknownBeforeReference i k =>
    ∃ c n, ps[i]? = some c ∧ c.before[k]? = some n ∧ ∀ c' ∈ ps, c'.name ≠ n
  | .cronjobDependency i =>
    ∃ c n, ps[i]? = some c ∧ n ∈ c.after ∧ ∃ c' ∈ ps, c'.name = n ∧ ∃ t, c'.ptype = .cronJob t
  | .cycle i => i < ps.length ∧ Relation.TransGen (DependsOn ps) i i

theorem isCron_iff' {t : CfgType} : t.isCron = true ↔ ∃ s, t = .cronJob s := by
  cases t <;> simp [CfgType.isCron]

theorem validateReferences_cases {ps : List ProcessConfig} {nd : AMap Str Nat}
    (h : NameDict ps nd) :
    (validateReferences (enumerate ps) nd = .ok () ∧ RefsKnown ps ∧ NoAfterCron ps) ∨
    (∃ e, validateReferences (enumerate ps) nd = .err e ∧ Culprit ps e) := by
  have key : ∀ l : List (Nat × ProcessConfig), (∀ d ∈ l, ps[d.1]? = some d.2) →
      (Res.foldlM (fun _ (d : Nat × ProcessConfig) =>
        validateAfter (enumerate ps) nd d.1 0 d.2.after >>= fun _ =>
        validateBefore nd d.1 0 d.2.before) () l = .ok () ∧
        ∀ d ∈ l, (∀ n ∈ d.2.after, (∃ c ∈ ps, c.name = n) ∧
          ∀ i c, nd.get? n = some i → ps[i]? = some c → c.ptype.isCron = false) ∧
          ∀ n ∈ d.2.before, ∃ c ∈ ps, c.name = n) ∨
      (∃ e, Res.foldlM (fun _ (d : Nat × ProcessConfig) =>
        validateAfter (enumerate ps) nd d.1 0 d.2.after >>= fun _ =>
        validateBefore nd d.1 0 d.2.before) () l = .err e ∧ Culprit ps e) := by
    intro l
    induction l with
    | nil => intro _; exact .inl ⟨rfl, by simp⟩
    | cons d ds ih =>
      intro hl
      have hd := hl d (by simp)
      simp only [Res.foldlM_cons]
      rcases validateAfter_cases h d.1 d.2.after 0 with ⟨h1, h2⟩ | ⟨m, n, h1, h2, h3⟩ | ⟨h1, n, hn, c, hc, hcn, hcr⟩
      · rcases validateBefore_cases h d.1 d.2.before 0 with ⟨g1, g2⟩ | ⟨m, n, g1, g2, g3⟩
        · rcases ih (fun d' hd' => hl d' (by simp [hd'])) with ⟨k1, k2⟩ | ⟨e, k1, k2⟩
          · refine .inl ⟨by simp [h1, g1, k1], ?_⟩
            intro d' hd'
            rcases List.mem_cons.mp hd' with rfl | hd'
            · exact ⟨h2, g2⟩
            · exact k2 d' hd'
          · exact .inr ⟨e, by simp [h1, g1, k1], k2⟩
        · refine .inr ⟨_, by rw [h1]; simp [g1]; rfl, ?_⟩
          exact ⟨d.2, n, hd, by simpa using g2, g3⟩
      · refine .inr ⟨_, by rw [h1]; simp; rfl, ?_⟩
        exact ⟨d.2, n, hd, by simpa using h2, h3⟩
      · refine .inr ⟨_, by rw [h1]; simp; rfl, ?_⟩
        exact ⟨d.2, n, hd, hn, c, hc, hcn, isCron_iff'.mp hcr⟩
  rcases key (enumerate ps) (fun d hd => mem_enumerate.mp (by simpa using hd)) with ⟨h1, h2⟩ | ⟨e, h1, h2⟩
  · refine .inl ⟨h1, ?_, ?_⟩
    · intro c hc n hn
      obtain ⟨i, hi⟩ := List.mem_iff_getElem?.mp hc
      have := h2 (i, c) (mem_enumerate.mpr hi)
      rcases hn with hn | hn
      · exact this.2 n hn
      · exact (this.1 n hn).1
    · intro c hc n hn c' hc' hcn t ht
      obtain ⟨i, hi⟩ := List.mem_iff_getElem?.mp hc
      obtain ⟨j, hj⟩ := List.mem_iff_getElem?.mp hc'
      have := ((h2 (i, c) (mem_enumerate.mpr hi)).1 n hn).2 j c' ((h n j).mpr ⟨c', hj, hcn⟩) hj
      rw [ht] at this
      simp [CfgType.isCron] at this
  · exact .inr ⟨e, h1, h2⟩

/-! ## Building the nodes -/

/-- Edges into `j` that a node still contributes. -/
def contrib (j : Nat) (n : ProcessNode) : Nat := if n.finished then 0 else n.afterSelf.count j

/-- Number of edges into `j` from unfinished nodes. -/
def indeg (nodes : AMap Nat ProcessNode) (j : Nat) : Nat := AMap.sumBy (contrib j) nodes

/-- Loop invariant of `build_dependencies`, without the counting part. -/
structure BuildDom (len : Nat) (nodes : AMap Nat ProcessNode) : Prop where
  wf : AMap.WF nodes
  dom : ∀ i, (∃ n, nodes.get? i = some n) ↔ i < len
  unfinished : ∀ i n, nodes.get? i = some n → n.finished = false

theorem BuildDom.modify {len : Nat} {nodes : AMap Nat ProcessNode} (h : BuildDom len nodes)
    {i : Nat} (hi : i < len) (f : ProcessNode → ProcessNode)
    (hf : ∀ n, (f n).finished = n.finished) :
    ∃ n, nodes.get? i = some n ∧ modifyNode nodes i f = .ok (nodes.insert i (f n)) ∧
      BuildDom len (nodes.insert i (f n)) := by
  obtain ⟨n, hn⟩ := (h.dom i).mpr hi
  refine ⟨n, hn, by simp [modifyNode, hn], h.wf.insert _ _, ?_, ?_⟩
  · intro k
    rw [AMap.get?_insert]
    by_cases hk : i = k
    · subst hk; simp [hi]
    · simp only [hk, if_false]; exact h.dom k
  · intro k m
    rw [AMap.get?_insert]
    by_cases hk : i = k
    · simp only [hk, if_true, Option.some.injEq]
      rintro rfl
      rw [hf]; exact h.unfinished i n hn
    · simp only [hk, if_false]; exact h.unfinished k m

theorem lookup_fold {nd : AMap Str Nat} (names : List Str) (idx : List Nat)
    (hres : names.map nd.get? = idx.map some)
    (g : Nat → Nat) (f : Nat → ProcessNode → ProcessNode) (nodes : AMap Nat ProcessNode) :
    Res.foldlM (fun nodes name =>
      lookupName nd name >>= fun s => modifyNode nodes (g s) (f s)) nodes names =
    Res.foldlM (fun nodes s => modifyNode nodes (g s) (f s)) nodes idx := by
  induction names generalizing idx nodes with
  | nil =>
    cases idx with
    | nil => rfl
    | cons => simp at hres
  | cons a as ih =>
    cases idx with
    | nil => simp at hres
    | cons b bs =>
      simp only [List.map_cons, List.cons.injEq] at hres
      simp only [Res.foldlM_cons]
      have : lookupName nd a = .ok b := by simp [lookupName, hres.1]
      rw [this]
      simp only [Res.bind_ok]
      cases modifyNode nodes (g b) (f b) with
      | ok n => simpa using ih bs hres.2 n
      | err e => rfl
      | panic p => rfl

/-- lines 159-164 -/
theorem push_before {len : Nat} {nodes : AMap Nat ProcessNode} (h : BuildDom len nodes)
    {c : Nat} (hc : c < len) (idx : List Nat) :
    ∃ nodes', Res.foldlM (fun nodes s =>
        modifyNode nodes c fun n => { n with afterSelf := n.afterSelf ++ [s] }) nodes idx
        = .ok nodes' ∧ BuildDom len nodes' ∧
      (∀ i n', nodes'.get? i = some n' → ∃ n, nodes.get? i = some n ∧
        n'.predecessorCount = n.predecessorCount ∧
        n'.afterSelf = n.afterSelf ++ (if i = c then idx else [])) ∧
      (∀ j, indeg nodes' j = indeg nodes j + idx.count j) := by
  induction idx generalizing nodes with
  | nil => exact ⟨nodes, rfl, h, fun i n' hn' => ⟨n', hn', rfl, by simp⟩, by simp⟩
  | cons s ss ih =>
    obtain ⟨n, hn, h1, h2⟩ := h.modify hc (fun n => { n with afterSelf := n.afterSelf ++ [s] })
      (fun _ => rfl)
    obtain ⟨nodes', h3, h4, h5, h6⟩ := ih h2
    refine ⟨nodes', by simp [h1, h3], h4, ?_, ?_⟩
    · intro i n' hn'
      obtain ⟨m, hm, e1, e2⟩ := h5 i n' hn'
      rw [AMap.get?_insert] at hm
      by_cases hic : c = i
      · subst hic
        simp only [if_true, Option.some.injEq] at hm
        subst hm
        exact ⟨n, hn, e1, by rw [e2]; simp⟩
      · simp only [hic, if_false] at hm
        exact ⟨m, hm, e1, by rw [e2]; simp [Ne.symm hic]⟩
    · intro j
      rw [h6 j]
      have := AMap.sumBy_insert { n with afterSelf := n.afterSelf ++ [s] }
        (contrib j) h.wf hn
      have hf := h.unfinished c n hn
      simp only [contrib, hf, Bool.false_eq_true, if_false, List.count_append,
        List.count_cons, List.count_nil] at this
      simp only [indeg, List.count_cons]
      simp only [hf]
      change AMap.sumBy (contrib j) _ + _ = AMap.sumBy (contrib j) _ + _ at this
      omega

/-- line 166 -/
theorem add_count {len : Nat} {nodes : AMap Nat ProcessNode} (h : BuildDom len nodes)
    {c : Nat} (hc : c < len) (k : Nat) :
    ∃ nodes', modifyNode nodes c (fun n =>
        { n with predecessorCount := n.predecessorCount + k }) = .ok nodes' ∧
      BuildDom len nodes' ∧
      (∀ i n', nodes'.get? i = some n' → ∃ n, nodes.get? i = some n ∧
        n'.predecessorCount = n.predecessorCount + (if i = c then k else 0) ∧
        n'.afterSelf = n.afterSelf) ∧
      (∀ j, indeg nodes' j = indeg nodes j) := by
  obtain ⟨n, hn, h1, h2⟩ := h.modify hc
    (fun n => { n with predecessorCount := n.predecessorCount + k }) (fun _ => rfl)
  refine ⟨_, h1, h2, ?_, ?_⟩
  · intro i n' hn'
    rw [AMap.get?_insert] at hn'
    by_cases hic : c = i
    · subst hic
      simp only [if_true, Option.some.injEq] at hn'
      subst hn'
      exact ⟨n, hn, by simp, rfl⟩
    · simp only [hic, if_false] at hn'
      exact ⟨n', hn', by simp [Ne.symm hic], rfl⟩
  · intro j
    have := AMap.sumBy_insert { n with predecessorCount := n.predecessorCount + k }
      (contrib j) h.wf hn
    have e : contrib j { n with predecessorCount := n.predecessorCount + k } = contrib j n := rfl
    simp only [indeg]
    omega

/-- lines 168-176 -/
theorem add_counts {len : Nat} {nodes : AMap Nat ProcessNode} (h : BuildDom len nodes)
    (idx : List Nat) (hidx : ∀ s ∈ idx, s < len) :
    ∃ nodes', Res.foldlM (fun nodes s =>
        modifyNode nodes s fun n => { n with predecessorCount := n.predecessorCount + 1 })
        nodes idx = .ok nodes' ∧ BuildDom len nodes' ∧
      (∀ i n', nodes'.get? i = some n' → ∃ n, nodes.get? i = some n ∧
        n'.predecessorCount = n.predecessorCount + idx.count i ∧
        n'.afterSelf = n.afterSelf) ∧
      (∀ j, indeg nodes' j = indeg nodes j) := by
  induction idx generalizing nodes with
  | nil => exact ⟨nodes, rfl, h, fun i n' hn' => ⟨n', hn', rfl, rfl⟩, fun _ => rfl⟩
  | cons s ss ih =>
    obtain ⟨nodes1, h1, h2, h3, h4⟩ := add_count h (hidx s (by simp)) 1
    obtain ⟨nodes2, g1, g2, g3, g4⟩ := ih h2 (fun s hs => hidx s (by simp [hs]))
    refine ⟨nodes2, by simp [h1, g1], g2, ?_, fun j => by rw [g4, h4]⟩
    intro i n' hn'
    obtain ⟨m, hm, e1, e2⟩ := g3 i n' hn'
    obtain ⟨n, hn, e3, e4⟩ := h3 i m hm
    refine ⟨n, hn, ?_, by rw [e2, e4]⟩
    rw [e1, e3, List.count_cons]
    by_cases his : i = s
    · subst his; simp; omega
    · have : (s == i) = false := by simp [Ne.symm his]
      simp [his, this]

/-- lines 178-186 -/
theorem push_after {len : Nat} {nodes : AMap Nat ProcessNode} (h : BuildDom len nodes)
    (c : Nat) (idx : List Nat) (hidx : ∀ s ∈ idx, s < len) :
    ∃ nodes', Res.foldlM (fun nodes p =>
        modifyNode nodes p fun n => { n with afterSelf := n.afterSelf ++ [c] }) nodes idx
        = .ok nodes' ∧ BuildDom len nodes' ∧
      (∀ i n', nodes'.get? i = some n' → ∃ n, nodes.get? i = some n ∧
        n'.predecessorCount = n.predecessorCount ∧
        n'.afterSelf = n.afterSelf ++ List.replicate (idx.count i) c) ∧
      (∀ j, indeg nodes' j = indeg nodes j + if j = c then idx.length else 0) := by
  induction idx generalizing nodes with
  | nil => exact ⟨nodes, rfl, h, fun i n' hn' => ⟨n', hn', rfl, by simp⟩, by simp⟩
  | cons s ss ih =>
    obtain ⟨nodes1, h1, h2, h3, h4⟩ := push_before h (hidx s (by simp)) [c]
    have h1' : modifyNode nodes s (fun n => { n with afterSelf := n.afterSelf ++ [c] }) = .ok nodes1 := by
      simp only [Res.foldlM_cons, Res.foldlM_nil] at h1
      cases hm : modifyNode nodes s (fun n => { n with afterSelf := n.afterSelf ++ [c] }) <;>
        simp_all
    obtain ⟨nodes2, g1, g2, g3, g4⟩ := ih h2 (fun s hs => hidx s (by simp [hs]))
    refine ⟨nodes2, by simp [h1', g1], g2, ?_, ?_⟩
    · intro i n' hn'
      obtain ⟨m, hm, e1, e2⟩ := g3 i n' hn'
      obtain ⟨n, hn, e3, e4⟩ := h3 i m hm
      refine ⟨n, hn, by rw [e1, e3], ?_⟩
      rw [e2, e4, List.count_cons]
      by_cases his : i = s
      · subst his
        simp [List.replicate_succ]
      · have : (s == i) = false := by simp [Ne.symm his]
        simp [his, this]
    · intro j
      rw [g4, h4]
      by_cases hj : j = c
      · subst hj; simp; omega
      · have : (c == j) = false := by simp [Ne.symm hj]
        simp [hj, this, List.count_cons]

/-- Loop invariant of `build_dependencies` after the programs `done`. -/
structure BuildInv (ps : List ProcessConfig) (done : List (Nat × ProcessConfig))
    (nodes : AMap Nat ProcessNode) : Prop extends BuildDom ps.length nodes where
  edges : ∀ i n, nodes.get? i = some n → ∀ j, j ∈ n.afterSelf ↔
    ∃ ci cj, ps[i]? = some ci ∧ ps[j]? = some cj ∧
      (((i, ci) ∈ done ∧ cj.name ∈ ci.before) ∨ ((j, cj) ∈ done ∧ ci.name ∈ cj.after))
  count : ∀ j n, nodes.get? j = some n → n.predecessorCount = indeg nodes j

theorem resolve_names {ps : List ProcessConfig} {nd : AMap Str Nat} (h : NameDict ps nd)
    (names : List Str) (hk : ∀ n ∈ names, ∃ c ∈ ps, c.name = n) :
    ∃ idx : List Nat, names.map nd.get? = idx.map some := by
  induction names with
  | nil => exact ⟨[], rfl⟩
  | cons a as ih =>
    obtain ⟨idx, hi⟩ := ih (fun n hn => hk n (by simp [hn]))
    obtain ⟨c, hc, hn⟩ := hk a (by simp)
    obtain ⟨i, hi'⟩ := List.mem_iff_getElem?.mp hc
    exact ⟨i :: idx, by simp [hi, (h a i).mpr ⟨c, hi', hn⟩]⟩

theorem mem_resolved {ps : List ProcessConfig} {nd : AMap Str Nat} (h : NameDict ps nd)
    {names : List Str} {idx : List Nat} (hr : names.map nd.get? = idx.map some) (j : Nat) :
    j ∈ idx ↔ ∃ c, ps[j]? = some c ∧ c.name ∈ names := by
  constructor
  · intro hj
    have : some j ∈ idx.map some := List.mem_map.mpr ⟨j, hj, rfl⟩
    rw [← hr] at this
    obtain ⟨n, hn, hg⟩ := List.mem_map.mp this
    obtain ⟨c, hc, rfl⟩ := (h n j).mp hg
    exact ⟨c, hc, hn⟩
  · rintro ⟨c, hc, hn⟩
    have : some j ∈ names.map nd.get? := List.mem_map.mpr ⟨c.name, hn, (h _ _).mpr ⟨c, hc, rfl⟩⟩
    rw [hr] at this
    obtain ⟨j', hj', e⟩ := List.mem_map.mp this
    cases e; exact hj'

theorem buildStep_ok {ps : List ProcessConfig} {nd : AMap Str Nat} (hnd : NameDict ps nd)
    (hk : RefsKnown ps) {done : List (Nat × ProcessConfig)} {nodes : AMap Nat ProcessNode}
    (h : BuildInv ps done nodes) {k : Nat} {c : ProcessConfig} (hc : ps[k]? = some c) :
    ∃ nodes', buildStep nd nodes (k, c) = .ok nodes' ∧ BuildInv ps (done ++ [(k, c)]) nodes' := by
  have hmem : c ∈ ps := List.mem_iff_getElem?.mpr ⟨k, hc⟩
  have hkl : k < ps.length := by
    rcases Nat.lt_or_ge k ps.length with h | h
    · exact h
    · rw [List.getElem?_eq_none h] at hc; cases hc
  obtain ⟨bidx, hb⟩ := resolve_names hnd c.before (fun n hn => hk c hmem n (.inl hn))
  obtain ⟨aidx, ha⟩ := resolve_names hnd c.after (fun n hn => hk c hmem n (.inr hn))
  have hlt : ∀ {names : List Str} {idx : List Nat}, names.map nd.get? = idx.map some →
      ∀ s ∈ idx, s < ps.length := by
    intro names idx hr s hs
    obtain ⟨c', hc', -⟩ := (mem_resolved hnd hr s).mp hs
    rcases Nat.lt_or_ge s ps.length with h | h
    · exact h
    · rw [List.getElem?_eq_none h] at hc'; cases hc'
  have hlen : c.after.length = aidx.length := by
    have := congrArg List.length ha
    simpa using this
  obtain ⟨n1, a1, a2, a3, a4⟩ := push_before h.toBuildDom hkl bidx
  obtain ⟨n2, b1, b2, b3, b4⟩ := add_count a2 hkl c.after.length
  obtain ⟨n3, c1, c2, c3, c4⟩ := add_counts b2 bidx (hlt hb)
  obtain ⟨n4, d1, d2, d3, d4⟩ := push_after c2 k aidx (hlt ha)
  have hall : ∀ i n', n4.get? i = some n' → ∃ n, nodes.get? i = some n ∧
      n'.predecessorCount = n.predecessorCount + (if i = k then c.after.length else 0) +
        bidx.count i ∧
      n'.afterSelf = (n.afterSelf ++ if i = k then bidx else []) ++
        List.replicate (aidx.count i) k := by
    intro i n' hn'
    obtain ⟨m3, hm3, p3, q3⟩ := d3 i n' hn'
    obtain ⟨m2, hm2, p2, q2⟩ := c3 i m3 hm3
    obtain ⟨m1, hm1, p1, q1⟩ := b3 i m2 hm2
    obtain ⟨m0, hm0, p0, q0⟩ := a3 i m1 hm1
    exact ⟨m0, hm0, by rw [p3, p2, p1, p0], by rw [q3, q2, q1, q0]⟩
  refine ⟨n4, ?_, d2, ?_, ?_⟩
  · simp only [buildStep]
    rw [lookup_fold c.before bidx hb (fun _ => k)
      (fun s n => { n with afterSelf := n.afterSelf ++ [s] }), a1]
    simp only [Res.bind_ok]
    rw [b1]
    simp only [Res.bind_ok]
    rw [lookup_fold c.before bidx hb (fun s => s)
      (fun _ n => { n with predecessorCount := n.predecessorCount + 1 }), c1]
    simp only [Res.bind_ok]
    rw [lookup_fold c.after aidx ha (fun s => s)
      (fun _ n => { n with afterSelf := n.afterSelf ++ [k] }), d1]
  · intro i n' hn' j
    obtain ⟨n, hn, -, hafter⟩ := hall i n' hn'
    have hi : i < ps.length := (h.dom i).mp ⟨n, hn⟩
    obtain ⟨ci, hci⟩ : ∃ ci, ps[i]? = some ci := ⟨ps[i], by simp [hi]⟩
    rw [hafter]
    simp only [List.mem_append, List.mem_replicate, h.edges i n hn j, ne_eq,
      List.count_eq_zero, Decidable.not_not, mem_resolved hnd ha i, List.mem_singleton,
      Prod.mk.injEq]
    constructor
    · rintro ((⟨ci', cj, h1, h2, h3⟩ | hj) | ⟨⟨ci', h1, h2⟩, rfl⟩)
      · refine ⟨ci', cj, h1, h2, ?_⟩
        rcases h3 with ⟨h3, h4⟩ | ⟨h3, h4⟩
        · exact .inl ⟨.inl h3, h4⟩
        · exact .inr ⟨.inl h3, h4⟩
      · by_cases hik : i = k
        · subst hik
          simp only [if_true] at hj
          obtain ⟨cj, hcj, hname⟩ := (mem_resolved hnd hb j).mp hj
          exact ⟨c, cj, hc, hcj, .inl ⟨.inr ⟨rfl, rfl⟩, hname⟩⟩
        · simp [hik] at hj
      · exact ⟨ci', c, h1, hc, .inr ⟨.inr ⟨rfl, rfl⟩, h2⟩⟩
    · rintro ⟨ci', cj, h1, h2, h3⟩
      rcases h3 with ⟨h3 | ⟨rfl, rfl⟩, h4⟩ | ⟨h3 | ⟨rfl, rfl⟩, h4⟩
      · exact .inl (.inl ⟨ci', cj, h1, h2, .inl ⟨h3, h4⟩⟩)
      · exact .inl (.inr (by simp only [if_true]; exact (mem_resolved hnd hb j).mpr ⟨cj, h2, h4⟩))
      · exact .inl (.inl ⟨ci', cj, h1, h2, .inr ⟨h3, h4⟩⟩)
      · exact .inr ⟨⟨ci', h1, h4⟩, rfl⟩
  · intro j n' hn'
    obtain ⟨n, hn, hpc, -⟩ := hall j n' hn'
    rw [hpc, h.count j n hn, d4, c4, b4, a4, hlen]
    omega

theorem buildDependencies_ok {ps : List ProcessConfig} {nd : AMap Str Nat}
    (hnd : NameDict ps nd) (hk : RefsKnown ps) :
    ∃ nodes, buildDependencies (enumerate ps) nd = .ok nodes ∧
      BuildInv ps (enumerate ps) nodes := by
  have init : ∀ (l : List (Nat × ProcessConfig)) (m : AMap Nat ProcessNode), AMap.WF m →
      (∀ i n, m.get? i = some n → n = {}) →
      let m' := l.foldl (fun m d => m.insert d.1 {}) m
      AMap.WF m' ∧ (∀ i n, m'.get? i = some n → n = {}) ∧
      ∀ i, (∃ n, m'.get? i = some n) ↔ (∃ n, m.get? i = some n) ∨ i ∈ l.map (·.1) := by
    intro l
    induction l with
    | nil => intro m h1 h2; exact ⟨h1, h2, by simp⟩
    | cons d ds ih =>
      intro m h1 h2
      obtain ⟨g1, g2, g3⟩ := ih (m.insert d.1 {}) (h1.insert _ _) (by
        intro i n
        rw [AMap.get?_insert]
        split
        · intro h; cases h; rfl
        · exact h2 i n)
      refine ⟨g1, g2, ?_⟩
      intro i
      rw [List.foldl_cons, g3 i]
      simp only [AMap.get?_insert, List.map_cons, List.mem_cons]
      by_cases hi : d.1 = i
      · simp [hi]
      · simp [hi, Ne.symm hi]
  obtain ⟨i1, i2, i3⟩ := init (enumerate ps) [] AMap.WF.nil (by simp)
  have hinit : BuildInv ps [] ((enumerate ps).foldl (fun m d => m.insert d.1 {}) []) := by
    refine ⟨⟨i1, ?_, ?_⟩, ?_, ?_⟩
    · intro i
      rw [i3 i, map_fst_enumerate]
      simp
    · intro i n hn
      rw [i2 i n hn]
    · intro i n hn j
      rw [i2 i n hn]
      simp
    · intro j n hn
      have hz : indeg ((enumerate ps).foldl (fun m d => m.insert d.1 {}) []) j = 0 := by
        unfold indeg
        rw [AMap.sumBy_eq_zero i1]
        intro k v hv
        rw [i2 k v hv]; rfl
      rw [hz, i2 j n hn]
  have loop : ∀ (l done : List (Nat × ProcessConfig)) nodes, BuildInv ps done nodes →
      (∀ d ∈ l, ps[d.1]? = some d.2) →
      ∃ nodes', Res.foldlM (buildStep nd) nodes l = .ok nodes' ∧ BuildInv ps (done ++ l) nodes' := by
    intro l
    induction l with
    | nil => intro done nodes h _; exact ⟨nodes, rfl, by simpa using h⟩
    | cons d ds ih =>
      intro done nodes h hl
      obtain ⟨n1, h1, h2⟩ := buildStep_ok hnd hk h (hl d (by simp))
      obtain ⟨n2, h3, h4⟩ := ih _ n1 h2 (fun d hd => hl d (by simp [hd]))
      exact ⟨n2, by rw [Res.foldlM_cons, show d = (d.1, d.2) from rfl, h1]; exact h3,
        by simpa using h4⟩
  obtain ⟨nodes, h1, h2⟩ := loop (enumerate ps) [] _ hinit
    (fun d hd => mem_enumerate.mp (by simpa using hd))
  exact ⟨nodes, h1, by simpa using h2⟩

theorem buildInv_dependsOn {ps : List ProcessConfig} {nodes : AMap Nat ProcessNode}
    (h : BuildInv ps (enumerate ps) nodes) {i : Nat} {n : ProcessNode}
    (hn : nodes.get? i = some n) (j : Nat) : j ∈ n.afterSelf ↔ DependsOn ps i j := by
  rw [h.edges i n hn j]
  constructor
  · rintro ⟨ci, cj, h1, h2, h3⟩
    exact ⟨ci, cj, h1, h2, h3.imp And.right And.right⟩
  · rintro ⟨ci, cj, h1, h2, h3⟩
    refine ⟨ci, cj, h1, h2, ?_⟩
    rcases h3 with h | h
    · exact .inl ⟨mem_enumerate.mpr h1, h⟩
    · exact .inr ⟨mem_enumerate.mpr h2, h⟩

/-! ## The runtime invariant -/

/-- State of the dependency manager, with `F` the programs reported finished and `P` those
handed out so far. -/
structure DepInv (ps : List ProcessConfig) (F P : List Nat) (d : DepMgr) : Prop where
  wf : AMap.WF d.nodes
  dom : ∀ i, (∃ n, d.nodes.get? i = some n) ↔ i < ps.length
  edges : ∀ i n, d.nodes.get? i = some n → ∀ j, j ∈ n.afterSelf ↔ DependsOn ps i j
  fin : ∀ i n, d.nodes.get? i = some n → (n.finished = true ↔ i ∈ F)
  count : ∀ j n, d.nodes.get? j = some n → n.predecessorCount = indeg d.nodes j
  arch : ∀ j, j ∈ d.archive ↔ ∃ n, d.nodes.get? j = some n ∧ n.predecessorCount = 0
  queueNodup : (d.runnable ++ P).Nodup
  queue : ∀ j, j ∈ d.runnable ++ P ↔ j ∈ d.archive

theorem mem_edgesOf {nodes : AMap Nat ProcessNode} {i j : Nat} :
    (i, j) ∈ edgesOf nodes ↔ ∃ n, (i, n) ∈ nodes ∧ j ∈ n.afterSelf := by
  simp only [edgesOf, List.mem_flatMap, List.mem_map, Prod.exists, Prod.mk.injEq]
  constructor
  · rintro ⟨i', n, h, j', hj, rfl, rfl⟩; exact ⟨n, h, hj⟩
  · rintro ⟨n, h, hj⟩; exact ⟨i, n, h, j, hj, rfl, rfl⟩

theorem transGen_congr {r s : Nat → Nat → Prop} (h : ∀ a b, r a b ↔ s a b) {i j : Nat} :
    Relation.TransGen r i j ↔ Relation.TransGen s i j := by
  have : r = s := funext fun a => funext fun b => propext (h a b)
  rw [this]

theorem dependsOn_lt {ps : List ProcessConfig} {i j : Nat} (h : DependsOn ps i j) :
    i < ps.length ∧ j < ps.length := by
  obtain ⟨ci, cj, h1, h2, -⟩ := h
  constructor
  · rcases Nat.lt_or_ge i ps.length with h | h
    · exact h
    · rw [List.getElem?_eq_none h] at h1; cases h1
  · rcases Nat.lt_or_ge j ps.length with h | h
    · exact h
    · rw [List.getElem?_eq_none h] at h2; cases h2

/-- Complete description of `with_nodes` on an enumerated list with unique names. -/
theorem withNodes_cases (topo : Toposort) (ord : HashOrder) {ps : List ProcessConfig}
    (hu : UniqueNames ps) :
    (∃ d, withNodes topo ord (enumerate ps) = .ok d ∧ DepInv ps [] [] d ∧
      RefsKnown ps ∧ NoAfterCron ps ∧ Acyclic ps) ∨
    (∃ e, withNodes topo ord (enumerate ps) = .err e ∧ Culprit ps e) := by
  obtain ⟨nd, h1, hnd⟩ := buildNameDict_ok hu
  unfold withNodes
  rw [h1]
  simp only [Res.bind_ok]
  rcases validateReferences_cases hnd with ⟨h2, hk, hcron⟩ | ⟨e, h2, hcul⟩
  · rw [h2]
    simp only [Res.bind_ok]
    obtain ⟨nodes, h3, hinv⟩ := buildDependencies_ok hnd hk
    rw [h3]
    simp only [Res.bind_ok]
    have hmem : ∀ i n, (i, n) ∈ ord.apply nodes ↔ nodes.get? i = some n := by
      intro i n
      rw [(ord.perm nodes).mem_iff, AMap.mem_iff_get? hinv.wf]
    have hedge : ∀ i j, EdgeRel (edgesOf (ord.apply nodes)) i j ↔ DependsOn ps i j := by
      intro i j
      unfold EdgeRel
      rw [mem_edgesOf]
      constructor
      · rintro ⟨n, hn, hj⟩
        exact (buildInv_dependsOn hinv ((hmem i n).mp hn) j).mp hj
      · intro hd
        obtain ⟨n, hn⟩ := (hinv.dom i).mpr (dependsOn_lt hd).1
        exact ⟨n, (hmem i n).mpr hn, (buildInv_dependsOn hinv hn j).mpr hd⟩
    have hkeys : ∀ i, i ∈ (ord.apply nodes).map (·.1) ↔ i < ps.length := by
      intro i
      rw [← hinv.dom i]
      simp only [List.mem_map, Prod.exists, hmem]
      simp
    have hin : ∀ e ∈ edgesOf (ord.apply nodes),
        e.1 ∈ (ord.apply nodes).map (·.1) ∧ e.2 ∈ (ord.apply nodes).map (·.1) := by
      rintro ⟨a, b⟩ he
      have := dependsOn_lt ((hedge a b).mp he)
      exact ⟨(hkeys a).mpr this.1, (hkeys b).mpr this.2⟩
    have hall : (edgesOf (ord.apply nodes)).all (fun e => nodes.contains e.2) = true := by
      rw [List.all_eq_true]
      rintro ⟨a, b⟩ he
      obtain ⟨n, hn⟩ := (hinv.dom b).mpr (dependsOn_lt ((hedge a b).mp he)).2
      simp [AMap.contains, hn]
    by_cases hac : Acyclic ps
    · left
      have hrun := topo.none_of_acyclic _ _ hin (fun i hi => hac i ((transGen_congr hedge).mp hi))
      have hcheck : checkForCycles topo ord nodes = .ok () := by
        simp only [checkForCycles]
        rw [if_pos hall, hrun]
      rw [hcheck]
      simp only [Res.bind_ok]
      have hinit : ∀ j, j ∈ findInitialRunnables ord nodes ↔
          ∃ n, nodes.get? j = some n ∧ n.predecessorCount = 0 := by
        intro j
        simp only [findInitialRunnables, List.mem_map, List.mem_filter, Prod.exists,
          beq_iff_eq, hmem]
        constructor
        · rintro ⟨j', n, ⟨h1, h2⟩, rfl⟩; exact ⟨n, h1, h2⟩
        · rintro ⟨n, h1, h2⟩; exact ⟨j, n, ⟨h1, h2⟩, rfl⟩
      have hnodup : (findInitialRunnables ord nodes).Nodup := by
        have hn : ((ord.apply nodes).map (·.1)).Nodup :=
          ((ord.perm nodes).map _).nodup_iff.mpr hinv.wf
        exact hn.sublist (List.Sublist.map _ List.filter_sublist)
      refine ⟨_, rfl, ?_, hk, hcron, hac⟩
      refine ⟨hinv.wf, hinv.dom, fun i n hn j => buildInv_dependsOn hinv hn j, ?_, hinv.count,
        hinit, by simpa using hnodup, by simp⟩
      intro i n hn
      simp [hinv.unfinished i n hn]
    · right
      have hcyc : ∃ i, Relation.TransGen (EdgeRel (edgesOf (ord.apply nodes))) i i := by
        rcases Classical.not_forall.mp hac with ⟨i, hi⟩
        exact ⟨i, (transGen_congr hedge).mpr (Classical.not_not.mp hi)⟩
      obtain ⟨i, hrun, hi, hti⟩ := topo.some_of_cyclic _ _ hin hcyc
      have hcheck : checkForCycles topo ord nodes = .err (.cycle i) := by
        simp only [checkForCycles]
        rw [if_pos hall, hrun]
      rw [hcheck]
      exact ⟨.cycle i, rfl, (hkeys i).mp hi, (transGen_congr hedge).mp hti⟩
  · rw [h2]
    exact .inr ⟨e, rfl, hcul⟩

/-- Loop invariant of `notify_process_finished` with `rest` still to be released. -/
structure RelInv (ps : List ProcessConfig) (F P rest : List Nat) (d : DepMgr) : Prop where
  wf : AMap.WF d.nodes
  dom : ∀ i, (∃ n, d.nodes.get? i = some n) ↔ i < ps.length
  edges : ∀ i n, d.nodes.get? i = some n → ∀ j, j ∈ n.afterSelf ↔ DependsOn ps i j
  fin : ∀ i n, d.nodes.get? i = some n → (n.finished = true ↔ i ∈ F)
  count : ∀ j n, d.nodes.get? j = some n →
    n.predecessorCount = indeg d.nodes j + rest.count j
  arch : ∀ j, j ∈ d.archive ↔ ∃ n, d.nodes.get? j = some n ∧ n.predecessorCount = 0
  queueNodup : (d.runnable ++ P).Nodup
  queue : ∀ j, j ∈ d.runnable ++ P ↔ j ∈ d.archive

theorem releaseStep_ok {ps : List ProcessConfig} {F P rest : List Nat} {d : DepMgr} {s : Nat}
    (h : RelInv ps F P (s :: rest) d) (hs : s < ps.length) :
    ∃ d', releaseStep d s = .ok d' ∧ RelInv ps F P rest d' ∧
      (∀ j, j ∈ d.archive → j ∈ d'.archive) := by
  obtain ⟨n, hn⟩ := (h.dom s).mpr hs
  have hc := h.count s n hn
  rw [List.count_cons] at hc
  simp only [BEq.rfl, if_true] at hc
  have hne : n.predecessorCount ≠ 0 := by omega
  have hnotarch : s ∉ d.archive := by
    intro hm
    obtain ⟨n', hn', h0⟩ := (h.arch s).mp hm
    rw [hn] at hn'; cases hn'
    exact hne h0
  have hind : ∀ j, indeg (d.nodes.insert s { n with predecessorCount := n.predecessorCount - 1 }) j
      = indeg d.nodes j := by
    intro j
    have := AMap.sumBy_insert { n with predecessorCount := n.predecessorCount - 1 }
      (contrib j) h.wf hn
    have e : contrib j { n with predecessorCount := n.predecessorCount - 1 } = contrib j n := rfl
    simp only [indeg]
    omega
  have hdom : ∀ i, (∃ n', (d.nodes.insert s { n with predecessorCount := n.predecessorCount - 1 }).get? i = some n') ↔ i < ps.length := by
    intro i
    rw [AMap.get?_insert]
    by_cases hi : s = i
    · subst hi; simp [hs]
    · simp only [hi, if_false]; exact h.dom i
  have hedges : ∀ i n', (d.nodes.insert s { n with predecessorCount := n.predecessorCount - 1 }).get? i = some n' → ∀ j, j ∈ n'.afterSelf ↔ DependsOn ps i j := by
    intro i n'
    rw [AMap.get?_insert]
    by_cases hi : s = i
    · subst hi
      simp only [if_true, Option.some.injEq]
      rintro rfl
      exact h.edges s n hn
    · simp only [hi, if_false]; exact h.edges i n'
  have hfin : ∀ i n', (d.nodes.insert s { n with predecessorCount := n.predecessorCount - 1 }).get? i = some n' → (n'.finished = true ↔ i ∈ F) := by
    intro i n'
    rw [AMap.get?_insert]
    by_cases hi : s = i
    · subst hi
      simp only [if_true, Option.some.injEq]
      rintro rfl
      exact h.fin s n hn
    · simp only [hi, if_false]; exact h.fin i n'
  have hcount : ∀ j n', (d.nodes.insert s { n with predecessorCount := n.predecessorCount - 1 }).get? j = some n' →
      n'.predecessorCount = indeg (d.nodes.insert s { n with predecessorCount := n.predecessorCount - 1 }) j + rest.count j := by
    intro j n'
    rw [AMap.get?_insert, hind j]
    by_cases hi : s = j
    · subst hi
      simp only [if_true, Option.some.injEq]
      rintro rfl
      simp only
      omega
    · simp only [hi, if_false]
      intro hj
      have := h.count j n' hj
      rw [List.count_cons] at this
      have hb : (s == j) = false := by simp [hi]
      simpa [hb] using this
  unfold releaseStep
  rw [hn]
  simp only [hne, if_false]
  by_cases h0 : n.predecessorCount - 1 = 0
  · simp only [h0, if_true]
    have hcf : d.archive.contains s = false := by
      simpa using hnotarch
    rw [h0] at hdom hedges hfin hcount
    refine ⟨_, rfl, ⟨h.wf.insert _ _, hdom, hedges, hfin, hcount, ?_, ?_, ?_⟩, ?_⟩
    · intro j
      simp only [hcf, Bool.false_eq_true, if_false, List.mem_cons, AMap.get?_insert]
      by_cases hi : s = j
      · subst hi; simp
      · simp only [hi, if_false, Ne.symm hi, false_or]; exact h.arch j
    · have hq : s ∉ d.runnable ++ P := fun hm => hnotarch ((h.queue s).mp hm)
      have := h.queueNodup
      rw [List.append_assoc]
      rw [List.nodup_append] at this ⊢
      simp at hq ⊢
      refine ⟨this.1, ⟨hq.2, this.2.1⟩, ?_⟩
      intro a ha
      refine ⟨fun e => hq.1 (e ▸ ha), ?_⟩
      intro b hb
      exact this.2.2 a ha b hb
    · intro j
      simp only [hcf, Bool.false_eq_true, if_false, List.mem_cons]
      rw [← h.queue j]
      simp
      grind
    · intro j hj
      simp only [hcf, Bool.false_eq_true, if_false]
      exact List.mem_cons_of_mem _ hj
  · simp only [h0, if_false]
    refine ⟨_, rfl, ⟨h.wf.insert _ _, hdom, hedges, hfin, hcount, ?_, h.queueNodup, h.queue⟩,
      fun _ hj => hj⟩
    intro j
    simp only [AMap.get?_insert]
    by_cases hi : s = j
    · subst hi
      simp only [if_true, Option.some.injEq]
      constructor
      · intro hm; exact absurd hm hnotarch
      · rintro ⟨n', rfl, hz⟩; exact absurd hz h0
    · simp only [hi, if_false]; exact h.arch j

/-- `notify_process_finished` on any configured program succeeds, keeps the invariant, and
is the identity if the program was already reported. -/
theorem notify_ok {ps : List ProcessConfig} {F P : List Nat} {d : DepMgr}
    (h : DepInv ps F P d) {i : Nat} (hi : i < ps.length) :
    ∃ d', notifyProcessFinished d i = .ok d' ∧ DepInv ps (i :: F) P d' ∧
      (i ∈ F → d' = d) ∧ (∀ j, j ∈ d.archive → j ∈ d'.archive) := by
  obtain ⟨n, hn⟩ := (h.dom i).mpr hi
  unfold notifyProcessFinished
  rw [hn]
  simp only
  by_cases hf : n.finished = true
  · simp only [hf, if_true]
    have hiF := (h.fin i n hn).mp hf
    refine ⟨d, rfl, ⟨h.wf, h.dom, h.edges, ?_, h.count, h.arch, h.queueNodup, h.queue⟩,
      fun _ => rfl, fun _ hj => hj⟩
    intro k m hm
    rw [h.fin k m hm, List.mem_cons]
    constructor
    · exact .inr
    · rintro (rfl | h)
      · exact hiF
      · exact h
  · have hff : n.finished = false := by simpa using hf
    have hiF : i ∉ F := fun hm => hf ((h.fin i n hn).mpr hm)
    simp only [hff, Bool.false_eq_true, if_false]
    have hind : ∀ j, indeg d.nodes j =
        indeg (d.nodes.insert i { n with finished := true }) j + n.afterSelf.count j := by
      intro j
      have := AMap.sumBy_insert { n with finished := true }
        (contrib j) h.wf hn
      have e1 : contrib j { n with finished := true } = 0 := rfl
      have e2 : contrib j n = n.afterSelf.count j := by simp [contrib, hff]
      simp only [indeg]
      omega
    have hstart : RelInv ps (i :: F) P n.afterSelf
        { d with nodes := d.nodes.insert i { n with finished := true } } := by
      refine ⟨h.wf.insert _ _, ?_, ?_, ?_, ?_, ?_, h.queueNodup, h.queue⟩
      · intro k
        simp only [AMap.get?_insert]
        by_cases hk : i = k
        · subst hk; simp [hi]
        · simp only [hk, if_false]; exact h.dom k
      · intro k m
        simp only [AMap.get?_insert]
        by_cases hk : i = k
        · subst hk
          simp only [if_true, Option.some.injEq]
          rintro rfl; exact h.edges i n hn
        · simp only [hk, if_false]; exact h.edges k m
      · intro k m
        simp only [AMap.get?_insert]
        by_cases hk : i = k
        · subst hk
          simp only [if_true, Option.some.injEq]
          rintro rfl; simp
        · simp only [hk, if_false]
          intro hm
          rw [h.fin k m hm, List.mem_cons]
          simp [Ne.symm hk]
      · intro k m
        simp only [AMap.get?_insert]
        by_cases hk : i = k
        · subst hk
          simp only [if_true, Option.some.injEq]
          rintro rfl
          exact (h.count i n hn).trans (hind i)
        · simp only [hk, if_false]
          intro hm
          rw [h.count k m hm, hind k]
      · intro k
        simp only [AMap.get?_insert]
        rw [h.arch k]
        by_cases hk : i = k
        · subst hk
          simp only [hn, if_true, Option.some.injEq]
          constructor
          · rintro ⟨m, rfl, hz⟩; exact ⟨_, rfl, hz⟩
          · rintro ⟨m, rfl, hz⟩; exact ⟨_, rfl, hz⟩
        · simp only [hk, if_false]
    have loop : ∀ (rest : List Nat) (d : DepMgr), RelInv ps (i :: F) P rest d →
        (∀ s ∈ rest, s < ps.length) →
        ∃ d', Res.foldlM releaseStep d rest = .ok d' ∧ RelInv ps (i :: F) P [] d' ∧
          (∀ j, j ∈ d.archive → j ∈ d'.archive) := by
      intro rest
      induction rest with
      | nil => intro d h _; exact ⟨d, rfl, h, fun _ hj => hj⟩
      | cons s ss ih =>
        intro d h hl
        obtain ⟨d1, h1, h2, h3⟩ := releaseStep_ok h (hl s (by simp))
        obtain ⟨d2, h4, h5, h6⟩ := ih d1 h2 (fun s hs => hl s (by simp [hs]))
        exact ⟨d2, by rw [Res.foldlM_cons, h1]; exact h4, h5, fun j hj => h6 j (h3 j hj)⟩
    obtain ⟨d', h1, h2, h3⟩ := loop n.afterSelf _ hstart
      (fun s hs => (dependsOn_lt ((h.edges i n hn s).mp hs)).2)
    refine ⟨d', h1, ⟨h2.wf, h2.dom, h2.edges, h2.fin, ?_, h2.arch, h2.queueNodup, h2.queue⟩,
      fun hm => absurd hm hiF, h3⟩
    intro j m hm
    simpa using h2.count j m hm

/-- `pop_runnable` keeps the invariant. -/
theorem pop_ok {ps : List ProcessConfig} {F P : List Nat} {d : DepMgr}
    (h : DepInv ps F P d) :
    match popRunnable d with
    | (some j, d') => j ∈ d.runnable ∧ DepInv ps F (j :: P) d' ∧ d'.archive = d.archive
    | (none, d') => d.runnable = [] ∧ d' = d := by
  unfold popRunnable
  cases hl : d.runnable.getLast? with
  | none =>
    have := List.getLast?_eq_none_iff.mp hl
    simp only
    refine ⟨this, ?_⟩
    cases d
    simp_all
  | some j =>
    have hsplit : d.runnable = d.runnable.dropLast ++ [j] := by
      rw [List.dropLast_append_getLast? j hl]
    have hperm : (d.runnable.dropLast ++ (j :: P)) = d.runnable ++ P := by
      conv_rhs => rw [hsplit]
      simp
    refine ⟨List.mem_of_getLast? hl, ⟨h.wf, h.dom, h.edges, h.fin, h.count, h.arch, ?_, ?_⟩, rfl⟩
    · rw [hperm]; exact h.queueNodup
    · intro k; rw [hperm]; exact h.queue k

/-- Membership in the archive means: all predecessors reported finished. -/
theorem DepInv.archive_iff {ps : List ProcessConfig} {F P : List Nat} {d : DepMgr}
    (h : DepInv ps F P d) {j : Nat} (hj : j < ps.length) :
    j ∈ d.archive ↔ ∀ i, DependsOn ps i j → i ∈ F := by
  rw [h.arch j]
  obtain ⟨n, hn⟩ := (h.dom j).mpr hj
  have : (∃ n, d.nodes.get? j = some n ∧ n.predecessorCount = 0) ↔ indeg d.nodes j = 0 := by
    constructor
    · rintro ⟨n', hn', h0⟩; rw [← h.count j n' hn']; exact h0
    · intro h0; exact ⟨n, hn, by rw [h.count j n hn]; exact h0⟩
  rw [this]
  unfold indeg
  rw [AMap.sumBy_eq_zero h.wf]
  constructor
  · intro hz i hd
    obtain ⟨m, hm⟩ := (h.dom i).mpr (dependsOn_lt hd).1
    have := hz i m hm
    by_cases hf : m.finished = true
    · exact (h.fin i m hm).mp hf
    · simp only [contrib, hf, Bool.false_eq_true, if_false, List.count_eq_zero] at this
      exact absurd ((h.edges i m hm j).mpr hd) this
  · intro hall i m hm
    by_cases hf : m.finished = true
    · simp [contrib, hf]
    · simp only [contrib, hf, Bool.false_eq_true, if_false, List.count_eq_zero]
      intro hmem
      exact hf ((h.fin i m hm).mpr (hall i ((h.edges i m hm j).mp hmem)))

theorem DepInv.archive_lt {ps : List ProcessConfig} {F P : List Nat} {d : DepMgr}
    (h : DepInv ps F P d) {j : Nat} (hj : j ∈ d.archive) : j < ps.length := by
  obtain ⟨n, hn, -⟩ := (h.arch j).mp hj
  exact (h.dom j).mp ⟨n, hn⟩

/-- A finite acyclic precedence relation is well founded. -/
theorem wellFounded_of_acyclic {ps : List ProcessConfig} (h : Acyclic ps) :
    WellFounded (DependsOn ps) := by
  let r : Fin ps.length → Fin ps.length → Prop := fun a b =>
    Relation.TransGen (DependsOn ps) a.1 b.1
  have : IsTrans (Fin ps.length) r := ⟨fun a b c h1 h2 => Relation.TransGen.trans h1 h2⟩
  have : Std.Irrefl r := ⟨fun a => h a.1⟩
  have : Finite (Fin ps.length) := Finite.intro (Equiv.refl _)
  have wf : WellFounded r := Finite.wellFounded_of_trans_of_irrefl r
  constructor
  intro a
  by_cases ha : a < ps.length
  · have : ∀ x : Fin ps.length, Acc (DependsOn ps) x.1 := by
      intro x
      induction x using wf.induction with
      | _ x ih =>
        constructor
        intro y hy
        exact ih ⟨y, (dependsOn_lt hy).1⟩ (.single hy)
    exact this ⟨a, ha⟩
  · constructor
    intro y hy
    exact absurd (dependsOn_lt hy).2 ha

/-- If something has not been released, an unfinished released program exists. -/
theorem DepInv.progress {ps : List ProcessConfig} {F P : List Nat} {d : DepMgr}
    (h : DepInv ps F P d) (hac : Acyclic ps) {j : Nat} (hj : j < ps.length) (hjF : j ∉ F) :
    ∃ k, k ∈ d.archive ∧ k ∉ F := by
  revert hj hjF
  induction j using (wellFounded_of_acyclic hac).induction with
  | _ j ih =>
    intro hj hjF
    by_cases ha : j ∈ d.archive
    · exact ⟨j, ha, hjF⟩
    · rw [h.archive_iff hj] at ha
      obtain ⟨i, hi⟩ := Classical.not_forall.mp ha
      obtain ⟨hd, hiF⟩ := Classical.not_imp.mp hi
      exact ih i hd (dependsOn_lt hd).1 hiF

end DepMgr

end Cinit
