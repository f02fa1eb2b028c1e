import Verif.Spec.Config
import Verif.Proofs.Text
/-!
# Lemmas about configuration merging
-/

namespace Cinit

open Spec

theorem Res.foldlM_append {ε σ α : Type} (f : σ → α → Res ε σ) (s : σ) (l₁ l₂ : List α) :
    Res.foldlM f s (l₁ ++ l₂) = (Res.foldlM f s l₁ >>= fun s' => Res.foldlM f s' l₂) := by
  induction l₁ generalizing s with
  | nil => rfl
  | cons a as ih =>
    simp only [List.cons_append, Res.foldlM_cons]
    cases f s a with
    | ok s' => simpa using ih s'
    | err e => rfl
    | panic p => rfl

theorem mem_pruneDuplicates {x : Str} {l : List Str} : x ∈ pruneDuplicates l ↔ x ∈ l := by
  unfold pruneDuplicates; rw [mem_dedupAdj, mem_sortStr]

theorem nodup_pruneDuplicates (l : List Str) : (pruneDuplicates l).Nodup :=
  dedupAdj_nodup (sortStr_sorted l)

/-- Everything there is to say about the merger `m` of the nonempty list `es` of entries. -/
structure Merged (es : List ProcessConfig) (m : ProcessConfig) : Prop where
  name : ∀ e ∈ es, e.name = m.name
  path : es.filterMap (·.path) = m.path.toList
  workdir : es.filterMap (·.workdir) = m.workdir.toList
  uid : es.filterMap (·.uid) = m.uid.toList
  gid : es.filterMap (·.gid) = m.gid.toList
  user : es.filterMap (·.user) = m.user.toList
  group : es.filterMap (·.group) = m.group.toList
  before : ∀ s, s ∈ m.before ↔ ∃ e ∈ es, s ∈ e.before
  after : ∀ s, s ∈ m.after ↔ ∃ e ∈ es, s ∈ e.after
  capabilities : ∀ s, s ∈ m.capabilities ↔ ∃ e ∈ es, s ∈ e.capabilities
  nodup : 2 ≤ es.length → m.before.Nodup ∧ m.after.Nodup ∧ m.capabilities.Nodup
  pty : m.emulatePty = true ↔ ∃ e ∈ es, e.emulatePty = true
  primary : ∃ pre p post, es = pre ++ p :: post ∧ (∀ e ∈ pre ++ post, e.path = none) ∧
    (p.path = none → post = []) ∧
    (∀ e ∈ pre ++ post, e.ptype.isCron = false) ∧
    m.ptype = p.ptype ∧
    m.args = p.args ++ (pre.reverse.map (·.args)).flatten ++ (post.map (·.args)).flatten ∧
    m.env = p.env ++ (pre.reverse.map (·.env)).flatten ++ (post.map (·.env)).flatten

theorem Merged.single (e : ProcessConfig) : Merged [e] e where
  name := by simp
  path := by cases h : e.path <;> simp [h]
  workdir := by cases h : e.workdir <;> simp [h]
  uid := by cases h : e.uid <;> simp [h]
  gid := by cases h : e.gid <;> simp [h]
  user := by cases h : e.user <;> simp [h]
  group := by cases h : e.group <;> simp [h]
  before := by simp
  after := by simp
  capabilities := by simp
  nodup := by simp
  pty := by simp
  primary := ⟨[], e, [], by simp⟩

/-- A new path-less entry after an accumulated primary (or the mirrored case) combines the
optional fields. -/
private theorem opt_step {α β : Type} {es : List β} {f : β → Option α} {o : Option α} {x : β}
    (h : es.filterMap f = o.toList) (hc : ((f x).isSome && o.isSome) = false) :
    (es ++ [x]).filterMap f = (o.or (f x)).toList ∧
    (es ++ [x]).filterMap f = ((f x).or o).toList := by
  rw [List.filterMap_append, h]
  cases o <;> cases hx : f x <;> simp_all

theorem mergeInto_ok {p d m : ProcessConfig} (h : p.mergeInto d = .ok m) :
    d.path = none ∧ (d.workdir.isSome && p.workdir.isSome) = false ∧
    (d.uid.isSome && p.uid.isSome) = false ∧ (d.gid.isSome && p.gid.isSome) = false ∧
    (d.user.isSome && p.user.isSome) = false ∧ (d.group.isSome && p.group.isSome) = false ∧
    d.ptype.isCron = false ∧ m = p.combine d := by
  unfold ProcessConfig.mergeInto at h
  repeat' split at h
  all_goals simp_all

theorem mergeInto_err {p d : ProcessConfig} {x : MergeError} (h : p.mergeInto d = .err x) :
    d.path.isSome ∨ (d.workdir.isSome ∧ p.workdir.isSome) ∨
    (d.uid.isSome ∧ p.uid.isSome) ∨ (d.gid.isSome ∧ p.gid.isSome) ∨
    (d.user.isSome ∧ p.user.isSome) ∨ (d.group.isSome ∧ p.group.isSome) ∨
    d.ptype.isCron = true := by
  unfold ProcessConfig.mergeInto at h
  repeat' split at h
  all_goals simp_all

theorem mergeInto_not_panic {p d : ProcessConfig} {q : Panic} : p.mergeInto d ≠ .panic q := by
  unfold ProcessConfig.mergeInto
  repeat' split
  all_goals simp

theorem Merged.step_ok {es : List ProcessConfig} {m x m' : ProcessConfig} (hm : Merged es m)
    (hes : es ≠ []) (h : m.merge x = .ok m') : Merged (es ++ [x]) m' := by
  unfold ProcessConfig.merge at h
  split at h
  · simp at h
  rename_i hname
  have hname : m.name = x.name := by simpa using hname
  have hlen : 2 ≤ (es ++ [x]).length := by
    have := List.length_pos_iff.mpr hes; simp; omega
  obtain ⟨pre, p, post, he, hpre, hpost, hcron, hty, hargs, henv⟩ := hm.primary
  split at h
  · -- the accumulated part has no path
    rename_i hp
    have hp : m.path = none := by simpa using hp
    obtain ⟨h1, h2, h3, h4, h5, h6, h7, rfl⟩ := mergeInto_ok h
    have hpp : p.path = none := by
      have := hm.path
      rw [hp, he] at this
      simp at this
      exact this.2.1
    have hpost := hpost hpp
    subst hpost
    refine ⟨?_, ?_, ?_, ?_, ?_, ?_, ?_, ?_, ?_, ?_, ?_, ?_, ?_⟩
    · intro e he
      simp only [ProcessConfig.combine]
      rcases List.mem_append.mp he with he | he
      · rw [hm.name e he, hname]
      · simp at he; rw [he]
    · have := (opt_step (x := x) hm.path (by simp [hp])).2
      simpa [ProcessConfig.combine, hp] using this
    · exact (opt_step hm.workdir (by rw [Bool.and_comm]; exact h2)).2
    · exact (opt_step hm.uid (by rw [Bool.and_comm]; exact h3)).2
    · exact (opt_step hm.gid (by rw [Bool.and_comm]; exact h4)).2
    · exact (opt_step hm.user (by rw [Bool.and_comm]; exact h5)).2
    · exact (opt_step hm.group (by rw [Bool.and_comm]; exact h6)).2
    · intro s
      simp only [ProcessConfig.combine, mem_pruneDuplicates, List.mem_append, hm.before]
      grind
    · intro s
      simp only [ProcessConfig.combine, mem_pruneDuplicates, List.mem_append, hm.after]
      grind
    · intro s
      simp only [ProcessConfig.combine, mem_pruneDuplicates, List.mem_append, hm.capabilities]
      grind
    · intro _
      exact ⟨nodup_pruneDuplicates _, nodup_pruneDuplicates _, nodup_pruneDuplicates _⟩
    · have := hm.pty
      simp only [ProcessConfig.combine, Bool.or_eq_true, this, List.mem_append]
      grind
    · refine ⟨es, x, [], by simp, ?_, by simp, ?_, rfl, ?_, ?_⟩
      · intro e hmem
        have := hm.path
        rw [hp] at this
        simp at this
        simp at hmem
        exact this e hmem
      · intro e hmem
        simp at hmem
        rw [he] at hmem
        rcases List.mem_append.mp hmem with hmem | hmem
        · exact hcron e (by simp [hmem])
        · simp at hmem; subst hmem; rw [← hty]; exact h7
      · simp only [ProcessConfig.combine, hargs, he]
        simp
      · simp only [ProcessConfig.combine, henv, he]
        simp
  · -- the accumulated part holds the path
    rename_i hp
    obtain ⟨h1, h2, h3, h4, h5, h6, h7, rfl⟩ := mergeInto_ok h
    refine ⟨?_, ?_, ?_, ?_, ?_, ?_, ?_, ?_, ?_, ?_, ?_, ?_, ?_⟩
    · intro e he
      simp only [ProcessConfig.combine]
      rcases List.mem_append.mp he with he | he
      · rw [hm.name e he]
      · simp at he; rw [he, hname]
    · have := (opt_step (x := x) hm.path (by simp [h1])).1
      simpa [ProcessConfig.combine, h1] using this
    · exact (opt_step hm.workdir h2).1
    · exact (opt_step hm.uid h3).1
    · exact (opt_step hm.gid h4).1
    · exact (opt_step hm.user h5).1
    · exact (opt_step hm.group h6).1
    · intro s
      simp only [ProcessConfig.combine, mem_pruneDuplicates, List.mem_append, hm.before]
      grind
    · intro s
      simp only [ProcessConfig.combine, mem_pruneDuplicates, List.mem_append, hm.after]
      grind
    · intro s
      simp only [ProcessConfig.combine, mem_pruneDuplicates, List.mem_append, hm.capabilities]
      grind
    · intro _
      exact ⟨nodup_pruneDuplicates _, nodup_pruneDuplicates _, nodup_pruneDuplicates _⟩
    · have := hm.pty
      simp only [ProcessConfig.combine, Bool.or_eq_true, this, List.mem_append]
      grind
    · refine ⟨pre, p, post ++ [x], by simp [he], ?_, ?_, ?_, hty, ?_, ?_⟩
      · intro e hmem
        rw [← List.append_assoc, List.mem_append] at hmem
        rcases hmem with hmem | hmem
        · exact hpre e hmem
        · simp at hmem; rw [hmem]; exact h1
      · intro hpp
        exfalso
        have hpa := hm.path
        have : es.filterMap (·.path) = [] := by
          rw [he, List.filterMap_eq_nil_iff]
          intro a ha
          rcases List.mem_append.mp ha with ha | ha
          · exact hpre a (by simp [ha])
          · rcases List.mem_cons.mp ha with rfl | ha
            · exact hpp
            · exact hpre a (by simp [ha])
        rw [this] at hpa
        cases hmp : m.path with
        | none => exact hp (by rw [hmp]; rfl)
        | some v => rw [hmp] at hpa; cases hpa
      · intro e hmem
        rw [← List.append_assoc, List.mem_append] at hmem
        rcases hmem with hmem | hmem
        · exact hcron e hmem
        · simp at hmem; rw [hmem]; exact h7
      · simp only [ProcessConfig.combine, hargs]
        simp
      · simp only [ProcessConfig.combine, henv]
        simp

theorem two_le {α β : Type} {es : List β} {f : β → Option α} {o : Option α} {x : β}
    (h : es.filterMap f = o.toList) (h1 : (f x).isSome) (h2 : o.isSome) :
    2 ≤ ((es ++ [x]).filterMap f).length := by
  rw [List.filterMap_append, h]
  cases o <;> cases hx : f x <;> simp_all

theorem isCron_iff {t : CfgType} : t.isCron = true ↔ ∃ s, t = .cronJob s := by
  cases t <;> simp [CfgType.isCron]

theorem Merged.step_err {es : List ProcessConfig} {m x : ProcessConfig} {er : MergeError}
    (hm : Merged es m) (h : m.merge x = .err er) : Conflict (es ++ [x]) := by
  unfold ProcessConfig.merge at h
  split at h
  · simp at h
  obtain ⟨pre, p, post, he, hpre, hpost, hcron, hty, hargs, henv⟩ := hm.primary
  split at h
  · rename_i hp
    have hp : m.path = none := by simpa using hp
    rcases mergeInto_err h with h | h | h | h | h | h | h
    · simp [hp] at h
    · exact .inl (.inr (.inl (two_le hm.workdir h.2 h.1)))
    · exact .inl (.inr (.inr (.inl (two_le hm.uid h.2 h.1))))
    · exact .inl (.inr (.inr (.inr (.inl (two_le hm.gid h.2 h.1)))))
    · exact .inl (.inr (.inr (.inr (.inr (.inl (two_le hm.user h.2 h.1))))))
    · exact .inl (.inr (.inr (.inr (.inr (.inr (two_le hm.group h.2 h.1))))))
    · have hpp : p.path = none := by
        have := hm.path
        rw [hp, he] at this
        simp at this
        exact this.2.1
      exact .inr ⟨p, by simp [he], hpp, isCron_iff.mp (hty ▸ h)⟩
  · rename_i hp
    have hp : m.path.isSome := by cases hmp : m.path <;> simp_all
    rcases mergeInto_err h with h | h | h | h | h | h | h
    · exact .inl (.inl (two_le hm.path h hp))
    · exact .inl (.inr (.inl (two_le hm.workdir h.1 h.2)))
    · exact .inl (.inr (.inr (.inl (two_le hm.uid h.1 h.2))))
    · exact .inl (.inr (.inr (.inr (.inl (two_le hm.gid h.1 h.2)))))
    · exact .inl (.inr (.inr (.inr (.inr (.inl (two_le hm.user h.1 h.2))))))
    · exact .inl (.inr (.inr (.inr (.inr (.inr (two_le hm.group h.1 h.2))))))
    · by_cases hx : x.path = none
      · exact .inr ⟨x, by simp, hx, isCron_iff.mp h⟩
      · have hx : x.path.isSome := by cases hxp : x.path <;> simp_all
        exact .inl (.inl (two_le hm.path hx hp))

theorem merge_not_panic {m x : ProcessConfig} {q : Panic} (h : m.name = x.name) :
    m.merge x ≠ .panic q := by
  unfold ProcessConfig.merge
  simp only [h, ne_eq, not_true_eq_false, if_false]
  split <;> exact mergeInto_not_panic

theorem Merged.noDuplicate {es : List ProcessConfig} {m : ProcessConfig} (hm : Merged es m) :
    ¬ DuplicateField es := by
  have aux : ∀ {α : Type} (o : Option α), o.toList.length ≤ 1 := by
    intro α o; cases o <;> simp
  unfold DuplicateField given
  rw [hm.path, hm.workdir, hm.uid, hm.gid, hm.user, hm.group]
  have h1 := aux m.path
  have h2 := aux m.workdir
  have h3 := aux m.uid
  have h4 := aux m.gid
  have h5 := aux m.user
  have h6 := aux m.group
  omega

theorem Merged.noCron {es : List ProcessConfig} {m : ProcessConfig} (hm : Merged es m)
    (hp : ∃ e ∈ es, e.path.isSome) : ¬ CronDropin es := by
  rintro ⟨e, he, hpath, hc⟩
  obtain ⟨pre, p, post, rfl, hpre, hpost, hcron, -⟩ := hm.primary
  have hc := isCron_iff.mpr hc
  obtain ⟨e', he', hs⟩ := hp
  have key : ∀ a ∈ pre ++ p :: post, a = p ∨ a ∈ pre ++ post := by
    intro a ha; simp at ha ⊢; grind
  rcases key e he with rfl | h
  · rcases key e' he' with rfl | h'
    · simp [hpath] at hs
    · simp [hpre e' h'] at hs
  · simp [hcron e h] at hc

/-- The state of the dictionary after the entries `done` have been processed. -/
structure DictInv (done : List ProcessConfig) (d : AMap Str ProcessConfig) : Prop where
  wf : AMap.WF d
  absent : ∀ n, entriesOf done n = [] → d.get? n = none
  present : ∀ n, entriesOf done n ≠ [] →
    ∃ m, d.get? n = some m ∧ m.name = n ∧ Merged (entriesOf done n) m
  folded : ∀ n e es, entriesOf done n = e :: es →
    ∃ m, d.get? n = some m ∧ Res.foldlM ProcessConfig.merge e es = .ok m

theorem entriesOf_append (a b : List ProcessConfig) (n : Str) :
    entriesOf (a ++ b) n = entriesOf a n ++ entriesOf b n := by
  simp [entriesOf]

theorem entriesOf_single (x : ProcessConfig) (n : Str) :
    entriesOf [x] n = if x.name = n then [x] else [] := by
  simp [entriesOf, List.filter_cons]

theorem DictInv.nil : DictInv [] [] where
  wf := AMap.WF.nil
  absent := by simp
  present := by simp [entriesOf]
  folded := by simp [entriesOf]

theorem DictInv.step {done : List ProcessConfig} {d : AMap Str ProcessConfig}
    (hd : DictInv done d) (x : ProcessConfig) :
    (∃ d', mergeDropinsStep d x = .ok d' ∧ DictInv (done ++ [x]) d') ∨
    (mergeDropinsStep d x = .err 1 ∧ Conflict (entriesOf (done ++ [x]) x.name)) := by
  unfold mergeDropinsStep
  by_cases hn : entriesOf done x.name = []
  · rw [hd.absent _ hn]
    refine .inl ⟨_, rfl, ?_, ?_, ?_, ?_⟩
    · exact hd.wf.insert _ _
    · intro n h
      rw [entriesOf_append, entriesOf_single] at h
      by_cases hxn : x.name = n
      · simp [hxn] at h
      · simp [hxn] at h
        rw [AMap.get?_insert_ne _ _ hxn]
        exact hd.absent n h
    · intro n h
      rw [entriesOf_append, entriesOf_single] at h ⊢
      by_cases hxn : x.name = n
      · subst hxn
        refine ⟨x, by simp, rfl, ?_⟩
        simpa [hn] using Merged.single x
      · simp [hxn] at h ⊢
        rw [AMap.get?_insert_ne _ _ hxn]
        exact hd.present n h
    · intro n e es h
      rw [entriesOf_append, entriesOf_single] at h
      by_cases hxn : x.name = n
      · subst hxn
        simp [hn] at h
        obtain ⟨rfl, rfl⟩ := h
        exact ⟨x, by simp, rfl⟩
      · simp [hxn] at h
        rw [AMap.get?_insert_ne _ _ hxn]
        exact hd.folded n e es h
  · obtain ⟨m, hm, hmn, hmm⟩ := hd.present _ hn
    rw [hm]
    simp only
    cases hmerge : m.merge x with
    | panic q => exact absurd hmerge (merge_not_panic hmn)
    | err er =>
      refine .inr ⟨rfl, ?_⟩
      rw [entriesOf_append, entriesOf_single]
      simpa using hmm.step_err hmerge
    | ok m' =>
      have hmm' := hmm.step_ok hn hmerge
      have hn' : m'.name = x.name := (hmm'.name x (by simp)).symm
      refine .inl ⟨_, rfl, ?_, ?_, ?_, ?_⟩
      · exact (hd.wf.erase _).insert _ _
      · intro n h
        rw [entriesOf_append, entriesOf_single] at h
        by_cases hxn : x.name = n
        · simp [hxn] at h
        · simp [hxn] at h
          rw [AMap.get?_insert_ne _ _ (by rw [hn']; exact hxn), AMap.get?_erase_ne _ hxn]
          exact hd.absent n h
      · intro n h
        rw [entriesOf_append, entriesOf_single] at h ⊢
        by_cases hxn : x.name = n
        · subst hxn
          refine ⟨m', by rw [hn']; simp, hn', ?_⟩
          simpa using hmm'
        · simp [hxn] at h ⊢
          rw [AMap.get?_insert_ne _ _ (by rw [hn']; exact hxn), AMap.get?_erase_ne _ hxn]
          exact hd.present n h
      · intro n e es h
        rw [entriesOf_append, entriesOf_single] at h
        by_cases hxn : x.name = n
        · subst hxn
          cases hdn : entriesOf done x.name with
          | nil => exact absurd hdn hn
          | cons e0 es0 =>
            rw [hdn] at h
            simp at h
            obtain ⟨rfl, rfl⟩ := h
            obtain ⟨m2, hm2, hf⟩ := hd.folded _ _ _ hdn
            rw [hm] at hm2
            cases hm2
            refine ⟨m', by rw [hn']; simp, ?_⟩
            rw [Res.foldlM_append, hf]
            simp [hmerge]
        · simp [hxn] at h
          rw [AMap.get?_insert_ne _ _ (by rw [hn']; exact hxn), AMap.get?_erase_ne _ hxn]
          exact hd.folded n e es h

theorem duplicateField_mono {a b : List ProcessConfig} (h : DuplicateField a) :
    DuplicateField (a ++ b) := by
  unfold DuplicateField given at *
  simp only [List.filterMap_append, List.length_append]
  omega

theorem conflict_mono {a b : List ProcessConfig} (h : Conflict a) : Conflict (a ++ b) := by
  rcases h with h | ⟨e, he, h⟩
  · exact .inl (duplicateField_mono h)
  · exact .inr ⟨e, by simp [he], h⟩

theorem dict_fold {done : List ProcessConfig} {d : AMap Str ProcessConfig}
    (hd : DictInv done d) (l : List ProcessConfig) :
    (∃ d', Res.foldlM mergeDropinsStep d l = .ok d' ∧ DictInv (done ++ l) d') ∨
    (Res.foldlM mergeDropinsStep d l = .err 1 ∧ ∃ n, Conflict (entriesOf (done ++ l) n)) := by
  induction l generalizing done d with
  | nil => exact .inl ⟨d, rfl, by simpa using hd⟩
  | cons x xs ih =>
    simp only [Res.foldlM_cons]
    rcases hd.step x with ⟨d', h, hd'⟩ | ⟨h, hc⟩
    · rw [h]
      simpa using ih hd'
    · refine .inr ⟨by rw [h]; rfl, x.name, ?_⟩
      rw [show done ++ x :: xs = (done ++ [x]) ++ xs by simp, entriesOf_append]
      exact conflict_mono hc

/-- Complete description of `merge_dropins`. -/
theorem mergeDropins_cases (ord : HashOrder) (cfg : Config) :
    (∃ d, DictInv cfg.programs d ∧
      mergeDropins ord cfg = .ok ⟨(ord.apply d).map (·.2)⟩) ∨
    (mergeDropins ord cfg = .err 1 ∧ ∃ n, Conflict (entriesOf cfg.programs n)) := by
  unfold mergeDropins
  rcases dict_fold DictInv.nil cfg.programs with ⟨d, h, hd⟩ | ⟨h, hc⟩
  · exact .inl ⟨d, by simpa using hd, by rw [h]; rfl⟩
  · exact .inr ⟨by rw [h]; rfl, by simpa using hc⟩

theorem mem_entriesOf {es : List ProcessConfig} {n : Str} {e : ProcessConfig} :
    e ∈ entriesOf es n ↔ e ∈ es ∧ e.name = n := by
  simp [entriesOf]

/-- Programs of a successful load, in terms of the dictionary. -/
theorem mergeDropins_ok {ord : HashOrder} {cfg out : Config}
    (h : mergeDropins ord cfg = .ok out) :
    ∃ d, DictInv cfg.programs d ∧ out.programs = (ord.apply d).map (·.2) := by
  rcases mergeDropins_cases ord cfg with ⟨d, hd, he⟩ | ⟨he, -⟩
  · rw [he] at h; cases h; exact ⟨d, hd, rfl⟩
  · rw [he] at h; cases h

theorem DictInv.mem_iff {done : List ProcessConfig} {d : AMap Str ProcessConfig}
    (hd : DictInv done d) (ord : HashOrder) (p : ProcessConfig) :
    p ∈ (ord.apply d).map (·.2) ↔ d.get? p.name = some p := by
  simp only [List.mem_map, Prod.exists, exists_eq_right]
  constructor
  · rintro ⟨n, hm⟩
    have hm := (ord.perm d).mem_iff.mp hm
    have hg := AMap.get?_of_mem hd.wf hm
    by_cases hn : entriesOf done n = []
    · rw [hd.absent n hn] at hg; cases hg
    · obtain ⟨m, hg', hmn, -⟩ := hd.present n hn
      rw [hg] at hg'; cases hg'
      rw [hmn]; exact hg
  · intro hg
    exact ⟨p.name, (ord.perm d).mem_iff.mpr (AMap.mem_of_get? hg)⟩

theorem loaded_merged {ord : HashOrder} {cfg out : Config}
    (h : mergeDropins ord cfg = .ok out) {p : ProcessConfig} (hp : p ∈ out.programs) :
    Merged (entriesOf cfg.programs p.name) p := by
  obtain ⟨d, hd, he⟩ := mergeDropins_ok h
  rw [he, hd.mem_iff] at hp
  by_cases hn : entriesOf cfg.programs p.name = []
  · rw [hd.absent _ hn] at hp; cases hp
  · obtain ⟨m, hg, -, hm⟩ := hd.present _ hn
    rw [hp] at hg; cases hg; exact hm

end Cinit
