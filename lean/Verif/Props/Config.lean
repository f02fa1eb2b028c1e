import Verif.Proofs.Config
import Verif.Proofs.ConfigTree
/-!
# C01 – C06: loading the configuration
-/

namespace Cinit.Props

open Cinit Spec

/-! ## C01 -/

/-- The value loaded for an optional field is the one given by an entry, and there is none
iff no entry gives one. -/
def FieldIs {α : Type} (es : List ProcessConfig) (f : ProcessConfig → Option α)
    (o : Option α) : Prop :=
  (∀ v, o = some v ↔ ∃ e ∈ es, f e = some v) ∧ (o = none ↔ ∀ e ∈ es, f e = none)

private theorem fieldIs_of {α : Type} {es : List ProcessConfig} {f : ProcessConfig → Option α}
    {o : Option α} (h : es.filterMap f = o.toList) : FieldIs es f o := by
  constructor
  · intro v
    rw [← List.mem_filterMap, h]
    simp
  · rw [← List.filterMap_eq_nil_iff, h]
    cases o <;> simp

/-- C01: list fields are the union of the entries' lists (without duplicates as soon as two
entries were merged), the pty flag is the disjunction, single-valued fields are the value of
the entry that sets them. -/
theorem C01_merge_fields {ord : HashOrder} {cfg out : Config}
    (h : mergeDropins ord cfg = .ok out) {p : ProcessConfig} (hp : p ∈ out.programs) :
    let es := entriesOf cfg.programs p.name
    (∀ s, s ∈ p.before ↔ ∃ e ∈ es, s ∈ e.before) ∧
    (∀ s, s ∈ p.after ↔ ∃ e ∈ es, s ∈ e.after) ∧
    (∀ s, s ∈ p.capabilities ↔ ∃ e ∈ es, s ∈ e.capabilities) ∧
    (2 ≤ es.length → p.before.Nodup ∧ p.after.Nodup ∧ p.capabilities.Nodup) ∧
    (es.length = 1 → es = [p]) ∧
    (p.emulatePty = true ↔ ∃ e ∈ es, e.emulatePty = true) ∧
    FieldIs es (·.path) p.path ∧ FieldIs es (·.workdir) p.workdir ∧
    FieldIs es (·.uid) p.uid ∧ FieldIs es (·.gid) p.gid ∧
    FieldIs es (·.user) p.user ∧ FieldIs es (·.group) p.group := by
  have hm := loaded_merged h hp
  refine ⟨hm.before, hm.after, hm.capabilities, hm.nodup, ?_, hm.pty, fieldIs_of hm.path,
    fieldIs_of hm.workdir, fieldIs_of hm.uid, fieldIs_of hm.gid, fieldIs_of hm.user,
    fieldIs_of hm.group⟩
  intro hl
  obtain ⟨d, hd, he⟩ := mergeDropins_ok h
  rw [he, hd.mem_iff] at hp
  match hes : entriesOf cfg.programs p.name, hl with
  | [e], _ =>
    obtain ⟨m, hg, hf⟩ := hd.folded _ _ _ hes
    rw [hp] at hg
    cases hg
    cases hf
    rfl

/-! A concrete load with a drop-in on either side of the path-holding entry. -/

def exA : ProcessConfig := { name := ['a'], before := [['x'], ['y']], uid := some 7, args := [['1']] }
def exP : ProcessConfig := { name := ['a'], path := some ['/'], before := [['x']], args := [['2']] }
def exB : ProcessConfig := { name := ['a'], after := [['z']], emulatePty := true, args := [['3']] }
def exQ : ProcessConfig := { name := ['q'], path := some ['/', 'q'], ptype := .notify }

example : ∃ out, mergeDropins HashOrder.rev ⟨[exA, exQ, exP, exB]⟩ = .ok out ∧
    { exP with
      before := [['x'], ['y']], after := [['z']], emulatePty := true, uid := some 7,
      args := [['2'], ['1'], ['3']] } ∈ out.programs := by
  refine ⟨_, rfl, ?_⟩
  decide

/-! ## C02 -/

/-- C02: if every program has an entry with a path, loading fails (with exit code 1) exactly
if the entries of some program conflict. -/
theorem C02_conflict_iff (ord : HashOrder) (cfg : Config)
    (hpath : ∀ e ∈ cfg.programs, ∃ e' ∈ cfg.programs, e'.name = e.name ∧ e'.path.isSome) :
    mergeDropins ord cfg = .err 1 ↔ ∃ n, Conflict (entriesOf cfg.programs n) := by
  constructor
  · intro h
    rcases mergeDropins_cases ord cfg with ⟨d, -, he⟩ | ⟨-, hc⟩
    · rw [he] at h; cases h
    · exact hc
  · rintro ⟨n, hc⟩
    rcases mergeDropins_cases ord cfg with ⟨d, hd, -⟩ | ⟨he, -⟩
    · exfalso
      have hne : entriesOf cfg.programs n ≠ [] := by
        intro h
        rw [h] at hc
        rcases hc with hc | ⟨e, he, -⟩
        · simp [DuplicateField, given] at hc
        · cases he
      obtain ⟨m, -, -, hm⟩ := hd.present n hne
      rcases hc with hc | hc
      · exact hm.noDuplicate hc
      · refine hm.noCron ?_ hc
        obtain ⟨e, he, -, -⟩ := hc
        obtain ⟨e', he', hn, hs⟩ := hpath e (mem_entriesOf.mp he).1
        exact ⟨e', mem_entriesOf.mpr ⟨he', hn.trans (mem_entriesOf.mp he).2⟩, hs⟩
    · exact he

/-- C02: duplicated single-valued fields are rejected even if no entry has a path, and
nothing but a conflict is ever rejected; merging never panics. -/
theorem C02_duplicates_rejected (ord : HashOrder) (cfg : Config) :
    ((∃ n, DuplicateField (entriesOf cfg.programs n)) → mergeDropins ord cfg = .err 1) ∧
    (∀ c, mergeDropins ord cfg = .err c → c = 1 ∧ ∃ n, Conflict (entriesOf cfg.programs n)) ∧
    (∀ q, mergeDropins ord cfg ≠ .panic q) := by
  refine ⟨?_, ?_, ?_⟩
  · rintro ⟨n, hc⟩
    rcases mergeDropins_cases ord cfg with ⟨d, hd, -⟩ | ⟨he, -⟩
    · exfalso
      have hne : entriesOf cfg.programs n ≠ [] := by
        intro h
        rw [h] at hc
        simp [DuplicateField, given] at hc
      obtain ⟨m, -, -, hm⟩ := hd.present n hne
      exact hm.noDuplicate hc
    · exact he
  · intro c h
    rcases mergeDropins_cases ord cfg with ⟨d, -, he⟩ | ⟨he, hc⟩
    · rw [he] at h; cases h
    · rw [he] at h; cases h; exact ⟨rfl, hc⟩
  · intro q h
    rcases mergeDropins_cases ord cfg with ⟨d, -, he⟩ | ⟨he, hc⟩ <;> rw [he] at h <;> cases h

private theorem conflict_perm {a b : List ProcessConfig} (hp : a.Perm b) :
    Conflict a → Conflict b := by
  have len : ∀ {α : Type} (f : ProcessConfig → Option α),
      (given f a).length = (given f b).length :=
    fun f => (hp.filterMap f).length_eq
  rintro (h | ⟨e, he, h⟩)
  · left
    unfold DuplicateField at *
    simpa only [len] using h
  · exact .inr ⟨e, hp.mem_iff.mp he, h⟩

/-- C02: the verdict is independent of the order of the entries and of hash iteration. -/
theorem C02_order_independent (ord ord' : HashOrder) (cfg cfg' : Config)
    (hperm : cfg.programs.Perm cfg'.programs)
    (hpath : ∀ e ∈ cfg.programs, ∃ e' ∈ cfg.programs, e'.name = e.name ∧ e'.path.isSome) :
    mergeDropins ord cfg = .err 1 ↔ mergeDropins ord' cfg' = .err 1 := by
  have hpath' : ∀ e ∈ cfg'.programs, ∃ e' ∈ cfg'.programs, e'.name = e.name ∧ e'.path.isSome := by
    intro e he
    obtain ⟨e', he', h⟩ := hpath e (hperm.mem_iff.mpr he)
    exact ⟨e', hperm.mem_iff.mp he', h⟩
  rw [C02_conflict_iff ord cfg hpath, C02_conflict_iff ord' cfg' hpath']
  constructor
  · rintro ⟨n, h⟩; exact ⟨n, conflict_perm (hperm.filter _) h⟩
  · rintro ⟨n, h⟩; exact ⟨n, conflict_perm (hperm.symm.filter _) h⟩

/-- Both directions of C02 are inhabited: a path-complete configuration that conflicts (two
uids) and one that does not. -/
example : (∀ e ∈ [exA, exP, { exB with uid := some 7 }],
      ∃ e' ∈ [exA, exP, { exB with uid := some 7 }], e'.name = e.name ∧ e'.path.isSome) ∧
    mergeDropins .id ⟨[exA, exP, { exB with uid := some 7 }]⟩ = .err 1 ∧
    mergeDropins .id ⟨[{ exB with ptype := .cronJob [] }, exP]⟩ = .err 1 ∧
    mergeDropins .id ⟨[exA, exP, exB]⟩ ≠ .err 1 := by
  decide

/-- The proviso of C02 is needed: without any path the verdict depends on the order. (Both
orders are rejected later, because the path is missing: see C51.) -/
theorem C02_no_path_order_matters :
    mergeDropins .id ⟨[{ exB with ptype := .cronJob [] }, exA]⟩ = .err 1 ∧
    mergeDropins .id ⟨[exA, { exB with ptype := .cronJob [] }]⟩ ≠ .err 1 := by
  decide

/-! ## C03 -/

/-- C03: if the entries of a loaded program are `pre`, the path holder `q`, `post`, then args
(and env) are those of `q`, then those of `pre` in reverse order of entries, then those of
`post` in order. -/
theorem C03_args_order {ord : HashOrder} {cfg out : Config}
    (h : mergeDropins ord cfg = .ok out) {p q : ProcessConfig} (hp : p ∈ out.programs)
    {pre post : List ProcessConfig}
    (hq : PathHolder (entriesOf cfg.programs p.name) pre q post) :
    p.args = q.args ++ (pre.reverse.map (·.args)).flatten ++ (post.map (·.args)).flatten ∧
    p.env = q.env ++ (pre.reverse.map (·.env)).flatten ++ (post.map (·.env)).flatten := by
  obtain ⟨heq, hs, hnone⟩ := hq
  obtain ⟨pre', q', post', heq', hnone', -, -, -, ha, he⟩ := (loaded_merged h hp).primary
  have huniq : pre = pre' ∧ q = q' ∧ post = post' := by
    rw [heq] at heq'
    clear heq ha he
    induction pre generalizing pre' with
    | nil =>
      cases pre' with
      | nil => simpa using heq'
      | cons x xs =>
        simp at heq'
        have := hnone' x (by simp)
        rw [← heq'.1] at this
        simp [this] at hs
    | cons y ys ih =>
      cases pre' with
      | nil =>
        simp at heq'
        have h1 := hnone' q (by rw [← heq'.2]; simp)
        simp [h1] at hs
      | cons x xs =>
        simp only [List.cons_append, List.cons.injEq] at heq'
        obtain ⟨h1, h2, h3⟩ := ih (fun e he => hnone e (List.mem_cons_of_mem _ he)) _
          heq'.2 (fun e he => hnone' e (List.mem_cons_of_mem _ he))
        exact ⟨by rw [heq'.1, h1], h2, h3⟩
  obtain ⟨rfl, rfl, rfl⟩ := huniq
  exact ⟨ha, he⟩

/-- C03: nothing is lost or duplicated: as a multiset the arguments (and environment
entries) are those of all the entries. -/
theorem C03_args_complete {ord : HashOrder} {cfg out : Config}
    (h : mergeDropins ord cfg = .ok out) {p : ProcessConfig} (hp : p ∈ out.programs) :
    p.args.Perm ((entriesOf cfg.programs p.name).map (·.args)).flatten ∧
    p.env.Perm ((entriesOf cfg.programs p.name).map (·.env)).flatten := by
  obtain ⟨pre, q, post, heq, -, -, -, -, ha, he⟩ := (loaded_merged h hp).primary
  have aux : ∀ {α : Type} (f : ProcessConfig → List α),
      (f q ++ (pre.reverse.map f).flatten ++ (post.map f).flatten).Perm
        ((pre ++ q :: post).map f).flatten := by
    intro α f
    have h1 : (pre.reverse.map f).flatten.Perm (pre.map f).flatten :=
      ((List.reverse_perm pre).map f).flatten
    simp only [List.map_append, List.map_cons, List.flatten_append, List.flatten_cons]
    rw [← List.append_assoc]
    apply List.Perm.append_right
    exact (List.Perm.append_left _ h1).trans List.perm_append_comm
  rw [ha, he, heq]
  exact ⟨aux _, aux _⟩

example : PathHolder (entriesOf [exA, exQ, exP, exB] ['a']) [exA] exP [exB] := by
  refine ⟨by decide, by decide, by decide⟩

/-! ## C04 -/

/-- C04: names are unique and are exactly the names of the entries. -/
theorem C04_names {ord : HashOrder} {cfg out : Config} (h : mergeDropins ord cfg = .ok out) :
    (out.programs.map (·.name)).Nodup ∧
    ∀ n, n ∈ out.programs.map (·.name) ↔ n ∈ cfg.programs.map (·.name) := by
  obtain ⟨d, hd, he⟩ := mergeDropins_ok h
  have hkey : (ord.apply d).map (fun x => x.2.name) = (ord.apply d).map (·.1) := by
    apply List.map_congr_left
    rintro ⟨n, m⟩ hm
    have hg := AMap.get?_of_mem hd.wf ((ord.perm d).mem_iff.mp hm)
    by_cases hn : entriesOf cfg.programs n = []
    · rw [hd.absent n hn] at hg; cases hg
    · obtain ⟨m', hg', hmn, -⟩ := hd.present n hn
      rw [hg] at hg'; cases hg'; exact hmn
  have hperm : (out.programs.map (·.name)).Perm (AMap.keys d) := by
    rw [he, List.map_map]
    show ((ord.apply d).map (fun x => x.2.name)).Perm _
    rw [hkey]
    exact (ord.perm d).map _
  refine ⟨hperm.nodup_iff.mpr hd.wf, ?_⟩
  intro n
  rw [hperm.mem_iff]
  constructor
  · intro hk
    by_cases hn : entriesOf cfg.programs n = []
    · exact absurd hk ((AMap.get?_eq_none_iff d n).mp (hd.absent n hn))
    · obtain ⟨e, hmem⟩ := List.exists_mem_of_ne_nil _ hn
      rw [mem_entriesOf] at hmem
      exact List.mem_map.mpr ⟨e, hmem⟩
  · intro hk
    obtain ⟨e, he, hen⟩ := List.mem_map.mp hk
    have hn : entriesOf cfg.programs n ≠ [] :=
      List.ne_nil_of_mem (mem_entriesOf.mpr ⟨he, hen⟩)
    obtain ⟨m, hg, -, -⟩ := hd.present n hn
    exact AMap.mem_keys_of_get? hg

/-- C04: a loaded program depends only on the entries bearing its name, in their order:
two loads whose entries of that name agree (whatever else differs, and whatever the hash
order) contain the same program. -/
theorem C04_locality {ord ord' : HashOrder} {cfg cfg' out out' : Config}
    (h : mergeDropins ord cfg = .ok out) (h' : mergeDropins ord' cfg' = .ok out')
    {p : ProcessConfig} (hp : p ∈ out.programs)
    (hsame : entriesOf cfg.programs p.name = entriesOf cfg'.programs p.name) :
    p ∈ out'.programs := by
  obtain ⟨d, hd, he⟩ := mergeDropins_ok h
  obtain ⟨d', hd', he'⟩ := mergeDropins_ok h'
  rw [he, hd.mem_iff] at hp
  rw [he', hd'.mem_iff]
  cases hes : entriesOf cfg.programs p.name with
  | nil => rw [hd.absent _ hes] at hp; cases hp
  | cons e es =>
    obtain ⟨m, hg, hf⟩ := hd.folded _ _ _ hes
    obtain ⟨m', hg', hf'⟩ := hd'.folded _ _ _ (hsame ▸ hes)
    rw [hp] at hg; cases hg
    rw [hf] at hf'; cases hf'
    exact hg'

example : ∃ out out', mergeDropins .id ⟨[exA, exQ, exP]⟩ = .ok out ∧
    mergeDropins .rev ⟨[exA, exP]⟩ = .ok out' ∧ out.programs.length = 2 ∧
    out'.programs.length = 1 ∧ ∀ p ∈ out'.programs, p ∈ out.programs := by
  refine ⟨_, _, rfl, rfl, ?_⟩
  decide

/-! ## C05 -/

/-- The full statement of C05. -/
def C05_statement : Prop :=
  ∀ (ord : HashOrder) (cfg out : Config), mergeDropins ord cfg = .ok out →
    ∀ p ∈ out.programs, ∀ pre q post,
      PathHolder (entriesOf cfg.programs p.name) pre q post →
        p.ptype = q.ptype ∧ ∀ e ∈ pre ++ post, e.ptype = .oneshot

/-- C05 is false of the code: a drop-in asking for type `notify` is silently ignored. -/
theorem C05_violated : ¬ C05_statement := by
  intro h
  have := (h .id ⟨[exP, { exB with ptype := .notify }]⟩ _ rfl
    { exP with after := [['z']], emulatePty := true, args := [['2'], ['3']] } (by decide)
    [] exP [{ exB with ptype := .notify }]
    ⟨by decide, by decide, by decide⟩).2 _ (List.mem_singleton.mpr rfl)
  exact absurd this (by decide)

/-- C05, proved part: the type is the path holder's and no drop-in declares a cronjob.
Missing: drop-ins of type `notify` are accepted (and ignored), see `C05_violated`. -/
theorem C05_type_partial {ord : HashOrder} {cfg out : Config}
    (h : mergeDropins ord cfg = .ok out) {p q : ProcessConfig} (hp : p ∈ out.programs)
    {pre post : List ProcessConfig}
    (hq : PathHolder (entriesOf cfg.programs p.name) pre q post) :
    p.ptype = q.ptype ∧ ∀ e ∈ pre ++ post, ∀ t, e.ptype ≠ .cronJob t := by
  have hm := loaded_merged h hp
  have hsome : ∃ e ∈ entriesOf cfg.programs p.name, e.path.isSome :=
    ⟨q, by rw [hq.1]; simp, hq.2.1⟩
  refine ⟨?_, ?_⟩
  · obtain ⟨pre', q', post', heq', hnone', -, -, hty, -⟩ := hm.primary
    have hq' : q ∈ pre' ++ q' :: post' := by rw [← heq', hq.1]; simp
    have : q = q' ∨ q ∈ pre' ++ post' := by simp at hq' ⊢; grind
    rcases this with rfl | hmem
    · exact hty
    · have := hnone' q hmem
      have h2 := hq.2.1
      simp [this] at h2
  · intro e he t ht
    refine hm.noCron hsome ⟨e, ?_, hq.2.2 e he, t, ht⟩
    rw [hq.1]; simp at he ⊢; grind

/-! ## C06 -/

/-- C06 in full: if everything can be read, the contents read are those of all regular files, each
exactly once; otherwise, or if something is malformed, the exit code is 1. -/
def C06_statement : Prop :=
  ∀ (yaml : Str → Option Config) (ord : HashOrder) (t : FileTree),
    (¬ HasUnreadable t → ∃ fs : List (List Nat × Str), fs.Nodup ∧
      (∀ p c, (p, c) ∈ fs ↔ FileAt t p c) ∧ readConfig t = .ok (fs.map (·.2))) ∧
    ((HasUnreadable t ∨ ∃ p c, FileAt t p c ∧ yaml c = none) → parseConfig yaml ord t = .err 1)

/-- C06 is false of the code: a file whose name is not UTF-8 makes cinit abort, though it could be
read. -/
theorem C06_violated : ¬ C06_statement := by
  intro h
  obtain ⟨fs, -, -, hr⟩ := (h (fun _ => none) .id (.dir [.badName])).1 (by
    intro h
    cases h with
    | inside hm ht =>
      cases List.mem_singleton.mp hm
      cases ht)
  cases hr

/-- C06: whatever the names of the files are, cinit does not get beyond a file that is unreadable or
malformed. -/
theorem C06_refused {yaml : Str → Option Config} {ord : HashOrder} {t : FileTree}
    (h : HasUnreadable t ∨ ∃ p c, FileAt t p c ∧ yaml c = none) :
    parseConfig yaml ord t = .err 1 ∨ parseConfig yaml ord t = .panic .invalidUtf8 := by
  unfold parseConfig
  rcases readConfig_cases t with ⟨hu, -, he⟩ | ⟨-, he⟩ | ⟨-, he⟩
  · rw [he]
    simp only [Res.bind_ok]
    rcases h with h | ⟨p, c, hf, hy⟩
    · exact absurd h hu
    · rw [parseRawConfig_err ⟨c, List.mem_map.mpr ⟨(p, c), (mem_filesOf t p c).mpr hf, rfl⟩, hy⟩]
      exact .inl rfl
  · rw [he]; exact .inl rfl
  · rw [he]; exact .inr rfl

/-- C06: the contents read are those of all regular files of the tree, each exactly once.
Missing: names of files that are not UTF-8, see `C06_violated`. -/
theorem C06_every_file_once_partial (t : FileTree) (hu : ¬ HasUnreadable t) (hb : ¬ HasBadName t) :
    ∃ fs : List (List Nat × Str), fs.Nodup ∧ (∀ p c, (p, c) ∈ fs ↔ FileAt t p c) ∧
      readConfig t = .ok (fs.map (·.2)) := by
  refine ⟨filesOf t, filesOf_nodup t, mem_filesOf t, ?_⟩
  rcases readConfig_cases t with ⟨-, -, h⟩ | ⟨h, -⟩ | ⟨h, -⟩
  · exact h
  · exact absurd h hu
  · exact absurd h hb

/-- C06: a successful load had only readable, well-formed files, and loads exactly the
programs of all regular files. -/
theorem C06_load_complete {yaml : Str → Option Config} {ord : HashOrder} {t : FileTree}
    {out : Config} (h : parseConfig yaml ord t = .ok out) :
    ¬ HasUnreadable t ∧ ¬ HasBadName t ∧
    ∃ fs : List (List Nat × Str), fs.Nodup ∧ (∀ p c, (p, c) ∈ fs ↔ FileAt t p c) ∧
      (∀ x ∈ fs, (yaml x.2).isSome) ∧
      mergeDropins ord ⟨fs.flatMap (fun x => ((yaml x.2).map (·.programs)).getD [])⟩ = .ok out := by
  unfold parseConfig at h
  obtain ⟨raw, hr, h⟩ := Res.bind_eq_ok.mp h
  obtain ⟨c, hc, hmd⟩ := Res.bind_eq_ok.mp h
  rcases readConfig_cases t with ⟨hu, hb, he⟩ | ⟨-, he⟩ | ⟨-, he⟩
  · refine ⟨hu, hb, filesOf t, filesOf_nodup t, mem_filesOf t, ?_, ?_⟩
    · rw [he] at hr; cases hr
      intro x hx
      exact (parseRawConfig_ok hc).1 _ (List.mem_map.mpr ⟨x, hx, rfl⟩)
    · rw [he] at hr; cases hr
      have := (parseRawConfig_ok hc).2
      have hl : (filesOf t).flatMap (fun x => ((yaml x.2).map (·.programs)).getD []) =
          c.programs := by
        rw [this]
        generalize filesOf t = l
        induction l with
        | nil => rfl
        | cons x xs ih =>
          simp only [List.flatMap_cons, List.map_cons, List.filterMap_cons]
          cases hy : yaml x.2 <;> rw [ih] <;> rfl
      rw [hl]
      exact hmd
  · rw [he] at hr; cases hr
  · rw [he] at hr; cases hr

/-- C06: anything unreadable or malformed makes loading fail with exit code 1 (given that
file names are UTF-8), and 1 is the only exit code of this phase. Missing: other names, see
`C06_violated`. -/
theorem C06_failure_partial {yaml : Str → Option Config} {ord : HashOrder} {t : FileTree}
    (hb : ¬ HasBadName t) :
    ((HasUnreadable t ∨ ∃ p c, FileAt t p c ∧ yaml c = none) →
      parseConfig yaml ord t = .err 1) ∧
    (∀ c, parseConfig yaml ord t = .err c → c = 1) ∧
    (∀ q, parseConfig yaml ord t ≠ .panic q) := by
  unfold parseConfig
  rcases readConfig_cases t with ⟨hu, -, he⟩ | ⟨-, he⟩ | ⟨h, -⟩
  · rw [he]
    simp only [Res.bind_ok]
    refine ⟨?_, ?_, ?_⟩
    · rintro (h | ⟨p, c, hf, hy⟩)
      · exact absurd h hu
      · rw [parseRawConfig_err ⟨c, List.mem_map.mpr ⟨(p, c), (mem_filesOf t p c).mpr hf, rfl⟩, hy⟩]
        rfl
    · intro c
      unfold parseRawConfig
      split
      · rintro ⟨⟩; rfl
      · simp only [Res.bind_ok]
        intro h
        exact ((C02_duplicates_rejected ord _).2.1 c h).1
    · intro q
      unfold parseRawConfig
      split
      · rintro ⟨⟩
      · simp only [Res.bind_ok]
        exact (C02_duplicates_rejected ord _).2.2 q
  · rw [he]
    refine ⟨fun _ => rfl, ?_, ?_⟩
    · rintro c ⟨⟩; rfl
    · rintro q ⟨⟩
  · exact absurd h hb

/-- A two-level tree with a special file, satisfying the hypotheses of C06. -/
def exTree : FileTree := .dir [.file ['a'], .other, .dir [.file ['b'], .file ['a']]]

example : ¬ HasUnreadable exTree ∧ ¬ HasBadName exTree ∧ FileAt exTree [2, 1] ['a'] ∧
    readConfig exTree = .ok [['a'], ['b'], ['a']] := by
  rcases readConfig_cases exTree with ⟨hu, hb, -⟩ | ⟨-, h⟩ | ⟨-, h⟩
  · exact ⟨hu, hb, .inside rfl (.inside rfl (.here _)), by decide⟩
  · exact absurd h (by decide)
  · exact absurd h (by decide)

end Cinit.Props
