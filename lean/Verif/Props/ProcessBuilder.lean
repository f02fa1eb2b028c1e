import Verif.Proofs.ProcessBuilder
/-!
# C07-C12, C55: what a program is started with
-/

namespace Cinit.Props

open Cinit Spec ProcessBuilder

theorem mapId_spec {α : Type} (byId : Nat → Option α) (byName : Str → Option α)
    (id : Option Nat) (name : Option Str) :
    (∀ r, mapId id name byId byName = .ok r ↔ Resolved byId byName id name r) ∧
    ((∀ r, ¬ Resolved byId byName id name r) → mapId id name byId byName = .err .userGroupInvalid) := by
  cases id with
  | none =>
    cases name with
    | none =>
      cases h : byId 0 with
      | none => simp [mapId, Resolved, h]
      | some a => simp [mapId, Resolved, h]
    | some n =>
      cases h : byName n with
      | none => simp [mapId, Resolved, h]
      | some a => simp [mapId, Resolved, h]
  | some i =>
    cases name with
    | none =>
      cases h : byId i with
      | none => simp [mapId, Resolved, h]
      | some a => simp [mapId, Resolved, h]
    | some n => simp [mapId, Resolved]

/-! ## C12 -/

/-- C12: a program that is built has exactly the ids of the database records its configuration
selects. -/
theorem C12_ids {s : Surroundings} {c : ProcessConfig} {p : Process}
    (h : processFrom s c = .ok p) :
    ∃ user group, Resolved s.userById s.userByName c.uid c.user user ∧
      Resolved s.groupById s.groupByName c.gid c.group group ∧
      p.uid = user.uid ∧ p.gid = group.gid := by
  obtain ⟨user, group, path, h1, h2, -, -, -, -, -, -, -, h3, h4, -⟩ := processFrom_ok h
  exact ⟨user, group, ((mapId_spec _ _ _ _).1 _).mp h1, ((mapId_spec _ _ _ _).1 _).mp h2, h3, h4⟩

/-- C12: giving both id and name, or an unknown id or name, for the user or the group, is an
error. -/
theorem C12_error {s : Surroundings} {c : ProcessConfig}
    (hc : c.ptype.isCron = false ∨ c.before = [])
    (h : (∀ user, ¬ Resolved s.userById s.userByName c.uid c.user user) ∨
      (∀ group, ¬ Resolved s.groupById s.groupByName c.gid c.group group)) :
    processFrom s c = .err .userGroupInvalid := by
  unfold processFrom
  rw [if_neg (by rcases hc with hc | hc <;> simp [hc])]
  rcases h with h | h
  · rw [(mapId_spec _ _ _ _).2 h]; rfl
  · by_cases hu : ∃ user, Resolved s.userById s.userByName c.uid c.user user
    · obtain ⟨user, hu⟩ := hu
      rw [((mapId_spec _ _ _ _).1 _).mpr hu, Res.bind_ok, (mapId_spec _ _ _ _).2 h]
      rfl
    · rw [(mapId_spec _ _ _ _).2 (fun r hr => hu ⟨r, hr⟩)]; rfl

/-- C12: which error is reported. -/
theorem C12_which_error {s : Surroundings} {c : ProcessConfig} {e : BuildError}
    (h : processFrom s c = .err e) :
    (e = .cronjobDependency ↔ c.ptype.isCron = true ∧ c.before ≠ []) ∧
    (e = .pathMissing → c.path = none ∧
      (∃ user, Resolved s.userById s.userByName c.uid c.user user) ∧
      ∃ group, Resolved s.groupById s.groupByName c.gid c.group group) ∧
    (e = .userGroupInvalid →
      (∀ user, ¬ Resolved s.userById s.userByName c.uid c.user user) ∨
      (∀ group, ¬ Resolved s.groupById s.groupByName c.gid c.group group)) := by
  have cerr : ∀ {t : Str} {e : BuildError}, cstring t ≠ .err e := by
    intro t e h; unfold cstring at h; split at h <;> cases h
  have aerr : ∀ {env : AMap Str Str} (l : List Str) (i : Nat) {e : BuildError},
      convertArgs s env i l ≠ .err e := by
    intro env l
    induction l with
    | nil => intro i e h; cases h
    | cons x xs ih =>
      intro i e h
      simp only [convertArgs] at h
      cases hc : (cstring (treatArgument x (s.render (argName i) env.get? x)) : Res BuildError Str) with
      | err e => exact cerr hc
      | panic q => rw [hc] at h; cases h
      | ok a =>
        rw [hc, Res.bind_ok] at h
        cases ha : convertArgs s env (i + 1) xs with
        | err e => exact ih _ ha
        | panic q => rw [ha] at h; cases h
        | ok as => rw [ha] at h; cases h
  have ferr : ∀ (l : AMap Str Str) {e : BuildError},
      Res.mapM' (fun kv => cstring (kv.1 ++ '=' :: kv.2)) l ≠ .err e := by
    intro l
    induction l with
    | nil => intro e h; cases h
    | cons x xs ih =>
      intro e h
      simp only [Res.mapM'] at h
      cases hc : (cstring (x.1 ++ '=' :: x.2) : Res BuildError Str) with
      | err e => exact cerr hc
      | panic q => rw [hc] at h; cases h
      | ok a =>
        rw [hc, Res.bind_ok] at h
        cases ha : Res.mapM' (ε := BuildError) (fun kv => cstring (kv.1 ++ '=' :: kv.2)) xs with
        | err e => exact ih ha
        | panic q => rw [ha] at h; cases h
        | ok as => rw [ha] at h; cases h
  unfold processFrom at h
  split at h
  · rename_i hc
    cases h
    simpa using hc
  · rename_i hc
    have hc' : ¬ (c.ptype.isCron = true ∧ c.before ≠ []) := by simpa using hc
    by_cases hu : ∃ user, Resolved s.userById s.userByName c.uid c.user user
    · obtain ⟨user, hu⟩ := hu
      rw [((mapId_spec _ _ _ _).1 _).mpr hu, Res.bind_ok] at h
      by_cases hg : ∃ group, Resolved s.groupById s.groupByName c.gid c.group group
      · obtain ⟨group, hg⟩ := hg
        rw [((mapId_spec _ _ _ _).1 _).mpr hg, Res.bind_ok] at h
        cases hp : c.path with
        | none =>
          rw [hp] at h
          cases h
          exact ⟨by simpa using hc', fun _ => ⟨rfl, ⟨user, hu⟩, group, hg⟩, (fun h => by cases h)⟩
        | some path =>
          rw [hp] at h
          simp only at h
          exfalso
          split at h
          all_goals
            generalize hfl : (flattenToStrings (ε := BuildError) s.order _) = fl at h
            cases fl with
            | err e => exact ferr _ hfl
            | panic q => cases h
            | ok flat =>
              rw [Res.bind_ok] at h
              cases hcs : (cstring path : Res BuildError Str) with
              | err e => exact cerr hcs
              | panic q => rw [hcs] at h; cases h
              | ok a =>
                rw [hcs, Res.bind_ok] at h
                generalize har : convertArgs s _ 0 c.args = ar at h
                cases ar with
                | err e => exact aerr _ _ har
                | panic q => cases h
                | ok as => cases h
      · rw [(mapId_spec _ _ _ _).2 (fun r hr => hg ⟨r, hr⟩)] at h
        cases h
        exact ⟨by simpa using hc', (fun h => by cases h), fun _ => .inr (fun r hr => hg ⟨r, hr⟩)⟩
    · rw [(mapId_spec _ _ _ _).2 (fun r hr => hu ⟨r, hr⟩)] at h
      cases h
      exact ⟨by simpa using hc', (fun h => by cases h), fun _ => .inl (fun r hr => hu ⟨r, hr⟩)⟩

/-- C12: errors are exactly these: dependencies of a cronjob, unresolvable user or group,
missing path. -/
theorem C12_error_iff {s : Surroundings} {c : ProcessConfig} :
    (∃ e, processFrom s c = .err e) ↔
      (c.ptype.isCron = true ∧ c.before ≠ []) ∨
      (∀ user, ¬ Resolved s.userById s.userByName c.uid c.user user) ∨
      (∀ group, ¬ Resolved s.groupById s.groupByName c.gid c.group group) ∨ c.path = none := by
  by_cases hc : c.ptype.isCron = true ∧ c.before ≠ []
  · constructor
    · intro _; exact .inl hc
    · intro _
      refine ⟨.cronjobDependency, ?_⟩
      unfold processFrom
      rw [if_pos (by simpa using hc)]
  · have hc' : ¬ (c.ptype.isCron && !c.before.isEmpty) = true := by simpa using hc
    by_cases hu : ∃ user, Resolved s.userById s.userByName c.uid c.user user
    · obtain ⟨user, hu⟩ := hu
      by_cases hg : ∃ group, Resolved s.groupById s.groupByName c.gid c.group group
      · obtain ⟨group, hg⟩ := hg
        cases hp : c.path with
        | none =>
          constructor
          · intro _; exact .inr (.inr (.inr rfl))
          · intro _
            refine ⟨.pathMissing, ?_⟩
            unfold processFrom
            rw [if_neg hc', ((mapId_spec _ _ _ _).1 _).mpr hu, Res.bind_ok,
              ((mapId_spec _ _ _ _).1 _).mpr hg, Res.bind_ok, hp]
        | some path =>
          constructor
          · rintro ⟨e, he⟩
            exfalso
            unfold processFrom at he
            rw [if_neg hc', ((mapId_spec _ _ _ _).1 _).mpr hu, Res.bind_ok,
              ((mapId_spec _ _ _ _).1 _).mpr hg, Res.bind_ok, hp] at he
            have nce : ∀ (t : Str) (e : BuildError), cstring t ≠ .err e := by
              intro t e h
              unfold cstring at h
              split at h <;> cases h
            have nfe : ∀ (l : List (Str × Str)) (e : BuildError),
                Res.mapM' (fun kv => cstring (kv.1 ++ '=' :: kv.2)) l ≠ .err e := by
              intro l
              induction l with
              | nil => intro e h; cases h
              | cons x xs ih =>
                intro e h
                unfold Res.mapM' at h
                cases hx : (cstring (x.1 ++ '=' :: x.2) : Res BuildError Str) with
                | err e' => exact nce _ _ hx
                | panic p => rw [hx] at h; cases h
                | ok a =>
                  rw [hx, Res.bind_ok] at h
                  cases hxs : Res.mapM' (fun kv : Str × Str =>
                    (cstring (kv.1 ++ '=' :: kv.2) : Res BuildError Str)) xs with
                  | err e' => exact ih _ hxs
                  | panic p => rw [hxs] at h; cases h
                  | ok as => rw [hxs] at h; cases h
            have nae : ∀ (xs : List Str) (env : AMap Str Str) (i : Nat) (e : BuildError),
                convertArgs s env i xs ≠ .err e := by
              intro xs env
              induction xs with
              | nil => intro i e h; cases h
              | cons x xs ih =>
                intro i e h
                unfold convertArgs at h
                cases hx : (cstring (treatArgument x (s.render (argName i) env.get? x)) :
                    Res BuildError Str) with
                | err e' => exact nce _ _ hx
                | panic p => rw [hx] at h; cases h
                | ok a =>
                  rw [hx, Res.bind_ok] at h
                  cases hxs : convertArgs s env (i + 1) xs with
                  | err e' => exact ih _ _ hxs
                  | panic p => rw [hxs] at h; cases h
                  | ok as => rw [hxs] at h; cases h
            simp only at he
            generalize henv : (if c.ptype = CfgType.notify then
              (convertEnv s c.env user).insert sNOTIFY notifySocketPath
              else convertEnv s c.env user) = env at he
            cases h1 : (flattenToStrings s.order env : Res BuildError (List Str)) with
            | err e' => exact nfe _ _ h1
            | panic p => rw [h1] at he; cases he
            | ok flat =>
              rw [h1, Res.bind_ok] at he
              cases h2 : (cstring path : Res BuildError Str) with
              | err e' => exact nce _ _ h2
              | panic p => rw [h2] at he; cases he
              | ok a0 =>
                rw [h2, Res.bind_ok] at he
                cases h3 : convertArgs s env 0 c.args with
                | err e' => exact nae _ _ _ _ h3
                | panic p => rw [h3] at he; cases he
                | ok as => rw [h3] at he; cases he
          · rintro (h | h | h | h)
            · exact absurd h hc
            · exact absurd hu (h user)
            · exact absurd hg (h group)
            · cases h
      · constructor
        · intro _; exact .inr (.inr (.inl (fun r hr => hg ⟨r, hr⟩)))
        · intro _
          exact ⟨_, C12_error (by simpa [Decidable.or_iff_not_imp_left] using hc)
            (.inr (fun r hr => hg ⟨r, hr⟩))⟩
    · constructor
      · intro _; exact .inr (.inl (fun r hr => hu ⟨r, hr⟩))
      · intro _
        exact ⟨_, C12_error (by simpa [Decidable.or_iff_not_imp_left] using hc)
          (.inl (fun r hr => hu ⟨r, hr⟩))⟩

/-! ## The environment block -/

private theorem valueAfter_some {getenv : Str → Option Str}
    {render : Str → (Str → Option Str) → Str → Option Str} {dflt : Str → Option Str}
    {l : List (Str × Option Str)} {k v : Str}
    (h : valueAfter getenv render dflt l k = some v) :
    (∃ v, dflt k = some v) ∨ ∃ v, (k, v) ∈ l := by
  induction l with
  | nil => exact .inl ⟨v, h⟩
  | cons x xs ih =>
    obtain ⟨k', v'⟩ := x
    by_cases hk : k = k'
    · subst hk; exact .inr ⟨v', List.mem_cons_self ..⟩
    · have : valueAfter getenv render dflt xs k = some v := by
        cases v' <;> simpa [valueAfter, hk] using h
      rcases ih this with h1 | ⟨v, h1⟩
      · exact .inl h1
      · exact .inr ⟨v, List.mem_cons_of_mem _ h1⟩

private theorem default_some {getenv : Str → Option Str} {home user k : Str} :
    (∃ v, defaultValue getenv home user k = some v) ↔ k ∈ documented := by
  unfold defaultValue
  split
  · rename_i h; rcases h with rfl | rfl <;> simp [documented]
  · split
    · rename_i h; rcases h with rfl | rfl <;> simp [documented]
    · split
      · rename_i h; subst h; simp [documented]
      · split
        · rename_i h; simp [h]
        · rename_i h; simp [h]

theorem mentions_iff {env : List (List (Str × Option Str))} {k : Str} :
    (∃ v, (k, v) ∈ env.flatten.reverse) ↔ Mentions env k := by
  simp only [List.mem_reverse, List.mem_flatten]
  constructor
  · rintro ⟨v, e, h1, h2⟩; exact ⟨e, h1, v, h2⟩
  · rintro ⟨e, h1, v, h2⟩; exact ⟨v, e, h1, h2⟩

private theorem documented_proper : ∀ k ∈ documented, ProperName k := by
  unfold ProperName documented; decide

/-- Where the names of the final environment come from. -/
private theorem final_names {s : Surroundings} {c : ProcessConfig} {user : User} {k v : Str}
    (h : (finalEnv s c user).get? k = some v) :
    k ∈ documented ∨ Mentions c.env k ∨ (c.ptype = .notify ∧ k = notifyVar) := by
  rw [finalEnv_get?] at h
  split at h
  · rename_i h'; exact .inr (.inr h')
  · rcases valueAfter_some h with h1 | h1
    · exact .inl (default_some.mp h1)
    · exact .inr (.inl (mentions_iff.mp h1))

private theorem split_eq {k k' v v' : Str} (h : ProperName k) (h' : ProperName k')
    (e : k ++ '=' :: v = k' ++ '=' :: v') : k = k' ∧ v = v' := by
  induction k generalizing k' with
  | nil =>
    cases k' with
    | nil => simpa using e
    | cons c k' =>
      simp only [List.nil_append, List.cons_append, List.cons.injEq] at e
      exact absurd (e.1 ▸ List.mem_cons_self ..) h'
  | cons c k ih =>
    cases k' with
    | nil =>
      simp only [List.nil_append, List.cons_append, List.cons.injEq] at e
      exact absurd (e.1 ▸ List.mem_cons_self ..) h
    | cons c' k' =>
      simp only [List.cons_append, List.cons.injEq] at e
      obtain ⟨e1, e2⟩ := ih (fun hm => h (List.mem_cons_of_mem _ hm))
        (fun hm => h' (List.mem_cons_of_mem _ hm)) e.2
      exact ⟨by rw [e.1, e1], e2⟩

/-- The names mentioned in the configuration are proper. -/
def ProperNames (c : ProcessConfig) : Prop := ∀ k, Mentions c.env k → ProperName k

private theorem final_proper {s : Surroundings} {c : ProcessConfig} (hn : ProperNames c)
    {user : User} {k v : Str} (h : (finalEnv s c user).get? k = some v) : ProperName k := by
  rcases final_names h with h | h | ⟨-, h⟩
  · exact documented_proper k h
  · exact hn k h
  · subst h; unfold ProperName; decide

theorem envHas_iff {s : Surroundings} {c : ProcessConfig} (hn : ProperNames c)
    {user : User} {flat : List Str}
    (hf : flattenToStrings (ε := BuildError) s.order (finalEnv s c user) = .ok flat)
    {k v : Str} (hk : ProperName k) :
    EnvHas flat k v ↔ (finalEnv s c user).get? k = some v := by
  obtain ⟨e, -⟩ := flatten_ok hf
  subst e
  unfold EnvHas
  simp only [List.mem_map, (s.order.perm _).mem_iff]
  constructor
  · rintro ⟨⟨k', v'⟩, h1, h2⟩
    have hg := (AMap.mem_iff_get? (finalEnv_wf s c user)).mp h1
    obtain ⟨rfl, rfl⟩ := split_eq (final_proper hn hg) hk h2
    exact hg
  · intro h
    exact ⟨(k, v), AMap.mem_of_get? h, rfl⟩

private theorem entryName_join {k v : Str} (hk : ProperName k) : entryName (k ++ '=' :: v) = k := by
  unfold entryName
  induction k with
  | nil => simp
  | cons c k ih =>
    have hc : c ≠ '=' := fun h => hk (h ▸ List.mem_cons_self ..)
    simp only [List.cons_append, List.takeWhile_cons, hc, ne_eq, not_false_eq_true, decide_true,
      if_true, List.cons.injEq, true_and]
    exact ih (fun hm => hk (List.mem_cons_of_mem _ hm))

/-! ## C07 -/

/-- C07: every entry of the environment block is named after one of the nine documented
variables, or a variable mentioned in the program's own list, or is the notification socket
of a notify program. -/
theorem C07_no_leak {s : Surroundings} {c : ProcessConfig} {p : Process}
    (h : processFrom s c = .ok p) (hn : ProperNames c) :
    ∀ e ∈ p.env, entryName e ∈ documented ∨ Mentions c.env (entryName e) ∨
      (c.ptype = .notify ∧ entryName e = notifyVar) := by
  obtain ⟨user, group, path, -, -, -, -, hf, -⟩ := processFrom_ok h
  intro e he
  obtain ⟨e1, -⟩ := flatten_ok hf
  rw [e1] at he
  obtain ⟨⟨k, v⟩, h1, rfl⟩ := List.mem_map.mp he
  rw [(s.order.perm _).mem_iff] at h1
  have hg := (AMap.mem_iff_get? (finalEnv_wf s c user)).mp h1
  rw [entryName_join (final_proper hn hg)]
  exact final_names hg

/-- C07: each name occurs at most once. -/
theorem C07_once {s : Surroundings} {c : ProcessConfig} {p : Process}
    (h : processFrom s c = .ok p) (hn : ProperNames c) : (p.env.map entryName).Nodup := by
  obtain ⟨user, group, path, -, -, -, -, hf, -⟩ := processFrom_ok h
  obtain ⟨e1, -⟩ := flatten_ok hf
  rw [e1, List.map_map]
  have hwf := finalEnv_wf s c user
  have : (s.order.apply (finalEnv s c user)).map (entryName ∘ fun kv => kv.1 ++ '=' :: kv.2) =
      (s.order.apply (finalEnv s c user)).map (·.1) := by
    apply List.map_congr_left
    rintro ⟨k, v⟩ hkv
    rw [(s.order.perm _).mem_iff] at hkv
    exact entryName_join (final_proper hn ((AMap.mem_iff_get? hwf).mp hkv))
  rw [this]
  exact ((s.order.perm _).map _).nodup_iff.mpr hwf

/-- A mention of `k` has an effect: it gives a value, or cinit has one to forward. -/
def Effective (getenv : Str → Option Str) (env : List (List (Str × Option Str))) (k : Str) : Prop :=
  ∃ entry ∈ env, ∃ v, (k, v) ∈ entry ∧ (v = none → ∃ w, getenv k = some w)

private theorem valueAfter_isSome {getenv : Str → Option Str}
    {render : Str → (Str → Option Str) → Str → Option Str} {dflt : Str → Option Str}
    {l : List (Str × Option Str)} {k : Str} :
    (∃ v, valueAfter getenv render dflt l k = some v) ↔
    (∃ v, dflt k = some v) ∨ ∃ v, (k, v) ∈ l ∧ (v = none → ∃ w, getenv k = some w) := by
  induction l with
  | nil => simp [valueAfter]
  | cons x xs ih =>
    obtain ⟨k', v'⟩ := x
    by_cases hk : k = k'
    · subst hk
      cases v' with
      | some raw =>
        constructor
        · intro _; exact .inr ⟨some raw, List.mem_cons_self .., fun h => by cases h⟩
        · intro _; simp [valueAfter]
      | none =>
        cases hg : getenv k with
        | some w =>
          constructor
          · intro _; exact .inr ⟨none, List.mem_cons_self .., fun _ => ⟨w, rfl⟩⟩
          · intro _; simp [valueAfter, hg]
        | none =>
          have : (∃ v, valueAfter getenv render dflt ((k, none) :: xs) k = some v) ↔
              ∃ v, valueAfter getenv render dflt xs k = some v := by simp [valueAfter, hg]
          rw [this, ih]
          rw [hg]
          constructor
          · rintro (h | ⟨v, h1, h2⟩)
            · exact .inl h
            · exact .inr ⟨v, List.mem_cons_of_mem _ h1, h2⟩
          · rintro (h | ⟨v, h1, h2⟩)
            · exact .inl h
            · rcases List.mem_cons.mp h1 with h1 | h1
              · cases h1; obtain ⟨w, hw⟩ := h2 rfl; cases hw
              · exact .inr ⟨v, h1, h2⟩
    · have : (∃ v, valueAfter getenv render dflt ((k', v') :: xs) k = some v) ↔
          ∃ v, valueAfter getenv render dflt xs k = some v := by
        cases v' <;> simp [valueAfter, hk]
      rw [this, ih]
      simp [hk]

/-- C07, exactly: which variables there are. In particular `NOTIFY_SOCKET` is there iff the
program is of type notify or its list provides it. -/
theorem C07_exactly {s : Surroundings} {c : ProcessConfig} {p : Process}
    (h : processFrom s c = .ok p) (hn : ProperNames c) {k : Str} (hk : ProperName k) :
    (∃ v, EnvHas p.env k v) ↔ k ∈ documented ∨ Effective s.getenv c.env k ∨
      (c.ptype = .notify ∧ k = notifyVar) := by
  obtain ⟨user, group, path, -, -, -, -, hf, -⟩ := processFrom_ok h
  have e1 : (∃ v, EnvHas p.env k v) ↔ ∃ v, (finalEnv s c user).get? k = some v :=
    ⟨fun ⟨v, h⟩ => ⟨v, (envHas_iff hn hf hk).mp h⟩, fun ⟨v, h⟩ => ⟨v, (envHas_iff hn hf hk).mpr h⟩⟩
  have e2 : (∃ v, (k, v) ∈ c.env.flatten.reverse ∧ (v = none → ∃ w, s.getenv k = some w)) ↔
      Effective s.getenv c.env k := by
    simp only [List.mem_reverse, List.mem_flatten, Effective]
    constructor
    · rintro ⟨v, ⟨e, h1, h2⟩, h3⟩; exact ⟨e, h1, v, h2, h3⟩
    · rintro ⟨e, h1, v, h2, h3⟩; exact ⟨v, ⟨e, h1, h2⟩, h3⟩
  rw [e1]
  simp only [finalEnv_get?]
  by_cases hc : c.ptype = .notify ∧ k = notifyVar
  · simp [hc]
  · simp only [if_neg hc]
    rw [valueAfter_isSome, e2, default_some]
    simp [hc]

/-! ## C08 -/

/-- C08: the nine documented variables are always there. -/
theorem C08_present {s : Surroundings} {c : ProcessConfig} {p : Process}
    (h : processFrom s c = .ok p) (hn : ProperNames c) {k : Str} (hk : k ∈ documented) :
    ∃ v, EnvHas p.env k v :=
  (C07_exactly h hn (documented_proper k hk)).mpr (.inl hk)

private theorem valueAfter_unmentioned {getenv : Str → Option Str}
    {render : Str → (Str → Option Str) → Str → Option Str} {dflt : Str → Option Str}
    {l : List (Str × Option Str)} {k : Str} (h : ¬ ∃ v, (k, v) ∈ l) :
    valueAfter getenv render dflt l k = dflt k := by
  induction l with
  | nil => rfl
  | cons x xs ih =>
    obtain ⟨k', v'⟩ := x
    have hk : k ≠ k' := fun hh => h ⟨v', hh ▸ List.mem_cons_self ..⟩
    have hxs := ih (fun ⟨v, hv⟩ => h ⟨v, List.mem_cons_of_mem _ hv⟩)
    cases v' <;> simpa [valueAfter, hk] using hxs

/-- C08: unless mentioned in the list, `HOME` and `PWD` are the user's home directory, `USER`
and `LOGNAME` the user's name, `SHELL` is `/bin/sh`, and the others are as in cinit's own
environment, or empty. -/
theorem C08_values {s : Surroundings} {c : ProcessConfig} {p : Process}
    (h : processFrom s c = .ok p) (hn : ProperNames c) :
    ∃ user, Resolved s.userById s.userByName c.uid c.user user ∧
    ∀ k ∈ documented, ¬ Mentions c.env k → ∀ v, EnvHas p.env k v ↔
      (k ∈ [['H', 'O', 'M', 'E'], ['P', 'W', 'D']] → v = user.dir) ∧
      (k ∈ [['U', 'S', 'E', 'R'], ['L', 'O', 'G', 'N', 'A', 'M', 'E']] → v = user.name) ∧
      (k = ['S', 'H', 'E', 'L', 'L'] → v = ['/', 'b', 'i', 'n', '/', 's', 'h']) ∧
      (k ∈ [['L', 'A', 'N', 'G'], ['L', 'A', 'N', 'G', 'U', 'A', 'G', 'E'], ['P', 'A', 'T', 'H'],
        ['T', 'E', 'R', 'M']] → v = (s.getenv k).getD []) := by
  obtain ⟨user, group, path, hu, -, -, -, hf, -⟩ := processFrom_ok h
  refine ⟨user, ((mapId_spec _ _ _ _).1 _).mp hu, fun k hk hm v => ?_⟩
  rw [envHas_iff hn hf (documented_proper k hk), finalEnv_get?, if_neg, valueAfter_unmentioned]
  · have hk' := hk
    simp only [documented, List.mem_cons, List.not_mem_nil, or_false] at hk'
    rcases hk' with rfl | rfl | rfl | rfl | rfl | rfl | rfl | rfl | rfl <;>
      (simp [defaultValue, documented]; try exact eq_comm)
  · rw [mentions_iff]; exact hm
  · rintro ⟨-, rfl⟩
    revert hk
    decide

/-! ## C09 -/

/-- C09: the environment is the meaning of the list of assignments, in order. -/
theorem C09_meaning {s : Surroundings} {c : ProcessConfig} {p : Process}
    (h : processFrom s c = .ok p) (hn : ProperNames c) :
    ∃ user, Resolved s.userById s.userByName c.uid c.user user ∧
    ∀ k, ProperName k → ¬ (c.ptype = .notify ∧ k = notifyVar) → ∀ v, EnvHas p.env k v ↔
      valueAfter s.getenv s.render (defaultValue s.getenv user.dir user.name)
        c.env.flatten.reverse k = some v := by
  obtain ⟨user, group, path, hu, -, -, -, hf, -⟩ := processFrom_ok h
  refine ⟨user, ((mapId_spec _ _ _ _).1 _).mp hu, fun k hk hc v => ?_⟩
  rw [envHas_iff hn hf hk, finalEnv_get?, if_neg hc]

theorem valueAfter_skip {getenv : Str → Option Str}
    {render : Str → (Str → Option Str) → Str → Option Str} {dflt : Str → Option Str}
    {later earlier : List (Str × Option Str)} {k : Str} (h : ¬ ∃ v, (k, v) ∈ later) :
    valueAfter getenv render dflt (later ++ earlier) k =
      valueAfter getenv render dflt earlier k := by
  induction later with
  | nil => rfl
  | cons x xs ih =>
    obtain ⟨k', v'⟩ := x
    have hk : k ≠ k' := fun hh => h ⟨v', hh ▸ List.mem_cons_self ..⟩
    have hxs := ih (fun ⟨v, hv⟩ => h ⟨v, List.mem_cons_of_mem _ hv⟩)
    cases v' <;> simpa [valueAfter, hk] using hxs

/-- C09: the last mention wins. If it gives a value, the variable is the rendering of that
template, or the raw text if it cannot be rendered; the template sees the environment as
established by the assignments before it: the one of a program (not of type notify) having
only those (`p'`). -/
theorem C09_last_value {s : Surroundings} {c : ProcessConfig} {p p' : Process}
    {before after : List (Str × Option Str)} {k raw : Str}
    (h : processFrom s c = .ok p) (hn : ProperNames c)
    (he : c.env.flatten = before ++ (k, some raw) :: after) (hlast : ∀ v, (k, v) ∉ after)
    (hk : ¬ (c.ptype = .notify ∧ k = notifyVar))
    (h' : processFrom s { c with env := [before], ptype := .oneshot } = .ok p') :
    ∃ context : Str → Option Str,
      (∀ x, ProperName x → ∀ v, context x = some v ↔ EnvHas p'.env x v) ∧
      ∀ v, EnvHas p.env k v ↔ v = (s.render k context raw).getD raw := by
  obtain ⟨user, hu, hm⟩ := C09_meaning h hn
  have hmk : Mentions c.env k := by
    rw [← mentions_iff, he]; exact ⟨some raw, by simp⟩
  have hn' : ProperNames { c with env := [before], ptype := .oneshot } := by
    rintro x ⟨e, h1, v, h2⟩
    simp only [List.mem_singleton] at h1
    subst h1
    refine hn x (mentions_iff.mp ⟨v, ?_⟩)
    rw [he]
    simp [h2]
  obtain ⟨user', hu', hm'⟩ := C09_meaning h' hn'
  have huu : user' = user := by
    have e1 := ((mapId_spec _ _ _ _).1 _).mpr hu
    have e2 := ((mapId_spec _ _ _ _).1 _).mpr hu'
    rw [e1] at e2
    exact (Res.ok.inj e2).symm
  subst huu
  refine ⟨valueAfter s.getenv s.render (defaultValue s.getenv user'.dir user'.name)
    before.reverse, fun x hx v => ?_, fun v => ?_⟩
  · rw [hm' x hx (fun hh => by cases hh.1)]
    simp
  · rw [hm k (hn k hmk) hk, he]
    rw [List.reverse_append, List.reverse_cons, List.append_assoc, valueAfter_skip]
    · simp [valueAfter, eq_comm]
    · rintro ⟨v, hv⟩
      exact hlast v (List.mem_reverse.mp hv)

/-- C09: if the last mention gives no value and cinit has one, that one is forwarded. -/
theorem C09_forwarded {s : Surroundings} {c : ProcessConfig} {p : Process}
    {before after : List (Str × Option Str)} {k w : Str}
    (h : processFrom s c = .ok p) (hn : ProperNames c)
    (he : c.env.flatten = before ++ (k, none) :: after) (hlast : ∀ v, (k, v) ∉ after)
    (hk : ¬ (c.ptype = .notify ∧ k = notifyVar)) (hw : s.getenv k = some w) :
    ∀ v, EnvHas p.env k v ↔ v = w := by
  obtain ⟨user, hu, hm⟩ := C09_meaning h hn
  have hmk : Mentions c.env k := by
    rw [← mentions_iff, he]; exact ⟨none, by simp⟩
  intro v
  rw [hm k (hn k hmk) hk, he, List.reverse_append, List.reverse_cons, List.append_assoc,
    valueAfter_skip]
  · simp [valueAfter, hw, eq_comm]
  · rintro ⟨v, hv⟩
    exact hlast v (List.mem_reverse.mp hv)

private theorem valueAfter_neutral {getenv : Str → Option Str}
    {render : Str → (Str → Option Str) → Str → Option Str} {dflt : Str → Option Str}
    {later earlier : List (Str × Option Str)} {k : Str} (h : getenv k = none) :
    valueAfter getenv render dflt (later ++ (k, none) :: earlier) =
      valueAfter getenv render dflt (later ++ earlier) := by
  induction later with
  | nil =>
    funext x
    simp only [List.nil_append, valueAfter]
    split
    · rename_i e; subst e; simp [h]
    · rfl
  | cons y ys ih =>
    obtain ⟨k', v'⟩ := y
    funext x
    cases v' <;> simp [valueAfter, ih]

/-- C09: a mention without value of a variable cinit does not have changes nothing. -/
theorem C09_unset {s : Surroundings} {c c' : ProcessConfig} {p p' : Process}
    {before after : List (Str × Option Str)} {k : Str}
    (h : processFrom s c = .ok p) (hn : ProperNames c)
    (he : c.env.flatten = before ++ (k, none) :: after) (hk : s.getenv k = none)
    (hc' : c' = { c with env := [before ++ after] }) (h' : processFrom s c' = .ok p') :
    ∀ x, ProperName x → ∀ v, EnvHas p.env x v ↔ EnvHas p'.env x v := by
  obtain ⟨user, group, path, hu, -, -, -, hf, -⟩ := processFrom_ok h
  obtain ⟨user', group', path', hu', -, -, -, hf', -⟩ := processFrom_ok h'
  subst hc'
  rw [hu] at hu'
  cases hu'
  have hn' : ProperNames { c with env := [before ++ after] } := by
    rintro x ⟨e, h1, v, h2⟩
    simp only [List.mem_singleton] at h1
    subst h1
    refine hn x (mentions_iff.mp ⟨v, ?_⟩)
    rw [he]
    rcases List.mem_append.mp h2 with h2 | h2 <;> simp [h2]
  intro x hx v
  rw [envHas_iff hn hf hx, envHas_iff hn' hf' hx, finalEnv_get?, finalEnv_get?, he]
  simp only [List.flatten_cons, List.flatten_nil, List.append_nil, List.reverse_append,
    List.reverse_cons, List.append_assoc, List.singleton_append]
  rw [valueAfter_neutral hk]

/-! ## C10 -/

/-- C10: a notify program gets exactly the path of cinit's socket as `NOTIFY_SOCKET`. -/
theorem C10_announced {s : Surroundings} {c : ProcessConfig} {p : Process}
    (h : processFrom s c = .ok p) (hn : ProperNames c) (hc : c.ptype = .notify) (v : Str) :
    EnvHas p.env notifyVar v ↔ v = notifyPath := by
  obtain ⟨user, group, path, -, -, -, -, hf, -⟩ := processFrom_ok h
  rw [envHas_iff hn hf (by unfold ProperName; decide), finalEnv_get?, if_pos ⟨hc, rfl⟩]
  simp [eq_comm]

/-- C10: whatever the list `env` says, even with names that are none, the path of cinit's socket is
there. -/
theorem C10_always {s : Surroundings} {c : ProcessConfig} {p : Process}
    (h : processFrom s c = .ok p) (hc : c.ptype = .notify) : EnvHas p.env notifyVar notifyPath := by
  obtain ⟨user, group, path, -, -, -, -, hf, -⟩ := processFrom_ok h
  obtain ⟨e, -⟩ := flatten_ok hf
  rw [e]
  unfold EnvHas
  simp only [List.mem_map, (s.order.perm _).mem_iff]
  refine ⟨(notifyVar, notifyPath), AMap.mem_of_get? ?_, rfl⟩
  rw [finalEnv_get?, if_pos ⟨hc, rfl⟩]

/-! ## C11 -/

/-- C11: the argument vector is the path followed by the renderings of the configured
arguments, in order, in the program's own final environment; an argument that cannot be
rendered is passed as it is. `Argument i` is only the title of the template. -/
theorem C11_arguments {s : Surroundings} {c : ProcessConfig} {p : Process}
    (h : processFrom s c = .ok p) (hn : ProperNames c) :
    ∃ (path : Str) (args : List Str) (context : Str → Option Str),
      c.path = some path ∧ p.path = path ∧ p.args = path :: args ∧ args.length = c.args.length ∧
      (∀ x, ProperName x → ∀ v, context x = some v ↔ EnvHas p.env x v) ∧
      (∀ x, ¬ ProperName x → context x = none) ∧
      ∀ (i : Nat) (raw : Str), c.args[i]? = some raw →
        args[i]? = some ((s.render (argName i) context raw).getD raw) := by
  obtain ⟨user, group, path, -, -, hp, -, hf, ⟨args, ha, hargs⟩, -, hpp, -⟩ := processFrom_ok h
  obtain ⟨h1, h2⟩ := convertArgs_ok hargs
  refine ⟨path, args, (finalEnv s c user).get?, hp, hpp, ha, h1, fun x hx v => ?_, fun x hx => ?_,
    fun i raw hi => ?_⟩
  · rw [envHas_iff hn hf hx]
  · cases hg : (finalEnv s c user).get? x with
    | none => rfl
    | some v => exact absurd (final_proper hn hg) hx
  · simpa using h2 i raw hi

/-! ## C56: the remaining attributes -/

/-- C56: name, path, working directory, pseudo-terminal flag and capabilities are the configured
ones; the type is the configured one; nothing has been started yet. -/
theorem C56_attributes {s : Surroundings} {c : ProcessConfig} {p : Process}
    (h : processFrom s c = .ok p) :
    p.name = c.name ∧ some p.path = c.path ∧
      (∀ d, c.workdir = some d → p.workdir = d) ∧ (c.workdir = none → p.workdir = ['.']) ∧
      p.emulatePty = c.emulatePty ∧ p.capabilities = c.capabilities ∧
      (p.ptype = .oneshot ↔ c.ptype = .oneshot) ∧ (p.ptype = .notify ↔ c.ptype = .notify) ∧
      (p.ptype = .cronjob ↔ c.ptype.isCron = true) ∧
      (p.state = .sleeping ↔ c.ptype.isCron = true) ∧
      (p.state = .blocked ↔ c.ptype.isCron = false) := by
  obtain ⟨user, group, path, -, -, h1, -, -, -, h2, h3, h4, -, -, h5, h6, h7, h8, -⟩ :=
    processFrom_ok h
  refine ⟨h2, by rw [h1, h3], fun d hd => by rw [h4, hd]; rfl, fun hd => by rw [h4, hd]; rfl, h5, h6,
    ?_⟩
  rw [h7, h8]
  cases c.ptype <;> simp [runtimeType, initialState, CfgType.isCron]

/-! ## C55: building a program never aborts cinit -/

/-- C55 as stated: whatever the configuration, building the program yields a program or an
error. -/
def C55_statement : Prop :=
  ∀ (s : Surroundings) (c : ProcessConfig) (q : Panic), processFrom s c ≠ .panic q

/-- No NUL character. -/
def NoNul (t : Str) : Prop := '\x00' ∉ t

private theorem cstring_nonul {ε : Type} {t : Str} (h : NoNul t) :
    (cstring t : Res ε Str) = .ok t := by
  unfold cstring; rw [if_neg h]

private theorem valueAfter_nonul {getenv : Str → Option Str}
    {render : Str → (Str → Option Str) → Str → Option Str} {dflt : Str → Option Str}
    (hg : ∀ k v, getenv k = some v → NoNul v) (hd : ∀ k v, dflt k = some v → NoNul v)
    (hr : ∀ n ctx raw v, (∀ k v, ctx k = some v → NoNul v) → NoNul raw →
      render n ctx raw = some v → NoNul v)
    {l : List (Str × Option Str)} (hl : ∀ k raw, (k, some raw) ∈ l → NoNul raw) :
    ∀ k v, valueAfter getenv render dflt l k = some v → NoNul v := by
  induction l with
  | nil => exact hd
  | cons x xs ih =>
    obtain ⟨k', v'⟩ := x
    have ih := ih (fun k raw h => hl k raw (List.mem_cons_of_mem _ h))
    intro k v h
    cases v' with
    | none =>
      simp only [valueAfter] at h
      split at h
      · cases hgk : getenv k with
        | none => rw [hgk] at h; exact ih k v (by simpa using h)
        | some w =>
          rw [hgk] at h
          have : w = v := by simpa using h
          exact this ▸ hg k w hgk
      · exact ih k v h
    | some raw =>
      have hraw := hl k' raw (List.mem_cons_self ..)
      simp only [valueAfter] at h
      split at h
      · cases hv : render k' (valueAfter getenv render dflt xs) raw with
        | none => rw [hv] at h; cases h; exact hraw
        | some w =>
          rw [hv] at h
          cases h
          exact hr _ _ _ _ ih hraw hv
      · exact ih k v h

/-- C55 in part: building a program can only abort because of a NUL character in the
configuration. `hr`: rendering does not invent NUL characters. cinit's own environment and
the user database cannot contain any. -/
theorem C55_no_abort_partial {s : Surroundings} {c : ProcessConfig}
    (hg : ∀ k v, s.getenv k = some v → NoNul v)
    (hu : ∀ i u, s.userById i = some u → NoNul u.name ∧ NoNul u.dir)
    (hu' : ∀ n u, s.userByName n = some u → NoNul u.name ∧ NoNul u.dir)
    (hr : ∀ n ctx raw v, (∀ k v, ctx k = some v → NoNul v) → NoNul raw →
      s.render n ctx raw = some v → NoNul v)
    (hpath : ∀ path, c.path = some path → NoNul path) (hargs : ∀ a ∈ c.args, NoNul a)
    (henv : ∀ entry ∈ c.env, ∀ k v, (k, v) ∈ entry → NoNul k ∧ ∀ raw, v = some raw → NoNul raw)
    (q : Panic) : processFrom s c ≠ .panic q := by
  by_cases herr : ∃ e, processFrom s c = .err e
  · obtain ⟨e, he⟩ := herr
    rw [he]; intro h; cases h
  rw [C12_error_iff] at herr
  simp only [not_or] at herr
  obtain ⟨h1, h2, h3, h4⟩ := herr
  have : ∃ user, Resolved s.userById s.userByName c.uid c.user user := by
    rcases Classical.em (∃ user, Resolved s.userById s.userByName c.uid c.user user) with h | h
    · exact h
    · exact absurd (fun r hr => h ⟨r, hr⟩) h2
  obtain ⟨user, hu0⟩ := this
  have : ∃ group, Resolved s.groupById s.groupByName c.gid c.group group := by
    rcases Classical.em (∃ group, Resolved s.groupById s.groupByName c.gid c.group group) with h | h
    · exact h
    · exact absurd (fun r hr => h ⟨r, hr⟩) h3
  obtain ⟨group, hg0⟩ := this
  obtain ⟨path, hp⟩ : ∃ path, c.path = some path := by
    cases hp : c.path with
    | none => exact absurd hp h4
    | some path => exact ⟨path, rfl⟩
  have hun : NoNul user.name ∧ NoNul user.dir := by
    cases hi : c.uid with
    | none =>
      cases hnm : c.user with
      | none => rw [hi, hnm] at hu0; exact hu _ _ hu0
      | some n => rw [hi, hnm] at hu0; exact hu' _ _ hu0
    | some i =>
      cases hnm : c.user with
      | none => rw [hi, hnm] at hu0; exact hu _ _ hu0
      | some n => rw [hi, hnm] at hu0; exact hu0.elim
  have hdef : ∀ k v, defaultValue s.getenv user.dir user.name k = some v → NoNul v := by
    intro k v h
    unfold defaultValue at h
    split at h
    · cases h; exact hun.2
    · split at h
      · cases h; exact hun.1
      · split at h
        · cases h; unfold NoNul; decide
        · split at h
          · cases h
            cases hgk : s.getenv k with
            | none => simp [NoNul]
            | some w => exact hg k w hgk
          · cases h
  have hval : ∀ k v, (finalEnv s c user).get? k = some v → NoNul v := by
    intro k v h
    rw [finalEnv_get?] at h
    split at h
    · cases h; unfold NoNul; decide
    · refine valueAfter_nonul hg hdef hr (fun k raw hm => ?_) k v h
      obtain ⟨e, h5, h6⟩ := List.mem_flatten.mp (List.mem_reverse.mp hm)
      exact (henv e h5 k _ h6).2 raw rfl
  have hkey : ∀ k v, (finalEnv s c user).get? k = some v → NoNul k := by
    intro k v h
    rcases final_names h with h | ⟨e, h5, w, h6⟩ | ⟨-, h⟩
    · have : ∀ k ∈ documented, NoNul k := by unfold NoNul documented; decide
      exact this k h
    · exact (henv e h5 k w h6).1
    · subst h; unfold NoNul; decide
  have hflat : ∀ l : List (Str × Str), (∀ kv ∈ l, NoNul kv.1 ∧ NoNul kv.2) →
      ∃ r, Res.mapM' (fun kv => (cstring (kv.1 ++ '=' :: kv.2) : Res BuildError Str)) l = .ok r := by
    intro l hl
    induction l with
    | nil => exact ⟨[], rfl⟩
    | cons x xs ih =>
      obtain ⟨r, ih⟩ := ih (fun kv h => hl kv (List.mem_cons_of_mem _ h))
      obtain ⟨x1, x2⟩ := hl x (List.mem_cons_self ..)
      refine ⟨(x.1 ++ '=' :: x.2) :: r, ?_⟩
      unfold Res.mapM'
      rw [cstring_nonul, Res.bind_ok, ih]
      · rfl
      · intro h
        rcases List.mem_append.mp h with h | h
        · exact x1 h
        · rcases List.mem_cons.mp h with h | h
          · cases h
          · exact x2 h
  have hconv : ∀ (i : Nat) (xs : List Str), (∀ a ∈ xs, NoNul a) →
      ∃ r, convertArgs s (finalEnv s c user) i xs = .ok r := by
    intro i xs
    induction xs generalizing i with
    | nil => intro _; exact ⟨[], rfl⟩
    | cons x xs ih =>
      intro hx
      obtain ⟨r, ih⟩ := ih (i + 1) (fun a h => hx a (List.mem_cons_of_mem _ h))
      refine ⟨treatArgument x (s.render (argName i) (finalEnv s c user).get? x) :: r, ?_⟩
      unfold convertArgs
      rw [cstring_nonul, Res.bind_ok, ih, Res.bind_ok]
      cases hrd : s.render (argName i) (finalEnv s c user).get? x with
      | none => exact hx x (List.mem_cons_self ..)
      | some v => exact hr _ _ _ _ hval (hx x (List.mem_cons_self ..)) hrd
  unfold processFrom
  rw [if_neg (by simpa using h1), ((mapId_spec _ _ _ _).1 _).mpr hu0, Res.bind_ok,
    ((mapId_spec _ _ _ _).1 _).mpr hg0, Res.bind_ok, hp]
  change (flattenToStrings s.order (finalEnv s c user) >>= _) ≠ _
  obtain ⟨flat, hf⟩ := hflat (s.order.apply (finalEnv s c user)) (fun kv hkv => by
    rw [(s.order.perm _).mem_iff] at hkv
    have := (AMap.mem_iff_get? (finalEnv_wf s c user)).mp hkv
    exact ⟨hkey _ _ this, hval _ _ this⟩)
  unfold flattenToStrings
  rw [hf, Res.bind_ok, cstring_nonul (hpath path hp), Res.bind_ok]
  obtain ⟨args, ha⟩ := hconv 0 c.args hargs
  change (convertArgs s (finalEnv s c user) 0 c.args >>= _) ≠ _
  rw [ha]
  intro h
  cases h

/-! ## Concrete cases -/

/-- A system with root and a user `u`, on which cinit has `PATH` and `A`, and a template
engine that replaces the text `x` by the value of `A` and cannot render the text `bad`. -/
def sampleSystem : Surroundings where
  getenv k := if k = ['P', 'A', 'T', 'H'] then some ['/', 'b'] else if k = ['A'] then some ['1'] else none
  userById i := if i = 0 then some ⟨['r', 'o', 'o', 't'], 0, ['/', 'r']⟩ else none
  userByName n := if n = ['u'] then some ⟨['u'], 1000, ['/', 'h']⟩ else none
  groupById i := if i = 0 then some ⟨0⟩ else none
  groupByName n := if n = ['g'] then some ⟨100⟩ else none
  render _ ctx raw :=
    if raw = ['x'] then ctx ['A'] else if raw = ['b', 'a', 'd'] then none else some raw
  order := HashOrder.id

/-- A notify program with forwarded, set, unset and unrenderable variables. -/
def sampleProgram : ProcessConfig :=
  { name := ['p'], path := some ['/', 'p'], args := [['x'], ['b', 'a', 'd'], ['y']],
    ptype := .notify, user := some ['u'], group := some ['g'],
    env := [[(['A'], none)], [(['B'], some ['x']), (['N'], none)], [(['A'], some ['b', 'a', 'd'])]] }

/-- What becomes of it: the hypotheses of C07-C12 are met. -/
theorem sample_built :
    ∃ p, processFrom sampleSystem sampleProgram = .ok p ∧ ProperNames sampleProgram ∧
      p.args = [['/', 'p'], ['b', 'a', 'd'], ['b', 'a', 'd'], ['y']] ∧ p.uid = 1000 ∧ p.gid = 100 ∧
      EnvHas p.env ['B'] ['1'] ∧ EnvHas p.env ['A'] ['b', 'a', 'd'] ∧
      EnvHas p.env ['H', 'O', 'M', 'E'] ['/', 'h'] ∧ EnvHas p.env ['T', 'E', 'R', 'M'] [] ∧
      p.env.length = 12 := by
  refine ⟨_, rfl, ?_, ?_⟩
  · rintro k ⟨e, h1, v, h2⟩
    simp only [sampleProgram, List.mem_cons, List.not_mem_nil, or_false] at h1
    unfold ProperName
    rcases h1 with rfl | rfl | rfl
    · simp only [List.mem_singleton, Prod.mk.injEq] at h2; rw [h2.1]; decide
    · simp only [List.mem_cons, List.not_mem_nil, or_false, Prod.mk.injEq] at h2
      rcases h2 with ⟨h2, -⟩ | ⟨h2, -⟩ <;> (rw [h2]; decide)
    · simp only [List.mem_singleton, Prod.mk.injEq] at h2; rw [h2.1]; decide
  · unfold EnvHas; decide +kernel

/-- The assignments before the last one of `A` form a program of their own, as
`C09_last_value` requires. -/
example : ∃ p', processFrom sampleSystem
    { sampleProgram with
      env := [[(['A'], none), (['B'], some ['x']), (['N'], none)]], ptype := .oneshot } = .ok p' ∧
    sampleProgram.env.flatten =
      [(['A'], none), (['B'], some ['x']), (['N'], none)] ++ (['A'], some ['b', 'a', 'd']) :: [] :=
  ⟨_, rfl, rfl⟩

/-- Both id and name given, and an unknown name: the hypotheses of `C12_error`. -/
example : processFrom sampleSystem { sampleProgram with uid := some 0 } = .err .userGroupInvalid ∧
    processFrom sampleSystem { sampleProgram with group := some ['z'] } =
      .err .userGroupInvalid := by decide +kernel

/-- Names containing `=` have to be excluded in C07: the name `HOME=x` yields a second entry
named `HOME`. -/
theorem C07_improper_name :
    ∃ p, processFrom sampleSystem
        { sampleProgram with env := [[(['H', 'O', 'M', 'E', '=', 'x'], some ['y'])]] } = .ok p ∧
      ¬ (p.env.map entryName).Nodup := by
  refine ⟨_, rfl, ?_⟩
  decide +kernel

/-- C55 is false: a NUL character in an argument aborts cinit. -/
theorem C55_violated : ¬ C55_statement := fun h =>
  h sampleSystem { sampleProgram with args := [['a', '\x00']] } .nulByte (by decide +kernel)

end Cinit.Props
