import Verif.Model.ProcessBuilder
import Verif.Spec.Environment
import Mathlib.Data.List.Forall2
/-!
# Facts about `Process::from`
-/

namespace Cinit.ProcessBuilder

open Spec

theorem getDefaultEnv_get? (s : Surroundings) (k : Str) :
    (getDefaultEnv s).get? k =
      if k ∈ documented then some ((s.getenv k).getD []) else none := by
  have step : ∀ (l : List Str) (m : AMap Str Str),
      (l.foldl (fun result key =>
        match s.getenv key with
        | none => result.insert key []
        | some v => result.insert key v) m).get? k =
      if k ∈ l then some ((s.getenv k).getD []) else m.get? k := by
    intro l
    induction l with
    | nil => intro m; simp
    | cons x xs ih =>
      intro m
      simp only [List.foldl_cons]
      rw [ih]
      by_cases h : k ∈ xs
      · simp [h]
      · by_cases hx : k = x
        · subst hx
          rw [if_neg h, if_pos (List.mem_cons_self ..)]
          cases s.getenv k <;> simp
        · rw [if_neg h, if_neg (by simp [h, hx])]
          cases s.getenv x <;> simp [AMap.get?_insert, Ne.symm hx]
  exact step defaultEnv []

theorem sanitiseEnv_get? (s : Surroundings) (user : User) (k : Str) :
    (sanitiseEnv (getDefaultEnv s) user).get? k = defaultValue s.getenv user.dir user.name k := by
  unfold sanitiseEnv defaultValue
  simp only [AMap.get?_insert, getDefaultEnv_get?, sHOME, sPWD, sUSER, sLOGNAME, sSHELL, binSh]
  by_cases h1 : k = ['H', 'O', 'M', 'E']
  · subst h1; simp
  by_cases h2 : k = ['P', 'W', 'D']
  · subst h2; simp
  by_cases h3 : k = ['U', 'S', 'E', 'R']
  · subst h3; simp
  by_cases h4 : k = ['L', 'O', 'G', 'N', 'A', 'M', 'E']
  · subst h4; simp
  by_cases h5 : k = ['S', 'H', 'E', 'L', 'L']
  · subst h5; simp
  simp only [Ne.symm h1, Ne.symm h2, Ne.symm h3, Ne.symm h4, Ne.symm h5, h1, h2, h3, h4, h5,
    if_false, or_self]

theorem copyStep_get? (s : Surroundings) (dflt : Str → Option Str) (m : AMap Str Str)
    (earlier : List (Str × Option Str))
    (h : ∀ k, m.get? k = valueAfter s.getenv s.render dflt earlier k) (kv : Str × Option Str)
    (k : Str) :
    (copyStep s m kv).get? k = valueAfter s.getenv s.render dflt (kv :: earlier) k := by
  obtain ⟨k', v⟩ := kv
  have hf : m.get? = valueAfter s.getenv s.render dflt earlier := funext h
  unfold copyStep valueAfter
  cases v with
  | none =>
    simp only
    cases hg : s.getenv k' with
    | none =>
      simp only
      rw [h]
      split
      · rename_i e; subst e; rw [hg]; simp
      · rfl
    | some v =>
      simp only
      rw [AMap.get?_insert]
      split
      · rename_i e; subst e; rw [if_pos rfl, hg]; rfl
      · rename_i e; rw [if_neg (fun hh => e hh.symm), h]
  | some raw =>
    simp only
    rw [hf]
    cases hr : s.render k' (valueAfter s.getenv s.render dflt earlier) raw with
    | none =>
      simp only [Option.getD_none]
      rw [AMap.get?_insert]
      split
      · rename_i e; subst e; rw [if_pos rfl]
      · rename_i e; rw [if_neg (fun hh => e hh.symm), h]
    | some v =>
      simp only [Option.getD_some]
      rw [AMap.get?_insert]
      split
      · rename_i e; subst e; rw [if_pos rfl]
      · rename_i e; rw [if_neg (fun hh => e hh.symm), h]

theorem copyFromConfig_eq (s : Surroundings) (env : List (List (Str × Option Str)))
    (m : AMap Str Str) : copyFromConfig s env m = env.flatten.foldl (copyStep s) m := by
  unfold copyFromConfig
  induction env generalizing m with
  | nil => rfl
  | cons e env ih => simp only [List.foldl_cons, List.flatten_cons, List.foldl_append]; exact ih _

theorem foldl_copy_get? (s : Surroundings) (dflt : Str → Option Str)
    (l : List (Str × Option Str)) (m : AMap Str Str) (earlier : List (Str × Option Str))
    (h : ∀ k, m.get? k = valueAfter s.getenv s.render dflt earlier k) (k : Str) :
    (l.foldl (copyStep s) m).get? k =
      valueAfter s.getenv s.render dflt (l.reverse ++ earlier) k := by
  induction l generalizing m earlier with
  | nil => simpa using h k
  | cons x xs ih =>
    simp only [List.foldl_cons, List.reverse_cons, List.append_assoc]
    exact ih _ _ (fun k => copyStep_get? s dflt m earlier h x k)

/-- The environment computed from the configuration. -/
theorem convertEnv_get? (s : Surroundings) (env : List (List (Str × Option Str))) (user : User)
    (k : Str) :
    (convertEnv s env user).get? k =
      valueAfter s.getenv s.render (defaultValue s.getenv user.dir user.name)
        env.flatten.reverse k := by
  unfold convertEnv
  rw [copyFromConfig_eq]
  have := foldl_copy_get? s (defaultValue s.getenv user.dir user.name) env.flatten
    (sanitiseEnv (getDefaultEnv s) user) [] (fun k => sanitiseEnv_get? s user k) k
  simpa using this

theorem copyStep_wf (s : Surroundings) {m : AMap Str Str} (h : m.WF) (kv : Str × Option Str) :
    (copyStep s m kv).WF := by
  unfold copyStep
  split
  · split
    · exact h
    · exact h.insert _ _
  · split
    · exact h.insert _ _
    · exact h.insert _ _

theorem foldl_wf {α : Type} (f : AMap Str Str → α → AMap Str Str)
    (hf : ∀ m a, AMap.WF m → AMap.WF (f m a)) (l : List α) (m : AMap Str Str) (h : m.WF) :
    AMap.WF (l.foldl f m) := by
  induction l generalizing m with
  | nil => exact h
  | cons x xs ih => exact ih _ (hf _ _ h)

theorem convertEnv_wf (s : Surroundings) (env : List (List (Str × Option Str))) (user : User) :
    (convertEnv s env user).WF := by
  unfold convertEnv
  rw [copyFromConfig_eq]
  refine foldl_wf _ (fun m a h => copyStep_wf s h a) _ _ ?_
  unfold sanitiseEnv
  refine (((((AMap.WF.insert ?_ _ _).insert _ _).insert _ _).insert _ _).insert _ _)
  unfold getDefaultEnv
  refine foldl_wf _ (fun m a h => ?_) _ _ AMap.WF.nil
  split
  · exact h.insert _ _
  · exact h.insert _ _

/-- The environment a program gets: name, final environment map. -/
def finalEnv (s : Surroundings) (config : ProcessConfig) (user : User) : AMap Str Str :=
  if config.ptype = .notify then (convertEnv s config.env user).insert sNOTIFY notifySocketPath
  else convertEnv s config.env user

theorem finalEnv_wf (s : Surroundings) (config : ProcessConfig) (user : User) :
    (finalEnv s config user).WF := by
  unfold finalEnv
  split
  · exact (convertEnv_wf s _ user).insert _ _
  · exact convertEnv_wf s _ user

theorem finalEnv_get? (s : Surroundings) (config : ProcessConfig) (user : User) (k : Str) :
    (finalEnv s config user).get? k =
      if config.ptype = .notify ∧ k = notifyVar then some notifyPath
      else valueAfter s.getenv s.render (defaultValue s.getenv user.dir user.name)
        config.env.flatten.reverse k := by
  unfold finalEnv
  by_cases h : config.ptype = .notify
  · rw [if_pos h, AMap.get?_insert]
    by_cases hk : k = notifyVar
    · rw [if_pos (show sNOTIFY = k from hk.symm), if_pos ⟨h, hk⟩]; rfl
    · rw [if_neg (show ¬ sNOTIFY = k from fun hh => hk hh.symm), if_neg (fun hh => hk hh.2),
        convertEnv_get?]
  · rw [if_neg h, if_neg (fun hh => h hh.1), convertEnv_get?]

/-! ## Flattening -/

theorem mapM'_ok {ε α β : Type} {f : α → Res ε β} {l : List α} {r : List β}
    (h : Res.mapM' f l = .ok r) : List.Forall₂ (fun a b => f a = .ok b) l r := by
  induction l generalizing r with
  | nil => cases h; exact .nil
  | cons a as ih =>
    unfold Res.mapM' at h
    obtain ⟨b, h1, h⟩ := Res.bind_eq_ok.mp h
    obtain ⟨bs, h2, h⟩ := Res.bind_eq_ok.mp h
    cases h
    exact .cons h1 (ih h2)

theorem cstring_ok {ε : Type} {t r : Str} (h : (cstring t : Res ε Str) = .ok r) :
    r = t ∧ '\x00' ∉ t := by
  unfold cstring at h
  split at h
  · cases h
  · cases h; exact ⟨rfl, by assumption⟩

theorem flatten_ok {ε : Type} {ord : HashOrder} {env : AMap Str Str} {r : List Str}
    (h : (flattenToStrings ord env : Res ε (List Str)) = .ok r) :
    r = (ord.apply env).map (fun kv => kv.1 ++ '=' :: kv.2) ∧ ∀ e ∈ r, '\x00' ∉ e := by
  unfold flattenToStrings at h
  replace h := mapM'_ok h
  generalize ord.apply env = l at h
  induction h with
  | nil => exact ⟨rfl, by simp⟩
  | cons h1 _ ih =>
    obtain ⟨e, hn⟩ := cstring_ok h1
    subst e
    refine ⟨by rw [ih.1]; rfl, ?_⟩
    intro e he
    rcases List.mem_cons.mp he with rfl | he
    · exact hn
    · exact ih.2 e he

/-! ## Arguments -/

theorem convertArgs_ok {s : Surroundings} {env : AMap Str Str} {i : Nat} {xs as : List Str}
    (h : convertArgs s env i xs = .ok as) :
    as.length = xs.length ∧ ∀ (j : Nat) (x : Str), xs[j]? = some x →
      as[j]? = some ((s.render (argName (i + j)) env.get? x).getD x) := by
  induction xs generalizing i as with
  | nil => cases h; exact ⟨rfl, by simp⟩
  | cons x xs ih =>
    unfold convertArgs at h
    obtain ⟨a, h1, h⟩ := Res.bind_eq_ok.mp h
    obtain ⟨as', h2, h⟩ := Res.bind_eq_ok.mp h
    cases h
    obtain ⟨e, -⟩ := cstring_ok h1
    obtain ⟨l1, l2⟩ := ih h2
    refine ⟨by simp [l1], fun j y hj => ?_⟩
    cases j with
    | zero =>
      simp only [List.getElem?_cons_zero, Option.some.injEq] at hj
      subst hj
      simp only [List.getElem?_cons_zero, Option.some.injEq, Nat.add_zero]
      rw [e]
      cases s.render (argName i) env.get? x <;> rfl
    | succ j =>
      simp only [List.getElem?_cons_succ] at hj ⊢
      rw [l2 j y hj, show i + 1 + j = i + (j + 1) from by omega]

/-! ## The whole -/

/-- What a successfully built process looks like. -/
theorem processFrom_ok {s : Surroundings} {config : ProcessConfig} {p : Process}
    (h : processFrom s config = .ok p) :
    ∃ user group path,
      mapId config.uid config.user s.userById s.userByName = .ok user ∧
      mapId config.gid config.group s.groupById s.groupByName = .ok group ∧
      config.path = some path ∧
      ¬ (config.ptype.isCron = true ∧ config.before ≠ []) ∧
      flattenToStrings (ε := BuildError) s.order (finalEnv s config user) = .ok p.env ∧
      (∃ args, p.args = path :: args ∧
        convertArgs s (finalEnv s config user) 0 config.args = .ok args) ∧
      p.name = config.name ∧ p.path = path ∧ p.workdir = config.workdir.getD ['.'] ∧
      p.uid = user.uid ∧ p.gid = group.gid ∧ p.emulatePty = config.emulatePty ∧
      p.capabilities = config.capabilities ∧ p.state = initialState config.ptype ∧
      p.ptype = runtimeType config.ptype ∧ p.pid = 0 ∧ p.status = [] := by
  unfold processFrom at h
  split at h
  · cases h
  · rename_i hc
    obtain ⟨user, h1, h⟩ := Res.bind_eq_ok.mp h
    obtain ⟨group, h2, h⟩ := Res.bind_eq_ok.mp h
    cases hp : config.path with
    | none => rw [hp] at h; cases h
    | some path =>
      rw [hp] at h
      obtain ⟨flat, h3, h⟩ := Res.bind_eq_ok.mp h
      obtain ⟨arg0, h4, h⟩ := Res.bind_eq_ok.mp h
      obtain ⟨args, h5, h⟩ := Res.bind_eq_ok.mp h
      cases h
      obtain ⟨e, -⟩ := cstring_ok h4
      exact ⟨user, group, path, h1, h2, rfl, by simpa using hc, h3, ⟨args, by rw [e], h5⟩, rfl, rfl,
        rfl, rfl, rfl, rfl, rfl, rfl, rfl, rfl, rfl⟩

end Cinit.ProcessBuilder
