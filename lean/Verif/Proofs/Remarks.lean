import Verif.Proofs.Complaints
import Verif.Proofs.Logging
import Verif.Spec.Remarks
/-!
# Proofs: the warnings at the start
-/

namespace Cinit

open Spec Logging Heralded

theorem textsAt_bind {ε α β : Type} (l : Level) {w : W ε α} {f : α → W ε β} {a : α}
    (h : w.1 = .ok a) : textsAt l (w.bind f).2 = textsAt l w.2 ++ textsAt l (f a).2 := by
  rw [W.bind_snd, textsAt_append, h]

theorem textsAt_after {ε α : Type} (l : Level) (rs : List Record) (w : W ε α) :
    textsAt l (W.after rs w).2 = textsAt l rs ++ textsAt l w.2 := by
  rw [W.after_snd, textsAt_append]

theorem warning_texts (t : Str) : textsAt .warn (warning t) = [t] := rfl

theorem looksLikeTemplate_iff (v : Str) : looksLikeTemplate v = true ↔ '{' ∈ v ∨ '}' ∈ v := by
  simp [looksLikeTemplate]

theorem copyMessages_warn (h : Herald) (s : Surroundings) (r : AMap Str Str)
    (k raw : Str) {context : Str → Option Str} (hc : r.get? = context) :
    textsAt .warn (copyMessages h s r (k, some raw)) =
      envRemark h k context raw (s.render k context raw) := by
  subst hc
  unfold copyMessages envRemark
  dsimp only
  cases s.render k r.get? raw with
  | none =>
    dsimp only
    rw [warning_texts]
    exact congrArg (fun t => [t]) (List.append_assoc _ _ _)
  | some v =>
    dsimp only
    by_cases hv : '{' ∈ v ∨ '}' ∈ v
    · rw [if_pos ((looksLikeTemplate_iff v).mpr hv), if_pos hv, warning_texts]
      unfold envSuspicious
      rw [List.append_assoc, List.append_assoc]
    · rw [if_neg (fun hh => hv ((looksLikeTemplate_iff v).mp hh)), if_neg hv]
      rfl

theorem copyLoop_warn (h : Herald) (s : Surroundings) (dflt : Str → Option Str)
    (l : List (Str × Option Str)) (m : AMap Str Str) (earlier : List (Str × Option Str))
    (hm : ∀ k, m.get? k = valueAfter s.getenv s.render dflt earlier k) :
    envRemarks h s.getenv s.render dflt earlier ++ textsAt .warn (copyLoop h s m l).2 =
      envRemarks h s.getenv s.render dflt (l.reverse ++ earlier) := by
  induction l generalizing m earlier with
  | nil => simp [copyLoop]
  | cons kv l ih =>
    obtain ⟨k, v⟩ := kv
    rw [List.reverse_cons, List.append_assoc, List.singleton_append]
    rw [← ih (ProcessBuilder.copyStep s m (k, v)) ((k, v) :: earlier)
      (fun k' => ProcessBuilder.copyStep_get? s dflt m earlier hm (k, v) k')]
    simp only [copyLoop, textsAt_append]
    cases v with
    | none => simp only [envRemarks, copyMessages, textsAt_nil, List.nil_append]
    | some raw =>
      rw [copyMessages_warn h s m k raw (funext hm), ← List.append_assoc]
      rfl

theorem convertEnv_warn (h : Herald) (s : Surroundings) (env : List (List (Str × Option Str)))
    (user : User) :
    textsAt .warn (Heralded.convertEnv h s env user).2 =
      envRemarks h s.getenv s.render (defaultValue s.getenv user.dir user.name)
        env.flatten.reverse := by
  have := copyLoop_warn h s (defaultValue s.getenv user.dir user.name) env.flatten
    (ProcessBuilder.sanitiseEnv (ProcessBuilder.getDefaultEnv s) user) []
    (fun k => ProcessBuilder.sanitiseEnv_get? s user k)
  simp only [envRemarks, List.nil_append, List.append_nil] at this
  exact this

theorem argMessages_warn (h : Herald) (i : Nat) (context : Str → Option Str) (raw : Str)
    (o : Option Str) :
    textsAt .warn (argMessages h i context raw o) = argRemark h i context raw o := by
  unfold argMessages argRemark
  cases o with
  | none =>
    dsimp only
    rw [warning_texts]
    exact congrArg (fun t => [t]) (List.append_assoc _ _ _)
  | some v =>
    dsimp only
    by_cases hv : '{' ∈ v ∨ '}' ∈ v
    · rw [if_pos ((looksLikeTemplate_iff v).mpr hv), if_pos hv, warning_texts]
      unfold argSuspicious
      rw [List.append_assoc, List.append_assoc]
    · rw [if_neg (fun hh => hv ((looksLikeTemplate_iff v).mp hh)), if_neg hv]
      rfl

theorem convertArgs_warn (h : Herald) (s : Surroundings) (env : AMap Str Str) (xs : List Str)
    (i : Nat) {as : List Str} (ho : ProcessBuilder.convertArgs s env i xs = .ok as) :
    textsAt .warn (Heralded.convertArgs h s env i xs).2 = argRemarks h s.render env.get? i xs := by
  induction xs generalizing i as with
  | nil => rfl
  | cons x xs ih =>
    unfold Heralded.convertArgs argRemarks
    rw [textsAt_after, argMessages_warn]
    congr 1
    unfold ProcessBuilder.convertArgs at ho
    obtain ⟨a, h1, ho⟩ := Res.bind_eq_ok.mp ho
    obtain ⟨as', h2, ho⟩ := Res.bind_eq_ok.mp ho
    rw [textsAt_bind (a := a) _ h1, textsAt_bind (a := as') _ (by rw [convertArgs_fst]; exact h2),
      ih _ h2]
    simp

theorem processFrom_warn (h : Herald) {s : Surroundings} {c : ProcessConfig} {p : Process}
    (ho : ProcessBuilder.processFrom s c = .ok p) :
    ∃ user, Resolved s.userById s.userByName c.uid c.user user ∧
      textsAt .warn (Heralded.processFrom h s c).2 = programRemarks h s user c := by
  unfold ProcessBuilder.processFrom at ho
  unfold Heralded.processFrom
  split at ho
  · cases ho
  rename_i hc
  rw [if_neg hc]
  obtain ⟨user, hu, ho⟩ := Res.bind_eq_ok.mp ho
  obtain ⟨group, hg, ho⟩ := Res.bind_eq_ok.mp ho
  refine ⟨user, ((Props.mapId_spec _ _ _ _).1 _).mp hu, ?_⟩
  rw [textsAt_bind (a := user) _ hu, textsAt_bind (a := group) _ hg]
  dsimp only
  have hf : (if c.ptype = .notify then
      (ProcessBuilder.convertEnv s c.env user).insert ProcessBuilder.sNOTIFY
        ProcessBuilder.notifySocketPath else ProcessBuilder.convertEnv s c.env user) =
      ProcessBuilder.finalEnv s c user := rfl
  rw [textsAt_after, textsAt_append, convertEnv_warn, convertEnv_fst, hf]
  simp only [W.silent_snd, textsAt_nil, List.nil_append]
  unfold programRemarks
  rw [List.append_assoc]
  congr 1
  cases hp : c.path with
  | none => rw [hp] at ho; cases ho
  | some path =>
    rw [hp] at ho
    obtain ⟨flat, h3, ho⟩ := Res.bind_eq_ok.mp ho
    obtain ⟨arg0, h4, ho⟩ := Res.bind_eq_ok.mp ho
    obtain ⟨args, h5, ho⟩ := Res.bind_eq_ok.mp ho
    rw [hf] at h3 h5
    dsimp only
    rw [textsAt_bind (a := flat) _ h3, textsAt_bind (a := arg0) _ h4,
      textsAt_bind (a := args) _ (by rw [convertArgs_fst]; exact h5), convertArgs_warn h s _ _ _ h5,
      show (ProcessBuilder.finalEnv s c user).get? = environment s user c from
        funext fun k => ProcessBuilder.finalEnv_get? s c user k]
    simp only [W.silent_snd, W.ret_snd, textsAt_nil, List.nil_append, List.append_nil]
    congr 1
    unfold notifyMessages
    rw [show (ProcessBuilder.convertEnv s c.env user).get? ProcessBuilder.sNOTIFY =
      ownSettings s user c notifyVar from ProcessBuilder.convertEnv_get? s c.env user notifyVar]
    split <;> rfl

theorem processes_warn (h : Herald) {x : Machine} {cs : List ProcessConfig} {ps : List Process}
    (ho : x.processes cs = .ok ps) :
    ∃ users : List User, List.Forall₂ (fun c u =>
      Resolved x.surroundings.userById x.surroundings.userByName c.uid c.user u) cs users ∧
      textsAt .warn (Heralded.processes h x.surroundings cs).2 =
        (cs.zip users).flatMap fun cu => programRemarks h x.surroundings cu.2 cu.1 := by
  induction cs generalizing ps with
  | nil => exact ⟨[], .nil, rfl⟩
  | cons c cs ih =>
    unfold Machine.processes at ho
    cases hp : ProcessBuilder.processFrom x.surroundings c with
    | err e => rw [hp] at ho; cases ho
    | panic q => rw [hp] at ho; cases ho
    | ok p =>
      rw [hp] at ho
      obtain ⟨ps', h1, ho⟩ := Res.bind_eq_ok.mp ho
      obtain ⟨us, hu, ht⟩ := ih h1
      obtain ⟨u, hu', ht'⟩ := processFrom_warn h hp
      refine ⟨u :: us, .cons hu' hu, ?_⟩
      unfold Heralded.processes
      rw [processFrom_fst, hp]
      dsimp only
      rw [textsAt_after, textsAt_bind (a := ps') _ (by rw [processes_fst]; exact h1), ht', ht]
      simp

/-! ## The files -/

mutual
/-- The positions of what is neither a file nor a directory. -/
def othersOf : FileTree → List (List Nat)
  | .dir es => othersIn 0 es
  | .other => [[]]
  | _ => []
def othersIn (i : Nat) : List FileTree → List (List Nat)
  | [] => []
  | t :: ts => (othersOf t).map (i :: ·) ++ othersIn (i + 1) ts
end

mutual
theorem mem_othersOf : (t : FileTree) → (p : List Nat) →
    (p ∈ othersOf t ↔ nodeAt t p = some .other)
  | .file _, p => by cases p <;> simp [othersOf, nodeAt]
  | .dir es, p => by
    cases p with
    | nil => simp [othersOf, nodeAt, mem_othersIn 0 es]
    | cons j p =>
      simp only [othersOf, nodeAt, mem_othersIn 0 es, Option.bind_eq_some_iff]
      constructor
      · rintro ⟨k, q, t, h1, h2, h3⟩
        cases h1
        exact ⟨t, by simpa using h2, h3⟩
      · rintro ⟨t, h2, h3⟩
        exact ⟨j, p, t, by simp, h2, h3⟩
  | .other, p => by cases p <;> simp [othersOf, nodeAt]
  | .unreadable, p => by cases p <;> simp [othersOf, nodeAt]
  | .badName, p => by cases p <;> simp [othersOf, nodeAt]
theorem mem_othersIn (i : Nat) : (ts : List FileTree) → (p : List Nat) →
    (p ∈ othersIn i ts ↔ ∃ k q t, p = (i + k) :: q ∧ ts[k]? = some t ∧ nodeAt t q = some .other)
  | [], p => by simp [othersIn]
  | t :: ts, p => by
    simp only [othersIn, List.mem_append, List.mem_map, mem_othersIn (i + 1) ts]
    constructor
    · rintro (⟨q, hq, rfl⟩ | ⟨k, q, t', rfl, h2, h3⟩)
      · exact ⟨0, q, t, rfl, rfl, (mem_othersOf t q).mp hq⟩
      · exact ⟨k + 1, q, t', by rw [show i + 1 + k = i + (k + 1) by omega], by simpa using h2, h3⟩
    · rintro ⟨k, q, t', rfl, h2, h3⟩
      cases k with
      | zero =>
        simp only [List.getElem?_cons_zero, Option.some.injEq] at h2
        subst h2
        exact .inl ⟨q, (mem_othersOf t q).mpr h3, rfl⟩
      | succ k =>
        exact .inr ⟨k, q, t', by rw [show i + 1 + k = i + (k + 1) by omega], by simpa using h2, h3⟩
end

mutual
theorem othersOf_nodup : (t : FileTree) → (othersOf t).Nodup
  | .file _ => by simp [othersOf]
  | .dir es => by simpa [othersOf] using othersIn_nodup 0 es
  | .other => by simp [othersOf]
  | .unreadable => by simp [othersOf]
  | .badName => by simp [othersOf]
theorem othersIn_nodup (i : Nat) : (ts : List FileTree) → (othersIn i ts).Nodup
  | [] => by simp [othersIn]
  | t :: ts => by
    simp only [othersIn]
    refine List.nodup_append.mpr ⟨(othersOf_nodup t).map (fun a b hab => by simpa using hab),
      othersIn_nodup (i + 1) ts, ?_⟩
    rintro a ha b hb rfl
    obtain ⟨q, -, rfl⟩ := List.mem_map.mp ha
    obtain ⟨k, q', t', h1, -⟩ := (mem_othersIn (i + 1) ts _).mp hb
    simp only [List.cons.injEq] at h1
    omega
end

/-- About what is passed over in the configuration. -/
def ignored (h : Herald) (pos : List Nat) : Str := "Ignoring file ".toList ++ h.path pos

mutual
theorem readConfig_warn (h : Herald) (pos : List Nat) : (t : FileTree) → {raw : List Str} →
    Cinit.readConfig t = .ok raw →
    textsAt .warn (Heralded.readConfig h pos t).2 =
      (othersOf t).map fun q => ignored h (q.reverse ++ pos)
  | .file _, _, _ => by simp [Heralded.readConfig, othersOf]
  | .dir es, _, ho => by
    simp only [Heralded.readConfig, othersOf]
    exact readEntries_warn h pos 0 es ho
  | .other, _, _ => by simp only [Heralded.readConfig, othersOf]; rfl
  | .unreadable, _, ho => by simp [Cinit.readConfig] at ho
  | .badName, _, ho => by simp [Cinit.readConfig] at ho
theorem readEntries_warn (h : Herald) (pos : List Nat) (i : Nat) : (ts : List FileTree) →
    {raw : List Str} → Cinit.readEntries ts = .ok raw →
    textsAt .warn (Heralded.readEntries h pos i ts).2 =
      (othersIn i ts).map fun q => ignored h (q.reverse ++ pos)
  | [], _, _ => by simp [Heralded.readEntries, othersIn]
  | t :: ts, _, ho => by
    simp only [Cinit.readEntries] at ho
    obtain ⟨c, h1, ho⟩ := Res.bind_eq_ok.mp ho
    obtain ⟨cs, h2, ho⟩ := Res.bind_eq_ok.mp ho
    simp only [Heralded.readEntries, othersIn]
    rw [textsAt_bind (a := c) _ (by rw [readConfig_fst]; exact h1),
      textsAt_bind (a := cs) _ (by rw [readEntries_fst]; exact h2), readConfig_warn h (i :: pos) t h1,
      readEntries_warn h pos (i + 1) ts h2]
    simp [Function.comp_def]
end

/-! ## Levels and modules -/

/-- Every record is such that ... -/
def W.Each {ε α : Type} (P : Record → Prop) (w : W ε α) : Prop := ∀ r ∈ w.2, P r

namespace W.Each

variable {ε α β : Type} {P : Record → Prop}

theorem bind {w : W ε α} {f : α → W ε β} (h : w.Each P) (hf : ∀ a, w.1 = .ok a → (f a).Each P) :
    (w.bind f).Each P := by
  intro r hr
  rw [W.bind_snd, List.mem_append] at hr
  rcases hr with hr | hr
  · exact h r hr
  · split at hr
    · rename_i a ha
      exact hf a ha r hr
    · cases hr

theorem after {w : W ε α} {rs : List Record} (h : w.Each P) (hr : ∀ r ∈ rs, P r) :
    (W.after rs w).Each P := by
  intro r hr'
  rw [W.after_snd, List.mem_append] at hr'
  exact hr'.elim (hr r) (h r)

theorem silent (r : Res ε α) : (W.silent r).Each P := by intro r hr; cases hr
theorem ret (a : α) : (W.ret a : W ε α).Each P := by intro r hr; cases hr

end W.Each

/-- The modules that log before the event loop. -/
def startTargets : List (List Str) := [inMain, inChecks, inParser, inProgram, inBuilder, inSchedule]

/-- From one of the other modules, and not on the level of the general messages. -/
def Minor (r : Record) : Prop := r.target ∈ startTargets ∧ r.level ≠ .info

theorem warning_aside (t : Str) : ∀ r ∈ warning t, Minor r := by
  simp [warning, Minor, startTargets]

theorem complaint_aside (t : Str) : ∀ r ∈ complaint t, Minor r := by
  simp [complaint, Minor, startTargets]

theorem doStartupChecks_aside (h : Herald) (release : Option Str) (uid : Nat) :
    (Heralded.doStartupChecks h release uid).Each Minor := by
  refine W.Each.bind ?_ fun _ _ => ?_
  · unfold Heralded.checkKernelVersion unknownKernel
    intro r hr
    repeat' split at hr
    all_goals
      simp only [List.mem_cons, List.not_mem_nil, or_false] at hr
    all_goals first
      | (subst hr; exact ⟨by simp [startTargets], by simp⟩)
      | (rcases hr with rfl | rfl | rfl <;> exact ⟨by simp [startTargets], by simp⟩)
  · unfold Heralded.checkUser
    split
    · intro r hr
      simp only [List.mem_cons, List.not_mem_nil, or_false] at hr
      rcases hr with rfl | rfl | rfl <;> exact ⟨by simp [startTargets], by simp⟩
    · exact W.Each.ret _

mutual
theorem readConfig_aside (h : Herald) (pos : List Nat) : (t : FileTree) →
    (Heralded.readConfig h pos t).Each Minor
  | .file _ => by intro r hr; simp [Heralded.readConfig] at hr
  | .dir es => by simp only [Heralded.readConfig]; exact readEntries_aside h pos 0 es
  | .other => by
    intro r hr
    simp only [Heralded.readConfig, List.mem_singleton] at hr
    subst hr
    exact ⟨by simp [startTargets], by simp⟩
  | .unreadable => by
    intro r hr
    simp only [Heralded.readConfig, List.mem_singleton] at hr
    subst hr
    exact ⟨by simp [startTargets], by simp⟩
  | .badName => by intro r hr; simp [Heralded.readConfig] at hr
theorem readEntries_aside (h : Herald) (pos : List Nat) (i : Nat) : (ts : List FileTree) →
    (Heralded.readEntries h pos i ts).Each Minor
  | [] => by simp only [Heralded.readEntries]; exact W.Each.ret _
  | t :: ts => by
    simp only [Heralded.readEntries]
    exact (readConfig_aside h (i :: pos) t).bind fun _ _ =>
      (readEntries_aside h pos (i + 1) ts).bind fun _ _ => W.Each.ret _
end

theorem parseConfig_aside (h : Herald) (yaml : Str → Option Config) (ord : HashOrder)
    (root : FileTree) : (Heralded.parseConfig h yaml ord root).Each Minor := by
  unfold Heralded.parseConfig
  refine (readConfig_aside h [] root).bind fun raw _ => W.Each.after ?_ ?_
  · refine W.Each.bind ?_ fun c _ => ?_
    · unfold Heralded.parseRawConfig
      split
      · intro r hr
        simp only [List.cons_append, List.mem_cons, List.mem_append, List.mem_map,
          List.not_mem_nil, or_false] at hr
        rcases hr with rfl | ⟨t, -, rfl⟩ | rfl <;> exact ⟨by simp [startTargets], by simp⟩
      · exact W.Each.ret _
    · unfold Heralded.mergeDropins
      refine W.Each.bind ?_ fun _ _ => W.Each.ret _
      generalize ([] : AMap Str ProcessConfig) = d
      generalize c.programs = pcs
      induction pcs generalizing d with
      | nil => exact W.Each.ret _
      | cons pc pcs ih =>
        unfold Heralded.mergeLoop
        refine W.Each.bind ?_ fun d' _ => ih d'
        unfold Heralded.mergeDropinsStep
        dsimp only
        split
        · split
          · exact W.Each.ret _
          · intro r hr
            simp only [List.mem_cons, List.not_mem_nil, or_false] at hr
            rcases hr with rfl | rfl <;> exact ⟨by simp [startTargets], by simp⟩
          · intro r hr; cases hr
        · exact W.Each.ret _
  · intro r hr
    rw [List.mem_singleton] at hr
    subst hr
    exact ⟨by simp [startTargets], by simp⟩

theorem processFrom_aside (h : Herald) (s : Surroundings) (c : ProcessConfig) :
    (Heralded.processFrom h s c).Each Minor := by
  unfold Heralded.processFrom
  split
  · intro r hr; cases hr
  refine (W.Each.silent _).bind fun user _ => (W.Each.silent _).bind fun group _ =>
    W.Each.after ?_ ?_
  · dsimp only
    split
    · intro r hr; cases hr
    · refine (W.Each.silent _).bind fun _ _ => (W.Each.silent _).bind fun _ _ => W.Each.bind ?_
        fun _ _ => W.Each.ret _
      generalize c.args = xs
      generalize 0 = i
      induction xs generalizing i with
      | nil => exact W.Each.ret _
      | cons a xs ih =>
        unfold Heralded.convertArgs
        refine W.Each.after ((W.Each.silent _).bind fun _ _ => (ih _).bind fun _ _ => W.Each.ret _) ?_
        unfold argMessages
        repeat' split
        all_goals first | exact warning_aside _ | (intro r hr; cases hr)
  · intro r hr
    rcases List.mem_append.mp hr with hr | hr
    · unfold Heralded.convertEnv at hr
      revert hr
      generalize ProcessBuilder.sanitiseEnv (ProcessBuilder.getDefaultEnv s) user = m
      generalize c.env.flatten = l
      induction l generalizing m with
      | nil => intro hr; cases hr
      | cons kv l ih =>
        intro hr
        simp only [copyLoop, List.mem_append] at hr
        rcases hr with hr | hr
        · unfold copyMessages at hr
          repeat' split at hr
          all_goals first | exact warning_aside _ r hr | cases hr
        · exact ih _ hr
    · unfold notifyMessages at hr
      split at hr
      · simp only [List.mem_cons, List.not_mem_nil, or_false] at hr
        rcases hr with rfl | rfl <;> exact ⟨by simp [startTargets], by simp⟩
      · cases hr

theorem processes_aside (h : Herald) (s : Surroundings) (cs : List ProcessConfig) :
    (Heralded.processes h s cs).Each Minor := by
  induction cs with
  | nil => exact W.Each.ret _
  | cons c cs ih =>
    have hp := processFrom_aside h s c
    unfold Heralded.processes
    split
    · intro r hr
      rcases List.mem_append.mp hr with hr | hr
      · exact hp r hr
      · exact complaint_aside _ r hr
    · exact hp
    · exact (ih.bind fun _ _ => W.Each.ret _).after hp

theorem buildDependencyManager_aside (topo : Toposort) (ord : HashOrder) (config : Config) :
    (Heralded.buildDependencyManager topo ord config).Each Minor := by
  unfold Heralded.buildDependencyManager
  split
  · exact W.Each.ret _
  · refine W.Each.bind ?_ fun _ _ => by intro r hr; cases hr
    unfold Heralded.reportDepError
    repeat' split
    all_goals first | exact complaint_aside _ | (intro r hr; cases hr)
  · intro r hr; cases hr

theorem withJobs_aside (env : Env) (jobs : List (Nat × ProcessConfig)) (c : Cron)
    (clock : List Int) : (Heralded.withJobs env c jobs clock).Each Minor := by
  induction jobs generalizing c clock with
  | nil => exact W.Each.ret _
  | cons job jobs ih =>
    obtain ⟨id, pc⟩ := job
    unfold Heralded.withJobs
    split
    · refine (W.Each.silent _).bind fun _ _ => (W.Each.silent _).bind fun _ _ =>
        W.Each.after ((W.Each.silent _).bind fun _ _ => ih _ _) ?_
      intro r hr
      rw [List.mem_singleton] at hr
      subst hr
      exact ⟨by simp [startTargets], by simp⟩
    · intro r hr; cases hr

theorem buildCron_aside (env : Env) (config : Config) (clock : List Int) :
    (Heralded.buildCron env config clock).Each Minor := by
  have hw := withJobs_aside env (cronPrograms 0 config.programs) {} clock
  unfold Heralded.buildCron
  dsimp only
  split
  · exact hw
  · exact hw
  · split
    · intro r hr
      rcases List.mem_append.mp hr with hr | hr
      · exact hw r hr
      · exact complaint_aside _ r hr
    · exact hw

theorem socketMessages_aside (a b : Sockets.State) : ∀ r ∈ socketMessages a b, Minor r := by
  intro r hr
  unfold socketMessages at hr
  obtain ⟨t, -, rfl⟩ := List.mem_map.mp hr
  exact ⟨by simp [startTargets], by simp⟩

theorem manager_aside (h : Herald) (x : Machine) (config : Config) :
    (Heralded.manager h x config).Each Minor := by
  unfold Heralded.manager
  refine (processes_aside h _ _).bind fun procs _ => W.Each.after ?_
    (buildDependencyManager_aside _ _ _)
  split
  · intro r hr; cases hr
  refine W.Each.after ?_ (buildCron_aside _ _ _)
  split
  · intro r hr; cases hr
  split
  · intro r hr
    rcases List.mem_append.mp hr with hr | hr
    · exact socketMessages_aside _ _ r hr
    · rw [List.mem_singleton] at hr
      subst hr
      exact ⟨by simp [startTargets], by simp⟩
  · refine W.Each.after ((W.Each.silent _).bind fun _ _ => (W.Each.silent _).bind fun _ _ => ?_)
      (socketMessages_aside _ _)
    split
    · exact W.Each.ret _
    · intro r hr; cases hr

theorem aside_info {rs : List Record} (h : ∀ r ∈ rs, Minor r) : textsAt .info rs = [] := by
  unfold textsAt
  rw [List.filter_eq_nil_iff.mpr]
  · rfl
  · intro r hr
    simpa using (h r hr).2

/-! ## The whole start -/

theorem checkKernelVersion_warn (h : Herald) (release : Option Str)
    (ho : Cinit.checkKernelVersion release = .ok ()) :
    KernelRemarks h release (textsAt .warn (Heralded.checkKernelVersion h release).2) := by
  cases release with
  | none => rfl
  | some text =>
    have hno : ∀ {l : List Str}, splitOn '.' text = l →
        (¬ ∃ a b rest, l = a :: b :: rest ∧ (parseU32 a).isSome ∧ (parseU32 b).isSome) →
        ¬ ∃ major minor, Release text major minor := by
      rintro l hs hn ⟨M, m, hr⟩
      obtain ⟨a, b, rest, h1, h2, h3⟩ := Props.release_split.mp hr
      exact hn ⟨a, b, rest, hs.symm.trans h1, by simp [h2], by simp [h3]⟩
    unfold Cinit.checkKernelVersion at ho
    unfold Heralded.checkKernelVersion KernelRemarks
    dsimp only at ho ⊢
    rcases hs : splitOn '.' text with _ | ⟨a, _ | ⟨b, l⟩⟩
    · exact .inr ⟨hno hs (by simp), rfl⟩
    · exact .inr ⟨hno hs (by simp), rfl⟩
    · rw [hs] at ho
      dsimp only at ho ⊢
      cases ha : parseU32 a with
      | none => exact .inr ⟨hno hs (by simp [ha]), rfl⟩
      | some major =>
        cases hb : parseU32 b with
        | none => exact .inr ⟨hno hs (by simp [hb]), rfl⟩
        | some minor =>
          rw [ha, hb] at ho
          dsimp only at ho ⊢
          split
          · rename_i hv
            rw [if_pos hv] at ho
            cases ho
          · exact .inl ⟨⟨major, minor, Props.release_split.mpr ⟨a, b, l, hs, ha, hb⟩⟩, rfl⟩

theorem mergeLoop_none {d d' : AMap Str ProcessConfig} {pcs : List ProcessConfig}
    (ho : Res.foldlM Cinit.mergeDropinsStep d pcs = .ok d') :
    (Heralded.mergeLoop d pcs).2 = [] := by
  induction pcs generalizing d with
  | nil => rfl
  | cons pc pcs ih =>
    obtain ⟨d1, h1, h2⟩ := Res.bind_eq_ok.mp ho
    unfold Heralded.mergeLoop
    rw [W.bind_snd, mergeDropinsStep_fst, h1]
    dsimp only
    rw [ih h2, List.append_nil]
    unfold Cinit.mergeDropinsStep at h1
    unfold Heralded.mergeDropinsStep
    dsimp only at h1 ⊢
    split
    · rename_i p hp
      rw [hp] at h1
      dsimp only at h1
      split
      · rfl
      · rename_i hm
        rw [hm] at h1
        cases h1
      · rfl
    · rfl

theorem parseConfig_warn (h : Herald) {x : Machine} {config : Config}
    (ho : Cinit.parseConfig x.yaml x.mergeOrder x.tree = .ok config) :
    textsAt .warn (Heralded.parseConfig h x.yaml x.mergeOrder x.tree).2 =
      (othersOf x.tree).map fun p => ignored h p.reverse := by
  unfold Cinit.parseConfig at ho
  obtain ⟨raw, h1, ho⟩ := Res.bind_eq_ok.mp ho
  obtain ⟨c, h2, ho⟩ := Res.bind_eq_ok.mp ho
  unfold Cinit.mergeDropins at ho
  obtain ⟨d, h3, ho⟩ := Res.bind_eq_ok.mp ho
  unfold Heralded.parseConfig
  rw [textsAt_bind (a := raw) _ (by rw [readConfig_fst]; exact h1), textsAt_after,
    textsAt_bind (a := c) _ (by rw [parseRawConfig_fst]; exact h2), readConfig_warn h [] x.tree h1]
  have hraw : (Heralded.parseRawConfig h x.yaml raw).2 = [] := by
    unfold Cinit.parseRawConfig at h2
    unfold Heralded.parseRawConfig
    split
    · rename_i hy
      rw [if_pos hy] at h2
      cases h2
    · rfl
  have hm : (Heralded.mergeDropins x.mergeOrder c).2 = [] := by
    unfold Heralded.mergeDropins
    rw [W.bind_snd, mergeLoop_none h3, mergeLoop_fst, h3]
    rfl
  rw [hraw, hm]
  simp [textsAt]

theorem withJobs_warn (env : Env) (jobs : List (Nat × ProcessConfig)) (c : Cron)
    (clock : List Int) : (Heralded.withJobs env c jobs clock).Mute .warn := by
  induction jobs generalizing c clock with
  | nil => rfl
  | cons job jobs ih =>
    obtain ⟨id, pc⟩ := job
    unfold Heralded.withJobs
    split
    · exact (W.mute_silent _ _).bind fun _ _ => (W.mute_silent _ _).bind fun _ _ =>
        W.Mute.after ((W.mute_silent _ _).bind fun _ _ => ih _ _) rfl
    · rfl

theorem manager_warn (h : Herald) {x : Machine} {config : Config} {m : Manager}
    (ho : x.manager config = .ok m) :
    ∃ users : List User, List.Forall₂ (fun c u =>
      Resolved x.surroundings.userById x.surroundings.userByName c.uid c.user u)
        config.programs users ∧
      textsAt .warn (Heralded.manager h x config).2 =
        (config.programs.zip users).flatMap fun cu =>
          programRemarks h x.surroundings cu.2 cu.1 := by
  obtain ⟨h1, h2, h3, -⟩ := Machine.manager_ok ho
  obtain ⟨users, hu, ht⟩ := processes_warn h h1
  refine ⟨users, hu, ?_⟩
  have hd : Heralded.buildDependencyManager x.topo x.graphOrder config = .ret m.deps := by
    have := h2
    unfold Cinit.buildDependencyManager at this
    unfold Heralded.buildDependencyManager
    cases hw : DepMgr.withNodes x.topo x.graphOrder (enumerate config.programs) with
    | ok d => rw [hw] at this; cases this; rfl
    | panic q => rw [hw] at this; cases this
    | err e =>
      rw [hw] at this
      dsimp only at this
      obtain ⟨u, -, hh⟩ := Res.bind_eq_ok.mp this
      cases hh
  have hcm : textsAt .warn (Heralded.buildCron x.env config x.clock).2 = [] := by
    have hm := withJobs_warn x.env (cronPrograms 0 config.programs) {} x.clock
    have hf := buildCron_fst x.env config x.clock
    rw [h3] at hf
    unfold Heralded.buildCron at hf ⊢
    dsimp only at hf ⊢
    split
    · exact hm
    · exact hm
    · rename_i hw
      rw [hw] at hf
      dsimp only at hf
      split at hf <;> cases hf
  unfold Heralded.manager
  rw [textsAt_bind (a := m.procs) _ (by rw [processes_fst]; exact h1), ht, hd]
  conv => rhs; rw [← List.append_nil (List.flatMap _ _)]
  congr 1
  refine W.Mute.after ?_ rfl
  dsimp only [W.ret]
  refine W.Mute.after ?_ hcm
  have hsm : ∀ a b, textsAt .warn (socketMessages a b) = [] := by
    intro a b
    unfold socketMessages textsAt
    rw [List.filter_map]
    simp [Function.comp_def]
  split
  · rfl
  split
  · show textsAt .warn _ = []
    rw [textsAt_append, hsm]
    rfl
  · refine W.Mute.after ((W.mute_silent _ _).bind fun _ _ => (W.mute_silent _ _).bind fun _ _ => ?_)
      (hsm _ _)
    split <;> rfl

theorem prologue_each (h : Herald) (x : Machine) :
    (Heralded.prologue h x).Each (fun r => r.target ∈ startTargets) := by
  have hi : ∀ t, (⟨inMain, .info, t⟩ : Record).target ∈ startTargets := by
    intro t; simp [startTargets]
  have weaken : ∀ {α : Type} {w : W Int α}, w.Each Minor → w.Each (fun r => r.target ∈ startTargets) :=
    fun hw r hr => (hw r hr).1
  unfold Heralded.prologue
  refine W.Each.after ?_ (by rintro r hr; rw [List.mem_singleton] at hr; subst hr; exact hi _)
  refine (weaken (doStartupChecks_aside h _ _)).bind fun _ _ => W.Each.after ?_ ?_
  · refine (weaken (parseConfig_aside h _ _ _)).bind fun config _ =>
      W.Each.after ?_ (by rintro r hr; rw [List.mem_singleton] at hr; subst hr; exact hi _)
    exact (weaken (manager_aside h x config)).bind fun _ _ =>
      W.Each.after (W.Each.ret _) (by rintro r hr; rw [List.mem_singleton] at hr; subst hr; exact hi _)
  · intro r hr
    simp only [info, List.mem_cons, List.not_mem_nil, or_false] at hr
    rcases hr with rfl | rfl <;> exact hi _

/-! ## On the console -/

theorem Logging.find_initialise_start (v : Nat) {target : List Str} (h : target ∈ startTargets) :
    ((initialise v).find target).level = levelFor v ∧
      ((initialise v).find target).appenders = [ownAppender] := by
  simp only [startTargets, List.mem_cons, List.not_mem_nil, or_false] at h
  rcases h with rfl | rfl | rfl | rfl | rfl | rfl <;> exact ⟨rfl, rfl⟩

/-- The line for a record. -/
def Logging.startLine (t : Time) (r : Record) : Str :=
  t.show ++ ' ' :: r.level.show ++ " [cinit] ".toList ++ r.message

theorem Logging.log_start (v : Nat) (t : Time) {r : Record} (h : r.target ∈ startTargets) :
    (initialise v).log t r =
      if wanted v r.level then [(.stdout, startLine t r ++ ['\n'])] else [] := by
  simp only [Logger.log, (find_initialise_start v h).1, admits_levelFor]
  split
  · simp only [(find_initialise_start v h).2, ownAppender, startLine, encodePiece,
      List.map_cons, List.map_nil, List.flatMap_cons, List.flatMap_nil]
    simp [List.append_assoc]
  · rfl

attribute [local irreducible] initialise startLine

theorem Logging.consoleOf_start (v : Nat) (s : Stream) {rs : List (Time × Record)}
    (h : ∀ r ∈ rs, r.2.target ∈ startTargets) :
    consoleOf v s rs = if s = .stdout then
      (rs.filter (fun r => wanted v r.2.level)).flatMap (fun r => startLine r.1 r.2 ++ ['\n'])
    else [] := by
  induction rs with
  | nil => cases s <;> rfl
  | cons r rs ih =>
    have h1 : consoleOf v s (r :: rs) = (((initialise v).log r.1 r.2).flatMap fun w =>
        if w.1 = s then w.2 else []) ++ consoleOf v s rs := rfl
    rw [h1, ih fun r' hr => h r' (by simp [hr]), log_start v r.1 (h r (by simp))]
    cases s with
    | stderr => cases hw : wanted v r.2.level <;> simp
    | stdout => cases hw : wanted v r.2.level <;> simp [hw]

theorem Logging.startLine_eq (t : Time) (r : Record) :
    startLine t r = lineOf t (.own r.target (.fixed r.level r.message)) := by
  have hv : view (.own r.target (.fixed r.level r.message)) =
      ⟨r.level.show, "cinit".toList, r.message⟩ := rfl
  unfold startLine lineOf
  rw [hv]
  dsimp only
  rw [show " [cinit] ".toList = " [".toList ++ "cinit".toList ++ "] ".toList by decide]
  simp only [List.append_assoc]

end Cinit
