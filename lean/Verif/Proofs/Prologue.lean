import Verif.Model.Prologue
/-!
# The functions that log do the same as those that do not
-/

namespace Cinit

namespace W

variable {ε α β : Type}

@[simp] theorem ret_fst (a : α) : (ret a : W ε α).1 = .ok a := rfl
@[simp] theorem silent_fst (r : Res ε α) : (silent r).1 = r := rfl
@[simp] theorem after_fst (rs : List Logging.Record) (x : W ε α) : (after rs x).1 = x.1 := rfl
@[simp] theorem bind_fst (x : W ε α) (f : α → W ε β) :
    (x.bind f).1 = (x.1 >>= fun a => (f a).1) := by
  unfold bind
  cases x.1 <;> rfl

end W

namespace Heralded

theorem checkKernelVersion_fst (h : Herald) (release : Option Str) :
    (checkKernelVersion h release).1 = Cinit.checkKernelVersion release := by
  unfold checkKernelVersion Cinit.checkKernelVersion
  cases release with
  | none => rfl
  | some text =>
    dsimp only
    rcases splitOn '.' text with _ | ⟨a, _ | ⟨b, l⟩⟩
    · rfl
    · rfl
    · dsimp only
      cases parseU32 a with
      | none => rfl
      | some major =>
        cases parseU32 b with
        | none => rfl
        | some minor =>
          dsimp only
          by_cases hv : major < 4 ∨ (major = 4 ∧ minor < 3)
          · rw [if_pos hv, if_pos hv]
          · rw [if_neg hv, if_neg hv]

theorem checkUser_fst (uid : Nat) : (checkUser uid).1 = Cinit.checkUser uid := by
  unfold checkUser Cinit.checkUser
  by_cases hu : uid ≠ 0
  · rw [if_pos hu, if_pos hu]
  · rw [if_neg hu, if_neg hu]; rfl

theorem doStartupChecks_fst (h : Herald) (release : Option Str) (uid : Nat) :
    (doStartupChecks h release uid).1 = Cinit.doStartupChecks release uid := by
  simp [doStartupChecks, Cinit.doStartupChecks, checkKernelVersion_fst, checkUser_fst]

mutual
theorem readConfig_fst (h : Herald) (pos : List Nat) : (t : FileTree) →
    (readConfig h pos t).1 = Cinit.readConfig t
  | .file _ => by simp [readConfig, Cinit.readConfig]
  | .dir entries => by simp [readConfig, Cinit.readConfig, readEntries_fst h pos 0 entries]
  | .other => by simp [readConfig, Cinit.readConfig]
  | .unreadable => by simp [readConfig, Cinit.readConfig]
  | .badName => by simp [readConfig, Cinit.readConfig]
theorem readEntries_fst (h : Herald) (pos : List Nat) (i : Nat) : (ts : List FileTree) →
    (readEntries h pos i ts).1 = Cinit.readEntries ts
  | [] => by simp [readEntries, Cinit.readEntries]
  | t :: ts => by
    simp [readEntries, Cinit.readEntries, readConfig_fst h (i :: pos) t,
      readEntries_fst h pos (i + 1) ts]
end

theorem parseRawConfig_fst (h : Herald) (yaml : Str → Option Config) (raw : List Str) :
    (parseRawConfig h yaml raw).1 = Cinit.parseRawConfig yaml raw := by
  unfold parseRawConfig Cinit.parseRawConfig
  by_cases hy : (raw.map yaml).any Option.isNone
  · rw [if_pos hy, if_pos hy]
  · rw [if_neg hy, if_neg hy]; rfl

theorem mergeDropinsStep_fst (dict : AMap Str ProcessConfig) (pc : ProcessConfig) :
    (mergeDropinsStep dict pc).1 = Cinit.mergeDropinsStep dict pc := by
  unfold mergeDropinsStep Cinit.mergeDropinsStep
  cases dict.get? pc.name with
  | none => rfl
  | some process => dsimp only; cases process.merge pc <;> rfl

theorem mergeLoop_fst (dict : AMap Str ProcessConfig) (pcs : List ProcessConfig) :
    (mergeLoop dict pcs).1 = Res.foldlM Cinit.mergeDropinsStep dict pcs := by
  induction pcs generalizing dict with
  | nil => rfl
  | cons pc pcs ih => simp [mergeLoop, mergeDropinsStep_fst, ih]

theorem mergeDropins_fst (ord : HashOrder) (config : Config) :
    (mergeDropins ord config).1 = Cinit.mergeDropins ord config := by
  simp [mergeDropins, Cinit.mergeDropins, mergeLoop_fst]

theorem parseConfig_fst (h : Herald) (yaml : Str → Option Config) (ord : HashOrder)
    (root : FileTree) : (parseConfig h yaml ord root).1 = Cinit.parseConfig yaml ord root := by
  simp [parseConfig, Cinit.parseConfig, readConfig_fst, parseRawConfig_fst, mergeDropins_fst]

theorem copyLoop_fst (h : Herald) (s : Surroundings) (result : AMap Str Str)
    (kvs : List (Str × Option Str)) :
    (copyLoop h s result kvs).1 = kvs.foldl (ProcessBuilder.copyStep s) result := by
  induction kvs generalizing result with
  | nil => rfl
  | cons kv kvs ih => simp [copyLoop, ih]

theorem foldl_flatten {α β : Type} (f : β → α → β) (l : List (List α)) (b : β) :
    l.foldl (fun b xs => xs.foldl f b) b = l.flatten.foldl f b := by
  induction l generalizing b with
  | nil => rfl
  | cons xs l ih => simp [ih]

theorem convertEnv_fst (h : Herald) (s : Surroundings) (env : List (List (Str × Option Str)))
    (user : User) : (convertEnv h s env user).1 = ProcessBuilder.convertEnv s env user := by
  simp [convertEnv, ProcessBuilder.convertEnv, ProcessBuilder.copyFromConfig, copyLoop_fst,
    foldl_flatten]

theorem convertArgs_fst (h : Herald) (s : Surroundings) (env : AMap Str Str) (i : Nat)
    (xs : List Str) : (convertArgs h s env i xs).1 = ProcessBuilder.convertArgs s env i xs := by
  induction xs generalizing i with
  | nil => rfl
  | cons x xs ih => simp [convertArgs, ProcessBuilder.convertArgs, ih]

theorem processFrom_fst (h : Herald) (s : Surroundings) (config : ProcessConfig) :
    (processFrom h s config).1 = ProcessBuilder.processFrom s config := by
  unfold processFrom ProcessBuilder.processFrom
  split
  · rfl
  · simp only [W.bind_fst, W.silent_fst, W.after_fst, convertEnv_fst]
    cases config.path with
    | none => rfl
    | some path => simp [convertArgs_fst]

theorem processes_fst (h : Herald) (x : Machine) (cs : List ProcessConfig) :
    (processes h x.surroundings cs).1 = x.processes cs := by
  induction cs with
  | nil => rfl
  | cons c cs ih =>
    unfold processes Machine.processes
    rw [processFrom_fst]
    cases ProcessBuilder.processFrom x.surroundings c with
    | ok p => simp [ih]
    | err e => rfl
    | panic p => rfl

theorem reportDepError_fst (programs : List ProcessConfig) (e : DepError) :
    (reportDepError programs e).1 = Cinit.reportDepError programs e := by
  cases e with
  | cycle i => unfold reportDepError Cinit.reportDepError; dsimp only; cases programs[i]? <;> rfl
  | cronjobDependency i =>
    unfold reportDepError Cinit.reportDepError; dsimp only; cases programs[i]? <;> rfl
  | unknownAfterReference i k =>
    unfold reportDepError Cinit.reportDepError
    dsimp only
    cases programs[i]? with
    | none => rfl
    | some p => dsimp only; cases p.after[k]? <;> rfl
  | unknownBeforeReference i k =>
    unfold reportDepError Cinit.reportDepError
    dsimp only
    cases programs[i]? with
    | none => rfl
    | some p => dsimp only; cases p.before[k]? <;> rfl

theorem buildDependencyManager_fst (topo : Toposort) (ord : HashOrder) (config : Config) :
    (buildDependencyManager topo ord config).1 = Cinit.buildDependencyManager topo ord config := by
  unfold buildDependencyManager Cinit.buildDependencyManager
  cases DepMgr.withNodes topo ord (enumerate config.programs) with
  | ok d => rfl
  | err e => simp [reportDepError_fst]
  | panic p => rfl

theorem withJobs_fst (env : Env) (c : Cron) (jobs : List (Nat × ProcessConfig)) (clock : List Int) :
    (withJobs env c jobs clock).1 = Cron.withJobs env.zone c jobs clock := by
  induction jobs generalizing c clock with
  | nil => rfl
  | cons job jobs ih =>
    obtain ⟨id, pc⟩ := job
    unfold withJobs Cron.withJobs
    cases pc.ptype with
    | cronJob desc => simp [ih]
    | oneshot => rfl
    | notify => rfl

theorem buildCron_fst (env : Env) (config : Config) (clock : List Int) :
    (buildCron env config clock).1 = Cinit.buildCron env.zone config clock := by
  unfold buildCron Cinit.buildCron
  rw [← withJobs_fst]
  dsimp only
  cases (withJobs env {} (cronPrograms 0 config.programs) clock).1 with
  | ok c => rfl
  | panic p => rfl
  | err e =>
    obtain ⟨msg, id⟩ := e
    dsimp only
    cases config.programs[id]? <;> rfl

theorem manager_fst (h : Herald) (x : Machine) (config : Config) :
    (manager h x config).1 = x.manager config := by
  unfold manager Machine.manager
  simp only [W.bind_fst, W.after_fst, processes_fst, ← buildDependencyManager_fst,
    ← buildCron_fst]
  congr 1
  funext procs
  cases hd : (buildDependencyManager x.topo x.graphOrder config).1 with
  | panic p => rfl
  | ok d =>
    cases hc : (buildCron x.env config x.clock).1 with
    | panic p => simp [hc]
    | ok c =>
      unfold Machine.sockets
      cases Sockets.setupFileDescriptors x.system with
      | err => simp [hc]
      | ok r s => simp [hc]; split <;> rfl
    | err e =>
      unfold Machine.sockets
      cases Sockets.setupFileDescriptors x.system <;> simp [hc]
  | err d =>
    cases hc : (buildCron x.env config x.clock).1 with
    | panic p => simp [hc]
    | ok c =>
      unfold Machine.sockets
      cases Sockets.setupFileDescriptors x.system <;> simp [hc]
    | err e =>
      unfold Machine.sockets
      cases Sockets.setupFileDescriptors x.system <;> simp [hc]

/-- Everything before the event loop. -/
theorem prologue_fst (h : Herald) (x : Machine) :
    (prologue h x).1 = (Cinit.doStartupChecks x.release x.uid >>= fun _ =>
      Cinit.parseConfig x.yaml x.mergeOrder x.tree >>= fun config => x.manager config) := by
  simp only [prologue, W.bind_fst, W.after_fst, doStartupChecks_fst, parseConfig_fst, manager_fst,
    W.ret_fst]
  congr 1
  funext _
  congr 1
  funext config
  cases x.manager config <;> rfl

/-- The program that logs ends as the one that does not. -/
theorem prologue_erases (h : Herald) (x : Machine) :
    run x = orExit (prologue h x).1 fun m => (x.loop m).ending := by
  rw [prologue_fst]
  unfold run
  cases Cinit.doStartupChecks x.release x.uid with
  | ok _ =>
    cases Cinit.parseConfig x.yaml x.mergeOrder x.tree with
    | ok config => cases h : x.manager config <;> simp [orExit, h]
    | err e => rfl
    | panic p => rfl
  | err e => rfl
  | panic p => rfl

end Heralded

end Cinit
