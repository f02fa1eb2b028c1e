import Verif.Model.Main
import Verif.Proofs.ProcessBuilder
import Verif.Proofs.ManagerLoop
/-!
# From the configuration to the event loop
-/

namespace Cinit

open Spec

/-! ## Unique names -/

theorem DepMgr.buildNameDict_nodup {l : List (Nat × ProcessConfig)} {acc nd : AMap Str Nat}
    (h : Res.foldlM (fun (result : AMap Str Nat) (d : Nat × ProcessConfig) =>
      if result.contains d.2.name then (.panic .duplicateName : Res DepError _)
      else .ok (result.insert d.2.name d.1)) acc l = .ok nd) :
    (l.map (·.2.name)).Nodup ∧ ∀ d ∈ l, acc.get? d.2.name = none := by
  induction l generalizing acc with
  | nil => simp
  | cons d ds ih =>
    rw [Res.foldlM_cons] at h
    obtain ⟨acc', h1, h2⟩ := Res.bind_eq_ok.mp h
    by_cases hc : acc.contains d.2.name = true
    · rw [if_pos hc] at h1; cases h1
    · rw [if_neg hc] at h1
      cases h1
      obtain ⟨i1, i2⟩ := ih h2
      have hd : acc.get? d.2.name = none := by
        simpa [AMap.contains] using hc
      have hne : ∀ e ∈ ds, d.2.name ≠ e.2.name := by
        intro e he heq
        have := i2 e he
        rw [AMap.get?_insert, if_pos heq] at this
        cases this
      refine ⟨?_, ?_⟩
      · rw [List.map_cons, List.nodup_cons]
        refine ⟨?_, i1⟩
        intro hm
        obtain ⟨e, he, heq⟩ := List.mem_map.mp hm
        exact hne e he heq.symm
      · intro e he
        rcases List.mem_cons.mp he with rfl | he
        · exact hd
        · have := i2 e he
          rw [AMap.get?_insert, if_neg (hne e he)] at this
          exact this

theorem names_enumerate (ps : List ProcessConfig) :
    (enumerate ps).map (·.2.name) = ps.map (·.name) := by
  conv_rhs => rw [← map_snd_enumerate ps]
  rw [List.map_map]; rfl

theorem buildDependencyManager_ok {topo : Toposort} {ord : HashOrder} {config : Config}
    {d : DepMgr} (h : buildDependencyManager topo ord config = .ok d) :
    UniqueNames config.programs ∧ RefsKnown config.programs ∧ NoAfterCron config.programs ∧
      Acyclic config.programs ∧ DepMgr.DepInv config.programs [] [] d := by
  have hu : UniqueNames config.programs := by
    unfold buildDependencyManager at h
    cases hw : DepMgr.withNodes topo ord (enumerate config.programs) with
    | ok d' =>
      unfold DepMgr.withNodes at hw
      obtain ⟨nd, h1, -⟩ := Res.bind_eq_ok.mp hw
      have := (DepMgr.buildNameDict_nodup h1).1
      rwa [names_enumerate] at this
    | err e =>
      rw [hw] at h
      cases e <;> simp only [reportDepError] at h <;> (repeat' split at h) <;> cases h
    | panic p => rw [hw] at h; cases h
  unfold buildDependencyManager at h
  rcases DepMgr.withNodes_cases topo ord hu with ⟨d', h', h1, h2, h3, h4⟩ | ⟨e, h', -⟩
  · rw [h'] at h
    cases h
    exact ⟨hu, h2, h3, h4, h1⟩
  · rw [h'] at h
    cases e <;> simp only [reportDepError] at h <;> (repeat' split at h) <;> cases h

namespace Machine

theorem processes_ok {x : Machine} {cs : List ProcessConfig} {ps : List Process}
    (h : x.processes cs = .ok ps) :
    List.Forall₂ (fun c p => ProcessBuilder.processFrom x.surroundings c = .ok p) cs ps := by
  induction cs generalizing ps with
  | nil => cases h; exact .nil
  | cons c cs ih =>
    unfold processes at h
    cases hp : ProcessBuilder.processFrom x.surroundings c with
    | ok p =>
      rw [hp] at h
      obtain ⟨ps', h1, h2⟩ := Res.bind_eq_ok.mp h
      cases h2
      exact .cons hp (ih h1)
    | err e => rw [hp] at h; cases h
    | panic q => rw [hp] at h; cases h

/-- The descriptors the manager listens to are the ones that were created for this. -/
theorem manager_sockets {x : Machine} {config : Config} {m : Manager}
    (h : x.manager config = .ok m) : x.sockets = some (m.signalFd, m.statusFd, m.notifyFd) := by
  unfold manager at h
  obtain ⟨procs, -, h⟩ := Res.bind_eq_ok.mp h
  split at h
  · cases h
  · cases h
  · split at h
    · cases h
    · rename_i hs
      obtain ⟨deps, -, h⟩ := Res.bind_eq_ok.mp h
      obtain ⟨cron, -, h⟩ := Res.bind_eq_ok.mp h
      split at h <;> cases h
      exact hs

/-- What a successful construction went through. -/
theorem manager_ok {x : Machine} {config : Config} {m : Manager} (h : x.manager config = .ok m) :
    x.processes config.programs = .ok m.procs ∧
    buildDependencyManager x.topo x.graphOrder config = .ok m.deps ∧
    buildCron x.env.zone config x.clock = .ok m.cron ∧
    m = { procs := m.procs, deps := m.deps, cron := m.cron,
          signalFd := m.signalFd, statusFd := m.statusFd, notifyFd := m.notifyFd } := by
  unfold manager at h
  obtain ⟨procs, h1, h⟩ := Res.bind_eq_ok.mp h
  cases hd : buildDependencyManager x.topo x.graphOrder config <;>
    cases hc : buildCron x.env.zone config x.clock <;>
    rw [hd, hc] at h <;> cases hs : x.sockets <;> rw [hs] at h <;> simp only at h <;>
    first
    | (cases h; done)
    | skip
  simp only [Res.bind_ok] at h
  split at h
  · cases h
    exact ⟨h1, rfl, rfl, rfl⟩
  · cases h

/-- What is fixed during the run of an event loop. -/
def setting (x : Machine) (config : Config) (m : Manager) : Setting :=
  { programs := config.programs, zone := x.env.zone, cron := m.cron, rfc3339 := x.env.rfc3339 }

theorem initial {x : Machine} {config : Config} {m : Manager} (h : x.manager config = .ok m) :
    Initial (x.setting config m) x.env (x.world m) := by
  obtain ⟨h1, h2, h3, h4⟩ := manager_ok h
  obtain ⟨hu, hk, hn, ha, hd⟩ := buildDependencyManager_ok h2
  have hf := processes_ok h1
  have hl : m.procs.length = config.programs.length := hf.length_eq.symm
  have hget : ∀ (i : Nat) (p : Process), m.procs[i]? = some p → ∃ c, config.programs[i]? = some c ∧
      ProcessBuilder.processFrom x.surroundings c = .ok p := by
    intro i p hp
    obtain ⟨hi, rfl⟩ := List.getElem?_eq_some_iff.mp hp
    have hi' : i < config.programs.length := hl ▸ hi
    exact ⟨config.programs[i], List.getElem?_eq_getElem hi', hf.get hi' hi⟩
  have hgetc : ∀ (i : Nat) (c : ProcessConfig), config.programs[i]? = some c →
      ∃ p, ProcessBuilder.processFrom x.surroundings c = .ok p := by
    intro i c hc
    obtain ⟨hi, rfl⟩ := List.getElem?_eq_some_iff.mp hc
    have hi' : i < m.procs.length := hl ▸ hi
    exact ⟨m.procs[i], hf.get hi hi'⟩
  refine ⟨rfl, rfl, rfl, ?_, ?_, ?_, ?_, hd, rfl, buildCron_inv h3, ?_⟩
  · rw [show (x.world m).mgr = m from rfl, h4]
  · rw [show (x.world m).mgr = m from rfl, h4]
  · rw [show (x.world m).mgr = m from rfl]
    refine ⟨hl, ?_, ?_, ?_, ?_, ?_⟩
    · intro i p hp
      obtain ⟨c, hc, hpf⟩ := hget i p hp
      obtain ⟨_, _, _, -, -, -, -, -, -, g1, -, -, -, -, -, -, g2, g3, g4, g5⟩ :=
        ProcessBuilder.processFrom_ok hpf
      refine ⟨by simp [setting, hc, g1], ?_, ?_, ?_, ?_, ?_⟩
      · rw [g3]
        constructor
        · intro e
          refine ⟨c, hc, ?_⟩
          cases hp : c.ptype <;> rw [hp] at e <;> first | rfl | cases e
        · rintro ⟨c', hc', e⟩
          cases hc.symm.trans hc'
          rw [e]; rfl
      · rw [g3]
        constructor
        · intro e
          refine ⟨c, hc, ?_⟩
          cases hp : c.ptype <;> rw [hp] at e <;> first | exact ⟨_, rfl⟩ | cases e
        · rintro ⟨c', hc', t, e⟩
          cases hc.symm.trans hc'
          rw [e]; rfl
      · rw [g2]
        show _ = if isCronjob config.programs i then PState.sleeping else .blocked
        cases hp : c.ptype with
        | cronJob t =>
          rw [if_pos ⟨c, hc, t, hp⟩]; rfl
        | oneshot =>
          rw [if_neg]
          · rfl
          · rintro ⟨c', hc', t, e⟩
            cases hc.symm.trans hc'
            rw [hp] at e; cases e
        | notify =>
          rw [if_neg]
          · rfl
          · rintro ⟨c', hc', t, e⟩
            cases hc.symm.trans hc'
            rw [hp] at e; cases e
      · rw [g5]; rfl
      · rw [g4]; rfl
    · intro p; rw [h4]; rfl
    · intro fd i; rw [h4]; simp [stream]
    · intro fd i; rw [h4]; simp [stream]
    · intro fd; rw [h4]; simp [stream]
  · refine ⟨fun fd y hy => by simp [stream] at hy, ?_, ⟨rfl, rfl, rfl⟩, ?_, ?_⟩
    · simp [world]
    · intro fd hfd; simp [world] at hfd
    · intro p; simp [world, Unreaped]
  · rintro i j ⟨ci, cj, hi, hj, hb | ha⟩ ⟨c, hc, t, ht⟩
    · cases hi.symm.trans hc
      obtain ⟨p, hp⟩ := hgetc i ci hi
      obtain ⟨_, _, _, -, -, -, g, -⟩ := ProcessBuilder.processFrom_ok hp
      exact g ⟨by rw [ht]; rfl, fun e => by rw [e] at hb; cases hb⟩
    · cases hi.symm.trans hc
      exact hn cj (List.mem_iff_getElem?.mpr ⟨j, hj⟩) ci.name ha ci
        (List.mem_iff_getElem?.mpr ⟨i, hi⟩) rfl t ht

theorem loop_good {x : Machine} {config : Config} {m : Manager} (h : x.manager config = .ok m) :
    Good (x.setting config m)
      (fun code w' => Always (Legal (x.setting config m)) w'.log ∧
        ∃ past, w'.log = .exit code :: past) (x.loop m) :=
  start_good x.env (x.world m) (initial h)

theorem loop_legal {x : Machine} {config : Config} {m : Manager} (h : x.manager config = .ok m) :
    Always (Legal (x.setting config m)) (x.loop m).log := by
  have := loop_good h
  cases ho : x.loop m with
  | ok c w => rw [ho] at this; exact this.1
  | panic p w => rw [ho] at this; exact this.2
  | stuck w => rw [ho] at this; exact this

end Machine

end Cinit
