import Verif.Props.Notify
import Verif.Props.DepGraph
import Verif.Props.Main
/-!
# Whether runs are reproducible (C86)

Hash maps of Rust are iterated over in an order that is different each time cinit is started.
-/

namespace Cinit.Props

open Cinit Spec

/-- Two machines on which everything is the same except what depends on the seeds of hash
maps. -/
structure SameButHashing (x y : Machine) : Prop where
  release : y.release = x.release
  uid : y.uid = x.uid
  tree : y.tree = x.tree
  yaml : y.yaml = x.yaml
  surroundings : y.surroundings = x.surroundings
  clock : y.clock = x.clock
  system : y.system = x.system
  numbers : y.numbers = x.numbers
  epoll : y.epoll = x.epoll
  openFds : y.openFds = x.openFds
  zone : y.env.zone = x.env.zone
  rfc3339 : y.env.rfc3339 = x.env.rfc3339
  answers : y.answers = x.answers

/-- C86 as stated: runs of cinit under the same circumstances are the same. -/
def C86_statement : Prop := ∀ x y : Machine, SameButHashing x y → run y = run x

/-! ## The event loop -/

private theorem readNotification_eq (e e' : Env) : readNotification e = readNotification e' := by
  unfold readNotification
  congr 1
  funext r
  cases r with
  | none => rfl
  | some r =>
    obtain ⟨text, peer⟩ := r
    simp only
    congr 1
    funext w
    rw [C39_same_assignments (e.order w.log) (e'.order w.log) w.mgr peer (fun _ _ => rfl)]

private theorem formatPrograms_eq {e e' : Env} (h : e'.rfc3339 = e.rfc3339) (m : Manager) (id : Nat)
    (ps : List Process) : m.formatPrograms e' id ps = m.formatPrograms e id ps := by
  induction ps generalizing id with
  | nil => rfl
  | cons p ps ih =>
    simp only [Manager.formatPrograms, ih]
    congr 1
    unfold Manager.formatProgram
    rw [h]

private theorem reportStatus_eq {e e' : Env} (h : e'.rfc3339 = e.rfc3339) :
    reportStatus e' = reportStatus e := by
  have : ∀ m : Manager, m.formatReport e' = m.formatReport e := fun m => by
    unfold Manager.formatReport
    rw [formatPrograms_eq h]
  unfold reportStatus
  simp only [this]

private theorem dispatchEpoll_eq {e e' : Env} (h : e'.rfc3339 = e.rfc3339) :
    dispatchEpoll e' = dispatchEpoll e := by
  have : handleEvent e' = handleEvent e := by
    funext ev
    unfold handleEvent
    rw [reportStatus_eq h, readNotification_eq e' e]
  unfold dispatchEpoll
  rw [this]

private theorem spawnCronjobs_eq {e e' : Env} (h : e'.zone = e.zone) (n : Nat) :
    spawnCronjobs e' n = spawnCronjobs e n := by
  induction n with
  | zero => rfl
  | succ n ih => simp only [spawnCronjobs, ih, h]

private theorem start_eq {e e' : Env} (hz : e'.zone = e.zone) (h : e'.rfc3339 = e.rfc3339) :
    start e' = start e := by
  have hs : spawnChildren e' = spawnChildren e := by
    unfold spawnChildren
    simp only [spawnCronjobs_eq hz]
  have hm : ∀ n, mainLoop e' n = mainLoop e n := by
    intro n
    induction n with
    | zero => rfl
    | succ n ih => simp only [mainLoop, ih, hs, dispatchEpoll_eq h]
  have hd : ∀ n, shutdownLoop e' n = shutdownLoop e n := by
    intro n
    induction n with
    | zero => rfl
    | succ n ih => simp only [shutdownLoop, ih, dispatchEpoll_eq h]
  unfold start
  simp only [hm, hd]

/-- C86, once the programs are loaded: the run does not depend on hashing any more. Missing: what
comes before. -/
theorem C86_loop_partial {x y : Machine} (h : SameButHashing x y) (m : Manager) :
    y.loop m = x.loop m := by
  unfold Machine.loop Machine.world
  rw [start_eq h.zone h.rfc3339, h.openFds, h.answers]

/-! ## The programs started first -/

private theorem processes_eq {x y : Machine} (h : y.surroundings = x.surroundings)
    (cs : List ProcessConfig) : y.processes cs = x.processes cs := by
  induction cs with
  | nil => rfl
  | cons c cs ih => simp only [Machine.processes, ih, h]

private theorem deps_eq {topo topo' : Toposort} {ord ord' : HashOrder} {config : Config}
    {d d' : DepMgr} (h : buildDependencyManager topo ord config = .ok d)
    (h' : buildDependencyManager topo' ord' config = .ok d') :
    d'.nodes = d.nodes ∧ d'.runnable.Perm d.runnable ∧ d.archive = d.runnable ∧
      d'.archive = d'.runnable := by
  have key : ∀ {topo : Toposort} {ord : HashOrder} {d : DepMgr},
      buildDependencyManager topo ord config = .ok d →
      ∃ nd nodes, DepMgr.buildNameDict (enumerate config.programs) = .ok nd ∧
        DepMgr.buildDependencies (enumerate config.programs) nd = .ok nodes ∧
        d = { runnable := DepMgr.findInitialRunnables ord nodes, nodes := nodes,
              archive := DepMgr.findInitialRunnables ord nodes } := by
    intro topo ord d h
    unfold buildDependencyManager at h
    cases hw : DepMgr.withNodes topo ord (enumerate config.programs) with
    | ok d' =>
      rw [hw] at h
      cases h
      unfold DepMgr.withNodes at hw
      obtain ⟨nd, h1, hw⟩ := Res.bind_eq_ok.mp hw
      obtain ⟨-, -, hw⟩ := Res.bind_eq_ok.mp hw
      obtain ⟨nodes, h3, hw⟩ := Res.bind_eq_ok.mp hw
      obtain ⟨-, -, hw⟩ := Res.bind_eq_ok.mp hw
      cases hw
      exact ⟨nd, nodes, h1, h3, rfl⟩
    | err e =>
      rw [hw] at h
      obtain ⟨-, -, h⟩ := Res.bind_eq_ok.mp h
      cases h
    | panic p => rw [hw] at h; cases h
  obtain ⟨nd, nodes, h1, h2, rfl⟩ := key h
  obtain ⟨nd', nodes', h1', h2', rfl⟩ := key h'
  rw [h1] at h1'
  cases h1'
  rw [h2] at h2'
  cases h2'
  refine ⟨rfl, ?_, rfl, rfl⟩
  exact (((ord'.perm _).trans (ord.perm _).symm).filter _).map _

private theorem deps_ok {topo topo' : Toposort} {ord ord' : HashOrder} {config : Config}
    {d : DepMgr} (h : buildDependencyManager topo ord config = .ok d) :
    ∃ d', buildDependencyManager topo' ord' config = .ok d' := by
  have hu := (buildDependencyManager_ok h).1
  unfold buildDependencyManager at h
  cases hw : DepMgr.withNodes topo ord (enumerate config.programs) with
  | ok d0 =>
    obtain ⟨d', hd'⟩ := (C13_order_independent topo topo' ord ord' hu (.refl _)).mp ⟨_, hw⟩
    exact ⟨d', by unfold buildDependencyManager; rw [hd']⟩
  | err e =>
    rw [hw] at h
    obtain ⟨-, -, h⟩ := Res.bind_eq_ok.mp h
    cases h
  | panic p => rw [hw] at h; cases h

/-- C86: what cinit loads does not depend on hashing either, except for the order in which the
programs without dependencies are started. -/
theorem C86_loaded_partial {x y : Machine} {config : Config} {m : Manager}
    (h : SameButHashing x y) (hm : x.manager config = .ok m) :
    ∃ l, y.manager config = .ok { m with deps := { m.deps with runnable := l, archive := l } } ∧
      l.Perm m.deps.runnable := by
  obtain ⟨h1, h2, h3, h4⟩ := Machine.manager_ok hm
  have h5 := Machine.manager_sockets hm
  have h6 : x.epoll = true := by
    unfold Machine.manager at hm
    rw [h1, Res.bind_ok, h2, h3, h5] at hm
    simp only [Res.bind_ok] at hm
    cases he : x.epoll with
    | true => rfl
    | false => rw [he] at hm; cases hm
  obtain ⟨d', hd'⟩ := deps_ok (topo' := y.topo) (ord' := y.graphOrder) h2
  obtain ⟨e1, e2, e3, e4⟩ := deps_eq h2 hd'
  refine ⟨d'.runnable, ?_, e2⟩
  have h7 : y.sockets = x.sockets := by unfold Machine.sockets; rw [h.system, h.numbers]
  unfold Machine.manager
  rw [processes_eq h.surroundings, h1, Res.bind_ok, hd', h.zone, h.clock, h3, h7, h5,
    h.epoll, h6]
  simp only [Res.bind_ok, if_true]
  rw [h4]
  cases d'
  simp only at e1 e4 ⊢
  rw [e1, e4]

/-- C86, if dependencies leave no choice which program to start first: the same configuration
leads to the same run. -/
theorem C86_one_first_partial {x y : Machine} {config : Config} {e : Ending} {i : Nat}
    (h : SameButHashing x y)
    (hi : ∀ j, j < config.programs.length → (∀ k, ¬ DependsOn config.programs k j) → j = i)
    (he : Ends x config e) : Ends y config e := by
  obtain ⟨m, h1, h2⟩ := he
  obtain ⟨l, h3, h4⟩ := C86_loaded_partial h h1
  obtain ⟨-, hd, -⟩ := Machine.manager_ok h1
  obtain ⟨-, -, -, -, hinv⟩ := buildDependencyManager_ok hd
  have ha : m.deps.archive = m.deps.runnable := (deps_eq hd hd).2.2.1
  have hone : ∀ j ∈ m.deps.runnable, j = i := by
    intro j hj
    rw [← ha] at hj
    have hlt := hinv.archive_lt hj
    exact hi j hlt fun k hk => absurd ((hinv.archive_iff hlt).mp hj k hk) List.not_mem_nil
  have hn : m.deps.runnable.Nodup := by simpa using hinv.queueNodup
  have hl : l = m.deps.runnable := by
    generalize m.deps.runnable = r at h4 hone hn
    match r, hone, hn with
    | [], _, _ => exact h4.eq_nil
    | [a], _, _ => exact h4.eq_singleton
    | a :: b :: r, hone, hn =>
      rw [hone a (by simp), hone b (by simp)] at hn
      simp at hn
  subst hl
  refine ⟨m, ?_, by rw [C86_loop_partial h]; exact h2⟩
  have hd' : ({ m.deps with runnable := m.deps.runnable, archive := m.deps.runnable } : DepMgr) =
      m.deps := by
    generalize m.deps = d at ha
    cases d
    simp only at ha
    subst ha
    rfl
  rw [h3, hd']

/-- Witness: `a` comes before `b`, so that only `a` can be the first. -/
example : Ends (machine twoAnswers) two (.exited 0 twoLog) ∧
    ∀ j, j < two.programs.length → (∀ k, ¬ DependsOn two.programs k j) → j = 0 := by
  refine ⟨two_ends, fun j hj h => ?_⟩
  match j with
  | 0 => rfl
  | 1 => exact absurd ⟨_, _, rfl, rfl, .inl (by decide)⟩ (h 0)
  | j + 2 => exact absurd hj (by simp [two])

/-! ## The order of independent programs -/

/-- Two programs that have nothing to do with each other. -/
def strangers : Config := ⟨[prog 'a' .oneshot, prog 'b' .oneshot]⟩

/-- C86 is false: independent programs are started in an order that is different each time. -/
theorem C86_violated : ¬ C86_statement := by
  intro h
  have hs : SameButHashing (configured strangers [.setup true, .fork (some (10, 20, 21))])
      { configured strangers [.setup true, .fork (some (10, 20, 21))] with graphOrder := .rev } := by
    constructor <;> rfl
  have h := h _ _ hs
  revert h
  decide +kernel

/-- What happens first. -/
example : (run (configured strangers [.setup true, .fork (some (10, 20, 21))])).log =
      [.spawned 0 10 20 21] ∧
    (run { configured strangers [.setup true, .fork (some (10, 20, 21))] with
      graphOrder := .rev }).log = [.spawned 1 10 20 21] := by
  decide +kernel

end Cinit.Props
