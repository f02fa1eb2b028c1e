import Verif.Proofs.Remarks
import Verif.Props.Narration
/-!
# C88, C89, C90: what is in the log before any program is started
-/

namespace Cinit.Props

open Cinit Spec Logging

variable {x : Machine} {h : Herald}

/-- What cinit logs until the event loop starts. -/
def startRecords (h : Herald) (x : Machine) : List Record := (Heralded.prologue h x).2

/-- Before the event loop starts, a run is over or all of its parts are there. -/
theorem start_cases (h : Herald) (x : Machine) :
    (∃ config m, doStartupChecks x.release x.uid = .ok () ∧ Loaded x config ∧
      x.manager config = .ok m ∧ (Heralded.prologue h x).1 = .ok m ∧ run x = (x.loop m).ending) ∨
    (∃ code, (Heralded.prologue h x).1 = .err code ∧ run x = .exited code []) ∨
    (∃ p, (Heralded.prologue h x).1 = .panic p ∧ run x = .aborted p []) := by
  have he := Heralded.prologue_erases h x
  cases hp : (Heralded.prologue h x).1 with
  | err code => rw [hp] at he; exact .inr (.inl ⟨code, rfl, he⟩)
  | panic q => rw [hp] at he; exact .inr (.inr ⟨q, rfl, he⟩)
  | ok m =>
    rw [hp] at he
    rw [Heralded.prologue_fst] at hp
    obtain ⟨u, h1, hp⟩ := Res.bind_eq_ok.mp hp
    obtain ⟨config, h2, hp⟩ := Res.bind_eq_ok.mp hp
    exact .inl ⟨config, m, h1, h2, hp, rfl, he⟩

/-! ## C88: why cinit does not start -/

/-- The exit codes of cinit before programs are started. -/
def EarlyCode (code : Int) : Prop := code = 1 ∨ code = 2 ∨ code = 5

theorem early (h : Herald) {code : Int} {log : Log} (hr : run x = .exited code log)
    (hc : EarlyCode code) : (Heralded.prologue h x).1 = .err code := by
  rcases start_cases h x with ⟨config, m, h1, h2, h3, -, h5⟩ | ⟨c, h1, h2⟩ | ⟨p, h1, h2⟩
  · exfalso
    rw [h5] at hr
    cases ho : x.loop m with
    | ok c w =>
      rw [ho] at hr
      cases hr
      rcases C34_exit_status_partial h3 ho with ⟨rfl, -⟩ | ⟨rfl, -⟩ | ⟨rfl, -⟩ <;>
        rcases hc with h | h | h <;> cases h
    | panic p w => rw [ho] at hr; cases hr
    | stuck w => rw [ho] at hr; cases hr
  · rw [h2] at hr; cases hr; exact h1
  · rw [h2] at hr; cases hr

/-- C88: an exit before programs are started is explained. There are error messages, and they are
the words for faults that are there and have this exit code. -/
theorem C88_explained (h : Herald) {code : Int} {log : Log} (hr : run x = .exited code log)
    (hc : EarlyCode code) :
    ∃ fs : List Fault, fs ≠ [] ∧ (∀ f ∈ fs, f.Present x ∧ f.code = code) ∧
      textsAt .error (startRecords h x) = fs.flatMap (·.words h) := by
  obtain ⟨fs, h1, h2, -, h4⟩ := prologue_tells h x
  obtain ⟨h5, h6⟩ := h4 code (early h hr hc)
  exact ⟨fs, h5, fun f hf => ⟨h1 f hf, h6 f hf⟩, h2⟩

/-- C88: there are words for every fault. -/
theorem C88_words (h : Herald) (f : Fault) : f.words h ≠ [] := by
  cases f <;> simp [Fault.words]

/-- C88: whatever happens, errors before the event loop are the words for faults that are there. -/
theorem C88_true (h : Herald) (x : Machine) {text : Str}
    (ht : text ∈ textsAt .error (startRecords h x)) : ∃ f : Fault, f.Present x ∧ text ∈ f.words h := by
  obtain ⟨fs, h1, h2, -⟩ := prologue_tells h x
  rw [startRecords, h2, List.mem_flatMap] at ht
  obtain ⟨f, hf, ht⟩ := ht
  exact ⟨f, h1 f hf, ht⟩

/-- C88: if the event loop is reached, there was no error. -/
theorem C88_quiet (h : Herald) {config : Config} {m : Manager}
    (hr : doStartupChecks x.release x.uid = .ok ()) (hl : Loaded x config)
    (hm : x.manager config = .ok m) : textsAt .error (startRecords h x) = [] := by
  obtain ⟨fs, -, h2, h3, -⟩ := prologue_tells h x
  have : (Heralded.prologue h x).1 = .ok m := by
    rw [Heralded.prologue_fst, hr, Res.bind_ok]
    rw [show parseConfig x.yaml x.mergeOrder x.tree = .ok config from hl, Res.bind_ok, hm]
  rw [startRecords, h2, h3 m this]
  rfl

/-- The general messages until the event loop. -/
def steps (h : Herald) : List Str :=
  ["Starting up".toList, "Config is at ".toList ++ h.configPath, "Parsing config".toList,
   "Perform analysis on programs".toList, "Spawning processes".toList]

theorem info_texts (h : Herald) (x : Machine) :
    textsAt .info (startRecords h x) = (steps h).take
      (match doStartupChecks x.release x.uid with
      | .ok _ => (match parseConfig x.yaml x.mergeOrder x.tree with
        | .ok config => (match x.manager config with
          | .ok _ => 5
          | _ => 4)
        | _ => 3)
      | _ => 1) := by
  unfold startRecords Heralded.prologue
  rw [textsAt_after, W.bind_snd, textsAt_append, aside_info (doStartupChecks_aside h _ _),
    Heralded.doStartupChecks_fst]
  cases doStartupChecks x.release x.uid with
  | err e => rfl
  | panic p => rfl
  | ok u =>
    dsimp only
    rw [textsAt_after, W.bind_snd, textsAt_append, aside_info (parseConfig_aside h _ _ _),
      Heralded.parseConfig_fst]
    cases parseConfig x.yaml x.mergeOrder x.tree with
    | err e => rfl
    | panic p => rfl
    | ok config =>
      dsimp only
      rw [textsAt_after, W.bind_snd, textsAt_append, aside_info (manager_aside h x config),
        Heralded.manager_fst]
      cases x.manager config with
      | err e => rfl
      | panic p => rfl
      | ok m => rfl

/-- C88: the general messages tell how far cinit got. -/
theorem C88_progress (h : Herald) {log : Log} :
    (run x = .exited 5 log → textsAt .info (startRecords h x) = (steps h).take 1) ∧
    (run x = .exited 1 log → textsAt .info (startRecords h x) = (steps h).take 3) ∧
    (run x = .exited 2 log → textsAt .info (startRecords h x) = (steps h).take 4) ∧
    (∀ config m, doStartupChecks x.release x.uid = .ok () → Loaded x config →
      x.manager config = .ok m → textsAt .info (startRecords h x) = steps h) := by
  have key : ∀ code, (Heralded.prologue h x).1 = .err code →
      textsAt .info (startRecords h x) =
        (steps h).take (if code = 5 then 1 else if code = 1 then 3 else 4) := by
    intro code hp
    rw [info_texts]
    rw [Heralded.prologue_fst] at hp
    rcases C50_checks x.release x.uid with ⟨h1, -⟩ | ⟨h1, -⟩
    · rw [h1] at hp ⊢
      cases hp
      rfl
    · rw [h1] at hp ⊢
      rw [Res.bind_ok] at hp
      cases hl : parseConfig x.yaml x.mergeOrder x.tree with
      | panic q => rw [hl] at hp; cases hp
      | err e =>
        rw [hl] at hp
        cases hp
        rw [(parseConfig_err hl).1]
        rfl
      | ok config =>
        rw [hl, Res.bind_ok] at hp
        dsimp only
        rw [hp]
        rw [(manager_err (Loaded.unique hl) hp).1]
        rfl
  refine ⟨fun hr => ?_, fun hr => ?_, fun hr => ?_, fun config m h1 h2 h3 => ?_⟩
  · exact key 5 (early h hr (.inr (.inr rfl)))
  · exact key 1 (early h hr (.inl rfl))
  · exact key 2 (early h hr (.inr (.inl rfl)))
  · rw [info_texts, h1, show parseConfig x.yaml x.mergeOrder x.tree = .ok config from h2]
    dsimp only
    rw [h3]
    rfl

/-- C88: faults in the dependencies, in the timers and with the sockets are reported together. -/
theorem C88_together (h : Herald) {log : Log} {config : Config} (hr : run x = .exited 2 log)
    (hl : Loaded x config) (hb : ∀ c ∈ config.programs, ¬ Unbuildable x.surroundings c) :
    ∃ deps timers socks : List Fault,
      textsAt .error (startRecords h x) = (deps ++ timers ++ socks).flatMap (·.words h) ∧
      (∀ f ∈ deps, f.InDependencies ∧ f.Present x) ∧
      (deps = [] ↔ RefsKnown config.programs ∧ NoAfterCron config.programs ∧
        Acyclic config.programs) ∧
      (∀ f ∈ timers, (∃ n why, f = .timer n why) ∧ f.Present x) ∧
      (timers = [] ↔ ∀ c ∈ config.programs, ∀ expr why, c.ptype = .cronJob expr →
        ¬ TimerWrong expr why) ∧
      (∀ f ∈ socks, (∃ e, f = .sockets e) ∧ f.Present x) ∧
      (socks = [] ↔ x.sockets ≠ none) ∧ socks.length ≤ 1 := by
  have hp := early h hr (.inr (.inl rfl))
  have hp' := hp
  rw [Heralded.prologue_fst] at hp
  rcases C50_checks x.release x.uid with ⟨h1, -⟩ | ⟨h1, -⟩
  · rw [h1] at hp; cases hp
  rw [h1, Res.bind_ok, show parseConfig x.yaml x.mergeOrder x.tree = .ok config from hl,
    Res.bind_ok] at hp
  have hprocs : ∃ procs, x.processes config.programs = .ok procs := by
    cases hpr : x.processes config.programs with
    | ok procs => exact ⟨procs, rfl⟩
    | err e =>
      obtain ⟨-, c, hc, hu⟩ := processes_err hpr
      exact absurd hu (hb c hc)
    | panic q =>
      unfold Machine.manager at hp
      rw [hpr] at hp
      cases hp
  obtain ⟨procs, hprocs⟩ := hprocs
  obtain ⟨deps, timers, socks, ho, ht, -⟩ := manager_overall h (x := x) hl hl.unique hprocs
  have hnp : ¬ ∃ q, buildCron x.env.zone config x.clock = .panic q := by
    rintro ⟨q, hq⟩
    unfold Machine.manager at hp
    rw [hprocs, Res.bind_ok, hq] at hp
    cases hd : buildDependencyManager x.topo x.graphOrder config with
    | panic q' => rw [hd] at hp; cases hp
    | ok d => rw [hd] at hp; cases hp
    | err e => rw [hd] at hp; cases hp
  have htimers := ho.noTimers.resolve_left hnp
  have hsocks := ho.noSockets.resolve_left hnp
  have hdeps : (∃ d, buildDependencyManager x.topo x.graphOrder config = .ok d) ↔
      RefsKnown config.programs ∧ NoAfterCron config.programs ∧ Acyclic config.programs := by
    rw [← (C13_accept_iff x.topo x.graphOrder hl.unique).1]
    unfold buildDependencyManager
    constructor
    · rintro ⟨d, hd⟩
      cases hw : DepMgr.withNodes x.topo x.graphOrder (enumerate config.programs) with
      | ok d' => exact ⟨d', rfl⟩
      | err e =>
        rw [hw] at hd
        obtain ⟨u, -, hh⟩ := Res.bind_eq_ok.mp hd
        cases hh
      | panic q => rw [hw] at hd; cases hd
    · rintro ⟨d, hd⟩
      rw [hd]
      exact ⟨d, rfl⟩
  have hcron : (∃ c, buildCron x.env.zone config x.clock = .ok c) ↔
      ∀ c ∈ config.programs, ∀ expr why, c.ptype = .cronJob expr → ¬ TimerWrong expr why := by
    constructor
    · rintro ⟨cr, hcr⟩ c hc expr why hx
      obtain ⟨i, hi⟩ := List.getElem?_of_mem hc
      obtain ⟨td, hd⟩ := C51_cron_accepted hcr hi hx
      exact timer_right hd why
    · intro hall
      cases hcr : buildCron x.env.zone config x.clock with
      | ok c => exact ⟨c, rfl⟩
      | panic q => exact absurd ⟨q, hcr⟩ hnp
      | err e =>
        obtain ⟨-, id, pc, desc, msg, h2, h3, h4⟩ := C51_cron_error hcr
        exact absurd (timer_wrong h4) (hall pc (List.mem_of_getElem? h2) desc _ h3)
  refine ⟨deps, timers, socks, ?_, ho.dependencies, ho.noDependencies.trans hdeps, ho.timers,
    htimers.trans hcron, fun f hf => ?_, hsocks⟩
  · unfold startRecords Heralded.prologue
    rw [textsAt_after, textsAt_bind (a := ()) _ (by rw [Heralded.doStartupChecks_fst]; exact h1),
      textsAt_after,
      textsAt_bind (a := config) _ (by rw [Heralded.parseConfig_fst]; exact hl), textsAt_after,
      W.bind_snd, textsAt_append, ht]
    have e1 : textsAt .error (Heralded.doStartupChecks h x.release x.uid).2 = [] := by
      obtain ⟨fs, -, h2, h3, -⟩ := doStartupChecks_tells h x
      rw [h2, h3 () (by rw [Heralded.doStartupChecks_fst]; exact h1)]
      rfl
    have e2 : textsAt .error (Heralded.parseConfig h x.yaml x.mergeOrder x.tree).2 = [] := by
      obtain ⟨fs, -, h2, h3, -⟩ := parseConfig_tells h x
      rw [h2, h3 config (by rw [Heralded.parseConfig_fst]; exact hl)]
      rfl
    rw [e1, e2, Heralded.manager_fst, hp]
    have e3 : ∀ a b : Record, a.level = .info → b.level = .info → textsAt .error [a, b] = [] := by
      intro a b ha hb; simp [textsAt, ha, hb]
    have e4 : ∀ a : Record, a.level = .info → textsAt .error [a] = [] := by
      intro a ha; simp [textsAt, ha]
    rw [e3 _ _ rfl rfl, e4 _ rfl, e4 _ rfl]
    simp
  · obtain ⟨e, rfl, he⟩ := ho.sockets f hf
    exact ⟨⟨e, rfl⟩, he⟩

/-! ### Sockets -/

private theorem sockets_iff (hw : Willing x.system) :
    x.sockets ≠ none ↔ x.system.nodes "/run/cinit.socket".toList ≠ some .directory ∧
      x.system.nodes "/run/cinit-notify.socket".toList ≠ some .directory := by
  rw [← C83_succeeds hw]
  unfold Machine.sockets
  cases Sockets.setupFileDescriptors x.system with
  | ok r s => simp
  | err e s => simp

/-- C83: if the configuration is fine and the kernel does not object on its own account, an exit
with code 2 is due to a directory in the place of a socket, and the only error message says so. -/
theorem C83_blocked (h : Herald) {log : Log} {config : Config} (hr : run x = .exited 2 log)
    (hl : Loaded x config) (hv : ¬ Invalid x.surroundings config.programs)
    (hw : Willing x.system) :
    (x.system.nodes "/run/cinit.socket".toList = some .directory ∨
      x.system.nodes "/run/cinit-notify.socket".toList = some .directory) ∧
    textsAt .error (startRecords h x) = ["Could not setup sockets: ".toList ++ h.socketError 21] := by
  unfold Invalid at hv
  simp only [not_or, not_not] at hv
  obtain ⟨v1, v2, v3, v4, v5⟩ := hv
  obtain ⟨deps, timers, socks, h1, -, h3, -, h5, h6, -, h8⟩ := C88_together h hr hl
    fun c hc hb => v1 ⟨c, hc, hb⟩
  rw [h3.mpr ⟨v2, v3, v4⟩, h5.mpr fun c hc expr why h1 h2 => v5 ⟨c, hc, expr, why, h1, h2⟩] at h1
  obtain ⟨fs, hne, -, hfs⟩ := C88_explained h hr (.inr (.inl rfl))
  obtain ⟨f, hf⟩ := List.exists_mem_of_ne_nil fs hne
  obtain ⟨text, ht⟩ := List.exists_mem_of_ne_nil _ (C88_words h f)
  have hmem : text ∈ textsAt .error (startRecords h x) := by
    rw [hfs]; exact List.mem_flatMap.mpr ⟨f, hf, ht⟩
  match socks, h6, h8 with
  | [], _, _ => rw [h1] at hmem; exact absurd hmem (by simp)
  | [g], h6, _ =>
    obtain ⟨⟨e, rfl⟩, hp⟩ := h6 g (by simp)
    rcases hp with ⟨rfl, hd⟩ | ⟨hn, -⟩
    · exact ⟨hd, h1⟩
    · exact absurd hw hn
  | _ :: _ :: _, _, h8 => simp at h8

/-- C83: if the kernel does not object on its own account, cinit does not start programs while
there is a directory in the place of a socket. Otherwise both sockets are announced. -/
theorem C83_announced (h : Herald) {config : Config} {m : Manager}
    (hc : doStartupChecks x.release x.uid = .ok ()) (hl : Loaded x config)
    (hm : x.manager config = .ok m) :
    (Willing x.system → x.system.nodes "/run/cinit.socket".toList ≠ some .directory ∧
      x.system.nodes "/run/cinit-notify.socket".toList ≠ some .directory) ∧
    ["/run/cinit.socket unix domain socket open".toList,
      "/run/cinit-notify.socket unix domain socket open".toList].Sublist
        (textsAt .debug (startRecords h x)) := by
  refine ⟨fun hw => (sockets_iff hw).mp (manager_valid hm).2.1, ?_⟩
  obtain ⟨h1, h2, h3, -⟩ := Machine.manager_ok hm
  obtain ⟨r, s', hs⟩ : ∃ r s', Sockets.setupFileDescriptors x.system = .ok r s' := by
    have := (manager_valid hm).2.1
    unfold Machine.sockets at this
    cases hs : Sockets.setupFileDescriptors x.system with
    | ok r s' => exact ⟨r, s', rfl⟩
    | err e s' => rw [hs] at this; exact absurd rfl this
  have hmsg := (C83_messages x.system).1 r s' hs
  have hsm : textsAt .debug (Heralded.socketMessages x.system s') =
      ["/run/cinit.socket unix domain socket open".toList,
        "/run/cinit-notify.socket unix domain socket open".toList] := by
    unfold Heralded.socketMessages textsAt
    rw [hmsg, List.drop_left]
    rfl
  unfold startRecords Heralded.prologue
  rw [textsAt_after, textsAt_bind (a := ()) _ (by rw [Heralded.doStartupChecks_fst]; exact hc),
    textsAt_after,
    textsAt_bind (a := config) _ (by rw [Heralded.parseConfig_fst]; exact hl), textsAt_after,
    W.bind_snd, textsAt_append]
  have hmgr : ["/run/cinit.socket unix domain socket open".toList,
      "/run/cinit-notify.socket unix domain socket open".toList].Sublist
        (textsAt .debug (Heralded.manager h x config).2) := by
    unfold Heralded.manager
    rw [textsAt_bind (a := m.procs) _ (by rw [Heralded.processes_fst]; exact h1), textsAt_after]
    have hd := Heralded.buildDependencyManager_fst x.topo x.graphOrder config
    have hcr := Heralded.buildCron_fst x.env config x.clock
    rw [h2] at hd
    rw [h3] at hcr
    simp only [hd, hcr, hs, W.after_snd, textsAt_append, hsm]
    exact (((List.sublist_append_left _ _).trans (List.sublist_append_right _ _)).trans
      (List.sublist_append_right _ _)).trans (List.sublist_append_right _ _)
  repeat first
    | exact hmgr
    | exact hmgr.trans (List.sublist_append_left _ _)
    | refine List.Sublist.trans ?_ (List.sublist_append_right _ _)

/-- C83: even if cinit gives up, be it that only the second socket cannot be set up or that the
configuration makes no sense, the log says that there is the first socket. -/
theorem C83_halfway (h : Herald) {log : Log} {config : Config} (hr : run x = .exited 2 log)
    (hl : Loaded x config) (hb : ∀ c ∈ config.programs, ¬ Unbuildable x.surroundings c)
    (hw : Willing x.system)
    (hd : x.system.nodes "/run/cinit.socket".toList ≠ some .directory) :
    ["/run/cinit.socket unix domain socket open".toList].Sublist
        (textsAt .debug (startRecords h x)) := by
  have hp := early h hr (.inr (.inl rfl))
  rw [Heralded.prologue_fst] at hp
  rcases C50_checks x.release x.uid with ⟨hc, -⟩ | ⟨hc, -⟩
  · rw [hc] at hp; cases hp
  rw [hc, Res.bind_ok, show parseConfig x.yaml x.mergeOrder x.tree = .ok config from hl,
    Res.bind_ok] at hp
  obtain ⟨procs, h1⟩ : ∃ procs, x.processes config.programs = .ok procs := by
    cases hpr : x.processes config.programs with
    | ok procs => exact ⟨procs, rfl⟩
    | err e =>
      obtain ⟨-, c, hc, hu⟩ := processes_err hpr
      exact absurd hu (hb c hc)
    | panic q =>
      unfold Machine.manager at hp
      rw [hpr] at hp
      cases hp
  have hmgr : ["/run/cinit.socket unix domain socket open".toList].Sublist
        (textsAt .debug (Heralded.manager h x config).2) := by
    have hsm : ∀ s' : Sockets.State,
        ["/run/cinit.socket unix domain socket open".toList] <+: s'.messages.drop x.system.messages.length →
        ["/run/cinit.socket unix domain socket open".toList].Sublist
          (textsAt .debug (Heralded.socketMessages x.system s')) := by
      rintro s' ⟨rest, hrest⟩
      unfold Heralded.socketMessages textsAt
      rw [← hrest]
      generalize "/run/cinit.socket unix domain socket open".toList = t
      simp
    unfold Machine.manager at hp
    rw [h1, Res.bind_ok] at hp
    unfold Heralded.manager
    rw [textsAt_bind (a := procs) _ (by rw [Heralded.processes_fst]; exact h1), textsAt_after]
    have hdd := Heralded.buildDependencyManager_fst x.topo x.graphOrder config
    have hcr := Heralded.buildCron_fst x.env config x.clock
    have hnd : ∀ q, buildDependencyManager x.topo x.graphOrder config ≠ .panic q := by
      intro q hq
      rw [hq] at hp
      cases hp
    have hnc : ∀ q, buildCron x.env.zone config x.clock ≠ .panic q := by
      intro q hq
      rw [hq] at hp
      cases hd : buildDependencyManager x.topo x.graphOrder config <;> rw [hd] at hp <;> cases hp
    clear hp
    have hm : ["/run/cinit.socket unix domain socket open".toList].Sublist
        (textsAt .debug (Heralded.socketMessages x.system
          (match Sockets.setupFileDescriptors x.system with
            | .ok _ s | .err _ s => s))) := by
      cases hs : Sockets.setupFileDescriptors x.system with
      | ok r s' =>
        refine hsm s' ?_
        rw [(C83_messages x.system).1 r s' hs, List.drop_left]
        exact ⟨[_], rfl⟩
      | err e s' =>
        refine hsm s' ?_
        rw [C83_first hs hw hd, List.drop_left]
    cases hs : Sockets.setupFileDescriptors x.system <;> rw [hs] at hm <;>
      cases hd : buildDependencyManager x.topo x.graphOrder config <;>
      cases hc : buildCron x.env.zone config x.clock <;>
      first
      | exact absurd hd (hnd _)
      | exact absurd hc (hnc _)
      | rw [hd] at hdd; rw [hc] at hcr
        simp only [hdd, hcr, hs, W.after_snd, textsAt_append]
        exact ((hm.trans (List.sublist_append_left _ _)).trans (List.sublist_append_right _ _)).trans
          ((List.sublist_append_right _ _).trans (List.sublist_append_right _ _))
  unfold startRecords Heralded.prologue
  rw [textsAt_after, textsAt_bind (a := ()) _ (by rw [Heralded.doStartupChecks_fst]; exact hc),
    textsAt_after,
    textsAt_bind (a := config) _ (by rw [Heralded.parseConfig_fst]; exact hl), textsAt_after,
    W.bind_snd, textsAt_append]
  repeat first
    | exact hmgr
    | exact hmgr.trans (List.sublist_append_left _ _)
    | refine List.Sublist.trans ?_ (List.sublist_append_right _ _)

/-- C10: when cinit starts its programs, there is a socket at the path every notify program gets as
`NOTIFY_SOCKET`, everybody may send to it, and the kernel tells who it was. -/
theorem C10_there {config : Config} {m : Manager} (hm : x.manager config = .ok m) :
    ∃ signals status notify s', Sockets.setupFileDescriptors x.system = .ok (signals, status, notify) s' ∧
      ∀ (i : Nat) (c : ProcessConfig) (p : Process), config.programs[i]? = some c →
        m.procs[i]? = some p → c.ptype = .notify →
        ∃ path, EnvHas p.env notifyVar path ∧ Offered s' path notify false := by
  obtain ⟨h1, -, -, -⟩ := Machine.manager_ok hm
  have hn := (manager_valid hm).2.1
  unfold Machine.sockets at hn
  cases hs : Sockets.setupFileDescriptors x.system with
  | err e s' => rw [hs] at hn; exact absurd rfl hn
  | ok r s' =>
    obtain ⟨signals, status, notify⟩ := r
    refine ⟨signals, status, notify, s', rfl, fun i c p hc hp ht => ?_⟩
    obtain ⟨hlen, hall⟩ := List.forall₂_iff_get.mp (Machine.processes_ok h1)
    obtain ⟨hi, rfl⟩ := List.getElem?_eq_some_iff.mp hc
    obtain ⟨hj, rfl⟩ := List.getElem?_eq_some_iff.mp hp
    exact ⟨_, C10_always (hall i hi hj) ht, (C83_offered hs).2.1⟩

/-! ### On the console -/

/-- The messages until the event loop, with some times. -/
def Started (h : Herald) (x : Machine) (rs : List (Time × Record)) : Prop :=
  rs.map (·.2) = startRecords h x

/-- What is to be shown for a message. -/
def shown (r : Record) : Shown := ⟨r.level.show, "cinit".toList, r.message⟩

theorem started_targets {rs : List (Time × Record)} (hs : Started h x rs) :
    ∀ r ∈ rs, r.2.target ∈ startTargets := by
  intro r hr
  have : r.2 ∈ startRecords h x := by rw [← hs]; exact List.mem_map_of_mem hr
  exact prologue_each h x _ this

theorem start_line (t : Time) (r : Record) :
    readLine (startLine t r) = some (shown r) ∧ ('\n' ∉ r.message → '\n' ∉ startLine t r) := by
  have hv : view (.own r.target (.fixed r.level r.message)) = shown r := rfl
  rw [startLine_eq]
  refine ⟨?_, fun hn => newline_not_mem_lineOf t ?_ ?_⟩
  · rw [readLine_lineOf t, hv]
    rw [hv]
    show ']' ∉ "cinit".toList
    decide
  · rw [hv]
    show '\n' ∉ "cinit".toList
    decide
  · rw [hv]
    exact hn

theorem logLines_lines {α : Type} (f : α → Str) {l : List α} (h : ∀ a ∈ l, '\n' ∉ f a) (rest : Str) :
    logLines ((l.flatMap fun a => f a ++ ['\n']) ++ rest) = l.map f ++ logLines rest := by
  induction l with
  | nil => rfl
  | cons a l ih =>
    rw [List.flatMap_cons, List.append_assoc, List.append_assoc, List.singleton_append,
      logLines_line (h a (List.mem_cons_self ..)),
      ih fun b hb => h b (List.mem_cons_of_mem _ hb), List.map_cons, List.cons_append]

attribute [local irreducible] initialise startLine readLine shown in
theorem start_lines {rs : List (Time × Record)} (hs : Started h x rs) {v : Nat}
    (hn : ∀ r ∈ rs, wanted v r.2.level → '\n' ∉ r.2.message) (rest : Str) :
    (logLines (consoleOf v .stdout rs ++ rest)).map readLine =
      (rs.filter (fun r => wanted v r.2.level)).map (fun r => some (shown r.2)) ++
        (logLines rest).map readLine := by
  rw [consoleOf_start v .stdout (started_targets hs), if_pos rfl,
    logLines_lines (fun r : Time × Record => startLine r.1 r.2), List.map_append, List.map_map]
  · congr 1
    exact List.map_congr_left fun r _ => (start_line r.1 r.2).1
  · intro r hr
    obtain ⟨h1, h2⟩ := List.mem_filter.mp hr
    exact (start_line r.1 r.2).2 (hn r h1 h2)

/-- C88: the messages are on the standard output, one in each line if they have no line feeds;
nothing is on the standard error. -/
theorem C88_shown {rs : List (Time × Record)} (hs : Started h x rs) {v : Nat}
    (hn : ∀ r ∈ rs, wanted v r.2.level → '\n' ∉ r.2.message) :
    consoleOf v .stderr rs = [] ∧
    (logLines (consoleOf v .stdout rs)).map readLine =
      (rs.filter (fun r => wanted v r.2.level)).map (fun r => some (shown r.2)) := by
  refine ⟨by rw [consoleOf_start v .stderr (started_targets hs)]; rfl, ?_⟩
  have := start_lines hs hn []
  simpa [logLines] using this

/-- The messages of a level a reader of the log finds. -/
def readAt (level : Str) (log : Str) : List Str :=
  (logLines log).filterMap fun l =>
    match readLine l with
    | some s => if s.level = level then some s.message else none
    | none => none

theorem level_show_inj {a b : Level} (h : a.show = b.show) : a = b := by
  cases a <;> cases b <;> first | rfl | exact absurd h (by decide)

/-- C88: errors are shown however quiet cinit is to be. -/
theorem C88_errors_shown {rs : List (Time × Record)} (hs : Started h x rs) {v : Nat}
    (hn : ∀ r ∈ rs, wanted v r.2.level → '\n' ∉ r.2.message) {level : Level}
    (hl : wanted v level = true) :
    readAt level.show (consoleOf v .stdout rs) = textsAt level (startRecords h x) := by
  have e : readAt level.show (consoleOf v .stdout rs) =
      ((logLines (consoleOf v .stdout rs)).map readLine).filterMap fun o =>
        match o with
        | some s => if s.level = level.show then some s.message else none
        | none => none := by
    rw [List.filterMap_map]
    rfl
  rw [e, (C88_shown hs hn).2, ← hs, List.filterMap_map]
  clear e hs hn
  have hf : ∀ l : List Record, (l.filter (fun r => wanted v r.level)).filterMap (fun r =>
      if r.level.show = level.show then some r.message else none) = textsAt level l := by
    intro l
    induction l with
    | nil => rfl
    | cons r l ih =>
      unfold textsAt at ih ⊢
      by_cases hr : r.level = level
      · simp [hl, hr, ih]
      · have hr' : r.level.show ≠ level.show := fun he => hr (level_show_inj he)
        by_cases hw : wanted v r.level = true
        · simp [hw, hr, hr', ih]
        · simp [hw, hr, ih]
  rw [← hf, List.filter_map, List.filterMap_map]
  rfl

theorem consoleOf_append (v : Nat) (s : Stream) (a b : List (Time × Record)) :
    consoleOf v s (a ++ b) = consoleOf v s a ++ consoleOf v s b := List.flatMap_append

theorem consoleOf_entries (v : Nat) (s : Stream) (es : List (Time × Entry)) :
    consoleOf v s (es.map fun e => (e.1, e.2.record)) = console v s es := by
  unfold consoleOf console
  rw [List.flatMap_map]

/-- C77 for the whole log. If what is shown from before the event loop has no line feeds, a reader
finds under the name of a program exactly its lines. -/
theorem C77_whole_partial {config : Config} {m : Manager} {voice : Voice}
    (hm : x.manager config = .ok m) {rs : List (Time × Record)} (hs : Started h x rs)
    {es : List (Time × Entry)} (hl : Logged x voice m es)
    (hf : ∀ c ∈ config.programs, FineName c.name) {v : Nat} (hv : v ≠ 1 ∧ v ≠ 2)
    (hn : ∀ r ∈ rs, wanted v r.2.level → '\n' ∉ r.2.message)
    {c : ProcessConfig} (hc : c ∈ config.programs) (out : Bool) :
    messagesUnder c.name (consoleOf v (streamFor out) (rs ++ es.map fun e => (e.1, e.2.record))) =
      linesLogged c.name out (x.loop m).log := by
  rw [← C77_program_partial hm hl hf hv hc out, consoleOf_append, consoleOf_entries]
  cases out with
  | false => rw [show streamFor false = .stderr from rfl, (C88_shown hs hn).1, List.nil_append]
  | true =>
    have e : ∀ log, messagesUnder c.name log = ((logLines log).map readLine).filterMap fun o =>
        match o with
        | some s => if s.name = c.name then some s.message else none
        | none => none := by
      intro log
      rw [List.filterMap_map]
      rfl
    rw [show streamFor true = .stdout from rfl, e, e, start_lines hs hn, List.filterMap_append]
    have : (List.map (fun r : Time × Record => some (shown r.2))
        (rs.filter (fun r => wanted v r.2.level))).filterMap (fun o : Option Shown =>
        match o with
        | some s => if s.name = c.name then some s.message else none
        | none => none) = [] := by
      rw [List.filterMap_eq_nil_iff]
      intro o ho
      obtain ⟨r, -, rfl⟩ := List.mem_map.mp ho
      exact if_neg fun he => (hf c hc).2.2 he.symm
    rw [this, List.nil_append]

/-! ### Witnesses -/

/-- Some herald. -/
def plainHerald : Herald where
  configPath := "/etc/cinit.d".toList
  unameError := "ENOSYS: Function not implemented".toList
  path p := '/' :: p.flatMap showNat
  failure _ := .content
  ioError _ := "Permission denied".toList
  yamlError t := "no yaml: ".toList ++ t
  teraError _ _ raw := raw
  socketError e := if e = 21 then "EISDIR: Is a directory".toList else showNat e

/-- A machine with faults in the dependencies, a timer and the sockets. -/
def faulty : Machine :=
  blocked ⟨[prog 'a' .oneshot [['b']], prog 'c' (.cronJob "* * * * 7".toList)]⟩

/-- Witness for `C88_explained`, `C88_progress` and `C88_together`. -/
example : run faulty = .exited 2 [] ∧
    textsAt .error (startRecords plainHerald faulty) =
      ["Unknown 'before' dependency 'b' of program a",
       "Timer parse error for program 'c': Invalid range in timer spec",
       "Could not setup sockets: EISDIR: Is a directory"].map String.toList ∧
    textsAt .info (startRecords plainHerald faulty) =
      ["Starting up", "Config is at /etc/cinit.d", "Parsing config",
       "Perform analysis on programs"].map String.toList := by
  decide +kernel

/-- Witness for `C83_blocked`. -/
example : run (blocked two) = .exited 2 [] ∧ Willing (blocked two).system ∧
    textsAt .error (startRecords plainHerald (blocked two)) =
      ["Could not setup sockets: EISDIR: Is a directory".toList] := by
  refine ⟨by decide +kernel, fun _ ha => (List.not_mem_nil ha).elim, by decide +kernel⟩

/-- Witness for `C83_halfway`: only the second socket cannot be set up. -/
example : ∃ x : Machine, run x = .exited 2 [] ∧ Loaded x two ∧
    (∀ c ∈ two.programs, ¬ Unbuildable x.surroundings c) ∧ Willing x.system ∧
    x.system.nodes "/run/cinit.socket".toList ≠ some .directory ∧
    (textsAt .debug (startRecords plainHerald x)).getLast? =
      some "/run/cinit.socket unix domain socket open".toList := by
  refine ⟨{ configured two [] with
            system := { nodes := fun p => if p = "/run/cinit-notify.socket".toList
                                          then some .directory else none } },
    by decide +kernel, rfl, ?_, fun _ ha => (List.not_mem_nil ha).elim,
    by decide +kernel, by decide +kernel⟩
  exact processes_ok_iff (x := configured two []) rfl

/-- Witness for `C88_shown`: there are no line feeds in what is shown without `-v`. -/
example : Started plainHerald faulty ((startRecords plainHerald faulty).map fun r => (someTime, r)) ∧
    (∀ r ∈ startRecords plainHerald faulty, wanted 0 r.level → '\n' ∉ r.message) ∧
    readAt "ERROR".toList (consoleOf 0 .stdout
      ((startRecords plainHerald faulty).map fun r => (someTime, r))) =
      textsAt .error (startRecords plainHerald faulty) := by
  refine ⟨by simp [Started, List.map_map, Function.comp_def], ?_, ?_⟩ <;> decide +kernel

/-! ## C89: warnings -/

/-- C89: the warnings of a run that reaches the event loop, exactly: about a kernel version that
cannot be found out, about files that are neither files nor directories, once each, and about
programs in the order of the configuration. -/
theorem C89_warnings (h : Herald) {config : Config} {m : Manager}
    (hc : doStartupChecks x.release x.uid = .ok ()) (hl : Loaded x config)
    (hm : x.manager config = .ok m) :
    ∃ (kernel : List Str) (files : List (List Nat)) (users : List User),
      KernelRemarks h x.release kernel ∧
      files.Nodup ∧ (∀ pos, pos ∈ files ↔ nodeAt x.tree pos = some .other) ∧
      List.Forall₂ (fun c u => Resolved x.surroundings.userById x.surroundings.userByName
        c.uid c.user u) config.programs users ∧
      textsAt .warn (startRecords h x) = kernel ++
        files.map (fun pos => "Ignoring file ".toList ++ h.path pos.reverse) ++
        (config.programs.zip users).flatMap fun cu => programRemarks h x.surroundings cu.2 cu.1 := by
  obtain ⟨users, hu, ht⟩ := manager_warn h hm
  have hk : checkKernelVersion x.release = .ok () := by
    unfold doStartupChecks at hc
    obtain ⟨u, h1, -⟩ := Res.bind_eq_ok.mp hc
    exact h1
  refine ⟨_, othersOf x.tree, users, checkKernelVersion_warn h x.release hk, othersOf_nodup _,
    fun pos => mem_othersOf _ pos, hu, ?_⟩
  unfold startRecords Heralded.prologue
  rw [textsAt_after, textsAt_bind (a := ()) _ (by rw [Heralded.doStartupChecks_fst]; exact hc),
    textsAt_after,
    textsAt_bind (a := config) _ (by rw [Heralded.parseConfig_fst]; exact hl), textsAt_after,
    textsAt_bind (a := m) _ (by rw [Heralded.manager_fst]; exact hm), textsAt_after, ht,
    parseConfig_warn h hl]
  have e1 : textsAt .warn (Heralded.doStartupChecks h x.release x.uid).2 =
      textsAt .warn (Heralded.checkKernelVersion h x.release).2 := by
    unfold Heralded.doStartupChecks
    rw [textsAt_bind (a := ()) _ (by rw [Heralded.checkKernelVersion_fst]; exact hk)]
    have : textsAt .warn (Heralded.checkUser x.uid).2 = [] := by
      unfold Heralded.checkUser
      split <;> rfl
    rw [this, List.append_nil]
  rw [e1]
  have e3 : ∀ a b : Record, a.level = .info → b.level = .info → textsAt .warn [a, b] = [] := by
    intro a b ha hb; simp [textsAt, ha, hb]
  have e4 : ∀ a : Record, a.level = .info → textsAt .warn [a] = [] := by
    intro a ha; simp [textsAt, ha]
  rw [e3 _ _ rfl rfl, e4 _ rfl, e4 _ rfl, e4 _ rfl]
  simp only [List.nil_append, List.append_assoc, W.ret, textsAt, List.filter_nil, List.map_nil,
    List.append_nil]
  rfl

theorem resolved_unique {α : Type} {byId : Nat → Option α} {byName : Str → Option α}
    {i : Option Nat} {n : Option Str} {a b : α} (ha : Resolved byId byName i n a)
    (hb : Resolved byId byName i n b) : a = b := by
  cases i <;> cases n <;> simp only [Resolved] at ha hb
  all_goals exact Option.some.inj (ha.symm.trans hb)

/-- Remarks about a program are in the log. -/
theorem remarks_logged (h : Herald) {config : Config} {m : Manager}
    (hc : doStartupChecks x.release x.uid = .ok ()) (hl : Loaded x config)
    (hm : x.manager config = .ok m) {c : ProcessConfig} (hcp : c ∈ config.programs) {user : User}
    (hu : Resolved x.surroundings.userById x.surroundings.userByName c.uid c.user user) :
    ∀ t ∈ programRemarks h x.surroundings user c, t ∈ textsAt .warn (startRecords h x) := by
  obtain ⟨kernel, files, users, -, -, -, hf, ht⟩ := C89_warnings h hc hl hm
  intro t htm
  rw [ht]
  refine List.mem_append_right _ (List.mem_flatMap.mpr ?_)
  obtain ⟨i, hi, rfl⟩ := List.getElem_of_mem hcp
  have hlen := hf.length_eq
  have hr := hf.get hi (hlen ▸ hi)
  simp only [List.get_eq_getElem] at hr
  have e := resolved_unique hr hu
  refine ⟨(config.programs[i], users[i]'(hlen ▸ hi)), ?_, ?_⟩
  · rw [List.mem_iff_getElem]
    exact ⟨i, by simp [← hlen, hi], by simp⟩
  · dsimp only
    rw [e]
    exact htm

theorem argRemark_mem (h : Herald) (render : Str → (Str → Option Str) → Str → Option Str)
    (context : Str → Option Str) {args : List Str} {i k : Nat} {raw t : Str}
    (hi : args[i]? = some raw)
    (ht : t ∈ argRemark h (k + i) context raw (render (argTitle (k + i)) context raw)) :
    t ∈ argRemarks h render context k args := by
  induction args generalizing i k with
  | nil => simp at hi
  | cons a args ih =>
    unfold argRemarks
    cases i with
    | zero =>
      simp only [List.getElem?_cons_zero, Option.some.injEq] at hi
      subst hi
      exact List.mem_append_left _ ht
    | succ i =>
      refine List.mem_append_right _ (ih (i := i) (k := k + 1) (by simpa using hi) ?_)
      rw [show k + 1 + i = k + (i + 1) by omega]
      exact ht

/-- The warning about an argument that cannot be rendered. -/
def argFailed (h : Herald) (i : Nat) (context : Str → Option Str) (raw : Str) : Str :=
  "Templating of argument ".toList ++ showNat i ++ (" failed. cinit will use raw value\n".toList ++
    h.teraError (['A', 'r', 'g', 'u', 'm', 'e', 'n', 't', ' '] ++ showNat i) context raw)

/-- The warning about an argument with braces after rendering. -/
def argOdd (i : Nat) (v : Str) : Str :=
  "Argument ".toList ++ showNat i ++ (" looks like a tera template but has value '".toList ++
    (v ++ "' after instantiation. cinit will use raw value".toList))

/-- The warning about a variable that cannot be rendered. -/
def envFailed (h : Herald) (k : Str) (context : Str → Option Str) (raw : Str) : Str :=
  "Templating of environment variable ".toList ++ k ++
    (" failed. cinit will use raw value\n".toList ++ h.teraError k context raw)

/-- The warning about a variable with braces after rendering. -/
def envOdd (k v : Str) : Str :=
  "Environment variable ".toList ++ k ++ (" looks like a tera template but has value '".toList ++
    (v ++ "' after instantiation. cinit will use raw value".toList))

/-- C89 in full: where a warning says that the raw value of an argument is used, it is. -/
def C89_statement : Prop :=
  ∀ (h : Herald) (x : Machine) (c : ProcessConfig) (m : Manager) (p : Process),
    doStartupChecks x.release x.uid = .ok () → Loaded x ⟨[c]⟩ → x.manager ⟨[c]⟩ = .ok m →
    ProcessBuilder.processFrom x.surroundings c = .ok p → ∀ i context raw v,
    argFailed h i context raw ∈ textsAt .warn (startRecords h x) ∨
      argOdd i v ∈ textsAt .warn (startRecords h x) →
    p.args[i + 1]? = c.args[i]?

/-- A program with a variable that has a brace, and an argument with the value of this variable. -/
def braced : ProcessConfig :=
  { name := ['a'], path := some ['/', 'a'], ptype := .oneshot, user := some ['u'], group := some ['g'],
    env := [[(['A'], some ['{'])]], args := [['x']] }

/-- C89 is false: an argument of which cinit says that its raw value is used is replaced by what the
template gives. -/
theorem C89_violated : ¬ C89_statement := by
  intro hs
  have hm : ∃ m p, (configured ⟨[braced]⟩ []).manager ⟨[braced]⟩ = .ok m ∧
      ProcessBuilder.processFrom (configured ⟨[braced]⟩ []).surroundings braced = .ok p ∧
      p.args = [['/', 'a'], ['{']] := by
    have h1 : (match (configured ⟨[braced]⟩ []).manager ⟨[braced]⟩ with
      | .ok _ => true
      | _ => false) = true := by decide +kernel
    have h2 : (match ProcessBuilder.processFrom (configured ⟨[braced]⟩ []).surroundings braced with
      | .ok p => decide (p.args = [['/', 'a'], ['{']])
      | _ => false) = true := by decide +kernel
    split at h1
    · split at h2
      · exact ⟨_, _, ‹_›, ‹_›, by simpa using h2⟩
      · cases h2
    · cases h1
  obtain ⟨m, p, hm, hp, ha⟩ := hm
  have := hs plainHerald (configured ⟨[braced]⟩ []) braced m p (by decide +kernel)
    (by unfold Loaded; decide +kernel) hm hp 0 (fun _ => none) [] ['{']
    (.inr (by decide +kernel))
  rw [ha] at this
  revert this
  decide +kernel

/-- C89 for arguments. An argument that cannot be rendered in the environment of its program is
warned about, and passed as it is. If it has braces after rendering, this is warned about, but
what is passed is the rendered text. Missing: that this is the raw text, which is false. -/
theorem C89_arguments_partial (h : Herald) {config : Config} {m : Manager}
    (hc : doStartupChecks x.release x.uid = .ok ()) (hl : Loaded x config)
    (hm : x.manager config = .ok m) {c : ProcessConfig} (hcp : c ∈ config.programs) {p : Process}
    (hp : ProcessBuilder.processFrom x.surroundings c = .ok p) (hn : ProperNames c) :
    ∃ context : Str → Option Str, (∀ k, ProperName k → ∀ v, context k = some v ↔ EnvHas p.env k v) ∧
    ∀ (i : Nat) (raw : Str), c.args[i]? = some raw →
      (x.surroundings.render (argTitle i) context raw = none →
        argFailed h i context raw ∈ textsAt .warn (startRecords h x) ∧ p.args[i + 1]? = some raw) ∧
      (∀ v, x.surroundings.render (argTitle i) context raw = some v →
        ('{' ∈ v ∨ '}' ∈ v → argOdd i v ∈ textsAt .warn (startRecords h x)) ∧
        p.args[i + 1]? = some v) := by
  obtain ⟨user, group, path, hu, -, hpath, -, hf, ⟨args, ha, hargs⟩, -, hpp, -⟩ :=
    ProcessBuilder.processFrom_ok hp
  have hres := ((mapId_spec _ _ _ _).1 _).mp hu
  have hctx : (ProcessBuilder.finalEnv x.surroundings c user).get? =
      environment x.surroundings user c := by
    funext k
    rw [ProcessBuilder.finalEnv_get?]
    rfl
  refine ⟨environment x.surroundings user c, fun k hk v => ?_, fun i raw hi => ?_⟩
  · rw [envHas_iff hn hf hk, hctx]
  · have hx := (ProcessBuilder.convertArgs_ok hargs).2 i raw hi
    rw [Nat.zero_add, hctx] at hx
    change args[i]? = some ((x.surroundings.render (argTitle i) _ raw).getD raw) at hx
    have hpa : p.args[i + 1]? = some ((x.surroundings.render (argTitle i)
        (environment x.surroundings user c) raw).getD raw) := by
      rw [ha, List.getElem?_cons_succ]
      exact hx
    have hin : ∀ t, t ∈ argRemark h i (environment x.surroundings user c) raw
        (x.surroundings.render (argTitle i) (environment x.surroundings user c) raw) →
        t ∈ textsAt .warn (startRecords h x) := by
      intro t ht
      refine remarks_logged h hc hl hm hcp hres t ?_
      unfold programRemarks
      refine List.mem_append_right _ (List.mem_append_right _ ?_)
      exact argRemark_mem h _ _ hi (by rw [Nat.zero_add]; exact ht)
    refine ⟨fun hr => ?_, fun v hr => ⟨fun hv => ?_, ?_⟩⟩
    · rw [hr] at hpa
      refine ⟨hin _ ?_, hpa⟩
      rw [hr]
      exact List.mem_singleton.mpr rfl
    · refine hin _ ?_
      rw [hr]
      unfold argRemark
      dsimp only
      rw [if_pos hv]
      exact List.mem_singleton.mpr rfl
    · rw [hr] at hpa
      exact hpa

theorem envRemark_mem (h : Herald) (getenv : Str → Option Str)
    (render : Str → (Str → Option Str) → Str → Option Str) (dflt : Str → Option Str)
    {later earlier : List (Str × Option Str)} {k raw t : Str}
    (ht : t ∈ envRemark h k (valueAfter getenv render dflt earlier) raw
      (render k (valueAfter getenv render dflt earlier) raw)) :
    t ∈ envRemarks h getenv render dflt (later ++ (k, some raw) :: earlier) := by
  induction later with
  | nil =>
    rw [List.nil_append]
    unfold envRemarks
    exact List.mem_append_right _ ht
  | cons a later ih =>
    obtain ⟨k', v'⟩ := a
    rw [List.cons_append]
    cases v' with
    | none => unfold envRemarks; exact ih
    | some r => unfold envRemarks; exact List.mem_append_left _ ih

/-- C89 for variables, in the same way: an assignment is rendered with the values of the assignments
before it. If it is the last one for its variable, and not that of the notification socket, the
program gets the raw text if it cannot be rendered, else the rendered one. -/
theorem C89_variables_partial (h : Herald) {config : Config} {m : Manager}
    (hc : doStartupChecks x.release x.uid = .ok ()) (hl : Loaded x config)
    (hm : x.manager config = .ok m) {c : ProcessConfig} (hcp : c ∈ config.programs) {p : Process}
    (hp : ProcessBuilder.processFrom x.surroundings c = .ok p) (hn : ProperNames c)
    {before after : List (Str × Option Str)} {k raw : Str}
    (he : c.env.flatten = before ++ (k, some raw) :: after) :
    ∃ context : Str → Option Str,
      (x.surroundings.render k context raw = none →
        envFailed h k context raw ∈ textsAt .warn (startRecords h x)) ∧
      (∀ v, x.surroundings.render k context raw = some v → '{' ∈ v ∨ '}' ∈ v →
        envOdd k v ∈ textsAt .warn (startRecords h x)) ∧
      ((∀ v, (k, v) ∉ after) → ¬ (c.ptype = .notify ∧ k = notifyVar) → ∀ v,
        EnvHas p.env k v ↔ v = (x.surroundings.render k context raw).getD raw) := by
  obtain ⟨user, group, path, hu, -, hpath, -, hf, -⟩ := ProcessBuilder.processFrom_ok hp
  have hres := ((mapId_spec _ _ _ _).1 _).mp hu
  have hrev : c.env.flatten.reverse = after.reverse ++ (k, some raw) :: before.reverse := by
    rw [he]; simp
  refine ⟨valueAfter x.surroundings.getenv x.surroundings.render
    (defaultValue x.surroundings.getenv user.dir user.name) before.reverse, ?_⟩
  generalize hctx : valueAfter x.surroundings.getenv x.surroundings.render
    (defaultValue x.surroundings.getenv user.dir user.name) before.reverse = context
  have hin : ∀ t, t ∈ envRemark h k context raw (x.surroundings.render k context raw) →
      t ∈ textsAt .warn (startRecords h x) := by
    intro t ht
    refine remarks_logged h hc hl hm hcp hres t ?_
    unfold programRemarks
    refine List.mem_append_left _ ?_
    rw [hrev]
    exact envRemark_mem h _ _ _ (by rw [hctx]; exact ht)
  refine ⟨fun hr => hin _ ?_, fun v hr hv => hin _ ?_, fun hlast hk v => ?_⟩
  · rw [hr]; exact List.mem_singleton.mpr rfl
  · rw [hr]
    unfold envRemark
    dsimp only
    rw [if_pos hv]
    exact List.mem_singleton.mpr rfl
  · have hmk : Mentions c.env k := by
      rw [← mentions_iff, he]; exact ⟨some raw, by simp⟩
    rw [envHas_iff hn hf (hn k hmk), ProcessBuilder.finalEnv_get?, if_neg hk, hrev, valueAfter_skip]
    · simp only [valueAfter, if_pos, hctx, Option.some.injEq]
      exact eq_comm
    · rintro ⟨v, hv⟩
      exact hlast v (List.mem_reverse.mp hv)

/-- C89: the value of NOTIFY_SOCKET in the configuration of a program of type notify is warned about,
and it is not used, as the warning says. -/
theorem C89_notify (h : Herald) {config : Config} {m : Manager}
    (hc : doStartupChecks x.release x.uid = .ok ()) (hl : Loaded x config)
    (hm : x.manager config = .ok m) {c : ProcessConfig} (hcp : c ∈ config.programs) {p : Process}
    (hp : ProcessBuilder.processFrom x.surroundings c = .ok p) (hn : ProperNames c)
    (ht : c.ptype = .notify)
    {before after : List (Str × Option Str)} {raw : Str}
    (he : c.env.flatten = before ++ (notifyVar, some raw) :: after) :
    (∀ t ∈ notifyRemark c.name, t ∈ textsAt .warn (startRecords h x)) ∧
    ∀ v, EnvHas p.env notifyVar v ↔ v = notifyPath := by
  obtain ⟨user, group, path, hu, -, hpath, -, hf, -⟩ := ProcessBuilder.processFrom_ok hp
  have hres := ((mapId_spec _ _ _ _).1 _).mp hu
  have hsome : (ownSettings x.surroundings user c notifyVar).isSome = true := by
    unfold ownSettings
    rw [he, List.reverse_append, List.reverse_cons, List.append_assoc, List.singleton_append]
    generalize after.reverse = later
    induction later with
    | nil => simp [valueAfter]
    | cons a later ih =>
      obtain ⟨k', v'⟩ := a
      rw [List.cons_append]
      cases v' with
      | none =>
        unfold valueAfter
        split
        · cases x.surroundings.getenv notifyVar with
          | none => exact ih
          | some w => rfl
        · exact ih
      | some r =>
        unfold valueAfter
        split
        · rfl
        · exact ih
  refine ⟨fun t htm => remarks_logged h hc hl hm hcp hres t ?_, fun v => C10_announced hp hn ht v⟩
  unfold programRemarks
  refine List.mem_append_right _ (List.mem_append_left _ ?_)
  rw [if_pos ⟨ht, hsome⟩]
  exact htm

/-! ## C90: which file -/

/-- C90 in full: if configurations differ in which of their files are malformed, so do the errors. -/
def C90_statement : Prop :=
  ∀ (h : Herald) (x : Machine) (tree : FileTree) (pos : List Nat) (text : Str),
    FileAt x.tree pos text → x.yaml text = none →
    (∀ text', FileAt tree pos text' → x.yaml text' ≠ none) →
    textsAt .error (startRecords h x) ≠ textsAt .error (startRecords h { x with tree := tree })

/-- C90 is false: which of two files is malformed cannot be told from the errors. -/
theorem C90_violated : ¬ C90_statement := by
  intro hs
  refine hs plainHerald
    { configured ⟨[]⟩ [] with
      tree := .dir [.file ['x'], .file ['y']]
      yaml := fun t => if t = ['x'] then none else some ⟨[]⟩ }
    (.dir [.file ['y'], .file ['x']]) [0] ['x'] (.inside (t := .file ['x']) rfl (.here _)) rfl ?_ ?_
  · intro text ht
    cases ht with
    | inside h1 h2 =>
      cases h1
      cases h2
      exact Option.some_ne_none _
  · decide +kernel

/-- C90 for files and directories that cannot be read: there is one error, and it says the path.
Missing: malformed files, for which it is false. -/
theorem C90_unreadable_partial (h : Herald) (hc : doStartupChecks x.release x.uid = .ok ())
    (hu : HasUnreadable x.tree) (hb : ¬ HasBadName x.tree) :
    ∃ pos, nodeAt x.tree pos = some .unreadable ∧
      textsAt .error (startRecords h x) = (Fault.unreadable pos).words h ∧ run x = .exited 1 [] := by
  have hread : readConfig x.tree = .err 1 := by
    rcases readConfig_cases x.tree with ⟨h1, -⟩ | ⟨-, h2⟩ | ⟨h1, -⟩
    · exact absurd hu h1
    · exact h2
    · exact absurd h1 hb
  have hp : (Heralded.parseConfig h x.yaml x.mergeOrder x.tree).1 = .err 1 := by
    rw [Heralded.parseConfig_fst]
    unfold parseConfig
    rw [hread]
    rfl
  rcases readConfig_names h x [] x.tree rfl with ⟨⟨_, h1⟩, -⟩ | ⟨_, h1⟩ | ⟨pos, h1, h2⟩
  · rw [Heralded.readConfig_fst, hread] at h1; cases h1
  · rw [Heralded.readConfig_fst, hread] at h1; cases h1
  · refine ⟨pos, h1, ?_, ?_⟩
    · unfold startRecords Heralded.prologue
      rw [textsAt_after, textsAt_bind (a := ()) _ (by rw [Heralded.doStartupChecks_fst]; exact hc),
        textsAt_after, W.bind_snd, textsAt_append, hp]
      have e1 : textsAt .error (Heralded.doStartupChecks h x.release x.uid).2 = [] := by
        obtain ⟨fs, -, h2, h3, -⟩ := doStartupChecks_tells h x
        rw [h2, h3 () (by rw [Heralded.doStartupChecks_fst]; exact hc)]
        rfl
      have e2 : textsAt .error (Heralded.parseConfig h x.yaml x.mergeOrder x.tree).2 =
          (Fault.unreadable pos).words h := by
        unfold Heralded.parseConfig
        rw [W.bind_snd, textsAt_append, Heralded.readConfig_fst, hread, h2]
        exact List.append_nil _
      have e3 : ∀ a b : Record, a.level = .info → b.level = .info → textsAt .error [a, b] = [] := by
        intro a b ha hb; simp [textsAt, ha, hb]
      have e4 : ∀ a : Record, a.level = .info → textsAt .error [a] = [] := by
        intro a ha; simp [textsAt, ha]
      rw [e1, e2, e3 _ _ rfl rfl, e4 _ rfl]
      simp [textsAt]
    · have he := Heralded.prologue_erases h x
      have : (Heralded.prologue h x).1 = .err 1 := by
        rw [Heralded.prologue_fst, hc, Res.bind_ok]
        rw [Heralded.parseConfig_fst] at hp
        rw [hp]
        rfl
      rw [this] at he
      exact he

/-- The part of an error that says where the fault is. -/
def Fault.place (h : Herald) : Fault → Option Str
  | .unreadable pos => some (match h.failure pos.reverse with
    | .entry => h.path pos.dropLast.reverse
    | _ => h.path pos.reverse)
  | .twice n | .doubled n _ | .cronDropin n | .cronBefore n | .identity n | .noPath n | .cycle n
  | .unknownAfter _ n | .unknownBefore _ n | .afterCron n | .timer n _ => some n
  | .oldKernel | .notRoot | .malformed _ | .sockets _ => none

/-- C90: all other errors about the configuration name the program they are about. -/
theorem C90_named_partial (h : Herald) (x : Machine) {text : Str}
    (ht : text ∈ textsAt .error (startRecords h x)) :
    ∃ f : Fault, f.Present x ∧ text ∈ f.words h ∧
      (∀ place, Fault.place h f = some place → place <:+: text) ∧
      (Fault.place h f = none →
        f = .oldKernel ∨ f = .notRoot ∨ (∃ e, f = .sockets e) ∨ ∃ cs, f = .malformed cs) := by
  obtain ⟨f, h1, h2⟩ := C88_true h x ht
  refine ⟨f, h1, h2, ?_, ?_⟩
  · intro place hp
    cases f <;> simp only [Fault.place, Option.some.injEq] at hp <;> try cases hp
    · rename_i pos
      simp only [Fault.words, List.mem_singleton] at h2
      subst h2
      cases h.failure pos.reverse <;> exact ⟨_, _, rfl⟩
    all_goals
      simp only [Fault.words, List.mem_singleton] at h2
      subst h2
    · exact ⟨_, [], by rw [List.append_nil]⟩
    · exact ⟨_, _, rfl⟩
    · exact ⟨_, _, rfl⟩
    · exact ⟨_, _, rfl⟩
    · exact ⟨_, _, rfl⟩
    · exact ⟨_, _, rfl⟩
    · exact ⟨_, _, rfl⟩
    · rename_i d
      generalize "Unknown 'after' dependency '".toList = a
      generalize "' of program ".toList = b
      exact ⟨a ++ d ++ b, [], by simp⟩
    · rename_i d
      generalize "Unknown 'before' dependency '".toList = a
      generalize "' of program ".toList = b
      exact ⟨a ++ d ++ b, [], by simp⟩
    · exact ⟨_, _, rfl⟩
    · exact ⟨_, _, rfl⟩
  · intro hp
    cases f <;> simp only [Fault.place, reduceCtorEq] at hp <;> simp

/-- Witness for `C90_unreadable_partial` and `C90_named_partial`. -/
example : textsAt .error (startRecords plainHerald
      { configured ⟨[]⟩ [] with tree := .dir [.file [], .dir [.unreadable]] }) =
      ["Failed to read file /01: Permission denied".toList] ∧
    HasUnreadable (.dir [.file [], .dir [.unreadable]]) ∧
    ¬ HasBadName (.dir [.file [], .dir [.unreadable]]) := by
  refine ⟨by decide +kernel, .inside (t := .dir [.unreadable]) (by simp)
    (.inside (t := .unreadable) (by simp) .here), ?_⟩
  intro hb
  cases hb with
  | inside h1 h2 =>
    simp only [List.mem_cons, List.not_mem_nil, or_false] at h1
    rcases h1 with rfl | rfl
    · cases h2
    · cases h2 with
      | inside h1 h2 =>
        simp only [List.mem_cons, List.not_mem_nil, or_false] at h1
        subst h1
        cases h2

end Cinit.Props
