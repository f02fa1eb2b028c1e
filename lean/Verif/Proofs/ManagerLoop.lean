import Verif.Proofs.ManagerReact
/-!
# The event loop: children and the loops
-/

namespace Cinit

open Spec Manager M

variable {X : Setting}

/-! ## `handle_finished_child` -/

/-- The kernel after a child has been reaped. -/
def reaped (k : Kernel) (pid : Int) : Kernel :=
  { k with children := k.children.filter (· ≠ pid) }

theorem reaped_children {m : Manager} {k : Kernel} {l : Log} (h : Kern m k l) (pid rc : Int)
    (who : Option Nat) (p : Int) :
    p ∈ (reaped k pid).children ↔ Unreaped (.waited pid rc who :: l) p := by
  simp only [reaped, List.mem_filter, Unreaped, ← h.children p, ne_eq, decide_eq_true_eq]
  exact And.comm

theorem waited_kern {m : Manager} {k : Kernel} {l : Log} (h : Kern m k l) (pid rc : Int)
    (who : Option Nat) : Kern m (reaped k pid) (.waited pid rc who :: l) :=
  ⟨h.opened, h.own, h.apart, h.epoll, reaped_children h pid rc who⟩

/-- The tables after the main process of a program has terminated. -/
theorem waited_tables {m : Manager} {l : Log} (hl : Always (Legal X) l) (h : Tables X m l)
    {pid rc : Int} {i : Nat} {p : Process} (hp : m.procs[i]? = some p)
    (ho : owner X.programs l pid = some i) {d : DepMgr} {keep : Bool} {code : Int} :
    Tables X { m with
      procs := m.procs.set i { p with state :=
        if rc = 0 then (if p.ptype = .cronjob then .sleeping else .done) else .crashed rc }
      pidDict := m.pidDict.erase pid
      deps := d, keepRunning := keep, exitCode := code } (.waited pid rc (some i) :: l) := by
  refine ⟨?_, ?_, ?_, h.outs, h.errs, h.fdd⟩
  · simpa using h.len
  · intro j p' hp'
    simp only at hp'
    rw [List.getElem?_set] at hp'
    split at hp'
    · rename_i hij
      subst hij
      split at hp'
      · cases hp'
        have hok := h.procs i p hp
        refine ⟨hok.name, hok.notify, hok.cron, ?_, hok.status, hok.pid⟩
        simp only [state, ho, if_true]
        by_cases hc : isCronjob X.programs i
        · simp only [hok.cron.mpr hc, hc, if_true]
          by_cases hr : rc = 0 <;> simp [hr]
        · have : p.ptype ≠ .cronjob := fun e => hc (hok.cron.mp e)
          simp only [this, hc, if_false]
          by_cases hr : rc = 0 <;> simp [hr]
      · cases hp'
    · rename_i hij
      have hok := h.procs j p' hp'
      refine ⟨hok.name, hok.notify, hok.cron, ?_, hok.status, hok.pid⟩
      have : owner X.programs l pid ≠ some j := by rw [ho]; simpa using hij
      simp only [state, if_neg this]
      exact hok.state
  · intro q
    simp only [AMap.get?_erase, owner, h.pids]
    simp only [eq_comm]

theorem waited_terminated {ps : List ProcessConfig} {l : Log} {pid rc : Int} {who : Option Nat}
    {i : Nat} (ho : owner ps l pid = some i) (ok : Bool) (j : Nat) :
    Terminated ps ok j (.waited pid rc who :: l) ↔
      (j = i ∧ (rc = 0 ↔ ok = true)) ∨ Terminated ps ok j l := by
  rw [terminated_cons]
  constructor
  · rintro (⟨_, _, _, h1, h2, h3⟩ | h)
    · cases h1
      rw [ho] at h2; cases h2
      exact .inl ⟨rfl, h3⟩
    · exact .inr h
  · rintro (⟨rfl, h⟩ | h)
    · exact .inl ⟨_, _, _, rfl, ho, h⟩
    · exact .inr h

theorem waited_deps {ex : List Nat} {d d' : DepMgr} {l : Log} {pid rc : Int} {i : Nat}
    (h : DepOk X ex d l) (hi : i < X.programs.length) (ho : owner X.programs l pid = some i)
    (hd : if isCronjob X.programs i then d' = d
      else d.notifyProcessFinished i = .ok d') :
    DepOk X ex d' (.waited pid rc (some i) :: l) := by
  obtain ⟨F, P, h1, h2, h3, h4⟩ := h
  have hfin : ∀ j, Finished X.programs j (.waited pid rc (some i) :: l) ↔
      (j = i ∧ ¬ isCronjob X.programs j) ∨ Finished X.programs j l := by
    intro j
    unfold Finished Completed
    rw [waited_terminated ho, waited_terminated ho]
    have : Announced X.programs j (.waited pid rc (some i) :: l) ↔ Announced X.programs j l := by
      simp [announced_cons]
    rw [this]
    constructor
    · rintro ⟨g1, ((⟨g2, -⟩ | g2) | g2) | ⟨g2, -⟩ | g2⟩
      · exact .inl ⟨g2, g1⟩
      · exact .inr ⟨g1, .inl (.inl g2)⟩
      · exact .inr ⟨g1, .inl (.inr g2)⟩
      · exact .inl ⟨g2, g1⟩
      · exact .inr ⟨g1, .inr g2⟩
    · rintro (⟨rfl, g1⟩ | ⟨g1, (g2 | g2) | g2⟩)
      · refine ⟨g1, ?_⟩
        by_cases hr : rc = 0
        · exact .inl (.inl (.inl ⟨rfl, by simp [hr]⟩))
        · exact .inr (.inl ⟨rfl, by simp [hr]⟩)
      · exact ⟨g1, .inl (.inl (.inr g2))⟩
      · exact ⟨g1, .inl (.inr g2)⟩
      · exact ⟨g1, .inr (.inr g2)⟩
  have hatt : ∀ j, ¬ isCronjob X.programs j → (j ∈ P ↔
      Attempted j (.waited pid rc (some i) :: l) ∨ j ∈ ex) := by
    intro j hj; rw [h3 j hj]; simp [attempted_cons]
  split at hd
  · rename_i hc
    subst hd
    refine ⟨F, P, h1, ?_, hatt, seen_cons (by simp) h4⟩
    intro j
    rw [h2, hfin]
    constructor
    · exact .inr
    · rintro (⟨rfl, g⟩ | g)
      · exact absurd hc g
      · exact g
  · rename_i hc
    obtain ⟨d'', g1, g2, -, -⟩ := DepMgr.notify_ok h1 hi
    rw [g1] at hd; cases hd
    refine ⟨i :: F, P, g2, ?_, hatt, seen_cons (by simp) h4⟩
    intro j
    rw [List.mem_cons, h2, hfin]
    constructor
    · rintro (rfl | g)
      · exact .inl ⟨rfl, hc⟩
      · exact .inr g
    · rintro (⟨g, -⟩ | g)
      · exact .inl g
      · exact .inr g

theorem handleFinishedChild_good (w : World) (k : Kernel) (pid rc : Int)
    (h : Inv X [] w.mgr k w.log) (hk : w.kernel = reaped k pid) (hpos : 0 < pid) :
    Good X (fun _ w' => Post X [] w w') (handleFinishedChild pid rc w) := by
  unfold handleFinishedChild
  simp only [get_bind, processIdForPid, h.tables.pids pid]
  cases ho : owner X.programs w.log pid with
  | none =>
    simp only
    refine ⟨?_, [.waited pid rc none], rfl⟩
    have ht : ∀ ok j, Terminated X.programs ok j (.waited pid rc none :: w.log) ↔
        Terminated X.programs ok j w.log := by
      intro ok j
      rw [terminated_cons]
      constructor
      · rintro (⟨_, _, _, h1, h2, -⟩ | g)
        · cases h1; rw [ho] at h2; cases h2
        · exact g
      · exact .inr
    have hcr : SomeCrash X.programs (.waited pid rc none :: w.log) ↔ SomeCrash X.programs w.log :=
      exists_congr fun i => ht _ i
    have hsh : ShuttingDown X.programs (.waited pid rc none :: w.log) ↔
        ShuttingDown X.programs w.log := by
      unfold ShuttingDown; rw [hcr]; simp [Asked]
    have hown : ∀ q, owner X.programs (.waited pid rc none :: w.log) q =
        owner X.programs w.log q := by
      intro q
      simp only [owner]
      split
      · rename_i e; rw [e, ho]
      · rfl
    have hst : ∀ j, state X.programs (.waited pid rc none :: w.log) j =
        state X.programs w.log j := by
      intro j
      simp only [state]
      rw [if_neg (by rw [ho]; simp)]
    refine ⟨legal_cons h.legal h.calm h.notDue (fun h => h) ⟨hpos, ho.symm⟩, ?_,
      idle_cons (fun _ h => by cases h), ?_, ?_, ?_, ?_, ?_, ?_,
      h.nocron⟩
    · show obligations X.programs (_ :: w.log) = []
      rw [obligations_react h.calm]
      simp [reaction, ho]
    · refine ⟨h.tables.len, fun i p hp => ?_, fun q => ?_, h.tables.outs, h.tables.errs,
        h.tables.fdd⟩
      · have := h.tables.procs i p hp
        exact ⟨this.name, this.notify, this.cron, this.state.trans (hst i).symm, this.status,
          this.pid⟩
      · rw [hown]; exact h.tables.pids q
    · show Kern w.mgr w.kernel _
      rw [hk]
      exact waited_kern h.kern pid rc none
    · show w.mgr.keepRunning = true ↔ ¬ ShuttingDown X.programs (_ :: w.log)
      rw [hsh]; exact h.keep
    · show (SomeCrash X.programs (_ :: w.log) → w.mgr.exitCode = 6) ∧ _
      rw [hcr]; exact h.code
    · obtain ⟨F, P, h1, h2, h3, h4⟩ := h.deps
      refine ⟨F, P, h1, fun i => ?_, fun i hi => ?_, seen_cons (by simp) h4⟩
      · rw [h2 i]
        unfold Finished Completed
        show _ ↔ ¬ isCronjob X.programs i ∧ ((Terminated X.programs true i (_ :: w.log) ∨
          Announced X.programs i (_ :: w.log)) ∨ Terminated X.programs false i (_ :: w.log))
        rw [ht, ht]
        simp [announced_cons]
      · rw [h3 i hi]
        show _ ↔ Attempted i (_ :: w.log) ∨ _
        simp [attempted_cons]
    · exact ⟨h.cron.inv, h.cron.sched⟩
  | some i =>
    obtain ⟨hi, hmp, hact, hst⟩ := owner_facts h.legal ho
    obtain ⟨p, hp, hok⟩ := h.tables.proc hi
    simp only [hp, emit_bind, modifyMgr_bind]
    have hlegal : Always (Legal X) (.waited pid rc (some i) :: w.log) :=
      legal_cons h.legal h.calm h.notDue (fun h => h) ⟨hpos, ho.symm⟩
    -- what is left after the signals
    have rest : ∀ (es : List Event) (code : Int) (keep : Bool) (ans : List Answer),
        (∀ e ∈ es, Quiet e) →
        Always (Legal X) (es ++ .waited pid rc (some i) :: w.log) →
        obligations X.programs (es ++ .waited pid rc (some i) :: w.log) = [] →
        (keep = true ↔ ¬ ShuttingDown X.programs (.waited pid rc (some i) :: w.log)) →
        ((SomeCrash X.programs (.waited pid rc (some i) :: w.log) → code = 6) ∧
          (¬ SomeCrash X.programs (.waited pid rc (some i) :: w.log) → code = 0)) →
        Good X (fun _ w' => Post X [] w w') ((modifyMgr (deregisterPid pid) >>= fun _ =>
          M.when (p.ptype ≠ .cronjob) (do
            let w ← get
            let d ← lift (w.mgr.deps.notifyProcessFinished i)
            modifyMgr fun m => { m with deps := d }))
          { w with
            mgr := { w.mgr with
              procs := w.mgr.procs.set i { p with state :=
                if rc = 0 then (if p.ptype = .cronjob then .sleeping else .done) else .crashed rc }
              exitCode := code, keepRunning := keep }
            answers := ans
            log := es ++ .waited pid rc (some i) :: w.log }) := by
      intro es code keep ans hq hl hc hkeep hcode
      have hs : Same X.programs (.waited pid rc (some i) :: w.log)
        (es ++ .waited pid rc (some i) :: w.log) := same_append hq _
      have fin : ∀ d', (if isCronjob X.programs i then d' = w.mgr.deps
            else w.mgr.deps.notifyProcessFinished i = .ok d') →
          Inv X [] { w.mgr with
            procs := w.mgr.procs.set i { p with state :=
              if rc = 0 then (if p.ptype = .cronjob then .sleeping else .done) else .crashed rc }
            pidDict := w.mgr.pidDict.erase pid
            deps := d', keepRunning := keep, exitCode := code } w.kernel
            (es ++ .waited pid rc (some i) :: w.log) := by
        intro d' hd
        refine ⟨hl, hc, idle_append (fun e he => quiet_no_clock (hq e he))
          (idle_cons fun _ h => by cases h), ?_, ?_, ?_, ?_, ?_, ?_, h.nocron⟩
        · exact (waited_tables h.legal h.tables hp ho).same hs
        · have := (waited_kern h.kern pid rc (some i)).same hs
          rw [hk]
          exact ⟨this.opened, this.own, this.apart, this.epoll, this.children⟩
        · rw [hs.shuttingDown]; exact hkeep
        · rw [hs.someCrash]; exact hcode
        · exact (waited_deps h.deps hi ho hd).same hs (lastWait_quiet hq _)
        · have : CronOk X w.mgr.cron (.waited pid rc (some i) :: w.log) :=
            ⟨h.cron.inv, h.cron.sched⟩
          exact this.same hs
      simp only [modifyMgr_bind]
      unfold M.when
      by_cases hnc : p.ptype ≠ .cronjob
      · rw [if_pos hnc]
        have hnc : ¬ isCronjob X.programs i := fun e => hnc (hok.cron.mpr e)
        obtain ⟨F, P, h1, -, -, -⟩ := h.deps
        obtain ⟨d', g1, -, -, -⟩ := DepMgr.notify_ok h1 hi
        simp only [get_bind]
        show Good X _ ((lift (w.mgr.deps.notifyProcessFinished i) >>= _) _)
        rw [g1]
        simp only [lift_ok_bind]
        exact ⟨fin d' (by rw [if_neg hnc]; exact g1), es ++ [.waited pid rc (some i)], by
          simp⟩
      · rw [if_neg hnc]
        have hcj : isCronjob X.programs i := hok.cron.mp (Decidable.of_not_not hnc)
        exact ⟨fin _ (by rw [if_pos hcj]), es ++ [.waited pid rc (some i)], by
          simp⟩
    by_cases hr : rc = 0
    · simp only [M.when, hr, ne_eq, not_true_eq_false, if_false]
      rw [pure_bind']
      subst hr
      have hcr : SomeCrash X.programs (.waited pid 0 (some i) :: w.log) ↔
          SomeCrash X.programs w.log := by
        refine exists_congr fun j => ?_
        rw [waited_terminated ho]
        simp
      refine rest [] w.mgr.exitCode w.mgr.keepRunning w.answers (by simp) hlegal ?_ ?_ ?_
      · show obligations X.programs (_ :: w.log) = []
        rw [obligations_react h.calm]
        simp [reaction]
      · rw [h.keep]
        unfold ShuttingDown
        rw [hcr]; simp [Asked]
      · rw [hcr]; exact h.code
    · have hcrash : SomeCrash X.programs (.waited pid rc (some i) :: w.log) :=
        ⟨i, (waited_terminated ho false i).mpr (.inl ⟨rfl, by simp [hr]⟩)⟩
      have hwhen : (M.when (rc ≠ 0) (do
          modifyMgr fun m => { m with exitCode := 6 }
          initiateShutdown SIGINT) : M Unit) = (do
          modifyMgr fun m => { m with exitCode := 6 }
          initiateShutdown SIGINT) := by
        unfold M.when; rw [if_pos hr]
      rw [hwhen]
      refine Good.bind (Q := fun _ w' => ∃ rest es, w' = { w with
            mgr := { w.mgr with
              procs := w.mgr.procs.set i { p with state :=
                if rc = 0 then (if p.ptype = .cronjob then .sleeping else .done) else .crashed rc }
              exitCode := 6, keepRunning := false }
            answers := rest, log := es ++ .waited pid rc (some i) :: w.log } ∧
          (∀ e ∈ es, Quiet e) ∧ obligations X.programs w'.log = [] ∧ Always (Legal X) w'.log) ?_ ?_
      · simp only [modifyMgr_bind]
        refine initiateShutdown_good SIGINT _ hlegal ?_ ?_
          (settled_cons (fun _ h => by cases h) h.planned)
        · show obligations X.programs (_ :: w.log) = _
          rw [obligations_react h.calm]
          have ht := waited_tables (rc := rc) h.legal h.tables hp ho (d := w.mgr.deps)
            (keep := false) (code := 6)
          have := running_map ht (fun p => Event.sent p SIGINT)
          have hre : reaction X.programs (.waited pid rc (some i) :: w.log) =
              (runningPrograms X.programs (.waited pid rc (some i) :: w.log)).map
                (fun i => .sent (mainPid X.programs w.log i) Signal.int) := by
            simp [reaction, hr, ho]
          rw [hre]
          exact this.symm
        · show ∀ q, q ∈ w.kernel.children ↔ _
          rw [hk]
          exact reaped_children h.kern pid rc (some i)
      · rintro - w' ⟨ans, es, rfl, hq, hc, hl⟩
        refine rest es 6 false ans hq hl hc ?_ ?_
        · constructor
          · intro e; cases e
          · intro e; exact absurd (.inr hcrash) e
        · exact ⟨fun _ => rfl, fun e => absurd hcrash e⟩

theorem lost_inv {m : Manager} {k : Kernel} {l : Log} (h : Inv X [] m k l)
    (pid : Int) (sig : Nat) : Inv X [] m (reaped k pid) (.lost pid sig :: l) := by
  have ht : ∀ ok i, Terminated X.programs ok i (.lost pid sig :: l) ↔
      Terminated X.programs ok i l := by
    intro ok i; simp [terminated_cons]
  have hcr : SomeCrash X.programs (.lost pid sig :: l) ↔ SomeCrash X.programs l :=
    exists_congr fun i => ht _ i
  refine ⟨legal_cons h.legal h.calm h.notDue (fun h => h) trivial, ?_,
    idle_cons (fun _ h => by cases h), ?_, ?_, ?_, ?_, ?_, ?_, h.nocron⟩
  · rw [obligations_react h.calm]; rfl
  · refine ⟨h.tables.len, fun i p hp => ?_, h.tables.pids, h.tables.outs, h.tables.errs,
      h.tables.fdd⟩
    have := h.tables.procs i p hp
    exact ⟨this.name, this.notify, this.cron, this.state, this.status, this.pid⟩
  · refine ⟨h.kern.opened, h.kern.own, h.kern.apart, h.kern.epoll, ?_⟩
    intro p
    simp only [reaped, List.mem_filter, Unreaped, ← h.kern.children p, ne_eq, decide_eq_true_eq]
    exact And.comm
  · rw [h.keep]
    unfold ShuttingDown
    rw [hcr]; simp [Asked]
  · rw [hcr]; exact h.code
  · obtain ⟨F, P, h1, h2, h3, h4⟩ := h.deps
    refine ⟨F, P, h1, fun i => ?_, fun i hi => ?_, seen_cons (by simp) h4⟩
    · rw [h2 i]
      unfold Finished Completed
      rw [ht, ht]
      simp [announced_cons]
    · rw [h3 i hi]; simp [attempted_cons]
  · exact ⟨h.cron.inv, h.cron.sched⟩

theorem lookForFinishedChildren_good (fuel : Nat) (w : World)
    (h : Inv X [] w.mgr w.kernel w.log) :
    Good X (fun _ w' => Post X [] w w') (lookForFinishedChildren fuel w) := by
  induction fuel generalizing w with
  | zero => exact h.legal
  | succ fuel ih =>
    unfold lookForFinishedChildren
    refine Good.bind (wait_good h.legal) ?_
    rintro r w' ⟨rest, hr⟩
    cases r with
    | exited pid code =>
      obtain ⟨h1, h2, rfl⟩ := hr
      refine Good.bind (handleFinishedChild_good _ w.kernel pid code h rfl h1) ?_
      rintro - w'' h3
      have h3 : Post X [] w w'' := h3
      exact (ih w'' h3.1).mono (fun _ _ h4 => h3.trans h4)
    | killed pid sig =>
      obtain ⟨h1, h2, h2', rfl⟩ := hr
      simp only
      split
      · refine Good.bind (handleFinishedChild_good _ w.kernel pid sig h rfl h1) ?_
        rintro - w'' h3
        have h3 : Post X [] w w'' := h3
        exact (ih w'' h3.1).mono (fun _ _ h4 => h3.trans h4)
      · exact ⟨lost_inv h pid sig, [.lost pid sig], rfl⟩
    | alive => cases hr; exact ⟨remark_inv trivial h, [.reaped], rfl⟩
    | other =>
      cases hr
      exact ih { w with answers := rest } h
    | error => cases hr; exact ⟨remark_inv trivial h, [.reaped], rfl⟩

/-! ## Starting programs -/

/-- What has to be known for `spawn_child`. -/
structure Ready' (X : Setting) (ex : List Nat) (i : Nat) (l : Log) : Prop where
  known : i < X.programs.length
  unblocked : Unblocked X.programs i l
  open_ : ¬ ShuttingDown X.programs l
  once : ¬ isCronjob X.programs i → ¬ Attempted i l
  due : isCronjob X.programs i → Due X.zone X.cron i l
  extra : ∀ j, ¬ isCronjob X.programs j → (j ∈ ex ↔ j = i)
  only : ∀ j ∈ ex, j = i

theorem not_crashed {l : Log} {i : Nat} {rc : Int} (h : ¬ ShuttingDown X.programs l) :
    state X.programs l i ≠ .crashed rc := by
  intro e
  exact h (.inr ⟨i, (state_facts.2.2.2.2.2 rc e).2⟩)

/-- A program that may be started is idle or a running cronjob. -/
theorem idle_or_running {l : Log} {i : Nat} (hl : Always (Legal X) l)
    (ho : ¬ ShuttingDown X.programs l)
    (once : ¬ isCronjob X.programs i → ¬ Attempted i l) :
    state X.programs l i = .blocked ∨ state X.programs l i = .sleeping ∨
      (isCronjob X.programs i ∧ state X.programs l i = .running) := by
  by_cases hc : isCronjob X.programs i
  · obtain ⟨f1, f2, f3, f4, f5, f6⟩ := state_facts (ps := X.programs) (l := l) (i := i)
    cases hs : state X.programs l i with
    | blocked => exact .inl rfl
    | sleeping => exact .inr (.inl rfl)
    | starting => exact absurd (f1 hs) (isCronjob_not_isNotify hc)
    | running => exact .inr (.inr ⟨hc, rfl⟩)
    | stopping => exact absurd (f2 hs) (isCronjob_not_isNotify hc)
    | done => exact absurd hc (f5 hs)
    | crashed rc => exact absurd hs (not_crashed ho)
  · left
    rw [state_not_started hl (fun h => once hc (.inl h)), if_neg hc]

theorem spawned_inv {ex : List Nat} {m : Manager} {k : Kernel} {l : Log} {i : Nat} {p : Process}
    {pid out err : Int} {ep : List Int} (h : Inv X ex m k l) (hr : Ready' X ex i l)
    (hp : m.procs[i]? = some p) (hidle : p.state = .blocked ∨ p.state = .sleeping)
    (h1 : 0 < pid) (h2 : pid ∉ k.children) (h3 : out ∉ k.fds) (h4 : err ∉ k.fds) (h5 : out ≠ err)
    (hep : ∀ g ∈ ep, g = err ∨ g = out ∨ g ∈ k.epoll) :
    Inv X [] (registerStderr i err (registerStdout i out (registerPid i pid
      (setProc i (p.started pid) m))))
      { k with children := pid :: k.children, fds := out :: err :: k.fds, epoll := ep }
      (.spawned i pid out err :: l) := by
  have hok := h.tables.procs i p hp
  have hfree : ∀ fd, fd ∉ k.fds → stream l fd = none := by
    intro fd hfd
    cases hs : stream l fd with
    | none => rfl
    | some x => exact absurd (h.kern.opened fd x hs) hfd
  have hlegal : Always (Legal X) (.spawned i pid out err :: l) := by
    refine legal_cons h.legal h.calm ⟨h.planned, fun j hj => (hr.only j (h.idle j hj)).symm⟩ (fun h => h)
      ⟨⟨hr.known, hr.unblocked, ?_, hr.open_, hr.once,
      hr.due⟩, h1, fun hu => h2 ((h.kern.children pid).mpr hu), hfree _ h3, hfree _ h4, h5⟩
    rw [← hok.state]; exact hidle
  have ht : ∀ ok j, Terminated X.programs ok j (.spawned i pid out err :: l) ↔
      Terminated X.programs ok j l := by
    intro ok j; simp [terminated_cons]
  have hcr : SomeCrash X.programs (.spawned i pid out err :: l) ↔ SomeCrash X.programs l :=
    exists_congr fun i => ht _ i
  have hsp : ∀ g, stream l g = none → g ∈ k.fds → stream (.spawned i pid out err :: l) g = none := by
    intro g hg hm
    simp only [stream]
    rw [if_neg (fun e => h3 (by rw [← e]; exact hm)),
      if_neg (fun e => h4 (by rw [← e]; exact hm))]
    exact hg
  refine ⟨hlegal, ?_, idle_cons (fun _ h => by cases h), ?_, ?_, ?_, ?_, ?_, ?_, h.nocron⟩
  · rw [obligations_react h.calm]; rfl
  · refine ⟨?_, ?_, ?_, ?_, ?_, ?_⟩
    · simpa [registerStderr, registerStdout, registerPid, setProc] using h.tables.len
    · intro j p' hp'
      simp only [registerStderr, registerStdout, registerPid, setProc] at hp'
      rw [List.getElem?_set] at hp'
      split at hp'
      · rename_i hij
        subst hij
        split at hp'
        · cases hp'
          refine ⟨hok.name, hok.notify, hok.cron, ?_, hok.status, ?_⟩
          · simp only [Process.started, state, if_true]
            by_cases hn : isNotify X.programs i
            · rw [if_pos hn, hok.notify.mpr hn]
            · rw [if_neg hn]
              have : p.ptype ≠ .notify := fun e => hn (hok.notify.mp e)
              cases hpt : p.ptype <;> simp_all
          · simp [Process.started, mainPid]
        · cases hp'
      · rename_i hij
        have := h.tables.procs j p' hp'
        have hji : j ≠ i := fun e => hij e.symm
        refine ⟨this.name, this.notify, this.cron, ?_, this.status, ?_⟩
        · simp only [state, if_neg hji]; exact this.state
        · simp only [mainPid, if_neg hji]; exact this.pid
    · intro q
      simp only [registerStderr, registerStdout, registerPid, setProc, AMap.get?_insert, owner,
        h.tables.pids]
      simp only [eq_comm]
    · intro fd j
      simp only [registerStderr, registerStdout, registerPid, setProc, AMap.get?_insert, stream]
      by_cases e1 : fd = out
      · subst e1; simp
      · rw [if_neg (fun e => e1 e.symm), if_neg e1]
        by_cases e2 : fd = err
        · subst e2
          rw [if_pos rfl, h.tables.outs, hfree _ h4]; simp
        · rw [if_neg e2]; exact h.tables.outs fd j
    · intro fd j
      simp only [registerStderr, registerStdout, registerPid, setProc, AMap.get?_insert, stream]
      by_cases e2 : fd = err
      · subst e2
        rw [if_pos rfl, if_neg (fun e => h5 e.symm), if_pos rfl]; simp
      · rw [if_neg (fun e => e2 e.symm), if_neg e2]
        by_cases e1 : fd = out
        · subst e1
          rw [if_pos rfl, h.tables.errs, hfree _ h3]; simp
        · rw [if_neg e1]; exact h.tables.errs fd j
    · intro fd
      simp only [registerStderr, registerStdout, registerPid, setProc, List.mem_cons, stream]
      by_cases e1 : fd = out
      · subst e1; simp
      · by_cases e2 : fd = err
        · subst e2; simp [e1]
        · simp only [e1, e2, false_or, if_false]; exact h.tables.fdd fd
  · refine ⟨?_, ?_, ?_, ?_, ?_⟩
    · intro fd x hx
      simp only [stream] at hx
      simp only [List.mem_cons]
      split at hx
      · rename_i e; exact .inl e
      · split at hx
        · rename_i e; exact .inr (.inl e)
        · exact .inr (.inr (h.kern.opened fd x hx))
    · exact ⟨List.mem_cons_of_mem _ (List.mem_cons_of_mem _ h.kern.own.1),
        List.mem_cons_of_mem _ (List.mem_cons_of_mem _ h.kern.own.2.1),
        List.mem_cons_of_mem _ (List.mem_cons_of_mem _ h.kern.own.2.2)⟩
    · exact ⟨hsp _ h.kern.apart.1 h.kern.own.1, hsp _ h.kern.apart.2.1 h.kern.own.2.1,
        hsp _ h.kern.apart.2.2 h.kern.own.2.2⟩
    · intro fd hfd
      simp only [stream]
      rcases hep fd hfd with rfl | rfl | hm
      · exact .inr (.inr (.inr (by simp [Ne.symm h5])))
      · exact .inr (.inr (.inr (by simp)))
      · rcases h.kern.epoll fd hm with e | e | e | ⟨x, e⟩
        · exact .inl e
        · exact .inr (.inl e)
        · exact .inr (.inr (.inl e))
        · refine .inr (.inr (.inr ?_))
          split
          · exact ⟨_, rfl⟩
          · split
            · exact ⟨_, rfl⟩
            · exact ⟨x, e⟩
    · intro q
      simp only [List.mem_cons, Unreaped, h.kern.children]
  · show m.keepRunning = true ↔ _
    rw [h.keep]
    unfold ShuttingDown
    rw [hcr]; simp [Asked]
  · rw [hcr]; exact h.code
  · obtain ⟨F, P, g1, g2, g3, g4⟩ := h.deps
    refine ⟨F, P, g1, fun j => ?_, fun j hj => ?_, seen_cons (by simp) g4⟩
    · rw [g2 j]
      unfold Finished Completed
      rw [ht, ht]
      simp [announced_cons]
    · rw [g3 j hj, hr.extra j hj, attempted_cons]
      simp [or_comm, eq_comm]
  · exact ⟨h.cron.inv, h.cron.sched⟩

theorem spawnFailed_inv {ex : List Nat} {m : Manager} {k : Kernel} {l : Log} {i : Nat}
    (h : Inv X ex m k l) (hr : Ready' X ex i l)
    (hidle : state X.programs l i = .blocked ∨ state X.programs l i = .sleeping) :
    Inv X [] m k (.spawnFailed i :: l) := by
  have ht : ∀ ok j, Terminated X.programs ok j (.spawnFailed i :: l) ↔
      Terminated X.programs ok j l := by
    intro ok j; simp [terminated_cons]
  have hcr : SomeCrash X.programs (.spawnFailed i :: l) ↔ SomeCrash X.programs l :=
    exists_congr fun i => ht _ i
  refine ⟨?_, ?_, idle_cons (fun _ h => by cases h), ?_, ?_, ?_, ?_, ?_, ?_, h.nocron⟩
  · exact legal_cons h.legal h.calm ⟨h.planned, fun j hj => (hr.only j (h.idle j hj)).symm⟩ (fun h => h)
      ⟨hr.known, hr.unblocked, hidle, hr.open_, hr.once,
      hr.due⟩
  · rw [obligations_react h.calm]; rfl
  · refine ⟨h.tables.len, fun i p hp => ?_, h.tables.pids, h.tables.outs, h.tables.errs,
      h.tables.fdd⟩
    have := h.tables.procs i p hp
    exact ⟨this.name, this.notify, this.cron, this.state, this.status, this.pid⟩
  · exact ⟨h.kern.opened, h.kern.own, h.kern.apart, h.kern.epoll, h.kern.children⟩
  · rw [h.keep]
    unfold ShuttingDown
    rw [hcr]; simp [Asked]
  · rw [hcr]; exact h.code
  · obtain ⟨F, P, g1, g2, g3, g4⟩ := h.deps
    refine ⟨F, P, g1, fun j => ?_, fun j hj => ?_, seen_cons (by simp) g4⟩
    · rw [g2 j]
      unfold Finished Completed
      rw [ht, ht]
      simp [announced_cons]
    · rw [g3 j hj, hr.extra j hj, attempted_cons]
      simp [or_comm, eq_comm]
  · exact ⟨h.cron.inv, h.cron.sched⟩

/-- `extra` may be dropped if it is of no consequence. -/
theorem Inv.drop {ex : List Nat} {m : Manager} {k : Kernel} {l : Log} (h : Inv X ex m k l)
    (he : ∀ j, ¬ isCronjob X.programs j → j ∉ ex) (hd : ∀ j, ¬ Due X.zone X.cron j l) :
    Inv X [] m k l := by
  obtain ⟨F, P, g1, g2, g3, g4⟩ := h.deps
  refine { h with
    idle := fun j hj => absurd hj (hd j), deps := ⟨F, P, g1, g2, fun j hj => ?_, g4⟩ }
  rw [g3 j hj]
  simp [he j hj]

/-- Registering a stream at epoll changes nothing else. -/
theorem watched_inv {ex : List Nat} {m : Manager} {k : Kernel} {l : Log} (h : Inv X ex m k l)
    (hc : ∀ t l', l ≠ .clock t :: l') (fd : Int) (b : Bool) :
    Inv X ex m k (.watched fd b :: l) := by
  have hq : Quiet (.watched fd b) := trivial
  refine h.same (same_quiet hq _) rfl ?_ ?_ (idle_cons fun _ h => by cases h)
  · refine legal_cons h.legal h.calm ⟨h.planned, ?_⟩ (fun h => h) trivial
    rintro j ⟨t, l', c, c', e, -⟩
    exact absurd e (hc t l')
  · rw [obligations_react h.calm]; rfl

theorem spawnChild_good {ex : List Nat} (i : Nat) (w : World)
    (h : Inv X ex w.mgr w.kernel w.log) (hr : Ready' X ex i w.log) :
    Good X (fun _ w' => Post X [] w w' ∧ w'.mgr.deps = w.mgr.deps ∧
      w'.mgr.keepRunning = w.mgr.keepRunning) (spawnChild i w) := by
  obtain ⟨p, hp, hok⟩ := h.tables.proc hr.known
  have hir := idle_or_running h.legal hr.open_ hr.once
  unfold spawnChild
  simp only [get_bind, hp]
  split
  · rename_i hs
    -- a cronjob that is still running
    obtain ⟨hc, hrun⟩ : isCronjob X.programs i ∧ state X.programs w.log i = .running := by
      rcases hir with e | e | e
      · exact absurd (hok.state.trans e) hs.1
      · exact absurd (hok.state.trans e) hs.2
      · exact e
    refine ⟨⟨?_, [.refused i p.state], rfl⟩, rfl, rfl⟩
    have hq : Quiet (.refused i p.state) := trivial
    refine (h.same (same_quiet hq _) rfl ?_ ?_ (idle_cons fun _ h => by cases h)).drop ?_
      (not_due_cons fun _ h => by cases h)
    rotate_left 2
    · intro j hj hm
      have := (hr.extra j hj).mp hm
      subst this
      exact hj hc
    · exact legal_cons h.legal h.calm ⟨h.planned, fun j hj => (hr.only j (h.idle j hj)).symm⟩ (fun h => h)
        ⟨hc, hr.unblocked, hr.due hc, hok.state, hok.state.trans hrun⟩
    · show obligations X.programs (_ :: w.log) = []
      rw [obligations_react h.calm]; rfl
  · rename_i hs
    have hidle : p.state = .blocked ∨ p.state = .sleeping := by
      rcases hir with e | e | ⟨-, e⟩
      · exact .inl (hok.state.trans e)
      · exact .inr (hok.state.trans e)
      · exact absurd ⟨by rw [hok.state, e]; simp, by rw [hok.state, e]; simp⟩ hs
    refine Good.bind (fork_good h.legal) ?_
    rintro r w' (⟨rfl, rest, rfl⟩ | ⟨pid, out, err, rest, rfl, h1, h2, h3, h4, h5, rfl⟩)
    · refine ⟨⟨?_, [.spawnFailed i], rfl⟩, rfl, rfl⟩
      exact spawnFailed_inv h hr (by rw [← hok.state]; exact hidle)
    · simp only [emit_bind, modifyMgr_bind]
      have hinv := fun ep hep => spawned_inv (ep := ep) h hr hp hidle h1 h2 h3 h4 h5 hep
      have hl := (hinv w.kernel.epoll (fun g hg => .inr (.inr hg))).legal
      refine Good.bind (epollAdd_good (w := { w with
        mgr := setProc i (p.started pid) w.mgr
        kernel := { w.kernel with
            children := pid :: w.kernel.children, fds := out :: err :: w.kernel.fds }
        answers := rest, log := .spawned i pid out err :: w.log }) hl out) ?_
      rintro b w' ⟨ep, rest', rfl, -, hep⟩
      simp only [emit_bind]
      have hinv1 := fun ep hep => watched_inv (hinv ep hep) (by simp) out b
      have hl1 := (hinv1 w.kernel.epoll (fun g hg => .inr (.inr hg))).legal
      refine Good.bind (epollAdd_good (w := { w with
        mgr := setProc i (p.started pid) w.mgr
        kernel := { w.kernel with
            children := pid :: w.kernel.children, fds := out :: err :: w.kernel.fds, epoll := ep }
        answers := rest', log := .watched out b :: .spawned i pid out err :: w.log }) hl1 err) ?_
      rintro b' w' ⟨ep', rest'', rfl, -, hep'⟩
      refine ⟨⟨watched_inv (hinv1 ep' ?_) (by simp) err b',
        [.watched err b', .watched out b, .spawned i pid out err], rfl⟩, rfl, rfl⟩
      intro g hg
      rcases hep' g hg with e | e
      · exact .inl e
      · exact .inr (hep g e)

theorem spawnRunnables_good (fuel : Nat) (w : World)
    (h : Inv X [] w.mgr w.kernel w.log) (hk : w.mgr.keepRunning = true)
    (hf : w.mgr.deps.runnable.length < fuel) :
    Good X (fun _ w' => Post X [] w w' ∧ w'.mgr.keepRunning = true ∧
      w'.mgr.deps.runnable = []) (spawnRunnables fuel w) := by
  induction fuel generalizing w with
  | zero => omega
  | succ fuel ih =>
    unfold spawnRunnables
    simp only [get_bind]
    obtain ⟨F, P, g1, g2, g3, g4⟩ := h.deps
    have hpop := DepMgr.pop_ok g1
    cases hpr : w.mgr.deps.popRunnable with
    | mk o d =>
      rw [hpr] at hpop
      cases o with
      | none =>
        exact ⟨Post.refl h rfl rfl rfl, hk, hpop.1⟩
      | some i =>
        simp only at hpop
        obtain ⟨hm, hd, harch⟩ := hpop
        have hiA : i ∈ w.mgr.deps.archive := (g1.queue i).mp (List.mem_append_left _ hm)
        have hi : i < X.programs.length := by
          obtain ⟨n, hn, -⟩ := (g1.arch i).mp hiA
          exact (g1.dom i).mp ⟨n, hn⟩
        obtain ⟨p, hp, hok⟩ := h.tables.proc hi
        have hsd : ¬ ShuttingDown X.programs w.log := h.keep.mp hk
        have hlen : d.runnable.length < fuel := by
          have : d = { w.mgr.deps with runnable := w.mgr.deps.runnable.dropLast } := by
            unfold DepMgr.popRunnable at hpr
            cases hg : w.mgr.deps.runnable.getLast? with
            | none => rw [hg] at hpr; cases hpr
            | some j => rw [hg] at hpr; cases hpr; rfl
          rw [this]
          have : 0 < w.mgr.deps.runnable.length := List.length_pos_of_mem hm
          simp only [List.length_dropLast]
          omega
        simp only [modifyMgr_bind, hp]
        have hbase : ∀ ex, (∀ j, ¬ isCronjob X.programs j → (j ∈ ex ↔ j = i)) →
            Inv X ex { w.mgr with deps := d } w.kernel w.log := by
          intro ex hex
          refine ⟨h.legal, h.calm, fun j hj => absurd (h.idle j hj) List.not_mem_nil, ⟨h.tables.len, h.tables.procs, h.tables.pids, h.tables.outs,
            h.tables.errs, h.tables.fdd⟩, ⟨h.kern.opened, h.kern.own, h.kern.apart, h.kern.epoll,
            h.kern.children⟩, h.keep, h.code, ⟨F, i :: P, hd, g2, fun j hj => ?_,
              fun j l' e1 e2 e3 e4 => List.mem_cons_of_mem _ (g4 j l' e1 e2 e3 e4)⟩,
            ⟨h.cron.inv, h.cron.sched⟩, h.nocron⟩
          rw [List.mem_cons, g3 j hj, hex j hj]
          simp [or_comm]
        unfold M.when
        by_cases hc : isCronjob X.programs i
        · rw [if_neg (by simpa using hok.cron.mpr hc)]
          simp only [pure_bind']
          refine (ih { w with mgr := { w.mgr with deps := d } } ((hbase [i] (by simp)).drop ?_
            (fun j hj => absurd (h.idle j hj) List.not_mem_nil)) hk hlen).mono ?_
          · intro j hj hm
            simp only [List.mem_singleton] at hm
            subst hm; exact hj hc
          · rintro - w'' ⟨⟨h1, es, h2⟩, h3⟩
            exact ⟨⟨h1, es, h2⟩, h3⟩
        · rw [if_pos (fun e => hc (hok.cron.mp e))]
          have hr : Ready' X [i] i w.log := by
            refine ⟨hi, ?_, hsd, fun _ ha => ?_, fun e => absurd e hc, by simp, by simp⟩
            · intro j hj
              have := (g2 j).mp ((g1.archive_iff hi).mp hiA j hj)
              rcases this.2 with e | e
              · exact e
              · exact absurd (.inr ⟨j, e⟩) hsd
            · have hP : i ∈ P := (g3 i hc).mpr (.inl ha)
              exact (List.nodup_append.mp g1.queueNodup).2.2 i hm i hP rfl
          refine Good.bind (spawnChild_good i { w with mgr := { w.mgr with deps := d } }
            (hbase [i] (by simp)) hr) ?_
          rintro - w' ⟨⟨h1, es, h2⟩, h3, h4⟩
          refine (ih w' h1 (h4.trans hk) (by rw [h3]; exact hlen)).mono ?_
          rintro - w'' ⟨⟨h5, es', h6⟩, h7⟩
          exact ⟨⟨h5, es' ++ es, by rw [h6, h2, List.append_assoc]⟩, h7⟩

/-! ## What is added to the history when programs are started -/

/-- `x` adds only events of kind `K` to the history. -/
def Adds {α : Type} (K : Event → Prop) (x : M α) : Prop :=
  ∀ w a w', x w = .ok a w' → ∃ es, w'.log = es ++ w.log ∧ ∀ e ∈ es, K e

namespace Adds

variable {α β : Type} {K : Event → Prop}

theorem pure {a : α} : Adds K (M.pure a) := by
  rintro w b w' h; cases h; exact ⟨[], rfl, by simp⟩

theorem bind {x : M α} {f : α → M β} (hx : Adds K x) (hf : ∀ a, Adds K (f a)) :
    Adds K (x >>= f) := by
  intro w b w'' h
  have h : M.bind x f w = .ok b w'' := h
  unfold M.bind at h
  cases hw : x w with
  | ok a w' =>
    rw [hw] at h
    obtain ⟨es, h1, h2⟩ := hx w a w' hw
    obtain ⟨es', h3, h4⟩ := hf a w' b w'' h
    refine ⟨es' ++ es, by rw [h3, h1, List.append_assoc], fun e he => ?_⟩
    rcases List.mem_append.mp he with he | he
    · exact h4 e he
    · exact h2 e he
  | panic p w' => rw [hw] at h; cases h
  | stuck w' => rw [hw] at h; cases h

theorem emit {e : Event} (h : K e) : Adds K (M.emit e) := by
  rintro w b w' hw; cases hw; exact ⟨[e], rfl, by simpa using h⟩

theorem fail {p : Panic} : Adds K (M.fail p : M α) := by rintro w b w' h; cases h

theorem stop : Adds K (M.stop : M α) := by rintro w b w' h; cases h

theorem lift {r : Res Empty α} : Adds K (M.lift r) := by
  cases r with
  | ok a => exact pure
  | err e => exact nomatch e
  | panic p => exact fail

theorem get {f : World → M β} (hf : ∀ w, Adds K (f w)) : Adds K (M.get >>= f) :=
  fun w b w' h => hf w w b w' h

theorem modify {f : Manager → Manager} : Adds K (modifyMgr f) := by
  rintro w b w' h; cases h; exact ⟨[], rfl, by simp⟩

theorem when {c : Prop} [Decidable c] {x : M Unit} (h : Adds K x) : Adds K (M.when c x) := by
  unfold M.when
  split
  · exact h
  · exact pure

theorem call {f : Kernel → Answer → Option (α × Kernel)} : Adds K (Sys.call f) := by
  intro w b w' h
  unfold Sys.call at h
  split at h
  · cases h
  · split at h
    · cases h
    · cases h; exact ⟨[], rfl, by simp⟩

end Adds

theorem Good.with {α : Type} {o : Out α} {Q R : α → World → Prop} (h : Good X Q o)
    (hr : ∀ a w, o = .ok a w → R a w) : Good X (fun a w => Q a w ∧ R a w) o := by
  cases o with
  | ok a w => exact ⟨h, hr a w rfl⟩
  | panic p w => exact h
  | stuck w => exact h

/-- Events of the phase in which programs are started. -/
def Starting : Event → Prop
  | .clock _ | .spawned _ _ _ _ | .watched _ _ | .spawnFailed _ | .refused _ _
  | .postponed _ => True
  | _ => False

theorem spawnChild_adds (i : Nat) : Adds Starting (spawnChild i) := by
  refine .get fun w => ?_
  split
  · exact .fail
  · split
    · exact .emit trivial
    · refine .bind .call fun r => ?_
      split
      · exact .emit trivial
      · refine .bind (.emit trivial) fun _ => .bind .modify fun _ => .bind .call fun _ =>
          .bind (.emit trivial) fun _ => .bind .call fun _ => .bind (.emit trivial) fun _ =>
          .bind .modify fun _ => .bind .modify fun _ => .modify

theorem spawnRunnables_adds (fuel : Nat) : Adds Starting (spawnRunnables fuel) := by
  induction fuel with
  | zero => exact .pure
  | succ fuel ih =>
    refine .get fun w => ?_
    split
    · exact .pure
    · refine .bind .modify fun _ => ?_
      split
      · exact .fail
      · exact .bind (.when (spawnChild_adds _)) fun _ => ih

theorem spawnCronjobs_adds (env : Env) (fuel : Nat) : Adds Starting (spawnCronjobs env fuel) := by
  induction fuel with
  | zero => exact .stop
  | succ fuel ih =>
    refine .bind .call fun t => .bind (.emit trivial) fun _ => .get fun w => .bind .lift fun r => ?_
    split
    · exact .modify
    · refine .bind .modify fun _ => ?_
      split
      · exact .fail
      · refine .bind ?_ fun _ => ih
        cases w.mgr.deps.isRunnable _ with
        | true => exact spawnChild_adds _
        | false => exact .emit trivial

theorem spawnChildren_adds (env : Env) : Adds Starting (spawnChildren env) :=
  .get fun _ => .bind (spawnRunnables_adds _) fun _ => .get fun _ => spawnCronjobs_adds env _

theorem busy_starting {ps : List ProcessConfig} {es : List Event} {l : Log}
    (hes : ∀ e ∈ es, Starting e) (h : Busy ps l) : Busy ps (es ++ l) := by
  induction es with
  | nil => exact h
  | cons e es ih =>
    have ih := ih fun x hx => hes x (by simp [hx])
    have he := hes e (by simp)
    cases e with
    | spawned j p o r => exact .inl ⟨p, j, by simp [owner]⟩
    | watched _ _ => exact ih
    | clock _ => exact ih
    | spawnFailed _ => exact ih
    | refused _ _ => exact ih
    | postponed _ => exact ih
    | _ => exact he.elim

theorem lastWait_starting {es : List Event} {l : Log}
    (hes : ∀ e ∈ es, Starting e) : lastWait (es ++ l) = lastWait l := by
  induction es with
  | nil => rfl
  | cons e es ih =>
    have ih := ih fun x hx => hes x (by simp [hx])
    have he := hes e (by simp)
    cases e <;> first
      | exact he.elim
      | exact ih

theorem unblocked_append {ps : List ProcessConfig} {i : Nat} {l : Log} (es : List Event)
    (h : Unblocked ps i l) : Unblocked ps i (es ++ l) := by
  intro j hj
  have := h j hj
  clear h
  induction es with
  | nil => exact this
  | cons e es ih =>
    rcases ih with h | h
    · exact .inl (.inr h)
    · exact .inr (.inr h)

theorem released_starting {ps : List ProcessConfig} {es : List Event} {l : Log} {i : Nat}
    (hes : ∀ e ∈ es, Starting e) (h : Released ps i l) : Released ps i (es ++ l) := by
  refine ⟨h.1, unblocked_append es h.2.1, ?_⟩
  rw [lastWait_starting hes]
  exact h.2.2

theorem busy_of_running {m : Manager} {l : Log} (h : Tables X m l)
    (hr : m.hasRunningProcesses = true) : Busy X.programs l := by
  by_cases hb : Busy X.programs l
  · exact hb
  · exfalso
    have e1 : ∀ fd, m.stdoutDict.get? fd = none := by
      intro fd
      cases hg : m.stdoutDict.get? fd with
      | none => rfl
      | some i => exact absurd (.inr ⟨fd, _, (h.outs fd i).mp hg⟩) hb
    have e2 : ∀ fd, m.stderrDict.get? fd = none := by
      intro fd
      cases hg : m.stderrDict.get? fd with
      | none => rfl
      | some i => exact absurd (.inr ⟨fd, _, (h.errs fd i).mp hg⟩) hb
    have e3 : ∀ p, m.pidDict.get? p = none := by
      intro p
      cases hg : m.pidDict.get? p with
      | none => rfl
      | some i => exact absurd (.inl ⟨p, i, (h.pids p) ▸ hg⟩) hb
    unfold hasRunningProcesses at hr
    rw [(AMap.isEmpty_iff_get? _).mpr e1, (AMap.isEmpty_iff_get? _).mpr e2,
      (AMap.isEmpty_iff_get? _).mpr e3] at hr
    cases hr

theorem released_of_runnable {m : Manager} {k : Kernel} {l : Log} (h : Inv X [] m k l)
    (hk : m.keepRunning = true) (hr : m.deps.hasRunnables = true) :
    ∃ i, Released X.programs i l := by
  have hsd := h.keep.mp hk
  obtain ⟨F, P, g1, g2, -, g4⟩ := h.deps
  cases hm : m.deps.runnable with
  | nil => simp [DepMgr.hasRunnables, hm] at hr
  | cons i rest =>
    have hiA : i ∈ m.deps.archive := (g1.queue i).mp (by rw [hm]; simp)
    obtain ⟨n, hn, -⟩ := (g1.arch i).mp hiA
    have hi := (g1.dom i).mp ⟨n, hn⟩
    refine ⟨i, hi, ?_, ?_⟩
    · intro j hj
      rcases ((g2 j).mp ((g1.archive_iff hi).mp hiA j hj)).2 with e | e
      · exact e
      · exact absurd (.inr ⟨j, e⟩) hsd
    · intro l' hl hu
      have hP := g4 i l' hl hsd hi hu
      have := g1.queueNodup
      rw [hm] at this
      exact (List.nodup_append.mp this).2.2 i (by simp) i hP rfl

theorem occupied_starting {m : Manager} {k : Kernel} {es : List Event} {l : Log}
    (h : Inv X [] m k (es ++ l)) (hk : m.keepRunning = true) (hes : ∀ e ∈ es, Starting e)
    (ho : Occupied X.programs l) : Occupied X.programs (es ++ l) := by
  rcases ho with ho | ⟨-, i, hi⟩
  · exact .inl (busy_starting hes ho)
  · exact .inr ⟨h.keep.mp hk, i, released_starting hes hi⟩

/-! ## Cronjobs -/

theorem clock_inv {m : Manager} {k : Kernel} {l : Log} (h : Inv X [] m k l) {t : Int}
    {o : Option Nat} {c : Cron} (hp : m.cron.popRunnable X.zone t = .ok (o, c))
    (hc : c.Inv (CronTimer ⟨X.programs⟩) (cronIds ⟨X.programs⟩))
    (ho : ∀ i, o = some i → isCronjob X.programs i) (hb : Occupied X.programs l) :
    Inv X o.toList { m with cron := c } k (.clock t :: l) := by
  have ht : ∀ ok j, Terminated X.programs ok j (.clock t :: l) ↔
      Terminated X.programs ok j l := by
    intro ok j; simp [terminated_cons]
  have hcr : SomeCrash X.programs (.clock t :: l) ↔ SomeCrash X.programs l :=
    exists_congr fun i => ht _ i
  refine ⟨?_, ?_, ?_, ?_, ?_, ?_, ?_, ?_, ?_, h.nocron⟩
  · exact legal_cons h.legal h.calm h.notDue (fun h => h) hb
  · rw [obligations_react h.calm]; rfl
  · rintro j ⟨t', past, c', c'', e1, e2, e3⟩
    cases e1
    rw [h.cron.sched] at e2
    cases e2
    rw [hp] at e3
    cases e3
    simp
  · refine ⟨h.tables.len, fun i p hp => ?_, h.tables.pids, h.tables.outs, h.tables.errs,
      h.tables.fdd⟩
    have := h.tables.procs i p hp
    exact ⟨this.name, this.notify, this.cron, this.state, this.status, this.pid⟩
  · exact ⟨h.kern.opened, h.kern.own, h.kern.apart, h.kern.epoll, h.kern.children⟩
  · show m.keepRunning = true ↔ _
    rw [h.keep]
    unfold ShuttingDown
    rw [hcr]; simp [Asked]
  · rw [hcr]; exact h.code
  · obtain ⟨F, P, g1, g2, g3, g4⟩ := h.deps
    refine ⟨F, P, g1, fun j => ?_, fun j hj => ?_, seen_cons (by simp) g4⟩
    · rw [g2 j]
      unfold Finished Completed
      rw [ht, ht]
      simp [announced_cons]
    · have hne : j ∉ o.toList := by
        cases o with
        | none => simp
        | some i =>
          simp only [Option.toList_some, List.mem_singleton]
          rintro rfl; exact hj (ho j rfl)
      rw [g3 j hj, attempted_cons]
      simp [hne]
  · refine ⟨hc, ?_⟩
    simp only [schedule, h.cron.sched, hp]

theorem spawnCronjobs_good (env : Env) (hz : env.zone = X.zone) (fuel : Nat) (w : World)
    (h : Inv X [] w.mgr w.kernel w.log) (hk : w.mgr.keepRunning = true)
    (hrun : w.mgr.deps.runnable = []) (hb : Occupied X.programs w.log) :
    Good X (fun _ w' => Post X [] w w' ∧ w'.mgr.keepRunning = true ∧
      w'.mgr.deps.runnable = [] ∧ NothingDue X.zone X.cron w'.log)
      (spawnCronjobs env fuel w) := by
  induction fuel generalizing w with
  | zero => exact h.legal
  | succ fuel ih =>
    unfold spawnCronjobs
    refine Good.bind (now_good h.legal) ?_
    rintro t w' ⟨rest, rfl⟩
    simp only [emit_bind, get_bind, hz]
    obtain ⟨s1, s2, s3⟩ := Cron.popRunnable_spec (z := X.zone) (now := t) h.cron.inv
    cases hp : w.mgr.cron.popRunnable X.zone t with
    | err e => exact nomatch e
    | panic q =>
      refine ⟨.inr (.inr (.inr (.inr ⟨t, w.log, w.mgr.cron, rfl, h.cron.sched, h.cron.inv, hp⟩))),
        legal_cons h.legal h.calm h.notDue (fun h => h) hb⟩
    | ok r =>
      obtain ⟨o, c⟩ := r
      simp only [lift_ok_bind]
      cases o with
      | none =>
        have hc : c.Inv (CronTimer ⟨X.programs⟩) (cronIds ⟨X.programs⟩) := by
          obtain ⟨rfl, -⟩ := s1 c hp
          exact h.cron.inv
        exact ⟨⟨clock_inv h hp hc (fun _ e => by cases e) hb, [.clock t], rfl⟩, hk, hrun, t, w.log, _, _,
          rfl, h.cron.sched, hp⟩
      | some i =>
        obtain ⟨hc, -, td0, td, v, t', rest', htm, -⟩ := s2 i c hp
        have hiC : isCronjob X.programs i := by
          have : i ∈ cronIds ⟨X.programs⟩ := h.cron.inv.perm.mem_iff.mp (by rw [htm]; simp)
          rw [mem_cronIds] at this
          obtain ⟨pc, g1, g2⟩ := this
          cases hpt : pc.ptype with
          | cronJob d => exact ⟨pc, g1, d, hpt⟩
          | oneshot => rw [hpt] at g2; cases g2
          | notify => rw [hpt] at g2; cases g2
        have hi : i < X.programs.length := by
          obtain ⟨c, g1, -⟩ := hiC
          exact (List.getElem?_eq_some_iff.mp g1).1
        obtain ⟨p, hpp, hok⟩ := h.tables.proc hi
        have hinv := clock_inv h hp hc (fun j e => by cases e; exact hiC) hb
        have hsd : ¬ ShuttingDown X.programs (.clock t :: w.log) := hinv.keep.mp hk
        have hdue : Due X.zone X.cron i (.clock t :: w.log) :=
          ⟨t, w.log, w.mgr.cron, c, rfl, h.cron.sched, hp⟩
        simp only [modifyMgr_bind, hpp]
        -- the next rounds
        have next : ∀ w' : World, Post X [] { w with
              mgr := { w.mgr with cron := c }, answers := rest, log := .clock t :: w.log } w' → w'.mgr.keepRunning = true →
            w'.mgr.deps.runnable = [] →
            (∃ es, w'.log = es ++ .clock t :: w.log ∧ ∀ e ∈ es, Starting e) →
            Good X (fun _ w' => Post X [] w w' ∧ w'.mgr.keepRunning = true ∧
              w'.mgr.deps.runnable = [] ∧ NothingDue X.zone X.cron w'.log)
              (spawnCronjobs env fuel w') := by
          rintro w' ⟨h1, es, h2⟩ h3 h4 ⟨es1, h8, h9⟩
          have hb' : Occupied X.programs w'.log := by
            have h8 : w'.log = (es1 ++ [.clock t]) ++ w.log := by rw [h8]; simp
            rw [h8] at h1 ⊢
            refine occupied_starting h1 h3 (fun e he => ?_) hb
            rcases List.mem_append.mp he with he | he
            · exact h9 e he
            · simp only [List.mem_singleton] at he; subst he; trivial
          refine (ih w' h1 h3 h4 hb').mono ?_
          rintro - w'' ⟨⟨h5, es', h6⟩, h7⟩
          exact ⟨⟨h5, es' ++ es ++ [.clock t], by rw [h6, h2]; simp⟩, h7⟩
        obtain ⟨F, P, g1, g2, g3, g4⟩ := hinv.deps
        cases hrn : w.mgr.deps.isRunnable i with
        | true =>
          have hu : Unblocked X.programs i (.clock t :: w.log) := by
            intro j hj
            have hiA : i ∈ w.mgr.deps.archive := by
              simpa [DepMgr.isRunnable] using hrn
            have := (g2 j).mp ((g1.archive_iff hi).mp hiA j hj)
            rcases this.2 with e | e
            · exact e
            · exact absurd (.inr ⟨j, e⟩) hsd
          refine Good.bind ((spawnChild_good i { w with
            mgr := { w.mgr with cron := c }, answers := rest, log := .clock t :: w.log } hinv
            ⟨hi, hu, hsd, fun e => absurd hiC e, fun _ => hdue, ?_, by simp⟩).with
            (fun a w' => spawnChild_adds i _ a w')) ?_
          · intro j hj
            simp
          · rintro - w' ⟨⟨h1, h2, h3⟩, h4⟩
            exact next w' h1 (h3.trans hk) (by rw [h2]; exact hrun) h4
        | false =>
          have hu : ¬ Unblocked X.programs i (.clock t :: w.log) := by
            intro hu
            have hiA : i ∈ w.mgr.deps.archive := by
              rw [show w.mgr.deps.archive = _ from rfl, g1.archive_iff hi]
              intro j hj
              exact (g2 j).mpr ⟨h.nocron j i hj, .inl (hu j hj)⟩
            have : w.mgr.deps.isRunnable i = true := by simpa [DepMgr.isRunnable] using hiA
            rw [hrn] at this; cases this
          show Good X _ ((emit (.postponed i) >>= fun _ => spawnCronjobs env fuel) _)
          simp only [emit_bind]
          refine next _ ⟨?_, [.postponed i], rfl⟩ hk hrun
            ⟨[.postponed i], rfl, fun e he => by simp only [List.mem_singleton] at he; subst he; trivial⟩
          have hq : Quiet (.postponed i) := trivial
          refine (hinv.same (same_quiet hq _) rfl ?_ ?_ (idle_cons fun _ h => by cases h)).drop ?_
            (not_due_cons fun _ h => by cases h)
          rotate_left 2
          · intro j hj hm
            simp only [Option.toList_some, List.mem_singleton] at hm
            subst hm; exact hj hiC
          · exact legal_cons hinv.legal hinv.calm
              ⟨hinv.planned,
                fun j hj => by have := hinv.idle j hj; simpa [attends, eq_comm] using this⟩
              (fun h => h) ⟨hiC, hdue, hu⟩
          · show obligations X.programs (_ :: .clock t :: w.log) = []
            rw [obligations_react hinv.calm]; rfl

theorem spawnChildren_good (env : Env) (hz : env.zone = X.zone) (w : World)
    (h : Inv X [] w.mgr w.kernel w.log) (hk : w.mgr.keepRunning = true)
    (hb : Occupied X.programs w.log) :
    Good X (fun _ w' => Post X [] w w' ∧ w'.mgr.keepRunning = true ∧
      w'.mgr.deps.runnable = [] ∧ NothingDue X.zone X.cron w'.log) (spawnChildren env w) := by
  unfold spawnChildren
  simp only [get_bind]
  refine Good.bind ((spawnRunnables_good _ w h hk (Nat.lt_succ_self _)).with
    (fun a w' => spawnRunnables_adds _ w a w')) ?_
  rintro - w' ⟨⟨h1, h2, h3⟩, es, h4, h5⟩
  simp only [get_bind]
  have hb' : Occupied X.programs w'.log := by
    rw [h4]
    exact occupied_starting (by rw [← h4]; exact h1.1) h2 h5 hb
  refine (spawnCronjobs_good env hz _ w' h1.1 h2 h3 hb').mono ?_
  rintro - w'' ⟨h4, h5⟩
  exact ⟨h1.trans h4, h5⟩

/-! ## The loops -/

theorem mainLoop_good (env : Env) (hz : env.zone = X.zone) (henv : env.rfc3339 = X.rfc3339)
    (fuel : Nat) (w : World) (h : Inv X [] w.mgr w.kernel w.log) :
    Good X (fun _ w' => Post X [] w w' ∧ (w'.mgr.keepRunning = true →
      w'.mgr.hasRunningProcesses = false ∧ w'.mgr.deps.runnable = []))
      (mainLoop env fuel w) := by
  induction fuel generalizing w with
  | zero => exact h.legal
  | succ fuel ih =>
    unfold mainLoop
    simp only [get_bind]
    split
    · rename_i hcond
      have hk : w.mgr.keepRunning = true := (Bool.and_eq_true _ _ ▸ hcond).1
      have hb : Occupied X.programs w.log := by
        rcases Bool.or_eq_true_iff.mp (Bool.and_eq_true _ _ ▸ hcond).2 with hb | hb
        · exact .inl (busy_of_running h.tables hb)
        · exact .inr ⟨h.keep.mp hk, released_of_runnable h hk hb⟩
      refine Good.bind ((spawnChildren_good env hz w h hk hb).with
        (fun a w' => spawnChildren_adds env w a w')) ?_
      rintro - w1 ⟨⟨h1, h2, h3, h3'⟩, es, hes, hst⟩
      refine Good.bind (dispatchEpoll_good env henv w1 h1.1 (fun _ => h3) (fun _ => h3') ?_) ?_
      · rw [hes]
        exact occupied_starting (by rw [← hes]; exact h1.1) h2 hst hb
      rintro - w2 h4
      simp only [get_bind]
      refine Good.bind (lookForFinishedChildren_good _ w2 h4.1) ?_
      rintro - w3 h5
      refine (ih w3 h5.1).mono ?_
      rintro - w4 ⟨h6, h7⟩
      exact ⟨((h1.trans h4).trans h5).trans h6, h7⟩
    · rename_i hcond
      refine ⟨Post.refl h rfl rfl rfl, fun hk => ?_⟩
      rw [hk, Bool.true_and, Bool.or_eq_true, not_or] at hcond
      obtain ⟨c1, c2⟩ := hcond
      refine ⟨by simpa using c1, ?_⟩
      simpa [DepMgr.hasRunnables] using c2

theorem keep_false {ex : List Nat} {w w' : World} (h : Inv X ex w.mgr w.kernel w.log)
    (hp : Post X ex w w') (hk : w.mgr.keepRunning = false) : w'.mgr.keepRunning = false := by
  obtain ⟨h1, es, h2⟩ := hp
  have hsd : ShuttingDown X.programs w.log := by
    by_cases hs : ShuttingDown X.programs w.log
    · exact hs
    · have := h.keep.mpr hs
      rw [hk] at this; cases this
  have := shuttingDown_append es hsd
  rw [← h2] at this
  cases hk' : w'.mgr.keepRunning with
  | false => rfl
  | true => exact absurd this (h1.keep.mp hk')

theorem shutdownLoop_good (env : Env) (henv : env.rfc3339 = X.rfc3339)
    (fuel : Nat) (w : World) (h : Inv X [] w.mgr w.kernel w.log)
    (hq : w.mgr.keepRunning = true →
      w.mgr.hasRunningProcesses = false ∧ w.mgr.deps.runnable = []) :
    Good X (fun _ w' => Post X [] w w' ∧ w'.mgr.hasRunningProcesses = false ∧
      Caught X w'.mgr) (shutdownLoop env fuel w) := by
  induction fuel generalizing w with
  | zero => exact h.legal
  | succ fuel ih =>
    unfold shutdownLoop
    simp only [get_bind]
    split
    · rename_i hcond
      have hk : w.mgr.keepRunning = false := by
        cases hk : w.mgr.keepRunning with
        | false => rfl
        | true => rw [(hq hk).1] at hcond; cases hcond
      refine Good.bind (dispatchEpoll_good env henv w h (fun e => by rw [hk] at e; cases e)
        (fun e => by rw [hk] at e; cases e) (.inl (busy_of_running h.tables hcond))) ?_
      rintro - w2 h4
      have hk2 := keep_false h h4 hk
      simp only [get_bind]
      refine Good.bind (lookForFinishedChildren_good _ w2 h4.1) ?_
      rintro - w3 h5
      have hk3 := keep_false h4.1 h5 hk2
      refine (ih w3 h5.1 (fun e => by rw [hk3] at e; cases e)).mono ?_
      rintro - w4 ⟨h6, h7⟩
      exact ⟨(h4.trans h5).trans h6, h7⟩
    · rename_i hcond
      exact ⟨Post.refl h rfl rfl rfl, by simpa using hcond, fun hk => (hq hk).2⟩

/-- A world cinit can start in: `ProcessManager::from` has been called. -/
structure Initial (X : Setting) (env : Env) (w : World) : Prop where
  zone : env.zone = X.zone
  render : env.rfc3339 = X.rfc3339
  log : w.log = []
  keep : w.mgr.keepRunning = true
  code : w.mgr.exitCode = 0
  tables : Tables X w.mgr []
  kern : Kern w.mgr w.kernel []
  deps : DepMgr.DepInv X.programs [] [] w.mgr.deps
  cron : w.mgr.cron = X.cron
  cronInv : X.cron.Inv (CronTimer ⟨X.programs⟩) (cronIds ⟨X.programs⟩)
  nocron : ∀ i j, DependsOn X.programs i j → ¬ isCronjob X.programs i

theorem Initial.inv {env : Env} {w : World} (h : Initial X env w) :
    Inv X [] w.mgr w.kernel w.log := by
  rw [h.log]
  have hcr : ¬ SomeCrash X.programs [] := fun ⟨i, hi⟩ => hi
  refine ⟨trivial, rfl, fun i hi => ?_, h.tables, h.kern, ?_, ⟨fun e => absurd e hcr, fun _ => h.code⟩,
    ⟨[], [], h.deps, ?_, ?_, fun i l' e => by cases e⟩, ⟨by rw [h.cron]; exact h.cronInv, by rw [h.cron]; rfl⟩, h.nocron⟩
  · obtain ⟨_, _, _, _, e, -⟩ := hi
    cases e
  · rw [h.keep]
    simp [ShuttingDown, Asked, hcr]
  · intro i
    simp [Finished, Completed, Terminated, Announced, Sometime]
  · intro i _
    simp [Attempted, Started]

theorem start_good (env : Env) (w : World) (h : Initial X env w) :
    Good X (fun code w' => Always (Legal X) w'.log ∧ ∃ past, w'.log = .exit code :: past)
      (start env w) := by
  have hinv := h.inv
  unfold start
  simp only [get_bind]
  refine Good.bind (setup_good hinv.legal _) ?_
  rintro b w1 ⟨k, rest, rfl, hb⟩
  cases b with
  | false =>
    show Good X _ (Out.ok (3 : Int) _)
    refine ⟨?_, w.log, rfl⟩
    exact legal_cons hinv.legal hinv.calm hinv.notDue (fun h => h) (.inl ⟨rfl, h.log⟩)
  | true =>
    cases hb rfl
    simp only [if_true, get_bind]
    have hinv1 : Inv X [] w.mgr
        { w.kernel with epoll := [w.mgr.signalFd, w.mgr.statusFd, w.mgr.notifyFd] } w.log := by
      refine { hinv with kern := { hinv.kern with epoll := ?_ } }
      intro fd hfd
      simp only [List.mem_cons, List.not_mem_nil, or_false] at hfd
      rcases hfd with e | e | e
      · exact .inl e
      · exact .inr (.inl e)
      · exact .inr (.inr (.inl e))
    refine Good.bind (mainLoop_good env h.zone h.render _ _ hinv1) ?_
    rintro - w2 ⟨h2, h3⟩
    simp only [get_bind]
    refine Good.bind (shutdownLoop_good env h.render _ w2 h2.1 h3) ?_
    rintro - w3 ⟨h4, h5, h6⟩
    simp only [get_bind]
    show Good X _ (Out.ok w3.mgr.exitCode { w3 with log := .exit w3.mgr.exitCode :: w3.log })
    refine ⟨?_, w3.log, rfl⟩
    have hi := h4.1
    simp only [hasRunningProcesses, Bool.or_eq_false_iff, Bool.not_eq_false'] at h5
    obtain ⟨⟨e1, e2⟩, e3⟩ := h5
    refine legal_cons hi.legal hi.calm hi.notDue (fun h => h) (.inr ⟨?_, ?_, hi.code.1, hi.code.2, ?_⟩)
    · intro p
      rw [← hi.tables.pids]
      exact (AMap.isEmpty_iff_get? _).mp e3 p
    · intro fd
      cases hs : stream w3.log fd with
      | none => rfl
      | some x =>
        obtain ⟨i, b⟩ := x
        cases b with
        | true =>
          have := (hi.tables.outs fd i).mpr hs
          rw [(AMap.isEmpty_iff_get? _).mp e1 fd] at this; cases this
        | false =>
          have := (hi.tables.errs fd i).mpr hs
          rw [(AMap.isEmpty_iff_get? _).mp e2 fd] at this; cases this
    · exact caught_attempted hi h6

end Cinit
