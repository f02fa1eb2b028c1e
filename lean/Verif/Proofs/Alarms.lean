import Verif.Spec.Troubles
import Verif.Proofs.TaleRuns
import Verif.Proofs.Service
/-!
# Warnings and errors of a run have a reason, and nothing that is one goes unmentioned
-/

namespace Cinit

open M Manager Logging Spec

variable {α β : Type} {ps : List ProcessConfig} {d : Inlets}

/-- What is fixed in the course of a run. -/
structure Stable (ps : List ProcessConfig) (d : Inlets) (m : Manager) : Prop where
  static : Static ps m
  inlets : m.inlets = d

/-- The warnings and errors among the entries of a part of a run are those warranted. -/
structure Rung (ps : List ProcessConfig) (d : Inlets) (w : World) (r : Out α × List Entry) : Prop where
  alarms : ∀ old, Alarms ps d w.log old → Alarms ps d r.1.log (old ++ r.2.filterMap alarmOf)
  stable : Stable ps d r.1.world.mgr

/-- Wherever it begins. -/
def Rings (ps : List ProcessConfig) (d : Inlets) (n : N α) : Prop :=
  ∀ w, Stable ps d w.mgr → Rung ps d w (n w)

namespace Rung

theorem bind {n : N α} {f : α → N β} {w : World} (h : Rung ps d w (n w))
    (hf : ∀ a w', (n w).1 = .ok a w' → Rung ps d w' (f a w')) : Rung ps d w ((n >>= f) w) := by
  show Rung ps d w (N.bind n f w)
  unfold N.bind
  revert h hf
  rcases n w with ⟨o, es⟩
  intro h hf
  cases o with
  | panic p w' => exact ⟨h.alarms, h.stable⟩
  | stuck w' => exact ⟨h.alarms, h.stable⟩
  | ok a w' =>
    have h2 := hf a w' rfl
    refine ⟨fun old ho => ?_, h2.stable⟩
    have := h2.alarms _ (h.alarms old ho)
    rw [List.append_assoc, ← List.filterMap_append] at this
    exact this

/-- Nothing happens. -/
theorem quiet {w : World} {o : Out α} {es : List Entry} (h1 : o.log = w.log)
    (h2 : es.filterMap alarmOf = []) (h3 : Stable ps d o.world.mgr) : Rung ps d w (o, es) := by
  refine ⟨fun old ho => ?_, h3⟩
  dsimp only
  rw [h1, h2, List.append_nil]
  exact ho

/-- One event happens. -/
theorem event {w : World} {r : Out α × List Entry} {e : Event} (h1 : r.1.log = e :: w.log)
    (h2 : Warrants ps d w.log e (r.2.filterMap alarmOf)) (h3 : Stable ps d r.1.world.mgr) :
    Rung ps d w r := by
  refine ⟨fun old ho => ?_, h3⟩
  rw [h1]
  exact ⟨old, _, rfl, ho, h2⟩

theorem «then» {X : Setting} {n : N α} {x : M α} {f : α → N β} {w : World}
    {Q : α → World → Prop} (h : Rung ps d w (n w)) (he : Erases n x) (hg : Good X Q (x w))
    (hf : ∀ a w', Q a w' → Stable ps d w'.mgr → Rung ps d w' (f a w')) :
    Rung ps d w ((n >>= f) w) := by
  refine h.bind fun a w' e => hf a w' ?_ ?_
  · rw [he w] at e
    rw [e] at hg
    exact hg
  · have := h.stable
    rw [e] at this
    exact this

end Rung

namespace Rings

theorem ret {a : α} : Rings ps d (N.pure a) := fun _ hs => .quiet rfl rfl hs

theorem fail {p : Panic} : Rings ps d (liftM (M.fail p : M α) : N α) := fun _ hs => .quiet rfl rfl hs

theorem stop : Rings ps d (liftM (M.stop : M α) : N α) := fun _ hs => .quiet rfl rfl hs

theorem seq {n : N α} {f : α → N β} (h : Rings ps d n) (hf : ∀ a, Rings ps d (f a)) :
    Rings ps d (n >>= f) := by
  intro w hs
  refine (h w hs).bind fun a w' e => hf a w' ?_
  have := (h w hs).stable
  rw [e] at this
  exact this

theorem get {f : World → N β} (hf : ∀ w, Stable ps d w.mgr → Rung ps d w (f w w)) :
    Rings ps d ((liftM M.get : N World) >>= f) := by
  intro w hs
  exact Rung.bind (n := (liftM M.get : N World)) (.quiet rfl rfl hs) fun a w' e => by
    cases e; exact hf w hs

theorem get' {f : World → N β} (hf : ∀ w, Stable ps d w.mgr → Rings ps d (f w)) :
    Rings ps d ((liftM M.get : N World) >>= f) := get fun w hs => hf w hs w hs

theorem call {f : Kernel → Answer → Option (α × Kernel)} :
    Rings ps d (liftM (Sys.call f) : N α) := by
  intro w hs
  show Rung ps d w (Sys.call f w, [])
  unfold Sys.call
  split
  · exact .quiet rfl rfl hs
  · split
    · exact .quiet rfl rfl hs
    · exact .quiet rfl rfl hs

theorem lift {r : Res Empty α} : Rings ps d (liftM (M.lift r) : N α) := by
  cases r with
  | ok a => exact ret
  | err e => exact nomatch e
  | panic p => exact fail

/-- Events that give no reason for alarm. -/
theorem emit {e : Event} (h : ∀ past, Warrants ps d past e []) :
    Rings ps d (liftM (M.emit e) : N Unit) :=
  fun w hs => .event (e := e) rfl (h w.log) hs

theorem modify {f : Manager → Manager} (h : ∀ m, (f m).procs = m.procs)
    (h' : ∀ m, (f m).inlets = m.inlets) : Rings ps d (liftM (modifyMgr f) : N Unit) := by
  intro w hs
  refine .quiet rfl rfl ⟨?_, (h' w.mgr).trans hs.inlets⟩
  intro i p hp
  exact hs.static i p (by rw [← h]; exact hp)

theorem when {c : Prop} [Decidable c] {n : N Unit} (h : Rings ps d n) : Rings ps d (N.when c n) := by
  unfold N.when
  split
  · exact h
  · exact ret

theorem forEach {f : α → N Unit} {l : List α} (h : ∀ a, Rings ps d (f a)) :
    Rings ps d (N.forEach f l) := by
  induction l with
  | nil => exact ret
  | cons a l ih => exact seq (h a) fun _ => ih

/-- Messages that are no warnings. -/
theorem write {es : List Entry} (h : es.filterMap alarmOf = []) : Rings ps d (N.write es) :=
  fun _ hs => .quiet rfl h hs

theorem say {module : List Str} {msg : Msg} (h : alarmOf (.own [] msg) = none) :
    Rings ps d (N.say module msg) := by
  refine write ?_
  have : alarmOf (.own ("cinit".toList :: "runtime".toList :: module) msg) = none := h
  rw [List.filterMap_cons, this]; rfl

theorem mseq {x : M α} {f : α → M β} (h : Rings ps d (liftM x : N α))
    (hf : ∀ a, Rings ps d (liftM (f a) : N β)) : Rings ps d (liftM (x >>= f) : N β) := by
  have : (liftM (x >>= f) : N β) = (liftM x : N α) >>= fun a => (liftM (f a) : N β) := by
    funext w
    show (M.bind x f w, []) = N.bind (N.lift x) (fun a => N.lift (f a)) w
    unfold M.bind N.bind N.lift
    cases x w <;> rfl
  rw [this]
  exact seq h hf

theorem mforEach {f : α → M Unit} {l : List α} (h : ∀ a, Rings ps d (liftM (f a) : N Unit)) :
    Rings ps d (liftM (M.forEach f l) : N Unit) := by
  induction l with
  | nil => exact ret
  | cons a l ih => exact mseq (h a) fun _ => ih

theorem set {i : Nat} {p : Process} (h : ∃ c, ps[i]? = some c ∧ c.name = p.name ∧
    (p.ptype = .cronjob ↔ isCronjob ps i) ∧ (p.ptype = .notify ↔ isNotify ps i)) :
    Rings ps d (liftM (modifyMgr (setProc i p)) : N Unit) :=
  fun w hs => .quiet rfl rfl ⟨(Speaks.set h w hs.static).static, hs.inlets⟩

/-- An answer of the kernel changes neither the tables nor the history. -/
theorem answered {f : Kernel → Answer → Option (α × Kernel)} {g : α → N β} {w : World}
    (hs : Stable ps d w.mgr)
    (hg : ∀ a w', w'.log = w.log → Stable ps d w'.mgr → Rung ps d w' (g a w')) :
    Rung ps d w (((liftM (Sys.call f) : N α) >>= g) w) := by
  refine (call (ps := ps) (d := d) w hs).bind fun a w' e => ?_
  have e : Sys.call f w = .ok a w' := e
  rcases call_cases (f := f) w with hf | ⟨r', k, rest, hf⟩
  · rw [hf] at e
    cases e
  · rw [hf] at e
    cases e
    exact hg _ _ rfl hs

/-- Nor does a computation. -/
theorem lifted {r : Res Empty α} {g : α → N β} {w : World} (hs : Stable ps d w.mgr)
    (hg : ∀ a, r = .ok a → Rung ps d w (g a w)) :
    Rung ps d w (((liftM (M.lift r) : N α) >>= g) w) := by
  refine (lift (ps := ps) (d := d) (r := r) w hs).bind fun a w' e => ?_
  have e : M.lift r w = .ok a w' := e
  cases r with
  | ok b => cases e; exact hg _ rfl
  | err e => exact nomatch e
  | panic p => cases e

end Rings

namespace Narrated

open Rings

variable (v : Voice) (env : Env)

theorem entries_alarms {module : List Str} (msgs : List Msg) :
    (entries module msgs).filterMap alarmOf = msgs.filterMap fun m => alarmOf (.own [] m) := by
  unfold entries
  rw [List.filterMap_map]
  rfl

theorem no_alarms {module : List Str} {msgs : List Msg} (h : ∀ m ∈ msgs, alarmOf (.own [] m) = none) :
    (entries module msgs).filterMap alarmOf = [] := by
  rw [entries_alarms, List.filterMap_eq_nil_iff]
  exact h

/-- The event just turned to. -/
def Turned (fd : Int) (l : Log) : Prop := ∃ ev past, l = .ready ev :: past ∧ ev.fd = fd

theorem reportStatus_rung {w : World} (hs : Stable ps d w.mgr) (ht : Turned d.statusFd w.log)
    (hne : d.statusFd ≠ d.signalFd) : Rung ps d w (reportStatus v env w) := by
  obtain ⟨ev, past, hl, hfd⟩ := ht
  have key : Warrants ps d w.log .failed [.failure .warn "Failed to print report".toList []] := by
    show _ = _
    rw [hl]
    dsimp only
    rw [hfd, if_neg hne, if_pos rfl]
  refine answered hs fun r w' hl' hs' => ?_
  rw [← hl'] at key
  cases r with
  | none => exact .event (e := .failed) rfl key hs'
  | some wrote =>
    refine Rung.bind (n := (liftM M.get : N World)) (.quiet rfl rfl hs') fun a w' e => ?_
    cases e
    refine lifted hs' fun text _ => ?_
    cases wrote with
    | true => exact .event (e := .report text) rfl rfl hs'
    | false => exact .event (e := .failed) rfl key hs'

theorem signalChildren_rings (sig : Nat) : Rings ps d (signalChildren sig) := by
  refine seq (say rfl) fun _ => ?_
  refine mseq (x := M.get) (fun w hs => .quiet rfl rfl hs) fun w => mforEach fun child => ?_
  refine mseq call fun b => ?_
  cases b with
  | true => exact emit (by intro; exact rfl)
  | false => exact fail

theorem initiateShutdown_rings (sig : Nat) : Rings ps d (initiateShutdown sig) :=
  seq (say rfl) fun _ => seq (modify (fun _ => rfl) fun _ => rfl) fun _ => signalChildren_rings sig

theorem handleSignal_rung {w : World} (hs : Stable ps d w.mgr) (ht : Turned d.signalFd w.log) :
    Rung ps d w (handleSignal v w) := by
  obtain ⟨ev, past, hl, hfd⟩ := ht
  have key : Warrants ps d w.log .failed [] := by
    show _ = _
    rw [hl]
    dsimp only
    rw [hfd, if_pos rfl]
  refine answered hs fun r w' hl' hs' => ?_
  rw [← hl'] at key
  cases r with
  | none =>
    refine Rung.bind (n := (liftM M.get : N World)) (.quiet rfl rfl hs') fun a w' e => ?_
    cases e
    refine Rung.bind (.event (e := .failed) rfl key hs') fun _ w' e => ?_
    cases e
    split
    · exact say rfl _ hs'
    · exact say rfl _ hs'
  | some n =>
    refine get' (fun w _ => seq (emit (by intro; exact rfl)) fun _ => ?_) w' hs'
    split
    · exact initiateShutdown_rings n
    · exact seq (when (initiateShutdown_rings _)) fun _ => when (say rfl)

theorem printChildOutput_rung {w : World} {fd : Int} (hs : Stable ps d w.mgr) (ht : Turned fd w.log)
    (h1 : fd ≠ d.statusFd) (h2 : fd ≠ d.notifyFd) : Rung ps d w (printChildOutput fd w) := by
  obtain ⟨ev, past, hl, hfd⟩ := ht
  have key : Warrants ps d w.log .failed [] := by
    show _ = _
    rw [hl]
    dsimp only
    rw [hfd, if_neg h1, if_neg h2]
    split <;> rfl
  refine answered hs fun r w' hl' hs' => ?_
  rw [← hl'] at key
  cases r with
  | none => exact .event (e := .failed) rfl key hs'
  | some bytes =>
    exact seq (emit (by intro; exact rfl)) (fun _ => get' fun w _ => seq lift
      fun child => forEach fun line => when (seq (emit (by intro; exact rfl)) fun _ => write rfl)) w' hs'

theorem graph_rings {d' : DepMgr} {i : Nat} :
    Rings ps d (N.write (entries inGraph (finishedMessages d' i))) := by
  refine write (no_alarms fun m hm => ?_)
  rw [mem_finishedMessages hm]
  rfl

theorem handleFinishedChild_rings (pid rc : Int) : Rings ps d (handleFinishedChild pid rc) := by
  refine get fun w hs => ?_
  cases w.mgr.processIdForPid pid with
  | none => exact seq (emit (by intro; exact rfl)) (fun _ => write rfl) w hs
  | some i =>
    dsimp only
    cases hc : w.mgr.procs[i]? with
    | none => exact fail w hs
    | some child =>
      obtain ⟨c, hc1, hc2, hc3, hc4⟩ := hs.static i child hc
      dsimp only
      rw [← N.assoc]
      have hev : Rung ps d w (((liftM (M.emit (.waited pid rc (some i))) : N Unit) >>= fun _ =>
          N.write (entries inManager (endMessages child rc))) w) := by
        refine .event (e := .waited pid rc (some i)) rfl ⟨c, hc1, ?_⟩ hs
        show (entries inManager (endMessages child rc)).filterMap alarmOf = _
        rw [entries_alarms, hc2]
        unfold endMessages
        split
        · split <;> rfl
        · rfl
      refine hev.bind fun a w' e => ?_
      have hs' : Stable ps d w'.mgr := by
        have := hev.stable
        rw [e] at this
        exact this
      refine seq (set ?_) (fun _ => seq (when (c := rc ≠ 0) ?_) fun _ =>
        seq (f := fun _ => N.when (child.ptype ≠ .cronjob) _) (modify (f := deregisterPid pid)
          (fun _ => rfl) fun _ => rfl) fun _ => when ?_) w' hs'
      · exact ⟨c, hc1, hc2, hc3, hc4⟩
      · exact seq (modify (fun _ => rfl) fun _ => rfl) fun _ => initiateShutdown_rings _
      · exact get' fun w _ => seq graph_rings fun _ => seq lift fun d => modify (fun _ => rfl) fun _ => rfl

theorem lookForFinishedChildren_rings (fuel : Nat) :
    Rings ps d (lookForFinishedChildren v fuel) := by
  induction fuel with
  | zero => exact stop
  | succ fuel ih =>
    refine seq call fun r => ?_
    cases r with
    | exited pid code =>
      exact get' fun w _ => seq (say rfl) fun _ => seq (handleFinishedChild_rings pid code) fun _ => ih
    | killed pid sig =>
      dsimp only
      split
      · exact get' fun w _ => seq (say rfl) fun _ => seq (handleFinishedChild_rings pid sig) fun _ => ih
      · exact emit (by intro; exact rfl)
    | alive => exact emit (by intro; exact rfl)
    | other => exact get' fun w _ => seq (say rfl) fun _ => ih
    | error => exact emit (by intro; exact rfl)

theorem registerFd_rings (fd : Int) : Rings ps d (registerFd fd) := by
  refine seq (say rfl) fun _ => seq call fun b => fun w hs => ?_
  cases b with
  | true => exact .event (e := .watched fd true) rfl rfl hs
  | false => exact .event (e := .watched fd false) rfl rfl hs

theorem pty_alarms {l : Log} {p : Process} {m : Msg}
    (h : m ∈ ptyMessages v l p ∨ m ∈ ptysCreated p) : alarmOf (.own [] m) = none := by
  unfold ptyMessages ptysCreated at h
  split at h
  · rcases h with h | h
    · rcases List.mem_append.mp h with h | h
      · split at h
        · simp only [List.mem_singleton] at h
          subst h; rfl
        · cases h
      · split at h
        · simp only [List.mem_singleton] at h
          subst h; rfl
        · cases h
    · simp only [List.mem_singleton] at h
      subst h; rfl
  · rcases h with h | h <;> cases h

theorem spawnChild_rings (i : Nat) : Rings ps d (spawnChild v i) := by
  refine get fun w hs => ?_
  cases hc : w.mgr.procs[i]? with
  | none => exact fail w hs
  | some child =>
    obtain ⟨c, hc1, hc2, hc3, hc4⟩ := hs.static i child hc
    dsimp only
    split
    · refine .event (e := .refused i child.state) rfl ⟨c, hc1, ?_⟩ hs
      rw [hc2]
      rfl
    · refine Rung.bind (write (ps := ps) (d := d) (by rfl) w hs) fun _ w' e => ?_
      cases e
      refine answered hs fun r w' hl' hs' => ?_
      cases r with
      | none =>
        refine .event (e := .spawnFailed i) rfl ⟨v.noFork w.log, ?_⟩ hs'
        show (entries inProcess _ ++ [_]).filterMap alarmOf = _
        rw [List.filterMap_append, entries_alarms, List.filterMap_append,
          List.filterMap_eq_nil_iff.mpr fun m hm => pty_alarms v (.inl hm)]
        cases v.noFork w.log with
        | true =>
          rw [if_pos rfl, if_pos rfl, List.filterMap_append,
            List.filterMap_eq_nil_iff.mpr fun m hm => pty_alarms v (l := []) (.inr hm)]
          rfl
        | false =>
          have : (if v.ptysCreated w.log then ptysCreated child else []).filterMap
              (fun m => alarmOf (.own [] m)) = [] := by
            rw [List.filterMap_eq_nil_iff]
            intro m hm
            split at hm
            · exact pty_alarms v (l := []) (.inr hm)
            · cases hm
          show _ ++ List.filterMap _ (if v.ptysCreated w.log then ptysCreated child else []) ++ _ = _
          rw [this]
          rfl
      | some t =>
        obtain ⟨pid, out, err⟩ := t
        have hrest : Rings ps d (do
            N.write (entries inProcess (ptyMessages v w.log child ++ ptysCreated child ++
              [.startedName child.name, .startedPid pid]))
            M.modifyMgr (setProc i (child.started pid))
            registerFd out
            registerFd err
            M.modifyMgr (registerPid i pid)
            M.modifyMgr (registerStdout i out)
            M.modifyMgr (registerStderr i err) : N Unit) := by
          refine seq (write (no_alarms fun m hm => ?_)) fun _ =>
            seq (set ⟨c, hc1, hc2, hc3, hc4⟩) fun _ => seq (registerFd_rings out)
              fun _ => seq (registerFd_rings err) fun _ => seq (modify (fun _ => rfl) fun _ => rfl)
              fun _ => seq (modify (fun _ => rfl) fun _ => rfl) fun _ =>
                modify (fun _ => rfl) fun _ => rfl
          rcases List.mem_append.mp hm with hm | hm
          · exact pty_alarms v (List.mem_append.mp hm)
          · simp only [List.mem_cons, List.not_mem_nil, or_false] at hm
            rcases hm with rfl | rfl <;> rfl
        exact seq (emit (e := .spawned i pid out err) (by intro; exact rfl)) (fun _ => hrest) w' hs'

theorem spawnRunnables_rings (fuel : Nat) : Rings ps d (spawnRunnables v fuel) := by
  induction fuel with
  | zero => exact ret
  | succ fuel ih =>
    refine get' fun w _ => ?_
    rcases w.mgr.deps.popRunnable with ⟨_ | i, d⟩
    · exact ret
    · refine seq (modify (fun _ => rfl) fun _ => rfl) fun _ => ?_
      cases w.mgr.procs[i]? with
      | none => exact fail
      | some p => exact seq (when (spawnChild_rings v i)) fun _ => ih

theorem spawnCronjobs_rings (fuel : Nat) : Rings ps d (spawnCronjobs v env fuel) := by
  induction fuel with
  | zero => exact stop
  | succ fuel ih =>
    refine seq call fun t => seq (emit (by intro; exact rfl)) fun _ =>
      get' fun w hs => seq (write (no_alarms fun m hm => ?_)) fun _ => seq lift fun r => ?_
    · unfold cronMessages at hm
      split at hm
      · cases hm
      · split at hm
        · split at hm
          · split at hm
            · simp only [List.mem_singleton] at hm
              subst hm; rfl
            · cases hm
          · cases hm
        · cases hm
    · rcases r with ⟨_ | i, c⟩
      · exact modify (fun _ => rfl) fun _ => rfl
      · refine seq (modify (fun _ => rfl) fun _ => rfl) fun _ => ?_
        cases hc : w.mgr.procs[i]? with
        | none => exact fail
        | some p =>
          refine seq ?_ fun _ => ih
          cases w.mgr.deps.isRunnable i with
          | true => exact spawnChild_rings v i
          | false => exact seq (emit (by intro; exact rfl)) fun _ => write rfl

theorem spawnChildren_rings : Rings ps d (spawnChildren v env) :=
  get' fun _ _ => seq (spawnRunnables_rings v _) fun _ => get' fun _ _ => spawnCronjobs_rings v env _

end Narrated

end Cinit
