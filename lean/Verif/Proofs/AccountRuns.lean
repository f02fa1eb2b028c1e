import Verif.Proofs.Account
/-!
# Each entry of the log of a whole run has its reason
-/

namespace Cinit

open M Manager Logging Spec

variable {α β : Type} {T : Telling}

namespace Narrated

open Chronicles

variable (env : Env)

/-! ## Starting programs -/

theorem registerFd_chron (fd : Int) : Chronicles T (registerFd fd) := by
  intro w hs
  have hc : Sys.epollAdd fd w = .stuck w ∨
      ∃ r k rest, Sys.epollAdd fd w = .ok r { w with kernel := k, answers := rest } := call_cases w
  rcases hc with hf | ⟨b, k, rest, hf⟩
  · have hb : registerFd fd w = (.stuck w, said byManager [.counted "Registering fd ".toList fd []]) := by
      unfold registerFd
      rw [N.bind_ok (n := N.say _ _) rfl, N.bind_stuck (n := (liftM (Sys.epollAdd fd) : N Bool))
        (es := []) (congrArg (fun o => (o, [])) hf)]
      rfl
    rw [hb]
    exact ⟨⟨[], _, rfl, fun old ho => by rw [List.append_nil]; exact ho, .inr ⟨trivial, .inr ⟨fd, rfl⟩⟩⟩,
      fun _ _ e => by cases e⟩
  · have hb : registerFd fd w = (.ok () { w with kernel := k, answers := rest, log := .watched fd b :: w.log },
        said byManager (.counted "Registering fd ".toList fd [] ::
          if b then [] else [.fixed .warn "Could not unregister fd from epoll".toList])) := by
      unfold registerFd
      rw [N.bind_ok (n := N.say _ _) rfl, N.bind_ok (n := (liftM (Sys.epollAdd fd) : N Bool))
        (es := []) (congrArg (fun o => (o, [])) hf)]
      cases b <;> rfl
    rw [hb]
    refine .event (e := .watched fd b) rfl ?_ fun _ _ e => by cases e; exact hs.same rfl rfl rfl rfl
    cases b <;> exact rfl

theorem told_said {target : List Str} {msgs : List Msg} (h : ∀ m ∈ msgs, ∀ a b, m ≠ .debugged a b) :
    (said target msgs).filter uttered = said target msgs := by
  refine own_told fun m hm => ?_
  cases m <;> first | rfl | exact absurd rfl (h _ hm _ _)

theorem pty_same {w : Log} {p : Process} {c : ProcessConfig} (h : c.emulatePty = p.emulatePty) :
    ptyMessages T.voice w p = aboutTerminals T w c ∧ ptysCreated p = terminalsMade c := by
  unfold ptyMessages aboutTerminals ptysCreated terminalsMade
  rw [h]
  exact ⟨rfl, rfl⟩

theorem pty_told {l : Log} {c : ProcessConfig} {m : Msg}
    (h : m ∈ aboutTerminals T l c ∨ m ∈ terminalsMade c) : ∀ a b, m ≠ .debugged a b := by
  unfold aboutTerminals terminalsMade at h
  split at h
  · rcases h with h | h
    · rcases List.mem_append.mp h with h | h
      · split at h
        · simp only [List.mem_singleton] at h
          subst h; exact fun _ _ e => by cases e
        · cases h
      · split at h
        · simp only [List.mem_singleton] at h
          subst h; exact fun _ _ e => by cases e
        · cases h
    · simp only [List.mem_singleton] at h
      subst h; exact fun _ _ e => by cases e
  · rcases h with h | h <;> cases h

/-- What is done in the parent once a program has been started. -/
def adopt (i : Nat) (child : Process) (pid out err : Int) : N Unit := do
  M.modifyMgr (setProc i (child.started pid))
  registerFd out
  registerFd err
  M.modifyMgr (registerPid i pid)
  M.modifyMgr (registerStdout i out)
  M.modifyMgr (registerStderr i err)

theorem adopt_chron {i : Nat} {child : Process} {pid out err : Int} {w : World} (hs : Steady T w)
    (hc : w.mgr.procs[i]? = some child) : Chronicled T w (adopt i child pid out err w) := by
  refine Chronicled.bind (n := (liftM (M.modifyMgr (setProc i (child.started pid))) : N Unit)) ?_
    fun _ u _ hu => ?_
  · refine .quiet rfl rfl fun _ _ e => ?_
    cases e
    exact hs.set (p' := child.started pid) hc rfl rfl rfl rfl rfl rfl rfl
  · exact seq (registerFd_chron out) (fun _ => seq (registerFd_chron err) fun _ =>
      seq (modify (f := registerPid i pid) (fun _ => rfl) (fun _ => rfl) fun _ => rfl) fun _ =>
      seq (modify (f := registerStdout i out) (fun _ => rfl) (fun _ => rfl) fun _ => rfl) fun _ =>
      modify (f := registerStderr i err) (fun _ => rfl) (fun _ => rfl) fun _ => rfl) u hu

theorem spawnChild_chron (i : Nat) : Chronicles T (spawnChild T.voice i) := by
  intro w hs
  show Chronicled T w ((match w.mgr.procs[i]? with | none => _ | some child => _ : N Unit) w)
  cases hc : w.mgr.procs[i]? with
  | none => exact fail w hs
  | some child =>
    obtain ⟨c, hc1, hc2, hc3, -⟩ := hs.config hc
    obtain ⟨hp1, hp2⟩ := pty_same (T := T) (w := w.log) hc3
    dsimp only
    split
    · refine .event (e := .refused i child.state) rfl ⟨c, hc1, ?_⟩
        fun _ _ e => by cases e; exact hs.same rfl rfl rfl rfl
      rw [hc2]
      rfl
    · have hcases : Sys.fork w = .stuck w ∨
          ∃ r k rest, Sys.fork w = .ok r { w with kernel := k, answers := rest } := call_cases w
      rcases hcases with hf | ⟨r, k, rest, hf⟩
      · rw [N.bind_ok (n := N.write _) rfl, N.bind_stuck (n := (liftM Sys.fork : N _))
          (es := []) (congrArg (fun o => (o, [])) hf)]
        refine ⟨⟨[], said byProcess [.starting c.name], ?_, fun old ho =>
          (List.append_nil old).symm ▸ ho, .inr ⟨trivial, .inl ⟨c, List.mem_of_getElem? hc1, rfl⟩⟩⟩,
          fun _ _ e => by cases e⟩
        rw [hc2]
        rfl
      · rw [N.bind_ok (n := N.write _) rfl, N.bind_ok (n := (liftM Sys.fork : N _))
          (es := []) (congrArg (fun o => (o, [])) hf)]
        cases r with
        | none =>
          refine .event (e := .spawnFailed i) rfl ⟨c, hc1, ?_⟩
            fun _ _ e => by cases e; exact hs.same rfl rfl rfl rfl
          show List.filter uttered (entries inProcess [.starting child.name] ++ (entries inProcess _ ++ [_])) = _
          rw [hp1, hp2, ← hc2, ← List.append_assoc, List.filter_append]
          congr 1
          · have he : entries inProcess [.starting c.name] ++ entries inProcess (aboutTerminals T w.log c ++
                if T.voice.noFork w.log = true then terminalsMade c ++ [Msg.fixed Level.error "Forking failed".toList]
                else if T.voice.ptysCreated w.log = true then terminalsMade c else []) =
              said byProcess ([.starting c.name] ++ aboutTerminals T w.log c ++
                if T.voice.noFork w.log = true then terminalsMade c ++ [Msg.fixed Level.error "Forking failed".toList]
                else if T.voice.ptysCreated w.log = true then terminalsMade c else []) := by
              rw [List.append_assoc]
              exact List.map_append.symm
            rw [he]
            refine told_said fun m hm => ?_
            rcases List.mem_append.mp hm with hm | hm
            · rcases List.mem_append.mp hm with hm | hm
              · simp only [List.mem_singleton] at hm
                subst hm; exact fun _ _ e => by cases e
              · exact pty_told (.inl hm)
            · split at hm
              · rcases List.mem_append.mp hm with hm | hm
                · exact pty_told (T := T) (l := []) (.inr hm)
                · simp only [List.mem_singleton] at hm
                  subst hm; exact fun _ _ e => by cases e
              · split at hm
                · exact pty_told (T := T) (l := []) (.inr hm)
                · cases hm
        | some x =>
          obtain ⟨pid, out, err⟩ := x
          have ha := adopt_chron (T := T) (i := i) (child := child) (pid := pid) (out := out) (err := err)
            (w := { w with kernel := k, answers := rest, log := .spawned i pid out err :: w.log })
            (hs.same rfl rfl rfl rfl) hc
          have := ha.after (w := w) (e := .spawned i pid out err)
            (es := said byProcess ([.starting c.name] ++ aboutTerminals T w.log c ++ terminalsMade c ++
              [.startedName c.name, .startedPid pid])) rfl ⟨c, hc1, by
              refine told_said fun m hm => ?_
              rcases List.mem_append.mp hm with hm | hm
              · rcases List.mem_append.mp hm with hm | hm
                · rcases List.mem_append.mp hm with hm | hm
                  · simp only [List.mem_singleton] at hm
                    subst hm; exact fun _ _ e => by cases e
                  · exact pty_told (.inl hm)
                · exact pty_told (T := T) (l := []) (.inr hm)
              · simp only [List.mem_cons, List.not_mem_nil, or_false] at hm
                rcases hm with rfl | rfl <;> exact fun _ _ e => by cases e⟩
          refine Eq.mp ?_ this
          congr 1
          refine Prod.ext rfl ?_
          show said byProcess _ ++ (adopt i child pid out err _).2 =
            entries inProcess [.starting child.name] ++ (entries inProcess _ ++ (adopt i child pid out err _).2)
          rw [hp1, hp2, ← hc2, ← List.append_assoc]
          congr 1

theorem spawnRunnables_chron (fuel : Nat) : Chronicles T (spawnRunnables T.voice fuel) := by
  induction fuel with
  | zero => exact ret
  | succ fuel ih =>
    intro w hs
    show Chronicled T w ((match w.mgr.deps.popRunnable with | (none, _) => _ | (some i, d) => _ : N Unit) w)
    rcases w.mgr.deps.popRunnable with ⟨_ | i, d'⟩
    · exact ret w hs
    · refine seq (modify (f := fun m => { m with deps := d' }) (fun _ => rfl) (fun _ => rfl) fun _ => rfl)
        (fun _ => ?_) w hs
      cases w.mgr.procs[i]? with
      | none => exact fail
      | some p => exact seq (when (spawnChild_chron i)) fun _ => ih

theorem cronMessages_about {w : World} (hz : env.zone = T.setting.zone)
    (hr : env.rfc3339 = T.setting.rfc3339) (hs : Steady T w) (t : Int) :
    AboutClock T.setting w.log t (entries inCron (cronMessages env w.mgr.cron t)) := by
  refine ⟨w.mgr.cron, hs.cron.sched, ?_⟩
  have hsort := hs.cron.inv.sorted
  unfold cronMessages
  cases ht : w.mgr.cron.timer with
  | nil => exact .inl ⟨by simp, rfl⟩
  | cons x rest =>
    obtain ⟨t0, i⟩ := x
    dsimp only
    split
    · rename_i hle
      have hmem : i ∈ cronIds ⟨T.setting.programs⟩ := by
        apply hs.cron.inv.perm.mem_iff.mp
        rw [ht]; simp
      obtain ⟨td, htd, -⟩ := hs.cron.inv.timers i hmem
      refine .inr ⟨t0, i, rest, td, rfl, hle, htd, ?_⟩
      rw [htd, hz]
      dsimp only
      cases td.next T.setting.zone t with
      | ok t' => rw [hr]; rfl
      | err e => rfl
      | panic p => rfl
    · rename_i hle
      refine .inl ⟨fun x hx => ?_, rfl⟩
      rw [ht] at hsort
      rcases List.mem_cons.mp hx with rfl | hx
      · omega
      · have := (List.pairwise_cons.mp hsort).1 x hx
        have := this
        omega

theorem spawnCronjobs_chron (hz : env.zone = T.setting.zone)
    (hr : env.rfc3339 = T.setting.rfc3339) (fuel : Nat) :
    Chronicles T (spawnCronjobs T.voice env fuel) := by
  induction fuel with
  | zero => exact stop
  | succ fuel ih =>
    intro w hs
    refine answered hs fun t w' hl' hm' hs' => ?_
    have hab : (entries inCron (cronMessages env w'.mgr.cron t)).filter uttered =
        entries inCron (cronMessages env w'.mgr.cron t) := by
      refine own_told fun m hm => ?_
      unfold cronMessages at hm
      split at hm
      · cases hm
      · split at hm
        · split at hm
          · split at hm
            · simp only [List.mem_singleton] at hm
              subst hm; rfl
            · cases hm
          · cases hm
        · cases hm
    have key : ∀ (r : Out Unit × List Entry) (w1 : World), w1.log = .clock t :: w'.log →
        Chronicled T w1 r →
        Chronicled T w' (r.1, entries inCron (cronMessages env w'.mgr.cron t) ++ r.2) := by
      intro r w1 h1 h2
      refine h2.after h1 ?_
      rw [hab]
      exact cronMessages_about env hz hr hs' t
    obtain ⟨s1, s2, s3⟩ := Cron.popRunnable_spec (z := T.setting.zone) (now := t) hs'.cron.inv
    show Chronicled T w' (((liftM (M.lift (w'.mgr.cron.popRunnable env.zone t)) : N (Option Nat × Cron)) >>= _)
      { w' with log := .clock t :: w'.log } |>.1, entries inCron (cronMessages env w'.mgr.cron t) ++
      (((liftM (M.lift (w'.mgr.cron.popRunnable env.zone t)) : N (Option Nat × Cron)) >>= _)
      { w' with log := .clock t :: w'.log }).2)
    refine key _ { w' with log := .clock t :: w'.log } rfl ?_
    rw [hz]
    refine lifted fun r hpop => ?_
    have hsch : schedule T.setting.zone T.setting.cron (.clock t :: w'.log) = some r.2 := by
      simp only [schedule, hs'.cron.sched, hpop]
    obtain ⟨o, c⟩ := r
    cases o with
    | none =>
      obtain ⟨rfl, -⟩ := s1 c hpop
      refine .quiet rfl rfl fun _ _ e => ?_
      cases e
      exact ⟨hs'.static, hs'.pty, hs'.inlets, ⟨hs'.cron.inv, hsch⟩⟩
    | some i =>
      have hinv := (s2 i c hpop).1
      have hst : Steady T { w' with mgr := { w'.mgr with cron := c }, log := .clock t :: w'.log } :=
        ⟨hs'.static, hs'.pty, hs'.inlets, ⟨hinv, hsch⟩⟩
      show Chronicled T { w' with log := .clock t :: w'.log } ((match w'.mgr.procs[i]? with
        | none => _ | some p => _ : N Unit) { w' with mgr := { w'.mgr with cron := c }, log := .clock t :: w'.log })
      have : ∀ n : N Unit, Chronicles T n → Chronicled T { w' with log := .clock t :: w'.log }
          (n { w' with mgr := { w'.mgr with cron := c }, log := .clock t :: w'.log }) := by
        intro n hn
        exact ⟨(hn _ hst).account, (hn _ hst).steady⟩
      cases hp : w'.mgr.procs[i]? with
      | none => exact this _ fail
      | some p =>
        obtain ⟨c', hc1, hc2, -⟩ := hs'.config hp
        refine this _ (seq ?_ fun _ => ih)
        cases w'.mgr.deps.isRunnable i with
        | true => exact spawnChild_chron i
        | false =>
          intro u hu
          refine .event (e := .postponed i) rfl ⟨c', hc1, ?_⟩
            fun _ _ e => by cases e; exact hu.same rfl rfl rfl rfl
          rw [hc2]
          rfl

theorem spawnChildren_chron (hz : env.zone = T.setting.zone)
    (hr : env.rfc3339 = T.setting.rfc3339) : Chronicles T (spawnChildren T.voice env) :=
  get fun w hs => seq (spawnRunnables_chron _) (fun _ => get fun w hs =>
    spawnCronjobs_chron env hz hr _ w hs) w hs

/-! ## Messages of programs -/

theorem splitFirst_eq (c : Char) (s : Str) : splitFirst c s = (s.takeWhile (· ≠ c),
    if c ∈ s then some ((s.dropWhile (· ≠ c)).drop 1) else none) := by
  induction s with
  | nil => rfl
  | cons x xs ih =>
    unfold splitFirst
    by_cases h : x = c
    · subst h
      simp
    · have h' : ¬ c = x := fun e => h e.symm
      rw [if_neg h, ih]
      simp [List.takeWhile_cons, List.dropWhile_cons, h, h']

theorem parseMessages_about (line : Str) : parseMessages line = aboutLine line := by
  have e : allowedKeys = ["READY".toList, "STOPPING".toList, "STATUS".toList, "MAINPID".toList] := rfl
  unfold parseMessages aboutLine
  rw [splitFirst_eq, ← e]
  by_cases h : '=' ∈ line
  · rw [if_pos h, if_neg (fun h' => h' h)]
    dsimp only
    by_cases hk : line.takeWhile (· ≠ '=') ∈ allowedKeys
    · rw [if_pos hk, if_pos (List.contains_iff_mem.mpr hk)]
    · rw [if_neg hk, if_neg (fun h => hk (List.contains_iff_mem.mp h))]
  · rw [if_neg h, if_pos h]

theorem variableMessages_about (l : Log) (V : AMap Str Str) (hV : ∀ x ∈ V, x.1 ∈ allowedKeys)
    (p : Process) : variableMessages T.voice l p V =
      aboutValues p.name (T.voice.error l) p.state p.pid V := by
  induction V generalizing p with
  | nil => rfl
  | cons x V ih =>
    obtain ⟨k, s⟩ := x
    have hk := hV (k, s) (by simp)
    have ih := ih (fun x hx => hV x (List.mem_cons_of_mem _ hx))
    have e1 : Process.keyReady = "READY".toList := rfl
    have e2 : Process.keyStopping = "STOPPING".toList := rfl
    have e3 : Process.keyStatus = "STATUS".toList := rfl
    have e4 : Process.keyMainpid = "MAINPID".toList := rfl
    have e : allowedKeys = [Process.keyReady, Process.keyStopping, Process.keyStatus, Process.keyMainpid] := rfl
    rw [variableMessages, aboutValues, ih, ← e1, ← e2, ← e3]
    unfold notificationMessages Process.handleNotification
    by_cases h1 : k = Process.keyReady
    · rw [if_pos h1, if_pos h1, if_pos h1]
      by_cases hs : s = ['1']
      · subst hs
        by_cases hst : p.state = .starting
        · simp [hst]
        · simp [hst]
      · simp [hs]
    · rw [if_neg h1, if_neg h1, if_neg h1]
      by_cases h2 : k = Process.keyStopping
      · rw [if_pos h2, if_pos h2, if_pos h2]
        by_cases hs : s = ['1']
        · rw [if_neg (by simp [hs]), if_neg (by simp [hs]), if_pos hs]
        · rw [if_pos hs, if_pos hs, if_neg hs]
          rfl
      · rw [if_neg h2, if_neg h2, if_neg h2]
        by_cases h3 : k = Process.keyStatus
        · rw [if_pos h3, if_pos h3, if_pos h3]
          rfl
        · have h4 : k = Process.keyMainpid := by
            rw [e] at hk
            simp only [List.mem_cons, List.not_mem_nil, or_false] at hk
            rcases hk with h | h | h | h
            · exact absurd h h1
            · exact absurd h h2
            · exact absurd h h3
            · exact h
          rw [if_neg h3, if_neg h3, if_neg h3, if_pos h4, if_pos h4]
          cases parseI32 s with
          | none => rfl
          | some r =>
            dsimp only
            by_cases hr : r = p.pid
            · rw [if_neg (by simp [hr]), if_pos hr, hr]
              rfl
            · rw [if_pos hr, if_neg hr]

theorem processEntries_about {m : Manager} {k : Kernel} {past : Log}
    (h : Inv T.setting [] m k past) (ord : HashOrder) (text : Str) (q : Int) :
    AboutMessage T past q text (said byNotify [.received text q] ++
      processEntries T.voice (.datagram q text :: past) ord m text q) := by
  have ho : m.processIdForPid q = owner T.setting.programs past q := h.tables.pids q
  unfold processEntries AboutMessage
  rw [ho]
  cases ho' : owner T.setting.programs past q with
  | none => rfl
  | some i =>
    obtain ⟨hilt, -⟩ := owner_facts h.legal ho'
    obtain ⟨p, hp, hok⟩ := h.tables.proc hilt
    obtain ⟨c, hc1, hc2, hc3, hc4⟩ := static_of_tables h.tables i p hp
    have hcn : c.ptype = .notify ↔ p.ptype = .notify := by
      rw [hc4]
      exact ⟨fun e => ⟨c, hc1, e⟩, fun ⟨c', e1, e2⟩ => by
        have := e1.symm.trans hc1
        cases this; exact e2⟩
    dsimp only
    rw [hp]
    dsimp only
    refine ⟨c, hc1, ?_⟩
    by_cases hn : p.ptype = .notify
    · rw [if_pos (hcn.mpr hn), if_neg (fun h => h hn)]
      obtain ⟨hw, hk⟩ := parseNotification_wf text
      have hperm := ord.perm (parseNotification text)
      have hget : AMap.get? (ord.apply (parseNotification text)) Process.keyReady =
          assigned text "READY".toList := by
        rw [(AMap.get?_perm hw hperm _).2, parseNotification_get (by simp [allowedKeys])]
        rfl
      have hcr : ¬ isCronjob T.setting.programs i := by
        rintro ⟨c', e1, t, e2⟩
        have := e1.symm.trans hc1
        cases this
        rw [hcn.mpr hn] at e2
        cases e2
      have hg := finishedMessages_if h hilt hcr
      refine ⟨ord.apply (parseNotification text), entries inGraph
        (if AMap.get? (ord.apply (parseNotification text)) Process.keyReady = some ['1'] then
          finishedMessages m.deps i else []), hperm.trans (variables_perm text), ?_, ?_⟩
      · rw [hget]
        by_cases hr : saysReady text
        · rw [if_pos (by exact hr)]
          exact ⟨fun e => hg.1 e.2, fun e => hg.2 fun e' => e ⟨hr, e'⟩⟩
        · rw [if_neg (by exact hr)]
          exact ⟨fun e => absurd e.1 hr, fun _ => rfl⟩
      · rw [variableMessages_about _ _ (fun x hx => hk _ (List.mem_map_of_mem (hperm.mem_iff.mp hx))),
          ← List.append_assoc, ← List.append_assoc, hc2, hok.state, hok.pid]
        have : (lines text).flatMap parseMessages = (lines text).flatMap aboutLine :=
          congrArg (fun f => List.flatMap f (lines text)) (funext parseMessages_about)
        rw [this]
        rfl
    · rw [if_neg (fun e => hn (hcn.mp e)), if_pos hn, hc2]
      rfl

theorem not_debugged_line {m : Msg} {line : Str} (h : m ∈ aboutLine line) : ∀ a b, m ≠ .debugged a b := by
  unfold aboutLine at h
  split at h
  · simp only [List.mem_singleton] at h
    subst h; exact fun _ _ e => by cases e
  · split at h
    · cases h
    · simp only [List.mem_singleton] at h
      subst h; exact fun _ _ e => by cases e

theorem not_debugged_notification {v : Voice} {l : Log} {p : Process} {k s : Str} {m : Msg}
    (h : m ∈ notificationMessages v l p k s) : ∀ a b, m ≠ .debugged a b := by
  unfold notificationMessages at h
  split at h
  · split at h
    · simp only [List.mem_singleton] at h
      subst h; exact fun _ _ e => by cases e
    · split at h
      · simp only [List.mem_cons, List.not_mem_nil, or_false] at h
        rcases h with rfl | rfl <;> exact fun _ _ e => by cases e
      · simp only [List.mem_singleton] at h
        subst h; exact fun _ _ e => by cases e
  · split at h
    · split at h
      · simp only [List.mem_singleton] at h
        subst h; exact fun _ _ e => by cases e
      · simp only [List.mem_cons, List.not_mem_nil, or_false] at h
        rcases h with rfl | rfl <;> exact fun _ _ e => by cases e
    · split at h
      · simp only [List.mem_singleton] at h
        subst h; exact fun _ _ e => by cases e
      · split at h
        · split at h
          · simp only [List.mem_singleton] at h
            subst h; exact fun _ _ e => by cases e
          · split at h
            · simp only [List.mem_cons, List.not_mem_nil, or_false] at h
              rcases h with rfl | rfl <;> exact fun _ _ e => by cases e
            · cases h
        · cases h

theorem processEntries_told (v : Voice) (l : Log) (ord : HashOrder) (m : Manager) (text : Str) (q : Int) :
    (processEntries v l ord m text q).filter uttered = processEntries v l ord m text q := by
  have many : ∀ {module : List Str} {msgs : List Msg}, (∀ m ∈ msgs, ∀ a b, m ≠ .debugged a b) →
      (entries module msgs).filter uttered = entries module msgs := fun h => told_said h
  unfold processEntries
  split
  · rfl
  · split
    · rfl
    · split
      · rfl
      · dsimp only
        rw [List.filter_append, List.filter_append, many, many, many]
        · intro m hm
          split at hm
          · rw [mem_finishedMessages hm]; exact fun _ _ e => by cases e
          · cases hm
        · intro m hm
          obtain ⟨k, s, p', -, -, h3⟩ := mem_variableMessages v hm
          exact not_debugged_notification h3
        · intro m hm
          obtain ⟨line, -, hm⟩ := List.mem_flatMap.mp hm
          rw [parseMessages_about] at hm
          exact not_debugged_line hm

theorem process_steady {m m' : Manager} (ord : HashOrder) {text : Str} {q : Int}
    (h : m.process ord text q = .ok m') : m'.cron = m.cron ∧
      (m'.procs = m.procs ∨ ∃ i p p', m.procs[i]? = some p ∧ m'.procs = m.procs.set i p' ∧
        p'.name = p.name ∧ p'.ptype = p.ptype ∧ p'.emulatePty = p.emulatePty) := by
  by_cases hr : ∀ i, m.processIdForPid q = some i → ∃ p, m.procs[i]? = some p ∧ p.ptype ≠ .notify
  · rw [process_rejected ord hr] at h
    cases h
    exact ⟨rfl, .inl rfl⟩
  · simp only [not_forall] at hr
    obtain ⟨i, hi, hr⟩ := hr
    cases hp : m.procs[i]? with
    | none =>
      unfold Manager.process at h
      rw [hi] at h
      dsimp only at h
      rw [hp] at h
      cases h
    | some p =>
      by_cases hn : p.ptype = .notify
      · rw [process_accepted ord hi hp hn] at h
        revert h
        cases (if saysReady text then m.deps.notifyProcessFinished i else .ok m.deps) with
        | ok d =>
          intro h
          cases h
          exact ⟨rfl, .inr ⟨i, p, applyText text p, hp, rfl, rfl, rfl, rfl⟩⟩
        | err e => exact nomatch e
        | panic e => intro h; cases h
      · exact absurd ⟨p, hp, hn⟩ hr

/-- A message with its sender. -/
theorem datagram_chron {w : World} (h : Inv T.setting [] w.mgr w.kernel w.log) (hs : Steady T w)
    (text : Str) (q : Int) :
    Chronicled T w ((do
      M.emit (.datagram q text)
      N.say inNotify (.received text q)
      let w ← M.get
      N.write (processEntries T.voice w.log (env.order w.log) w.mgr text q)
      let m ← M.lift (w.mgr.process (env.order w.log) text q)
      M.modifyMgr fun _ => m : N Unit) w) := by
  have ha := processEntries_about h (env.order (.datagram q text :: w.log)) text q
  have ht := processEntries_told T.voice (.datagram q text :: w.log)
    (env.order (.datagram q text :: w.log)) w.mgr text q
  have hw : (do
      M.emit (.datagram q text)
      N.say inNotify (.received text q)
      let w ← M.get
      N.write (processEntries T.voice w.log (env.order w.log) w.mgr text q)
      let m ← M.lift (w.mgr.process (env.order w.log) text q)
      M.modifyMgr fun _ => m : N Unit) w =
      (((liftM (M.lift (w.mgr.process (env.order (.datagram q text :: w.log)) text q)) : N Manager) >>=
          fun m => (liftM (M.modifyMgr fun _ => m) : N Unit)) { w with log := .datagram q text :: w.log } |>.1,
        said byNotify [.received text q] ++ processEntries T.voice (.datagram q text :: w.log)
          (env.order (.datagram q text :: w.log)) w.mgr text q ++
          (((liftM (M.lift (w.mgr.process (env.order (.datagram q text :: w.log)) text q)) : N Manager) >>=
          fun m => (liftM (M.modifyMgr fun _ => m) : N Unit)) { w with log := .datagram q text :: w.log }).2) := by
    rw [List.append_assoc]
    rfl
  rw [hw]
  refine Chronicled.after (w1 := { w with log := .datagram q text :: w.log }) (e := .datagram q text)
    (lifted fun m hm => ?_) rfl ?_
  · refine .quiet rfl rfl fun _ _ e => ?_
    cases e
    have hin := process_inlets hm
    obtain ⟨h1, h2 | ⟨i, p, p', h2, h3, h4, h5, h6⟩⟩ := process_steady _ hm
    · exact hs.same h2 hin h1 rfl
    · exact hs.set h2 h4 h5 h6 h3 hin h1 rfl
  · rw [List.filter_append, ht]
    exact ha

theorem readNotification_chron {w : World} (h : Inv T.setting [] w.mgr w.kernel w.log)
    (hs : Steady T w) (ht : Turned T.inlets.notifyFd w.log)
    (hne : T.inlets.notifyFd ≠ T.inlets.signalFd) (hne' : T.inlets.notifyFd ≠ T.inlets.statusFd) :
    Chronicled T w (readNotification T.voice env w) := by
  obtain ⟨ev, past, hl, hfd⟩ := ht
  have key : Reason T w.log .failed (said byNotify
      [.failure .warn "Failed to receive notification".toList (T.voice.error w.log)]) := by
    show _ = _
    rw [hl]
    dsimp only
    rw [hfd, if_neg hne, if_neg hne', if_pos rfl]
  show Chronicled T w ((readSocket T.voice >>= _) w)
  unfold readSocket
  rw [N.assoc]
  refine (call (T := T) w hs).then .lift (recv_good h.legal) fun r w' hw' hs' => ?_
  obtain ⟨rest, rfl⟩ := hw'
  cases r with
  | none =>
    exact .event (e := .failed) rfl key fun _ _ e => by cases e; exact hs.same rfl rfl rfl rfl
  | some bc =>
    obtain ⟨bytes, cred⟩ := bc
    dsimp only
    rw [N.assoc]
    refine (emit (T := T) (e := .received bytes) (fun _ => rfl) (fun _ e => by cases e)
      { w with answers := rest } hs').bind fun _ w' e hs'' => ?_
    cases e
    have hi := received_inv (w := { w with answers := rest }) h bytes
    split
    · exact fail _ hs''
    · rw [N.assoc]
      refine lifted fun text _ => ?_
      cases cred with
      | none =>
        exact .event (e := .unsigned) rfl rfl fun _ _ e => by cases e; exact hs''.same rfl rfl rfl rfl
      | some q =>
        exact datagram_chron env (w := { w with answers := rest, log := .received bytes :: w.log }) hi hs'' text q

/-! ## One round of the loops -/

theorem handleEvent_chron {w : World} (h : Inv T.setting [] w.mgr w.kernel w.log)
    (hs : Steady T w) (ev : Ready) : Chronicled T w (handleEvent T.voice env ev w) := by
  have hin := hs.inlets
  have ev1 : w.mgr.signalFd = T.inlets.signalFd := by rw [← hin]; rfl
  have ev2 : w.mgr.statusFd = T.inlets.statusFd := by rw [← hin]; rfl
  have ev3 : w.mgr.notifyFd = T.inlets.notifyFd := by rw [← hin]; rfl
  have hs1 : Steady T { w with log := .ready ev :: w.log } := hs.same rfl rfl rfl rfl
  by_cases hq : ev.inp = true ∨ ev.hup = true
  · have hq' : (ev.inp || ev.hup) = true := by simpa using hq
    refine Chronicled.bind (n := (liftM (M.emit (.ready ev)) : N Unit))
      (.event (e := .ready ev) rfl (by show _ = _; rw [if_pos hq']; rfl)
        fun _ _ e => by cases e; exact hs1) fun _ w' e hs' => ?_
    cases e
    replace h := remark_inv (e := .ready ev) trivial h
    refine Chronicled.bind (n := (liftM M.get : N World)) (w := { w with log := .ready ev :: w.log })
      (.quiet rfl rfl fun _ _ e => by cases e; exact hs1) fun a w' e _ => ?_
    cases e
    have ht : ∀ fd, ev.fd = fd → Turned fd (.ready ev :: w.log) := fun fd e => ⟨ev, _, rfl, e⟩
    split
    · split
      · rename_i e1
        exact handleSignal_chron (w := { w with log := .ready ev :: w.log }) h hs1 (ht _ (e1.trans ev1))
      · rename_i e1
        split
        · rename_i e2
          exact reportStatus_chron env (w := { w with log := .ready ev :: w.log }) hs1
            (ht _ (e2.trans ev2)) (fun e => e1 (e2.trans (ev2.trans (e.trans ev1.symm))))
        · rename_i e2
          split
          · rename_i e3
            exact readNotification_chron env (w := { w with log := .ready ev :: w.log }) h hs1
              (ht _ (e3.trans ev3)) (fun e => e1 (e3.trans (ev3.trans (e.trans ev1.symm))))
              (fun e => e2 (e3.trans (ev3.trans (e.trans ev2.symm))))
          · rename_i e3
            exact printChildOutput_chron (w := { w with log := .ready ev :: w.log }) hs1 (ht _ rfl)
              (fun e => e1 (e.trans ev1.symm)) (fun e => e2 (e.trans ev2.symm))
              (fun e => e3 (e.trans ev3.symm))
    · split
      · have hw : ∀ es, es = (if T.voice.notRemoved (.ready ev :: w.log) then
            said byManager [.fixed .warn "Could not unregister fd from epoll".toList] else []) →
            Reason T (.ready ev :: w.log) (.hangup ev.fd) es := fun _ e => e
        unfold N.when M.when
        dsimp only
        by_cases hm : ev.fd ∈ w.mgr.fdDict
        · by_cases hv : T.voice.notRemoved (.ready ev :: w.log) = true
          · rw [if_pos hm, if_pos hv]
            exact .event (e := .hangup ev.fd) rfl (hw _ (by rw [if_pos hv]; rfl))
              fun _ _ e => by cases e; exact hs1.same rfl rfl rfl rfl
          · rw [if_pos hm, if_neg hv]
            exact .event (e := .hangup ev.fd) rfl (hw _ (by rw [if_neg hv]; rfl))
              fun _ _ e => by cases e; exact hs1.same rfl rfl rfl rfl
        · by_cases hv : T.voice.notRemoved (.ready ev :: w.log) = true
          · rw [if_neg hm, if_pos hv]
            exact .event (e := .hangup ev.fd) rfl (hw _ (by rw [if_pos hv]; rfl))
              fun _ _ e => by cases e; exact hs1.same rfl rfl rfl rfl
          · rw [if_neg hm, if_neg hv]
            exact .event (e := .hangup ev.fd) rfl (hw _ (by rw [if_neg hv]; rfl))
              fun _ _ e => by cases e; exact hs1.same rfl rfl rfl rfl
      · rename_i h1 h2
        exact absurd hq (by simp [h1, h2])
  · have hq1 : ev.inp = false := by simpa using fun e => hq (.inl e)
    have hq2 : ev.hup = false := by simpa using fun e => hq (.inr e)
    unfold handleEvent
    rw [hq1, hq2]
    exact .event (e := .ready ev) rfl (by show _ = _; rw [hq1, hq2]; rfl)
      fun _ _ e => by cases e; exact hs1

theorem handleEvents_chron (henv : env.rfc3339 = T.setting.rfc3339) (evs : List Ready)
    {w : World} (h : Inv T.setting [] w.mgr w.kernel w.log) (hs : Steady T w)
    (hnd : (evs.map (·.fd)).Nodup) (hreg : ∀ ev ∈ evs, ev.fd ∈ w.kernel.epoll) :
    Chronicled T w (N.forEach (handleEvent T.voice env) evs w) := by
  induction evs generalizing w with
  | nil => exact ret w hs
  | cons ev evs ih =>
    refine (handleEvent_chron env h hs ev).then (handleEvent_erases T.voice env ev)
      (handleEvent_good env henv ev w h (hreg ev (by simp))) ?_
    rintro - w' ⟨h1, h2⟩ hs'
    rw [List.map_cons, List.nodup_cons] at hnd
    refine ih h1.1 hs' hnd.2 fun e he => h2 _ (hreg e (by simp [he])) fun heq =>
      hnd.1 (heq ▸ List.mem_map_of_mem he)

/-- The part of `dispatch_epoll` that follows the beginning of the wait. -/
def afterPolling (v : Voice) (env : Env) : N Unit := do
  match ← Sys.epollWait with
  | none =>
    let w ← M.get
    M.emit .unpolled
    N.say inManager (.failure .error "Could not complete epoll".toList (v.error w.log))
  | some evs =>
    M.emit (.polled evs)
    N.say inManager (.counted "Got ".toList evs.length " events".toList)
    N.forEach (handleEvent v env) evs

theorem dispatchEpoll_polling (v : Voice) (w : World) :
    dispatchEpoll v env w = afterPolling v env { w with log := .polling :: w.log } := rfl

theorem afterPolling_chron (henv : env.rfc3339 = T.setting.rfc3339) {w : World}
    (h' : Inv T.setting [] w.mgr w.kernel w.log) (hs : Steady T w) :
    Chronicled T w (afterPolling T.voice env w) := by
  refine (call (T := T) w hs).then .lift (epollWait_good (w := w) h'.legal) ?_
  rintro r w' ⟨⟨rest, rfl⟩, hr⟩ hs'
  cases r with
  | none => exact .event (e := .unpolled) rfl rfl fun _ _ e => by cases e; exact hs'.same rfl rfl rfl rfl
  | some evs =>
    obtain ⟨h1, h2⟩ := hr evs rfl
    have hs2 : Steady T { w with answers := rest, log := .polled evs :: w.log } :=
      hs'.same rfl rfl rfl rfl
    have := handleEvents_chron env henv evs
      (w := { w with answers := rest, log := .polled evs :: w.log })
      (remark_inv trivial h') hs2 h1 h2
    exact this.after (e := .polled evs)
      (es := said byManager [.counted "Got ".toList evs.length " events".toList]) rfl rfl

/-- A wait that nothing is said about before. -/
theorem dispatchEpoll_chron (henv : env.rfc3339 = T.setting.rfc3339) {w : World}
    (h : Inv T.setting [] w.mgr w.kernel w.log) (hs : Steady T w) (hc : Caught T.setting w.mgr)
    (hn : w.mgr.keepRunning = true → NothingDue T.setting.zone T.setting.cron w.log)
    (hb : Occupied T.setting.programs w.log)
    (hq : ¬ (ShuttingDown T.setting.programs w.log ∧
      ∀ l', lastWait w.log = some l' → ¬ ShuttingDown T.setting.programs l')) :
    Chronicled T w (dispatchEpoll T.voice env w) := by
  rw [dispatchEpoll_polling]
  exact (afterPolling_chron env henv (w := { w with log := .polling :: w.log })
    (polling_inv h hc hn hb) (hs.same rfl rfl rfl rfl)).after (e := .polling) (es := []) rfl
    ⟨fun e => absurd e hq, fun _ => rfl⟩

end Narrated

/-! ## When cinit last began to wait -/

theorem Adds.forEach {α : Type} {K : Event → Prop} {f : α → M Unit} {l : List α}
    (h : ∀ a, Adds K (f a)) : Adds K (M.forEach f l) := by
  induction l with
  | nil => exact .pure
  | cons a l ih => exact .bind (h a) fun _ => ih

theorem initiateShutdown_adds (sig : Nat) : Adds (· ≠ .polling) (initiateShutdown sig) :=
  .bind .modify fun _ => .get fun _ => .forEach fun _ => .bind .call fun b => by
    cases b
    · exact .fail
    · exact .emit (by simp)

theorem handleSignal_adds : Adds (· ≠ .polling) handleSignal := by
  refine .bind .call fun r => ?_
  cases r with
  | none => exact .emit (by simp)
  | some n =>
    refine .bind (.emit (by simp)) fun _ => ?_
    split
    · exact initiateShutdown_adds _
    · exact .when (initiateShutdown_adds _)

theorem reportStatus_adds (env : Env) : Adds (· ≠ .polling) (reportStatus env) := by
  refine .bind .call fun r => ?_
  cases r with
  | none => exact .emit (by simp)
  | some b => exact .get fun _ => .bind .lift fun _ => .emit (by cases b <;> simp)

theorem readNotification_adds (env : Env) : Adds (· ≠ .polling) (readNotification env) := by
  have h : Adds (· ≠ .polling) readSocket := by
    refine .bind .call fun r => ?_
    cases r with
    | none => exact .bind (.emit (by simp)) fun _ => .pure
    | some x =>
      obtain ⟨bytes, cred⟩ := x
      refine .bind (.emit (by simp)) fun _ => ?_
      split
      · exact .fail
      · refine .bind .lift fun _ => ?_
        cases cred with
        | none => exact .bind (.emit (by simp)) fun _ => .pure
        | some q => exact .bind (.emit (by simp)) fun _ => .pure
  refine .bind h fun r => ?_
  cases r with
  | none => exact .pure
  | some x => exact .get fun _ => .bind .lift fun _ => .modify

theorem printChildOutput_adds (fd : Int) : Adds (· ≠ .polling) (printChildOutput fd) := by
  refine .bind .call fun r => ?_
  cases r with
  | none => exact .emit (by simp)
  | some bytes =>
    exact .bind (.emit (by simp)) fun _ => .get fun _ => .bind .lift fun _ =>
      .forEach fun _ => .when (.emit (by simp))

theorem handleEvent_adds (env : Env) (ev : Ready) : Adds (· ≠ .polling) (handleEvent env ev) := by
  refine .bind (.emit (by simp)) fun _ => .get fun w => ?_
  split
  · split
    · exact handleSignal_adds
    · split
      · exact reportStatus_adds env
      · split
        · exact readNotification_adds env
        · exact printChildOutput_adds _
  · split
    · refine .bind (.emit (by simp)) fun _ => .bind ?_ fun _ => .bind (.when ?_) fun _ => .modify
      · rintro w b w' h; cases h; exact ⟨[], rfl, by simp⟩
      · rintro w b w' h; cases h; exact ⟨[], rfl, by simp⟩
    · exact .pure

theorem handleFinishedChild_adds (pid rc : Int) : Adds (· ≠ .polling) (handleFinishedChild pid rc) := by
  refine .get fun w => ?_
  split
  · exact .emit (by simp)
  · split
    · exact .fail
    · exact .bind (.emit (by simp)) fun _ => .bind .modify fun _ =>
        .bind (.when (.bind .modify fun _ => initiateShutdown_adds _)) fun _ => .bind .modify fun _ =>
        .when (.get fun _ => .bind .lift fun _ => .modify)

theorem lookForFinishedChildren_adds (fuel : Nat) :
    Adds (· ≠ .polling) (lookForFinishedChildren fuel) := by
  induction fuel with
  | zero => exact .stop
  | succ fuel ih =>
    refine .bind .call fun r => ?_
    split
    · exact .bind (handleFinishedChild_adds _ _) fun _ => ih
    · split
      · exact .bind (handleFinishedChild_adds _ _) fun _ => ih
      · exact .emit (by simp)
    · exact .emit (by simp)
    · exact ih
    · exact .emit (by simp)

theorem lastWait_other {es : List Event} (h : ∀ e ∈ es, e ≠ .polling) (l : Log) :
    lastWait (es ++ l) = lastWait l := by
  induction es with
  | nil => rfl
  | cons e es ih =>
    rw [← ih fun e' he => h e' (List.mem_cons_of_mem _ he)]
    have := h e (by simp)
    cases e <;> first | rfl | exact absurd rfl this

theorem dispatchEpoll_lastWait (env : Env) {w w' : World} {a : Unit}
    (h : dispatchEpoll env w = .ok a w') : lastWait w'.log = some w.log := by
  have key : Adds (· ≠ .polling) (do
      match ← Sys.epollWait with
      | none => M.emit .unpolled
      | some evs =>
        M.emit (.polled evs)
        M.forEach (handleEvent env) evs) := by
    refine .bind .call fun r => ?_
    cases r with
    | none => exact .emit (by simp)
    | some evs => exact .bind (.emit (by simp)) fun _ => .forEach fun _ => handleEvent_adds env _
  obtain ⟨es, h1, h2⟩ := key { w with log := .polling :: w.log } a w' h
  rw [h1, lastWait_other h2]
  rfl

/-- cinit has never waited while it was shutting down. -/
def Fresh (ps : List ProcessConfig) (l : Log) : Prop :=
  ∀ l', lastWait l = some l' → ¬ ShuttingDown ps l'

/-- cinit has waited while it was shutting down. -/
def Late (ps : List ProcessConfig) (l : Log) : Prop :=
  ShuttingDown ps l ∧ ∃ l', lastWait l = some l' ∧ ShuttingDown ps l'

theorem Late.not_fresh {ps : List ProcessConfig} {l : Log} (h : Late ps l) : ¬ Fresh ps l := by
  obtain ⟨-, l', h1, h2⟩ := h
  exact fun hf => hf l' h1 h2

theorem Late.append {ps : List ProcessConfig} {l : Log} (h : Late ps l) (es : List Event) :
    Late ps (es ++ l) := by
  induction es with
  | nil => exact h
  | cons e es ih =>
    refine ⟨shuttingDown_append (e :: es) h.1, ?_⟩
    by_cases he : e = .polling
    · subst he
      exact ⟨es ++ l, rfl, ih.1⟩
    · obtain ⟨-, l', h1, h2⟩ := ih
      refine ⟨l', ?_, h2⟩
      rw [← h1]
      exact lastWait_other (es := [e]) (by simpa using he) (es ++ l)

theorem mainLoop_fresh {X : Setting} (env : Env) (hz : env.zone = X.zone) (henv : env.rfc3339 = X.rfc3339)
    (fuel : Nat) (w : World) (h : Inv X [] w.mgr w.kernel w.log) (hf : Fresh X.programs w.log) :
    Good X (fun _ w' => Fresh X.programs w'.log) (mainLoop env fuel w) := by
  induction fuel generalizing w with
  | zero => exact h.legal
  | succ fuel ih =>
    unfold mainLoop
    simp only [get_bind]
    split
    · rename_i hcond
      have hk : w.mgr.keepRunning = true := (Bool.and_eq_true _ _ ▸ hcond).1
      have hb : Occupied X.programs w.log := by
        rcases Bool.or_eq_true_iff.mp (Bool.and_eq_true _ _ ▸ hcond).2 with hb | hb
        · exact .inl (busy_of_running h.tables hb)
        · exact .inr ⟨h.keep.mp hk, released_of_runnable h hk hb⟩
      refine Good.bind ((spawnChildren_good env hz w h hk hb).with
        (fun a w' => spawnChildren_adds env w a w')) ?_
      rintro - w1 ⟨⟨h1, h2, h3, h3'⟩, es, hes, hst⟩
      refine Good.bind ((dispatchEpoll_good env henv w1 h1.1 (fun _ => h3) (fun _ => h3') ?_).with
        (fun a w' e => dispatchEpoll_lastWait env e)) ?_
      · rw [hes]
        exact occupied_starting (by rw [← hes]; exact h1.1) h2 hst hb
      rintro - w2 ⟨h4, h4'⟩
      simp only [get_bind]
      refine Good.bind ((lookForFinishedChildren_good _ w2 h4.1).with
        (fun a w' => lookForFinishedChildren_adds _ w2 a w')) ?_
      rintro - w3 ⟨h5, es', hes', hne⟩
      refine ih w3 h5.1 ?_
      rw [hes']
      unfold Fresh
      rw [lastWait_other hne, h4']
      rintro l' e
      cases e
      exact h1.1.keep.mp h2
    · exact hf

theorem Good.and {α : Type} {X : Setting} {o : Out α} {Q R : α → World → Prop} (h : Good X Q o)
    (hr : Good X R o) : Good X (fun a w => Q a w ∧ R a w) o := by
  cases o with
  | ok a w => exact ⟨h, hr⟩
  | panic p w => exact h
  | stuck w => exact h

namespace Narrated

open Chronicles

variable (env : Env)

/-! ## The loops -/

theorem mainLoop_chron (hz : env.zone = T.setting.zone) (henv : env.rfc3339 = T.setting.rfc3339)
    (fuel : Nat) {w : World} (h : Inv T.setting [] w.mgr w.kernel w.log) (hs : Steady T w) :
    Chronicled T w (mainLoop T.voice env fuel w) := by
  induction fuel generalizing w with
  | zero => exact stop w hs
  | succ fuel ih =>
    refine Chronicled.bind (n := (liftM M.get : N World)) (w := w)
      (.quiet rfl rfl fun _ _ e => by cases e; exact hs) fun a w' e _ => ?_
    cases e
    split
    · rename_i hcond
      have hk : w.mgr.keepRunning = true := (Bool.and_eq_true _ _ ▸ hcond).1
      have hb : Occupied T.setting.programs w.log := by
        rcases Bool.or_eq_true_iff.mp (Bool.and_eq_true _ _ ▸ hcond).2 with hb | hb
        · exact .inl (busy_of_running h.tables hb)
        · exact .inr ⟨h.keep.mp hk, released_of_runnable h hk hb⟩
      refine (spawnChildren_chron env hz henv w hs).then (spawnChildren_erases T.voice env)
        ((spawnChildren_good env hz w h hk hb).with (fun a w' => spawnChildren_adds env w a w')) ?_
      rintro - w1 ⟨⟨h1, h2, h3, h3'⟩, es, hes, hst⟩ hs1
      have hb1 : Occupied T.setting.programs w1.log := by
        rw [hes]
        exact occupied_starting (by rw [← hes]; exact h1.1) h2 hst hb
      refine (dispatchEpoll_chron env henv h1.1 hs1 (fun _ => h3) (fun _ => h3') hb1
        (fun e => h1.1.keep.mp h2 e.1)).then
        (dispatchEpoll_erases T.voice env)
        (dispatchEpoll_good env henv w1 h1.1 (fun _ => h3) (fun _ => h3') hb1) ?_
      rintro - w2 h4 hs2
      refine Chronicled.bind (n := (liftM M.get : N World)) (w := w2)
        (.quiet rfl rfl fun _ _ e => by cases e; exact hs2) fun a w' e _ => ?_
      cases e
      refine (lookForFinishedChildren_chron _ h4.1 hs2).then (lookForFinishedChildren_erases T.voice _)
        (lookForFinishedChildren_good _ w2 h4.1) ?_
      rintro - w3 h5 hs3
      exact ih h5.1 hs3
    · exact ret w hs

/-- The end of `start`. -/
def farewell : N Int := do
  N.say inManager (.fixed .info "Exiting".toList)
  N.say inManager (.fixed .trace "Exiting".toList)
  let w ← M.get
  M.emit (.exit w.mgr.exitCode)
  N.pure w.mgr.exitCode

theorem exit_reason {w : World} (h : Inv T.setting [] w.mgr w.kernel w.log) {first : List Entry}
    (hf : If (Fresh T.setting.programs w.log) (said byManager [.fixed .info "Shutting down".toList]) first) :
    Reason T w.log (.exit w.mgr.exitCode)
      (first ++ said byManager [.fixed .info "Exiting".toList, .fixed .trace "Exiting".toList]) := by
  have : w.mgr.exitCode ≠ 3 := by
    by_cases hc : SomeCrash T.setting.programs w.log
    · rw [h.code.1 hc]; decide
    · rw [h.code.2 hc]; decide
  show if _ then _ else _
  rw [if_neg this]
  exact ⟨first, hf, rfl⟩

/-- What follows the beginning of a wait of the shutdown loop. -/
def round (v : Voice) (fuel : Nat) : N Int := do
  afterPolling v env
  let w ← M.get
  lookForFinishedChildren v (w.answers.length + 1)
  shutdownLoop v env fuel
  farewell

theorem shutdownLoop_step (v : Voice) (fuel : Nat) (w : World) :
    (shutdownLoop v env (fuel + 1) >>= fun _ => farewell) w =
      if w.mgr.hasRunningProcesses then round env v fuel { w with log := .polling :: w.log }
      else farewell w := by
  unfold shutdownLoop round
  rw [N.assoc]
  show (((if w.mgr.hasRunningProcesses then _ else _ : N Unit) >>= fun _ => farewell) w) = _
  split
  · rw [N.assoc]
    show (afterPolling v env >>= _) { w with log := .polling :: w.log } = _
    have : (fun (_ : Unit) => ((liftM M.get : N World) >>= fun w =>
        lookForFinishedChildren v (w.answers.length + 1) >>= fun _ => shutdownLoop v env fuel) >>=
        fun _ => farewell) = fun _ => (liftM M.get : N World) >>= fun w =>
        lookForFinishedChildren v (w.answers.length + 1) >>= fun _ => shutdownLoop v env fuel >>=
        fun _ => farewell := by
      funext _
      rw [N.assoc]
      refine congrArg _ (funext fun w' => ?_)
      rw [N.assoc]
    exact congrArg (fun f => (afterPolling v env >>= f) { w with log := .polling :: w.log }) this
  · rfl

theorem afterPolling_good (henv : env.rfc3339 = T.setting.rfc3339) {w : World}
    (h : Inv T.setting [] w.mgr w.kernel w.log) (hc : Caught T.setting w.mgr)
    (hn : w.mgr.keepRunning = true → NothingDue T.setting.zone T.setting.cron w.log)
    (hb : Occupied T.setting.programs w.log) :
    Good T.setting (fun _ w' => Post T.setting [] { w with log := .polling :: w.log } w')
      (afterPolling T.voice env { w with log := .polling :: w.log }).1 := by
  rw [← dispatchEpoll_polling, dispatchEpoll_erases T.voice env w]
  show Good T.setting _ (Cinit.dispatchEpoll env w)
  unfold Cinit.dispatchEpoll
  simp only [emit_bind]
  have h' := polling_inv h hc hn hb
  refine Good.bind (epollWait_good (w := { w with log := .polling :: w.log }) h'.legal) ?_
  rintro r w' ⟨⟨rest, rfl⟩, hr⟩
  cases r with
  | none => exact ⟨remark_inv trivial h', [.unpolled], rfl⟩
  | some evs =>
    obtain ⟨h1, h2⟩ := hr evs rfl
    refine (handleEvents_good env henv evs
      { w with answers := rest, log := .polled evs :: .polling :: w.log }
      (remark_inv trivial h') h1 h2).mono ?_
    rintro - w'' ⟨h3, es, h4⟩
    exact ⟨h3, es ++ [.polled evs], by rw [h4]; simp⟩

theorem round_chron (henv : env.rfc3339 = T.setting.rfc3339) (fuel : Nat) {w : World}
    (h : Inv T.setting [] w.mgr w.kernel w.log) (hs : Steady T w)
    (hd : ShuttingDown T.setting.programs w.log) (hr : w.mgr.hasRunningProcesses = true)
    (ih : ∀ {w : World}, Inv T.setting [] w.mgr w.kernel w.log → Steady T w →
      Late T.setting.programs w.log →
      Chronicled T w ((shutdownLoop T.voice env fuel >>= fun _ => farewell) w)) :
    Chronicled T { w with log := .polling :: w.log }
      (round env T.voice fuel { w with log := .polling :: w.log }) := by
  have hk : w.mgr.keepRunning = false := by
    cases hk : w.mgr.keepRunning with
    | false => rfl
    | true => exact absurd hd (h.keep.mp hk)
  have hc : Caught T.setting w.mgr := fun e => by rw [hk] at e; cases e
  have hn : w.mgr.keepRunning = true → NothingDue T.setting.zone T.setting.cron w.log :=
    fun e => by rw [hk] at e; cases e
  have hb : Occupied T.setting.programs w.log := .inl (busy_of_running h.tables hr)
  have hg := afterPolling_good env henv h hc hn hb
  unfold round
  refine (afterPolling_chron env henv (w := { w with log := .polling :: w.log })
    (polling_inv h hc hn hb) (hs.same rfl rfl rfl rfl)).bind fun _ w2 e hs2 => ?_
  rw [e] at hg
  obtain ⟨h4, es, he⟩ := hg
  refine Chronicled.bind (n := (liftM M.get : N World)) (w := w2)
    (.quiet rfl rfl fun _ _ e => by cases e; exact hs2) fun a w' e _ => ?_
  cases e
  refine (lookForFinishedChildren_chron _ h4 hs2).then (lookForFinishedChildren_erases T.voice _)
    (lookForFinishedChildren_good _ w2 h4) ?_
  rintro - w3 ⟨h5, es', he'⟩ hs3
  refine ih h5 hs3 ?_
  rw [he', he]
  exact (Late.append ⟨shuttingDown_append [.polling] hd, _, rfl, hd⟩ es).append es'

theorem shutdownLoop_chron (henv : env.rfc3339 = T.setting.rfc3339)
    (fuel : Nat) {w : World} (h : Inv T.setting [] w.mgr w.kernel w.log) (hs : Steady T w)
    (hl : Late T.setting.programs w.log) :
    Chronicled T w ((shutdownLoop T.voice env fuel >>= fun _ => farewell) w) := by
  induction fuel generalizing w with
  | zero => exact Chronicled.bind (stop w hs) fun _ _ e => by cases e
  | succ fuel ih =>
    rw [shutdownLoop_step]
    split
    · rename_i hcond
      exact (round_chron env henv fuel h hs hl.1 hcond ih).after (e := .polling) (es := []) rfl
        ⟨fun e => absurd e.2 hl.not_fresh, fun _ => rfl⟩
    · exact .event (e := .exit w.mgr.exitCode) rfl
        (exit_reason h (first := []) ⟨fun e => absurd e hl.not_fresh, fun _ => rfl⟩)
        fun _ _ e => by cases e; exact hs.same rfl rfl rfl rfl

/-- All that follows the main loop. -/
theorem afterMain_chron (henv : env.rfc3339 = T.setting.rfc3339)
    {w : World} (h : Inv T.setting [] w.mgr w.kernel w.log) (hs : Steady T w)
    (hf : Fresh T.setting.programs w.log)
    (hq : w.mgr.keepRunning = true →
      w.mgr.hasRunningProcesses = false ∧ w.mgr.deps.runnable = []) :
    Chronicled T w ((N.say inManager (.fixed .info "Shutting down".toList) >>= fun _ =>
      (liftM M.get : N World) >>= fun w =>
      shutdownLoop T.voice env (w.answers.length + 1) >>= fun _ => farewell) w) := by
  have e0 : (N.say inManager (.fixed .info "Shutting down".toList) >>= fun _ =>
      (liftM M.get : N World) >>= fun w =>
      shutdownLoop T.voice env (w.answers.length + 1) >>= fun _ => farewell) w =
      (((shutdownLoop T.voice env (w.answers.length + 1) >>= fun _ => farewell) w).1,
        said byManager [.fixed .info "Shutting down".toList] ++
          ((shutdownLoop T.voice env (w.answers.length + 1) >>= fun _ => farewell) w).2) := rfl
  rw [e0, shutdownLoop_step]
  by_cases hcond : w.mgr.hasRunningProcesses = true
  · rw [if_pos hcond]
    have hd : ShuttingDown T.setting.programs w.log := by
      by_contra hd
      rw [(hq (h.keep.mpr hd)).1] at hcond
      cases hcond
    exact (round_chron env henv _ h hs hd hcond (shutdownLoop_chron env henv _)).after (e := .polling) rfl
      ⟨fun _ => rfl, fun e => absurd ⟨hd, hf⟩ e⟩
  · rw [if_neg hcond]
    exact .event (e := .exit w.mgr.exitCode) rfl
      (exit_reason h (first := said byManager [.fixed .info "Shutting down".toList])
        ⟨fun _ => rfl, fun e => absurd hf e⟩)
      fun _ _ e => by cases e; exact hs.same rfl rfl rfl rfl

/-- The main loop and all that follows. -/
theorem loops_chron (hz : env.zone = T.setting.zone) (henv : env.rfc3339 = T.setting.rfc3339)
    (fuel : Nat) {w : World} (h : Inv T.setting [] w.mgr w.kernel w.log) (hs : Steady T w)
    (hf : Fresh T.setting.programs w.log) :
    Chronicled T w ((mainLoop T.voice env fuel >>= fun _ =>
      N.say inManager (.fixed .info "Shutting down".toList) >>= fun _ =>
      (liftM M.get : N World) >>= fun w =>
      shutdownLoop T.voice env (w.answers.length + 1) >>= fun _ => farewell) w) := by
  refine (mainLoop_chron env hz henv fuel h hs).then (mainLoop_erases T.voice env _)
    ((mainLoop_good env hz henv fuel w h).and (mainLoop_fresh env hz henv fuel w h hf)) ?_
  rintro - w2 ⟨⟨h2, h3⟩, h4⟩ hs2
  exact afterMain_chron env henv h2.1 hs2 h4 h3

theorem start_chron {w : World} (h : Initial T.setting env w) (hs : Steady T w) :
    ∃ es rest, (start T.voice env w).2.filter uttered =
        (if w.answers.head? = some (.setup true) then greeting else []) ++ (es ++ rest) ∧
      Account T (start T.voice env w).1.log es ∧
      (rest = [] ∨ (start T.voice env w).1.isStuck ∧ Begun T rest) := by
  have hinv := h.inv
  have hlog := h.log
  obtain ⟨m, k, as, l⟩ := w
  dsimp only at hlog
  subst hlog
  cases as with
  | nil => exact ⟨[], [], rfl, rfl, .inl rfl⟩
  | cons a rest =>
    cases a with
    | setup b =>
      cases b with
      | false =>
        exact ⟨_, [], by rw [if_neg (by simp)]; exact (List.append_nil _).symm, ⟨[], _, rfl, rfl, rfl⟩, .inl rfl⟩
      | true =>
        have hinv1 : Inv T.setting [] m
            { k with epoll := [m.signalFd, m.statusFd, m.notifyFd] } [] := by
          refine { hinv with kern := { hinv.kern with epoll := ?_ } }
          intro fd hfd
          simp only [List.mem_cons, List.not_mem_nil, or_false] at hfd
          rcases hfd with e | e | e
          · exact .inl e
          · exact .inr (.inl e)
          · exact .inr (.inr (.inl e))
        have hc := loops_chron (T := T) env h.zone h.render (rest.length + 1)
          (w := ⟨m, { k with epoll := [m.signalFd, m.statusFd, m.notifyFd] }, rest, []⟩) hinv1
          (hs.same rfl rfl rfl rfl) (fun l' e => by cases e)
        obtain ⟨es, r, h1, h2, h3⟩ := hc.account
        refine ⟨es, r, ?_, h2 [] rfl, h3⟩
        rw [← h1]
        rfl
    | _ => exact ⟨[], [], rfl, rfl, .inl rfl⟩

end Narrated

end Cinit
