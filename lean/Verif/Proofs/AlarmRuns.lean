import Verif.Proofs.Alarms
/-!
# Warnings and errors of whole runs
-/

namespace Cinit

open M Manager Logging Spec

variable {ps : List ProcessConfig} {d : Inlets}

theorem splitFirst_none {c : Char} {s : Str} : (splitFirst c s).2 = none ↔ c ∉ s := by
  induction s with
  | nil => simp [splitFirst]
  | cons x xs ih =>
    unfold splitFirst
    split
    · rename_i h
      subst h
      simp
    · rename_i h
      rw [List.mem_cons, not_or]
      exact ⟨fun h' => ⟨fun e => h e.symm, ih.mp h'⟩, fun h' => ih.mpr h'.2⟩

namespace Narrated

open Rings

variable (v : Voice) (env : Env)

/-- What is wrong with a variable. -/
def wrong (kv : Str × Str) : Option Msg :=
  if kv.1 = Process.keyReady then if kv.2 = ['1'] then none else some (.unexpected kv.1 kv.2)
  else if kv.1 = Process.keyStopping then if kv.2 = ['1'] then none else some (.unexpected kv.1 kv.2)
  else if kv.1 = Process.keyMainpid then if parseI32 kv.2 = none then some (.badMainpid kv.2 []) else none
  else none

theorem notificationMessages_alarms (l : Log) (p : Process) (k s : Str) :
    (notificationMessages v l p k s).filterMap (fun m => alarmOf (.own [] m)) = (wrong (k, s)).toList := by
  have d3 : Process.keyMainpid ≠ Process.keyStatus := by decide
  unfold notificationMessages wrong
  dsimp only
  split
  · by_cases h : s = ['1']
    · rw [if_neg (by simp [h]), if_pos h]
      split <;> rfl
    · rw [if_pos h, if_neg h]
      rfl
  · split
    · by_cases h : s = ['1']
      · rw [if_neg (by simp [h]), if_pos h]
        rfl
      · rw [if_pos h, if_neg h]
        rfl
    · split
      · rename_i h
        rw [if_neg (by rw [h]; exact fun e => d3 e.symm)]
        rfl
      · split
        · cases hp : parseI32 s with
          | none => rw [if_pos rfl]; rfl
          | some pid =>
            rw [if_neg (by simp)]
            dsimp only
            split <;> rfl
        · rfl

theorem variableMessages_alarms (l : Log) (V : AMap Str Str) (p : Process) :
    (variableMessages v l p V).filterMap (fun m => alarmOf (.own [] m)) = V.filterMap wrong := by
  induction V generalizing p with
  | nil => rfl
  | cons kv V ih =>
    obtain ⟨k, s⟩ := kv
    rw [variableMessages, List.filterMap_append, notificationMessages_alarms, ih, List.filterMap_cons]
    cases wrong (k, s) <;> rfl

theorem variables_perm (text : Str) : (parseNotification text).Perm
    (allowedKeys.filterMap fun k => (assigned text k).map (Prod.mk k)) := by
  obtain ⟨hw, hk⟩ := parseNotification_wf text
  refine (List.perm_ext_iff_of_nodup ?_ ?_).mpr ?_
  · exact List.Nodup.of_map _ hw
  · have : (allowedKeys.filterMap fun k => (assigned text k).map (Prod.mk k)).map (·.1) =
        allowedKeys.filter fun k => (assigned text k).isSome := by
      induction allowedKeys with
      | nil => rfl
      | cons k ks ih =>
        rw [List.filterMap_cons, List.filter_cons]
        cases h : assigned text k with
        | none => simpa using ih
        | some s => simpa using ih
    refine List.Nodup.of_map (·.1) ?_
    rw [this]
    exact List.Nodup.filter _ (by decide)
  · rintro ⟨k, s⟩
    rw [AMap.mem_iff_get? hw, List.mem_filterMap]
    constructor
    · intro h
      have hm := hk k (AMap.mem_keys_of_get? h)
      rw [parseNotification_get hm] at h
      exact ⟨k, hm, by rw [h]; rfl⟩
    · rintro ⟨k', hm, h⟩
      cases ha : assigned text k' with
      | none => rw [ha] at h; cases h
      | some s' =>
        rw [ha] at h
        cases h
        rw [parseNotification_get hm, ha]

theorem wrong_values (text : Str) :
    (allowedKeys.filterMap fun k => (assigned text k).map (Prod.mk k)).filterMap wrong = values text := by
  have e : allowedKeys = ["READY".toList, "STOPPING".toList, "STATUS".toList, "MAINPID".toList] := rfl
  rw [List.filterMap_filterMap, e]
  have d1 : Process.keyReady = "READY".toList := rfl
  have d2 : Process.keyStopping = "STOPPING".toList := rfl
  have d3 : Process.keyMainpid = "MAINPID".toList := rfl
  have n1 : "STOPPING".toList ≠ "READY".toList := by decide
  have n2 : "STATUS".toList ≠ "READY".toList := by decide
  have n3 : "STATUS".toList ≠ "STOPPING".toList := by decide
  have n4 : "STATUS".toList ≠ "MAINPID".toList := by decide
  have n5 : "MAINPID".toList ≠ "READY".toList := by decide
  have n6 : "MAINPID".toList ≠ "STOPPING".toList := by decide
  unfold values flag mainProcess newMainPid wrong
  rw [d1, d2, d3]
  generalize "READY".toList = a at *
  generalize "STOPPING".toList = b at *
  generalize "STATUS".toList = c at *
  generalize "MAINPID".toList = f at *
  have ha : (((assigned text a).map (Prod.mk a)).bind fun kv =>
      if kv.1 = a then if kv.2 = ['1'] then none else some (Msg.unexpected kv.1 kv.2)
      else if kv.1 = b then if kv.2 = ['1'] then none else some (Msg.unexpected kv.1 kv.2)
      else if kv.1 = f then if parseI32 kv.2 = none then some (Msg.badMainpid kv.2 []) else none
      else none).toList = match assigned text a with
        | some value => if value = ['1'] then [] else [.unexpected a value]
        | none => [] := by
    cases assigned text a with
    | none => rfl
    | some s => simp; split <;> rfl
  have hb : (((assigned text b).map (Prod.mk b)).bind fun kv =>
      if kv.1 = a then if kv.2 = ['1'] then none else some (Msg.unexpected kv.1 kv.2)
      else if kv.1 = b then if kv.2 = ['1'] then none else some (Msg.unexpected kv.1 kv.2)
      else if kv.1 = f then if parseI32 kv.2 = none then some (Msg.badMainpid kv.2 []) else none
      else none).toList = match assigned text b with
        | some value => if value = ['1'] then [] else [.unexpected b value]
        | none => [] := by
    cases assigned text b with
    | none => rfl
    | some s => simp [n1]; split <;> rfl
  have hc : (((assigned text c).map (Prod.mk c)).bind fun kv =>
      if kv.1 = a then if kv.2 = ['1'] then none else some (Msg.unexpected kv.1 kv.2)
      else if kv.1 = b then if kv.2 = ['1'] then none else some (Msg.unexpected kv.1 kv.2)
      else if kv.1 = f then if parseI32 kv.2 = none then some (Msg.badMainpid kv.2 []) else none
      else none).toList = [] := by
    cases assigned text c with
    | none => rfl
    | some s => simp [n2, n3, n4]
  have hf : (((assigned text f).map (Prod.mk f)).bind fun kv =>
      if kv.1 = a then if kv.2 = ['1'] then none else some (Msg.unexpected kv.1 kv.2)
      else if kv.1 = b then if kv.2 = ['1'] then none else some (Msg.unexpected kv.1 kv.2)
      else if kv.1 = f then if parseI32 kv.2 = none then some (Msg.badMainpid kv.2 []) else none
      else none).toList = match assigned text f with
        | some value => if (assigned text f).bind parseI32 = none then [.badMainpid value []] else []
        | none => [] := by
    cases assigned text f with
    | none => rfl
    | some s => simp [n5, n6]; split <;> rfl
  have cons : ∀ (g : Str → Option Msg) (x : Str) (xs : List Str),
      (x :: xs).filterMap g = (g x).toList ++ xs.filterMap g := by
    intro g x xs
    rw [List.filterMap_cons]
    cases g x <;> rfl
  rw [cons, cons, cons, cons, List.filterMap_nil, ha, hb, hc, hf]
  simp only [List.append_nil, List.nil_append, List.append_assoc]
  cases assigned text a <;> cases assigned text b <;> cases assigned text f <;> rfl

theorem parseMessages_alarms (ls : List Str) :
    (ls.flatMap parseMessages).filterMap (fun m => alarmOf (.own [] m)) =
      (ls.filter fun line => '=' ∉ line).map .unparsed := by
  induction ls with
  | nil => rfl
  | cons line ls ih =>
    rw [List.flatMap_cons, List.filterMap_append, ih, List.filter_cons]
    have h := splitFirst_none (c := '=') (s := line)
    unfold parseMessages
    rcases hsp : splitFirst '=' line with ⟨key, _ | value⟩
    · rw [hsp] at h
      have h' := h.mp rfl
      simp only [h', not_false_eq_true, decide_true, if_true, List.map_cons]
      rfl
    · rw [hsp] at h
      have h' : '=' ∈ line := by
        by_cases hm : '=' ∈ line
        · exact hm
        · exact nomatch h.mpr hm
      simp only [h', not_true_eq_false, decide_false, Bool.false_eq_true, if_false]
      split <;> rfl

theorem processEntries_alarms {X : Setting} {m : Manager} {k : Kernel} {l l' : Log}
    (h : Inv X [] m k l') (ord : HashOrder) (text : Str) (q : Int) :
    Objections X.programs l' q text ((processEntries v l ord m text q).filterMap alarmOf) := by
  have ho : m.processIdForPid q = owner X.programs l' q := h.tables.pids q
  unfold processEntries Objections
  rw [ho]
  cases ho' : owner X.programs l' q with
  | none => rfl
  | some i =>
    obtain ⟨p, hp, hok⟩ := h.tables.proc (owner_facts h.legal ho').1
    dsimp only
    rw [hp]
    dsimp only
    by_cases hn : p.ptype = .notify
    · rw [if_pos (hok.notify.mp hn), if_neg (fun h => h hn)]
      refine ⟨(ord.apply (parseNotification text)).filterMap wrong, ?_, ?_⟩
      · rw [← wrong_values]
        exact ((ord.perm _).trans (variables_perm text)).filterMap _
      · rw [List.filterMap_append, List.filterMap_append, entries_alarms, entries_alarms,
          parseMessages_alarms, variableMessages_alarms, no_alarms, List.append_nil]
        · rfl
        · intro m hm
          split at hm
          · rw [mem_finishedMessages hm]; rfl
          · cases hm
    · rw [if_neg (fun e => hn (hok.notify.mpr e)), if_pos hn]
      obtain ⟨c, hc1, hc2, -, -⟩ := static_of_tables h.tables i p hp
      refine ⟨c, hc1, ?_⟩
      rw [hc2]
      rfl

/-- A message with its sender. -/
theorem datagram_rung {X : Setting} {w : World} (h : Inv X [] w.mgr w.kernel w.log)
    (hs : Stable X.programs d w.mgr) (text : Str) (q : Int) :
    Rung X.programs d w ((do
      M.emit (.datagram q text)
      N.say inNotify (.received text q)
      let w ← M.get
      N.write (processEntries v w.log (env.order w.log) w.mgr text q)
      let m ← M.lift (w.mgr.process (env.order w.log) text q)
      M.modifyMgr fun _ => m : N Unit) w) := by
  have key : ∀ o : Out Unit, o.log = .datagram q text :: w.log → Stable X.programs d o.world.mgr →
      Rung X.programs d w (o, [Entry.own ("cinit".toList :: "runtime".toList :: inNotify) (.received text q)] ++
        processEntries v (.datagram q text :: w.log) (env.order (.datagram q text :: w.log)) w.mgr text q) := by
    intro o h1 h2
    refine .event h1 ?_ h2
    rw [List.filterMap_append]
    exact processEntries_alarms v h _ text q
  have step : ∀ (r : Res Empty Manager) (w' : World) (es : List Entry),
      ((N.write es >>= fun _ => (liftM (M.lift r) : N Manager) >>= fun m =>
        (liftM (M.modifyMgr fun _ => m) : N Unit)) w').2 = es := by
    intro r w' es
    cases r with
    | ok m => exact (List.append_nil _)
    | err e => exact nomatch e
    | panic e => exact (List.append_nil _)
  refine Eq.mp ?_ (key ((M.lift (w.mgr.process (env.order (.datagram q text :: w.log)) text q) >>= fun m =>
    M.modifyMgr fun _ => m) { w with log := .datagram q text :: w.log }) ?_ ?_)
  · congr 1
    refine Prod.ext ?_ ?_
    · have := (Erases.write (es := processEntries v (.datagram q text :: w.log)
        (env.order (.datagram q text :: w.log)) w.mgr text q) (Erases.seq Erases.lift fun m => Erases.lift) :
        Erases (N.write _ >>= fun _ => (liftM (M.lift (w.mgr.process (env.order (.datagram q text :: w.log)) text q)) : N Manager) >>= fun m =>
        (liftM (M.modifyMgr fun _ => m) : N Unit)) _) { w with log := .datagram q text :: w.log }
      exact this.symm
    · have := step (w.mgr.process (env.order (.datagram q text :: w.log)) text q)
        { w with log := .datagram q text :: w.log } (processEntries v (.datagram q text :: w.log)
        (env.order (.datagram q text :: w.log)) w.mgr text q)
      exact (congrArg (fun x => _ ++ x) this).symm
  · cases w.mgr.process (env.order (.datagram q text :: w.log)) text q with
    | ok m => rfl
    | err e => exact nomatch e
    | panic e => rfl
  · cases hp : w.mgr.process (env.order (.datagram q text :: w.log)) text q with
    | ok m => exact ⟨process_static hs.static _ hp, (process_inlets hp).trans hs.inlets⟩
    | err e => exact nomatch e
    | panic e => exact hs

theorem readNotification_rung {X : Setting} {w : World} (h : Inv X [] w.mgr w.kernel w.log)
    (hs : Stable X.programs d w.mgr) (ht : Turned d.notifyFd w.log)
    (hne : d.notifyFd ≠ d.signalFd) (hne' : d.notifyFd ≠ d.statusFd) :
    Rung X.programs d w (readNotification v env w) := by
  obtain ⟨ev, past, hl, hfd⟩ := ht
  have key : Warrants X.programs d w.log .failed
      [.failure .warn "Failed to receive notification".toList []] := by
    show _ = _
    rw [hl]
    dsimp only
    rw [hfd, if_neg hne, if_neg hne', if_pos rfl]
  show Rung X.programs d w ((readSocket v >>= _) w)
  unfold readSocket
  rw [N.assoc]
  refine (call (ps := X.programs) (d := d) w hs).then .lift (recv_good h.legal) fun r w' hw' hs' => ?_
  obtain ⟨rest, rfl⟩ := hw'
  cases r with
  | none => exact .event (e := .failed) rfl key hs
  | some bc =>
    obtain ⟨bytes, cred⟩ := bc
    dsimp only
    rw [N.assoc]
    refine (emit (ps := X.programs) (d := d) (e := .received bytes) (fun _ => rfl)
      { w with answers := rest } hs).bind fun _ w' e => ?_
    cases e
    have hi := received_inv (w := { w with answers := rest }) h bytes
    split
    · exact fail _ hs
    · rw [N.assoc]
      refine lifted hs fun text _ => ?_
      cases cred with
      | none => exact .event (e := .unsigned) rfl rfl hs
      | some q =>
        exact datagram_rung v env (w := { w with answers := rest, log := .received bytes :: w.log }) hi hs text q

theorem handleEvent_rung {X : Setting} {w : World} (h : Inv X [] w.mgr w.kernel w.log)
    (hs : Stable X.programs d w.mgr) (ev : Ready) :
    Rung X.programs d w (handleEvent v env ev w) := by
  have hin := hs.inlets
  have ev1 : w.mgr.signalFd = d.signalFd := by rw [← hin]; rfl
  have ev2 : w.mgr.statusFd = d.statusFd := by rw [← hin]; rfl
  have ev3 : w.mgr.notifyFd = d.notifyFd := by rw [← hin]; rfl
  by_cases hq : ev.inp = true ∨ ev.hup = true
  · have hq' : (ev.inp || ev.hup) = true := by simpa using hq
    refine Rung.bind (n := (liftM (M.emit (.ready ev)) : N Unit))
      (.event (e := .ready ev) rfl (by show _ = _; rw [if_pos hq']; rfl) hs) fun _ w' e => ?_
    cases e
    replace h := remark_inv (e := .ready ev) trivial h
    refine Rung.bind (n := (liftM M.get : N World)) (w := { w with log := .ready ev :: w.log })
      (.quiet rfl rfl hs) fun a w' e => ?_
    cases e
    have ht : ∀ fd, ev.fd = fd → Turned fd (.ready ev :: w.log) := fun fd e => ⟨ev, _, rfl, e⟩
    split
    · split
      · rename_i e1
        exact handleSignal_rung v (w := { w with log := .ready ev :: w.log }) hs (ht _ (e1.trans ev1))
      · rename_i e1
        split
        · rename_i e2
          exact reportStatus_rung v env (w := { w with log := .ready ev :: w.log }) hs
            (ht _ (e2.trans ev2)) (fun e => e1 (e2.trans (ev2.trans (e.trans ev1.symm))))
        · rename_i e2
          split
          · rename_i e3
            exact readNotification_rung v env (w := { w with log := .ready ev :: w.log }) h hs
              (ht _ (e3.trans ev3)) (fun e => e1 (e3.trans (ev3.trans (e.trans ev1.symm))))
              (fun e => e2 (e3.trans (ev3.trans (e.trans ev2.symm))))
          · rename_i e3
            exact printChildOutput_rung (w := { w with log := .ready ev :: w.log }) hs (ht _ rfl)
              (fun e => e2 (e.trans ev2.symm)) (fun e => e3 (e.trans ev3.symm))
    · split
      · have hw : Warrants X.programs d (.ready ev :: w.log) (.hangup ev.fd) [] := .inl rfl
        have hw' : Warrants X.programs d (.ready ev :: w.log) (.hangup ev.fd)
            [.fixed .warn "Could not unregister fd from epoll".toList] := .inr rfl
        unfold N.when M.when
        dsimp only
        by_cases hm : ev.fd ∈ w.mgr.fdDict
        · by_cases hv : v.notRemoved (.ready ev :: w.log) = true
          · rw [if_pos hm, if_pos hv]
            exact .event (e := .hangup ev.fd) rfl hw' ⟨hs.static, hs.inlets⟩
          · rw [if_pos hm, if_neg hv]
            exact .event (e := .hangup ev.fd) rfl hw ⟨hs.static, hs.inlets⟩
        · by_cases hv : v.notRemoved (.ready ev :: w.log) = true
          · rw [if_neg hm, if_pos hv]
            exact .event (e := .hangup ev.fd) rfl hw' ⟨hs.static, hs.inlets⟩
          · rw [if_neg hm, if_neg hv]
            exact .event (e := .hangup ev.fd) rfl hw ⟨hs.static, hs.inlets⟩
      · rename_i h1 h2
        exact absurd hq (by simp [h1, h2])
  · have hq1 : ev.inp = false := by simpa using fun e => hq (.inl e)
    have hq2 : ev.hup = false := by simpa using fun e => hq (.inr e)
    unfold handleEvent
    rw [hq1, hq2]
    exact .event (e := .ready ev) rfl (by show _ = _; rw [hq1, hq2]; rfl) hs

theorem handleEvents_rung {X : Setting} (henv : env.rfc3339 = X.rfc3339) (evs : List Ready)
    {w : World} (h : Inv X [] w.mgr w.kernel w.log) (hs : Stable X.programs d w.mgr)
    (hnd : (evs.map (·.fd)).Nodup) (hreg : ∀ e ∈ evs, e.fd ∈ w.kernel.epoll) :
    Rung X.programs d w (N.forEach (handleEvent v env) evs w) := by
  induction evs generalizing w with
  | nil => exact ret w hs
  | cons ev evs ih =>
    refine (handleEvent_rung v env h hs ev).then (handleEvent_erases v env ev)
      (handleEvent_good env henv ev w h (hreg ev (by simp))) ?_
    rintro - w' ⟨h1, h2⟩ hs'
    rw [List.map_cons, List.nodup_cons] at hnd
    refine ih h1.1 hs' hnd.2 fun e he => h2 _ (hreg e (by simp [he])) fun heq =>
      hnd.1 (heq ▸ List.mem_map_of_mem he)

theorem dispatchEpoll_rung {X : Setting} (henv : env.rfc3339 = X.rfc3339) {w : World}
    (h : Inv X [] w.mgr w.kernel w.log) (hs : Stable X.programs d w.mgr) (hc : Caught X w.mgr)
    (hn : w.mgr.keepRunning = true → NothingDue X.zone X.cron w.log)
    (hb : Occupied X.programs w.log) : Rung X.programs d w (dispatchEpoll v env w) := by
  refine (emit (ps := X.programs) (d := d) (e := .polling) (fun _ => rfl) w hs).bind fun _ w' e => ?_
  cases e
  have h' := polling_inv h hc hn hb
  refine (call (ps := X.programs) (d := d) { w with log := .polling :: w.log } hs).then .lift
    (epollWait_good (w := { w with log := .polling :: w.log }) h'.legal) ?_
  rintro r w' ⟨⟨rest, rfl⟩, hr⟩ -
  cases r with
  | none => exact .event (e := .unpolled) rfl rfl hs
  | some evs =>
    obtain ⟨h1, h2⟩ := hr evs rfl
    refine (emit (ps := X.programs) (d := d) (e := .polled evs) (fun _ => rfl)
      { w with answers := rest, log := .polling :: w.log } hs).bind fun _ w' e => ?_
    cases e
    refine (say (ps := X.programs) (d := d) (msg := .counted "Got ".toList evs.length " events".toList) rfl
      { w with answers := rest, log := .polled evs :: .polling :: w.log } hs).bind fun _ w' e => ?_
    cases e
    exact handleEvents_rung v env henv evs
      (w := { w with answers := rest, log := .polled evs :: .polling :: w.log })
      (remark_inv trivial h') hs h1 h2

/-! ## The loops -/

theorem mainLoop_rung {X : Setting} (hz : env.zone = X.zone) (henv : env.rfc3339 = X.rfc3339)
    (fuel : Nat) {w : World} (h : Inv X [] w.mgr w.kernel w.log) (hs : Stable X.programs d w.mgr) :
    Rung X.programs d w (mainLoop v env fuel w) := by
  induction fuel generalizing w with
  | zero => exact stop w hs
  | succ fuel ih =>
    refine Rung.bind (n := (liftM M.get : N World)) (w := w) (.quiet rfl rfl hs) fun a w' e => ?_
    cases e
    split
    · rename_i hcond
      have hk : w.mgr.keepRunning = true := (Bool.and_eq_true _ _ ▸ hcond).1
      have hb : Occupied X.programs w.log := by
        rcases Bool.or_eq_true_iff.mp (Bool.and_eq_true _ _ ▸ hcond).2 with hb | hb
        · exact .inl (busy_of_running h.tables hb)
        · exact .inr ⟨h.keep.mp hk, released_of_runnable h hk hb⟩
      refine (spawnChildren_rings v env w hs).then (spawnChildren_erases v env)
        ((spawnChildren_good env hz w h hk hb).with (fun a w' => spawnChildren_adds env w a w')) ?_
      rintro - w1 ⟨⟨h1, h2, h3, h3'⟩, es, hes, hst⟩ hs1
      have hb1 : Occupied X.programs w1.log := by
        rw [hes]
        exact occupied_starting (by rw [← hes]; exact h1.1) h2 hst hb
      refine (dispatchEpoll_rung v env henv h1.1 hs1 (fun _ => h3) (fun _ => h3') hb1).then
        (dispatchEpoll_erases v env)
        (dispatchEpoll_good env henv w1 h1.1 (fun _ => h3) (fun _ => h3') hb1) ?_
      rintro - w2 h4 hs2
      refine Rung.bind (n := (liftM M.get : N World)) (w := w2) (.quiet rfl rfl hs2) fun a w' e => ?_
      cases e
      refine (lookForFinishedChildren_rings v _ w2 hs2).then (lookForFinishedChildren_erases v _)
        (lookForFinishedChildren_good _ w2 h4.1) ?_
      rintro - w3 h5 hs3
      exact ih h5.1 hs3
    · exact ret w hs

theorem shutdownLoop_rung {X : Setting} (henv : env.rfc3339 = X.rfc3339)
    (fuel : Nat) {w : World} (h : Inv X [] w.mgr w.kernel w.log) (hs : Stable X.programs d w.mgr)
    (hq : w.mgr.keepRunning = true →
      w.mgr.hasRunningProcesses = false ∧ w.mgr.deps.runnable = []) :
    Rung X.programs d w (shutdownLoop v env fuel w) := by
  induction fuel generalizing w with
  | zero => exact stop w hs
  | succ fuel ih =>
    refine Rung.bind (n := (liftM M.get : N World)) (w := w) (.quiet rfl rfl hs) fun a w' e => ?_
    cases e
    split
    · rename_i hcond
      have hk : w.mgr.keepRunning = false := by
        cases hk : w.mgr.keepRunning with
        | false => rfl
        | true => rw [(hq hk).1] at hcond; cases hcond
      have hg := dispatchEpoll_good env henv w h (fun e => by rw [hk] at e; cases e)
        (fun e => by rw [hk] at e; cases e) (.inl (busy_of_running h.tables hcond))
      refine (dispatchEpoll_rung v env henv h hs (fun e => by rw [hk] at e; cases e)
        (fun e => by rw [hk] at e; cases e) (.inl (busy_of_running h.tables hcond))).then
        (dispatchEpoll_erases v env) hg ?_
      rintro - w2 h4 hs2
      have hk2 := keep_false h h4 hk
      refine Rung.bind (n := (liftM M.get : N World)) (w := w2) (.quiet rfl rfl hs2) fun a w' e => ?_
      cases e
      refine (lookForFinishedChildren_rings v _ w2 hs2).then (lookForFinishedChildren_erases v _)
        (lookForFinishedChildren_good _ w2 h4.1) ?_
      rintro - w3 h5 hs3
      have hk3 := keep_false h4.1 h5 hk2
      exact ih h5.1 hs3 (fun e => by rw [hk3] at e; cases e)
    · exact ret w hs

theorem start_rung {X : Setting} {w : World} (h : Initial X env w) :
    Rung X.programs w.mgr.inlets w (start v env w) := by
  have hinv := h.inv
  have hs : Stable X.programs w.mgr.inlets w.mgr := ⟨static_of_tables hinv.tables, rfl⟩
  refine Rung.bind (n := (liftM M.get : N World)) (w := w) (.quiet rfl rfl hs) fun a w' e => ?_
  cases e
  refine (call (ps := X.programs) (d := w.mgr.inlets) w hs).then .lift (setup_good hinv.legal _) ?_
  rintro b w1 ⟨k, rest, rfl, hb⟩ -
  cases b with
  | false => exact .event (e := .exit 3) rfl rfl hs
  | true =>
    cases hb rfl
    have hinv1 : Inv X [] w.mgr
        { w.kernel with epoll := [w.mgr.signalFd, w.mgr.statusFd, w.mgr.notifyFd] } w.log := by
      refine { hinv with kern := { hinv.kern with epoll := ?_ } }
      intro fd hfd
      simp only [List.mem_cons, List.not_mem_nil, or_false] at hfd
      rcases hfd with e | e | e
      · exact .inl e
      · exact .inr (.inl e)
      · exact .inr (.inr (.inl e))
    have sayy : ∀ {l s} (w' : World), Stable X.programs w.mgr.inlets w'.mgr →
        alarmOf (.own [] (.fixed l s)) = none → ∀ {β : Type} {f : Unit → N β},
        Rung X.programs w.mgr.inlets w' (f () w') →
        Rung X.programs w.mgr.inlets w' ((N.say inManager (.fixed l s) >>= f) w') := by
      intro l s w' hs hm β f hf
      refine (say (ps := X.programs) (d := w.mgr.inlets) hm w' hs).bind fun _ w'' e => ?_
      cases e
      exact hf
    refine sayy (l := .debug) (s := "setup successful".toList) _ (by exact hs) rfl ?_
    refine (sayy (l := .debug) (s := "Entering poll loop".toList) _ (by exact hs) rfl ?_)
    refine Rung.bind (n := (liftM M.get : N World)) (.quiet rfl rfl hs) fun a w' e => ?_
    cases e
    refine (mainLoop_rung v env h.zone h.render _ (by exact hinv1) (by exact hs)).then (mainLoop_erases v env _)
      (mainLoop_good env h.zone h.render _ _ (by exact hinv1)) ?_
    rintro - w2 ⟨h2, h3⟩ hs2
    refine sayy (l := .info) (s := "Shutting down".toList) _ hs2 rfl ?_
    refine Rung.bind (n := (liftM M.get : N World)) (.quiet rfl rfl hs2) fun a w' e => ?_
    cases e
    refine (shutdownLoop_rung v env h.render _ h2.1 hs2 h3).then (shutdownLoop_erases v env _)
      (shutdownLoop_good env h.render _ w2 h2.1 h3) ?_
    rintro - w3 ⟨h4, -, -⟩ hs3
    refine sayy (l := .info) (s := "Exiting".toList) _ hs3 rfl
      (sayy (l := .trace) (s := "Exiting".toList) _ hs3 rfl ?_)
    refine .event (e := .exit w3.mgr.exitCode) rfl ?_ hs3
    show _ = _
    have : w3.mgr.exitCode ≠ 3 := by
      by_cases hc : SomeCrash X.programs w3.log
      · rw [h4.1.code.1 hc]; decide
      · rw [h4.1.code.2 hc]; decide
    rw [if_neg this]
    rfl

end Narrated

end Cinit
