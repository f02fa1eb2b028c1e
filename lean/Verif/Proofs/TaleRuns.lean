import Verif.Proofs.Tale
import Verif.Proofs.ManagerLoop
/-!
# The log tells what happens in the whole run, in order
-/

namespace Cinit

open M Manager Logging Spec

variable {ps : List ProcessConfig}

theorem Told.then {α β : Type} {X : Setting} {n : N α} {x : M α} {f : α → N β} {w : World}
    {Q : α → World → Prop} (h : Told ps w (n w)) (he : Erases n x) (hg : Good X Q (x w))
    (hf : ∀ a w', Q a w' → Told ps w' (f a w')) : Told ps w ((n >>= f) w) := by
  refine h.bind fun a w' e => hf a w' ?_
  rw [he w] at e
  rw [e] at hg
  exact hg

namespace Narrated

open Speaks

variable (v : Voice) (env : Env)

/-! ## Notifications -/

theorem handleNotification_name (p : Process) (k s : Str) : (p.handleNotification k s).name = p.name := by
  unfold Process.handleNotification
  split
  · split
    · rfl
    · split <;> rfl
  · split
    · split <;> rfl
    · split
      · rfl
      · split
        · split <;> rfl
        · rfl

theorem notificationMessages_items (l : Log) (p : Process) (k s : Str) :
    (entries inProcess (notificationMessages v l p k s)).filterMap itemOf =
      if k = Process.keyStatus then [.status p.name s] else [] := by
  have d1 : Process.keyReady ≠ Process.keyStatus := by decide
  have d2 : Process.keyStopping ≠ Process.keyStatus := by decide
  have d3 : Process.keyMainpid ≠ Process.keyStatus := by decide
  unfold notificationMessages
  split
  · rename_i h
    subst h
    rw [if_neg d1]
    split
    · rfl
    · split <;> rfl
  · split
    · rename_i h
      subst h
      rw [if_neg d2]
      split <;> rfl
    · split
      · rfl
      · split
        · cases parseI32 s with
          | none => rfl
          | some pid =>
            dsimp only
            split <;> rfl
        · rfl

theorem variableMessages_items (l : Log) (V : AMap Str Str) (p : Process) :
    (entries inProcess (variableMessages v l p V)).filterMap itemOf =
      V.filterMap fun kv => if kv.1 = Process.keyStatus then some (.status p.name kv.2) else none := by
  induction V generalizing p with
  | nil => rfl
  | cons kv V ih =>
    obtain ⟨k, s⟩ := kv
    have h1 := notificationMessages_items v l p k s
    have h2 := ih (p.handleNotification k s)
    rw [handleNotification_name] at h2
    unfold entries at h1 h2 ⊢
    rw [variableMessages, List.map_append, List.filterMap_append, h1, h2]
    by_cases e : k = Process.keyStatus
    · rw [if_pos e, List.filterMap_cons_some (by rw [if_pos e])]; rfl
    · rw [if_neg e, List.filterMap_cons_none (by rw [if_neg e])]; rfl

theorem select_key {β : Type} (V : AMap Str Str) (hw : AMap.WF V) (key : Str) (f : Str → β) :
    V.filterMap (fun kv => if kv.1 = key then some (f kv.2) else none) =
      ((AMap.get? V key).map f).toList := by
  induction V with
  | nil => rfl
  | cons kv V ih =>
    obtain ⟨k, s⟩ := kv
    unfold AMap.WF at hw
    simp only [AMap.keys, List.map_cons, List.nodup_cons] at hw
    rw [AMap.get?_cons]
    by_cases e : k = key
    · subst e
      rw [List.filterMap_cons_some (by rw [if_pos rfl]), if_pos rfl, ih hw.2,
        (AMap.get?_eq_none_iff V k).mpr hw.1]
      rfl
    · rw [List.filterMap_cons_none (by rw [if_neg e]), if_neg e, ih hw.2]

theorem mem_variableMessages {l : Log} {V : AMap Str Str} {p : Process} {m : Msg}
    (h : m ∈ variableMessages v l p V) :
    ∃ k s p', (k, s) ∈ V ∧ p'.name = p.name ∧ m ∈ notificationMessages v l p' k s := by
  induction V generalizing p with
  | nil => cases h
  | cons kv V ih =>
    obtain ⟨k, s⟩ := kv
    rw [variableMessages] at h
    rcases List.mem_append.mp h with h | h
    · exact ⟨k, s, p, by simp, rfl, h⟩
    · obtain ⟨k', s', p', h1, h2, h3⟩ := ih h
      exact ⟨k', s', p', by simp [h1], by rw [h2, handleNotification_name], h3⟩

theorem notification_possible {l : Log} {p : Process} {k s text : Str} {names texts : List Str} {m : Msg}
    (h : m ∈ notificationMessages v l p k s) (hn : p.name ∈ names) (ht : text ∈ texts)
    (hk : (k, s) ∈ parseNotification text) : Possible names texts m := by
  unfold notificationMessages at h
  split at h
  · split at h
    · simp only [List.mem_singleton] at h
      subst h
      exact ⟨text, ht, hk⟩
    · split at h <;> simp only [List.mem_cons, List.not_mem_nil, or_false] at h
      · rcases h with rfl | rfl <;> exact hn
      · subst h; exact hn
  · split at h
    · split at h <;> simp only [List.mem_cons, List.not_mem_nil, or_false] at h
      · subst h
        exact ⟨text, ht, hk⟩
      · rcases h with rfl | rfl <;> exact hn
    · split at h
      · rename_i e
        simp only [List.mem_singleton] at h
        subst h e
        exact ⟨hn, text, ht, hk⟩
      · split at h
        · rename_i e
          subst e
          cases hp : parseI32 s with
          | none =>
            rw [hp] at h
            simp only [List.mem_singleton] at h
            subst h
            exact ⟨⟨text, ht, hk⟩, v.error_line l⟩
          | some pid =>
            rw [hp] at h
            dsimp only at h
            split at h
            · simp only [List.mem_cons, List.not_mem_nil, or_false] at h
              rcases h with rfl | rfl <;> exact hn
            · cases h
        · cases h

theorem nothing_of_interest {module : List Str} {msgs : List Msg}
    (h : ∀ m ∈ msgs, itemOf (.own [] m) = none) : (entries module msgs).filterMap itemOf = [] := by
  rw [List.filterMap_eq_nil_iff]
  intro e he
  simp only [entries, List.mem_map] at he
  obtain ⟨m, hm, rfl⟩ := he
  rw [← h m hm]
  cases m <;> rfl

theorem mem_parseMessages {line : Str} {m : Msg} (h : m ∈ parseMessages line) :
    (m = .unparsed line ∧ (splitFirst '=' line).2 = none) ∨
      ∃ k s, m = .ignored k s ∧ splitFirst '=' line = (k, some s) ∧ k ∉ allowedKeys := by
  unfold parseMessages at h
  split at h
  · rename_i k e
    simp only [List.mem_singleton] at h
    exact .inl ⟨h, by rw [e]⟩
  · rename_i k s e
    split at h
    · cases h
    · rename_i hk
      simp only [List.mem_singleton] at h
      exact .inr ⟨k, s, h, e, fun h => hk (List.contains_iff_mem.mpr h)⟩

theorem mem_finishedMessages {d : DepMgr} {i : Nat} {m : Msg} (h : m ∈ finishedMessages d i) :
    m = .alreadyTriggered i := by
  unfold finishedMessages at h
  split at h
  · split at h
    · simpa using h
    · cases h
  · cases h

theorem processEntries_items {X : Setting} {m : Manager} {k : Kernel} {l l' : Log}
    (h : Inv X [] m k l') (ord : HashOrder) (text : Str) (q : Int) :
    (processEntries v l ord m text q).filterMap itemOf =
      (publishes X.programs l' q text).map fun s => .status s.1 s.2 := by
  have ho : m.processIdForPid q = owner X.programs l' q := h.tables.pids q
  unfold processEntries publishes
  rw [ho]
  cases ho' : owner X.programs l' q with
  | none => rfl
  | some i =>
    obtain ⟨p, hp, hok⟩ := h.tables.proc (owner_facts h.legal ho').1
    dsimp only
    rw [hp]
    dsimp only
    by_cases hn : p.ptype = .notify
    · rw [if_neg (by simp [hn]), if_pos (hok.notify.mp hn)]
      obtain ⟨hw, hk⟩ := parseNotification_wf text
      obtain ⟨hw', hg⟩ := AMap.get?_perm hw (ord.perm (parseNotification text)) Process.keyStatus
      rw [List.filterMap_append, List.filterMap_append, variableMessages_items, select_key _ hw',
        hg, parseNotification_get (by simp [allowedKeys]), nothing_of_interest, nothing_of_interest]
      · have hnm := hok.name
        cases hc : X.programs[i]? with
        | none => rw [hc] at hnm; cases hnm
        | some c =>
          rw [hc] at hnm
          have hnm : c.name = p.name := by simpa using hnm
          simp only [Option.bind_some, List.nil_append, List.append_nil, hnm]
          show (Option.map _ (assigned text "STATUS".toList)).toList = _
          cases assigned text "STATUS".toList <;> rfl
      · intro m hm
        split at hm
        · rw [mem_finishedMessages hm]; rfl
        · cases hm
      · intro m hm
        obtain ⟨line, -, hm⟩ := List.mem_flatMap.mp hm
        rcases mem_parseMessages hm with ⟨rfl, -⟩ | ⟨_, _, rfl, -⟩ <;> rfl
    · rw [if_pos hn, if_neg (fun e => hn (hok.notify.mpr e))]
      rfl

theorem processEntries_possible {m : Manager} (hs : Static ps m) {l : Log} (ord : HashOrder) {text : Str}
    {q : Int} {texts : List Str} (ht : text ∈ texts) {target : List Str} {msg : Msg}
    (h : Entry.own target msg ∈ processEntries v l ord m text q) :
    target ∈ ownTargets ∧ Possible (ps.map (·.name)) texts msg := by
  unfold processEntries at h
  split at h
  · obtain ⟨rfl, h'⟩ := mem_entries h
    simp only [List.mem_singleton] at h'
    subst h'
    exact ⟨placed_notify, trivial⟩
  · split at h
    · cases h
    · rename_i i _ _ p hp
      obtain ⟨c, hc1, hc2, -, -⟩ := hs i p hp
      have hn := name_mem hc1
      rw [hc2] at hn
      split at h
      · obtain ⟨rfl, h'⟩ := mem_entries h
        simp only [List.mem_cons, List.not_mem_nil, or_false] at h'
        refine ⟨placed_notify, ?_⟩
        rcases h' with rfl | rfl
        · show (_, _) ∈ fixedMessages
          decide
        · exact hn
      · dsimp only at h
        rcases List.mem_append.mp h with h | h
        · rcases List.mem_append.mp h with h | h
          · obtain ⟨rfl, h'⟩ := mem_entries h
            obtain ⟨line, hl, hm⟩ := List.mem_flatMap.mp h'
            refine ⟨placed_notify, ?_⟩
            rcases mem_parseMessages hm with ⟨rfl, h1⟩ | ⟨_, _, rfl, h1, h2⟩
            · exact ⟨text, ht, hl, h1⟩
            · exact ⟨text, ht, line, hl, h1, h2⟩
          · obtain ⟨rfl, h'⟩ := mem_entries h
            obtain ⟨k, s, p', h1, h2, h3⟩ := mem_variableMessages v h'
            exact ⟨placed_process, notification_possible v h3 (h2 ▸ hn) ht
              ((ord.perm (parseNotification text)).mem_iff.mp h1)⟩
        · obtain ⟨rfl, h'⟩ := mem_entries h
          refine ⟨placed_graph, ?_⟩
          split at h'
          · rw [mem_finishedMessages h']; trivial
          · cases h'

theorem process_static {m m' : Manager} (hs : Static ps m) (ord : HashOrder) {text : Str} {q : Int}
    (h : m.process ord text q = .ok m') : Static ps m' := by
  by_cases hr : ∀ i, m.processIdForPid q = some i → ∃ p, m.procs[i]? = some p ∧ p.ptype ≠ .notify
  · rw [process_rejected ord hr] at h
    cases h
    exact hs
  · simp only [not_forall] at hr
    obtain ⟨i, hi, hr⟩ := hr
    cases hp : m.procs[i]? with
    | none =>
      unfold Manager.process at h
      rw [hi] at h
      dsimp only at h
      rw [hp] at h
      cases h
    | some p =>
      by_cases hn : p.ptype = .notify
      · rw [process_accepted ord hi hp hn] at h
        have : m'.procs = m.procs.set i (applyText text p) := by
          revert h
          cases (if saysReady text then m.deps.notifyProcessFinished i else .ok m.deps) with
          | ok d => intro h; cases h; rfl
          | err e => exact nomatch e
          | panic e => intro h; cases h
        intro j p' hj
        rw [this, List.getElem?_set] at hj
        split at hj
        · rename_i hij
          subst hij
          split at hj
          · cases hj
            exact hs i p hp
          · cases hj
        · exact hs j p' hj
      · exact absurd ⟨p, hp, hn⟩ hr

theorem static_of_tables {X : Setting} {m : Manager} {l : Log} (h : Tables X m l) :
    Static X.programs m := by
  intro i p hp
  have hok := h.procs i p hp
  have hn := hok.name
  cases hc : X.programs[i]? with
  | none => rw [hc] at hn; cases hn
  | some c => rw [hc] at hn; exact ⟨c, rfl, by simpa using hn, hok.cron, hok.notify⟩

/-- A message with its sender. -/
theorem datagram_told {X : Setting} {w : World} (h : Inv X [] w.mgr w.kernel w.log) (text : Str) (q : Int) :
    Told X.programs w ((do
      M.emit (.datagram q text)
      N.say inNotify (.received text q)
      let w ← M.get
      N.write (processEntries v w.log (env.order w.log) w.mgr text q)
      let m ← M.lift (w.mgr.process (env.order w.log) text q)
      M.modifyMgr fun _ => m : N Unit) w) := by
  have hs := static_of_tables h.tables
  have key : ∀ o : Out Unit, o.log = .datagram q text :: w.log → Static X.programs o.world.mgr →
      Told X.programs w (o, [Entry.own ("cinit".toList :: "runtime".toList :: inNotify) (.received text q)] ++
        processEntries v (.datagram q text :: w.log) (env.order (.datagram q text :: w.log)) w.mgr text q) := by
    intro o ho hso
    refine ⟨⟨_, [], (List.append_nil _).symm, ?_, .inl rfl⟩, ?_, ?_, hso⟩
    · rw [ho, tale, List.filterMap_append, processEntries_items v h]
      rfl
    · intro target msg hm
      have ht : text ∈ textsReceived (.datagram q text :: w.log) := List.mem_cons_self
      rw [ho]
      rcases List.mem_append.mp hm with hm | hm
      · simp only [List.mem_singleton, Entry.own.injEq] at hm
        obtain ⟨rfl, rfl⟩ := hm
        exact ⟨placed_notify, ht⟩
      · exact processEntries_possible v hs _ ht hm
    · intro t ht
      rw [ho]
      exact List.mem_cons_of_mem _ ht
  have step : ∀ (r : Res Empty Manager) (w' : World) (es : List Entry),
      ((N.write es >>= fun _ => (liftM (M.lift r) : N Manager) >>= fun m =>
        (liftM (M.modifyMgr fun _ => m) : N Unit)) w').2 = es := by
    intro r w' es
    cases r with
    | ok m => exact (List.append_nil _)
    | err e => exact nomatch e
    | panic e => exact (List.append_nil _)
  refine Eq.mp ?_ (key ((M.lift (w.mgr.process (env.order (.datagram q text :: w.log)) text q) >>= fun m =>
    M.modifyMgr fun _ => m) { w with log := .datagram q text :: w.log }) ?_ ?_)
  · congr 1
    refine Prod.ext ?_ ?_
    · have := (Erases.write (es := processEntries v (.datagram q text :: w.log)
        (env.order (.datagram q text :: w.log)) w.mgr text q) (Erases.seq Erases.lift fun m => Erases.lift) :
        Erases (N.write _ >>= fun _ => (liftM (M.lift (w.mgr.process (env.order (.datagram q text :: w.log)) text q)) : N Manager) >>= fun m =>
        (liftM (M.modifyMgr fun _ => m) : N Unit)) _) { w with log := .datagram q text :: w.log }
      exact this.symm
    · have := step (w.mgr.process (env.order (.datagram q text :: w.log)) text q)
        { w with log := .datagram q text :: w.log } (processEntries v (.datagram q text :: w.log)
        (env.order (.datagram q text :: w.log)) w.mgr text q)
      exact (congrArg (fun x => _ ++ x) this).symm
  · cases w.mgr.process (env.order (.datagram q text :: w.log)) text q with
    | ok m => rfl
    | err e => exact nomatch e
    | panic e => rfl
  · cases hp : w.mgr.process (env.order (.datagram q text :: w.log)) text q with
    | ok m => exact process_static hs _ hp
    | err e => exact nomatch e
    | panic e => exact hs

theorem readNotification_told {X : Setting} {w : World} (h : Inv X [] w.mgr w.kernel w.log) :
    Told X.programs w (readNotification v env w) := by
  have hs := static_of_tables h.tables
  show Told X.programs w ((readSocket v >>= _) w)
  unfold readSocket
  rw [N.assoc]
  refine (call w hs).then .lift (recv_good h.legal) fun r w' hw' => ?_
  obtain ⟨rest, rfl⟩ := hw'
  cases r with
  | none =>
    dsimp only
    rw [N.assoc]
    refine get (fun w hs => ?_) _ hs
    rw [N.assoc]
    exact seq (emit (fun _ => rfl) (fun _ _ h => by cases h)) (fun _ => by
      rw [N.assoc]
      exact seq (failure_speaks v placed_notify (by decide)) fun _ => ret) w hs
  | some bc =>
    obtain ⟨bytes, cred⟩ := bc
    dsimp only
    rw [N.assoc]
    refine (emit (ps := X.programs) (e := .received bytes) (fun _ => rfl) (fun _ _ h => by cases h)
      { w with answers := rest } hs).bind fun _ w' e => ?_
    cases e
    have hi := received_inv (w := { w with answers := rest }) h bytes
    split
    · exact fail _ hs
    · rw [N.assoc]
      refine (lift (ps := X.programs) (r := sliceToString bytes)
        { w with answers := rest, log := .received bytes :: w.log } hs).bind fun text w' e => ?_
      have : w' = { w with answers := rest, log := .received bytes :: w.log } := by
        revert e
        show (M.lift (sliceToString bytes) _ = _ → _)
        cases sliceToString bytes with
        | ok t => intro e; cases e; rfl
        | err e => exact nomatch e
        | panic p => intro e; cases e
      subst this
      cases cred with
      | none =>
        dsimp only
        rw [N.assoc]
        refine get (fun w hs => ?_) _ hs
        rw [N.assoc]
        exact seq (emit (fun _ => rfl) (fun _ _ h => by cases h)) (fun _ => by
          rw [N.assoc]
          exact seq (failure_speaks v placed_notify (by decide)) fun _ => ret) w hs
      | some q =>
        exact datagram_told v env (w := { w with answers := rest, log := .received bytes :: w.log }) hi text q

theorem handleEvent_told {X : Setting} {w : World} (h : Inv X [] w.mgr w.kernel w.log) (ev : Ready) :
    Told X.programs w (handleEvent v env ev w) := by
  have hs := static_of_tables h.tables
  refine (emit (ps := X.programs) (e := .ready ev) (fun _ => rfl) (fun _ _ h => by cases h) _ hs).bind
    fun _ w' e => ?_
  cases e
  replace h := remark_inv (e := .ready ev) trivial h
  show Told X.programs _ (((liftM M.get : N World) >>= _) _)
  refine Told.bind (n := (liftM M.get : N World)) (w := { w with log := .ready ev :: w.log })
    (.quiet rfl rfl hs) fun a w' e => ?_
  cases e
  split
  · split
    · exact handleSignal_speaks v _ hs
    · split
      · exact reportStatus_speaks v env _ hs
      · split
        · exact readNotification_told v env h
        · exact printChildOutput_speaks _ _ hs
  · split
    · refine seq (emit (e := .hangup ev.fd) (fun _ => rfl) (fun _ _ h => by cases h)) (fun _ => seq ?_ fun _ => seq ?_ fun _ =>
        seq ?_ fun _ => modify (f := deregisterFd ev.fd) fun _ => rfl) { w with log := .ready ev :: w.log } hs
      · exact fun w hs => .quiet rfl rfl hs
      · exact when (fixed_speaks placed_manager (by decide))
      · intro w hs
        refine .quiet ?_ ?_ ?_
        all_goals
          show _
          unfold M.when
          split
        all_goals first | rfl | exact hs
    · exact fixed_speaks placed_manager (by decide) _ hs

theorem handleEvents_told {X : Setting} (henv : env.rfc3339 = X.rfc3339) (evs : List Ready)
    {w : World} (h : Inv X [] w.mgr w.kernel w.log) (hnd : (evs.map (·.fd)).Nodup)
    (hreg : ∀ e ∈ evs, e.fd ∈ w.kernel.epoll) :
    Told X.programs w (N.forEach (handleEvent v env) evs w) := by
  induction evs generalizing w with
  | nil => exact ret w (static_of_tables h.tables)
  | cons ev evs ih =>
    refine (handleEvent_told v env h ev).then (handleEvent_erases v env ev)
      (handleEvent_good env henv ev w h (hreg ev (by simp))) ?_
    rintro - w' ⟨h1, h2⟩
    rw [List.map_cons, List.nodup_cons] at hnd
    refine ih h1.1 hnd.2 fun e he => h2 _ (hreg e (by simp [he])) fun heq =>
      hnd.1 (heq ▸ List.mem_map_of_mem he)

theorem dispatchEpoll_told {X : Setting} (henv : env.rfc3339 = X.rfc3339) {w : World}
    (h : Inv X [] w.mgr w.kernel w.log) (hc : Caught X w.mgr)
    (hn : w.mgr.keepRunning = true → NothingDue X.zone X.cron w.log)
    (hb : Occupied X.programs w.log) : Told X.programs w (dispatchEpoll v env w) := by
  have hs := static_of_tables h.tables
  refine (emit (ps := X.programs) (e := .polling) (fun _ => rfl) (fun _ _ h => by cases h) w hs).bind
    fun _ w' e => ?_
  cases e
  have h' := polling_inv h hc hn hb
  refine (call (ps := X.programs) { w with log := .polling :: w.log } hs).then .lift
    (epollWait_good (w := { w with log := .polling :: w.log }) h'.legal) ?_
  rintro r w' ⟨⟨rest, rfl⟩, hr⟩
  cases r with
  | none =>
    exact get' (fun _ _ => seq (emit (fun _ => rfl) (fun _ _ h => by cases h)) fun _ =>
      failure_speaks v placed_manager (by decide)) _ hs
  | some evs =>
    obtain ⟨h1, h2⟩ := hr evs rfl
    refine (emit (ps := X.programs) (e := .polled evs) (fun _ => rfl) (fun _ _ h => by cases h)
      { w with answers := rest, log := .polling :: w.log } hs).bind fun _ w' e => ?_
    cases e
    refine (say (ps := X.programs) (msg := .counted "Got ".toList evs.length " events".toList) rfl
      placed_manager (fun _ => trivial)
      { w with answers := rest, log := .polled evs :: .polling :: w.log } hs).bind fun _ w' e => ?_
    cases e
    exact handleEvents_told v env henv evs
      (w := { w with answers := rest, log := .polled evs :: .polling :: w.log })
      (remark_inv trivial h') h1 h2

/-! ## The loops -/

theorem mainLoop_told {X : Setting} (hz : env.zone = X.zone) (henv : env.rfc3339 = X.rfc3339)
    (fuel : Nat) {w : World} (h : Inv X [] w.mgr w.kernel w.log) :
    Told X.programs w (mainLoop v env fuel w) := by
  induction fuel generalizing w with
  | zero => exact stop w (static_of_tables h.tables)
  | succ fuel ih =>
    have hs := static_of_tables h.tables
    refine Told.bind (n := (liftM M.get : N World)) (w := w) (.quiet rfl rfl hs) fun a w' e => ?_
    cases e
    split
    · rename_i hcond
      have hk : w.mgr.keepRunning = true := (Bool.and_eq_true _ _ ▸ hcond).1
      have hb : Occupied X.programs w.log := by
        rcases Bool.or_eq_true_iff.mp (Bool.and_eq_true _ _ ▸ hcond).2 with hb | hb
        · exact .inl (busy_of_running h.tables hb)
        · exact .inr ⟨h.keep.mp hk, released_of_runnable h hk hb⟩
      refine (spawnChildren_speaks v env w hs).then (spawnChildren_erases v env)
        ((spawnChildren_good env hz w h hk hb).with (fun a w' => spawnChildren_adds env w a w')) ?_
      rintro - w1 ⟨⟨h1, h2, h3, h3'⟩, es, hes, hst⟩
      have hb1 : Occupied X.programs w1.log := by
        rw [hes]
        exact occupied_starting (by rw [← hes]; exact h1.1) h2 hst hb
      refine (dispatchEpoll_told v env henv h1.1 (fun _ => h3) (fun _ => h3') hb1).then
        (dispatchEpoll_erases v env)
        (dispatchEpoll_good env henv w1 h1.1 (fun _ => h3) (fun _ => h3') hb1) ?_
      rintro - w2 h4
      have hs2 := static_of_tables h4.1.tables
      refine Told.bind (n := (liftM M.get : N World)) (w := w2) (.quiet rfl rfl hs2) fun a w' e => ?_
      cases e
      refine (lookForFinishedChildren_speaks v _ w2 hs2).then (lookForFinishedChildren_erases v _)
        (lookForFinishedChildren_good _ w2 h4.1) ?_
      rintro - w3 h5
      exact ih h5.1
    · exact ret w hs

theorem shutdownLoop_told {X : Setting} (henv : env.rfc3339 = X.rfc3339)
    (fuel : Nat) {w : World} (h : Inv X [] w.mgr w.kernel w.log)
    (hq : w.mgr.keepRunning = true →
      w.mgr.hasRunningProcesses = false ∧ w.mgr.deps.runnable = []) :
    Told X.programs w (shutdownLoop v env fuel w) := by
  induction fuel generalizing w with
  | zero => exact stop w (static_of_tables h.tables)
  | succ fuel ih =>
    have hs := static_of_tables h.tables
    refine Told.bind (n := (liftM M.get : N World)) (w := w) (.quiet rfl rfl hs) fun a w' e => ?_
    cases e
    split
    · rename_i hcond
      have hk : w.mgr.keepRunning = false := by
        cases hk : w.mgr.keepRunning with
        | false => rfl
        | true => rw [(hq hk).1] at hcond; cases hcond
      have hg := dispatchEpoll_good env henv w h (fun e => by rw [hk] at e; cases e)
        (fun e => by rw [hk] at e; cases e) (.inl (busy_of_running h.tables hcond))
      refine (dispatchEpoll_told v env henv h (fun e => by rw [hk] at e; cases e)
        (fun e => by rw [hk] at e; cases e) (.inl (busy_of_running h.tables hcond))).then
        (dispatchEpoll_erases v env) hg ?_
      rintro - w2 h4
      have hk2 := keep_false h h4 hk
      have hs2 := static_of_tables h4.1.tables
      refine Told.bind (n := (liftM M.get : N World)) (w := w2) (.quiet rfl rfl hs2) fun a w' e => ?_
      cases e
      refine (lookForFinishedChildren_speaks v _ w2 hs2).then (lookForFinishedChildren_erases v _)
        (lookForFinishedChildren_good _ w2 h4.1) ?_
      rintro - w3 h5
      have hk3 := keep_false h4.1 h5 hk2
      exact ih h5.1 (fun e => by rw [hk3] at e; cases e)
    · exact ret w hs

theorem start_told {X : Setting} {w : World} (h : Initial X env w) :
    Told X.programs w (start v env w) := by
  have hinv := h.inv
  have hs := static_of_tables hinv.tables
  refine Told.bind (n := (liftM M.get : N World)) (w := w) (.quiet rfl rfl hs) fun a w' e => ?_
  cases e
  refine (call (ps := X.programs) w hs).then .lift (setup_good hinv.legal _) ?_
  rintro b w1 ⟨k, rest, rfl, hb⟩
  cases b with
  | false =>
    exact get' (fun _ _ => seq (failure_speaks v placed_manager (by decide)) fun _ =>
      seq (emit (fun _ => rfl) (fun _ _ h => by cases h)) fun _ => ret) _ hs
  | true =>
    cases hb rfl
    have hinv1 : Inv X [] w.mgr
        { w.kernel with epoll := [w.mgr.signalFd, w.mgr.statusFd, w.mgr.notifyFd] } w.log := by
      refine { hinv with kern := { hinv.kern with epoll := ?_ } }
      intro fd hfd
      simp only [List.mem_cons, List.not_mem_nil, or_false] at hfd
      rcases hfd with e | e | e
      · exact .inl e
      · exact .inr (.inl e)
      · exact .inr (.inr (.inl e))
    have sayy : ∀ {l s} (w : World), Static X.programs w.mgr → (l, s) ∈ fixedMessages → ∀ {β : Type} {f : Unit → N β},
        Told X.programs w (f () w) → Told X.programs w ((N.say inManager (.fixed l s) >>= f) w) := by
      intro l s w hs hm β f hf
      refine (fixed_speaks (ps := X.programs) placed_manager hm w hs).bind fun _ w' e => ?_
      cases e
      exact hf
    refine sayy (l := .debug) (s := "setup successful".toList) _ (by exact hs) (by decide) ?_
    refine (sayy (l := .debug) (s := "Entering poll loop".toList) _ (by exact hs) (by decide) ?_)
    refine Told.bind (n := (liftM M.get : N World)) (.quiet rfl rfl hs) fun a w' e => ?_
    cases e
    refine (mainLoop_told v env h.zone h.render _ hinv1).then (mainLoop_erases v env _)
      (mainLoop_good env h.zone h.render _ _ hinv1) ?_
    rintro - w2 ⟨h2, h3⟩
    have hs2 := static_of_tables h2.1.tables
    refine sayy (l := .info) (s := "Shutting down".toList) _ hs2 (by decide) ?_
    refine Told.bind (n := (liftM M.get : N World)) (.quiet rfl rfl hs2) fun a w' e => ?_
    cases e
    refine (shutdownLoop_told v env h.render _ h2.1 h3).then (shutdownLoop_erases v env _)
      (shutdownLoop_good env h.render _ w2 h2.1 h3) ?_
    rintro - w3 ⟨h4, -, -⟩
    have hs3 := static_of_tables h4.1.tables
    refine sayy (l := .info) (s := "Exiting".toList) _ hs3 (by decide)
      (sayy (l := .trace) (s := "Exiting".toList) _ hs3 (by decide) ?_)
    exact get' (fun _ _ => seq (emit (fun _ => rfl) (fun _ _ h => by cases h)) fun _ => ret) _ hs3

end Narrated

end Cinit
