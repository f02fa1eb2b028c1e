import Verif.Proofs.TaleRuns
/-!
# Which messages are written when
-/

namespace Cinit

open M Manager Logging Spec

/-- All entries are of a kind. -/
def Says {α : Type} (P : Entry → Prop) (n : N α) : Prop := ∀ w, ∀ e ∈ (n w).2, P e

namespace Says

variable {α β : Type} {P Q : Entry → Prop}

theorem mono {n : N α} (h : Says P n) (hi : ∀ e, P e → Q e) : Says Q n := fun w e he => hi e (h w e he)

theorem ret {a : α} : Says P (N.pure a) := fun _ _ h => nomatch h

theorem lift {x : M α} : Says P (liftM x : N α) := fun _ _ h => nomatch h

theorem seq {n : N α} {f : α → N β} (h : Says P n) (hf : ∀ a, Says P (f a)) : Says P (n >>= f) := by
  intro w e he
  have he : e ∈ (N.bind n f w).2 := he
  unfold N.bind at he
  have hw := h w
  revert he hw
  rcases n w with ⟨o, es⟩
  intro he hw
  cases o with
  | ok a w' =>
    rcases List.mem_append.mp he with he | he
    · exact hw e he
    · exact hf a w' e he
  | panic p w' => exact hw e he
  | stuck w' => exact hw e he

theorem write {es : List Entry} (h : ∀ e ∈ es, P e) : Says P (N.write es) := fun _ => h

theorem say {module : List Str} {msg : Msg}
    (h : P (.own ("cinit".toList :: "runtime".toList :: module) msg)) : Says P (N.say module msg) :=
  write fun e he => by rw [List.mem_singleton] at he; exact he ▸ h

theorem when {c : Prop} [Decidable c] {n : N Unit} (h : Says P n) : Says P (N.when c n) := by
  unfold N.when
  split
  · exact h
  · exact ret

theorem forEach {f : α → N Unit} {l : List α} (h : ∀ a, Says P (f a)) : Says P (N.forEach f l) := by
  induction l with
  | nil => exact ret
  | cons a l ih => exact seq (h a) fun _ => ih

end Says

/-- The messages at the end of a run. -/
def Msg.isEnd : Msg → Bool
  | .fixed _ s => s = "Shutting down".toList ∨ s = "Exiting".toList
  | _ => false

/-- Neither the end of a run nor, if `b` is set, the start of a program. -/
def Ordinary (b : Bool) : Entry → Prop
  | .own _ msg => Msg.isEnd msg = false ∧ (b = true → ∀ n, msg ≠ .starting n)
  | .program .. => True

theorem Ordinary.weaken {b : Bool} {e : Entry} (h : Ordinary true e) : Ordinary b e := by
  cases e with
  | own t m => exact ⟨h.1, fun _ => h.2 rfl⟩
  | program => trivial

namespace Narrated

open Says

variable (v : Voice) (env : Env) {b : Bool}

theorem entries_says {module : List Str} {msgs : List Msg}
    (h : ∀ m ∈ msgs, Msg.isEnd m = false ∧ (b = true → ∀ n, m ≠ .starting n)) :
    ∀ e ∈ entries module msgs, Ordinary b e := by
  intro e he
  simp only [entries, List.mem_map] at he
  obtain ⟨m, hm, rfl⟩ := he
  exact h m hm

local macro "plain" : tactic => `(tactic| exact Says.say ⟨by rfl, fun _ _ h => nomatch h⟩)

theorem reportStatus_says : Says (Ordinary b) (reportStatus v env) := by
  refine seq lift fun r => ?_
  cases r with
  | none => exact seq lift fun _ => seq lift fun _ => by plain
  | some wrote => exact seq lift fun _ => seq lift fun _ => seq lift fun _ => when (by plain)

theorem signalChildren_says (sig : Nat) : Says (Ordinary b) (signalChildren sig) :=
  seq (by plain) fun _ => lift

theorem initiateShutdown_says (sig : Nat) : Says (Ordinary b) (initiateShutdown sig) :=
  seq (by plain) fun _ => seq lift fun _ => signalChildren_says sig

theorem handleSignal_says : Says (Ordinary b) (handleSignal v) := by
  refine seq lift fun r => ?_
  cases r with
  | none =>
    refine seq lift fun w => seq lift fun _ => ?_
    split
    · plain
    · plain
  | some n =>
    refine seq lift fun w => seq lift fun _ => ?_
    split
    · exact initiateShutdown_says n
    · exact seq (when (initiateShutdown_says _)) fun _ => when (by plain)

theorem readSocket_says : Says (Ordinary b) (readSocket v) := by
  refine seq lift fun r => ?_
  cases r with
  | none => exact seq lift fun _ => seq lift fun _ => seq (by plain) fun _ => ret
  | some bc =>
    obtain ⟨bytes, cred⟩ := bc
    refine seq lift fun _ => ?_
    split
    · exact lift
    · refine seq lift fun message => ?_
      cases cred with
      | none => exact seq lift fun w => seq lift fun _ => seq (by plain) fun _ => ret
      | some pid => exact seq lift fun _ => seq (by plain) fun _ => ret

theorem notificationMessages_says {l : Log} {p : Process} {k s : Str} {m : Msg}
    (h : m ∈ notificationMessages v l p k s) :
    Msg.isEnd m = false ∧ (b = true → ∀ n, m ≠ .starting n) := by
  unfold notificationMessages at h
  split at h
  · split at h
    · simp only [List.mem_singleton] at h
      subst h
      exact ⟨rfl, fun _ _ h => nomatch h⟩
    · split at h <;> simp only [List.mem_cons, List.not_mem_nil, or_false] at h
      · rcases h with rfl | rfl <;> exact ⟨rfl, fun _ _ h => nomatch h⟩
      · subst h; exact ⟨rfl, fun _ _ h => nomatch h⟩
  · split at h
    · split at h <;> simp only [List.mem_cons, List.not_mem_nil, or_false] at h
      · subst h
        exact ⟨rfl, fun _ _ h => nomatch h⟩
      · rcases h with rfl | rfl <;> exact ⟨rfl, fun _ _ h => nomatch h⟩
    · split at h
      · simp only [List.mem_singleton] at h
        subst h
        exact ⟨rfl, fun _ _ h => nomatch h⟩
      · split at h
        · cases hp : parseI32 s with
          | none =>
            rw [hp] at h
            simp only [List.mem_singleton] at h
            subst h
            exact ⟨rfl, fun _ _ h => nomatch h⟩
          | some pid =>
            rw [hp] at h
            dsimp only at h
            split at h
            · simp only [List.mem_cons, List.not_mem_nil, or_false] at h
              rcases h with rfl | rfl <;> exact ⟨rfl, fun _ _ h => nomatch h⟩
            · cases h
        · cases h

theorem processEntries_says {l : Log} {ord : HashOrder} {m : Manager} {text : Str} {q : Int} :
    ∀ e ∈ processEntries v l ord m text q, Ordinary b e := by
  intro e h
  unfold processEntries at h
  split at h
  · refine entries_says ?_ e h
    intro m hm
    rw [List.mem_singleton] at hm
    subst hm
    exact ⟨rfl, fun _ _ h => nomatch h⟩
  · split at h
    · cases h
    · split at h
      · refine entries_says ?_ e h
        intro m hm
        simp only [List.mem_cons, List.not_mem_nil, or_false] at hm
        rcases hm with rfl | rfl
        · exact ⟨by decide, fun _ _ h => nomatch h⟩
        · exact ⟨rfl, fun _ _ h => nomatch h⟩
      · dsimp only at h
        rcases List.mem_append.mp h with h | h
        · rcases List.mem_append.mp h with h | h
          · refine entries_says ?_ e h
            intro m hm
            obtain ⟨line, hl, hm⟩ := List.mem_flatMap.mp hm
            rcases mem_parseMessages hm with ⟨rfl, h1⟩ | ⟨_, _, rfl, h1, h2⟩ <;>
              exact ⟨rfl, fun _ _ h => nomatch h⟩
          · refine entries_says ?_ e h
            intro m hm
            obtain ⟨k, s, p', h1, h2, h3⟩ := mem_variableMessages v hm
            exact notificationMessages_says v h3
        · refine entries_says ?_ e h
          intro m hm
          split at hm
          · rw [mem_finishedMessages hm]; exact ⟨rfl, fun _ _ h => nomatch h⟩
          · cases hm

theorem readNotification_says : Says (Ordinary b) (readNotification v env) := by
  refine seq (readSocket_says v) fun r => ?_
  cases r with
  | none => exact ret
  | some mp => exact seq lift fun w => seq (write (processEntries_says v)) fun _ => seq lift fun _ => lift

theorem printChildOutput_says (fd : Int) : Says (Ordinary b) (printChildOutput fd) := by
  refine seq lift fun r => ?_
  cases r with
  | none => exact lift
  | some bytes =>
    refine seq lift fun _ => seq lift fun w => seq lift fun child => forEach fun line => when
      (seq lift fun _ => write ?_)
    intro e he
    rw [List.mem_singleton] at he
    subst he
    trivial

theorem handleEvent_says (ev : Ready) : Says (Ordinary b) (handleEvent v env ev) := by
  refine seq lift fun _ => seq lift fun w => ?_
  split
  · split
    · exact handleSignal_says v
    · split
      · exact reportStatus_says v env
      · split
        · exact readNotification_says v env
        · exact printChildOutput_says _
  · split
    · exact seq lift fun _ => seq lift fun _ => seq (when (by plain)) fun _ => seq lift fun _ => lift
    · plain

theorem dispatchEpoll_says : Says (Ordinary b) (dispatchEpoll v env) := by
  refine seq lift fun _ => seq lift fun r => ?_
  cases r with
  | none => exact seq lift fun w => by plain
  | some evs => exact seq lift fun _ => seq (by plain) fun _ => forEach fun ev => handleEvent_says v env ev

theorem finishedMessages_says {d : DepMgr} {i : Nat} :
    ∀ e ∈ entries inGraph (finishedMessages d i), Ordinary b e :=
  entries_says fun m hm => by rw [mem_finishedMessages hm]; exact ⟨rfl, fun _ _ h => nomatch h⟩

theorem handleFinishedChild_says (pid rc : Int) : Says (Ordinary b) (handleFinishedChild pid rc) := by
  refine seq lift fun w => ?_
  split
  · refine seq lift fun _ => write (entries_says fun m hm => ?_)
    simp only [List.mem_cons, List.not_mem_nil, or_false] at hm
    rcases hm with rfl | rfl <;> exact ⟨rfl, fun _ _ h => nomatch h⟩
  · split
    · exact lift
    · refine seq lift fun _ => seq (write (entries_says fun m hm => ?_)) fun _ => seq lift fun _ =>
        seq (when (seq lift fun _ => initiateShutdown_says _)) fun _ => seq lift fun _ =>
        when (seq lift fun w => seq (write finishedMessages_says) fun _ => seq lift fun _ => lift)
      unfold endMessages at hm
      split at hm
      · split at hm <;> simp only [List.mem_cons, List.not_mem_nil, or_false] at hm <;>
          rcases hm with rfl | rfl <;> exact ⟨rfl, fun _ _ h => nomatch h⟩
      · simp only [List.mem_cons, List.not_mem_nil, or_false] at hm
        rcases hm with rfl | rfl <;> exact ⟨rfl, fun _ _ h => nomatch h⟩

theorem lookForFinishedChildren_says (fuel : Nat) :
    Says (Ordinary b) (lookForFinishedChildren v fuel) := by
  induction fuel with
  | zero => exact lift
  | succ fuel ih =>
    refine seq lift fun r => ?_
    cases r with
    | exited pid code =>
      exact seq lift fun w => seq (by plain) fun _ => seq (handleFinishedChild_says _ _) fun _ => ih
    | killed pid sig =>
      dsimp only
      split
      · exact seq lift fun w => seq (by plain) fun _ => seq (handleFinishedChild_says _ _) fun _ => ih
      · exact lift
    | alive => exact lift
    | other => exact seq lift fun w => seq (by plain) fun _ => ih
    | error => exact lift

theorem registerFd_says (fd : Int) : Says (Ordinary b) (registerFd fd) :=
  seq (by plain) fun _ => seq lift fun _ => seq lift fun _ => when (by plain)

theorem fixed_says {module : List Str} {msgs : List Msg}
    (h : ∀ m ∈ msgs, Msg.isEnd m = false) : ∀ e ∈ entries module msgs, Ordinary false e :=
  entries_says fun m hm => ⟨h m hm, fun h => nomatch h⟩

theorem ptys_says {l : Log} {p : Process} {m : Msg} (h : m ∈ ptyMessages v l p ∨ m ∈ ptysCreated p) :
    Msg.isEnd m = false := by
  rcases h with h | h
  · unfold ptyMessages at h
    split at h
    · rcases List.mem_append.mp h with h | h <;> split at h
      · rw [List.mem_singleton] at h; subst h; decide
      · cases h
      · rw [List.mem_singleton] at h; subst h; decide
      · cases h
    · cases h
  · unfold ptysCreated at h
    split at h
    · rw [List.mem_singleton] at h; subst h; decide
    · cases h

theorem spawnChild_says (i : Nat) : Says (Ordinary false) (spawnChild v i) := by
  refine seq lift fun w => ?_
  split
  · exact lift
  · split
    · refine seq lift fun _ => write (fixed_says fun m hm => ?_)
      simp only [List.mem_cons, List.not_mem_nil, or_false] at hm
      rcases hm with rfl | rfl <;> rfl
    · refine seq (write (fixed_says fun m hm => ?_)) fun _ => seq lift fun r => ?_
      · rw [List.mem_singleton] at hm; subst hm; rfl
      · cases r with
        | none =>
          refine seq lift fun _ => seq (write (fixed_says fun m hm => ?_)) fun _ => by plain
          rcases List.mem_append.mp hm with hm | hm
          · exact ptys_says v (.inl hm)
          · split at hm
            · rcases List.mem_append.mp hm with hm | hm
              · exact ptys_says v (l := []) (.inr hm)
              · rw [List.mem_singleton] at hm; subst hm; decide
            · split at hm
              · exact ptys_says v (l := []) (.inr hm)
              · cases hm
        | some t =>
          obtain ⟨pid, out, err⟩ := t
          refine seq lift fun _ => seq (write (fixed_says fun m hm => ?_)) fun _ => seq lift fun _ =>
            seq (registerFd_says _) fun _ => seq (registerFd_says _) fun _ => seq lift fun _ =>
            seq lift fun _ => lift
          rcases List.mem_append.mp hm with hm | hm
          · exact ptys_says v (List.mem_append.mp hm)
          · simp only [List.mem_cons, List.not_mem_nil, or_false] at hm
            rcases hm with rfl | rfl <;> rfl

theorem spawnRunnables_says (fuel : Nat) : Says (Ordinary false) (spawnRunnables v fuel) := by
  induction fuel with
  | zero => exact ret
  | succ fuel ih =>
    refine seq lift fun w => ?_
    rcases w.mgr.deps.popRunnable with ⟨_ | i, d⟩
    · exact ret
    · refine seq lift fun _ => ?_
      cases w.mgr.procs[i]? with
      | none => exact lift
      | some p => exact seq (when (spawnChild_says v i)) fun _ => ih

theorem spawnCronjobs_says (fuel : Nat) : Says (Ordinary false) (spawnCronjobs v env fuel) := by
  induction fuel with
  | zero => exact lift
  | succ fuel ih =>
    refine seq lift fun t => seq lift fun _ => seq lift fun w => seq (write (fixed_says fun m hm => ?_))
      fun _ => seq lift fun r => ?_
    · unfold cronMessages at hm
      split at hm
      · cases hm
      · split at hm
        · split at hm
          · split at hm
            · rw [List.mem_singleton] at hm; subst hm; rfl
            · cases hm
          · cases hm
        · cases hm
    · rcases r with ⟨_ | i, c⟩
      · exact lift
      · refine seq lift fun _ => ?_
        cases w.mgr.procs[i]? with
        | none => exact lift
        | some p =>
          refine seq ?_ fun _ => ih
          cases w.mgr.deps.isRunnable i with
          | true => exact spawnChild_says v i
          | false =>
            refine seq lift fun _ => write (fixed_says fun m hm => ?_)
            simp only [List.mem_cons, List.not_mem_nil, or_false] at hm
            rcases hm with rfl | rfl <;> rfl

theorem spawnChildren_says : Says (Ordinary false) (spawnChildren v env) :=
  seq lift fun _ => seq (spawnRunnables_says v _) fun _ => seq lift fun _ => spawnCronjobs_says v env _

theorem mainLoop_says (fuel : Nat) : Says (Ordinary false) (mainLoop v env fuel) := by
  induction fuel with
  | zero => exact lift
  | succ fuel ih =>
    refine seq lift fun w => ?_
    split
    · exact seq (spawnChildren_says v env) fun _ => seq (dispatchEpoll_says v env) fun _ =>
        seq lift fun _ => seq (lookForFinishedChildren_says v _) fun _ => ih
    · exact ret

theorem shutdownLoop_says (fuel : Nat) : Says (Ordinary true) (shutdownLoop v env fuel) := by
  induction fuel with
  | zero => exact lift
  | succ fuel ih =>
    refine seq lift fun w => ?_
    split
    · exact seq (dispatchEpoll_says v env) fun _ => seq lift fun _ =>
        seq (lookForFinishedChildren_says v _) fun _ => ih
    · exact ret

/-- A message of the process manager. -/
def managerSays (l : Level) (s : Str) : Entry :=
  .own ("cinit".toList :: "runtime".toList :: inManager) (.fixed l s)

/-- Whether a run was given up or is not over. -/
def unfinished {α : Type} : Out α → Prop
  | .ok .. => False
  | _ => True

theorem bind_cases {α β : Type} (n : N α) (f : α → N β) (w : World) :
    (unfinished ((n >>= f) w).1 ∧ ((n >>= f) w).2 = (n w).2) ∨
    ∃ a w', n w = (.ok a w', (n w).2) ∧ ((n >>= f) w).1 = (f a w').1 ∧
      ((n >>= f) w).2 = (n w).2 ++ (f a w').2 := by
  show (unfinished (N.bind n f w).1 ∧ (N.bind n f w).2 = (n w).2) ∨
    ∃ a w', n w = (.ok a w', (n w).2) ∧ (N.bind n f w).1 = (f a w').1 ∧
      (N.bind n f w).2 = (n w).2 ++ (f a w').2
  unfold N.bind
  rcases n w with ⟨o, es⟩
  cases o with
  | ok a w' => exact .inr ⟨a, w', rfl, rfl, rfl⟩
  | panic p w' => exact .inl ⟨trivial, rfl⟩
  | stuck w' => exact .inl ⟨trivial, rfl⟩

theorem say_bind {β : Type} {module : List Str} {msg : Msg} {f : Unit → N β} {w : World} :
    (N.say module msg >>= f) w =
      ((f () w).1, .own ("cinit".toList :: "runtime".toList :: module) msg :: (f () w).2) := rfl

/-- The end of the log. -/
theorem end_parts (fuel : Nat) (w : World) (f : World → N Int)
    (hf : ∀ w, (f w w).2 = []) (hok : ∀ w, ¬ unfinished (f w w).1) :
    ∃ es, (∀ e ∈ es, Ordinary true e) ∧
      ((unfinished ((shutdownLoop v env fuel >>= fun _ => N.say inManager (.fixed .info "Exiting".toList) >>=
          fun _ => N.say inManager (.fixed .trace "Exiting".toList) >>= fun _ =>
          (liftM M.get : N World) >>= f) w).1 ∧
        ((shutdownLoop v env fuel >>= fun _ => N.say inManager (.fixed .info "Exiting".toList) >>=
          fun _ => N.say inManager (.fixed .trace "Exiting".toList) >>= fun _ =>
          (liftM M.get : N World) >>= f) w).2 = es) ∨
       (¬ unfinished ((shutdownLoop v env fuel >>= fun _ => N.say inManager (.fixed .info "Exiting".toList) >>=
          fun _ => N.say inManager (.fixed .trace "Exiting".toList) >>= fun _ =>
          (liftM M.get : N World) >>= f) w).1 ∧
        ((shutdownLoop v env fuel >>= fun _ => N.say inManager (.fixed .info "Exiting".toList) >>=
          fun _ => N.say inManager (.fixed .trace "Exiting".toList) >>= fun _ =>
          (liftM M.get : N World) >>= f) w).2 =
        es ++ [managerSays .info "Exiting".toList, managerSays .trace "Exiting".toList])) := by
  refine ⟨(shutdownLoop v env fuel w).2, shutdownLoop_says v env fuel w, ?_⟩
  rcases bind_cases (shutdownLoop v env fuel) (fun _ => N.say inManager (.fixed .info "Exiting".toList) >>=
      fun _ => N.say inManager (.fixed .trace "Exiting".toList) >>= fun _ =>
      (liftM M.get : N World) >>= f) w with ⟨h1, h2⟩ | ⟨a, w', h1, h2, h3⟩
  · exact .inl ⟨h1, h2⟩
  · right
    rw [h2, h3]
    have e : ((N.say inManager (.fixed .info "Exiting".toList) >>=
      fun _ => N.say inManager (.fixed .trace "Exiting".toList) >>= fun _ =>
      (liftM M.get : N World) >>= f) w') = ((f w' w').1,
        managerSays .info "Exiting".toList :: managerSays .trace "Exiting".toList :: (f w' w').2) := by
      rw [say_bind, say_bind]
      have : ((liftM M.get : N World) >>= f) w' = ((f w' w').1, [] ++ (f w' w').2) := rfl
      rw [this]
      rfl
    rw [e, hf]
    exact ⟨hok w', rfl⟩

/-- The log of a run of the event loop has several parts, of which the later ones may be missing. -/
theorem start_parts (w : World) :
    ((unfinished (start v env w).1 ∨ ∃ w', (start v env w).1 = .ok 3 w') ∧
      ∀ e ∈ (start v env w).2, Ordinary false e) ∨
    (∃ w', Sys.setup [w.mgr.signalFd, w.mgr.statusFd, w.mgr.notifyFd] w = .ok true w') ∧
    ∃ es es', (∀ e ∈ es, Ordinary false e) ∧ (∀ e ∈ es', Ordinary true e) ∧
      ((unfinished (start v env w).1 ∧
        (start v env w).2 = es ++ managerSays .info "Shutting down".toList :: es') ∨
      (¬ unfinished (start v env w).1 ∧
        (start v env w).2 = es ++ managerSays .info "Shutting down".toList ::
          (es' ++ [managerSays .info "Exiting".toList, managerSays .trace "Exiting".toList]))) := by
  let good : N Int := do
    N.say inManager (.fixed .debug "setup successful".toList)
    N.say inManager (.fixed .debug "Entering poll loop".toList)
    let w ← M.get
    mainLoop v env (w.answers.length + 1)
    N.say inManager (.fixed .info "Shutting down".toList)
    let w ← M.get
    shutdownLoop v env (w.answers.length + 1)
    N.say inManager (.fixed .info "Exiting".toList)
    N.say inManager (.fixed .trace "Exiting".toList)
    let w ← M.get
    M.emit (.exit w.mgr.exitCode)
    N.pure w.mgr.exitCode
  let bad : N Int := do
    let w ← M.get
    N.say inManager (.failure .error "Failed to register with epoll".toList (v.error w.log))
    M.emit (.exit 3)
    N.pure 3
  have key : start v env w = ((liftM (Sys.setup [w.mgr.signalFd, w.mgr.statusFd, w.mgr.notifyFd]) : N Bool) >>=
      fun b => if b then good else bad) w := by
    show ((start v env w).1, [] ++ _) = _
    exact Prod.ext rfl rfl
  rw [key]
  rcases bind_cases (liftM (Sys.setup [w.mgr.signalFd, w.mgr.statusFd, w.mgr.notifyFd]) : N Bool)
      (fun b => if b then good else bad) w with ⟨h1, h2⟩ | ⟨b, w', h1, h2, h3⟩
  · refine .inl ⟨.inl h1, ?_⟩
    rw [h2]
    intro e he
    cases he
  · rw [h2, h3]
    have hn : ((liftM (Sys.setup [w.mgr.signalFd, w.mgr.statusFd, w.mgr.notifyFd]) : N Bool) w).2 = [] := rfl
    rw [hn, List.nil_append]
    cases b with
    | false =>
      left
      refine ⟨.inr ⟨_, rfl⟩, ?_⟩
      intro e he
      have he : e ∈ [Entry.own ("cinit".toList :: "runtime".toList :: inManager)
        (.failure .error "Failed to register with epoll".toList (v.error w'.log))] := he
      rw [List.mem_singleton] at he
      subst he
      exact ⟨rfl, fun h => nomatch h⟩
    | true =>
      let last (w : World) : N Int := do
        M.emit (.exit w.mgr.exitCode)
        N.pure w.mgr.exitCode
      let down (w : World) : N Int := shutdownLoop v env (w.answers.length + 1) >>= fun _ =>
        N.say inManager (.fixed .info "Exiting".toList) >>= fun _ =>
        N.say inManager (.fixed .trace "Exiting".toList) >>= fun _ => (liftM M.get : N World) >>= last
      let main : N Int := mainLoop v env (w'.answers.length + 1) >>= fun _ =>
        N.say inManager (.fixed .info "Shutting down".toList) >>= fun _ => (liftM M.get : N World) >>= down
      have hg : good w' = ((main w').1, managerSays .debug "setup successful".toList ::
          managerSays .debug "Entering poll loop".toList :: (main w').2) := rfl
      have hd : ∀ w, (N.say inManager (.fixed .info "Shutting down".toList) >>=
          fun _ => (liftM M.get : N World) >>= down) w =
          ((down w w).1, managerSays .info "Shutting down".toList :: (down w w).2) := fun _ => rfl
      have h0 : Ordinary false (managerSays .debug "setup successful".toList) :=
        ⟨by decide, fun h => nomatch h⟩
      have h0' : Ordinary false (managerSays .debug "Entering poll loop".toList) :=
        ⟨by decide, fun h => nomatch h⟩
      have hm := mainLoop_says v env (w'.answers.length + 1) w'
      have hall : ∀ e ∈ managerSays .debug "setup successful".toList ::
          managerSays .debug "Entering poll loop".toList ::
          (mainLoop v env (w'.answers.length + 1) w').2, Ordinary false e := by
        intro e he
        simp only [List.mem_cons] at he
        rcases he with rfl | rfl | he
        · exact h0
        · exact h0'
        · exact hm e he
      show ((unfinished (good w').1 ∨ ∃ w'', (good w').1 = .ok 3 w'') ∧
          ∀ e ∈ (good w').2, Ordinary false e) ∨
        (∃ w', Sys.setup [w.mgr.signalFd, w.mgr.statusFd, w.mgr.notifyFd] w = .ok true w') ∧
        ∃ es es', (∀ e ∈ es, Ordinary false e) ∧ (∀ e ∈ es', Ordinary true e) ∧
        ((unfinished (good w').1 ∧
          (good w').2 = es ++ managerSays .info "Shutting down".toList :: es') ∨
        (¬ unfinished (good w').1 ∧
          (good w').2 = es ++ managerSays .info "Shutting down".toList ::
          (es' ++ [managerSays .info "Exiting".toList, managerSays .trace "Exiting".toList])))
      rw [hg]
      rcases bind_cases (mainLoop v env (w'.answers.length + 1)) (fun _ =>
          N.say inManager (.fixed .info "Shutting down".toList) >>=
            fun _ => (liftM M.get : N World) >>= down) w' with ⟨h4, h5⟩ | ⟨a, w2, h4, h5, h6⟩
      · left
        refine ⟨.inl h4, ?_⟩
        show ∀ e ∈ _ :: _ :: (main w').2, _
        rw [show (main w').2 = _ from h5]
        exact hall
      · right
        rw [hd] at h5 h6
        obtain ⟨es', h7, h8⟩ := end_parts v env (w2.answers.length + 1) w2 last (fun _ => rfl)
          (fun _ h => h)
        refine ⟨⟨w', congrArg Prod.fst h1⟩, _, es', hall, h7, ?_⟩
        rw [show (main w').1 = (down w2 w2).1 from h5,
          show (main w').2 = (mainLoop v env (w'.answers.length + 1) w').2 ++
            managerSays .info "Shutting down".toList :: (down w2 w2).2 from h6]
        rcases h8 with ⟨h9, h10⟩ | ⟨h9, h10⟩
        · refine .inl ⟨h9, ?_⟩
          rw [show (down w2 w2).2 = es' from h10]
          rfl
        · refine .inr ⟨h9, ?_⟩
          rw [show (down w2 w2).2 = _ from h10]
          rfl

end Narrated

/-- The exit status of a loop that was set up. -/
theorem start_code (env : Env) {X : Setting} {w w1 w' : World} (h : Initial X env w) {code : Int}
    (hs : Sys.setup [w.mgr.signalFd, w.mgr.statusFd, w.mgr.notifyFd] w = .ok true w1)
    (ho : start env w = .ok code w') : code ≠ 3 := by
  have hinv := h.inv
  have hg : Good X (fun code _ => code ≠ 3) (start env w) := by
    unfold start
    simp only [get_bind]
    have hsg := setup_good hinv.legal [w.mgr.signalFd, w.mgr.statusFd, w.mgr.notifyFd]
    refine Good.bind (Q := fun b w2 => b = true ∧ w2 = w1) ?_ ?_
    · rw [hs]; exact ⟨rfl, rfl⟩
    rintro b w2 ⟨rfl, rfl⟩
    rw [hs] at hsg
    obtain ⟨k, rest, rfl, hb⟩ := hsg
    cases hb rfl
    simp only [if_true, get_bind]
    have hinv1 : Inv X [] w.mgr
        { w.kernel with epoll := [w.mgr.signalFd, w.mgr.statusFd, w.mgr.notifyFd] } w.log := by
      refine { hinv with kern := { hinv.kern with epoll := ?_ } }
      intro fd hfd
      simp only [List.mem_cons, List.not_mem_nil, or_false] at hfd
      rcases hfd with e | e | e
      · exact .inl e
      · exact .inr (.inl e)
      · exact .inr (.inr (.inl e))
    refine Good.bind (mainLoop_good env h.zone h.render _ _ hinv1) ?_
    rintro - w2 ⟨h2, h3⟩
    simp only [get_bind]
    refine Good.bind (shutdownLoop_good env h.render _ w2 h2.1 h3) ?_
    rintro - w3 ⟨h4, h5, h6⟩
    simp only [get_bind]
    show Good X _ (Out.ok w3.mgr.exitCode { w3 with log := .exit w3.mgr.exitCode :: w3.log })
    show w3.mgr.exitCode ≠ 3
    by_cases hc : SomeCrash X.programs w3.log
    · rw [h4.1.code.1 hc]; decide
    · rw [h4.1.code.2 hc]; decide
  rw [ho] at hg
  exact hg

end Cinit
