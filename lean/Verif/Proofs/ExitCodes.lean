import Verif.Spec.ExitCodes
import Verif.Proofs.Main
/-!
# Exit codes and signals are the same to the event loop
-/

namespace Cinit

open M Manager Spec

variable {α β : Type}

/-- The world with the answers to come disguised. -/
def World.disguised (w : World) : World := { w with answers := w.answers.map Spec.disguised }

/-- The outcome with the answers to come disguised. -/
def Out.disguised : Out α → Out α
  | .ok a w => .ok a w.disguised
  | .panic p w => .panic p w.disguised
  | .stuck w => .stuck w.disguised

/-- `x` does the same whether or not the answers are disguised. -/
def Blind (x : M α) : Prop := ∀ w : World, x w.disguised = (x w).disguised

namespace Blind

theorem pure {a : α} : Blind (M.pure a) := fun _ => rfl

theorem bind {x : M α} {f : α → M β} (hx : Blind x) (hf : ∀ a, Blind (f a)) :
    Blind (x >>= f) := by
  intro w
  show M.bind x f _ = (M.bind x f w).disguised
  unfold M.bind
  rw [hx w]
  cases x w with
  | ok a w' => exact hf a w'
  | panic p w' => rfl
  | stuck w' => rfl

theorem emit {e : Event} : Blind (M.emit e) := fun _ => rfl

theorem fail {p : Panic} : Blind (M.fail p : M α) := fun _ => rfl

theorem stop : Blind (M.stop : M α) := fun _ => rfl

theorem modify {f : Manager → Manager} : Blind (modifyMgr f) := fun _ => rfl

theorem lift {r : Res Empty α} : Blind (M.lift r) := by
  cases r with
  | ok a => exact pure
  | err e => exact nomatch e
  | panic p => exact fail

theorem get {f : World → M β} (h : ∀ w : World, f w.disguised = f w) (hf : ∀ w, Blind (f w)) :
    Blind (M.get >>= f) := by
  intro w
  show f w.disguised w.disguised = (f w w).disguised
  rw [h w]
  exact hf w w

theorem when {c : Prop} [Decidable c] {x : M Unit} (h : Blind x) : Blind (M.when c x) := by
  unfold M.when
  split
  · exact h
  · exact pure

theorem forEach {f : α → M Unit} {l : List α} (h : ∀ a, Blind (f a)) :
    Blind (M.forEach f l) := by
  induction l with
  | nil => exact pure
  | cons a l ih => exact bind (h a) fun _ => ih

/-- A system call other than `wait`. -/
theorem call {f : Kernel → Answer → Option (α × Kernel)}
    (h : ∀ k r, f k (.wait r) = none) : Blind (Sys.call f) := by
  intro w
  unfold Sys.call
  cases hw : w.answers with
  | nil => simp [World.disguised, hw, Out.disguised]
  | cons a rest =>
    have e : w.disguised.answers = Spec.disguised a :: rest.map Spec.disguised := by
      simp [World.disguised, hw]
    have ek : w.disguised.kernel = w.kernel := rfl
    simp only [e, ek]
    have ha : f w.kernel (Spec.disguised a) = f w.kernel a := by
      cases a with
      | wait r =>
        rw [h]
        unfold Spec.disguised
        split
        · split <;> rw [h]
        · rw [h]
      | _ => rfl
    rw [ha]
    cases f w.kernel a with
    | none => rfl
    | some r => rfl

end Blind

theorem now_blind : Blind Sys.now := .call fun _ _ => rfl
theorem fork_blind : Blind Sys.fork := .call fun _ _ => rfl
theorem epollAdd_blind (fd : Int) : Blind (Sys.epollAdd fd) := .call fun _ _ => rfl
theorem epollWait_blind : Blind Sys.epollWait := .call fun _ _ => rfl
theorem signal_blind : Blind Sys.signal := .call fun _ _ => rfl
theorem recv_blind : Blind Sys.recv := .call fun _ _ => rfl
theorem read_blind : Blind Sys.read := .call fun _ _ => rfl
theorem accept_blind : Blind Sys.accept := .call fun _ _ => rfl
theorem kill_blind (pid : Int) : Blind (Sys.kill pid) := .call fun _ _ => rfl
theorem setup_blind (fds : List Int) : Blind (Sys.setup fds) := .call fun _ _ => rfl

theorem initiateShutdown_blind (sig : Nat) : Blind (initiateShutdown sig) := by
  refine .bind .modify fun _ => .get (fun _ => rfl) fun w => .forEach fun p =>
    .bind (kill_blind _) fun b => ?_
  cases b with
  | true => exact .emit
  | false => exact .fail

theorem handleSignal_blind : Blind handleSignal := by
  refine .bind signal_blind fun r => ?_
  cases r with
  | none => exact .emit
  | some n =>
    refine .bind .emit fun _ => ?_
    split
    · exact initiateShutdown_blind _
    · exact .when (initiateShutdown_blind _)

theorem reportStatus_blind (env : Env) : Blind (reportStatus env) := by
  refine .bind accept_blind fun r => ?_
  cases r with
  | none => exact .emit
  | some wrote => exact .get (fun _ => rfl) fun w => .bind .lift fun text => .emit

theorem readNotification_blind (env : Env) : Blind (readNotification env) := by
  refine .bind (.bind recv_blind fun r => ?_) fun r => ?_
  · cases r with
    | none => exact .bind .emit fun _ => .pure
    | some bc =>
      obtain ⟨bytes, cred⟩ := bc
      refine .bind .emit fun _ => ?_
      split
      · exact .fail
      · refine .bind .lift fun t => ?_
        cases cred with
        | none => exact .bind .emit fun _ => .pure
        | some q => exact .bind .emit fun _ => .pure
  · cases r with
    | none => exact .pure
    | some tq => exact .get (fun _ => rfl) fun w => .bind .lift fun m => .modify

theorem printChildOutput_blind (fd : Int) : Blind (printChildOutput fd) := by
  refine .bind read_blind fun r => ?_
  cases r with
  | none => exact .emit
  | some bytes =>
    exact .bind .emit fun _ => .get (fun _ => rfl) fun w => .bind .lift fun child =>
      .forEach fun line => .when .emit

theorem handleEvent_blind (env : Env) (ev : Ready) : Blind (handleEvent env ev) := by
  refine .bind .emit fun _ => .get (fun _ => rfl) fun w => ?_
  split
  · split
    · exact handleSignal_blind
    · split
      · exact reportStatus_blind env
      · split
        · exact readNotification_blind env
        · exact printChildOutput_blind _
  · split
    · have hdel : Blind (Sys.epollDel ev.fd) := fun _ => rfl
      have hclose : Blind (Sys.close ev.fd) := fun _ => rfl
      exact .bind .emit fun _ => .bind hdel fun _ => .bind (.when hclose) fun _ => .modify
    · exact .pure

theorem dispatchEpoll_blind (env : Env) : Blind (dispatchEpoll env) := by
  refine .bind .emit fun _ => .bind epollWait_blind fun r => ?_
  cases r with
  | none => exact .emit
  | some evs => exact .bind .emit fun _ => .forEach (handleEvent_blind env)

theorem handleFinishedChild_blind (pid rc : Int) : Blind (handleFinishedChild pid rc) := by
  refine .get (fun _ => rfl) fun w => ?_
  split
  · exact .emit
  · split
    · exact .fail
    · refine .bind .emit fun _ => .bind .modify fun _ => .bind (.when ?_) fun _ => ?_
      · exact .bind .modify fun _ => initiateShutdown_blind _
      · exact .bind .modify fun _ =>
          .when (.get (fun _ => rfl) fun w => .bind .lift fun _ => .modify)

/-- What `wait` reports of a disguised answer. -/
def disguisedWait : RawWait → RawWait
  | .killed p n => if 1 ≤ n ∧ n ≤ 31 then .exited p n else .killed p n
  | r => r

theorem wait_blind (w : World) : (Sys.wait w = .stuck w ∧ Sys.wait w.disguised = .stuck w.disguised) ∨
    ∃ r w', Sys.wait w = .ok r w' ∧ Sys.wait w.disguised = .ok (disguisedWait r) w'.disguised := by
  unfold Sys.wait Sys.call
  cases hw : w.answers with
  | nil => left; simp [World.disguised, hw]
  | cons a rest =>
    have e : w.disguised.answers = Spec.disguised a :: rest.map Spec.disguised := by
      simp [World.disguised, hw]
    have ek : w.disguised.kernel = w.kernel := rfl
    simp only [e, ek]
    cases a with
    | wait r =>
      cases r with
      | killed pid sig =>
        simp only [Spec.disguised]
        by_cases hs : 1 ≤ sig ∧ sig ≤ 31
        · rw [if_pos hs]
          by_cases hp : 0 < pid
          · right
            have h1 : 0 < pid ∧ sig < 256 := ⟨hp, by omega⟩
            have h2 : 0 < pid ∧ 1 ≤ sig ∧ sig ≤ 64 := ⟨hp, by omega, by omega⟩
            simp only [h1, h2, and_self, if_true]
            refine ⟨_, _, rfl, ?_⟩
            simp only [disguisedWait]
            rw [if_pos hs]
            rfl
          · left
            have h1 : ¬ (0 < pid ∧ sig < 256) := fun h => hp h.1
            have h2 : ¬ (0 < pid ∧ 1 ≤ sig ∧ sig ≤ 64) := fun h => hp h.1
            simp only [h1, h2, if_false, and_self]
        · rw [if_neg hs]
          by_cases hp : 0 < pid ∧ 1 ≤ sig ∧ sig ≤ 64
          · right
            simp only [hp, and_self, if_true]
            refine ⟨_, _, rfl, ?_⟩
            simp only [disguisedWait]
            rw [if_neg hs]
            rfl
          · left
            simp only [hp, if_false, and_self]
      | exited pid code =>
        simp only [Spec.disguised]
        by_cases hp : 0 < pid ∧ code < 256
        · right
          simp only [hp, and_self, if_true]
          exact ⟨_, _, rfl, rfl⟩
        · left
          simp only [hp, if_false, and_self]
      | _ => right; exact ⟨_, _, rfl, rfl⟩
    | _ => left; exact ⟨rfl, rfl⟩

theorem lookForFinishedChildren_blind (fuel : Nat) : Blind (lookForFinishedChildren fuel) := by
  induction fuel with
  | zero => exact .stop
  | succ fuel ih =>
    intro w
    unfold lookForFinishedChildren
    show M.bind Sys.wait _ _ = (M.bind Sys.wait _ w).disguised
    unfold M.bind
    rcases wait_blind w with ⟨h1, h2⟩ | ⟨r, w', h1, h2⟩
    · rw [h1, h2]; rfl
    · rw [h1, h2]
      simp only
      cases r with
      | exited pid code =>
        exact Blind.bind (handleFinishedChild_blind pid code) (fun _ => ih) w'
      | killed pid sig =>
        simp only [disguisedWait]
        by_cases hs : 1 ≤ sig ∧ sig ≤ 31
        · simp only [hs, and_self, if_true]
          exact Blind.bind (handleFinishedChild_blind pid sig) (fun _ => ih) w'
        · rw [if_neg hs]
          simp only
          split
          · exact Blind.bind (handleFinishedChild_blind pid sig) (fun _ => ih) w'
          · rfl
      | alive => rfl
      | other => exact ih w'
      | error => rfl

theorem spawnChild_blind (i : Nat) : Blind (spawnChild i) := by
  refine .get (fun _ => rfl) fun w => ?_
  split
  · exact .fail
  · split
    · exact .emit
    · refine .bind fork_blind fun r => ?_
      cases r with
      | none => exact .emit
      | some t =>
        obtain ⟨pid, out, err⟩ := t
        exact .bind .emit fun _ => .bind .modify fun _ =>
          .bind (epollAdd_blind _) fun b => .bind .emit fun _ =>
          .bind (epollAdd_blind _) fun b => .bind .emit fun _ =>
          .bind .modify fun _ => .bind .modify fun _ => .modify

theorem spawnRunnables_blind (fuel : Nat) : Blind (spawnRunnables fuel) := by
  induction fuel with
  | zero => exact .pure
  | succ fuel ih =>
    refine .get (fun _ => rfl) fun w => ?_
    split
    · exact .pure
    · refine .bind .modify fun _ => ?_
      split
      · exact .fail
      · exact .bind (.when (spawnChild_blind _)) fun _ => ih

theorem spawnCronjobs_blind (env : Env) (fuel : Nat) : Blind (spawnCronjobs env fuel) := by
  induction fuel with
  | zero => exact .stop
  | succ fuel ih =>
    refine .bind now_blind fun t => .bind .emit fun _ => ?_
    refine .get (fun _ => rfl) fun w => .bind .lift fun r => ?_
    split
    · exact .modify
    · refine .bind .modify fun _ => ?_
      split
      · exact .fail
      · refine .bind ?_ fun _ => ih
        cases w.mgr.deps.isRunnable _ with
        | true => exact spawnChild_blind _
        | false => exact .emit

theorem disguised_length (w : World) : w.disguised.answers.length = w.answers.length := by
  simp [World.disguised]

theorem spawnChildren_blind (env : Env) : Blind (spawnChildren env) :=
  .get (fun _ => rfl) fun _ => .bind (spawnRunnables_blind _) fun _ =>
    .get (fun w => by simp only [disguised_length]) fun _ => spawnCronjobs_blind env _

theorem mainLoop_blind (env : Env) (fuel : Nat) : Blind (mainLoop env fuel) := by
  induction fuel with
  | zero => exact .stop
  | succ fuel ih =>
    refine .get (fun _ => rfl) fun w => ?_
    split
    · exact .bind (spawnChildren_blind env) fun _ => .bind (dispatchEpoll_blind env) fun _ =>
        .get (fun w => by simp only [disguised_length]) fun w =>
        .bind (lookForFinishedChildren_blind _) fun _ => ih
    · exact .pure

theorem shutdownLoop_blind (env : Env) (fuel : Nat) : Blind (shutdownLoop env fuel) := by
  induction fuel with
  | zero => exact .stop
  | succ fuel ih =>
    refine .get (fun _ => rfl) fun w => ?_
    split
    · exact .bind (dispatchEpoll_blind env) fun _ =>
        .get (fun w => by simp only [disguised_length]) fun w =>
        .bind (lookForFinishedChildren_blind _) fun _ => ih
    · exact .pure

theorem start_blind (env : Env) : Blind (start env) := by
  refine .get (fun _ => rfl) fun w => .bind (setup_blind _) fun ok => ?_
  split
  · exact .get (fun w => by simp only [disguised_length]) fun w =>
      .bind (mainLoop_blind env _) fun _ =>
      .get (fun w => by simp only [disguised_length]) fun w =>
      .bind (shutdownLoop_blind env _) fun _ => .get (fun _ => rfl) fun w => .bind .emit
      fun _ => .pure
  · exact .bind .emit fun _ => .pure

end Cinit
