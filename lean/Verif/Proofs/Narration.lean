import Verif.Model.Narration
import Verif.Proofs.Main
import Verif.Spec.Fates
/-!
# The event loop with its log does the same as without
-/

namespace Cinit

open M Manager Logging

/-- Apart from the entries, `n` does what `x` does. -/
def Erases {α : Type} (n : N α) (x : M α) : Prop := ∀ w, (n w).1 = x w

namespace Erases

variable {α β : Type}

theorem ret {a : α} : Erases (N.pure a) (M.pure a) := fun _ => rfl

theorem lift {x : M α} : Erases (liftM x : N α) x := fun _ => rfl

theorem seq {n : N α} {x : M α} {f : α → N β} {g : α → M β} (h : Erases n x)
    (hf : ∀ a, Erases (f a) (g a)) : Erases (n >>= f) (x >>= g) := by
  intro w
  show (N.bind n f w).1 = M.bind x g w
  have h := h w
  unfold N.bind M.bind
  rw [← h]
  rcases n w with ⟨o, es⟩
  cases o with
  | ok a w' => exact hf a w'
  | panic p w' => rfl
  | stuck w' => rfl

/-- Writing something is erased. -/
theorem write {es : List Entry} {f : Unit → N β} {x : M β} (h : Erases (f ()) x) :
    Erases (N.write es >>= f) x := fun w => h w

theorem say {m : List Str} {msg : Msg} {f : Unit → N β} {x : M β} (h : Erases (f ()) x) :
    Erases (N.say m msg >>= f) x := fun w => h w

/-- Writing something at the end is erased. -/
theorem writes {es : List Entry} : Erases (N.write es) (M.pure ()) := fun _ => rfl

theorem get {f : World → N β} {x : M β} (h : ∀ w, (f w w).1 = x w) :
    Erases ((liftM M.get : N World) >>= f) x := fun w => h w

theorem get' {f : World → N β} {g : World → M β} (h : ∀ w, Erases (f w) (g w)) :
    Erases ((liftM M.get : N World) >>= f) (M.get >>= g) := seq lift h

/-- Something followed by what is erased. -/
theorem last {n : N Unit} {x : M Unit} {f : Unit → N Unit} (h : Erases n x)
    (hf : Erases (f ()) (M.pure ())) : Erases (n >>= f) x := by
  have := seq (g := fun _ => M.pure ()) h fun _ => hf
  intro w
  rw [this w]
  show M.bind x _ w = _
  unfold M.bind
  cases x w <;> rfl

theorem when {c : Prop} [Decidable c] {n : N Unit} {x : M Unit} (h : Erases n x) :
    Erases (N.when c n) (M.when c x) := by
  unfold N.when M.when
  split
  · exact h
  · exact ret

theorem when_nothing {c : Prop} [Decidable c] {n : N Unit} (h : Erases n (M.pure ())) :
    Erases (N.when c n) (M.pure ()) := by
  unfold N.when
  split
  · exact h
  · exact ret

theorem forEach {f : α → N Unit} {g : α → M Unit} {l : List α} (h : ∀ a, Erases (f a) (g a)) :
    Erases (N.forEach f l) (M.forEach g l) := by
  induction l with
  | nil => exact ret
  | cons a l ih => exact seq (h a) fun _ => ih

end Erases

namespace Narrated

open Erases

variable (v : Voice) (env : Env)

theorem reportStatus_erases : Erases (reportStatus v env) (Cinit.reportStatus env) := by
  refine seq lift fun r => ?_
  cases r with
  | none => exact get fun w => rfl
  | some wrote =>
    refine get' fun w => seq lift fun text => last lift (when_nothing writes)

theorem signalChildren_erases (sig : Nat) :
    Erases (signalChildren sig) (Cinit.signalChildren sig) := say lift

theorem initiateShutdown_erases (sig : Nat) :
    Erases (initiateShutdown sig) (Cinit.initiateShutdown sig) :=
  say (seq lift fun _ => signalChildren_erases sig)

theorem handleSignal_erases : Erases (handleSignal v) Cinit.handleSignal := by
  refine seq lift fun r => ?_
  cases r with
  | none =>
    refine get fun w => ?_
    have : Erases (if v.noSignal w.log = true then
        N.say inManager (.fixed .debug "No signal received".toList)
      else N.say inManager (.failure .debug "Received unknown signal".toList (v.error w.log)))
        (M.pure ()) := by
      split <;> exact writes
    exact last lift this w
  | some n =>
    refine get fun w => ?_
    refine seq lift (fun _ => ?_) w
    split
    · exact initiateShutdown_erases n
    · exact last (when (initiateShutdown_erases _)) (when_nothing writes)

theorem readSocket_erases : Erases (readSocket v) Cinit.readSocket := by
  refine seq lift fun r => ?_
  cases r with
  | none => exact get fun w => rfl
  | some bc =>
    obtain ⟨bytes, cred⟩ := bc
    refine seq lift fun _ => ?_
    split
    · exact lift
    · refine seq lift fun message => ?_
      cases cred with
      | none => exact get fun w => rfl
      | some pid => exact seq lift fun _ => say ret

theorem readNotification_erases : Erases (readNotification v env) (Cinit.readNotification env) := by
  refine seq (readSocket_erases v) fun r => ?_
  cases r with
  | none => exact ret
  | some mp =>
    obtain ⟨message, peer⟩ := mp
    exact get' fun w => write (seq lift fun m => lift)

theorem printChildOutput_erases (fd : Int) :
    Erases (printChildOutput fd) (Cinit.printChildOutput fd) := by
  refine seq lift fun r => ?_
  cases r with
  | none => exact lift
  | some bytes =>
    exact seq lift fun _ => get' fun w => seq lift fun child => forEach fun line =>
      when (last lift writes)

theorem handleEvent_erases (ev : Ready) : Erases (handleEvent v env ev) (Cinit.handleEvent env ev) := by
  refine seq lift fun _ => get' fun w => ?_
  split
  · split
    · exact handleSignal_erases v
    · split
      · exact reportStatus_erases v env
      · split
        · exact readNotification_erases v env
        · exact printChildOutput_erases ev.fd
  · split
    · refine seq lift fun _ => ?_
      refine seq (x := Sys.epollDel ev.fd) (g := fun _ => _) lift fun _ => ?_
      unfold N.when
      split
      · exact say (seq lift fun _ => lift)
      · exact fun w' => seq (x := M.when (ev.fd ∈ w.mgr.fdDict) (Sys.close ev.fd))
          (g := fun _ => modifyMgr (deregisterFd ev.fd)) lift (fun _ => lift) w'
    · exact writes

theorem dispatchEpoll_erases : Erases (dispatchEpoll v env) (Cinit.dispatchEpoll env) := by
  refine seq lift fun _ => seq lift fun r => ?_
  cases r with
  | none => exact get fun w => rfl
  | some evs => exact seq lift fun _ => say (forEach fun ev => handleEvent_erases v env ev)

theorem handleFinishedChild_erases (pid rc : Int) :
    Erases (handleFinishedChild pid rc) (Cinit.handleFinishedChild pid rc) := by
  refine get' fun w => ?_
  cases w.mgr.processIdForPid pid with
  | none => exact last lift writes
  | some i =>
    dsimp only
    cases w.mgr.procs[i]? with
    | none => exact lift
    | some child =>
      refine seq lift fun _ => write (seq lift fun _ => seq (when ?_) fun _ => seq lift fun _ =>
        when (get' fun w => write (seq lift fun d => lift)))
      exact seq lift fun _ => initiateShutdown_erases _

theorem lookForFinishedChildren_erases (fuel : Nat) :
    Erases (lookForFinishedChildren v fuel) (Cinit.lookForFinishedChildren fuel) := by
  induction fuel with
  | zero => exact lift
  | succ fuel ih =>
    refine seq lift fun r => ?_
    cases r with
    | exited pid code =>
      exact get fun w => say (seq (handleFinishedChild_erases pid code) fun _ => ih) w
    | killed pid sig =>
      dsimp only
      split
      · exact get fun w => say (seq (handleFinishedChild_erases pid sig) fun _ => ih) w
      · exact lift
    | alive => exact lift
    | other => exact get fun w => say ih w
    | error => exact lift

theorem registerFd_erases (fd : Int) :
    Erases (registerFd fd) (Sys.epollAdd fd >>= fun ok => M.emit (.watched fd ok)) :=
  say (seq lift fun _ => last lift (when_nothing writes))

theorem bind_assoc' {α β γ : Type} (x : M α) (f : α → M β) (g : β → M γ) :
    ((x >>= f) >>= g) = (x >>= fun a => f a >>= g) := by
  funext w
  show M.bind (M.bind x f) g w = M.bind x (fun a => M.bind (f a) g) w
  unfold M.bind
  cases x w <;> rfl

theorem spawnChild_erases (i : Nat) : Erases (spawnChild v i) (Cinit.spawnChild i) := by
  refine get' fun w => ?_
  cases w.mgr.procs[i]? with
  | none => exact lift
  | some child =>
    dsimp only
    split
    · exact last lift writes
    · refine write (seq lift fun r => ?_)
      cases r with
      | none => exact last lift (write writes)
      | some t =>
        obtain ⟨pid, out, err⟩ := t
        refine seq lift fun _ => write (seq lift fun _ => ?_)
        have h := seq (registerFd_erases out) fun _ => seq (registerFd_erases err) fun _ =>
          seq (lift (x := modifyMgr (registerPid i pid))) fun _ =>
            seq (lift (x := modifyMgr (registerStdout i out))) fun _ =>
              lift (x := modifyMgr (registerStderr i err))
        simp only [bind_assoc'] at h
        exact h

theorem spawnRunnables_erases (fuel : Nat) :
    Erases (spawnRunnables v fuel) (Cinit.spawnRunnables fuel) := by
  induction fuel with
  | zero => exact ret
  | succ fuel ih =>
    refine get' fun w => ?_
    rcases w.mgr.deps.popRunnable with ⟨_ | i, d⟩
    · exact ret
    · refine seq lift fun _ => ?_
      cases w.mgr.procs[i]? with
      | none => exact lift
      | some p => exact seq (when (spawnChild_erases v _)) fun _ => ih

theorem spawnCronjobs_erases (fuel : Nat) :
    Erases (spawnCronjobs v env fuel) (Cinit.spawnCronjobs env fuel) := by
  induction fuel with
  | zero => exact lift
  | succ fuel ih =>
    refine seq lift fun t => seq lift fun _ => get' fun w => write (seq lift fun r => ?_)
    rcases r with ⟨_ | i, c⟩
    · exact lift
    · refine seq lift fun _ => ?_
      cases w.mgr.procs[i]? with
      | none => exact lift
      | some p =>
        refine seq ?_ fun _ => ih
        cases w.mgr.deps.isRunnable i with
        | true => exact spawnChild_erases v i
        | false => exact last lift writes

theorem spawnChildren_erases : Erases (spawnChildren v env) (Cinit.spawnChildren env) :=
  get' fun _ => seq (spawnRunnables_erases v _) fun _ => get' fun _ => spawnCronjobs_erases v env _

theorem mainLoop_erases (fuel : Nat) : Erases (mainLoop v env fuel) (Cinit.mainLoop env fuel) := by
  induction fuel with
  | zero => exact lift
  | succ fuel ih =>
    refine get' fun w => ?_
    split
    · exact seq (spawnChildren_erases v env) fun _ => seq (dispatchEpoll_erases v env) fun _ =>
        get' fun w => seq (lookForFinishedChildren_erases v _) fun _ => ih
    · exact ret

theorem shutdownLoop_erases (fuel : Nat) :
    Erases (shutdownLoop v env fuel) (Cinit.shutdownLoop env fuel) := by
  induction fuel with
  | zero => exact lift
  | succ fuel ih =>
    refine get' fun w => ?_
    split
    · exact seq (dispatchEpoll_erases v env) fun _ =>
        get' fun w => seq (lookForFinishedChildren_erases v _) fun _ => ih
    · exact ret

/-- The event loop with its log does the same as without. -/
theorem start_erases : Erases (start v env) (Cinit.start env) := by
  refine get' fun w => seq lift fun b => ?_
  cases b with
  | true =>
    exact say (say (get' fun _ => seq (mainLoop_erases v env _) fun _ => say (get' fun _ =>
      seq (shutdownLoop_erases v env _) fun _ => say (say (get' fun _ => seq lift fun _ => ret)))))
  | false => exact get fun w => rfl

end Narrated

end Cinit
