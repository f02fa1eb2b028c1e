import Verif.Spec.Fatal
import Verif.Proofs.Main
import Verif.Proofs.Utf8
/-!
# Messages that make cinit abort
-/

namespace Cinit

open M Manager Spec

variable {α β : Type}

/-- No message so far makes cinit abort. -/
def Mild : Log → Prop
  | [] => True
  | .received b :: l => ¬ Fatal b ∧ Mild l
  | _ :: l => Mild l

/-- Unless it aborts, no message has been received that makes cinit abort. -/
def Result : Out α → Prop
  | .ok _ w => Mild w.log
  | .panic _ w => Mild w.log ∨ ∃ b past, w.log = .received b :: past ∧ Fatal b ∧ Mild past
  | .stuck w => Mild w.log

def Tidy (x : M α) : Prop := ∀ w : World, Mild w.log → Result (x w)

/-- Events other than messages that make cinit abort. -/
def Harmless : Event → Prop
  | .received b => ¬ Fatal b
  | _ => True

namespace Tidy

theorem pure {a : α} : Tidy (M.pure a) := fun _ h => h

theorem bind {x : M α} {f : α → M β} (hx : Tidy x) (hf : ∀ a, Tidy (f a)) :
    Tidy (x >>= f) := by
  intro w h
  have := hx w h
  show Result (M.bind x f w)
  unfold M.bind
  cases hw : x w with
  | ok a w' => rw [hw] at this; exact hf a w' this
  | panic p w' => rw [hw] at this; exact this
  | stuck w' => rw [hw] at this; exact this

theorem emit {e : Event} (h : Harmless e) : Tidy (M.emit e) := by
  intro w hw
  show Mild (e :: w.log)
  cases e with
  | received b => exact ⟨h, hw⟩
  | _ => exact hw

theorem fail {p : Panic} : Tidy (M.fail p : M α) := fun _ h => .inl h

theorem stop : Tidy (M.stop : M α) := fun _ h => h

theorem lift {r : Res Empty α} : Tidy (M.lift r) := by
  cases r with
  | ok a => exact pure
  | err e => exact nomatch e
  | panic p => exact fail

theorem get {f : World → M β} (hf : ∀ w, Tidy (f w)) : Tidy (M.get >>= f) :=
  fun w h => hf w w h

theorem modify {f : Manager → Manager} : Tidy (modifyMgr f) := fun _ h => h

theorem when {c : Prop} [Decidable c] {x : M Unit} (h : Tidy x) : Tidy (M.when c x) := by
  unfold M.when
  split
  · exact h
  · exact pure

theorem forEach {f : α → M Unit} {l : List α} (h : ∀ a, Tidy (f a)) : Tidy (M.forEach f l) := by
  induction l with
  | nil => exact pure
  | cons a l ih => exact bind (h a) fun _ => ih

theorem call {f : Kernel → Answer → Option (α × Kernel)} : Tidy (Sys.call f) := by
  intro w h
  unfold Sys.call
  cases w.answers with
  | nil => exact h
  | cons a rest =>
    simp only
    cases f w.kernel a with
    | none => exact h
    | some rk => exact h

end Tidy

theorem initiateShutdown_tidy (sig : Nat) : Tidy (initiateShutdown sig) := by
  refine .bind .modify fun _ => .get fun w => .forEach fun p => .bind .call fun b => ?_
  split
  · exact .emit trivial
  · exact .fail

theorem handleSignal_tidy : Tidy handleSignal := by
  refine .bind .call fun r => ?_
  cases r with
  | none => exact .emit trivial
  | some n =>
    refine .bind (.emit trivial) fun _ => ?_
    split
    · exact initiateShutdown_tidy _
    · exact .when (initiateShutdown_tidy _)

theorem reportStatus_tidy (env : Env) : Tidy (reportStatus env) := by
  refine .bind .call fun r => ?_
  cases r with
  | none => exact .emit trivial
  | some wrote =>
    refine .get fun w => .bind .lift fun text => ?_
    cases wrote with
    | true => exact .emit trivial
    | false => exact .emit trivial

theorem readSocket_tidy : Tidy readSocket := by
  refine .bind .call fun r => ?_
  cases r with
  | none => exact .bind (.emit trivial) fun _ => .pure
  | some bc =>
    obtain ⟨bytes, cred⟩ := bc
    intro w hw
    have hmem : ∀ p (w' : World), w'.log = .received bytes :: w.log → Fatal bytes →
        Result (Out.panic p w' : Out (Option (Str × Int))) :=
      fun p w' h1 h2 => .inr ⟨bytes, w.log, h1, h2, hw⟩
    by_cases he : bytes = []
    · subst he
      exact hmem _ _ rfl (.inl rfl)
    by_cases hf : 4096 ≤ bytes.length ∧ 0 ∉ bytes
    · have hs : sliceToString bytes = .panic .undefinedBehaviour := if_pos hf
      have : bytes.isEmpty = false := by simpa using he
      simp only [emit_bind]
      rw [if_neg (by simpa using he), hs]
      exact hmem _ _ rfl (.inr (.inl hf))
    · cases ht : fromUtf8 (bytes.takeWhile (· ≠ 0)) with
      | none =>
        have hs : sliceToString bytes = .panic .invalidUtf8 := by
          unfold sliceToString
          rw [if_neg hf, ht]
          rfl
        simp only [emit_bind]
        rw [if_neg (by simpa using he), hs]
        exact hmem _ _ rfl (.inr (.inr (fromUtf8_none.mp ht)))
      | some t =>
        have hg : ¬ Fatal bytes := by
          rintro (h | h | h)
          · exact he h
          · exact hf h
          · rw [← fromUtf8_none, ht] at h
            cases h
        have hs : sliceToString bytes = .ok t := by
          unfold sliceToString
          rw [if_neg hf, ht]
          rfl
        refine Tidy.bind (.emit (e := .received bytes) hg) (fun _ => ?_) w hw
        rw [if_neg (by simpa using he), hs]
        refine .bind .lift fun _ => ?_
        cases cred with
        | none => exact .bind (.emit trivial) fun _ => .pure
        | some q => exact .bind (.emit trivial) fun _ => .pure

theorem readNotification_tidy (env : Env) : Tidy (readNotification env) := by
  refine .bind readSocket_tidy fun r => ?_
  cases r with
  | none => exact .pure
  | some tq => exact .get fun w => .bind .lift fun m => .modify

theorem printChildOutput_tidy (fd : Int) : Tidy (printChildOutput fd) := by
  refine .bind .call fun r => ?_
  cases r with
  | none => exact .emit trivial
  | some bytes =>
    exact .bind (.emit trivial) fun _ => .get fun w => .bind .lift fun child =>
      .forEach fun line => .when (.emit trivial)

theorem handleEvent_tidy (env : Env) (ev : Ready) : Tidy (handleEvent env ev) := by
  refine .bind (.emit trivial) fun _ => .get fun w => ?_
  split
  · split
    · exact handleSignal_tidy
    · split
      · exact reportStatus_tidy env
      · split
        · exact readNotification_tidy env
        · exact printChildOutput_tidy _
  · split
    · have hdel : Tidy (Sys.epollDel ev.fd) := fun w h => h
      have hclose : Tidy (Sys.close ev.fd) := fun w h => h
      exact .bind (.emit trivial) fun _ => .bind hdel fun _ => .bind (.when hclose) fun _ => .modify
    · exact .pure

theorem dispatchEpoll_tidy (env : Env) : Tidy (dispatchEpoll env) := by
  refine .bind (.emit trivial) fun _ => .bind .call fun r => ?_
  cases r with
  | none => exact .emit trivial
  | some evs => exact .bind (.emit trivial) fun _ => .forEach (handleEvent_tidy env)

theorem handleFinishedChild_tidy (pid rc : Int) : Tidy (handleFinishedChild pid rc) := by
  refine .get fun w => ?_
  split
  · exact .emit trivial
  · split
    · exact .fail
    · refine .bind (.emit trivial) fun _ => .bind .modify fun _ => .bind (.when ?_) fun _ => ?_
      · exact .bind .modify fun _ => initiateShutdown_tidy _
      · exact .bind .modify fun _ => .when (.get fun w => .bind .lift fun _ => .modify)

theorem lookForFinishedChildren_tidy (fuel : Nat) : Tidy (lookForFinishedChildren fuel) := by
  induction fuel with
  | zero => exact .stop
  | succ fuel ih =>
    refine .bind .call fun r => ?_
    cases r with
    | exited pid code => exact .bind (handleFinishedChild_tidy pid code) fun _ => ih
    | killed pid sig =>
      simp only
      split
      · exact .bind (handleFinishedChild_tidy pid sig) fun _ => ih
      · exact .emit trivial
    | alive => exact .emit trivial
    | other => exact ih
    | error => exact .emit trivial

theorem spawnChild_tidy (i : Nat) : Tidy (spawnChild i) := by
  refine .get fun w => ?_
  split
  · exact .fail
  · split
    · exact .emit trivial
    · refine .bind .call fun r => ?_
      split
      · exact .emit trivial
      · exact .bind (.emit trivial) fun _ => .bind .modify fun _ =>
          .bind .call fun b => .bind (.emit trivial) fun _ => .bind .call fun b =>
          .bind (.emit trivial) fun _ => .bind .modify fun _ => .bind .modify fun _ => .modify

theorem spawnRunnables_tidy (fuel : Nat) : Tidy (spawnRunnables fuel) := by
  induction fuel with
  | zero => exact .pure
  | succ fuel ih =>
    refine .get fun w => ?_
    split
    · exact .pure
    · refine .bind .modify fun _ => ?_
      split
      · exact .fail
      · exact .bind (.when (spawnChild_tidy _)) fun _ => ih

theorem spawnCronjobs_tidy (env : Env) (fuel : Nat) : Tidy (spawnCronjobs env fuel) := by
  induction fuel with
  | zero => exact .stop
  | succ fuel ih =>
    refine .bind .call fun t => .bind (.emit trivial) fun _ => ?_
    refine .get fun w => .bind .lift fun r => ?_
    split
    · exact .modify
    · refine .bind .modify fun _ => ?_
      split
      · exact .fail
      · refine .bind ?_ fun _ => ih
        cases w.mgr.deps.isRunnable _ with
        | true => exact spawnChild_tidy _
        | false => exact .emit trivial

theorem spawnChildren_tidy (env : Env) : Tidy (spawnChildren env) :=
  .get fun _ => .bind (spawnRunnables_tidy _) fun _ => .get fun _ => spawnCronjobs_tidy env _

theorem mainLoop_tidy (env : Env) (fuel : Nat) : Tidy (mainLoop env fuel) := by
  induction fuel with
  | zero => exact .stop
  | succ fuel ih =>
    refine .get fun w => ?_
    split
    · exact .bind (spawnChildren_tidy env) fun _ => .bind (dispatchEpoll_tidy env) fun _ =>
        .get fun w => .bind (lookForFinishedChildren_tidy _) fun _ => ih
    · exact .pure

theorem shutdownLoop_tidy (env : Env) (fuel : Nat) : Tidy (shutdownLoop env fuel) := by
  induction fuel with
  | zero => exact .stop
  | succ fuel ih =>
    refine .get fun w => ?_
    split
    · exact .bind (dispatchEpoll_tidy env) fun _ => .get fun w =>
        .bind (lookForFinishedChildren_tidy _) fun _ => ih
    · exact .pure

theorem start_tidy (env : Env) : Tidy (start env) := by
  refine .get fun w => .bind .call fun ok => ?_
  split
  · exact .get fun w => .bind (mainLoop_tidy env _) fun _ => .get fun w =>
      .bind (shutdownLoop_tidy env _) fun _ => .get fun w => .bind (.emit trivial) fun _ => .pure
  · exact .bind (.emit trivial) fun _ => .pure

theorem Machine.loop_tidy (x : Machine) (m : Manager) : Result (x.loop m) :=
  start_tidy x.env (x.world m) trivial

end Cinit
