import Verif.Spec.Transcript
import Verif.Proofs.Main
/-!
# The history says what the kernel has told
-/

namespace Cinit

open M Manager Spec

variable {α β : Type}

theorem account_append (l l' : Log) : account (l ++ l') = account l' ++ account l := by
  simp [account]

/-- `D` is what has been told but is not in the history yet when `x` begins, `Q` what is still
missing when it ends. -/
def Tells (D : List Fact) (x : M α) (Q : α → List Fact) : Prop :=
  ∀ w : World, match x w with
    | .ok a w' => ∃ c es, w.answers = c ++ w'.answers ∧ w'.log = es ++ w.log ∧
        D ++ c.flatMap told = account es ++ Q a
    | .panic _ w' => ∃ c es, w.answers = c ++ w'.answers ∧ w'.log = es ++ w.log ∧
        account es <+: D ++ c.flatMap told
    | .stuck w' => ∃ c es, w.answers = c ++ w'.answers ∧ w'.log = es ++ w.log ∧
        account es <+: D ++ c.flatMap told

namespace Tells

variable {D : List Fact} {Q : α → List Fact}

theorem pure {a : α} : Tells D (M.pure a) (fun _ => D) := fun w => ⟨[], [], rfl, rfl, by simp [account]⟩

theorem bind {x : M α} {f : α → M β} {S : β → List Fact} (hx : Tells D x Q)
    (hf : ∀ a, Tells (Q a) (f a) S) : Tells D (x >>= f) S := by
  intro w
  have h1 := hx w
  show match (M.bind x f) w with
    | .ok a w' => _
    | .panic _ w' => _
    | .stuck w' => _
  unfold M.bind
  cases hw : x w with
  | ok a w' =>
    rw [hw] at h1
    obtain ⟨c, es, g1, g2, g3⟩ := h1
    have h2 := hf a w'
    simp only
    cases hw' : f a w' with
    | ok b w'' =>
      rw [hw'] at h2
      obtain ⟨c', es', g4, g5, g6⟩ := h2
      refine ⟨c ++ c', es' ++ es, by rw [g1, g4]; simp, by rw [g5, g2]; simp, ?_⟩
      rw [account_append, List.flatMap_append, ← List.append_assoc, g3, List.append_assoc, g6,
        List.append_assoc]
    | panic p w'' =>
      rw [hw'] at h2
      obtain ⟨c', es', g4, g5, g6⟩ := h2
      refine ⟨c ++ c', es' ++ es, by rw [g1, g4]; simp, by rw [g5, g2]; simp, ?_⟩
      rw [account_append, List.flatMap_append, ← List.append_assoc, g3, List.append_assoc]
      exact (List.prefix_append_right_inj _).mpr g6
    | stuck w'' =>
      rw [hw'] at h2
      obtain ⟨c', es', g4, g5, g6⟩ := h2
      refine ⟨c ++ c', es' ++ es, by rw [g1, g4]; simp, by rw [g5, g2]; simp, ?_⟩
      rw [account_append, List.flatMap_append, ← List.append_assoc, g3, List.append_assoc]
      exact (List.prefix_append_right_inj _).mpr g6
  | panic p w' => rw [hw] at h1; exact h1
  | stuck w' => rw [hw] at h1; exact h1

theorem emit {e : Event} {R : List Fact} (h : D = seen e ++ R) :
    Tells D (M.emit e) (fun _ => R) :=
  fun w => ⟨[], [e], rfl, rfl, by simp [account, h]⟩

theorem fail {p : Panic} : Tells D (M.fail p : M α) Q :=
  fun w => ⟨[], [], rfl, rfl, by simp [account]⟩

theorem stop : Tells D (M.stop : M α) Q := fun w => ⟨[], [], rfl, rfl, by simp [account]⟩

theorem lift {r : Res Empty α} : Tells D (M.lift r) (fun _ => D) := by
  cases r with
  | ok a => exact pure
  | err e => exact nomatch e
  | panic p => exact fail

theorem get {f : World → M β} {S : β → List Fact} (hf : ∀ w, Tells D (f w) S) :
    Tells D (M.get >>= f) S := fun w => hf w w

theorem modify {f : Manager → Manager} : Tells D (modifyMgr f) (fun _ => D) :=
  fun w => ⟨[], [], rfl, rfl, by simp [account]⟩

theorem when {c : Prop} [Decidable c] {x : M Unit} (h : Tells D x (fun _ => D)) :
    Tells D (M.when c x) (fun _ => D) := by
  unfold M.when
  split
  · exact h
  · exact pure

theorem forEach {f : α → M Unit} {l : List α} (h : ∀ a, Tells D (f a) (fun _ => D)) :
    Tells D (M.forEach f l) (fun _ => D) := by
  induction l with
  | nil => exact pure
  | cons a l ih => exact bind (h a) fun _ => ih

/-- A system call whose result says as much as the answer. -/
theorem call {f : Kernel → Answer → Option (α × Kernel)} (g : α → List Fact)
    (h : ∀ k a r k', f k a = some (r, k') → told a = g r) : Tells [] (Sys.call f) g := by
  intro w
  unfold Sys.call
  cases hw : w.answers with
  | nil => exact ⟨[], [], by simp [hw], rfl, by simp [account]⟩
  | cons a rest =>
    simp only
    cases hf : f w.kernel a with
    | none => exact ⟨[], [], by simp [hw], rfl, by simp [account]⟩
    | some rk =>
      obtain ⟨r, k⟩ := rk
      refine ⟨[a], [], by simp, rfl, ?_⟩
      simp [account, h _ _ _ _ hf]

end Tells

theorem now_tells : Tells [] Sys.now (fun t => [.time t]) := by
  refine .call _ fun k a r k' h => ?_
  cases a <;> simp at h
  obtain ⟨-, rfl, -⟩ := h
  rfl

theorem fork_tells : Tells [] Sys.fork (fun r => told (.fork r)) := by
  refine .call _ fun k a r k' h => ?_
  cases a with
  | fork r' =>
    cases r' with
    | none => cases h; rfl
    | some t =>
      obtain ⟨p, o, e⟩ := t
      simp only at h
      split at h
      · cases h; rfl
      · cases h
  | _ => cases h

theorem epollAdd_tells (fd : Int) : Tells [] (Sys.epollAdd fd) (fun ok => [.watching ok]) := by
  refine .call _ fun k a r k' h => ?_
  cases a <;> simp at h
  obtain ⟨rfl, -⟩ := h
  rfl

theorem epollWait_tells : Tells [] Sys.epollWait (fun r => told (.epoll r)) := by
  refine .call _ fun k a r k' h => ?_
  cases a with
  | epoll r' =>
    cases r' with
    | none => cases h; rfl
    | some t =>
      simp only at h
      split at h
      · cases h; rfl
      · cases h
  | _ => cases h

theorem wait_tells : Tells [] Sys.wait (fun r => told (.wait r)) := by
  refine .call _ fun k a r k' h => ?_
  cases a with
  | wait r' =>
    cases r' with
    | exited p c =>
      simp only at h
      split at h
      · cases h; rfl
      · cases h
    | killed p c =>
      simp only at h
      split at h
      · cases h; rfl
      · cases h
    | _ => cases h; rfl
  | _ => cases h

theorem signal_tells : Tells [] Sys.signal (fun r => told (.signal r)) := by
  refine .call _ fun k a r k' h => ?_
  cases a with
  | signal r' =>
    cases r' with
    | none => cases h; rfl
    | some t =>
      simp only at h
      split at h
      · cases h; rfl
      · cases h
  | _ => cases h

theorem recv_tells : Tells [] Sys.recv (fun r => told (.recv r)) := by
  refine .call _ fun k a r k' h => ?_
  cases a with
  | recv r' =>
    cases r' with
    | none => cases h; rfl
    | some t =>
      simp only at h
      split at h
      · cases h; rfl
      · cases h
  | _ => cases h

theorem read_tells : Tells [] Sys.read (fun r => told (.read r)) := by
  refine .call _ fun k a r k' h => ?_
  cases a with
  | read r' =>
    cases r' with
    | none => cases h; rfl
    | some t =>
      simp only at h
      split at h
      · cases h; rfl
      · cases h
  | _ => cases h

theorem accept_tells : Tells [] Sys.accept (fun r => told (.accept r)) := by
  refine .call _ fun k a r k' h => ?_
  cases a with
  | accept r' => cases h; rfl
  | _ => cases h

theorem kill_tells (pid : Int) : Tells [] (Sys.kill pid) (fun r => told (.kill r)) := by
  refine .call _ fun k a r k' h => ?_
  cases a with
  | kill r' =>
    simp only at h
    split at h
    · cases h
    · cases h; rfl
  | _ => cases h

theorem setup_tells (fds : List Int) : Tells [] (Sys.setup fds) (fun _ => []) := by
  refine .call _ fun k a r k' h => ?_
  cases a with
  | setup r' => rfl
  | _ => cases h

theorem initiateShutdown_tells (sig : Nat) : Tells [] (initiateShutdown sig) (fun _ => []) := by
  refine .bind .modify fun _ => .get fun w => .forEach fun p => .bind (kill_tells _) fun b => ?_
  cases b with
  | true => exact .emit rfl
  | false => exact .fail

theorem handleSignal_tells : Tells [] handleSignal (fun _ => []) := by
  refine .bind signal_tells fun r => ?_
  cases r with
  | none => exact .emit rfl
  | some n =>
    refine .bind (.emit (R := []) rfl) fun _ => ?_
    split
    · exact initiateShutdown_tells _
    · exact .when (initiateShutdown_tells _)

theorem reportStatus_tells (env : Env) : Tells [] (reportStatus env) (fun _ => []) := by
  refine .bind accept_tells fun r => ?_
  cases r with
  | none => exact .emit rfl
  | some wrote =>
    refine .get fun w => .bind .lift fun text => ?_
    cases wrote with
    | true => exact .emit rfl
    | false => exact .emit rfl

theorem readNotification_tells (env : Env) : Tells [] (readNotification env) (fun _ => []) := by
  refine .bind (Q := fun _ => []) (.bind recv_tells fun r => ?_) fun r => ?_
  · cases r with
    | none => exact .bind (.emit (R := []) rfl) fun _ => .pure
    | some bc =>
      obtain ⟨bytes, cred⟩ := bc
      cases cred with
      | none =>
        refine .bind (.emit (R := [.noSender]) rfl) fun _ => ?_
        split
        · exact .fail
        · exact .bind .lift fun t => .bind (.emit (R := []) rfl) fun _ => .pure
      | some q =>
        refine .bind (.emit (R := [.sender q]) rfl) fun _ => ?_
        split
        · exact .fail
        · exact .bind .lift fun t => .bind (.emit (R := []) rfl) fun _ => .pure
  · cases r with
    | none => exact .pure
    | some tq => exact .get fun w => .bind .lift fun m => .modify

theorem printChildOutput_tells (fd : Int) : Tells [] (printChildOutput fd) (fun _ => []) := by
  refine .bind read_tells fun r => ?_
  cases r with
  | none => exact .emit rfl
  | some bytes =>
    exact .bind (.emit (R := []) rfl) fun _ => .get fun w => .bind .lift fun child =>
      .forEach fun line => .when (.emit rfl)

theorem handleEvent_tells (env : Env) (ev : Ready) :
    Tells [] (handleEvent env ev) (fun _ => []) := by
  refine .bind (.emit (R := []) rfl) fun _ => .get fun w => ?_
  split
  · split
    · exact handleSignal_tells
    · split
      · exact reportStatus_tells env
      · split
        · exact readNotification_tells env
        · exact printChildOutput_tells _
  · split
    · have hdel : Tells [] (Sys.epollDel ev.fd) (fun _ => []) :=
        fun w => ⟨[], [], rfl, rfl, rfl⟩
      have hclose : Tells [] (Sys.close ev.fd) (fun _ => []) :=
        fun w => ⟨[], [], rfl, rfl, rfl⟩
      exact .bind (.emit (R := []) rfl) fun _ => .bind hdel fun _ => .bind (.when hclose)
        fun _ => .modify
    · exact .pure

theorem dispatchEpoll_tells (env : Env) : Tells [] (dispatchEpoll env) (fun _ => []) := by
  refine .bind (.emit (R := []) rfl) fun _ => .bind epollWait_tells fun r => ?_
  cases r with
  | none => exact .emit rfl
  | some evs => exact .bind (.emit (R := []) rfl) fun _ => .forEach (handleEvent_tells env)

theorem handleFinishedChild_tells (pid rc : Int) :
    Tells [.died pid rc] (handleFinishedChild pid rc) (fun _ => []) := by
  refine .get fun w => ?_
  split
  · exact .emit rfl
  · split
    · exact .fail
    · refine .bind (.emit (R := []) rfl) fun _ => .bind .modify fun _ => .bind (.when ?_)
        fun _ => ?_
      · exact .bind .modify fun _ => initiateShutdown_tells _
      · exact .bind .modify fun _ => .when (.get fun w => .bind .lift fun _ => .modify)

theorem lookForFinishedChildren_tells (fuel : Nat) :
    Tells [] (lookForFinishedChildren fuel) (fun _ => []) := by
  induction fuel with
  | zero => exact .stop
  | succ fuel ih =>
    refine .bind wait_tells fun r => ?_
    cases r with
    | exited pid code => exact .bind (handleFinishedChild_tells pid code) fun _ => ih
    | killed pid sig =>
      by_cases hs : sig ≤ 31
      · have e : told (.wait (.killed pid sig)) = [.died pid sig] := by
          simp only [told]; rw [if_pos (by omega)]
        rw [e]
        simp only [hs, if_true]
        exact .bind (handleFinishedChild_tells pid sig) fun _ => ih
      · have e : told (.wait (.killed pid sig)) = [.vanished pid sig] := by
          simp only [told]; rw [if_neg (by omega)]
        rw [e]
        simp only [hs, if_false]
        exact .emit rfl
    | alive => exact .emit rfl
    | other => exact ih
    | error => exact .emit rfl

theorem spawnChild_tells (i : Nat) : Tells [] (spawnChild i) (fun _ => []) := by
  refine .get fun w => ?_
  split
  · exact .fail
  · split
    · exact .emit rfl
    · refine .bind fork_tells fun r => ?_
      cases r with
      | none => exact .emit rfl
      | some t =>
        obtain ⟨pid, out, err⟩ := t
        exact .bind (.emit (R := []) rfl) fun _ => .bind .modify fun _ =>
          .bind (epollAdd_tells _) fun b => .bind (.emit (R := []) rfl) fun _ =>
          .bind (epollAdd_tells _) fun b => .bind (.emit (R := []) rfl) fun _ =>
          .bind .modify fun _ => .bind .modify fun _ => .modify

theorem spawnRunnables_tells (fuel : Nat) : Tells [] (spawnRunnables fuel) (fun _ => []) := by
  induction fuel with
  | zero => exact .pure
  | succ fuel ih =>
    refine .get fun w => ?_
    split
    · exact .pure
    · refine .bind .modify fun _ => ?_
      split
      · exact .fail
      · exact .bind (.when (spawnChild_tells _)) fun _ => ih

theorem spawnCronjobs_tells (env : Env) (fuel : Nat) :
    Tells [] (spawnCronjobs env fuel) (fun _ => []) := by
  induction fuel with
  | zero => exact .stop
  | succ fuel ih =>
    refine .bind now_tells fun t => .bind (.emit (R := []) rfl) fun _ => ?_
    refine .get fun w => .bind .lift fun r => ?_
    split
    · exact .modify
    · refine .bind .modify fun _ => ?_
      split
      · exact .fail
      · refine .bind (Q := fun _ => []) ?_ fun _ => ih
        cases w.mgr.deps.isRunnable _ with
        | true => exact spawnChild_tells _
        | false => exact .emit rfl

theorem spawnChildren_tells (env : Env) : Tells [] (spawnChildren env) (fun _ => []) :=
  .get fun _ => .bind (spawnRunnables_tells _) fun _ => .get fun _ => spawnCronjobs_tells env _

theorem mainLoop_tells (env : Env) (fuel : Nat) : Tells [] (mainLoop env fuel) (fun _ => []) := by
  induction fuel with
  | zero => exact .stop
  | succ fuel ih =>
    refine .get fun w => ?_
    split
    · exact .bind (spawnChildren_tells env) fun _ => .bind (dispatchEpoll_tells env) fun _ =>
        .get fun w => .bind (lookForFinishedChildren_tells _) fun _ => ih
    · exact .pure

theorem shutdownLoop_tells (env : Env) (fuel : Nat) :
    Tells [] (shutdownLoop env fuel) (fun _ => []) := by
  induction fuel with
  | zero => exact .stop
  | succ fuel ih =>
    refine .get fun w => ?_
    split
    · exact .bind (dispatchEpoll_tells env) fun _ => .get fun w =>
        .bind (lookForFinishedChildren_tells _) fun _ => ih
    · exact .pure

theorem start_tells (env : Env) : Tells [] (start env) (fun _ => []) := by
  refine .get fun w => .bind (setup_tells _) fun ok => ?_
  split
  · exact .get fun w => .bind (mainLoop_tells env _) fun _ => .get fun w =>
      .bind (shutdownLoop_tells env _) fun _ => .get fun w => .bind (.emit (R := []) rfl)
      fun _ => .pure
  · exact .bind (.emit (R := []) rfl) fun _ => .pure

end Cinit
