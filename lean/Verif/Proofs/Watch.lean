import Verif.Spec.Service
import Verif.Proofs.Main
/-!
# The output streams of a program are registered when it is started
-/

namespace Cinit

open M Manager Spec

variable {α β : Type}

/-- `x` keeps to `Watches`; `P` holds before, `Q` afterwards. -/
def Keeps (P : Log → Prop) (x : M α) (Q : Log → Prop) : Prop :=
  ∀ w : World, Always Watches w.log → P w.log →
    match x w with
    | .ok _ w' => Always Watches w'.log ∧ Q w'.log
    | .panic _ w' => Always Watches w'.log
    | .stuck w' => Always Watches w'.log

/-- `x` keeps to `Watches` and leaves nothing to be registered. -/
def Calm (x : M α) : Prop := Keeps (unwatched · = none) x (unwatched · = none)

/-- Events that have nothing to do with starting programs. -/
def Apart : Event → Prop
  | .spawned _ _ _ _ => False
  | .watched _ _ => False
  | _ => True

theorem apart_watches {e : Event} (h : Apart e) {l : Log} (hl : unwatched l = none) :
    Watches e l := by
  unfold Watches
  rw [hl]
  rintro fd ok rfl
  exact h

theorem apart_unwatched {e : Event} (h : Apart e) (l : Log) : unwatched (e :: l) = none := by
  cases e <;> first
    | rfl
    | exact h.elim

namespace Keeps

theorem bind {x : M α} {f : α → M β} {P Q R : Log → Prop} (hx : Keeps P x Q)
    (hf : ∀ a, Keeps Q (f a) R) : Keeps P (x >>= f) R := by
  intro w h1 h2
  have := hx w h1 h2
  show match (M.bind x f) w with
    | .ok a w' => _
    | .panic _ w' => _
    | .stuck w' => _
  unfold M.bind
  cases hw : x w with
  | ok a w' =>
    rw [hw] at this
    exact hf a w' this.1 this.2
  | panic p w' => rw [hw] at this; exact this
  | stuck w' => rw [hw] at this; exact this

theorem call {P : Log → Prop} {f : Kernel → Answer → Option (α × Kernel)} :
    Keeps P (Sys.call f) P := by
  intro w h1 h2
  unfold Sys.call
  cases w.answers with
  | nil => exact h1
  | cons a rest =>
    simp only
    cases f w.kernel a with
    | none => exact h1
    | some rk => exact ⟨h1, h2⟩

theorem emit {P Q : Log → Prop} {e : Event} (h : ∀ l, P l → Watches e l ∧ Q (e :: l)) :
    Keeps P (M.emit e) Q :=
  fun w h1 h2 => ⟨⟨(h w.log h2).1, h1⟩, (h w.log h2).2⟩

theorem modify {P : Log → Prop} {f : Manager → Manager} : Keeps P (modifyMgr f) P :=
  fun _ h1 h2 => ⟨h1, h2⟩

end Keeps

namespace Calm

theorem pure {a : α} : Calm (M.pure a) := fun _ h1 h2 => ⟨h1, h2⟩

theorem bind {x : M α} {f : α → M β} (hx : Calm x) (hf : ∀ a, Calm (f a)) :
    Calm (x >>= f) := Keeps.bind hx hf

theorem emit {e : Event} (h : Apart e) : Calm (M.emit e) :=
  fun _ h1 h2 => ⟨⟨apart_watches h h2, h1⟩, apart_unwatched h _⟩

theorem fail {p : Panic} : Calm (M.fail p : M α) := fun _ h1 _ => h1

theorem stop : Calm (M.stop : M α) := fun _ h1 _ => h1

theorem lift {r : Res Empty α} : Calm (M.lift r) := by
  cases r with
  | ok a => exact pure
  | err e => exact nomatch e
  | panic p => exact fail

theorem get {f : World → M β} (hf : ∀ w, Calm (f w)) : Calm (M.get >>= f) :=
  fun w h1 h2 => hf w w h1 h2

theorem modify {f : Manager → Manager} : Calm (modifyMgr f) := fun _ h1 h2 => ⟨h1, h2⟩

theorem when {c : Prop} [Decidable c] {x : M Unit} (h : Calm x) : Calm (M.when c x) := by
  unfold M.when
  split
  · exact h
  · exact pure

theorem forEach {f : α → M Unit} {l : List α} (h : ∀ a, Calm (f a)) : Calm (M.forEach f l) := by
  induction l with
  | nil => exact pure
  | cons a l ih => exact bind (h a) fun _ => ih

theorem call {f : Kernel → Answer → Option (α × Kernel)} : Calm (Sys.call f) := Keeps.call

end Calm

theorem initiateShutdown_calm (sig : Nat) : Calm (initiateShutdown sig) := by
  refine .bind .modify fun _ => .get fun w => .forEach fun p => .bind .call fun b => ?_
  split
  · exact .emit trivial
  · exact .fail

theorem handleSignal_calm : Calm handleSignal := by
  refine .bind .call fun r => ?_
  cases r with
  | none => exact .emit trivial
  | some n =>
    refine .bind (.emit trivial) fun _ => ?_
    split
    · exact initiateShutdown_calm _
    · exact .when (initiateShutdown_calm _)

theorem reportStatus_calm (env : Env) : Calm (reportStatus env) := by
  refine .bind .call fun r => ?_
  cases r with
  | none => exact .emit trivial
  | some wrote =>
    refine .get fun w => .bind .lift fun text => ?_
    cases wrote with
    | true => exact .emit trivial
    | false => exact .emit trivial

theorem readNotification_calm (env : Env) : Calm (readNotification env) := by
  refine .bind (.bind .call fun r => ?_) fun r => ?_
  · cases r with
    | none => exact .bind (.emit trivial) fun _ => .pure
    | some bc =>
      obtain ⟨bytes, cred⟩ := bc
      refine .bind (.emit trivial) fun _ => ?_
      split
      · exact .fail
      · refine .bind .lift fun t => ?_
        cases cred with
        | none => exact .bind (.emit trivial) fun _ => .pure
        | some q => exact .bind (.emit trivial) fun _ => .pure
  · cases r with
    | none => exact .pure
    | some tq => exact .get fun w => .bind .lift fun m => .modify

theorem printChildOutput_calm (fd : Int) : Calm (printChildOutput fd) := by
  refine .bind .call fun r => ?_
  cases r with
  | none => exact .emit trivial
  | some bytes =>
    exact .bind (.emit trivial) fun _ => .get fun w => .bind .lift fun child =>
      .forEach fun line => .when (.emit trivial)

theorem handleEvent_calm (env : Env) (ev : Ready) : Calm (handleEvent env ev) := by
  refine .bind (.emit trivial) fun _ => .get fun w => ?_
  split
  · split
    · exact handleSignal_calm
    · split
      · exact reportStatus_calm env
      · split
        · exact readNotification_calm env
        · exact printChildOutput_calm _
  · split
    · have hdel : Calm (Sys.epollDel ev.fd) := fun w h1 h2 => ⟨h1, h2⟩
      have hclose : Calm (Sys.close ev.fd) := fun w h1 h2 => ⟨h1, h2⟩
      exact .bind (.emit trivial) fun _ => .bind hdel fun _ => .bind (.when hclose) fun _ => .modify
    · exact .pure

theorem dispatchEpoll_calm (env : Env) : Calm (dispatchEpoll env) := by
  refine .bind (.emit trivial) fun _ => .bind .call fun r => ?_
  cases r with
  | none => exact .emit trivial
  | some evs => exact .bind (.emit trivial) fun _ => .forEach (handleEvent_calm env)

theorem handleFinishedChild_calm (pid rc : Int) : Calm (handleFinishedChild pid rc) := by
  refine .get fun w => ?_
  split
  · exact .emit trivial
  · split
    · exact .fail
    · refine .bind (.emit trivial) fun _ => .bind .modify fun _ => .bind (.when ?_) fun _ => ?_
      · exact .bind .modify fun _ => initiateShutdown_calm _
      · exact .bind .modify fun _ => .when (.get fun w => .bind .lift fun _ => .modify)

theorem lookForFinishedChildren_calm (fuel : Nat) : Calm (lookForFinishedChildren fuel) := by
  induction fuel with
  | zero => exact .stop
  | succ fuel ih =>
    refine .bind .call fun r => ?_
    cases r with
    | exited pid code => exact .bind (handleFinishedChild_calm pid code) fun _ => ih
    | killed pid sig =>
      simp only
      split
      · exact .bind (handleFinishedChild_calm pid sig) fun _ => ih
      · exact .emit trivial
    | alive => exact .emit trivial
    | other => exact ih
    | error => exact .emit trivial

theorem spawnChild_calm (i : Nat) : Calm (spawnChild i) := by
  refine .get fun w => ?_
  split
  · exact .fail
  · split
    · exact .emit trivial
    · refine .bind .call fun r => ?_
      split
      · exact .emit trivial
      · rename_i pid out err
        refine Keeps.bind (Q := fun l => ∃ l', l = .spawned i pid out err :: l')
          (.emit fun l h => ⟨?_, l, rfl⟩) fun _ => Keeps.bind .modify fun _ =>
          Keeps.bind .call fun b => ?_
        · unfold Watches
          rw [h]
          rintro fd ok ⟨⟩
        refine Keeps.bind
          (Q := fun l => ∃ l', l = .watched out b :: .spawned i pid out err :: l')
          (.emit ?_) fun _ => Keeps.bind .call fun b' => ?_
        · rintro l ⟨l', rfl⟩
          exact ⟨⟨b, rfl⟩, l', rfl⟩
        refine Keeps.bind (Q := (unwatched · = none)) (.emit ?_) fun _ => ?_
        · rintro l ⟨l', rfl⟩
          exact ⟨⟨b', rfl⟩, rfl⟩
        exact .bind .modify fun _ => .bind .modify fun _ => .modify

theorem spawnRunnables_calm (fuel : Nat) : Calm (spawnRunnables fuel) := by
  induction fuel with
  | zero => exact .pure
  | succ fuel ih =>
    refine .get fun w => ?_
    split
    · exact .pure
    · refine .bind .modify fun _ => ?_
      split
      · exact .fail
      · exact .bind (.when (spawnChild_calm _)) fun _ => ih

theorem spawnCronjobs_calm (env : Env) (fuel : Nat) : Calm (spawnCronjobs env fuel) := by
  induction fuel with
  | zero => exact .stop
  | succ fuel ih =>
    refine .bind .call fun t => .bind (.emit trivial) fun _ => ?_
    refine .get fun w => .bind .lift fun r => ?_
    split
    · exact .modify
    · refine .bind .modify fun _ => ?_
      split
      · exact .fail
      · refine .bind ?_ fun _ => ih
        cases w.mgr.deps.isRunnable _ with
        | true => exact spawnChild_calm _
        | false => exact .emit trivial

theorem spawnChildren_calm (env : Env) : Calm (spawnChildren env) :=
  .get fun _ => .bind (spawnRunnables_calm _) fun _ => .get fun _ => spawnCronjobs_calm env _

theorem mainLoop_calm (env : Env) (fuel : Nat) : Calm (mainLoop env fuel) := by
  induction fuel with
  | zero => exact .stop
  | succ fuel ih =>
    refine .get fun w => ?_
    split
    · exact .bind (spawnChildren_calm env) fun _ => .bind (dispatchEpoll_calm env) fun _ =>
        .get fun w => .bind (lookForFinishedChildren_calm _) fun _ => ih
    · exact .pure

theorem shutdownLoop_calm (env : Env) (fuel : Nat) : Calm (shutdownLoop env fuel) := by
  induction fuel with
  | zero => exact .stop
  | succ fuel ih =>
    refine .get fun w => ?_
    split
    · exact .bind (dispatchEpoll_calm env) fun _ => .get fun w =>
        .bind (lookForFinishedChildren_calm _) fun _ => ih
    · exact .pure

theorem start_calm (env : Env) : Calm (start env) := by
  refine .get fun w => .bind .call fun ok => ?_
  split
  · exact .get fun w => .bind (mainLoop_calm env _) fun _ => .get fun w =>
      .bind (shutdownLoop_calm env _) fun _ => .get fun w => .bind (.emit trivial) fun _ => .pure
  · exact .bind (.emit trivial) fun _ => .pure

theorem Machine.loop_watches (x : Machine) (m : Manager) : Always Watches (x.loop m).log := by
  have := start_calm x.env (x.world m) trivial rfl
  unfold Machine.loop
  cases hs : start x.env (x.world m) with
  | ok a w => rw [hs] at this; exact this.1
  | panic p w => rw [hs] at this; exact this
  | stuck w => rw [hs] at this; exact this

end Cinit
