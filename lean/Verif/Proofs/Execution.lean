import Verif.Spec.Execution
import Verif.Proofs.Main
/-!
# The attributes of programs never change
-/

namespace Cinit

open M Manager Spec

variable {α β : Type} {T : List Attributes}

/-- The attributes of all programs. -/
def attributesOf (m : Manager) : List Attributes := m.procs.map attributes

/-- `x` leaves the attributes of all programs as they are. -/
def Fixed (T : List Attributes) (x : M α) : Prop :=
  ∀ w : World, attributesOf w.mgr = T → attributesOf (x w).world.mgr = T

namespace Fixed

theorem pure {a : α} : Fixed T (M.pure a) := fun _ h => h

theorem bind {x : M α} {f : α → M β} (hx : Fixed T x) (hf : ∀ a, Fixed T (f a)) :
    Fixed T (x >>= f) := by
  intro w h
  have := hx w h
  show attributesOf (M.bind x f w).world.mgr = T
  unfold M.bind
  cases hw : x w with
  | ok a w' => rw [hw] at this; exact hf a w' this
  | panic p w' => rw [hw] at this; exact this
  | stuck w' => rw [hw] at this; exact this

theorem emit {e : Event} : Fixed T (M.emit e) := fun _ h => h

theorem fail {p : Panic} : Fixed T (M.fail p : M α) := fun _ h => h

theorem stop : Fixed T (M.stop : M α) := fun _ h => h

theorem lift {r : Res Empty α} : Fixed T (M.lift r) := by
  cases r with
  | ok a => exact pure
  | err e => exact nomatch e
  | panic p => exact fail

theorem get {f : World → M β} (hf : ∀ w, attributesOf w.mgr = T → Fixed T (f w)) :
    Fixed T (M.get >>= f) :=
  fun w h => hf w h w h

theorem modify {f : Manager → Manager} (hf : ∀ m, attributesOf m = T → attributesOf (f m) = T) :
    Fixed T (modifyMgr f) := fun w h => hf w.mgr h

theorem when {c : Prop} [Decidable c] {x : M Unit} (h : Fixed T x) : Fixed T (M.when c x) := by
  unfold M.when
  split
  · exact h
  · exact pure

theorem forEach {f : α → M Unit} {l : List α} (h : ∀ a, Fixed T (f a)) :
    Fixed T (M.forEach f l) := by
  induction l with
  | nil => exact pure
  | cons a l ih => exact bind (h a) fun _ => ih

theorem call {f : Kernel → Answer → Option (α × Kernel)} : Fixed T (Sys.call f) := by
  intro w h
  unfold Sys.call
  cases w.answers with
  | nil => exact h
  | cons a rest =>
    simp only
    cases f w.kernel a with
    | none => exact h
    | some rk => exact h

end Fixed

theorem initiateShutdown_fixed (sig : Nat) : Fixed T (initiateShutdown sig) := by
  refine .bind (.modify fun _ h => h) fun _ => .get fun w _ => .forEach fun p => .bind .call fun b => ?_
  split
  · exact .emit
  · exact .fail

theorem handleSignal_fixed : Fixed T handleSignal := by
  refine .bind .call fun r => ?_
  cases r with
  | none => exact .emit
  | some n =>
    refine .bind .emit fun _ => ?_
    split
    · exact initiateShutdown_fixed _
    · exact .when (initiateShutdown_fixed _)

theorem reportStatus_fixed (env : Env) : Fixed T (reportStatus env) := by
  refine .bind .call fun r => ?_
  cases r with
  | none => exact .emit
  | some wrote =>
    refine .get fun w _ => .bind .lift fun text => ?_
    cases wrote with
    | true => exact .emit
    | false => exact .emit

theorem readSocket_fixed : Fixed T readSocket := by
  refine .bind .call fun r => ?_
  cases r with
  | none => exact .bind .emit fun _ => .pure
  | some bc =>
    refine .bind .emit fun _ => ?_
    split
    · exact .fail
    · refine .bind .lift fun _ => ?_
      split
      · exact .bind .emit fun _ => .pure
      · exact .bind .emit fun _ => .pure

theorem attributesOf_get {m : Manager} (h : attributesOf m = T) {i : Nat} {p : Process}
    (hp : m.procs[i]? = some p) : T[i]? = some (attributes p) := by
  rw [← h]
  simp [attributesOf, hp]

theorem attributesOf_setProc {m : Manager} (h : attributesOf m = T) {i : Nat} {p : Process}
    (hp : T[i]? = some (attributes p)) : attributesOf (setProc i p m) = T := by
  show (m.procs.set i p).map attributes = T
  rw [List.map_set]
  have h : m.procs.map attributes = T := h
  rw [h]
  apply List.ext_getElem?
  intro j
  rw [List.getElem?_set]
  split
  · next hj =>
    subst hj
    rw [hp]
    split
    · rfl
    · next hl => rw [List.getElem?_eq_none (by omega)] at hp; cases hp
  · rfl

theorem handleNotification_attributes (p : Process) (key value : Str) :
    attributes (p.handleNotification key value) = attributes p := by
  unfold Process.handleNotification
  repeat' split
  all_goals rfl

theorem foldl_attributes (l : AMap Str Str) (p : Process) :
    attributes (l.foldl (fun q kv => q.handleNotification kv.1 kv.2) p) = attributes p := by
  induction l generalizing p with
  | nil => rfl
  | cons kv l ih => rw [List.foldl_cons, ih, handleNotification_attributes]

theorem manager_notification_procs {m m' : Manager} {i : Nat} {pid : Int} {key value : Str}
    (h : m.handleNotification i pid key value = .ok m') : m'.procs = m.procs := by
  unfold Manager.handleNotification at h
  split at h
  · split at h
    · cases h; rfl
    · cases hd : m.deps.notifyProcessFinished i with
      | ok d => rw [hd] at h; cases h; rfl
      | err e => rw [hd] at h; cases h
      | panic p => rw [hd] at h; cases h
  · split at h
    · split at h <;> (cases h; rfl)
    · cases h; rfl

theorem foldlM_procs {i : Nat} {pid : Int} (l : AMap Str Str) {m m' : Manager}
    (h : Res.foldlM (fun m kv => m.handleNotification i pid kv.1 kv.2) m l = .ok m') :
    m'.procs = m.procs := by
  induction l generalizing m with
  | nil => cases h; rfl
  | cons kv l ih =>
    rw [Res.foldlM] at h
    cases hk : m.handleNotification i pid kv.1 kv.2 with
    | ok d =>
      rw [hk] at h
      rw [ih h, manager_notification_procs hk]
    | err e => exact nomatch e
    | panic p => rw [hk] at h; cases h

theorem process_attributes {ord : HashOrder} {m m' : Manager} {state : Str} {peer : Int}
    (h : m.process ord state peer = .ok m') : attributesOf m' = attributesOf m := by
  unfold Manager.process at h
  split at h
  · cases h; rfl
  · split at h
    · cases h
    · next p hp =>
      split at h
      · cases h; rfl
      · have := foldlM_procs _ h
        unfold attributesOf
        rw [this]
        refine attributesOf_setProc rfl ?_
        rw [foldl_attributes]
        exact attributesOf_get rfl hp

theorem readNotification_fixed (env : Env) : Fixed T (readNotification env) := by
  refine .bind readSocket_fixed fun r => ?_
  cases r with
  | none => exact .pure
  | some tq =>
    refine .get fun w hw => ?_
    cases hm : w.mgr.process (env.order w.log) tq.1 tq.2 with
    | ok m => exact .modify fun _ _ => (process_attributes hm).trans hw
    | err e => exact nomatch e
    | panic p => exact .fail

theorem printChildOutput_fixed (fd : Int) : Fixed T (printChildOutput fd) := by
  refine .bind .call fun r => ?_
  cases r with
  | none => exact .emit
  | some bytes =>
    exact .bind .emit fun _ => .get fun w _ => .bind .lift fun child =>
      .forEach fun line => .when .emit

theorem handleEvent_fixed (env : Env) (ev : Ready) : Fixed T (handleEvent env ev) := by
  refine .bind .emit fun _ => .get fun w _ => ?_
  split
  · split
    · exact handleSignal_fixed
    · split
      · exact reportStatus_fixed env
      · split
        · exact readNotification_fixed env
        · exact printChildOutput_fixed _
  · split
    · have hdel : Fixed T (Sys.epollDel ev.fd) := fun w h => h
      have hclose : Fixed T (Sys.close ev.fd) := fun w h => h
      exact .bind .emit fun _ => .bind hdel fun _ => .bind (.when hclose) fun _ => (.modify fun _ h => h)
    · exact .pure

theorem dispatchEpoll_fixed (env : Env) : Fixed T (dispatchEpoll env) := by
  refine .bind .emit fun _ => .bind .call fun r => ?_
  cases r with
  | none => exact .emit
  | some evs => exact .bind .emit fun _ => .forEach (handleEvent_fixed env)

theorem handleFinishedChild_fixed (pid rc : Int) : Fixed T (handleFinishedChild pid rc) := by
  refine .get fun w hw => ?_
  split
  · exact .emit
  · split
    · exact .fail
    · next child hc =>
      refine .bind .emit fun _ => .bind (.modify fun m hm =>
        attributesOf_setProc hm (show _ = some (attributes child) from attributesOf_get hw hc)) fun _ => .bind (.when ?_) fun _ => ?_
      · exact .bind (.modify fun _ h => h) fun _ => initiateShutdown_fixed _
      · exact .bind (.modify fun _ h => h) fun _ =>
          .when (.get fun w _ => .bind .lift fun _ => (.modify fun _ h => h))

theorem lookForFinishedChildren_fixed (fuel : Nat) : Fixed T (lookForFinishedChildren fuel) := by
  induction fuel with
  | zero => exact .stop
  | succ fuel ih =>
    refine .bind .call fun r => ?_
    cases r with
    | exited pid code => exact .bind (handleFinishedChild_fixed pid code) fun _ => ih
    | killed pid sig =>
      simp only
      split
      · exact .bind (handleFinishedChild_fixed pid sig) fun _ => ih
      · exact .emit
    | alive => exact .emit
    | other => exact ih
    | error => exact .emit

theorem spawnChild_fixed (i : Nat) : Fixed T (spawnChild i) := by
  refine .get fun w hw => ?_
  split
  · exact .fail
  · next child hc =>
    split
    · exact .emit
    · refine .bind .call fun r => ?_
      split
      · exact .emit
      · exact .bind .emit fun _ => .bind (.modify fun m hm =>
            attributesOf_setProc hm (show _ = some (attributes child) from attributesOf_get hw hc)) fun _ =>
          .bind .call fun b => .bind .emit fun _ => .bind .call fun b =>
          .bind .emit fun _ => .bind (.modify fun _ h => h) fun _ =>
          .bind (.modify fun _ h => h) fun _ => .modify fun _ h => h

theorem spawnRunnables_fixed (fuel : Nat) : Fixed T (spawnRunnables fuel) := by
  induction fuel with
  | zero => exact .pure
  | succ fuel ih =>
    refine .get fun w _ => ?_
    split
    · exact .pure
    · refine .bind (.modify fun _ h => h) fun _ => ?_
      split
      · exact .fail
      · exact .bind (.when (spawnChild_fixed _)) fun _ => ih

theorem spawnCronjobs_fixed (env : Env) (fuel : Nat) : Fixed T (spawnCronjobs env fuel) := by
  induction fuel with
  | zero => exact .stop
  | succ fuel ih =>
    refine .bind .call fun t => .bind .emit fun _ => ?_
    refine .get fun w _ => .bind .lift fun r => ?_
    split
    · exact (.modify fun _ h => h)
    · refine .bind (.modify fun _ h => h) fun _ => ?_
      split
      · exact .fail
      · refine .bind ?_ fun _ => ih
        cases w.mgr.deps.isRunnable _ with
        | true => exact spawnChild_fixed _
        | false => exact .emit

theorem spawnChildren_fixed (env : Env) : Fixed T (spawnChildren env) :=
  .get fun _ _ => .bind (spawnRunnables_fixed _) fun _ => .get fun _ _ => spawnCronjobs_fixed env _

theorem mainLoop_fixed (env : Env) (fuel : Nat) : Fixed T (mainLoop env fuel) := by
  induction fuel with
  | zero => exact .stop
  | succ fuel ih =>
    refine .get fun w _ => ?_
    split
    · exact .bind (spawnChildren_fixed env) fun _ => .bind (dispatchEpoll_fixed env) fun _ =>
        .get fun w _ => .bind (lookForFinishedChildren_fixed _) fun _ => ih
    · exact .pure

theorem shutdownLoop_fixed (env : Env) (fuel : Nat) : Fixed T (shutdownLoop env fuel) := by
  induction fuel with
  | zero => exact .stop
  | succ fuel ih =>
    refine .get fun w _ => ?_
    split
    · exact .bind (dispatchEpoll_fixed env) fun _ => .get fun w _ =>
        .bind (lookForFinishedChildren_fixed _) fun _ => ih
    · exact .pure

theorem start_fixed (env : Env) : Fixed T (start env) := by
  refine .get fun w _ => .bind .call fun ok => ?_
  split
  · exact .get fun w _ => .bind (mainLoop_fixed env _) fun _ => .get fun w _ =>
      .bind (shutdownLoop_fixed env _) fun _ => .get fun w _ => .bind .emit fun _ => .pure
  · exact .bind .emit fun _ => .pure

/-- At every moment of a run the programs have the attributes they had at the start. -/
theorem Machine.loop_fixed (x : Machine) (m : Manager) :
    attributesOf (x.loop m).world.mgr = attributesOf m :=
  start_fixed x.env (x.world m) rfl

end Cinit
