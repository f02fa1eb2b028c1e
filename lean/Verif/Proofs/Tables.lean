import Verif.Proofs.Service
import Verif.Model.Main
/-!
# The tables of the kernel and the history

Which descriptors are open and which are registered at epoll, at every point of a run.
-/

namespace Cinit

open M Manager Spec

/-- The tables of the kernel; descriptors `fds` were open at the beginning. -/
structure Core (d : Inlets) (fds : List Int) (w : World) : Prop where
  opened : ∀ fd, fd ∈ w.kernel.fds ↔ fd ∈ fds ∨ (stream w.log fd).isSome = true
  apart : ∀ fd ∈ fds, stream w.log fd = none
  epoll : ∀ fd, fd ∈ w.kernel.epoll ↔ listening d w.log fd
  told : Always (Told d fds) w.log

/-- The table of cinit, too; the streams in `ex` are still to be entered. -/
structure Agrees (d : Inlets) (fds : List Int) (ex : List Int) (w : World) : Prop
    extends Core d fds w where
  inlets : w.mgr.inlets = d
  dict : ∀ fd, fd ∈ ex ∨ fd ∈ w.mgr.fdDict ↔ (stream w.log fd).isSome = true

/-- `Q` holds afterwards; if the end is not reached, the tables of the kernel agree. -/
def After (d : Inlets) (fds : List Int) {α : Type} (Q : α → World → Prop) : Out α → Prop
  | .ok a w => Q a w
  | .panic _ w => Core d fds w
  | .stuck w => Core d fds w

/-- `P` holds before `x`, `Q` afterwards. -/
def Tab (d : Inlets) (fds : List Int) {α : Type} (P : World → Prop) (x : M α)
    (Q : α → World → Prop) : Prop :=
  ∀ w, P w → After d fds Q (x w)

variable {d : Inlets} {fds ex : List Int} {α β : Type}

/-- The tables agree before and afterwards. -/
def Kept (d : Inlets) (fds ex : List Int) (x : M α) : Prop :=
  Tab d fds (Agrees d fds ex) x (fun _ => Agrees d fds ex)

theorem Tab.bind {x : M α} {f : α → M β} {P : World → Prop} {Q : α → World → Prop}
    {R : β → World → Prop} (hx : Tab d fds P x Q) (hf : ∀ a, Tab d fds (Q a) (f a) R) :
    Tab d fds P (x >>= f) R := by
  intro w h
  have := hx w h
  show After d fds R (M.bind x f w)
  unfold M.bind
  cases hw : x w with
  | ok a w' =>
    rw [hw] at this
    exact hf a w' this
  | panic p w' => rw [hw] at this; exact this
  | stuck w' => rw [hw] at this; exact this

/-- Events that do not touch the tables. -/
def Aside : Event → Prop
  | .spawned _ _ _ _ => False
  | .watched _ _ => False
  | .hangup _ => False
  | .polled _ => False
  | _ => True

theorem Aside.stream {e : Event} (h : Aside e) (l : Log) (fd : Int) :
    stream (e :: l) fd = stream l fd := by
  cases e <;> first
    | rfl
    | exact h.elim

theorem Aside.told {e : Event} (h : Aside e) (l : Log) : Told d fds e l := by
  cases e <;> first
    | trivial
    | exact h.elim

theorem Aside.listening {e : Event} (h : Aside e) (l : Log) (fd : Int) :
    listening d (e :: l) fd ↔ listening d l fd := by
  cases e <;> first
    | exact Iff.rfl
    | exact h.elim

namespace Kept

theorem pure {a : α} : Kept d fds ex (M.pure a) := fun _ h => h

theorem bind {x : M α} {f : α → M β} (hx : Kept d fds ex x) (hf : ∀ a, Kept d fds ex (f a)) :
    Kept d fds ex (x >>= f) := Tab.bind hx hf

theorem emit {e : Event} (h : Aside e) : Kept d fds ex (M.emit e) := by
  rintro w ⟨⟨h2, h4, h5, h6⟩, h1, h3⟩
  refine ⟨⟨fun fd => ?_, fun fd hf => ?_, fun fd => ?_, h.told w.log, h6⟩, h1, fun fd => ?_⟩
  · rw [show (stream (e :: w.log) fd) = _ from h.stream _ fd]; exact h2 fd
  · rw [show (stream (e :: w.log) fd) = _ from h.stream _ fd]; exact h4 fd hf
  · exact (h5 fd).trans (h.listening w.log fd).symm
  · rw [show (stream (e :: w.log) fd) = _ from h.stream _ fd]; exact h3 fd

theorem fail {p : Panic} : Kept d fds ex (M.fail p : M α) := fun _ h => h.toCore

theorem stop : Kept d fds ex (M.stop : M α) := fun _ h => h.toCore

theorem lift {r : Res Empty α} : Kept d fds ex (M.lift r) := by
  cases r with
  | ok a => exact pure
  | err e => exact nomatch e
  | panic p => exact fail

theorem get {f : World → M β} (hf : ∀ w, w.mgr.inlets = d → Kept d fds ex (f w)) :
    Kept d fds ex (M.get >>= f) := fun w h => hf w h.inlets w h

theorem modify {f : Manager → Manager}
    (h : ∀ m, (f m).inlets = m.inlets ∧ (f m).fdDict = m.fdDict) : Kept d fds ex (modifyMgr f) := by
  rintro w ⟨h0, h1, h3⟩
  refine ⟨⟨h0.opened, h0.apart, h0.epoll, h0.told⟩, (h w.mgr).1.trans h1, fun fd => ?_⟩
  show _ ∨ fd ∈ (f w.mgr).fdDict ↔ _
  rw [(h w.mgr).2]
  exact h3 fd

theorem when {c : Prop} [Decidable c] {x : M Unit} (h : Kept d fds ex x) :
    Kept d fds ex (M.when c x) := by
  unfold M.when
  split
  · exact h
  · exact pure

theorem forEach {f : α → M Unit} {l : List α} (h : ∀ a, Kept d fds ex (f a)) :
    Kept d fds ex (M.forEach f l) := by
  induction l with
  | nil => exact pure
  | cons a l ih => exact bind (h a) fun _ => ih

theorem call {f : Kernel → Answer → Option (α × Kernel)}
    (h : ∀ k a r k', f k a = some (r, k') → k'.fds = k.fds ∧ k'.epoll = k.epoll) :
    Kept d fds ex (Sys.call f) := by
  intro w hw
  unfold Sys.call
  cases w.answers with
  | nil => exact hw.toCore
  | cons a rest =>
    simp only
    cases hf : f w.kernel a with
    | none => exact hw.toCore
    | some rk =>
      obtain ⟨r, k⟩ := rk
      obtain ⟨e1, e2⟩ := h _ _ _ _ hf
      refine ⟨⟨fun fd => ?_, hw.apart, fun fd => ?_, hw.told⟩, hw.inlets, hw.dict⟩
      · show fd ∈ k.fds ↔ _
        rw [e1]; exact hw.opened fd
      · show fd ∈ k.epoll ↔ _
        rw [e2]; exact hw.epoll fd

end Kept

theorem now_kept : Kept d fds [] Sys.now := by
  refine .call fun k a r k' h => ?_
  cases a <;> simp at h
  obtain ⟨-, -, rfl⟩ := h
  exact ⟨rfl, rfl⟩

/-- Waiting, and noting what the kernel reports. -/
theorem epollWait_kept {f : List Ready → M Unit} {g : M Unit} (hf : ∀ evs, Kept d fds [] (f evs))
    (hg : Kept d fds [] g) :
    Kept d fds [] (Sys.epollWait >>= fun r => match r with
      | none => g
      | some evs => emit (.polled evs) >>= fun _ => f evs) := by
  intro w hw
  show After d fds _ (M.bind Sys.epollWait _ w)
  unfold M.bind Sys.epollWait Sys.call
  cases w.answers with
  | nil => exact hw.toCore
  | cons a rest =>
    cases a with
    | epoll r =>
      cases r with
      | none => exact hg _ ⟨⟨hw.opened, hw.apart, hw.epoll, hw.told⟩, hw.inlets, hw.dict⟩
      | some l =>
        simp only
        by_cases hl : l.length ≤ 10 ∧ (l.map (·.fd)).Nodup ∧ ∀ r ∈ l, r.fd ∈ w.kernel.epoll
        · rw [if_pos hl]
          exact hf l _ ⟨⟨hw.opened, hw.apart, hw.epoll,
            ⟨hl.1, hl.2.1, fun r hr => (hw.epoll r.fd).mp (hl.2.2 r hr)⟩, hw.told⟩,
            hw.inlets, hw.dict⟩
        · rw [if_neg hl]
          exact hw.toCore
    | _ => exact hw.toCore

theorem wait_kept : Kept d fds [] Sys.wait := by
  refine .call fun k a r k' h => ?_
  split at h <;> try cases h
  split at h
  · split at h <;> cases h
    exact ⟨rfl, rfl⟩
  · split at h <;> cases h
    exact ⟨rfl, rfl⟩
  · cases h; exact ⟨rfl, rfl⟩

theorem signal_kept : Kept d fds [] Sys.signal := by
  refine .call fun k a r k' h => ?_
  split at h <;> try cases h
  · exact ⟨rfl, rfl⟩
  · split at h <;> cases h
    exact ⟨rfl, rfl⟩

theorem recv_kept : Kept d fds [] Sys.recv := by
  refine .call fun k a r k' h => ?_
  split at h <;> try cases h
  · exact ⟨rfl, rfl⟩
  · split at h <;> cases h
    exact ⟨rfl, rfl⟩

theorem read_kept : Kept d fds [] Sys.read := by
  refine .call fun k a r k' h => ?_
  split at h <;> try cases h
  · exact ⟨rfl, rfl⟩
  · split at h <;> cases h
    exact ⟨rfl, rfl⟩

theorem accept_kept : Kept d fds [] Sys.accept := by
  refine .call fun k a r k' h => ?_
  split at h <;> cases h
  exact ⟨rfl, rfl⟩

theorem kill_kept (pid : Int) : Kept d fds [] (Sys.kill pid) := by
  refine .call fun k a r k' h => ?_
  split at h <;> try cases h
  split at h <;> cases h
  exact ⟨rfl, rfl⟩

theorem initiateShutdown_kept (sig : Nat) : Kept d fds [] (initiateShutdown sig) := by
  refine .bind (.modify fun _ => ⟨rfl, rfl⟩) fun _ => .get fun w _ => .forEach fun p =>
    .bind (kill_kept _) fun b => ?_
  split
  · exact .emit trivial
  · exact .fail

theorem handleSignal_kept : Kept d fds [] handleSignal := by
  refine .bind signal_kept fun r => ?_
  cases r with
  | none => exact .emit trivial
  | some n =>
    refine .bind (.emit trivial) fun _ => ?_
    split
    · exact initiateShutdown_kept _
    · exact .when (initiateShutdown_kept _)

theorem reportStatus_kept (env : Env) : Kept d fds [] (reportStatus env) := by
  refine .bind accept_kept fun r => ?_
  cases r with
  | none => exact .emit trivial
  | some wrote =>
    refine .get fun w _ => .bind .lift fun text => ?_
    cases wrote with
    | true => exact .emit trivial
    | false => exact .emit trivial

theorem process_fdDict {ord : HashOrder} {m m' : Manager} {text : Str} {q : Int}
    (h : m.process ord text q = .ok m') : m'.fdDict = m.fdDict := by
  unfold Manager.process at h
  split at h
  · cases h; rfl
  · split at h
    · cases h
    · split at h
      · cases h; rfl
      · rename_i i _ _ p _ _
        have key : ∀ (vs : List (Str × Str)) (m0 m1 : Manager),
            Res.foldlM (fun m kv => m.handleNotification i p.pid kv.1 kv.2) m0 vs = .ok m1 →
            m1.fdDict = m0.fdDict := by
          intro vs
          induction vs with
          | nil => intro m0 m1 h; cases h; rfl
          | cons kv vs ih =>
            intro m0 m1 h
            unfold Res.foldlM at h
            obtain ⟨m2, h1, h2⟩ := Res.bind_eq_ok.mp h
            rw [ih m2 m1 h2]
            unfold Manager.handleNotification at h1
            split at h1
            · split at h1
              · cases h1; rfl
              · obtain ⟨d', -, h3⟩ := Res.bind_eq_ok.mp h1
                cases h3; rfl
            · split at h1
              · split at h1
                · cases h1; rfl
                · cases h1; rfl
              · cases h1; rfl
        exact (key _ _ _ h).trans rfl

theorem readNotification_kept (env : Env) : Kept d fds [] (readNotification env) := by
  refine .bind (.bind recv_kept fun r => ?_) fun r => ?_
  · cases r with
    | none => exact .bind (.emit trivial) fun _ => .pure
    | some bc =>
      obtain ⟨bytes, cred⟩ := bc
      refine .bind (.emit trivial) fun _ => ?_
      split
      · exact .fail
      · refine .bind .lift fun t => ?_
        cases cred with
        | none => exact .bind (.emit trivial) fun _ => .pure
        | some q => exact .bind (.emit trivial) fun _ => .pure
  · cases r with
    | none => exact .pure
    | some tq =>
      obtain ⟨text, q⟩ := tq
      intro w hw
      show After d fds _ (M.bind (M.lift (w.mgr.process (env.order w.log) text q))
        (fun m => modifyMgr fun _ => m) w)
      unfold M.bind
      cases hp : w.mgr.process (env.order w.log) text q with
      | ok m =>
        refine ⟨⟨hw.opened, hw.apart, hw.epoll, hw.told⟩, (process_inlets hp).trans hw.inlets,
          fun fd => ?_⟩
        show _ ∨ fd ∈ m.fdDict ↔ _
        rw [process_fdDict hp]
        exact hw.dict fd
      | err e => exact nomatch e
      | panic p => exact hw.toCore

theorem printChildOutput_kept (fd : Int) : Kept d fds [] (printChildOutput fd) := by
  refine .bind read_kept fun r => ?_
  cases r with
  | none => exact .emit trivial
  | some bytes =>
    exact .bind (.emit trivial) fun _ => .get fun w _ => .bind .lift fun child =>
      .forEach fun line => .when (.emit trivial)

/-- Closing an output stream that has ended. -/
theorem hangup_kept (g : Int) (w0 : World) :
    Tab d fds (fun w => Agrees d fds [] w ∧ w.mgr = w0.mgr)
      (do
        emit (.hangup g)
        Sys.epollDel g
        when (g ∈ w0.mgr.fdDict) (Sys.close g)
        modifyMgr (deregisterFd g)) (fun _ => Agrees d fds []) := by
  rintro w ⟨⟨⟨h2, h4, h5, h6⟩, h1, h3⟩, hm⟩
  have h3 : ∀ fd, fd ∈ w.mgr.fdDict ↔ (stream w.log fd).isSome = true := by
    intro fd
    rw [← h3 fd]
    simp
  have hs : ∀ fd, (stream (.hangup g :: w.log) fd).isSome = true ↔
      fd ≠ g ∧ (stream w.log fd).isSome = true := by
    intro fd
    simp only [stream]
    by_cases e : fd = g <;> simp [e]
  have hend : ∀ k : Kernel,
      (∀ fd, fd ∈ k.fds ↔ fd ∈ fds ∨ (fd ≠ g ∧ (stream w.log fd).isSome = true)) →
      k.epoll = w.kernel.epoll.filter (· ≠ g) →
      Agrees d fds [] { w with
        mgr := deregisterFd g w.mgr, kernel := k, log := .hangup g :: w.log } := by
    intro k hk hk'
    refine ⟨⟨fun fd => ?_, fun fd hf => ?_, fun fd => ?_, trivial, h6⟩, h1, fun fd => ?_⟩
    · exact (hk fd).trans (or_congr Iff.rfl (hs fd).symm)
    · show (if fd = g then none else stream w.log fd) = none
      split
      · rfl
      · exact h4 fd hf
    · show fd ∈ k.epoll ↔ fd ≠ g ∧ listening d w.log fd
      rw [hk', ← h5 fd]
      simp [and_comm]
    · rw [hs fd, ← h3 fd]
      simp [deregisterFd, and_comm]
  show After d fds _ (M.bind (M.when (g ∈ w0.mgr.fdDict) (Sys.close g))
    (fun _ => modifyMgr (deregisterFd g))
    { w with kernel := { w.kernel with epoll := w.kernel.epoll.filter (· ≠ g) },
             log := .hangup g :: w.log })
  unfold M.bind M.when
  by_cases hg : g ∈ w0.mgr.fdDict
  · rw [if_pos hg]
    rw [← hm, h3] at hg
    refine hend _ (fun fd => ?_) rfl
    simp only [List.mem_filter, decide_eq_true_eq, h2]
    by_cases e : fd = g
    · subst e
      simp only [ne_eq, not_true_eq_false, and_false, false_and, or_false, false_iff]
      intro hf
      rw [h4 _ hf] at hg
      cases hg
    · simp [e]
  · rw [if_neg hg]
    rw [← hm, h3] at hg
    refine hend _ (fun fd => ?_) rfl
    show fd ∈ w.kernel.fds ↔ _
    rw [h2 fd]
    by_cases e : fd = g
    · subst e
      simp [hg]
    · simp [e]

theorem handleEvent_kept (env : Env) (ev : Ready) : Kept d fds [] (handleEvent env ev) := by
  refine .bind (.emit trivial) fun _ => ?_
  by_cases hi : ev.inp
  · refine .get fun w _ => ?_
    rw [if_pos hi]
    split
    · exact handleSignal_kept
    · split
      · exact reportStatus_kept env
      · split
        · exact readNotification_kept env
        · exact printChildOutput_kept _
  · by_cases hh : ev.hup
    · intro w hw
      have := hangup_kept ev.fd w w ⟨hw, rfl⟩
      show After d fds _ ((if ev.inp then _ else if ev.hup then _ else _ : M Unit) w)
      rw [if_neg hi, if_pos hh]
      exact this
    · refine .get fun w _ => ?_
      rw [if_neg hi, if_neg hh]
      exact .pure

theorem dispatchEpoll_kept (env : Env) : Kept d fds [] (dispatchEpoll env) := by
  refine .bind (.emit trivial) fun _ => ?_
  refine cast ?_ (epollWait_kept (d := d) (fds := fds) (f := M.forEach (handleEvent env))
    (g := emit .unpolled) (fun evs => .forEach (handleEvent_kept env)) (.emit trivial))
  congr

theorem handleFinishedChild_kept (pid rc : Int) : Kept d fds [] (handleFinishedChild pid rc) := by
  refine .get fun w _ => ?_
  split
  · exact .emit trivial
  · split
    · exact .fail
    · refine .bind (.emit trivial) fun _ => .bind (.modify fun _ => ⟨rfl, rfl⟩) fun _ =>
        .bind (.when ?_) fun _ => ?_
      · exact .bind (.modify fun _ => ⟨rfl, rfl⟩) fun _ => initiateShutdown_kept _
      · exact .bind (.modify fun _ => ⟨rfl, rfl⟩) fun _ => .when (.get fun w _ => .bind .lift
          fun _ => .modify fun _ => ⟨rfl, rfl⟩)

theorem lookForFinishedChildren_kept (fuel : Nat) :
    Kept d fds [] (lookForFinishedChildren fuel) := by
  induction fuel with
  | zero => exact .stop
  | succ fuel ih =>
    refine .bind wait_kept fun r => ?_
    cases r with
    | exited pid code => exact .bind (handleFinishedChild_kept pid code) fun _ => ih
    | killed pid sig =>
      simp only
      split
      · exact .bind (handleFinishedChild_kept pid sig) fun _ => ih
      · exact .emit trivial
    | alive => exact .emit trivial
    | other => exact ih
    | error => exact .emit trivial

/-- A descriptor is registered and that is noted. -/
theorem epollAdd_kept (fd : Int) {f : M Unit} {Q : Unit → World → Prop}
    (h : Tab d fds (Agrees d fds ex) f Q) :
    Tab d fds (Agrees d fds ex)
      (Sys.epollAdd fd >>= fun ok => emit (.watched fd ok) >>= fun _ => f) Q := by
  intro w hw
  show After d fds _ (M.bind (Sys.epollAdd fd) _ w)
  unfold M.bind Sys.epollAdd Sys.call
  cases w.answers with
  | nil => exact hw.toCore
  | cons a rest =>
    cases a with
    | epollAdd ok =>
      refine h _ ⟨⟨?_, hw.apart, fun g => ?_, trivial, hw.told⟩, hw.inlets, hw.dict⟩
      · cases ok <;> exact hw.opened
      · cases ok with
        | true =>
          show g ∈ fd :: w.kernel.epoll ↔ (g = fd ∧ true = true) ∨ listening d w.log g
          rw [← hw.epoll g]
          simp
        | false =>
          show g ∈ w.kernel.epoll ↔ (g = fd ∧ false = true) ∨ listening d w.log g
          rw [← hw.epoll g]
          simp
    | _ => exact hw.toCore

theorem spawnChild_kept (i : Nat) : Kept d fds [] (spawnChild i) := by
  refine .get fun w _ => ?_
  split
  · exact .fail
  · split
    · exact .emit trivial
    · rename_i child _ _
      intro w hw
      show After d fds _ (M.bind Sys.fork _ w)
      unfold M.bind Sys.fork Sys.call
      cases w.answers with
      | nil => exact hw.toCore
      | cons a rest =>
        cases a with
        | fork r =>
          cases r with
          | none =>
            exact Kept.emit (e := .spawnFailed i) trivial _
              ⟨⟨hw.opened, hw.apart, hw.epoll, hw.told⟩, hw.inlets, hw.dict⟩
          | some t =>
            obtain ⟨pid, out, err⟩ := t
            simp only
            by_cases hg : 0 < pid ∧ pid ∉ w.kernel.children ∧ out ∉ w.kernel.fds ∧
                err ∉ w.kernel.fds ∧ out ≠ err
            · rw [if_pos hg]
              obtain ⟨-, -, ho, he, hoe⟩ := hg
              have hs : ∀ fd, (stream (.spawned i pid out err :: w.log) fd).isSome = true ↔
                  fd = out ∨ fd = err ∨ (stream w.log fd).isSome = true := by
                intro fd
                simp only [stream]
                split
                · simp [*]
                · split <;> simp [*]
              have key : Tab d fds (Agrees d fds [out, err]) (do
                  modifyMgr (setProc i (child.started pid))
                  let ok ← Sys.epollAdd out
                  emit (.watched out ok)
                  let ok ← Sys.epollAdd err
                  emit (.watched err ok)
                  modifyMgr (registerPid i pid)
                  modifyMgr (registerStdout i out)
                  modifyMgr (registerStderr i err)) (fun _ => Agrees d fds []) := by
                refine .bind (Kept.modify fun _ => ⟨rfl, rfl⟩) fun _ =>
                  epollAdd_kept _ (epollAdd_kept _ ?_)
                rintro w ⟨h0, h1, h3⟩
                refine ⟨⟨h0.opened, h0.apart, h0.epoll, h0.told⟩, h1, fun fd => ?_⟩
                refine Iff.trans ?_ (h3 fd)
                show _ ∨ fd ∈ err :: out :: w.mgr.fdDict ↔ _
                simp only [List.mem_cons, List.not_mem_nil, or_false, false_or]
                tauto
              refine key _ ⟨⟨fun fd => ?_, fun fd hf => ?_, hw.epoll,
                ⟨fun hf => ho ((hw.opened out).mpr (.inl hf)),
                  fun hf => he ((hw.opened err).mpr (.inl hf))⟩, hw.told⟩, hw.inlets, fun fd => ?_⟩
              · refine Iff.trans ?_ (or_congr Iff.rfl (hs fd).symm)
                show fd ∈ out :: err :: w.kernel.fds ↔ _
                rw [List.mem_cons, List.mem_cons, hw.opened fd]
                tauto
              · show (if fd = out then _ else if fd = err then _ else stream w.log fd) = none
                rw [if_neg (by rintro rfl; exact ho ((hw.opened fd).mpr (.inl hf))),
                  if_neg (by rintro rfl; exact he ((hw.opened fd).mpr (.inl hf)))]
                exact hw.apart fd hf
              · refine Iff.trans ?_ (hs fd).symm
                rw [← hw.dict fd]
                simp only [List.mem_cons, List.not_mem_nil, or_false, false_or]
                tauto
            · rw [if_neg hg]
              exact hw.toCore
        | _ => exact hw.toCore

theorem spawnRunnables_kept (fuel : Nat) : Kept d fds [] (spawnRunnables fuel) := by
  induction fuel with
  | zero => exact .pure
  | succ fuel ih =>
    refine .get fun w _ => ?_
    split
    · exact .pure
    · refine .bind (.modify fun _ => ⟨rfl, rfl⟩) fun _ => ?_
      split
      · exact .fail
      · exact .bind (.when (spawnChild_kept _)) fun _ => ih

theorem spawnCronjobs_kept (env : Env) (fuel : Nat) :
    Kept d fds [] (spawnCronjobs env fuel) := by
  induction fuel with
  | zero => exact .stop
  | succ fuel ih =>
    refine .bind now_kept fun t => .bind (.emit trivial) fun _ => ?_
    refine .get fun w _ => .bind .lift fun r => ?_
    split
    · exact .modify fun _ => ⟨rfl, rfl⟩
    · refine .bind (.modify fun _ => ⟨rfl, rfl⟩) fun _ => ?_
      split
      · exact .fail
      · refine .bind ?_ fun _ => ih
        cases w.mgr.deps.isRunnable _ with
        | true => exact spawnChild_kept _
        | false => exact .emit trivial

theorem spawnChildren_kept (env : Env) : Kept d fds [] (spawnChildren env) :=
  .get fun _ _ => .bind (spawnRunnables_kept _) fun _ => .get fun _ _ => spawnCronjobs_kept env _

theorem mainLoop_kept (env : Env) (fuel : Nat) : Kept d fds [] (mainLoop env fuel) := by
  induction fuel with
  | zero => exact .stop
  | succ fuel ih =>
    refine .get fun w _ => ?_
    split
    · exact .bind (spawnChildren_kept env) fun _ => .bind (dispatchEpoll_kept env) fun _ =>
        .get fun w _ => .bind (lookForFinishedChildren_kept _) fun _ => ih
    · exact .pure

theorem shutdownLoop_kept (env : Env) (fuel : Nat) : Kept d fds [] (shutdownLoop env fuel) := by
  induction fuel with
  | zero => exact .stop
  | succ fuel ih =>
    refine .get fun w _ => ?_
    split
    · exact .bind (dispatchEpoll_kept env) fun _ => .get fun w _ =>
        .bind (lookForFinishedChildren_kept _) fun _ => ih
    · exact .pure

/-- After the set-up has succeeded. -/
theorem loops_kept (env : Env) : Kept d fds [] (do
    let w ← get
    mainLoop env (w.answers.length + 1)
    let w ← get
    shutdownLoop env (w.answers.length + 1)
    let w ← get
    emit (.exit w.mgr.exitCode)
    M.pure w.mgr.exitCode) :=
  .get fun _ _ => .bind (mainLoop_kept env _) fun _ => .get fun _ _ =>
    .bind (shutdownLoop_kept env _) fun _ => .get fun _ _ => .bind (.emit trivial) fun _ => .pure

/-- The descriptors open when the event loop starts. -/
def Machine.opened (x : Machine) (m : Manager) : List Int :=
  m.signalFd :: m.statusFd :: m.notifyFd :: x.openFds

theorem Machine.loop_tables {x : Machine} {m : Manager} (hm : m.fdDict = []) :
    (Core m.inlets (x.opened m) (x.loop m).world) ∨
    ((∀ rest, x.answers ≠ .setup true :: rest) ∧ (x.loop m).world.kernel = (x.world m).kernel ∧
      (∀ fd, stream (x.loop m).log fd = none) ∧
      Always (Told m.inlets (x.opened m)) (x.loop m).log) := by
  have hdict : ∀ fd, fd ∈ ([] : List Int) ∨ fd ∈ m.fdDict ↔
      (stream ([] : Log) fd).isSome = true := by
    intro fd
    rw [hm]
    simp [stream]
  unfold Machine.loop
  have hw : (x.world m).answers = x.answers := rfl
  cases ha : x.answers with
  | nil =>
    have : start x.env (x.world m) = .stuck (x.world m) := by
      show M.bind _ _ _ = _
      unfold M.bind Sys.setup Sys.call
      rw [hw, ha]
    rw [this]
    exact .inr ⟨fun _ h => (by cases h), rfl, fun _ => rfl, trivial⟩
  | cons a rest =>
    have other : (∀ b, a ≠ .setup b) → start x.env (x.world m) = .stuck (x.world m) := by
      intro hb
      show M.bind _ _ _ = _
      unfold M.bind Sys.setup Sys.call
      rw [hw, ha]
      cases a with
      | setup b => exact absurd rfl (hb b)
      | _ => rfl
    by_cases hb : ∀ b, a ≠ .setup b
    · rw [other hb]
      exact .inr ⟨fun _ h => (by cases h; exact hb _ rfl), rfl, fun _ => rfl, trivial⟩
    · have : ∃ b, a = .setup b := by
        cases a with
        | setup b => exact ⟨b, rfl⟩
        | _ => exact absurd (fun b h => (by cases h)) hb
      obtain ⟨b, rfl⟩ := this
      cases b with
      | false =>
        have : start x.env (x.world m) = .ok 3 { x.world m with
            answers := rest, log := [.exit 3] } := by
          show M.bind _ _ _ = _
          unfold M.bind Sys.setup Sys.call
          rw [hw, ha]
          rfl
        rw [this]
        exact .inr ⟨fun _ h => (by cases h), rfl, fun _ => rfl, trivial, trivial⟩
      | true =>
        left
        have key := loops_kept (d := m.inlets) (fds := x.opened m) x.env { x.world m with
            answers := rest
            kernel := { (x.world m).kernel with epoll := [m.signalFd, m.statusFd, m.notifyFd] } }
          ⟨⟨fun fd => by simp [stream, Machine.world, Machine.opened], fun fd _ => rfl,
            fun fd => by simp [listening, Manager.inlets, Machine.world], trivial⟩, rfl, hdict⟩
        have : start x.env (x.world m) = (do
            let w ← get
            mainLoop x.env (w.answers.length + 1)
            let w ← get
            shutdownLoop x.env (w.answers.length + 1)
            let w ← get
            emit (.exit w.mgr.exitCode)
            M.pure w.mgr.exitCode) { x.world m with
            answers := rest
            kernel := { (x.world m).kernel with epoll := [m.signalFd, m.statusFd, m.notifyFd] } } := by
          show M.bind _ _ _ = _
          unfold M.bind Sys.setup Sys.call
          rw [hw, ha]
          rfl
        rw [this]
        generalize (do
            let w ← get
            mainLoop x.env (w.answers.length + 1)
            let w ← get
            shutdownLoop x.env (w.answers.length + 1)
            let w ← get
            emit (.exit w.mgr.exitCode)
            M.pure w.mgr.exitCode : M Int) { x.world m with
            answers := rest
            kernel := { (x.world m).kernel with epoll := [m.signalFd, m.statusFd, m.notifyFd] } }
          = o at key ⊢
        cases o with
        | ok a w => exact Agrees.toCore key
        | panic p w => exact key
        | stuck w => exact key

end Cinit
