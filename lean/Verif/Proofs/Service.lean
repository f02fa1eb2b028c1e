import Verif.Spec.Service
import Verif.Proofs.Main
/-!
# Every report of the kernel is served

A pass over the event loop that only looks at the kinds of events.
-/

namespace Cinit

open M Manager Spec

variable {d : Inlets} {α β : Type}

/-- The descriptors a manager listens to. -/
def Manager.inlets (m : Manager) : Inlets := ⟨m.signalFd, m.statusFd, m.notifyFd⟩

/-- If `P` holds of the history before, `Q` holds of the history afterwards; each event serves
a report. -/
def Serv (d : Inlets) (P : Log → Prop) (x : M α) (Q : α → Log → Prop) : Prop :=
  ∀ w : World, w.mgr.inlets = d → Always (Serves d) w.log → P w.log →
    match x w with
    | .ok a w' => w'.mgr.inlets = d ∧ Always (Serves d) w'.log ∧ Q a w'.log
    | .panic _ w' => Always (Serves d) w'.log
    | .stuck w' => Always (Serves d) w'.log

namespace Serv

variable {P P' R : Log → Prop} {Q Q' : α → Log → Prop}

theorem pure {a : α} (h : ∀ l, P l → Q a l) : Serv d P (M.pure a) Q :=
  fun w h1 h2 h3 => ⟨h1, h2, h w.log h3⟩

theorem pure' {a : α} : Serv d P (M.pure a) (fun _ => P) := pure fun _ h => h

theorem bind {x : M α} {f : α → M β} {S : β → Log → Prop} (hx : Serv d P x Q)
    (hf : ∀ a, Serv d (Q a) (f a) S) : Serv d P (x >>= f) S := by
  intro w h1 h2 h3
  have := hx w h1 h2 h3
  show match (M.bind x f) w with
    | .ok a w' => _
    | .panic _ w' => _
    | .stuck w' => _
  unfold M.bind
  cases hw : x w with
  | ok a w' =>
    rw [hw] at this
    exact hf a w' this.1 this.2.1 this.2.2
  | panic p w' => rw [hw] at this; exact this
  | stuck w' => rw [hw] at this; exact this

theorem weaken {x : M α} (hx : Serv d P x Q) (hp : ∀ l, P' l → P l)
    (hq : ∀ a l, Q a l → Q' a l) : Serv d P' x Q' := by
  intro w h1 h2 h3
  have := hx w h1 h2 (hp _ h3)
  cases hw : x w with
  | ok a w' => rw [hw] at this; exact ⟨this.1, this.2.1, hq _ _ this.2.2⟩
  | panic p w' => rw [hw] at this; exact this
  | stuck w' => rw [hw] at this; exact this

theorem emit {e : Event} (h : ∀ l, P l → Serves d e l ∧ R (e :: l)) :
    Serv d P (M.emit e) (fun _ => R) :=
  fun w h1 h2 h3 => ⟨h1, ⟨(h w.log h3).1, h2⟩, (h w.log h3).2⟩

theorem fail {p : Panic} : Serv d P (M.fail p : M α) Q := fun _ _ h2 _ => h2

theorem stop : Serv d P (M.stop : M α) Q := fun _ _ h2 _ => h2

theorem lift {r : Res Empty α} : Serv d P (M.lift r) (fun _ => P) := by
  cases r with
  | ok a => exact pure'
  | err e => exact nomatch e
  | panic p => exact fail

/-- Reading the state. -/
theorem get {f : World → M β} {S : β → Log → Prop}
    (hf : ∀ w, w.mgr.inlets = d → Serv d P (f w) S) : Serv d P (M.get >>= f) S :=
  fun w h1 h2 h3 => hf w h1 w h1 h2 h3

theorem modify {f : Manager → Manager} (h : ∀ m, (f m).inlets = m.inlets) :
    Serv d P (modifyMgr f) (fun _ => P) :=
  fun w h1 h2 h3 => ⟨(h w.mgr).trans h1, h2, h3⟩

theorem when {c : Prop} [Decidable c] {x : M Unit} (h : c → Serv d P x (fun _ => P)) :
    Serv d P (M.when c x) (fun _ => P) := by
  unfold M.when
  split
  · rename_i hc; exact h hc
  · exact pure'

theorem forEach {f : α → M Unit} {l : List α} (h : ∀ a, Serv d P (f a) (fun _ => P)) :
    Serv d P (M.forEach f l) (fun _ => P) := by
  induction l with
  | nil => exact pure'
  | cons a l ih => exact bind (h a) fun _ => ih

theorem call {f : Kernel → Answer → Option (α × Kernel)} :
    Serv d P (Sys.call f) (fun _ => P) := by
  intro w h1 h2 h3
  unfold Sys.call
  cases w.answers with
  | nil => exact h2
  | cons a rest =>
    simp only
    cases f w.kernel a with
    | none => exact h2
    | some rk => exact ⟨h1, h2, h3⟩

end Serv

/-! ## The phases of a round -/

/-- cinit has turned to the report `ev`, `rest` being left. -/
def At (ev : Ready) (rest : List Ready) (l : Log) : Prop :=
  (∃ l', l = .ready ev :: l') ∧ pending l = rest ∧ ¬ Swept l

/-- cinit has finished with a report, `rest` being left. -/
def Between (rest : List Ready) (l : Log) : Prop :=
  hand l = none ∧ pending l = rest ∧ ¬ Swept l

/-- The round is over. -/
def Over (l : Log) : Prop := hand l = none ∧ pending l = [] ∧ Swept l

theorem At.hand {ev : Ready} {rest : List Ready} {l : Log} (h : At ev rest l)
    (he : ev.inp = true ∨ ev.hup = true) : Spec.hand l = some ev := by
  obtain ⟨⟨l', rfl⟩, -⟩ := h
  simp [Spec.hand, he]

theorem initiateShutdown_serv (rest : List Ready) (sig : Nat) :
    Serv d (Between rest) (initiateShutdown sig) (fun _ => Between rest) := by
  refine .bind (.modify fun _ => rfl) fun _ => .get fun w _ => .forEach fun p => ?_
  refine .bind .call fun b => ?_
  split
  · exact .emit fun l h => ⟨h.1, rfl, h.2⟩
  · exact .fail

theorem handleSignal_serv {ev : Ready} {rest : List Ready} (hi : ev.inp = true)
    (hf : ev.fd = d.signalFd) : Serv d (At ev rest) handleSignal (fun _ => Between rest) := by
  refine .bind .call fun r => ?_
  cases r with
  | none => exact .emit fun l h => ⟨⟨ev, h.hand (.inl hi), hi⟩, rfl, h.2⟩
  | some n =>
    refine .bind (.emit (R := Between rest) fun l h => ⟨⟨ev, h.hand (.inl hi), hi, hf⟩, rfl, h.2⟩)
      fun _ => ?_
    split
    · exact initiateShutdown_serv rest n
    · exact .when fun _ => initiateShutdown_serv rest _

theorem reportStatus_serv {env : Env} {ev : Ready} {rest : List Ready} (hi : ev.inp = true)
    (hf : ev.fd = d.statusFd) (hs : ev.fd ≠ d.signalFd) :
    Serv d (At ev rest) (reportStatus env) (fun _ => Between rest) := by
  refine .bind .call fun r => ?_
  cases r with
  | none => exact .emit fun l h => ⟨⟨ev, h.hand (.inl hi), hi⟩, rfl, h.2⟩
  | some wrote =>
    refine .get fun w _ => .bind .lift fun text => ?_
    cases wrote with
    | true => exact .emit fun l h => ⟨⟨ev, h.hand (.inl hi), hi, hf, hs⟩, rfl, h.2⟩
    | false => exact .emit fun l h => ⟨⟨ev, h.hand (.inl hi), hi⟩, rfl, h.2⟩

theorem process_inlets {ord : HashOrder} {m m' : Manager} {text : Str} {q : Int}
    (h : m.process ord text q = .ok m') : m'.inlets = m.inlets := by
  unfold Manager.process at h
  split at h
  · cases h; rfl
  · split at h
    · cases h
    · split at h
      · cases h; rfl
      · rename_i i _ _ p _ _
        have key : ∀ (vs : List (Str × Str)) (m0 m1 : Manager),
            Res.foldlM (fun m kv => m.handleNotification i p.pid kv.1 kv.2) m0 vs = .ok m1 →
            m1.inlets = m0.inlets := by
          intro vs
          induction vs with
          | nil => intro m0 m1 h; cases h; rfl
          | cons kv vs ih =>
            intro m0 m1 h
            unfold Res.foldlM at h
            obtain ⟨m2, h1, h2⟩ := Res.bind_eq_ok.mp h
            rw [ih m2 m1 h2]
            unfold Manager.handleNotification at h1
            split at h1
            · split at h1
              · cases h1; rfl
              · obtain ⟨d', -, h3⟩ := Res.bind_eq_ok.mp h1
                cases h3; rfl
            · split at h1
              · split at h1
                · cases h1; rfl
                · cases h1; rfl
              · cases h1; rfl
        exact (key _ _ _ h).trans rfl

theorem readNotification_serv {env : Env} {ev : Ready} {rest : List Ready} (hi : ev.inp = true)
    (hf : ev.fd = d.notifyFd) (hs : ev.fd ≠ d.signalFd ∧ ev.fd ≠ d.statusFd) :
    Serv d (At ev rest) (readNotification env) (fun _ => Between rest) := by
  refine .bind (Q := fun _ => Between rest) (.bind .call fun r => ?_) fun r => ?_
  · cases r with
    | none =>
      exact .bind (.emit (R := Between rest) fun l h => ⟨⟨ev, h.hand (.inl hi), hi⟩, rfl, h.2⟩)
        fun _ => .pure'
    | some bc =>
      obtain ⟨bytes, cred⟩ := bc
      refine .bind (.emit (R := fun l => (∃ bytes l', l = .received bytes :: l') ∧ Between rest l)
        fun l h => ⟨⟨ev, h.hand (.inl hi), hi, hf, hs⟩, ⟨bytes, l, rfl⟩, rfl, h.2⟩) fun _ => ?_
      split
      · exact .fail
      · refine .bind .lift fun t => ?_
        cases cred with
        | none =>
          exact .bind (.emit (R := Between rest) fun l h => ⟨h.1, rfl, h.2.2⟩) fun _ => .pure'
        | some q =>
          exact .bind (.emit (R := Between rest) fun l h => ⟨h.2.1, rfl, h.2.2⟩) fun _ => .pure'
  · cases r with
    | none => exact .pure'
    | some tq =>
      obtain ⟨text, q⟩ := tq
      refine .get fun w hw => ?_
      cases hp : w.mgr.process (env.order w.log) text q with
      | ok m => exact fun w' h1 h2 h3 => ⟨(process_inlets hp).trans hw, h2, h3⟩
      | err e => exact nomatch e
      | panic p => exact fun w' h1 h2 h3 => h2

theorem printChildOutput_serv {ev : Ready} {rest : List Ready} (hi : ev.inp = true)
    (h1 : ev.fd ≠ d.signalFd) (h2 : ev.fd ≠ d.statusFd) (h3 : ev.fd ≠ d.notifyFd) :
    Serv d (At ev rest) (printChildOutput ev.fd) (fun _ => Between rest) := by
  refine .bind .call fun r => ?_
  cases r with
  | none => exact .emit fun l h => ⟨⟨ev, h.hand (.inl hi), hi⟩, rfl, h.2⟩
  | some bytes =>
    refine .bind (.emit (R := Between rest)
      fun l h => ⟨⟨ev, h.hand (.inl hi), hi, rfl, h1, h2, h3⟩, rfl, h.2⟩) fun _ => ?_
    refine .get fun w _ => .bind .lift fun child => .forEach fun line => .when fun _ => ?_
    exact .emit fun l h => ⟨h.1, rfl, h.2⟩

theorem handleEvent_serv (env : Env) (ev : Ready) (rest : List Ready) :
    Serv d (Between (ev :: rest)) (handleEvent env ev) (fun _ => Between rest) := by
  refine .bind (.emit (R := At ev rest) ?_) fun _ => .get fun w hw => ?_
  · rintro l ⟨h1, h2, h3⟩
    refine ⟨⟨h1, by rw [h2]; rfl⟩, ⟨l, rfl⟩, ?_, h3⟩
    show (pending l).tail = rest
    rw [h2]; rfl
  · have e1 : w.mgr.signalFd = d.signalFd := by rw [← hw]; rfl
    have e2 : w.mgr.statusFd = d.statusFd := by rw [← hw]; rfl
    have e3 : w.mgr.notifyFd = d.notifyFd := by rw [← hw]; rfl
    rw [e1, e2, e3]
    split
    · rename_i hi
      split
      · rename_i h1; exact handleSignal_serv hi h1
      · split
        · rename_i h1 h2; exact reportStatus_serv hi h2 h1
        · split
          · rename_i h1 h2 h3; exact readNotification_serv hi h3 ⟨h1, h2⟩
          · rename_i h1 h2 h3; exact printChildOutput_serv hi h1 h2 h3
    · rename_i hi
      split
      · rename_i hh
        refine .bind (.emit (R := Between rest) ?_) fun _ => ?_
        · intro l h
          refine ⟨?_, rfl, h.2⟩
          show Spec.hand l = _
          rw [h.hand (.inr hh)]
          obtain ⟨fd, inp, hup⟩ := ev
          simp only [Bool.not_eq_true] at hi hh ⊢
          rw [hi, hh]
        · have hdel : Serv d (Between rest) (Sys.epollDel ev.fd) (fun _ => Between rest) :=
            fun w h1 h2 h3 => ⟨h1, h2, h3⟩
          have hclose : Serv d (Between rest) (Sys.close ev.fd) (fun _ => Between rest) :=
            fun w h1 h2 h3 => ⟨h1, h2, h3⟩
          exact .bind hdel fun _ => .bind (.when fun _ => hclose) fun _ => .modify fun _ => rfl
      · rename_i hh
        refine .pure ?_
        rintro l ⟨⟨l', rfl⟩, h⟩
        refine ⟨?_, h⟩
        simp only [Bool.not_eq_true] at hi hh
        simp [Spec.hand, hi, hh]

theorem handleEvents_serv (env : Env) (evs : List Ready) :
    Serv d (Between evs) (forEach (handleEvent env) evs) (fun _ => Between []) := by
  induction evs with
  | nil => exact .pure'
  | cons ev evs ih => exact .bind (handleEvent_serv env ev evs) fun _ => ih

theorem dispatchEpoll_serv (env : Env) :
    Serv d Over (dispatchEpoll env) (fun _ => Between []) := by
  refine .bind (.emit (R := fun l => (∃ l', l = .polling :: l') ∧ Between [] l) ?_) fun _ => ?_
  · rintro l h
    exact ⟨h, ⟨l, rfl⟩, rfl, h.2.1, fun h => h⟩
  · refine .bind .call fun r => ?_
    cases r with
    | none => exact .emit fun l h => ⟨h.1, rfl, h.2.2⟩
    | some evs =>
      refine .bind (.emit (R := Between evs) ?_) fun _ => handleEvents_serv env evs
      rintro l ⟨⟨l', rfl⟩, h⟩
      exact ⟨⟨l', rfl⟩, rfl, rfl, h.2.2⟩

theorem handleFinishedChild_serv (pid rc : Int) :
    Serv d (Between []) (handleFinishedChild pid rc) (fun _ => Between []) := by
  refine .get fun w _ => ?_
  split
  · exact .emit fun l h => ⟨h, rfl, h.2⟩
  · split
    · exact .fail
    · refine .bind (.emit (R := Between []) fun l h => ⟨h, rfl, h.2⟩) fun _ => ?_
      refine .bind (.modify fun _ => rfl) fun _ => .bind (.when fun _ => ?_) fun _ => ?_
      · exact .bind (.modify fun _ => rfl) fun _ => initiateShutdown_serv [] _
      · refine .bind (.modify fun _ => rfl) fun _ => .when fun _ => .get fun w _ => ?_
        exact .bind .lift fun _ => .modify fun _ => rfl

theorem lookForFinishedChildren_serv (fuel : Nat) :
    Serv d (Between []) (lookForFinishedChildren fuel) (fun _ => Over) := by
  induction fuel with
  | zero => exact .stop
  | succ fuel ih =>
    refine .bind .call fun r => ?_
    cases r with
    | exited pid code => exact .bind (handleFinishedChild_serv pid code) fun _ => ih
    | killed pid sig =>
      simp only
      split
      · exact .bind (handleFinishedChild_serv pid sig) fun _ => ih
      · exact .emit fun l h => ⟨h, rfl, h.2.1, trivial⟩
    | alive => exact .emit fun l h => ⟨h, rfl, h.2.1, trivial⟩
    | other => exact ih
    | error => exact .emit fun l h => ⟨h, rfl, h.2.1, trivial⟩

theorem spawnChild_serv (i : Nat) : Serv d Over (spawnChild i) (fun _ => Over) := by
  refine .get fun w _ => ?_
  split
  · exact .fail
  · split
    · exact .emit fun l h => ⟨h, rfl, h.2⟩
    · refine .bind .call fun r => ?_
      split
      · exact .emit fun l h => ⟨h, rfl, h.2⟩
      · refine .bind (.emit (R := Over) fun l h => ⟨h, rfl, h.2⟩) fun _ => ?_
        refine .bind (.modify fun _ => rfl) fun _ => .bind .call fun _ =>
          .bind (.emit (R := Over) fun l h => ⟨h, rfl, h.2⟩) fun _ => .bind .call fun _ =>
          .bind (.emit (R := Over) fun l h => ⟨h, rfl, h.2⟩) fun _ => ?_
        exact .bind (.modify fun _ => rfl) fun _ => .bind (.modify fun _ => rfl) fun _ =>
          .modify fun _ => rfl

theorem spawnRunnables_serv (fuel : Nat) :
    Serv d Over (spawnRunnables fuel) (fun _ => Over) := by
  induction fuel with
  | zero => exact .pure'
  | succ fuel ih =>
    refine .get fun w _ => ?_
    split
    · exact .pure'
    · refine .bind (.modify fun _ => rfl) fun _ => ?_
      split
      · exact .fail
      · exact .bind (.when fun _ => spawnChild_serv _) fun _ => ih

theorem spawnCronjobs_serv (env : Env) (fuel : Nat) :
    Serv d Over (spawnCronjobs env fuel) (fun _ => Over) := by
  induction fuel with
  | zero => exact .stop
  | succ fuel ih =>
    refine .bind .call fun t => .bind (.emit (R := Over) fun l h => ⟨h, rfl, h.2⟩) fun _ => ?_
    refine .get fun w _ => .bind .lift fun r => ?_
    split
    · exact .modify fun _ => rfl
    · refine .bind (.modify fun _ => rfl) fun _ => ?_
      split
      · exact .fail
      · refine .bind (Q := fun _ => Over) ?_ fun _ => ih
        cases w.mgr.deps.isRunnable _ with
        | true => exact spawnChild_serv _
        | false => exact .emit fun l h => ⟨h, rfl, h.2⟩

theorem spawnChildren_serv (env : Env) : Serv d Over (spawnChildren env) (fun _ => Over) :=
  .get fun _ _ => .bind (spawnRunnables_serv _) fun _ => .get fun _ _ => spawnCronjobs_serv env _

theorem mainLoop_serv (env : Env) (fuel : Nat) :
    Serv d Over (mainLoop env fuel) (fun _ => Over) := by
  induction fuel with
  | zero => exact .stop
  | succ fuel ih =>
    refine .get fun w _ => ?_
    split
    · exact .bind (spawnChildren_serv env) fun _ => .bind (dispatchEpoll_serv env) fun _ =>
        .get fun w _ => .bind (lookForFinishedChildren_serv _) fun _ => ih
    · exact .pure'

theorem shutdownLoop_serv (env : Env) (fuel : Nat) :
    Serv d Over (shutdownLoop env fuel) (fun _ => Over) := by
  induction fuel with
  | zero => exact .stop
  | succ fuel ih =>
    refine .get fun w _ => ?_
    split
    · exact .bind (dispatchEpoll_serv env) fun _ => .get fun w _ =>
        .bind (lookForFinishedChildren_serv _) fun _ => ih
    · exact .pure'

theorem start_serv (env : Env) : Serv d (· = []) (start env) (fun _ _ => True) := by
  refine .get fun w _ => .bind .call fun ok => ?_
  have h0 : ∀ l : Log, l = [] → Over l := by rintro l rfl; exact ⟨rfl, rfl, trivial⟩
  split
  · refine .get fun w _ => .bind ((mainLoop_serv env _).weaken h0 fun _ _ h => h) fun _ => ?_
    refine .get fun w _ => .bind (shutdownLoop_serv env _) fun _ => .get fun w _ => ?_
    exact .bind (.emit (R := fun _ => True) fun l h => ⟨h, trivial⟩) fun _ => .pure'
  · exact .bind (.emit (R := fun _ => True) fun l h => ⟨h0 l h, trivial⟩) fun _ => .pure'

theorem Machine.loop_serves (x : Machine) (m : Manager) :
    Always (Serves m.inlets) (x.loop m).log := by
  have := start_serv (d := m.inlets) x.env (x.world m) rfl trivial rfl
  unfold Machine.loop
  cases hs : start x.env (x.world m) with
  | ok a w => rw [hs] at this; exact this.2.1
  | panic p w => rw [hs] at this; exact this
  | stuck w => rw [hs] at this; exact this

end Cinit
