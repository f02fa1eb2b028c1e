import Verif.Spec.Account
import Verif.Proofs.AlarmRuns
/-!
# Each entry of the log has its reason
-/

namespace Cinit

open M Manager Logging Spec

variable {α β : Type} {T : Telling}

/-- What is fixed in the course of a run, and the schedule. -/
structure Steady (T : Telling) (w : World) : Prop where
  static : Static T.setting.programs w.mgr
  pty : ∀ (i : Nat) (p : Process), w.mgr.procs[i]? = some p →
    ∃ c : ProcessConfig, T.setting.programs[i]? = some c ∧ c.emulatePty = p.emulatePty
  inlets : w.mgr.inlets = T.inlets
  cron : CronOk T.setting w.mgr.cron w.log

theorem Steady.same {w w' : World} (h : Steady T w) (h1 : w'.mgr.procs = w.mgr.procs)
    (h2 : w'.mgr.inlets = w.mgr.inlets) (h3 : w'.mgr.cron = w.mgr.cron)
    (h4 : schedule T.setting.zone T.setting.cron w'.log = schedule T.setting.zone T.setting.cron w.log) :
    Steady T w' := by
  refine ⟨fun i p hp => h.static i p (h1 ▸ hp), fun i p hp => h.pty i p (h1 ▸ hp), h2.trans h.inlets, ?_⟩
  rw [h3]
  exact ⟨h.cron.inv, h4.trans h.cron.sched⟩

theorem Steady.config {w : World} (h : Steady T w) {i : Nat} {p : Process}
    (hp : w.mgr.procs[i]? = some p) : ∃ c, T.setting.programs[i]? = some c ∧ c.name = p.name ∧
      c.emulatePty = p.emulatePty ∧ (p.ptype = .cronjob ↔ isCronjob T.setting.programs i) := by
  obtain ⟨c, h1, h2, h3, -⟩ := h.static i p hp
  obtain ⟨c', h1', h2'⟩ := h.pty i p hp
  cases h1.symm.trans h1'
  exact ⟨c, h1, h2, h2', h3⟩

/-- Replacing an entry by one that describes the same program. -/
theorem Steady.set {w w' : World} (h : Steady T w) {i : Nat} {p p' : Process}
    (hp : w.mgr.procs[i]? = some p) (hn : p'.name = p.name) (ht : p'.ptype = p.ptype)
    (he : p'.emulatePty = p.emulatePty)
    (h1 : w'.mgr.procs = w.mgr.procs.set i p')
    (h2 : w'.mgr.inlets = w.mgr.inlets) (h3 : w'.mgr.cron = w.mgr.cron)
    (h4 : schedule T.setting.zone T.setting.cron w'.log = schedule T.setting.zone T.setting.cron w.log) :
    Steady T w' := by
  have key : ∀ (j : Nat) (q : Process), w'.mgr.procs[j]? = some q → ∃ q', w.mgr.procs[j]? = some q' ∧
      q.name = q'.name ∧ q.ptype = q'.ptype ∧ q.emulatePty = q'.emulatePty := by
    intro j q hq
    rw [h1, List.getElem?_set] at hq
    split at hq
    · rename_i hij
      subst hij
      split at hq
      · cases hq; exact ⟨p, hp, hn, ht, he⟩
      · cases hq
    · exact ⟨q, hq, rfl, rfl, rfl⟩
  refine ⟨fun j q hq => ?_, fun j q hq => ?_, h2.trans h.inlets, ?_⟩
  · obtain ⟨q', g1, g2, g3, -⟩ := key j q hq
    rw [g2, g3]
    exact h.static j q' g1
  · obtain ⟨q', g1, -, -, g4⟩ := key j q hq
    rw [g4]
    exact h.pty j q' g1
  · rw [h3]
    exact ⟨h.cron.inv, h4.trans h.cron.sched⟩

/-- The entries of a part of a run are those there is reason for. -/
structure Chronicled (T : Telling) (w : World) (r : Out α × List Entry) : Prop where
  account : ∃ es rest, r.2.filter uttered = es ++ rest ∧
    (∀ old, Account T w.log old → Account T r.1.log (old ++ es)) ∧
    (rest = [] ∨ r.1.isStuck ∧ Begun T rest)
  steady : ∀ a w', r.1 = .ok a w' → Steady T w'

/-- Wherever it begins. -/
def Chronicles (T : Telling) (n : N α) : Prop := ∀ w, Steady T w → Chronicled T w (n w)

theorem N.bind_ok {n : N α} {f : α → N β} {w w' : World} {a : α} {es : List Entry}
    (h : n w = (.ok a w', es)) : (n >>= f) w = ((f a w').1, es ++ (f a w').2) := by
  show N.bind n f w = _
  unfold N.bind
  rw [h]

theorem N.bind_stuck {n : N α} {f : α → N β} {w w' : World} {es : List Entry}
    (h : n w = (.stuck w', es)) : (n >>= f) w = (.stuck w', es) := by
  show N.bind n f w = _
  unfold N.bind
  rw [h]

theorem N.bind_panic {n : N α} {f : α → N β} {w w' : World} {es : List Entry} {p : Panic}
    (h : n w = (.panic p w', es)) : (n >>= f) w = (.panic p w', es) := by
  show N.bind n f w = _
  unfold N.bind
  rw [h]

namespace Chronicled

theorem bind {n : N α} {f : α → N β} {w : World} (h : Chronicled T w (n w))
    (hf : ∀ a w', (n w).1 = .ok a w' → Steady T w' → Chronicled T w' (f a w')) :
    Chronicled T w ((n >>= f) w) := by
  show Chronicled T w (N.bind n f w)
  unfold N.bind
  revert h hf
  rcases n w with ⟨o, es⟩
  intro h hf
  cases o with
  | panic p w' => exact ⟨h.account, fun _ _ e => by cases e⟩
  | stuck w' => exact ⟨h.account, fun _ _ e => by cases e⟩
  | ok a w' =>
    have h2 := hf a w' rfl (h.steady a w' rfl)
    refine ⟨?_, h2.steady⟩
    obtain ⟨es1, rest1, e1, a1, r1⟩ := h.account
    obtain ⟨es2, rest2, e2, a2, r2⟩ := h2.account
    have hr : rest1 = [] := r1.resolve_right fun h => h.1
    subst hr
    refine ⟨es1 ++ es2, rest2, ?_, fun old ho => ?_, r2⟩
    · dsimp only at e1 ⊢
      rw [List.filter_append, e1, e2]
      simp
    · have := a2 _ (a1 old ho)
      rw [List.append_assoc] at this
      exact this

/-- Nothing happens. -/
theorem quiet {w : World} {o : Out α} {es : List Entry} (h1 : o.log = w.log)
    (h2 : es.filter uttered = []) (h3 : ∀ a w', o = .ok a w' → Steady T w') : Chronicled T w (o, es) := by
  refine ⟨⟨[], [], h2, fun old ho => ?_, .inl rfl⟩, h3⟩
  dsimp only
  rw [h1, List.append_nil]
  exact ho

/-- One event happens. -/
theorem event {w : World} {r : Out α × List Entry} {e : Event} (h1 : r.1.log = e :: w.log)
    (h2 : Reason T w.log e (r.2.filter uttered)) (h3 : ∀ a w', r.1 = .ok a w' → Steady T w') :
    Chronicled T w r := by
  refine ⟨⟨_, [], (List.append_nil _).symm, fun old ho => ?_, .inl rfl⟩, h3⟩
  rw [h1]
  exact ⟨old, _, rfl, ho, h2⟩

/-- Something has been said about the event that happens. -/
theorem after {r : Out α × List Entry} {w w1 : World} {e : Event} {es : List Entry}
    (h : Chronicled T w1 r) (hl : w1.log = e :: w.log)
    (hr : Reason T w.log e (es.filter uttered)) : Chronicled T w (r.1, es ++ r.2) := by
  obtain ⟨es1, rest, e1, a1, r1⟩ := h.account
  refine ⟨⟨es.filter uttered ++ es1, rest, ?_, fun old ho => ?_, r1⟩, h.steady⟩
  · dsimp only
    rw [List.filter_append, e1, List.append_assoc]
  · rw [← List.append_assoc]
    refine a1 _ ?_
    rw [hl]
    exact ⟨old, _, rfl, ho, hr⟩

theorem «then» {X : Setting} {n : N α} {x : M α} {f : α → N β} {w : World}
    {Q : α → World → Prop} (h : Chronicled T w (n w)) (he : Erases n x) (hg : Good X Q (x w))
    (hf : ∀ a w', Q a w' → Steady T w' → Chronicled T w' (f a w')) :
    Chronicled T w ((n >>= f) w) := by
  refine h.bind fun a w' e hs => hf a w' ?_ hs
  rw [he w] at e
  rw [e] at hg
  exact hg

end Chronicled

namespace Chronicles

theorem ret {a : α} : Chronicles T (N.pure a) :=
  fun _ hs => .quiet rfl rfl fun _ _ e => by cases e; exact hs

theorem fail {p : Panic} : Chronicles T (liftM (M.fail p : M α) : N α) :=
  fun _ _ => .quiet rfl rfl fun _ _ e => by cases e

theorem stop : Chronicles T (liftM (M.stop : M α) : N α) :=
  fun _ _ => .quiet rfl rfl fun _ _ e => by cases e

theorem seq {n : N α} {f : α → N β} (h : Chronicles T n) (hf : ∀ a, Chronicles T (f a)) :
    Chronicles T (n >>= f) :=
  fun w hs => (h w hs).bind fun a w' _ hs' => hf a w' hs'

theorem get {f : World → N β} (hf : ∀ w, Steady T w → Chronicled T w (f w w)) :
    Chronicles T ((liftM M.get : N World) >>= f) := by
  intro w hs
  exact hf w hs

theorem call {f : Kernel → Answer → Option (α × Kernel)} :
    Chronicles T (liftM (Sys.call f) : N α) := by
  intro w hs
  show Chronicled T w (Sys.call f w, [])
  rcases call_cases (f := f) w with hf | ⟨r', k, rest, hf⟩
  · rw [hf]
    exact .quiet rfl rfl fun _ _ e => by cases e
  · rw [hf]
    exact .quiet rfl rfl fun _ _ e => by cases e; exact hs.same rfl rfl rfl rfl

theorem emit {e : Event} (h : ∀ past, Reason T past e [])
    (h' : ∀ t, e ≠ .clock t) : Chronicles T (liftM (M.emit e) : N Unit) := by
  intro w hs
  refine .event (e := e) rfl (h w.log) fun _ _ e' => ?_
  cases e'
  refine hs.same rfl rfl rfl ?_
  cases e <;> first | rfl | exact absurd rfl (h' _)

theorem modify {f : Manager → Manager} (h : ∀ m, (f m).procs = m.procs)
    (h' : ∀ m, (f m).inlets = m.inlets) (h'' : ∀ m, (f m).cron = m.cron) :
    Chronicles T (liftM (modifyMgr f) : N Unit) := by
  intro w hs
  refine .quiet rfl rfl fun _ _ e => ?_
  cases e
  exact hs.same (h _) (h' _) (h'' _) rfl

theorem when {c : Prop} [Decidable c] {n : N Unit} (h : Chronicles T n) : Chronicles T (N.when c n) := by
  unfold N.when
  split
  · exact h
  · exact ret

theorem forEach {f : α → N Unit} {l : List α} (h : ∀ a, Chronicles T (f a)) :
    Chronicles T (N.forEach f l) := by
  induction l with
  | nil => exact ret
  | cons a l ih => exact seq (h a) fun _ => ih

/-- An answer of the kernel changes neither the tables nor the history. -/
theorem answered {f : Kernel → Answer → Option (α × Kernel)} {g : α → N β} {w : World}
    (hs : Steady T w)
    (hg : ∀ a w', w'.log = w.log → w'.mgr = w.mgr → Steady T w' → Chronicled T w' (g a w')) :
    Chronicled T w (((liftM (Sys.call f) : N α) >>= g) w) := by
  refine (call (T := T) w hs).bind fun a w' e hs' => ?_
  have e : Sys.call f w = .ok a w' := e
  rcases call_cases (f := f) w with hf | ⟨r', k, rest, hf⟩
  · rw [hf] at e
    cases e
  · rw [hf] at e
    cases e
    exact hg _ _ rfl rfl hs'

/-- Nor does a computation. -/
theorem lifted {r : Res Empty α} {g : α → N β} {w : World}
    (hg : ∀ a, r = .ok a → Chronicled T w (g a w)) :
    Chronicled T w (((liftM (M.lift r) : N α) >>= g) w) := by
  cases r with
  | ok b => exact hg _ rfl
  | err e => exact nomatch e
  | panic p => exact .quiet rfl rfl fun _ _ e => by cases e

end Chronicles

namespace Narrated

open Chronicles

variable (env : Env)

theorem reportStatus_chron {w : World} (hs : Steady T w) (ht : Turned T.inlets.statusFd w.log)
    (hne : T.inlets.statusFd ≠ T.inlets.signalFd) : Chronicled T w (reportStatus T.voice env w) := by
  obtain ⟨ev, past, hl, hfd⟩ := ht
  have key : Reason T w.log .failed
      (said byStatus [.failure .warn "Failed to print report".toList (T.voice.error w.log)]) := by
    show _ = _
    rw [hl]
    dsimp only
    rw [hfd, if_neg hne, if_pos rfl]
  refine answered hs fun r w' hl' _ hs' => ?_
  rw [← hl'] at key
  cases r with
  | none => exact .event (e := .failed) rfl key fun _ _ e => by cases e; exact hs'.same rfl rfl rfl rfl
  | some wrote =>
    show Chronicled T w' (((liftM (M.lift (w'.mgr.formatReport env)) : N Str) >>= _) w')
    refine lifted fun text _ => ?_
    cases wrote with
    | true =>
      exact .event (e := .report text) rfl rfl fun _ _ e => by cases e; exact hs'.same rfl rfl rfl rfl
    | false =>
      exact .event (e := .failed) rfl key fun _ _ e => by cases e; exact hs'.same rfl rfl rfl rfl

/-! ## Asking programs to terminate -/

/-- The body of the loop. -/
def killOne (sig : Nat) (child : Process) : M Unit := do
  if ← Sys.kill child.pid then M.emit (.sent child.pid sig)
  else M.fail .killFailed

theorem killOne_cases (sig : Nat) (p : Process) (w : World) :
    killOne sig p w = .stuck w ∨
    (∃ w1, w1.log = w.log ∧ w1.mgr = w.mgr ∧ killOne sig p w = .panic .killFailed w1) ∨
    ∃ w1, w1.log = .sent p.pid sig :: w.log ∧ w1.mgr = w.mgr ∧ killOne sig p w = .ok () w1 := by
  have hc : Sys.kill p.pid w = .stuck w ∨
      ∃ r k rest, Sys.kill p.pid w = .ok r { w with kernel := k, answers := rest } := call_cases w
  have hk : killOne sig p w = M.bind (Sys.kill p.pid) (fun b => if b then M.emit (.sent p.pid sig)
    else M.fail .killFailed) w := rfl
  rw [hk]
  rcases hc with hf | ⟨r, k, rest, hf⟩
  · refine .inl ?_
    unfold M.bind
    rw [hf]
  · refine .inr ?_
    unfold M.bind
    rw [hf]
    cases r with
    | true => exact .inr ⟨{ w with kernel := k, answers := rest, log := .sent p.pid sig :: w.log }, rfl, rfl, rfl⟩
    | false => exact .inl ⟨{ w with kernel := k, answers := rest }, rfl, rfl, rfl⟩

theorem kills_account (sig : Nat) (cs : List Process) (w : World) (hc : cs ≠ [])
    (ho : obligations T.setting.programs w.log = cs.map fun p => .sent p.pid sig) {B : List Entry}
    (hb : Belated T.setting.programs w.log B) :
    ∃ w', w'.mgr = w.mgr ∧ schedule T.setting.zone T.setting.cron w'.log =
        schedule T.setting.zone T.setting.cron w.log ∧
      ((M.forEach (killOne sig) cs w = .ok () w' ∧
          ∀ old, Account T w.log old → Account T w'.log (old ++ B)) ∨
        ((M.forEach (killOne sig) cs w = .stuck w' ∨ ∃ p, M.forEach (killOne sig) cs w = .panic p w') ∧
          ∀ old, Account T w.log old → Account T w'.log old)) := by
  induction cs generalizing w with
  | nil => exact absurd rfl hc
  | cons p cs ih =>
    rcases killOne_cases sig p w with h | ⟨w1, h1, h2, h⟩ | ⟨w1, h1, h2, h⟩
    · refine ⟨w, rfl, rfl, .inr ⟨.inl ?_, fun _ h => h⟩⟩
      show M.bind _ _ w = _
      unfold M.bind
      rw [h]
    · refine ⟨w1, h2, by rw [h1], .inr ⟨.inr ⟨.killFailed, ?_⟩, by rw [h1]; exact fun _ h => h⟩⟩
      show M.bind _ _ w = _
      unfold M.bind
      rw [h]
    · have hstep : M.forEach (killOne sig) (p :: cs) w = M.forEach (killOne sig) cs w1 := by
        show M.bind _ _ w = _
        unfold M.bind
        rw [h]
      have ho1 : obligations T.setting.programs w1.log = cs.map fun p => .sent p.pid sig := by
        rw [h1]
        exact obligations_step ho _
      have hsch : schedule T.setting.zone T.setting.cron w1.log =
        schedule T.setting.zone T.setting.cron w.log := by rw [h1]; rfl
      rw [hstep]
      by_cases hcs : cs = []
      · subst hcs
        refine ⟨w1, h2, hsch, .inl ⟨rfl, fun old hold => ?_⟩⟩
        rw [h1] at ho1 ⊢
        refine ⟨old, B, rfl, hold, ?_⟩
        show (if _ then _ else _)
        rw [if_pos (by exact ho1)]
        exact hb
      · have hacc : ∀ old, Account T w.log old → Account T w1.log old := by
          intro old hold
          have : obligations T.setting.programs w1.log ≠ [] := by
            rw [ho1]
            simpa using hcs
          rw [h1] at this ⊢
          refine ⟨old, [], by simp, hold, ?_⟩
          show (if _ then _ else _)
          rw [if_neg this]
        obtain ⟨w', g1, g2, g3⟩ := ih w1 hcs ho1 (by rw [h1]; exact hb)
        refine ⟨w', g1.trans h2, g2.trans hsch, ?_⟩
        rcases g3 with ⟨g3, g4⟩ | ⟨g3, g4⟩
        · exact .inl ⟨g3, fun old hold => g4 _ (hacc old hold)⟩
        · exact .inr ⟨g3, fun old hold => g4 _ (hacc old hold)⟩

/-- What is written about it, and how the account goes on: `B` is what remains to be said. -/
theorem shutdown_account (sig : Nat) (w : World)
    (ho : obligations T.setting.programs w.log =
      (w.mgr.procs.filter (fun p => p.state = .running)).map (fun p => .sent p.pid sig))
    {B : List Entry} (hb : Belated T.setting.programs w.log B) :
    (initiateShutdown sig w).2 = said byManager killing ∧
    ∃ w', w'.mgr = { w.mgr with keepRunning := false } ∧
      schedule T.setting.zone T.setting.cron w'.log = schedule T.setting.zone T.setting.cron w.log ∧
      (((initiateShutdown sig w).1 = .ok () w' ∧ ∀ old,
          Account T w.log (old ++ if obligations T.setting.programs w.log = [] then B else []) →
          Account T w'.log (old ++ B)) ∨
        (((initiateShutdown sig w).1 = .stuck w' ∨ ∃ p, (initiateShutdown sig w).1 = .panic p w') ∧
          obligations T.setting.programs w.log ≠ [] ∧
          ∀ old, Account T w.log old → Account T w'.log old)) := by
  have h1 : (initiateShutdown sig w).1 = M.forEach (killOne sig)
      (w.mgr.procs.filter (fun p => p.state = .running))
      { w with mgr := { w.mgr with keepRunning := false } } := rfl
  refine ⟨rfl, ?_⟩
  rw [h1]
  by_cases hc : w.mgr.procs.filter (fun p => p.state = .running) = []
  · rw [hc] at ho ⊢
    refine ⟨{ w with mgr := { w.mgr with keepRunning := false } }, rfl, rfl, .inl ⟨rfl, fun old h => ?_⟩⟩
    rw [if_pos (by exact ho)] at h
    exact h
  · have hne : obligations T.setting.programs w.log ≠ [] := by
      rw [ho]
      simpa using hc
    obtain ⟨w', g1, g2, g3⟩ := kills_account (T := T) sig _
      { w with mgr := { w.mgr with keepRunning := false } } hc ho hb
    refine ⟨w', g1, g2, ?_⟩
    rcases g3 with ⟨g3, g4⟩ | ⟨g3, g4⟩
    · refine .inl ⟨g3, fun old h => g4 _ ?_⟩
      rw [if_neg hne, List.append_nil] at h
      exact h
    · exact .inr ⟨g3, hne, g4⟩

/-- An event because of which all programs are asked to terminate, with nothing to be said later. -/
theorem shutdown_chron {w w1 : World} {sig : Nat} {e : Event} (hs : Steady T w1)
    (hl : w1.log = e :: w.log)
    (ho : obligations T.setting.programs w1.log =
      (w1.mgr.procs.filter (fun p => p.state = .running)).map (fun p => .sent p.pid sig))
    (hb : Belated T.setting.programs w1.log [])
    (hr : Reason T w.log e (said byManager killing)) :
    Chronicled T w (initiateShutdown sig w1) := by
  obtain ⟨g1, w', g2, g3, g4⟩ := shutdown_account (T := T) sig w1 ho hb
  have hf : (said byManager killing).filter uttered = said byManager killing := rfl
  have hacc : ∀ old, Account T w.log old → Account T w1.log (old ++ said byManager killing) := by
    intro old hold
    rw [hl]
    exact ⟨old, _, rfl, hold, hr⟩
  refine ⟨⟨said byManager killing, [], ?_, fun old hold => ?_, .inl rfl⟩, fun _ u e => ?_⟩
  · rw [g1, hf, List.append_nil]
  · rcases g4 with ⟨g4, g5⟩ | ⟨g4, -, g5⟩
    · rw [g4]
      have := g5 (old ++ said byManager killing)
      rw [ite_self, List.append_nil] at this
      exact this (hacc old hold)
    · rcases g4 with g4 | ⟨_, g4⟩
      · rw [g4]; exact g5 _ (hacc old hold)
      · rw [g4]; exact g5 _ (hacc old hold)
  · rcases g4 with ⟨g4, -⟩ | ⟨g4 | ⟨_, g4⟩, -⟩
    · rw [g4] at e
      cases e
      exact hs.same (by rw [g2]) (by rw [g2]; rfl) (by rw [g2]) g3
    · rw [g4] at e; cases e
    · rw [g4] at e; cases e

theorem handleSignal_chron {w : World} (h : Inv T.setting [] w.mgr w.kernel w.log) (hs : Steady T w)
    (ht : Turned T.inlets.signalFd w.log) : Chronicled T w (handleSignal T.voice w) := by
  obtain ⟨ev, past, hl, hfd⟩ := ht
  have key : Reason T w.log .failed (said byManager [if T.voice.noSignal w.log then
          .fixed .debug "No signal received".toList
        else .failure .debug "Received unknown signal".toList (T.voice.error w.log)]) := by
    show _ = _
    rw [hl]
    dsimp only
    rw [hfd, if_pos rfl]
  refine answered hs fun r w' hl' hm' hs' => ?_
  rw [← hl'] at key
  cases r with
  | none =>
    have hst : Steady T { w' with log := .failed :: w'.log } := hs'.same rfl rfl rfl rfl
    revert key
    show _ → Chronicled T w' (((liftM (M.emit .failed) : N Unit) >>= fun _ =>
      if T.voice.noSignal w'.log then _ else _) w')
    split
    · exact fun key => .event (e := .failed) rfl key fun _ _ e => by cases e; exact hst
    · exact fun key => .event (e := .failed) rfl key fun _ _ e => by cases e; exact hst
  | some n =>
    have hst : Steady T { w' with log := .signal n :: w'.log } := hs'.same rfl rfl rfl rfl
    have hcalm : obligations T.setting.programs w'.log = [] := by rw [hl']; exact h.calm
    have hob : ∀ sig, reaction T.setting.programs (.signal n :: w'.log) =
        (runningPrograms T.setting.programs w'.log).map
          (fun i => .sent (mainPid T.setting.programs w'.log i) sig) →
        obligations T.setting.programs (.signal n :: w'.log) =
          (w'.mgr.procs.filter (fun p => p.state = .running)).map (fun p => .sent p.pid sig) := by
      intro sig hr
      rw [obligations_react hcalm, hr, hm', hl']
      exact (running_map h.tables (fun p => Event.sent p sig)).symm
    show Chronicled T w' (((liftM (M.emit (.signal n)) : N Unit) >>= fun _ =>
      if n = SIGINT ∨ n = SIGQUIT then _ else _) w')
    split
    · rename_i hn
      refine shutdown_chron (w1 := { w' with log := .signal n :: w'.log }) hst rfl
        (hob n (if_pos hn)) rfl ?_
      show _ = _
      rw [if_pos (by rcases hn with hn | hn; exacts [.inl hn, .inr (.inl hn)])]
    · rename_i hn
      by_cases ht : n = SIGTERM
      · subst ht
        exact Chronicled.bind (n := fun w' => initiateShutdown SIGINT
            { w' with log := .signal SIGTERM :: w'.log }) (f := fun _ => N.pure ())
          (shutdown_chron (w1 := { w' with log := .signal SIGTERM :: w'.log }) hst rfl
            (hob SIGINT rfl) rfl rfl) fun a u _ hu => ret u hu
      · have hn' : ¬ (n = Signal.int ∨ n = Signal.quit ∨ n = Signal.term) := by
          rintro (e | e | e)
          · exact hn (.inl e)
          · exact hn (.inr e)
          · exact ht e
        unfold N.when
        rw [if_neg ht]
        by_cases hc : n = SIGCHLD
        · rw [if_pos hc]
          refine .event (e := .signal n) rfl ?_ fun _ _ e => by cases e; exact hst
          show _ = _
          rw [if_neg hn', if_pos (c := n = Signal.chld) hc]
          rfl
        · rw [if_neg hc]
          refine .event (e := .signal n) rfl ?_ fun _ _ e => by cases e; exact hst
          show _ = _
          rw [if_neg hn', if_neg (c := n = Signal.chld) hc]
          rfl

theorem printChildOutput_chron {w : World} {fd : Int} (hs : Steady T w) (ht : Turned fd w.log)
    (h0 : fd ≠ T.inlets.signalFd) (h1 : fd ≠ T.inlets.statusFd) (h2 : fd ≠ T.inlets.notifyFd) :
    Chronicled T w (printChildOutput fd w) := by
  obtain ⟨ev, past, hl, hfd⟩ := ht
  have key : Reason T w.log .failed [] := by
    show _ = _
    rw [hl]
    dsimp only
    rw [hfd, if_neg h0, if_neg h1, if_neg h2]
  refine answered hs fun r w' hl' hm' hs' => ?_
  rw [← hl'] at key
  cases r with
  | none => exact .event (e := .failed) rfl key fun _ _ e => by cases e; exact hs'.same rfl rfl rfl rfl
  | some bytes =>
    refine seq (emit (by intro; exact rfl) (fun _ e => by cases e)) (fun _ => get fun w hs => lifted
      fun child _ => forEach (fun line => when fun w hs => ?_) w hs) w' hs'
    exact .event (e := .line _ _ line) rfl rfl fun _ _ e => by cases e; exact hs.same rfl rfl rfl rfl

/-! ## The end of processes -/

theorem finishedMessages_if {m : Manager} {k : Kernel} {l : Log} (h : Inv T.setting [] m k l) {i : Nat}
    (hi : i < T.setting.programs.length) (hc : ¬ isCronjob T.setting.programs i) :
    If (Completed T.setting.programs i l ∨ Terminated T.setting.programs false i l)
      (said byGraph [.alreadyTriggered i]) (entries inGraph (finishedMessages m.deps i)) := by
  obtain ⟨F, P, h1, h2, -, -⟩ := h.deps
  obtain ⟨n, hn⟩ := (h1.dom i).mpr hi
  have hf := (h1.fin i n hn).trans (h2 i)
  unfold finishedMessages
  rw [hn]
  dsimp only
  refine ⟨fun hp => ?_, fun hp => ?_⟩
  · rw [if_pos (hf.mpr ⟨hc, hp⟩)]
    rfl
  · rw [if_neg (fun e => hp (hf.mp e).2)]
    rfl

/-- What is done last about a terminated process. -/
def settle (pid : Int) (i : Nat) (child : Process) : N Unit := do
  M.modifyMgr (deregisterPid pid)
  N.when (child.ptype ≠ .cronjob) do
    let w ← M.get
    N.write (entries inGraph (finishedMessages w.mgr.deps i))
    let d ← M.lift (w.mgr.deps.notifyProcessFinished i)
    M.modifyMgr fun m => { m with deps := d }

theorem settle_facts (pid : Int) (i : Nat) (child : Process) (w : World) :
    (settle pid i child w).2 = (if child.ptype ≠ .cronjob then
        entries inGraph (finishedMessages w.mgr.deps i) else []) ∧
      (settle pid i child w).1.log = w.log ∧
      ∀ a u, (settle pid i child w).1 = .ok a u → u.log = w.log ∧ u.mgr.procs = w.mgr.procs ∧
        u.mgr.inlets = w.mgr.inlets ∧ u.mgr.cron = w.mgr.cron := by
  unfold settle N.when
  by_cases h : child.ptype = .cronjob
  · rw [if_neg (by simp [h]), if_neg (by simp [h])]
    exact ⟨rfl, rfl, fun _ _ e => by cases e; exact ⟨rfl, rfl, rfl, rfl⟩⟩
  · rw [if_pos h, if_pos h]
    show ((N.write _ >>= fun _ => (liftM (M.lift (w.mgr.deps.notifyProcessFinished i)) : N DepMgr) >>= _)
      { w with mgr := deregisterPid pid w.mgr }).2 = _ ∧ ((N.write _ >>= fun _ =>
        (liftM (M.lift (w.mgr.deps.notifyProcessFinished i)) : N DepMgr) >>= _)
      { w with mgr := deregisterPid pid w.mgr }).1.log = _ ∧ ∀ a u, ((N.write _ >>= fun _ =>
        (liftM (M.lift (w.mgr.deps.notifyProcessFinished i)) : N DepMgr) >>= _)
      { w with mgr := deregisterPid pid w.mgr }).1 = _ → _
    cases w.mgr.deps.notifyProcessFinished i with
    | ok d =>
      exact ⟨List.append_nil _, rfl, fun _ _ e => by cases e; exact ⟨rfl, rfl, rfl, rfl⟩⟩
    | err e => exact nomatch e
    | panic p => exact ⟨List.append_nil _, rfl, fun _ _ e => by cases e⟩

theorem own_told {target : List Str} {msgs : List Msg}
    (h : ∀ m ∈ msgs, uttered (.own target m) = true) : (said target msgs).filter uttered = said target msgs := by
  rw [List.filter_eq_self]
  intro e he
  obtain ⟨m, hm, rfl⟩ := List.mem_map.mp he
  exact h m hm

theorem handleFinishedChild_chron {w : World} {k : Kernel} (h : Inv T.setting [] w.mgr k w.log)
    (hs : Steady T w) (pid rc : Int) : Chronicled T w (handleFinishedChild pid rc w) := by
  have ho : w.mgr.processIdForPid pid = owner T.setting.programs w.log pid := h.tables.pids pid
  show Chronicled T w ((match w.mgr.processIdForPid pid with | none => _ | some i => _ : N Unit) w)
  cases ho' : w.mgr.processIdForPid pid with
  | none =>
    rw [ho'] at ho
    refine .event (e := .waited pid rc none) rfl ?_ fun _ _ e => by cases e; exact hs.same rfl rfl rfl rfl
    show (match owner T.setting.programs w.log pid with | none => _ | some i => _)
    rw [← ho]
    rfl
  | some i =>
    rw [ho'] at ho
    dsimp only
    obtain ⟨hilt, -⟩ := owner_facts h.legal ho.symm
    cases hc : w.mgr.procs[i]? with
    | none => exact fail w hs
    | some child =>
      obtain ⟨c, hc1, hc2, -, hc4⟩ := hs.config hc
      dsimp only
      -- what remains to be said
      obtain ⟨B, hB⟩ : ∃ B, B = (if child.ptype ≠ .cronjob then
        entries inGraph (finishedMessages w.mgr.deps i) else []) := ⟨_, rfl⟩
      have hBt : B.filter uttered = B := by
        rw [hB]
        split
        · refine own_told fun m hm => ?_
          rw [mem_finishedMessages hm]
          rfl
        · rfl
      have hlate : Belated T.setting.programs (.waited pid rc (some i) :: w.log) B := by
        show (match owner T.setting.programs w.log pid with | none => _ | some i => _)
        rw [← ho, hB]
        dsimp only
        by_cases hcr : isCronjob T.setting.programs i
        · rw [if_neg (fun e => e (hc4.mpr hcr))]
          exact ⟨fun e => absurd hcr e.1, fun _ => rfl⟩
        · rw [if_pos (fun e => hcr (hc4.mp e))]
          have := finishedMessages_if h hilt hcr
          exact ⟨fun e => this.1 e.2, fun e => this.2 fun e' => e ⟨hcr, e'⟩⟩
      have hend : entries inManager (endMessages child rc) =
          said byManager (aboutEnd T.setting.programs i c rc) := by
        unfold endMessages aboutEnd
        rw [hc2]
        by_cases hrc : rc = 0
        · rw [if_pos hrc, if_neg (c := rc ≠ 0) (by simp [hrc])]
          by_cases hcr : isCronjob T.setting.programs i
          · rw [if_pos hcr, if_pos (hc4.mpr hcr)]; rfl
          · rw [if_neg hcr, if_neg (fun e => hcr (hc4.mp e))]; rfl
        · rw [if_neg hrc, if_pos (c := rc ≠ 0) hrc]; rfl
      have hendt : (said byManager (aboutEnd T.setting.programs i c rc)).filter uttered =
          said byManager (aboutEnd T.setting.programs i c rc) := by
        refine own_told fun m hm => ?_
        unfold aboutEnd at hm
        split at hm
        · simp only [List.mem_cons, List.not_mem_nil, or_false] at hm
          rcases hm with rfl | rfl <;> rfl
        · split at hm <;>
          · simp only [List.mem_cons, List.not_mem_nil, or_false] at hm
            rcases hm with rfl | rfl <;> rfl
      have hkt : (said byManager killing).filter uttered = said byManager killing := rfl
      obtain ⟨child', hch⟩ : ∃ child', child' = ({ child with state :=
        if rc = 0 then (if child.ptype = .cronjob then .sleeping else .done) else .crashed rc } : Process) :=
        ⟨_, rfl⟩
      rw [← hch]
      have hst1 : Steady T { w with log := .waited pid rc (some i) :: w.log, mgr := setProc i child' w.mgr } :=
        hs.set hc (by rw [hch]) (by rw [hch]) (by rw [hch]) rfl rfl rfl rfl
      change Chronicled T w (((N.when (rc ≠ 0) (do
          M.modifyMgr fun m => { m with exitCode := 6 }
          initiateShutdown SIGINT) >>= fun _ => settle pid i child)
        { w with log := .waited pid rc (some i) :: w.log, mgr := setProc i child' w.mgr }).1,
        entries inManager (endMessages child rc) ++ ((N.when (rc ≠ 0) (do
          M.modifyMgr fun m => { m with exitCode := 6 }
          initiateShutdown SIGINT) >>= fun _ => settle pid i child)
        { w with log := .waited pid rc (some i) :: w.log, mgr := setProc i child' w.mgr }).2)
      rw [hend]
      unfold N.when
      by_cases hrc : rc = 0
      · have hob : obligations T.setting.programs (.waited pid rc (some i) :: w.log) = [] := by
          rw [obligations_react h.calm]
          simp [reaction, hrc]
        obtain ⟨s1, s2, s3⟩ := settle_facts pid i child
          { w with log := .waited pid rc (some i) :: w.log, mgr := setProc i child' w.mgr }
        rw [if_neg (by simp [hrc])]
        refine .event (e := .waited pid rc (some i)) s2 ?_ fun a u e => ?_
        · show Reason T w.log _ ((_ ++ (settle pid i child _).2).filter uttered)
          rw [s1, List.filter_append, hendt]
          show (match owner T.setting.programs w.log pid with | none => _ | some i => _)
          rw [← ho]
          refine ⟨c, B, hc1, ?_, ?_⟩
          · rw [if_neg (c := rc ≠ 0) (by simp [hrc]), List.append_nil]
            show _ ++ List.filter uttered (if child.ptype ≠ .cronjob then
              entries inGraph (finishedMessages w.mgr.deps i) else []) = _
            rw [← hB, hBt]
          · rw [if_pos hob]
            exact hlate
        · obtain ⟨u1, u2, u3, u4⟩ := s3 a u e
          exact hst1.same u2 u3 u4 (by rw [u1])
      · rw [if_pos hrc]
        have hob : obligations T.setting.programs (.waited pid rc (some i) :: w.log) =
            ((w.mgr.procs.set i child').filter (fun p => p.state = .running)).map
              (fun p => .sent p.pid SIGINT) := by
          rw [obligations_react h.calm]
          have ht := waited_tables (rc := rc) h.legal h.tables hc ho.symm (d := w.mgr.deps)
            (keep := false) (code := 6)
          have := running_map ht (fun p => Event.sent p SIGINT)
          have hre : reaction T.setting.programs (.waited pid rc (some i) :: w.log) =
              (runningPrograms T.setting.programs (.waited pid rc (some i) :: w.log)).map
                (fun i => .sent (mainPid T.setting.programs w.log i) Signal.int) := by
            simp [reaction, hrc, ← ho]
          rw [hre, hch]
          exact this.symm
        have hst2 : Steady T { w with
            mgr := { (setProc i child' w.mgr) with exitCode := 6 },
            log := .waited pid rc (some i) :: w.log } := hst1.same rfl rfl rfl rfl
        obtain ⟨g1, w', g2, g3, g4⟩ := shutdown_account (T := T) SIGINT
          { w with
            mgr := { (setProc i child' w.mgr) with exitCode := 6 },
            log := .waited pid rc (some i) :: w.log } hob hlate
        have hst3 : Steady T w' := hst2.same (by rw [g2]) (by rw [g2]; rfl) (by rw [g2]) g3
        have hfirst : ∀ old late, (if obligations T.setting.programs (.waited pid rc (some i) :: w.log) = []
              then Belated T.setting.programs (.waited pid rc (some i) :: w.log) late else late = []) →
            Account T w.log old → Account T (.waited pid rc (some i) :: w.log)
              (old ++ (said byManager (aboutEnd T.setting.programs i c rc) ++ said byManager killing ++ late)) := by
          intro old late hl hold
          refine ⟨old, _, rfl, hold, ?_⟩
          show (match owner T.setting.programs w.log pid with | none => _ | some i => _)
          rw [← ho]
          refine ⟨c, late, hc1, ?_, hl⟩
          rw [if_pos (c := rc ≠ 0) hrc]
          simp [said]
        rcases g4 with ⟨g4, g5⟩ | ⟨g4, g5, g6⟩
        · have hI : (do
              M.modifyMgr fun m => { m with exitCode := 6 }
              initiateShutdown SIGINT : N Unit)
              { w with log := .waited pid rc (some i) :: w.log, mgr := setProc i child' w.mgr } =
              (.ok () w', said byManager killing) := Prod.ext g4 g1
          rw [N.bind_ok hI]
          obtain ⟨s1, s2, s3⟩ := settle_facts pid i child w'
          refine ⟨⟨said byManager (aboutEnd T.setting.programs i c rc) ++ said byManager killing ++ B, [],
            ?_, fun old hold => ?_, .inl rfl⟩, fun a u e => ?_⟩
          · dsimp only
            rw [s1, g2, List.filter_append, List.filter_append, hendt, hkt, List.append_nil,
              List.append_assoc]
            show _ ++ (_ ++ List.filter uttered (if child.ptype ≠ .cronjob then
              entries inGraph (finishedMessages w.mgr.deps i) else [])) = _
            rw [← hB, hBt]
          · show Account T (settle pid i child w').1.log _
            rw [s2, ← List.append_assoc]
            refine g5 _ ?_
            rw [List.append_assoc]
            refine hfirst old _ ?_ hold
            dsimp only
            split
            · exact hlate
            · rfl
          · obtain ⟨u1, u2, u3, u4⟩ := s3 a u e
            exact hst3.same u2 u3 u4 (by rw [u1])
        · have hf := fun old => hfirst old [] (by rw [if_neg (by exact g5)])
          rcases g4 with g4 | ⟨p, g4⟩
          · have hI : (do
                M.modifyMgr fun m => { m with exitCode := 6 }
                initiateShutdown SIGINT : N Unit)
                { w with log := .waited pid rc (some i) :: w.log, mgr := setProc i child' w.mgr } =
                (.stuck w', said byManager killing) := Prod.ext g4 g1
            rw [N.bind_stuck hI]
            refine ⟨⟨said byManager (aboutEnd T.setting.programs i c rc) ++ said byManager killing ++ [], [],
              ?_, fun old hold => g6 _ (hf old hold), .inl rfl⟩, fun a u e => by cases e⟩
            dsimp only
            rw [List.filter_append, hendt, hkt, List.append_nil, List.append_nil]
          · have hI : (do
                M.modifyMgr fun m => { m with exitCode := 6 }
                initiateShutdown SIGINT : N Unit)
                { w with log := .waited pid rc (some i) :: w.log, mgr := setProc i child' w.mgr } =
                (.panic p w', said byManager killing) := Prod.ext g4 g1
            rw [N.bind_panic hI]
            refine ⟨⟨said byManager (aboutEnd T.setting.programs i c rc) ++ said byManager killing ++ [], [],
              ?_, fun old hold => g6 _ (hf old hold), .inl rfl⟩, fun a u e => by cases e⟩
            dsimp only
            rw [List.filter_append, hendt, hkt, List.append_nil, List.append_nil]

theorem lookForFinishedChildren_chron (fuel : Nat) {w : World}
    (h : Inv T.setting [] w.mgr w.kernel w.log) (hs : Steady T w) :
    Chronicled T w (lookForFinishedChildren T.voice fuel w) := by
  induction fuel generalizing w with
  | zero => exact stop w hs
  | succ fuel ih =>
    refine (call (T := T) w hs).then .lift (wait_good h.legal) ?_
    rintro r w' ⟨rest, hr⟩ hs'
    have skip : ∀ {f : Unit → N Unit} {s : Str} {u : World}, Chronicled T u (f () u) →
        Chronicled T u ((N.say inManager (.debugged s (T.voice.debug u.log)) >>= f) u) := by
      intro f s u hf
      obtain ⟨es, rest, h1, h2⟩ := hf.account
      exact ⟨⟨es, rest, h1, h2⟩, hf.steady⟩
    cases r with
    | exited pid code =>
      obtain ⟨h1, -, rfl⟩ := hr
      refine skip (f := fun _ => handleFinishedChild pid code >>= fun _ =>
        lookForFinishedChildren T.voice fuel) (s := "Got signal from child: ".toList) ?_
      refine (handleFinishedChild_chron (w := { w with kernel := reaped w.kernel pid, answers := rest })
          (k := w.kernel) h hs' pid code).then
        (handleFinishedChild_erases pid code)
        (handleFinishedChild_good { w with kernel := reaped w.kernel pid, answers := rest } w.kernel
          pid code h rfl h1) ?_
      rintro - w2 h2 hs2
      exact ih h2.1 hs2
    | killed pid sig =>
      obtain ⟨h1, -, -, rfl⟩ := hr
      dsimp only
      split
      · refine skip (f := fun _ => handleFinishedChild pid sig >>= fun _ =>
          lookForFinishedChildren T.voice fuel) (s := "Got signal from child: ".toList) ?_
        refine (handleFinishedChild_chron (w := { w with kernel := reaped w.kernel pid, answers := rest })
          (k := w.kernel) h hs' pid sig).then
          (handleFinishedChild_erases pid sig)
          (handleFinishedChild_good { w with kernel := reaped w.kernel pid, answers := rest } w.kernel
          pid sig h rfl h1) ?_
        rintro - w2 h2 hs2
        exact ih h2.1 hs2
      · exact emit (by intro; exact rfl) (fun _ e => by cases e) _ hs'
    | alive => exact emit (by intro; exact rfl) (fun _ e => by cases e) _ hs'
    | other =>
      obtain rfl := hr
      exact skip (f := fun _ => lookForFinishedChildren T.voice fuel)
        (s := "Got unknown result ".toList) (ih (w := { w with answers := rest }) h hs')
    | error => exact emit (by intro; exact rfl) (fun _ e => by cases e) _ hs'

end Narrated

end Cinit
