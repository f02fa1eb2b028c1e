import Verif.Proofs.ManagerInv
/-!
# The event loop: signals, output, reports, notifications
-/

namespace Cinit

open Spec Manager M

variable {X : Setting}

/-! ## Transfer along events of no consequence -/

theorem ProcOk.same {l l' : Log} {i : Nat} {p : Process} (h : ProcOk X l i p)
    (hs : Same X.programs l l') : ProcOk X l' i p :=
  ⟨h.name, h.notify, h.cron, h.state.trans (hs.state i).symm, h.status.trans (hs.status i).symm,
    h.pid.trans (hs.mainPid i).symm⟩

theorem Tables.same {m : Manager} {l l' : Log} (h : Tables X m l) (hs : Same X.programs l l') :
    Tables X m l' where
  len := h.len
  procs i p hp := (h.procs i p hp).same hs
  pids p := (h.pids p).trans (hs.owner p).symm
  outs fd i := by rw [hs.stream]; exact h.outs fd i
  errs fd i := by rw [hs.stream]; exact h.errs fd i
  fdd fd := by rw [hs.stream]; exact h.fdd fd

theorem Kern.same {m : Manager} {k : Kernel} {l l' : Log} (h : Kern m k l)
    {ps : List ProcessConfig} (hs : Same ps l l') : Kern m k l' where
  opened fd x := by rw [hs.stream]; exact h.opened fd x
  own := h.own
  apart := by rw [hs.stream, hs.stream, hs.stream]; exact h.apart
  epoll fd hf := by rw [hs.stream]; exact h.epoll fd hf
  children p := (h.children p).trans (hs.unreaped p).symm

theorem finished_same {l l' : Log} {ps : List ProcessConfig} (hs : Same ps l l') (i : Nat) :
    Finished ps i l' ↔ Finished ps i l := by
  unfold Finished
  rw [hs.completed, hs.terminated]

theorem shuttingDown_append {ps : List ProcessConfig} (es : List Event) {l : Log}
    (h : ShuttingDown ps l) : ShuttingDown ps (es ++ l) := by
  induction es with
  | nil => exact h
  | cons e es ih =>
    rcases ih with h | ⟨i, h⟩
    · rcases h with h | h | h
      · exact .inl (.inl (List.mem_cons_of_mem _ h))
      · exact .inl (.inr (.inl (List.mem_cons_of_mem _ h)))
      · exact .inl (.inr (.inr (List.mem_cons_of_mem _ h)))
    · exact .inr ⟨i, .inr h⟩

theorem seen_cons {P : List Nat} {l : Log} {e : Event} (he : e ≠ .polling) (h : Seen X P l) :
    Seen X P (e :: l) := by
  intro i l' hl hs hi hu
  refine h i l' ?_ (fun hs' => hs (shuttingDown_append [e] hs')) hi hu
  cases e <;> first
    | exact absurd rfl he
    | exact hl

theorem DepOk.same {ex : List Nat} {d : DepMgr} {l l' : Log} (h : DepOk X ex d l)
    (hs : Same X.programs l l') (hw : lastWait l' = lastWait l) : DepOk X ex d l' := by
  obtain ⟨F, P, h1, h2, h3, h4⟩ := h
  exact ⟨F, P, h1, fun i => (h2 i).trans (finished_same hs i).symm,
    fun i hi => by rw [hs.attempted]; exact h3 i hi,
    fun i l1 hl ho => h4 i l1 (hw ▸ hl) (by rw [← hs.shuttingDown]; exact ho)⟩

theorem CronOk.same {c : Cron} {l l' : Log} (h : CronOk X c l)
    (hs : Same X.programs l l') : CronOk X c l' :=
  ⟨h.inv, (hs.schedule _ _).trans h.sched⟩

theorem Inv.same {ex : List Nat} {m : Manager} {k : Kernel} {l l' : Log} (h : Inv X ex m k l)
    (hs : Same X.programs l l') (hw : lastWait l' = lastWait l) (h1 : Always (Legal X) l') (h2 : obligations X.programs l' = [])
    (h3 : ∀ i, Due X.zone X.cron i l' → i ∈ ex) :
    Inv X ex m k l' where
  legal := h1
  calm := h2
  idle := h3
  tables := h.tables.same hs
  kern := h.kern.same hs
  keep := by rw [hs.shuttingDown]; exact h.keep
  code := by rw [hs.someCrash]; exact h.code
  deps := h.deps.same hs hw
  cron := h.cron.same hs
  nocron := h.nocron

/-- A program of the configuration has its process entry. -/
theorem Tables.proc {m : Manager} {l : Log} (h : Tables X m l) {i : Nat}
    (hi : i < X.programs.length) : ∃ p, m.procs[i]? = some p ∧ ProcOk X l i p := by
  have hi' : i < m.procs.length := by rw [h.len]; exact hi
  exact ⟨m.procs[i], List.getElem?_eq_getElem hi', h.procs _ _ (List.getElem?_eq_getElem hi')⟩

theorem Tables.lt {m : Manager} {l : Log} (h : Tables X m l) {i : Nat} {p : Process}
    (hp : m.procs[i]? = some p) : i < X.programs.length := by
  rw [← h.len]
  exact (List.getElem?_eq_some_iff.mp hp).1

/-! ## Sending signals -/

/-- A selection out of a list, by position. -/
theorem select_map {α β : Type} (L : List α) {P : α → Bool} {Q : Nat → Bool} {g : α → β}
    {h : Nat → β} (k : Nat)
    (hx : ∀ i a, L[i]? = some a → P a = Q (k + i) ∧ g a = h (k + i)) :
    (L.filter P).map g = ((List.range' k L.length).filter Q).map h := by
  induction L generalizing k with
  | nil => rfl
  | cons a L ih =>
    have h0 := hx 0 a rfl
    have ih' := ih (k + 1) (fun i b hb => by
      have := hx (i + 1) b (by simpa using hb)
      rwa [show k + 1 + i = k + (i + 1) by omega])
    simp only [List.length_cons, List.range'_succ, List.filter_cons, h0.1, Nat.add_zero]
    split
    · simp only [List.map_cons, ih', h0.2, Nat.add_zero]
    · exact ih'

theorem running_map {m : Manager} {l : Log} (h : Tables X m l) {β : Type} (f : Int → β) :
    (m.procs.filter (fun p => p.state = .running)).map (fun p => f p.pid) =
      (runningPrograms X.programs l).map (fun i => f (mainPid X.programs l i)) := by
  unfold runningPrograms
  rw [List.range_eq_range', ← h.len]
  apply select_map
  intro i p hp
  have := h.procs i p hp
  simp only [Nat.zero_add]
  exact ⟨by rw [this.state], by rw [this.pid]⟩

/-- The loop of `signal_children`. -/
theorem kill_loop (sig : Nat) (ps : List Process) (w : World) (hl : Always (Legal X) w.log)
    (ho : obligations X.programs w.log = ps.map (fun p => .sent p.pid sig))
    (hch : ∀ p, p ∈ w.kernel.children ↔ Unreaped w.log p)
    (hd : Settled X w.log) :
    Good X (fun _ w' => ∃ rest es, w' = { w with answers := rest, log := es ++ w.log } ∧
        (∀ e ∈ es, Quiet e) ∧ obligations X.programs w'.log = [] ∧ Always (Legal X) w'.log)
      (forEach (fun (child : Process) => do
        if ← Sys.kill child.pid then emit (.sent child.pid sig)
        else fail .killFailed) ps w) := by
  induction ps generalizing w with
  | nil =>
    show Good X _ (Out.ok () w)
    exact ⟨w.answers, [], rfl, by simp, ho, hl⟩
  | cons p ps ih =>
    unfold forEach
    refine Good.bind (Q := fun _ w' => ∃ rest, w' = { w with
      answers := rest, log := .sent p.pid sig :: w.log }) ?_ ?_
    · refine Good.bind (kill_good hl p.pid) ?_
      rintro b w' ⟨⟨rest, rfl⟩, hb⟩
      cases b with
      | true => exact ⟨rest, rfl⟩
      | false =>
        refine ⟨.inl ⟨rfl, p.pid, sig, _, ho, ?_⟩, hl⟩
        rw [← hch]; exact hb rfl
    · rintro - w' ⟨rest, rfl⟩
      refine (ih _ ?_ ?_ ?_ ?_).mono ?_
      · exact legal_reaction hl ho hd trivial
      · exact obligations_step ho _
      · exact hch
      · exact settled_cons (fun _ h => by cases h) hd.1
      · rintro - w'' ⟨rest', es, rfl, h1, h2, h3⟩
        refine ⟨rest', es ++ [.sent p.pid sig], by simp, ?_, h2, h3⟩
        intro e he
        rcases List.mem_append.mp he with he | he
        · exact h1 e he
        · simp only [List.mem_singleton] at he; subst he; trivial

/-- `initiate_shutdown`, when the obligation to do so has just arisen. -/
theorem initiateShutdown_good (sig : Nat) (w : World) (hl : Always (Legal X) w.log)
    (ho : obligations X.programs w.log =
      (w.mgr.procs.filter (fun p => p.state = .running)).map (fun p => .sent p.pid sig))
    (hch : ∀ p, p ∈ w.kernel.children ↔ Unreaped w.log p)
    (hd : Settled X w.log) :
    Good X (fun _ w' => ∃ rest es, w' = { w with
          mgr := { w.mgr with keepRunning := false }, answers := rest, log := es ++ w.log } ∧
        (∀ e ∈ es, Quiet e) ∧ obligations X.programs w'.log = [] ∧ Always (Legal X) w'.log)
      (initiateShutdown sig w) := by
  unfold initiateShutdown signalChildren
  exact kill_loop sig _ { w with mgr := { w.mgr with keepRunning := false } } hl ho hch hd

/-! ## `handle_signal` -/

/-- What a program knows of the past does not change with a signal. -/
theorem signal_tables {m : Manager} {l : Log} (n : Nat) (h : Tables X m l) :
    Tables X m (.signal n :: l) :=
  ⟨h.len, fun i p hp => ⟨(h.procs i p hp).name, (h.procs i p hp).notify, (h.procs i p hp).cron,
    (h.procs i p hp).state, (h.procs i p hp).status, (h.procs i p hp).pid⟩, h.pids, h.outs, h.errs,
    h.fdd⟩

/-- Result of most parts: the invariant again, and what happened is added to the history. -/
def Post (X : Setting) (ex : List Nat) (w w' : World) : Prop :=
  Inv X ex w'.mgr w'.kernel w'.log ∧ ∃ es, w'.log = es ++ w.log

theorem signal_inv {m : Manager} {k : Kernel} {l : Log} (n : Nat)
    (h : Inv X [] m k l) (hn : n ≠ Signal.int ∧ n ≠ Signal.quit ∧ n ≠ Signal.term) :
    Inv X [] m k (.signal n :: l) := by
  obtain ⟨n1, n2, n3⟩ := hn
  have ht : ∀ ok i, Terminated X.programs ok i (.signal n :: l) ↔ Terminated X.programs ok i l := by
    intro ok i; simp [terminated_cons]
  have ha : ∀ i, Announced X.programs i (.signal n :: l) ↔ Announced X.programs i l := by
    intro i; simp [announced_cons]
  have hs : Same X.programs l (.signal n :: l) := by
    refine ⟨fun _ => rfl, fun _ => rfl, fun _ => rfl, fun _ => rfl, fun _ => rfl, ?_, ?_, ht, ha,
      ?_, fun _ => Iff.rfl, fun _ _ => rfl⟩
    · intro i; simp [attempted_cons]
    · intro i; simp [started_cons]
    · simp [Asked, Ne.symm n1, Ne.symm n2, Ne.symm n3]
  refine h.same hs rfl (legal_cons h.legal h.calm h.notDue (fun h => h) trivial) ?_
    (idle_cons fun _ h => by cases h)
  rw [obligations_react h.calm]
  simp [reaction, n1, n2, n3]

/-- A signal that asks cinit to terminate, with the reaction to it. -/
theorem signal_shutdown {w : World} (n sig : Nat)
    (h : Inv X [] w.mgr w.kernel w.log) (hn : n = Signal.int ∨ n = Signal.quit ∨ n = Signal.term)
    (hr : reaction X.programs (.signal n :: w.log) =
      (runningPrograms X.programs w.log).map (fun i => .sent (mainPid X.programs w.log i) sig)) :
    Good X (fun _ w' => Post X [] w w' ∧ w'.kernel = w.kernel)
      (initiateShutdown sig { w with log := .signal n :: w.log }) := by
  have hlegal : Always (Legal X) (.signal n :: w.log) :=
    legal_cons h.legal h.calm h.notDue (fun h => h) trivial
  refine (initiateShutdown_good sig _ hlegal ?_ ?_
    (settled_cons (fun _ h => by cases h) h.planned)).mono ?_
  · show obligations X.programs (.signal n :: w.log) = _
    rw [obligations_react h.calm, hr]
    exact (running_map h.tables (fun p => Event.sent p sig)).symm
  · exact h.kern.children
  · rintro - w' ⟨rest, es, rfl, hq, hc, hl⟩
    have hs : Same X.programs (.signal n :: w.log) (es ++ .signal n :: w.log) := same_append hq _
    have hask : ShuttingDown X.programs (.signal n :: w.log) := by
      rcases hn with rfl | rfl | rfl
      · exact .inl (.inl (by simp))
      · exact .inl (.inr (.inl (by simp)))
      · exact .inl (.inr (.inr (by simp)))
    have ht : ∀ ok i, Terminated X.programs ok i (.signal n :: w.log) ↔
        Terminated X.programs ok i w.log := by
      intro ok i; simp [terminated_cons]
    have hcr : SomeCrash X.programs (es ++ .signal n :: w.log) ↔ SomeCrash X.programs w.log := by
      rw [hs.someCrash]; exact exists_congr fun i => ht _ i
    refine ⟨⟨⟨hl, hc, idle_append (fun e he => quiet_no_clock (hq e he))
      (idle_cons fun _ h => by cases h), ?_, ?_, ?_, ?_, ?_, ?_, h.nocron⟩, es ++ [.signal n], by simp⟩, rfl⟩
    · exact ⟨h.tables.len, ((signal_tables n h.tables).same hs).procs,
        ((signal_tables n h.tables).same hs).pids, ((signal_tables n h.tables).same hs).outs,
        ((signal_tables n h.tables).same hs).errs, ((signal_tables n h.tables).same hs).fdd⟩
    · have : Kern w.mgr w.kernel (.signal n :: w.log) :=
        ⟨h.kern.opened, h.kern.own, h.kern.apart, h.kern.epoll, h.kern.children⟩
      have := this.same hs
      exact ⟨this.opened, this.own, this.apart, this.epoll, this.children⟩
    · constructor
      · intro h; cases h
      · intro h; exact absurd (shuttingDown_append es hask) h
    · rw [hcr]; exact h.code
    · obtain ⟨F, P, h1, h2, h3, h4⟩ := h.deps
      refine DepOk.same ⟨F, P, h1, ?_, ?_, seen_cons (by simp) h4⟩ hs (lastWait_quiet hq _)
      · intro i
        rw [h2 i]
        unfold Finished Completed
        rw [ht, ht]
        simp [announced_cons]
      · intro i hi
        rw [h3 i hi]; simp [attempted_cons]
    · have : CronOk X w.mgr.cron (.signal n :: w.log) := ⟨h.cron.inv, h.cron.sched⟩
      exact this.same hs

theorem Post.refl {ex : List Nat} {w w' : World} (h : Inv X ex w.mgr w.kernel w.log)
    (h1 : w'.mgr = w.mgr) (h2 : w'.kernel = w.kernel) (h3 : w'.log = w.log) : Post X ex w w' := by
  refine ⟨by rw [h1, h2, h3]; exact h, [], by rw [h3]; rfl⟩

/-- Events that merely tell what cinit is doing. -/
def Remark : Event → Prop
  | .polled _ => True
  | .ready _ => True
  | .failed => True
  | .unpolled => True
  | .unsigned => True
  | .reaped => True
  | _ => False

theorem remark_inv {m : Manager} {k : Kernel} {l : Log} {e : Event} (he : Remark e)
    (h : Inv X [] m k l) : Inv X [] m k (e :: l) := by
  have hq : Quiet e := by cases e <;> first | exact he.elim | trivial
  cases e <;> first
    | exact he.elim
    | (refine h.same (same_quiet hq _) rfl
        (legal_cons h.legal h.calm h.notDue (fun h => h) trivial) ?_ (idle_cons fun _ h => by cases h)
       rw [obligations_react h.calm]; rfl)

theorem remark_post {w : World} {e : Event} (he : Remark e)
    (h : Inv X [] w.mgr w.kernel w.log) {rest : List Answer} :
    Good X (fun _ w' => Post X [] w w' ∧ w'.kernel = w.kernel)
      (emit e { w with answers := rest }) :=
  ⟨⟨remark_inv he h, [e], rfl⟩, rfl⟩

theorem handleSignal_good (w : World) (h : Inv X [] w.mgr w.kernel w.log) :
    Good X (fun _ w' => Post X [] w w' ∧ w'.kernel = w.kernel) (handleSignal w) := by
  unfold handleSignal
  refine Good.bind (signal_good h.legal) ?_
  rintro r w' ⟨⟨rest, rfl⟩, hr⟩
  cases r with
  | none => exact remark_post (e := .failed) trivial h
  | some n =>
    have hsd := fun sig => signal_shutdown (w := { w with answers := rest }) n sig h
    simp only [emit_bind]
    split
    · rename_i hn
      exact hsd n (by rcases hn with rfl | rfl; exacts [.inl rfl, .inr (.inl rfl)])
        (if_pos hn)
    · rename_i hn
      unfold M.when
      split
      · rename_i ht
        exact hsd SIGINT (.inr (.inr ht)) (by subst ht; rfl)
      · rename_i ht
        refine ⟨⟨signal_inv n h ⟨fun e => hn (.inl e), fun e => hn (.inr e), ht⟩, [.signal n], rfl⟩,
          rfl⟩

/-! ## Reading output -/

theorem line_loop (out : Bool) (name : Str) (ls : List Str) (w : World)
    (hl : Always (Legal X) w.log)
    (ho : obligations X.programs w.log = (ls.filter (fun t => !t.isEmpty)).map
      (fun t => .line out name t)) (hd : Settled X w.log) :
    Good X (fun _ w' => ∃ es, w' = { w with log := es ++ w.log } ∧
        (∀ e ∈ es, Quiet e) ∧ obligations X.programs w'.log = [] ∧ Always (Legal X) w'.log)
      (forEach (fun line => M.when (¬ line.isEmpty) (emit (.line out name line))) ls w) := by
  induction ls generalizing w with
  | nil =>
    show Good X _ (Out.ok () w)
    exact ⟨[], rfl, by simp, ho, hl⟩
  | cons t ls ih =>
    unfold forEach
    cases ht : t.isEmpty with
    | true =>
      simp only [M.when, not_true_eq_false, if_false, pure_bind']
      refine ih w hl ?_ hd
      rw [ho, List.filter_cons]
      simp [ht]
    | false =>
      simp only [M.when, ht, Bool.false_eq_true, not_false_eq_true, if_true, emit_bind]
      rw [List.filter_cons] at ho
      simp only [ht, Bool.not_false, if_true, List.map_cons] at ho
      refine (ih _ ?_ ?_ (settled_cons (fun _ h => by cases h) hd.1)).mono ?_
      · exact legal_reaction hl ho hd trivial
      · exact obligations_step ho _
      · rintro - w'' ⟨es, rfl, h1, h2, h3⟩
        refine ⟨es ++ [.line out name t], by simp, ?_, h2, h3⟩
        intro e he
        rcases List.mem_append.mp he with he | he
        · exact h1 e he
        · simp only [List.mem_singleton] at he; subst he; trivial

theorem printChildOutput_good (w : World) (h : Inv X [] w.mgr w.kernel w.log)
    {fd : Int} (hfd : ∃ x, stream w.log fd = some x) :
    Good X (fun _ w' => Post X [] w w' ∧ w'.kernel = w.kernel) (printChildOutput fd w) := by
  unfold printChildOutput
  refine Good.bind (read_good h.legal) ?_
  rintro r w' ⟨rest, rfl⟩
  cases r with
  | none => exact remark_post (e := .failed) trivial h
  | some bytes =>
    obtain ⟨⟨i, b⟩, hx⟩ := hfd
    obtain ⟨p, hp, hok⟩ := h.tables.proc (stream_lt h.legal hx)
    have hpf : w.mgr.processForFd fd = .ok p ∧ w.mgr.isStdout fd = b := by
      unfold processForFd isStdout AMap.contains
      cases b with
      | true =>
        have := (h.tables.outs fd i).mpr hx
        simp [this, hp]
      | false =>
        have h1 : w.mgr.stdoutDict.get? fd = none := by
          cases hg : w.mgr.stdoutDict.get? fd with
          | none => rfl
          | some j =>
            have := (h.tables.outs fd j).mp hg
            rw [hx] at this; cases this
        have h2 := (h.tables.errs fd i).mpr hx
        simp [h1, h2, hp]
    simp only [emit_bind, get_bind, hpf.1, hpf.2, lift_ok_bind]
    have hname : (X.programs[i]?.map (·.name)).getD [] = p.name := by rw [hok.name]; rfl
    have hlegal : Always (Legal X) (.chunk fd bytes :: w.log) :=
      legal_cons h.legal h.calm h.notDue (fun h => h) ⟨_, hx⟩
    refine (line_loop (X := X) b p.name _
      { w with answers := rest, log := .chunk fd bytes :: w.log } hlegal ?_
      (settled_cons (fun _ h => by cases h) h.planned)).mono ?_
    · show obligations X.programs (.chunk fd bytes :: w.log) = _
      rw [obligations_react h.calm]
      simp only [reaction, hx, hname]
    · rintro - w'' ⟨es, rfl, h1, h2, h3⟩
      refine ⟨⟨h.same ?_ (lastWait_quiet h1 _) h3 h2 (idle_append (fun e he => quiet_no_clock (h1 e he))
        (idle_cons fun _ h => by cases h)), es ++ [.chunk fd bytes], by simp⟩, rfl⟩
      exact (same_quiet (e := .chunk fd bytes) trivial _).trans (same_append h1 _)

/-! ## The status report -/

theorem unlines_cons (a : Str) (ls : List Str) : unlines (a :: ls) = a ++ '\n' :: unlines ls := by
  simp [unlines]

theorem unlines_append (a b : List Str) : unlines (a ++ b) = unlines a ++ unlines b := by
  simp [unlines]

theorem unlines_nil : unlines [] = [] := rfl

theorem show_word (s : PState) : s.show = word s := by cases s <;> rfl

theorem formatProgram_ok (env : Env) {m : Manager} {l : Log} (ht : Tables X m l)
    (hc : CronOk X m.cron l) {i : Nat} {p : Process} (hp : m.procs[i]? = some p)
    {shown : Nat → Bool} {plan : Nat → Str}
    (hshown : shown i = (m.pidDict.get? (mainPid X.programs l i)).isSome)
    (hplan : ∀ t, m.cron.nextExecution i = .ok t → plan i = env.rfc3339 t) :
    formatProgram env m i p =
      .ok (unlines (reportLines X.programs l shown plan i p.name)) := by
  have hok := ht.procs i p hp
  have e1 : ("'\n    state: '".toList : Str) = '\'' :: '\n' :: "    state: '".toList := rfl
  have e2 : ("'\n".toList : Str) = ['\'', '\n'] := rfl
  have e3 : ("    exit_code: 0\n".toList : Str) = "    exit_code: 0".toList ++ ['\n'] := rfl
  have hcr : p.ptype = .cronjob ↔ isCronjob X.programs i := hok.cron
  have hnx : isCronjob X.programs i → ∃ t, m.cron.nextExecution i = .ok t := by
    intro hcj
    have hid : i ∈ cronIds ⟨X.programs⟩ := by
      rw [mem_cronIds]
      obtain ⟨c, h1, t, h2⟩ := hcj
      exact ⟨c, h1, by rw [h2]; rfl⟩
    obtain ⟨t, -, h2, -⟩ := Cron.nextExecution_spec hc.inv hid
    exact ⟨t, h2⟩
  unfold formatProgram reportLines processIdForPid
  rw [← hok.state, ← hok.status, hshown, ← hok.pid, e1, e2, e3, show_word]
  generalize ("  - name: '".toList : Str) = s1
  generalize ("    state: '".toList : Str) = s2
  generalize ("    status: ".toList : Str) = s3
  generalize ("    exit_code: ".toList : Str) = s4
  generalize ("    exit_code: 0".toList : Str) = s5
  generalize ("    pid: ".toList : Str) = s6
  generalize ("    scheduled_at: '".toList : Str) = s7
  clear e1 e2 e3 hok
  by_cases hcj : isCronjob X.programs i
  · obtain ⟨t, h2⟩ := hnx hcj
    rw [hplan t h2]
    simp only [if_pos (hcr.mpr hcj), if_pos hcj, h2, Res.bind_ok]
    cases p.status <;> cases p.state <;> cases m.pidDict.get? p.pid <;> simp [unlines]
  · simp only [if_neg (fun e => hcj (hcr.mp e)), if_neg hcj]
    cases p.status <;> cases p.state <;> cases m.pidDict.get? p.pid <;> simp [unlines]

theorem formatPrograms_ok (env : Env) {m : Manager} {l : Log} (ht : Tables X m l)
    (hc : CronOk X m.cron l) {shown : Nat → Bool} {plan : Nat → Str}
    (hshown : ∀ i, shown i = (m.pidDict.get? (mainPid X.programs l i)).isSome)
    (hplan : ∀ i t, m.cron.nextExecution i = .ok t → plan i = env.rfc3339 t)
    (L : List Process) (k : Nat) (hL : ∀ i p, L[i]? = some p → m.procs[k + i]? = some p) :
    ∀ (cs : List ProcessConfig), (∀ i : Nat, cs[i]? = X.programs[k + i]?) → cs.length = L.length →
    formatPrograms env m k L = .ok (unlines ((cs.zipIdx k).flatMap
      (fun x => reportLines X.programs l shown plan x.2 x.1.name))) := by
  induction L generalizing k with
  | nil =>
    intro cs h1 h2
    have : cs = [] := List.length_eq_zero_iff.mp h2
    subst this; rfl
  | cons p L ih =>
    intro cs h1 h2
    cases cs with
    | nil => simp at h2
    | cons c cs =>
      unfold formatPrograms
      have hp : m.procs[k]? = some p := hL 0 p rfl
      have hname : c.name = p.name := by
        have := (ht.procs k p hp).name
        have h0 := h1 0
        simp only [List.getElem?_cons_zero, Nat.add_zero] at h0
        rw [← h0] at this
        simpa using this
      rw [formatProgram_ok env ht hc hp (hshown k) (hplan k),
        ih (k + 1) (fun i q hq => by
          have := hL (i + 1) q (by simpa using hq)
          rwa [show k + 1 + i = k + (i + 1) by omega]) cs (fun i => by
          have := h1 (i + 1)
          rw [show k + 1 + i = k + (i + 1) by omega, ← this]; rfl) (by simpa using h2)]
      simp [unlines_append, hname]

theorem formatReport_ok (env : Env) {m : Manager} {l : Log} (ht : Tables X m l)
    (hc : CronOk X m.cron l) {shown : Nat → Bool} {plan : Nat → Str}
    (hshown : ∀ i, shown i = (m.pidDict.get? (mainPid X.programs l i)).isSome)
    (hplan : ∀ i t, m.cron.nextExecution i = .ok t → plan i = env.rfc3339 t) :
    formatReport env m = .ok (reportText X.programs l shown plan) := by
  unfold formatReport reportText
  have e1 : ("programs:\n".toList : Str) = "programs:".toList ++ ['\n'] := rfl
  rw [formatPrograms_ok env ht hc hshown hplan m.procs 0 (fun i p hp => by simpa using hp)
    X.programs (fun i => by simp) ht.len.symm, e1]
  generalize ("programs:".toList : Str) = s1
  simp [unlines_cons, enumerate, List.flatMap_map]

theorem reportStatus_good (env : Env) (henv : env.rfc3339 = X.rfc3339) (w : World)
    (h : Inv X [] w.mgr w.kernel w.log) :
    Good X (fun _ w' => Post X [] w w' ∧ w'.kernel = w.kernel) (reportStatus env w) := by
  unfold reportStatus
  refine Good.bind (accept_good h.legal) ?_
  rintro r w' ⟨rest, rfl⟩
  cases r with
  | none => exact remark_post (e := .failed) trivial h
  | some wrote =>
    let shown : Nat → Bool := fun i => (w.mgr.pidDict.get? (mainPid X.programs w.log i)).isSome
    let plan : Nat → Str := fun i => match w.mgr.cron.nextExecution i with
      | .ok t => env.rfc3339 t
      | _ => []
    have hplan : ∀ i t, w.mgr.cron.nextExecution i = .ok t → plan i = env.rfc3339 t := by
      intro i t ht; simp only [plan, ht]
    have hf : w.mgr.formatReport env = .ok (reportText X.programs w.log shown plan) :=
      formatReport_ok env h.tables h.cron (fun _ => rfl) hplan
    simp only [get_bind, hf, lift_ok_bind]
    split
    · have hq : Quiet (.report (reportText X.programs w.log shown plan)) := trivial
      refine ⟨⟨h.same (same_quiet hq _) rfl ?_ ?_ (idle_cons fun _ h => by cases h), [.report _], rfl⟩, rfl⟩
      · refine legal_cons h.legal h.calm h.notDue (fun h => h) ⟨shown, plan, rfl, ?_, ?_⟩
        · intro i _
          simp only [shown, h.tables.pids, Option.isSome_iff_exists]
        · rintro i ⟨c, h1, t, h2⟩
          have hid : i ∈ cronIds ⟨X.programs⟩ := by
            rw [mem_cronIds]
            exact ⟨c, h1, by rw [h2]; rfl⟩
          obtain ⟨t, -, h3, -⟩ := Cron.nextExecution_spec h.cron.inv hid
          exact ⟨w.mgr.cron, t, h.cron.sched, h3, by rw [hplan i t h3, henv]⟩
      · rw [obligations_react h.calm]; rfl
    · exact remark_post (e := .failed) trivial h

/-! ## Notifications -/

theorem same_rejected {ps : List ProcessConfig} {l : Log} {q : Int} {text : Str}
    (h : ∀ i, ¬ Accepts ps l q i) : Same ps l (.datagram q text :: l) := by
  refine ⟨?_, ?_, ?_, ?_, fun _ => rfl, ?_, ?_, ?_, ?_, ?_, fun _ => Iff.rfl, fun _ _ => rfl⟩
  · intro p
    simp only [owner]
    split
    · rename_i i r h1 _
      rw [if_neg (fun hn => h i ⟨h1, hn⟩)]
    · rfl
  · intro i; simp [mainPid, h i]
  · intro i; simp [state, h i]
  · intro i; simp [status, h i]
  · intro i; simp [attempted_cons]
  · intro i; simp [started_cons]
  · intro ok i; simp [terminated_cons]
  · intro i; simp [announced_cons, h i]
  · simp [Asked]

theorem datagram_obligations {X : Setting} {l : Log} (h : obligations X.programs l = []) (q : Int)
    (text : Str) : obligations X.programs (.datagram q text :: l) = [] := by
  rw [obligations_react h]; rfl

/-- What follows a message. -/
theorem datagram_good (env : Env) (w : World) (h : Inv X [] w.mgr w.kernel w.log) (q : Int)
    (text : Str) (hrule : Rule X w.log (.datagram q text)) :
    Good X (fun _ w' => Post X [] w w' ∧ w'.kernel = w.kernel)
      ((do
        let w ← get
        let m ← lift (w.mgr.process (env.order w.log) text q)
        modifyMgr fun _ => m : M Unit) { w with log := .datagram q text :: w.log }) := by
  simp only [get_bind]
  have hlegal : Always (Legal X) (.datagram q text :: w.log) :=
    legal_cons h.legal h.calm h.notDue (fun h => h) hrule
  have hcalm := datagram_obligations h.calm q text
  by_cases hacc : ∃ i, Accepts X.programs w.log q i
  · obtain ⟨i, ho, hn⟩ := hacc
    have hacc : ∀ j, Accepts X.programs w.log q j ↔ j = i := by
      intro j
      constructor
      · rintro ⟨h1, -⟩; rw [ho] at h1; cases h1; rfl
      · rintro rfl; exact ⟨ho, hn⟩
    obtain ⟨hi, hmp, hact, hst⟩ := owner_facts h.legal ho
    obtain ⟨p, hp, hok⟩ := h.tables.proc hi
    have hg : w.mgr.processIdForPid q = some i := (h.tables.pids q).trans ho
    rw [process_accepted _ hg hp (hok.notify.mpr hn)]
    have hncron : ¬ isCronjob X.programs i := fun hc => isCronjob_not_isNotify hc hn
    -- what follows for the dependency manager
    have hdeps : ∃ d, (if saysReady text then w.mgr.deps.notifyProcessFinished i
        else .ok w.mgr.deps) = .ok d ∧ DepOk X [] d (.datagram q text :: w.log) := by
      obtain ⟨F, P, h1, h2, h3, h4⟩ := h.deps
      have hfin : ∀ j, Finished X.programs j (.datagram q text :: w.log) ↔
          (saysReady text ∧ j = i) ∨ Finished X.programs j w.log := by
        intro j
        unfold Finished Completed
        have ht : ∀ ok, Terminated X.programs ok j (.datagram q text :: w.log) ↔
            Terminated X.programs ok j w.log := by
          intro ok; simp [terminated_cons]
        rw [ht, ht]
        have ha : Announced X.programs j (.datagram q text :: w.log) ↔
            (saysReady text ∧ j = i) ∨ Announced X.programs j w.log := by
          rw [announced_cons]
          simp only [Event.datagram.injEq]
          constructor
          · rintro (⟨_, _, ⟨rfl, rfl⟩, h1, h2⟩ | h1)
            · exact .inl ⟨h2, (hacc j).mp h1⟩
            · exact .inr h1
          · rintro (⟨h1, h2⟩ | h1)
            · exact .inl ⟨_, _, ⟨rfl, rfl⟩, (hacc j).mpr h2, h1⟩
            · exact .inr h1
        rw [ha]
        constructor
        · rintro ⟨g1, (g2 | g2 | g2) | g2⟩
          · exact .inr ⟨g1, .inl (.inl g2)⟩
          · exact .inl g2
          · exact .inr ⟨g1, .inl (.inr g2)⟩
          · exact .inr ⟨g1, .inr g2⟩
        · rintro (⟨g1, rfl⟩ | ⟨g1, (g2 | g2) | g2⟩)
          · exact ⟨hncron, .inl (.inr (.inl ⟨g1, rfl⟩))⟩
          · exact ⟨g1, .inl (.inl g2)⟩
          · exact ⟨g1, .inl (.inr (.inr g2))⟩
          · exact ⟨g1, .inr g2⟩
      have hatt : ∀ j, ¬ isCronjob X.programs j → (j ∈ P ↔
          Attempted j (.datagram q text :: w.log) ∨ j ∈ []) := by
        intro j hj; rw [h3 j hj]; simp [attempted_cons]
      by_cases hr : saysReady text
      · obtain ⟨d', g1, g2, -, -⟩ := DepMgr.notify_ok h1 hi
        refine ⟨d', by rw [if_pos hr]; exact g1, i :: F, P, g2, ?_, hatt, seen_cons (by simp) h4⟩
        intro j
        rw [hfin, List.mem_cons, h2]
        simp [hr]
      · refine ⟨_, by rw [if_neg hr], F, P, h1, ?_, hatt, seen_cons (by simp) h4⟩
        intro j
        rw [hfin, h2]
        simp [hr]
    obtain ⟨d, hd, hdep⟩ := hdeps
    rw [hd]
    simp only [Res.bind_ok, lift_ok_bind]
    have hsh : ShuttingDown X.programs (.datagram q text :: w.log) ↔
        ShuttingDown X.programs w.log := by
      simp [ShuttingDown, SomeCrash, Asked, terminated_cons]
    have hcr : SomeCrash X.programs (.datagram q text :: w.log) ↔
        SomeCrash X.programs w.log := by
      simp [SomeCrash, terminated_cons]
    refine ⟨⟨⟨hlegal, hcalm, idle_cons (fun _ h => by cases h), ?_, ?_, ?_, ?_, hdep, ?_, h.nocron⟩, [.datagram q text], rfl⟩, rfl⟩
    · refine ⟨?_, ?_, ?_, h.tables.outs, h.tables.errs, h.tables.fdd⟩
      · simpa using h.tables.len
      · intro j p' hp'
        simp only [M.modifyMgr] at hp'
        rw [List.getElem?_set] at hp'
        split at hp'
        · rename_i hij
          subst hij
          split at hp'
          · cases hp'
            refine ⟨hok.name, hok.notify, hok.cron, ?_, ?_, ?_⟩
            · simp [applyText, state, (hacc i).mpr rfl, hok.state]
            · simp [applyText, status, (hacc i).mpr rfl, hok.status]
            · simp [applyText, mainPid, (hacc i).mpr rfl, hok.pid]
          · cases hp'
        · rename_i hij
          have := h.tables.procs j p' hp'
          have hna : ¬ Accepts X.programs w.log q j := fun e => hij ((hacc j).mp e).symm
          refine ⟨this.name, this.notify, this.cron, ?_, ?_, ?_⟩
          · simp [state, hna, this.state]
          · simp [status, hna, this.status]
          · simp [mainPid, hna, this.pid]
      · intro p'
        simp only [M.modifyMgr, owner, ho]
        cases newMainPid text with
        | none => exact h.tables.pids p'
        | some r =>
          simp only [AMap.get?_insert, AMap.get?_erase, if_pos hn, hok.pid, hmp,
            h.tables.pids]
          simp only [eq_comm]
    · exact ⟨h.kern.opened, h.kern.own, h.kern.apart, h.kern.epoll, h.kern.children⟩
    · rw [hsh]; exact h.keep
    · rw [hcr]; exact h.code
    · exact ⟨h.cron.inv, h.cron.sched⟩
  · have hrej : ∀ i, ¬ Accepts X.programs w.log q i := fun i hi => hacc ⟨i, hi⟩
    rw [process_rejected]
    · simp only [lift_ok_bind]
      exact ⟨⟨h.same (same_rejected hrej) rfl hlegal hcalm (idle_cons fun _ h => by cases h), [.datagram q text], rfl⟩, rfl⟩
    · intro i hi
      have ho : owner X.programs w.log q = some i := (h.tables.pids q).symm.trans hi
      obtain ⟨p, hp, hok⟩ := h.tables.proc (owner_facts h.legal ho).1
      exact ⟨p, hp, fun e => hrej i ⟨ho, hok.notify.mp e⟩⟩

theorem received_inv {w : World} (h : Inv X [] w.mgr w.kernel w.log) (bytes : List Nat) :
    Inv X [] w.mgr w.kernel (.received bytes :: w.log) := by
  refine h.same (same_quiet (e := .received bytes) trivial _) rfl
    (legal_cons h.legal h.calm h.notDue (fun h => h) trivial) ?_ (idle_cons fun _ h => by cases h)
  rw [obligations_react h.calm]; rfl

theorem readNotification_good (env : Env) (w : World)
    (h : Inv X [] w.mgr w.kernel w.log) :
    Good X (fun _ w' => Post X [] w w' ∧ w'.kernel = w.kernel) (readNotification env w) := by
  unfold readNotification
  refine Good.bind (Q := fun r w' => ∃ rest, match r with
    | none => ∃ es, w' = { w with answers := rest, log := es ++ w.log } ∧
        Inv X [] w'.mgr w'.kernel w'.log
    | some (text, q) => ∃ bytes, w' = { w with
          answers := rest, log := .datagram q text :: .received bytes :: w.log } ∧
        fromUtf8 (bytes.takeWhile (· ≠ 0)) = some text) ?_ ?_
  · unfold readSocket
    refine Good.bind (recv_good h.legal) ?_
    rintro r w' ⟨rest, rfl⟩
    cases r with
    | none => exact ⟨rest, [.failed], rfl, remark_inv trivial h⟩
    | some bc =>
      obtain ⟨bytes, cred⟩ := bc
      have hi := received_inv h bytes
      simp only [emit_bind]
      split
      · rename_i he
        rw [List.isEmpty_iff] at he
        subst he
        exact ⟨.inr (.inr (.inl ⟨rfl, _, rfl⟩)), hi.legal⟩
      · unfold sliceToString
        split
        · rename_i hb
          exact ⟨.inr (.inr (.inr (.inl ⟨rfl, _, _, rfl, hb⟩))), hi.legal⟩
        · cases ht : fromUtf8 (bytes.takeWhile (· ≠ 0)) with
          | none => exact ⟨.inr (.inl ⟨rfl, _, _, rfl, ht⟩), hi.legal⟩
          | some t =>
            simp only [Res.ofOption_some, lift_ok_bind]
            cases cred with
            | none => exact ⟨rest, [.unsigned, .received bytes], rfl, remark_inv trivial hi⟩
            | some q => exact ⟨rest, bytes, rfl, ht⟩
  · rintro r w' ⟨rest, hw⟩
    cases r with
    | none =>
      obtain ⟨es, rfl, hi⟩ := hw
      exact ⟨⟨hi, es, rfl⟩, rfl⟩
    | some tq =>
      obtain ⟨text, q⟩ := tq
      obtain ⟨bytes, rfl, ht⟩ := hw
      refine (datagram_good env { w with answers := rest, log := .received bytes :: w.log }
        (received_inv h bytes) q text ⟨bytes, w.log, rfl, ht⟩).mono ?_
      rintro - w'' ⟨⟨h1, es, h2⟩, h3⟩
      exact ⟨⟨h1, es ++ [.received bytes], by rw [h2]; simp⟩, h3⟩

/-! ## Closing a stream -/

theorem hangup_inv {m : Manager} {k : Kernel} {l : Log} (fd : Int)
    (h : Inv X [] m k l) (hfd : fd ∈ k.epoll) :
    Inv X [] (deregisterFd fd m)
      { k with
        epoll := k.epoll.filter (· ≠ fd)
        fds := if fd ∈ m.fdDict then k.fds.filter (· ≠ fd) else k.fds } (.hangup fd :: l) := by
  have ht : ∀ ok i, Terminated X.programs ok i (.hangup fd :: l) ↔ Terminated X.programs ok i l := by
    intro ok i; simp [terminated_cons]
  have ha : ∀ i, Announced X.programs i (.hangup fd :: l) ↔ Announced X.programs i l := by
    intro i; simp [announced_cons]
  have hcr : SomeCrash X.programs (.hangup fd :: l) ↔ SomeCrash X.programs l :=
    exists_congr fun i => ht _ i
  have hsh : ShuttingDown X.programs (.hangup fd :: l) ↔ ShuttingDown X.programs l := by
    unfold ShuttingDown; rw [hcr]; simp [Asked]
  have hspecial : ∀ g, stream l g = none → g ∈ k.fds →
      g ∈ (if fd ∈ m.fdDict then k.fds.filter (· ≠ fd) else k.fds) := by
    intro g hg hm
    split
    · rename_i hd
      rw [List.mem_filter]
      refine ⟨hm, ?_⟩
      simp only [ne_eq, decide_eq_true_eq]
      rintro rfl
      obtain ⟨x, hx⟩ := (h.tables.fdd g).mp hd
      rw [hg] at hx; cases hx
    · exact hm
  have hnone : ∀ g, stream l g = none → stream (.hangup fd :: l) g = none := by
    intro g hg
    simp only [stream]
    split
    · rfl
    · exact hg
  refine ⟨legal_cons h.legal h.calm h.notDue (fun h => h) trivial, ?_,
    idle_cons (fun _ h => by cases h), ?_, ?_, ?_, ?_, ?_, ?_, h.nocron⟩
  · rw [obligations_react h.calm]; rfl
  · refine ⟨h.tables.len, fun i p hp => ?_, h.tables.pids, ?_, ?_, ?_⟩
    · have := h.tables.procs i p hp
      exact ⟨this.name, this.notify, this.cron, this.state, this.status, this.pid⟩
    · intro g i
      simp only [deregisterFd, AMap.get?_erase, stream]
      by_cases hg : g = fd
      · subst hg; simp
      · rw [if_neg (fun e => hg e.symm), if_neg hg]; exact h.tables.outs g i
    · intro g i
      simp only [deregisterFd, AMap.get?_erase, stream]
      by_cases hg : g = fd
      · subst hg; simp
      · rw [if_neg (fun e => hg e.symm), if_neg hg]; exact h.tables.errs g i
    · intro g
      simp only [deregisterFd, List.mem_filter, stream]
      by_cases hg : g = fd
      · subst hg; simp
      · rw [if_neg hg]; simpa [hg] using h.tables.fdd g
  · refine ⟨?_, ?_, ?_, ?_, h.kern.children⟩
    · intro g x hx
      simp only [stream] at hx
      split at hx
      · cases hx
      · rename_i hg
        have := h.kern.opened g x hx
        simp only
        split
        · rw [List.mem_filter]; exact ⟨this, by simpa using hg⟩
        · exact this
    · exact ⟨hspecial _ h.kern.apart.1 h.kern.own.1, hspecial _ h.kern.apart.2.1 h.kern.own.2.1,
        hspecial _ h.kern.apart.2.2 h.kern.own.2.2⟩
    · exact ⟨hnone _ h.kern.apart.1, hnone _ h.kern.apart.2.1, hnone _ h.kern.apart.2.2⟩
    · intro g hg
      rw [List.mem_filter] at hg
      obtain ⟨h1, h2⟩ := hg
      have h2 : g ≠ fd := by simpa using h2
      simp only [stream, if_neg h2]
      exact h.kern.epoll g h1
  · rw [hsh]; exact h.keep
  · rw [hcr]; exact h.code
  · obtain ⟨F, P, h1, h2, h3, h4⟩ := h.deps
    refine ⟨F, P, h1, ?_, ?_, seen_cons (by simp) h4⟩
    · intro i
      rw [h2 i]
      unfold Finished Completed
      rw [ht, ht, ha]
    · intro i hi
      rw [h3 i hi]; simp [attempted_cons]
  · exact ⟨h.cron.inv, h.cron.sched⟩

/-! ## `handle_event`, `dispatch_epoll` -/

theorem handleEvent_good (env : Env) (henv : env.rfc3339 = X.rfc3339) (ev : Ready)
    (w : World) (h : Inv X [] w.mgr w.kernel w.log) (hev : ev.fd ∈ w.kernel.epoll) :
    Good X (fun _ w' => Post X [] w w' ∧
      ∀ fd ∈ w.kernel.epoll, fd ≠ ev.fd → fd ∈ w'.kernel.epoll) (handleEvent env ev w) := by
  unfold handleEvent
  simp only [emit_bind, get_bind]
  replace h := remark_inv (e := .ready ev) trivial h
  have keep : ∀ {o : Out Unit}, Good X (fun _ w' =>
      Post X [] { w with log := .ready ev :: w.log } w' ∧ w'.kernel = w.kernel) o →
      Good X (fun _ w' => Post X [] w w' ∧
        ∀ fd ∈ w.kernel.epoll, fd ≠ ev.fd → fd ∈ w'.kernel.epoll) o := by
    intro o ho
    refine ho.mono ?_
    rintro a w' ⟨⟨h1, es, h3⟩, h2⟩
    exact ⟨⟨h1, es ++ [.ready ev], by rw [h3]; simp⟩, fun fd hfd _ => by rw [h2]; exact hfd⟩
  split
  · split
    · exact keep (handleSignal_good _ h)
    · split
      · exact keep (reportStatus_good env henv _ h)
      · split
        · exact keep (readNotification_good env _ h)
        · rename_i h1 h2 h3
          refine keep (printChildOutput_good _ h ?_)
          rcases h.kern.epoll _ hev with e | e | e | e
          · exact absurd e h1
          · exact absurd e h2
          · exact absurd e h3
          · exact e
  · split
    · have hinv := hangup_inv ev.fd h hev
      show Good X _ ((M.when (ev.fd ∈ w.mgr.fdDict) (Sys.close ev.fd) >>= fun _ =>
        modifyMgr (deregisterFd ev.fd)) _)
      unfold M.when
      split
      · rename_i hd
        rw [if_pos hd] at hinv
        refine ⟨⟨hinv, [.hangup ev.fd, .ready ev], rfl⟩, ?_⟩
        intro fd hfd hne
        exact List.mem_filter.mpr ⟨hfd, by simpa using hne⟩
      · rename_i hd
        rw [if_neg hd] at hinv
        refine ⟨⟨hinv, [.hangup ev.fd, .ready ev], rfl⟩, ?_⟩
        intro fd hfd hne
        exact List.mem_filter.mpr ⟨hfd, by simpa using hne⟩
    · exact ⟨⟨h, [.ready ev], rfl⟩, fun fd hfd _ => hfd⟩

theorem Post.trans {ex ex' : List Nat} {a b c : World} (h : Post X ex a b) (h' : Post X ex' b c) :
    Post X ex' a c := by
  obtain ⟨-, es, h1⟩ := h
  obtain ⟨h2, es', h3⟩ := h'
  exact ⟨h2, es' ++ es, by rw [h3, h1, List.append_assoc]⟩

theorem handleEvents_good (env : Env) (henv : env.rfc3339 = X.rfc3339)
    (evs : List Ready) (w : World) (h : Inv X [] w.mgr w.kernel w.log)
    (hnd : (evs.map (·.fd)).Nodup) (hreg : ∀ e ∈ evs, e.fd ∈ w.kernel.epoll) :
    Good X (fun _ w' => Post X [] w w') (forEach (handleEvent env) evs w) := by
  induction evs generalizing w with
  | nil => exact Post.refl h rfl rfl rfl
  | cons ev evs ih =>
    unfold forEach
    refine Good.bind (handleEvent_good env henv ev w h (hreg ev (by simp))) ?_
    rintro - w' ⟨h1, h2⟩
    rw [List.map_cons, List.nodup_cons] at hnd
    refine (ih w' h1.1 hnd.2 ?_).mono (fun _ w'' h3 => h1.trans h3)
    intro e he
    refine h2 _ (hreg e (by simp [he])) ?_
    intro heq
    exact hnd.1 (heq ▸ List.mem_map_of_mem he)

/-- Nothing that could be started is left waiting. -/
def Caught (X : Setting) (m : Manager) : Prop := m.keepRunning = true → m.deps.runnable = []

theorem caught_handed {m : Manager} {k : Kernel} {l : Log} (h : Inv X [] m k l)
    (hc : Caught X m) (hs : ¬ ShuttingDown X.programs l) {F P : List Nat}
    (h1 : DepMgr.DepInv X.programs F P m.deps) (h2 : ∀ i, i ∈ F ↔ Finished X.programs i l)
    (i : Nat) (hi : i < X.programs.length) (hu : Unblocked X.programs i l) : i ∈ P := by
  have hr := hc (h.keep.mpr hs)
  have harch : i ∈ m.deps.archive := by
    rw [h1.archive_iff hi]
    intro j hj
    exact (h2 j).mpr ⟨h.nocron j i hj, .inl (hu j hj)⟩
  have := (h1.queue i).mpr harch
  rwa [hr, List.nil_append] at this

theorem caught_attempted {m : Manager} {k : Kernel} {l : Log} (h : Inv X [] m k l)
    (hc : Caught X m) (hs : ¬ ShuttingDown X.programs l) (i : Nat) (hi : i < X.programs.length)
    (hn : ¬ isCronjob X.programs i) (hu : Unblocked X.programs i l) : Attempted i l := by
  obtain ⟨F, P, h1, h2, h3, -⟩ := h.deps
  have := caught_handed h hc hs h1 h2 i hi hu
  rw [h3 i hn] at this
  simpa using this

theorem polling_inv {w : World} (h : Inv X [] w.mgr w.kernel w.log) (hc : Caught X w.mgr)
    (hn : w.mgr.keepRunning = true → NothingDue X.zone X.cron w.log)
    (hb : Occupied X.programs w.log) : Inv X [] w.mgr w.kernel (.polling :: w.log) := by
  have hs := same_polling (ps := X.programs) w.log
  refine ⟨legal_cons h.legal h.calm h.notDue (fun h => h)
      ⟨hb, fun hs => ⟨caught_attempted h hc hs, hn (h.keep.mpr hs)⟩⟩, ?_,
    idle_cons (fun _ h => by cases h), h.tables.same hs, h.kern.same hs, ?_, ?_, ?_,
    h.cron.same hs, h.nocron⟩
  · rw [obligations_react h.calm]; rfl
  · rw [hs.shuttingDown]; exact h.keep
  · rw [hs.someCrash]; exact h.code
  · obtain ⟨F, P, h1, h2, h3, h4⟩ := h.deps
    refine ⟨F, P, h1, fun i => (h2 i).trans (finished_same hs i).symm,
      fun i hi => by rw [hs.attempted]; exact h3 i hi, ?_⟩
    intro i l' hl ho hi hu
    cases hl
    exact caught_handed h hc (by rw [← hs.shuttingDown]; exact ho) h1 h2 i hi hu

theorem dispatchEpoll_good (env : Env) (henv : env.rfc3339 = X.rfc3339)
    (w : World) (h : Inv X [] w.mgr w.kernel w.log) (hc : Caught X w.mgr)
    (hn : w.mgr.keepRunning = true → NothingDue X.zone X.cron w.log)
    (hb : Occupied X.programs w.log) :
    Good X (fun _ w' => Post X [] w w') (dispatchEpoll env w) := by
  unfold dispatchEpoll
  simp only [emit_bind]
  have h' := polling_inv h hc hn hb
  refine Good.bind (epollWait_good (w := { w with log := .polling :: w.log }) h'.legal) ?_
  rintro r w' ⟨⟨rest, rfl⟩, hr⟩
  cases r with
  | none => exact ⟨remark_inv trivial h', [.unpolled, .polling], rfl⟩
  | some evs =>
    obtain ⟨h1, h2⟩ := hr evs rfl
    refine (handleEvents_good env henv evs
      { w with answers := rest, log := .polled evs :: .polling :: w.log }
      (remark_inv trivial h') h1 h2).mono ?_
    rintro - w'' ⟨h3, es, h4⟩
    exact ⟨h3, es ++ [.polled evs, .polling], by rw [h4]; simp⟩

end Cinit
