import Verif.Proofs.Supervision
import Verif.Proofs.DepGraph
import Verif.Proofs.CronSched
/-!
# The invariant of the event loop
-/

namespace Cinit

open Spec

/-- A process entry agrees with the history. -/
structure ProcOk (X : Setting) (l : Log) (i : Nat) (p : Process) : Prop where
  name : X.programs[i]?.map (·.name) = some p.name
  notify : p.ptype = .notify ↔ isNotify X.programs i
  cron : p.ptype = .cronjob ↔ isCronjob X.programs i
  state : p.state = Spec.state X.programs l i
  status : p.status = Spec.status X.programs l i
  pid : p.pid = mainPid X.programs l i

/-- The tables agree with the history. -/
structure Tables (X : Setting) (m : Manager) (l : Log) : Prop where
  len : m.procs.length = X.programs.length
  procs : ∀ i p, m.procs[i]? = some p → ProcOk X l i p
  pids : ∀ p, m.pidDict.get? p = owner X.programs l p
  outs : ∀ fd i, m.stdoutDict.get? fd = some i ↔ stream l fd = some (i, true)
  errs : ∀ fd i, m.stderrDict.get? fd = some i ↔ stream l fd = some (i, false)
  fdd : ∀ fd, fd ∈ m.fdDict ↔ ∃ x, stream l fd = some x

/-- The kernel agrees with the history. -/
structure Kern (m : Manager) (k : Kernel) (l : Log) : Prop where
  opened : ∀ fd x, stream l fd = some x → fd ∈ k.fds
  own : m.signalFd ∈ k.fds ∧ m.statusFd ∈ k.fds ∧ m.notifyFd ∈ k.fds
  apart : stream l m.signalFd = none ∧ stream l m.statusFd = none ∧ stream l m.notifyFd = none
  epoll : ∀ fd ∈ k.epoll, fd = m.signalFd ∨ fd = m.statusFd ∨ fd = m.notifyFd ∨
    ∃ x, stream l fd = some x
  children : ∀ p, p ∈ k.children ↔ Unreaped l p

/-- What the dependency manager regards as finished. -/
def Finished (ps : List ProcessConfig) (i : Nat) (l : Log) : Prop :=
  ¬ isCronjob ps i ∧ (Completed ps i l ∨ Terminated ps false i l)

/-- The programs `P` handed out include those that could be started when cinit last waited. -/
def Seen (X : Setting) (P : List Nat) (l : Log) : Prop :=
  ∀ i l', lastWait l = some l' → ¬ ShuttingDown X.programs l → i < X.programs.length →
    Unblocked X.programs i l' → i ∈ P

/-- The dependency manager agrees with the history; `extra` have been taken from it without
having been started yet. -/
def DepOk (X : Setting) (extra : List Nat) (d : DepMgr) (l : Log) : Prop :=
  ∃ F P, DepMgr.DepInv X.programs F P d ∧ (∀ i, i ∈ F ↔ Finished X.programs i l) ∧
    (∀ i, ¬ isCronjob X.programs i → (i ∈ P ↔ Attempted i l ∨ i ∈ extra)) ∧ Seen X P l

/-- The schedule agrees with the history. -/
structure CronOk (X : Setting) (c : Cron) (l : Log) : Prop where
  inv : c.Inv (CronTimer ⟨X.programs⟩) (cronIds ⟨X.programs⟩)
  sched : schedule X.zone X.cron l = some c

/-- The invariant. -/
structure Inv (X : Setting) (extra : List Nat) (m : Manager) (k : Kernel) (l : Log) : Prop where
  legal : Always (Legal X) l
  calm : obligations X.programs l = []
  idle : ∀ i, Due X.zone X.cron i l → i ∈ extra
  tables : Tables X m l
  kern : Kern m k l
  keep : m.keepRunning = true ↔ ¬ ShuttingDown X.programs l
  code : (SomeCrash X.programs l → m.exitCode = 6) ∧ (¬ SomeCrash X.programs l → m.exitCode = 0)
  deps : DepOk X extra m.deps l
  cron : CronOk X m.cron l
  nocron : ∀ i j, DependsOn X.programs i j → ¬ isCronjob X.programs i

/-- Reasons for which the event loop may abort, with what is known then. -/
def Tolerated (X : Setting) (p : Panic) (w : World) : Prop :=
  (p = .killFailed ∧ ∃ pid sig rest, obligations X.programs w.log = .sent pid sig :: rest ∧
    ¬ Unreaped w.log pid) ∨
  (p = .invalidUtf8 ∧ ∃ bytes past, w.log = .received bytes :: past ∧
    fromUtf8 (bytes.takeWhile (· ≠ 0)) = none) ∨
  (p = .emptyDatagram ∧ ∃ past, w.log = .received [] :: past) ∨
  (p = .undefinedBehaviour ∧ ∃ bytes past, w.log = .received bytes :: past ∧
    4096 ≤ bytes.length ∧ 0 ∉ bytes) ∨
  (∃ t past c, w.log = .clock t :: past ∧ schedule X.zone X.cron past = some c ∧
    c.Inv (CronTimer ⟨X.programs⟩) (cronIds ⟨X.programs⟩) ∧ c.popRunnable X.zone t = .panic p)

/-- An outcome satisfies `Q`, or is a tolerated abort; in any case the history is legal. -/
def Good {α : Type} (X : Setting) (Q : α → World → Prop) : Out α → Prop
  | .ok a w => Q a w
  | .panic p w => Tolerated X p w ∧ Always (Legal X) w.log
  | .stuck w => Always (Legal X) w.log

theorem Good.bind {α β : Type} {X : Setting} {x : M α} {f : α → M β} {w : World}
    {Q : α → World → Prop} {R : β → World → Prop} (hx : Good X Q (x w))
    (hf : ∀ a w', Q a w' → Good X R (f a w')) : Good X R ((x >>= f) w) := by
  show Good X R (M.bind x f w)
  unfold M.bind
  cases h : x w with
  | ok a w' => rw [h] at hx; exact hf a w' hx
  | panic p w' => rw [h] at hx; exact hx
  | stuck w' => rw [h] at hx; exact hx

theorem Good.mono {α : Type} {X : Setting} {o : Out α} {Q R : α → World → Prop}
    (h : Good X Q o) (hi : ∀ a w, Q a w → R a w) : Good X R o := by
  cases o with
  | ok a w => exact hi a w h
  | panic p w => exact h
  | stuck w => exact h

section Steps

variable {α : Type} (w : World)

@[simp] theorem get_bind (f : World → M α) : (M.get >>= f) w = f w w := rfl
@[simp] theorem emit_bind (e : Event) (f : Unit → M α) :
    (M.emit e >>= f) w = f () { w with log := e :: w.log } := rfl
@[simp] theorem modifyMgr_bind (g : Manager → Manager) (f : Unit → M α) :
    (M.modifyMgr g >>= f) w = f () { w with mgr := g w.mgr } := rfl
@[simp] theorem lift_ok_bind {β : Type} (b : β) (f : β → M α) :
    (M.lift (.ok b) >>= f) w = f b w := rfl
@[simp] theorem lift_panic_bind {β : Type} (q : Panic) (f : β → M α) :
    ((M.lift (.panic q) : M β) >>= f) w = .panic q w := rfl
@[simp] theorem pure_bind' {β : Type} (b : β) (f : β → M α) : (M.pure b >>= f) w = f b w := rfl

end Steps

/-! ## Answers of the kernel -/

section Calls

variable {X : Setting} {w : World} (hl : Always (Legal X) w.log)
include hl

theorem call_good {α : Type} {f : Kernel → Answer → Option (α × Kernel)}
    {Q : α → Kernel → Prop} (hf : ∀ a r k, f w.kernel a = some (r, k) → Q r k) :
    Good X (fun r w' => ∃ k rest, w' = { w with kernel := k, answers := rest } ∧ Q r k)
      (Sys.call f w) := by
  unfold Sys.call
  split
  · exact hl
  · split
    · exact hl
    · rename_i r k hk
      exact ⟨k, _, rfl, hf _ r k hk⟩

theorem setup_good (fds : List Int) :
    Good X (fun r w' => ∃ k rest, w' = { w with kernel := k, answers := rest } ∧
      (r = true → k = { w.kernel with epoll := fds })) (Sys.setup fds w) := by
  apply call_good hl
  intro a r k h
  split at h <;> cases h
  · intro _; rfl
  · intro h; cases h

theorem now_good :
    Good X (fun _ w' => ∃ rest, w' = { w with answers := rest }) (Sys.now w) := by
  refine (call_good hl (Q := fun _ k => k = w.kernel) ?_).mono ?_
  · intro a r k h
    split at h
    · split at h <;> cases h
      rfl
    · cases h
  · rintro r w' ⟨k, rest, rfl, rfl⟩
    exact ⟨rest, rfl⟩

theorem fork_good :
    Good X (fun r w' => (r = none ∧ ∃ rest, w' = { w with answers := rest }) ∨
      ∃ pid out err rest, r = some (pid, out, err) ∧ 0 < pid ∧ pid ∉ w.kernel.children ∧
        out ∉ w.kernel.fds ∧ err ∉ w.kernel.fds ∧ out ≠ err ∧
        w' = { w with
          kernel := { w.kernel with
            children := pid :: w.kernel.children, fds := out :: err :: w.kernel.fds }
          answers := rest }) (Sys.fork w) := by
  refine (call_good hl (Q := fun r k => (r = none ∧ k = w.kernel) ∨
      ∃ pid out err, r = some (pid, out, err) ∧ 0 < pid ∧ pid ∉ w.kernel.children ∧
        out ∉ w.kernel.fds ∧ err ∉ w.kernel.fds ∧ out ≠ err ∧
        k = { w.kernel with
            children := pid :: w.kernel.children, fds := out :: err :: w.kernel.fds }) ?_).mono ?_
  · intro a r k h
    split at h
    · cases h; exact .inl ⟨rfl, rfl⟩
    · split at h
      · rename_i hg
        cases h
        exact .inr ⟨_, _, _, rfl, hg.1, hg.2.1, hg.2.2.1, hg.2.2.2.1, hg.2.2.2.2, rfl⟩
      · cases h
    · cases h
  · rintro r w' ⟨k, rest, rfl, h⟩
    rcases h with ⟨rfl, rfl⟩ | ⟨pid, out, err, rfl, h1, h2, h3, h4, h5, rfl⟩
    · exact .inl ⟨rfl, rest, rfl⟩
    · exact .inr ⟨pid, out, err, rest, rfl, h1, h2, h3, h4, h5, rfl⟩

theorem epollAdd_good (fd : Int) :
    Good X (fun _ w' => ∃ ep rest, w' = { w with
        kernel := { w.kernel with epoll := ep }, answers := rest } ∧
      (∀ g ∈ w.kernel.epoll, g ∈ ep) ∧ ∀ g ∈ ep, g = fd ∨ g ∈ w.kernel.epoll)
      (Sys.epollAdd fd w) := by
  refine (call_good hl (Q := fun _ k => ∃ ep, k = { w.kernel with epoll := ep } ∧
      (∀ g ∈ w.kernel.epoll, g ∈ ep) ∧ ∀ g ∈ ep, g = fd ∨ g ∈ w.kernel.epoll) ?_).mono ?_
  · intro a r k h
    split at h
    · rename_i ok
      cases h
      cases r with
      | true => exact ⟨fd :: w.kernel.epoll, rfl, fun _ h => List.mem_cons_of_mem _ h,
          fun _ h => List.mem_cons.mp h⟩
      | false => exact ⟨w.kernel.epoll, rfl, fun _ h => h, fun _ h => .inr h⟩
    · cases h
  · rintro r w' ⟨k, rest, rfl, ep, rfl, h1, h2⟩
    exact ⟨ep, rest, rfl, h1, h2⟩

theorem epollWait_good :
    Good X (fun r w' => (∃ rest, w' = { w with answers := rest }) ∧
      ∀ evs, r = some evs → (evs.map (·.fd)).Nodup ∧ ∀ e ∈ evs, e.fd ∈ w.kernel.epoll)
      (Sys.epollWait w) := by
  refine (call_good hl (Q := fun r k => k = w.kernel ∧
      ∀ evs, r = some evs → (evs.map (·.fd)).Nodup ∧ ∀ e ∈ evs, e.fd ∈ w.kernel.epoll) ?_).mono ?_
  · intro a r k h
    split at h
    · cases h; exact ⟨rfl, by simp⟩
    · split at h
      · rename_i hg
        cases h
        exact ⟨rfl, fun evs e => by cases e; exact ⟨hg.2.1, hg.2.2⟩⟩
      · cases h
    · cases h
  · rintro r w' ⟨k, rest, rfl, rfl, h⟩
    exact ⟨⟨rest, rfl⟩, h⟩

theorem wait_good :
    Good X (fun r w' => ∃ rest,
      match r with
      | .exited pid code => 0 < pid ∧ code < 256 ∧ w' = { w with
          kernel := { w.kernel with children := w.kernel.children.filter (· ≠ pid) }
          answers := rest }
      | .killed pid sig => 0 < pid ∧ 1 ≤ sig ∧ sig ≤ 64 ∧ w' = { w with
          kernel := { w.kernel with children := w.kernel.children.filter (· ≠ pid) }
          answers := rest }
      | _ => w' = { w with answers := rest }) (Sys.wait w) := by
  refine (call_good hl (Q := fun r k =>
      match r with
      | .exited pid code => 0 < pid ∧ code < 256 ∧
          k = { w.kernel with children := w.kernel.children.filter (· ≠ pid) }
      | .killed pid sig => 0 < pid ∧ 1 ≤ sig ∧ sig ≤ 64 ∧
          k = { w.kernel with children := w.kernel.children.filter (· ≠ pid) }
      | _ => k = w.kernel) ?_).mono ?_
  · intro a r k h
    split at h
    · split at h
      · split at h <;> cases h
        rename_i hg
        exact ⟨hg.1, hg.2, rfl⟩
      · split at h <;> cases h
        rename_i hg
        exact ⟨hg.1, hg.2.1, hg.2.2, rfl⟩
      · cases h
        rename_i h1 h2
        cases r with
        | exited p c => exact absurd rfl (h1 p c)
        | killed p c => exact absurd rfl (h2 p c)
        | _ => rfl
    · cases h
  · rintro r w' ⟨k, rest, rfl, h⟩
    refine ⟨rest, ?_⟩
    cases r with
    | exited pid code => obtain ⟨h1, h2, rfl⟩ := h; exact ⟨h1, h2, rfl⟩
    | killed pid sig => obtain ⟨h1, h2, h3, rfl⟩ := h; exact ⟨h1, h2, h3, rfl⟩
    | alive => cases h; rfl
    | other => cases h; rfl
    | error => cases h; rfl

theorem signal_good :
    Good X (fun r w' => (∃ rest, w' = { w with answers := rest }) ∧
      ∀ n, r = some n → n = SIGCHLD ∨ n = SIGINT ∨ n = SIGTERM ∨ n = SIGQUIT) (Sys.signal w) := by
  refine (call_good hl (Q := fun r k => k = w.kernel ∧
      ∀ n, r = some n → n = SIGCHLD ∨ n = SIGINT ∨ n = SIGTERM ∨ n = SIGQUIT) ?_).mono ?_
  · intro a r k h
    split at h
    · cases h; exact ⟨rfl, by simp⟩
    · split at h
      · rename_i hg
        cases h
        exact ⟨rfl, fun n e => by cases e; exact hg⟩
      · cases h
    · cases h
  · rintro r w' ⟨k, rest, rfl, rfl, h⟩
    exact ⟨⟨rest, rfl⟩, h⟩

theorem recv_good :
    Good X (fun _ w' => ∃ rest, w' = { w with answers := rest }) (Sys.recv w) := by
  refine (call_good hl (Q := fun _ k => k = w.kernel) ?_).mono ?_
  · intro a r k h
    split at h
    · cases h; rfl
    · split at h <;> cases h
      rfl
    · cases h
  · rintro r w' ⟨k, rest, rfl, rfl⟩
    exact ⟨rest, rfl⟩

theorem read_good :
    Good X (fun _ w' => ∃ rest, w' = { w with answers := rest }) (Sys.read w) := by
  refine (call_good hl (Q := fun _ k => k = w.kernel) ?_).mono ?_
  · intro a r k h
    split at h
    · cases h; rfl
    · split at h <;> cases h
      rfl
    · cases h
  · rintro r w' ⟨k, rest, rfl, rfl⟩
    exact ⟨rest, rfl⟩

theorem accept_good :
    Good X (fun _ w' => ∃ rest, w' = { w with answers := rest }) (Sys.accept w) := by
  refine (call_good hl (Q := fun _ k => k = w.kernel) ?_).mono ?_
  · intro a r k h
    split at h <;> cases h
    rfl
  · rintro r w' ⟨k, rest, rfl, rfl⟩
    exact ⟨rest, rfl⟩

theorem kill_good (pid : Int) :
    Good X (fun r w' => (∃ rest, w' = { w with answers := rest }) ∧
      (r = false → pid ∉ w.kernel.children)) (Sys.kill pid w) := by
  refine (call_good hl (Q := fun r k => k = w.kernel ∧ (r = false → pid ∉ w.kernel.children)) ?_).mono
    ?_
  · intro a r k h
    split at h
    · split at h <;> cases h
      rename_i hg
      exact ⟨rfl, fun e hc => hg ⟨e, hc⟩⟩
    · cases h
  · rintro r w' ⟨k, rest, rfl, rfl, h⟩
    exact ⟨⟨rest, rfl⟩, h⟩

end Calls

/-! ## Reactions -/

theorem obligations_step {ps : List ProcessConfig} {l : Log} {x : Event} {rest : List Event}
    (h : obligations ps l = x :: rest) (e : Event) : obligations ps (e :: l) = rest := by
  simp [obligations, h]

theorem obligations_react {ps : List ProcessConfig} {l : Log}
    (h : obligations ps l = []) (e : Event) :
    obligations ps (e :: l) = reaction ps (e :: l) := by
  simp [obligations, h]

/-- An event that is no reaction, in a calm history. -/
theorem legal_cons {X : Setting} {l : Log} {e : Event} (h : Always (Legal X) l)
    (hc : obligations X.programs l = []) (hd : schedule X.zone X.cron l ≠ none ∧ ∀ i, Due X.zone X.cron i l → attends i e)
    (hr : ¬ isReaction e) (hrule : Rule X l e) :
    Always (Legal X) (e :: l) := by
  refine ⟨⟨⟨?_, hd⟩, hrule⟩, h⟩
  rw [hc]; exact hr

theorem Inv.notDue {X : Setting} {m : Manager} {k : Kernel} {l : Log} (h : Inv X [] m k l)
    {e : Event} : schedule X.zone X.cron l ≠ none ∧ ∀ i, Due X.zone X.cron i l → attends i e :=
  ⟨by rw [h.cron.sched]; simp, fun i hi => absurd (h.idle i hi) List.not_mem_nil⟩

/-- Planning has not failed and nothing is due. -/
def Settled (X : Setting) (l : Log) : Prop :=
  schedule X.zone X.cron l ≠ none ∧ ∀ i, ¬ Due X.zone X.cron i l

theorem not_due_cons {X : Setting} {e : Event} (he : ∀ t, e ≠ .clock t) {l : Log} :
    ∀ i, ¬ Due X.zone X.cron i (e :: l) := by
  rintro i ⟨t, past, c, c', h, -⟩
  cases h
  exact absurd rfl (he t)

theorem settled_cons {X : Setting} {e : Event} (he : ∀ t, e ≠ .clock t) {l : Log}
    (h : schedule X.zone X.cron l ≠ none) : Settled X (e :: l) := by
  refine ⟨?_, not_due_cons he⟩
  cases e <;> first | exact h | exact absurd rfl (he _)

theorem Inv.planned {X : Setting} {ex : List Nat} {m : Manager} {k : Kernel} {l : Log}
    (h : Inv X ex m k l) : schedule X.zone X.cron l ≠ none := by
  rw [h.cron.sched]; simp

theorem idle_cons {X : Setting} {e : Event} (he : ∀ t, e ≠ .clock t) {l : Log} {ex : List Nat} :
    ∀ i, Due X.zone X.cron i (e :: l) → i ∈ ex :=
  fun i hi => absurd hi (not_due_cons he i)

theorem quiet_no_clock {e : Event} (h : Quiet e) (t : Int) : e ≠ .clock t := by
  rintro rfl; exact h

theorem idle_append {X : Setting} {es : List Event} (hes : ∀ e ∈ es, ∀ t, e ≠ .clock t) {l : Log}
    {ex : List Nat} (h : ∀ i, Due X.zone X.cron i l → i ∈ ex) :
    ∀ i, Due X.zone X.cron i (es ++ l) → i ∈ ex := by
  cases es with
  | nil => exact h
  | cons e es => exact idle_cons (hes e (by simp))

theorem legal_reaction {X : Setting} {l : Log} {e : Event} {rest : List Event}
    (h : Always (Legal X) l) (hc : obligations X.programs l = e :: rest)
    (hd : Settled X l) (hrule : Rule X l e) : Always (Legal X) (e :: l) := by
  refine ⟨⟨⟨?_, hd.1, fun i hi => absurd hi (hd.2 i)⟩, hrule⟩, h⟩
  rw [hc]

end Cinit
