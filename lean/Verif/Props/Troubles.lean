import Verif.Proofs.AlarmRuns
import Verif.Props.Narration
import Verif.Props.Aborts
/-!
# C94, C95: warnings and errors of the event loop
-/

namespace Cinit.Props

open Cinit Spec Logging

variable {x : Machine} {config : Config} {m : Manager} {voice : Voice}

/-- The warnings and errors in the log of the event loop. -/
def warnings (x : Machine) (voice : Voice) (m : Manager) : List Msg :=
  (x.entries voice m).filterMap alarmOf

/-- What is written when a stream cannot be removed from epoll. -/
def notRemoved : Msg := .fixed .warn "Could not unregister fd from epoll".toList

/-- A program of type notify, and another one. -/
def troubled : Config := ⟨[prog 'a' .notify, prog 'b' .oneshot]⟩

def troubledAnswers : List Answer :=
  [.setup true, .fork (some (10, 20, 21)), .epollAdd true, .epollAdd false, .fork none, .now 1,
   .epoll none, .wait .alive, .now 2,
   .epoll (some [⟨3, true, false⟩, ⟨4, true, false⟩, ⟨5, true, false⟩, ⟨20, true, false⟩]),
   .signal none, .accept none, .recv none, .read none, .wait .alive, .now 3,
   .epoll (some [⟨5, true, false⟩, ⟨20, false, false⟩]),
   .recv (some (encode "READY=2\nnonsense\nMAINPID=x".toList, some 10)), .wait .alive, .now 4,
   .epoll (some [⟨5, true, false⟩]), .recv (some (encode "READY=1".toList, some 99)),
   .wait .alive, .now 5,
   .epoll (some [⟨5, true, false⟩]), .recv (some (encode "READY=1".toList, none)),
   .wait (.exited 10 7), .wait .error]

/-! ## C94: warnings and errors have a reason -/

/-- C94 as stated: what the event loop warns of has happened, in this order, and it is what the
text of the warning says. The history does not tell whether removing a stream from epoll works, so
this is: there is a stream to remove. -/
def C94_statement : Prop :=
  ∀ (x : Machine) (config : Config) (m : Manager) (voice : Voice), x.manager config = .ok m →
    Alarms config.programs m.inlets (x.loop m).log (warnings x voice m) ∧
    (notRemoved ∈ warnings x voice m → ∃ fd, .hangup fd ∈ (x.loop m).log)

/-- C94: the warnings and errors are exactly those the events give reason for, in their order. -/
theorem C94_exact_partial (h : x.manager config = .ok m) :
    Alarms config.programs m.inlets (x.loop m).log (warnings x voice m) := by
  have := (Narrated.start_rung voice x.env (Machine.initial h)).alarms [] rfl
  rwa [narrated_loop] at this

private theorem Shared.reason {R : Log → Event → List Msg → Prop} {log : Log} {as : List Msg}
    (h : Shared R log as) {msg : Msg} (hm : msg ∈ as) :
    ∃ e past new, Happened log e past ∧ R past e new ∧ msg ∈ new := by
  induction log generalizing as with
  | nil => rw [show as = [] from h] at hm; cases hm
  | cons e past ih =>
    obtain ⟨old, new, rfl, ho, hr⟩ := h
    rcases List.mem_append.mp hm with hm | hm
    · obtain ⟨e', past', new', ⟨later, hl⟩, h2, h3⟩ := ih ho hm
      exact ⟨e', past', new', ⟨e :: later, by rw [hl]; rfl⟩, h2, h3⟩
    · exact ⟨e, past, new, ⟨[], rfl⟩, hr, hm⟩

/-- C94: for each warning or error there is an event that gives reason for it. -/
theorem C94_reason_partial (h : x.manager config = .ok m) {msg : Msg}
    (hm : msg ∈ warnings x voice m) :
    ∃ e past new, Happened (x.loop m).log e past ∧ Warrants config.programs m.inlets past e new ∧
      msg ∈ new :=
  Shared.reason (C94_exact_partial h) hm

/-- C94: warnings and errors are printed whatever the verbosity. -/
theorem C94_printed_partial (h : x.manager config = .ok m) {es : List (Time × Entry)}
    (hl : Logged x voice m es) {t : Time} {target : List Str} {msg : Msg}
    (hm : (t, .own target msg) ∈ es) (ha : msg.level = .warn ∨ msg.level = .error) (v : Nat) :
    t.show ++ ' ' :: msg.level.show ++ " [cinit] ".toList ++ msg.text ++ ['\n'] <:+:
      console v .stdout es := by
  obtain ⟨l1, l2, rfl⟩ := List.append_of_mem hm
  have hp : target ∈ ownTargets := by
    refine (entries_own (voice := voice) h (msg := msg) ?_).1
    rw [← hl]
    exact List.mem_map.mpr ⟨_, hm, rfl⟩
  have hw : wanted v msg.level = true := by rcases ha with e | e <;> rw [e] <;> rfl
  have h1 := C78_own v t hp msg .stdout
  rw [if_pos ⟨rfl, hw⟩] at h1
  rw [C78_append, show (t, Entry.own target msg) :: l2 = [(t, .own target msg)] ++ l2 from rfl,
    C78_append, h1]
  exact ⟨console v .stdout l1, console v .stdout l2, by simp⟩

/-- Witness for `C94_exact_partial`, `C94_reason_partial` and `C94_printed_partial`: a run full of
trouble. -/
example : (logOf (machine troubledAnswers) troubled).map (fun es =>
      es.filterMap fun e => (alarmOf e.2).map Msg.text) =
    some (["Could not unregister fd from epoll", "Failed to spawn child: ", "Could not complete epoll: ",
      "Failed to print report: ", "Failed to receive notification: ",
      "notify_manager failed to parse status line 'nonsense'", "could not parse new main pid 'x': ",
      "Expected READY=1 but value was '2'", "Received unknown event",
      "Got notification from unknown pid 99", "Failed to receive notification: ",
      "Child a crashed with 7"].map String.toList) := by
  decide +kernel

/-- The warnings of a run by itself. -/
def warningsOf (x : Machine) (config : Config) : Option (List Msg) :=
  match x.manager config with
  | .ok m => some (warnings x plainVoice m)
  | _ => none

/-- C94 is false: the warning about a stream that cannot be removed is also written when a stream
cannot be registered. -/
theorem C94_violated : ¬ C94_statement := by
  intro hc
  have ht : Ends (machine [.setup true, .fork (some (10, 20, 21)), .epollAdd false]) oneProgram
      (.unfinished [.watched 20 false, .spawned 0 10 20 21]) := Res.of_check (by decide +kernel)
  obtain ⟨m, h1, h2⟩ := ht.log
  have hw : warningsOf (machine [.setup true, .fork (some (10, 20, 21)), .epollAdd false]) oneProgram =
      some [notRemoved] := by decide +kernel
  rw [warningsOf, h1] at hw
  obtain ⟨fd, hfd⟩ := (hc _ _ m plainVoice h1).2 (by
    rw [Option.some.inj hw]; exact List.mem_singleton_self _)
  rw [h2] at hfd
  simp [Ending.log] at hfd

/-! ## C95: failures are logged -/

/-- C95 as stated: whenever something the kernel is asked for fails, there is a warning or an error
about it. -/
def C95_statement : Prop :=
  ∀ (x : Machine) (config : Config) (m : Manager) (voice : Voice), x.manager config = .ok m →
    Shared (fun _ e as => fails e = true → as ≠ []) (x.loop m).log (warnings x voice m)

private theorem Shared.mono {R S : Log → Event → List Msg → Prop} {log : Log} {as : List Msg}
    (h : Shared R log as) (hs : ∀ past e as, Happened log e past → R past e as → S past e as) :
    Shared S log as := by
  induction log generalizing as with
  | nil => exact h
  | cons e past ih =>
    obtain ⟨old, new, rfl, ho, hr⟩ := h
    refine ⟨old, new, rfl, ih ho fun past' e' as' ⟨later, hl⟩ hr' => ?_, hs _ _ _ ⟨[], rfl⟩ hr⟩
    exact hs _ _ _ ⟨e :: later, by rw [hl]; rfl⟩ hr'

/-- C95: there is a warning or an error about each failure, except when reading output of programs or
signals fails. -/
theorem C95_mentioned_partial (h : x.manager config = .ok m) :
    Shared (fun past e as => fails e = true →
        (e = .failed → ∀ ev past', past = .ready ev :: past' →
          ev.fd ≠ m.signalFd ∧ (ev.fd = m.statusFd ∨ ev.fd = m.notifyFd)) → as ≠ [])
      (x.loop m).log (warnings x voice m) := by
  refine Shared.mono (C94_exact_partial h) fun past e as ⟨later, hl⟩ hw hf hc => ?_
  have hserve : Serves m.inlets e past := by
    have := Machine.loop_serves x m
    rw [hl] at this
    exact (always_of_suffix this rfl).1
  cases e with
  | failed =>
    obtain ⟨ev, hev, -⟩ := hserve
    obtain ⟨past', rfl⟩ : ∃ past', past = .ready ev :: past' := by
      unfold hand at hev
      split at hev
      · split at hev
        · cases hev; exact ⟨_, rfl⟩
        · cases hev
      · cases hev
    obtain ⟨h1, h2⟩ := hc rfl ev past' rfl
    have h1' : ev.fd ≠ m.inlets.signalFd := h1
    have hw : as = _ := hw
    dsimp only at hw
    rw [if_neg h1'] at hw
    rcases h2 with h2 | h2
    · have h2' : ev.fd = m.inlets.statusFd := h2
      rw [if_pos h2'] at hw
      rw [hw]; exact List.cons_ne_nil _ _
    · have h2' : ev.fd = m.inlets.notifyFd := h2
      rw [if_pos h2'] at hw
      rw [hw]
      split <;> exact List.cons_ne_nil _ _
  | unsigned => rw [show as = _ from hw]; exact List.cons_ne_nil _ _
  | unpolled => rw [show as = _ from hw]; exact List.cons_ne_nil _ _
  | spawnFailed i =>
    obtain ⟨fork, hw⟩ := hw
    rw [hw]
    exact fun e => List.cons_ne_nil _ _ (List.append_eq_nil_iff.mp e).2
  | watched fd ok =>
    cases ok with
    | true => cases hf
    | false => rw [show as = _ from hw]; exact List.cons_ne_nil _ _
  | _ => cases hf

/-- C95: nothing is said when the output of a program cannot be read. -/
theorem C95_violated : ¬ C95_statement := by
  intro hc
  have ht : Ends (machine [.setup true, .fork (some (10, 20, 21)), .epollAdd true, .epollAdd true,
      .now 1, .epoll (some [⟨20, true, false⟩]), .read none]) oneProgram
      (.unfinished [.failed, .ready ⟨20, true, false⟩, .polled [⟨20, true, false⟩], .polling, .clock 1,
        .watched 21 true, .watched 20 true, .spawned 0 10 20 21]) := Res.of_check (by decide +kernel)
  obtain ⟨m, h1, h2⟩ := ht.log
  have hw : warningsOf (machine [.setup true, .fork (some (10, 20, 21)), .epollAdd true, .epollAdd true,
      .now 1, .epoll (some [⟨20, true, false⟩]), .read none]) oneProgram = some [] := by
    decide +kernel
  rw [warningsOf, h1] at hw
  have := hc _ _ m plainVoice h1
  rw [h2, Option.some.inj hw] at this
  obtain ⟨old, new, h3, -, h4⟩ := this
  exact h4 rfl (List.append_eq_nil_iff.mp h3.symm).2

end Cinit.Props
