import Verif.Proofs.Fatal
import Verif.Props.Notify
import Verif.Props.Runs
/-!
# C46, C47: concrete runs that abort
-/

namespace Cinit.Props

open Spec M

theorem Ends.aborted {x : Machine} {config : Config} {p : Panic} {l : Log}
    (h : Ends x config (.aborted p l)) :
    ∃ m w, x.manager config = .ok m ∧ x.loop m = .panic p w ∧ w.log = l := by
  obtain ⟨m, h1, h2⟩ := h
  cases ho : x.loop m with
  | ok c w => rw [ho] at h2; cases h2
  | panic p' w =>
    rw [ho] at h2
    cases h2
    exact ⟨m, w, h1, ho, rfl⟩
  | stuck w => rw [ho] at h2; cases h2

/-- C47 in full: cinit does not abort as long as everything that happens is that messages
arrive. -/
def C47_statement : Prop :=
  ∀ (x : Machine) (config : Config) (m : Manager) (p : Panic) (w : World),
    x.manager config = .ok m → x.loop m = .panic p w →
    ∀ bytes past, w.log ≠ .received bytes :: past

def oneProgram : Config := ⟨[prog 'a' .oneshot]⟩

/-- A message from a process that has nothing to do with cinit. -/
def messageAnswers (message : List Nat) : List Answer :=
  [.setup true, .fork (some (10, 20, 21)), .epollAdd true, .epollAdd true, .now 1,
   .epoll (some [⟨5, true, false⟩]), .recv (some (message, some 77))]

/-- The history up to this message. -/
def messageLog (message : List Nat) : Log :=
  [.received message, .ready ⟨5, true, false⟩, .polled [⟨5, true, false⟩], .polling, .clock 1,
   .watched 21 true, .watched 20 true, .spawned 0 10 20 21]

/-- C47 is violated by a message that is not UTF-8. -/
theorem C47_not_utf8 : Ends (machine (messageAnswers [255])) oneProgram
    (.aborted .invalidUtf8 (messageLog [255])) :=
  Res.of_check (by decide +kernel)

/-- C47 is violated by an empty message. -/
theorem C47_empty : Ends (machine (messageAnswers [])) oneProgram
    (.aborted .emptyDatagram (messageLog [])) :=
  Res.of_check (by decide +kernel)

/-- C47: whenever a message is received, cinit aborts exactly if it is empty, fills the buffer
without a NUL byte (the terminator is then searched for beyond the end of the buffer), or is not
UTF-8 up to the first NUL byte; whoever sent it. -/
theorem C47_exact_partial {w : World} {bytes : List Nat} {sender : Option Int} {rest : List Answer}
    (ha : w.answers = .recv (some (bytes, sender)) :: rest) (hl : bytes.length ≤ 4096)
    (hb : ∀ b ∈ bytes, b < 256) :
    (∃ p w', readSocket w = .panic p w') ↔
      bytes = [] ∨ (4096 ≤ bytes.length ∧ 0 ∉ bytes) ∨
      ∀ text, bytes.takeWhile (· ≠ 0) ≠ encode text := by
  rw [← fromUtf8_none]
  have h1 : Sys.recv w = .ok (some (bytes, sender)) { w with answers := rest } := by
    simp only [Sys.recv, Sys.call, ha]
    rw [if_pos ⟨hl, hb⟩]
  have h2 : readSocket w = (emit (.received bytes) >>= fun _ =>
      if bytes.isEmpty then fail .emptyDatagram
      else lift (sliceToString bytes) >>= fun message =>
        match sender with
        | none => emit .unsigned >>= fun _ => M.pure none
        | some pid => emit (.datagram pid message) >>= fun _ => M.pure (some (message, pid)))
      { w with answers := rest } := by
    unfold readSocket
    change M.bind _ _ w = _
    unfold M.bind
    rw [h1]
    rfl
  rw [h2]
  simp only [emit_bind]
  by_cases he : bytes = []
  · subst he
    simp [fail]
  rw [if_neg (by simpa using he)]
  unfold sliceToString
  by_cases hf : 4096 ≤ bytes.length ∧ 0 ∉ bytes
  · rw [if_pos hf]
    exact ⟨fun _ => .inr (.inl hf), fun _ => ⟨_, _, rfl⟩⟩
  · rw [if_neg hf]
    cases ht : fromUtf8 (bytes.takeWhile (· ≠ 0)) with
    | none => exact ⟨fun _ => .inr (.inr rfl), fun _ => ⟨_, _, rfl⟩⟩
    | some t =>
      simp only [Res.ofOption_some, lift_ok_bind]
      simp only [he, hf, false_or, reduceCtorEq, iff_false, not_exists]
      intro p w'
      cases sender <;> simp [emit_bind, M.pure]

private theorem mild_iff (l : Log) : Mild l ↔ ∀ bytes, .received bytes ∈ l → ¬ Fatal bytes := by
  induction l with
  | nil => simp [Mild]
  | cons e l ih =>
    cases e with
    | received b =>
      simp only [Mild, ih, List.mem_cons, Event.received.injEq]
      constructor
      · rintro ⟨h1, h2⟩ bytes (rfl | hb)
        · exact h1
        · exact h2 _ hb
      · exact fun h => ⟨h _ (.inl rfl), fun b hb => h _ (.inr hb)⟩
    | _ => simp [Mild, ih]

/-- C47 for whole runs: a message that is empty, fills the buffer without a NUL byte, or is no
text up to the first NUL byte is the last thing that happens; cinit aborts. -/
theorem C47_run_partial {x : Machine} {m : Manager} {bytes : List Nat} {later past : Log}
    (hl : (x.loop m).log = later ++ .received bytes :: past) (hf : Fatal bytes) :
    later = [] ∧ ∃ p w, x.loop m = .panic p w := by
  have hr := Machine.loop_tidy x m
  have hbad : ¬ Mild (x.loop m).log := by
    rw [mild_iff]
    exact fun h => h bytes (by rw [hl]; simp) hf
  cases ho : x.loop m with
  | ok a w => rw [ho] at hr hbad; exact absurd hr hbad
  | stuck w => rw [ho] at hr hbad; exact absurd hr hbad
  | panic p w =>
    rw [ho] at hr hbad hl
    refine ⟨?_, p, w, rfl⟩
    rcases hr with hr | ⟨b, past', h1, -, h3⟩
    · exact absurd hr hbad
    · change w.log = _ at hl
      rw [h1] at hl
      cases later with
      | nil => rfl
      | cons e later =>
        rw [List.cons_append, List.cons.injEq] at hl
        rw [mild_iff] at h3
        exact absurd hf (h3 bytes (by rw [hl.2]; simp))

/-- C47 for whole runs: cinit aborts upon a message if and only if it receives one of these
messages. -/
theorem C47_runs_partial {x : Machine} {config : Config} {m : Manager}
    (h : x.manager config = .ok m) :
    (∃ bytes, .received bytes ∈ (x.loop m).log ∧ Fatal bytes) ↔
      ∃ p w bytes past, x.loop m = .panic p w ∧ w.log = .received bytes :: past := by
  constructor
  · rintro ⟨bytes, hm, hf⟩
    obtain ⟨later, past, hl⟩ := List.append_of_mem hm
    obtain ⟨rfl, p, w, ho⟩ := C47_run_partial hl hf
    exact ⟨p, w, bytes, past, ho, by rw [ho] at hl; exact hl⟩
  · rintro ⟨p, w, bytes, past, ho, hl⟩
    refine ⟨bytes, by rw [ho]; change _ ∈ w.log; rw [hl]; simp, ?_⟩
    rcases C46_causes h ho with ⟨-, pid, sig, rest, h1, -⟩ | ⟨-, b, l, h1, h2⟩ | ⟨-, l, h1⟩ |
      ⟨-, b, l, h1, h2⟩ | ⟨-, t, l, c, h1, -⟩
    · exfalso
      have hleg : Happened (x.loop m).log (.received bytes) past :=
        ⟨[], by rw [ho]; exact hl⟩
      have hcalm := calm_before h hleg (fun hf => hf)
      rw [hl, obligations_react hcalm] at h1
      simp [reaction] at h1
    · rw [hl] at h1
      cases h1
      exact .inr (.inr (fromUtf8_none.mp h2))
    · rw [hl] at h1
      cases h1
      exact .inl rfl
    · rw [hl] at h1
      cases h1
      exact .inr (.inl h2)
    · rw [hl] at h1
      cases h1

/-- The runs of `C47_not_utf8` and `C47_empty` are cases of this. -/
example : Fatal [] ∧ Fatal [255] := by
  refine ⟨.inl rfl, .inr (.inr ?_)⟩
  rw [← fromUtf8_none]
  decide

theorem C47_violated : ¬ C47_statement := by
  intro h
  obtain ⟨m, w, h1, h2, h3⟩ := C47_not_utf8.aborted
  exact h _ _ m _ w h1 h2 _ _ h3

/-- A notify program that announces a process that does not exist. -/
def bogusAnswers : List Answer :=
  [.setup true, .fork (some (10, 20, 21)), .epollAdd true, .epollAdd true, .now 1,
   .epoll (some [⟨5, true, false⟩]), .recv (some (bytes "READY=1\nMAINPID=77", some 10)),
   .wait .alive, .now 2, .epoll (some [⟨3, true, false⟩]), .signal (some 15), .kill false]

/-- A message may also make cinit abort later: after a wrong `MAINPID` it aborts when it is
asked to terminate. -/
theorem C47_later : Ends (machine bogusAnswers) notifyOnly
    (.aborted .killFailed [.signal 15, .ready ⟨3, true, false⟩, .polled [⟨3, true, false⟩],
      .polling, .clock 2, .reaped,
      .datagram 10 "READY=1\nMAINPID=77".toList, .received (bytes "READY=1\nMAINPID=77"),
      .ready ⟨5, true, false⟩, .polled [⟨5, true, false⟩], .polling, .clock 1,
      .watched 21 true, .watched 20 true, .spawned 0 10 20 21]) :=
  Res.of_check (by decide +kernel)

/-- The history of `three` meets the hypotheses of C38, C39 and C40: program 0 announces
`READY=1`, after which program 1 is started; see also `two_plain` for C46. -/
theorem three_message : Happened threeLog
    (.datagram 10 "STATUS=hi\nREADY=1\n".toList)
    [.received (bytes "STATUS=hi\nREADY=1\n"), .ready ⟨5, true, false⟩,
     .polled [⟨5, true, false⟩], .polling, .clock 30,
     .watched 21 true, .watched 20 true, .spawned 0 10 20 21] :=
  ⟨threeLog.take (threeLog.length - 9), by decide +kernel⟩

/-! ## C41: hand-over -/

/-- The notify program announces process 11 as its main process; then the former main process
terminates, then the new one. -/
def handOverAnswers : List Answer :=
  [.setup true, .fork (some (10, 20, 21)), .epollAdd true, .epollAdd true, .now 1,
   .epoll (some [⟨5, true, false⟩]), .recv (some (bytes "MAINPID=11\nREADY=1", some 10)),
   .wait (.exited 10 3), .wait .alive, .now 2,
   .epoll (some [⟨20, false, true⟩, ⟨21, false, true⟩]),
   .wait (.exited 11 0), .wait .error]

/-- Witness for `C41_new_main_partial` and `C41_former_main_partial`. -/
theorem handOver_ends : Ends (machine handOverAnswers) notifyOnly
    (.exited 0 [.exit 0, .reaped, .waited 11 0 (some 0),
      .hangup 21, .ready ⟨21, false, true⟩, .hangup 20, .ready ⟨20, false, true⟩,
      .polled [⟨20, false, true⟩, ⟨21, false, true⟩], .polling, .clock 2,
      .reaped, .waited 10 3 none, .datagram 10 "MAINPID=11\nREADY=1".toList,
      .received (bytes "MAINPID=11\nREADY=1"), .ready ⟨5, true, false⟩,
      .polled [⟨5, true, false⟩], .polling, .clock 1,
      .watched 21 true, .watched 20 true, .spawned 0 10 20 21]) :=
  Res.of_check (by decide +kernel)

end Cinit.Props
