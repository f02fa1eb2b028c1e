import Verif.Props.Runs
/-!
# Whom cinit sends signals to

kill(2) sends a signal to the process with the given id if it is positive, to all processes of
cinit's own process group if it is 0, to every process of the system if it is -1 and to the
process group `-p` if it is any other negative number `p`.
-/

namespace Cinit.Props

open Spec

/-! ## C102: only children are sent signals -/

/-- C102 in full: a signal is sent to a single process only, which cinit has started as a
program and not yet reaped. -/
def C102_statement : Prop :=
  ∀ (x : Machine) (config : Config) (m : Manager), x.manager config = .ok m → ∀ p n past,
    Happened (x.loop m).log (.sent p n) past → 0 < p ∧ Unreaped past p

/-- Where the id of a main process is from: cinit has started program `i` as process `p`, or a
message that counts for program `i` has announced `p`. -/
inductive Source (ps : List ProcessConfig) (i : Nat) (p : Int) : Log → Prop where
  | started (o e : Int) (past : Log) : Source ps i p (.spawned i p o e :: past)
  | announced (q : Int) (text : Str) (past : Log) : Accepts ps past q i →
      newMainPid text = some p → Source ps i p (.datagram q text :: past)
  | before (e : Event) (past : Log) : Source ps i p past → Source ps i p (e :: past)

theorem mainPid_spawned {ps : List ProcessConfig} {i : Nat} {l : Log} (h : Started i l) :
    Source ps i (mainPid ps l i) l := by
  induction l with
  | nil => obtain ⟨_, _, _, h⟩ := h; cases h
  | cons e l ih =>
    obtain ⟨p, o, r, h⟩ := h
    have skip : (Started i l) → Source ps i (mainPid ps l i) (e :: l) := fun h =>
      .before _ _ (ih h)
    cases e with
    | spawned j q o' r' =>
      simp only [mainPid]
      by_cases hij : i = j
      · subst hij; rw [if_pos rfl]; exact .started _ _ _
      · rw [if_neg hij]
        rcases List.mem_cons.mp h with h | h
        · cases h; exact absurd rfl hij
        · exact skip ⟨_, _, _, h⟩
    | datagram q text =>
      have h : Started i l := ⟨p, o, r, by simpa using h⟩
      simp only [mainPid]
      split
      · rename_i ha
        cases hn : newMainPid text with
        | none => exact skip h
        | some r => exact .announced _ _ _ ha hn
      · exact skip h
    | _ => exact skip ⟨p, o, r, by simpa using h⟩

theorem Source.append {ps : List ProcessConfig} {i : Nat} {p : Int} {l : Log} (es : Log)
    (h : Source ps i p l) : Source ps i p (es ++ l) := by
  induction es with
  | nil => exact h
  | cons e es ih => exact .before _ _ ih

variable {x : Machine} {config : Config} {m : Manager} (h : x.manager config = .ok m)

include h

/-- C102, without any hypothesis: a signal goes to a process id that cinit got when it started a
program, or that the main process of a program of type notify announced for it. -/
theorem C102_source_partial {p : Int} {n : Nat} {past : Log}
    (he : Happened (x.loop m).log (.sent p n) past) :
    ∃ i, i < config.programs.length ∧ Source config.programs i p past := by
  have hl := before h he
  obtain ⟨es, e, past', i, rfl, -, hi, hs, rfl, -⟩ := C35_nobody_else_partial h he
  have hl' : Always (Legal (x.setting config m)) past' := (always_suffix hl).2
  refine ⟨i, hi, ?_⟩
  rw [show es ++ e :: past' = (es ++ [e]) ++ past' by simp]
  refine Source.append _ (mainPid_spawned ?_)
  by_contra hns
  have := state_not_started hl' hns
  change state config.programs past' i = _ at this
  rw [hs] at this
  split at this <;> cases this

/-- C102: as long as the programs only announce ids of processes, that is, positive ones, a
signal goes to a single process. -/
theorem C102_single_partial {p : Int} {n : Nat} {past : Log}
    (he : Happened (x.loop m).log (.sent p n) past)
    (hpos : ∀ q text r i past', Happened past (.datagram q text) past' →
      Accepts config.programs past' q i → newMainPid text = some r → 0 < r) : 0 < p := by
  have hl := before h he
  obtain ⟨i, -, hs⟩ := C102_source_partial h he
  clear he
  induction hs with
  | started o e past => exact hl.1.2.2.1
  | announced q text past ha hn => exact hpos q text p i past ⟨[], rfl⟩ ha hn
  | before e past hs ih =>
    exact ih (fun q text r i past' ⟨later, hm⟩ => hpos q text r i past' ⟨e :: later, by rw [hm]; rfl⟩)
      hl.2

/-- C102: as long as no program of type notify announces another main process and no process dies
by a real-time signal, a signal goes to a single process that cinit has started and not reaped. -/
theorem C102_children_partial {p : Int} {n : Nat} {past : Log}
    (he : Happened (x.loop m).log (.sent p n) past) (hp : Plain config.programs past) :
    0 < p ∧ Unreaped past p := by
  refine ⟨C102_single_partial h he fun q text r i past' ⟨later, hm⟩ ha hn => ?_, ?_⟩
  · rw [hm] at hp
    rw [hp.suffix.1.1 q text i rfl ha] at hn; cases hn
  have hl := before h he
  obtain ⟨es, e, past', i, rfl, hes, hi, hs, rfl, hcause⟩ := C35_nobody_else_partial h he
  have hl' : Always (Legal (x.setting config m)) past' := (always_suffix hl).2
  have hp' : Plain config.programs past' := by
    rw [show es ++ e :: past' = (es ++ [e]) ++ past' by simp] at hp
    exact hp.suffix
  have ho : owner config.programs past' (mainPid config.programs past' i) = some i := by
    refine alive_owner (X := x.setting config m) hl' (plain_undisturbed hl' hp')
      ((alive_iff hl' i).mpr ?_)
    change Active (state config.programs past' i)
    rw [hs]; simp [Active]
  have hu : Unreaped (e :: past') (mainPid config.programs past' i) := by
    have := plain_owner hp' ho
    rcases hcause with ⟨rfl, -⟩ | ⟨rfl, -⟩ | ⟨q, rc, who, j, rfl, -, hq, -, hij⟩
    · exact this
    · exact this
    · refine ⟨?_, this⟩
      intro hpq
      rw [hpq, hq] at ho
      exact hij (Option.some.inj ho).symm
  clear he hl hp
  induction es with
  | nil => exact hu
  | cons e' es ih =>
    obtain ⟨p', rfl⟩ := hes e' (by simp)
    exact ih fun e'' hm => hes e'' (by simp [hm])

omit h

/-! ## Two runs -/

/-- The program announces -1 as its main process, and cinit is asked to terminate. -/
def everyoneAnswers : List Answer :=
  [.setup true, .fork (some (10, 20, 21)), .epollAdd true, .epollAdd true, .now 30,
   .epoll (some [⟨5, true, false⟩]), .recv (some (bytes "READY=1\nMAINPID=-1", some 10)),
   .wait .alive, .now 40, .epoll (some [⟨3, true, false⟩]), .signal (some 15), .kill true]

def everyoneBefore : Log :=
  [.signal 15, .ready ⟨3, true, false⟩, .polled [⟨3, true, false⟩], .polling, .clock 40, .reaped,
   .datagram 10 "READY=1\nMAINPID=-1".toList, .received (bytes "READY=1\nMAINPID=-1"),
   .ready ⟨5, true, false⟩, .polled [⟨5, true, false⟩], .polling, .clock 30,
   .watched 21 true, .watched 20 true, .spawned 0 10 20 21]

theorem everyone_ends : Ends (machine everyoneAnswers) notifyOnly
    (.unfinished (.sent (-1) 2 :: everyoneBefore)) :=
  Res.of_check (by decide +kernel)

/-- C102 is false: a program of type notify makes cinit send SIGINT to every process of the
system. -/
theorem C102_violated : ¬ C102_statement := by
  intro h
  obtain ⟨m, h1, h2⟩ := everyone_ends.log
  have := (h _ _ m h1 (-1) 2 everyoneBefore ⟨[], by rw [h2]; rfl⟩).1
  revert this; decide

/-- The first program dies by signal 40, then cinit is asked to terminate. -/
def staleAnswers : List Answer :=
  [.setup true, .fork (some (10, 20, 21)), .epollAdd true, .epollAdd true,
   .fork (some (11, 22, 23)), .epollAdd true, .epollAdd true, .now 1,
   .epoll none, .wait (.killed 10 40),
   .now 2, .epoll (some [⟨3, true, false⟩]), .signal (some 15), .kill true, .kill true]

def staleBefore : Log :=
  [.signal 15, .ready ⟨3, true, false⟩, .polled [⟨3, true, false⟩], .polling, .clock 2,
   .lost 10 40, .unpolled, .polling, .clock 1,
   .watched 23 true, .watched 22 true, .spawned 1 11 22 23,
   .watched 21 true, .watched 20 true, .spawned 0 10 20 21]

theorem stale_ends : Ends (machine staleAnswers) crash
    (.unfinished ([.sent 11 2] ++ .sent 10 2 :: staleBefore)) :=
  Res.of_check (by decide +kernel)

/-- C102 is false even if no program announces anything: after a death by a real-time signal the
signal goes to a process id that is free to be that of any other process. -/
theorem C102_stale : ∃ (x : Machine) (config : Config) (m : Manager) (past : Log),
    x.manager config = .ok m ∧ Happened (x.loop m).log (.sent 10 2) past ∧ ¬ Unreaped past 10 ∧
      ∀ q text, .datagram q text ∉ past := by
  obtain ⟨m, h1, h2⟩ := stale_ends.log
  refine ⟨_, _, m, staleBefore, h1, ⟨[.sent 11 2], by rw [h2]; rfl⟩, ?_, ?_⟩
  · simp [staleBefore, Unreaped]
  · simp [staleBefore]

/-- In the same run the second signal goes to a child. -/
example : ∃ (x : Machine) (config : Config) (m : Manager) (past : Log),
    x.manager config = .ok m ∧ Happened (x.loop m).log (.sent 11 2) past ∧ Unreaped past 11 := by
  obtain ⟨m, h1, h2⟩ := stale_ends.log
  refine ⟨_, _, m, .sent 10 2 :: staleBefore, h1, ⟨[], by rw [h2]; rfl⟩, ?_⟩
  simp [staleBefore, Unreaped]

/-- A run that meets the hypotheses of the theorems above. -/
example : ∃ (x : Machine) (config : Config) (m : Manager) (past : Log),
    x.manager config = .ok m ∧ Happened (x.loop m).log (.sent 11 2) past ∧
      (∀ q text, .datagram q text ∉ past) ∧ Plain config.programs past := by
  obtain ⟨m, h1, h2⟩ := crash_ends.log
  refine ⟨_, _, m, _, h1, ⟨[.exit 6, .reaped, .waited 11 2 (some 1)], by rw [h2]; rfl⟩, ?_,
    .of_silent ?_ ?_⟩
  all_goals simp

end Cinit.Props
