import Verif.Props.CronRuns
/-!
# C119: cronjobs are punctual

Whenever nothing happens for a second, `epoll_wait` returns nevertheless (`Sys.pollTimeout`). Let
`work` be the time everything else takes from cinit's going to wait until it looks at the clock
for the last time before it waits again.
-/

namespace Cinit.Props

open Cinit Spec

variable {x : Machine} {config : Config} {m : Manager}

private theorem lastTurn_same {i : Nat} {first : Int} {mid past : Log}
    (h : ∀ e ∈ mid, isTurn i e = false) :
    lastTurn i first (mid ++ past) = lastTurn i first past := by
  induction mid with
  | nil => rfl
  | cons e mid ih =>
    simp only [List.cons_append, lastTurn, h e List.mem_cons_self, Bool.false_eq_true, if_false]
    exact ih fun e' he' => h e' (List.mem_cons_of_mem _ he')

/-- Every turn of a cronjob after a wait follows a reading of the clock at or after the instant
computed for it, and at the beginning of the wait this was still to come (up to some
nanoseconds). -/
theorem C119_first (h : x.manager config = .ok m) {i : Nat} {s : Timer} (hj : Job config i s)
    {e : Event} {later mid past : Log}
    (hl : (x.loop m).log = later ++ e :: (mid ++ .polling :: past)) (ht : isTurn i e = true)
    (hm : ∀ e' ∈ mid, isTurn i e' = false) (hs : ¬ ShuttingDown config.programs past) :
    ∃ t t0 mid' past' v, mid = .clock t :: mid' ∧ past = .clock t0 :: past' ∧
      s.next x.env.zone (lastTurn i (firstReading config.programs x.clock i) past) = .ok v ∧
      v ≤ t ∧ t0 < v + cronjobs config.programs := by
  obtain ⟨t, rest, v, h1, h2, h3⟩ := turn_next h hj ⟨later, hl⟩ ht
  obtain ⟨t0, past', g1, g2⟩ := wait_next h (past := past)
    ⟨later ++ e :: mid, by rw [hl]; simp⟩ hs
  obtain ⟨v', k1, k2⟩ := g2 i s hj
  obtain ⟨mid', rfl⟩ : ∃ mid', mid = .clock t :: mid' := by
    cases mid with
    | nil => cases h1
    | cons a mid' => cases h1; exact ⟨mid', rfl⟩
  simp only [List.cons_append, List.cons.injEq, true_and] at h1
  have hlt : lastTurn i (firstReading config.programs x.clock i) rest =
      lastTurn i (firstReading config.programs x.clock i) past := by
    rw [← h1, lastTurn_same fun e' he' => hm e' (List.mem_cons_of_mem _ he')]
    rfl
  rw [hlt, k1] at h3
  cases h3
  exact ⟨t, t0, mid', past', v, rfl, g1, k1, h2, k2⟩

/-- C119: if the clock has advanced by no more than the second `epoll_wait` may take and `work`
since cinit went to wait, a cronjob that has a turn has it less than a second and `work` after the
instant aimed at (up to some nanoseconds), and not before it. -/
theorem C119_punctual {off : Int} (hz : x.env.zone = Zone.fixed off) (h : x.manager config = .ok m)
    {i : Nat} {s : Timer} (hj : Job config i s) {e : Event} {later mid past : Log} {t t0 work : Int}
    (hl : (x.loop m).log = later ++ e :: .clock t :: (mid ++ .polling :: .clock t0 :: past))
    (ht : isTurn i e = true) (hm : ∀ e' ∈ mid, isTurn i e' = false)
    (hs : ¬ ShuttingDown config.programs (.clock t0 :: past))
    (hw : t ≤ t0 + Sys.pollTimeout * 1_000_000 + work) :
    ∃ v, s.schedule.Aimed off
        (lastTurn i (firstReading config.programs x.clock i) (.clock t0 :: past)) v ∧
      v ≤ t ∧ t < v + 1_000_000_000 + work + cronjobs config.programs := by
  obtain ⟨t', t0', mid', past', v, h1, h2, h3, h4, h5⟩ := C119_first h hj
    (mid := .clock t :: mid) (past := .clock t0 :: past) hl ht (by
      intro e' he'
      rcases List.mem_cons.mp he' with rfl | he'
      · rfl
      · exact hm e' he') hs
  cases h1
  cases h2
  obtain ⟨pc, desc, -, -, j3⟩ := hj.of
  rw [hz] at h3
  refine ⟨v, C22_computed_partial j3 h3, h4, ?_⟩
  have : (Sys.pollTimeout : Int) * 1_000_000 = 1_000_000_000 := by decide
  omega

/-! ## A concrete case -/

/-- A job of every minute, beside a program that runs. -/
def minutely : Config :=
  ⟨[prog 'a' .oneshot, prog 'c' (.cronJob ['*', ' ', '*', ' ', '*', ' ', '*', ' ', '*'])]⟩

/-- cinit goes to wait half a second before the minute is over. -/
def minutelyAnswers : List Answer :=
  [.setup true, .fork (some (10, 20, 21)), .epollAdd true, .epollAdd true, .now 59_500_000_000,
   .epoll (some []), .wait .alive, .now 60_510_000_000, .fork (some (11, 22, 23)), .epollAdd true,
   .epollAdd true, .now 60_520_000_000]

def minutelyLog : Log :=
  [.polling, .clock 60_520_000_000, .watched 23 true, .watched 22 true, .spawned 1 11 22 23,
   .clock 60_510_000_000, .reaped, .polled [], .polling, .clock 59_500_000_000, .watched 21 true,
   .watched 20 true, .spawned 0 10 20 21]

theorem minutely_ends : Ends (machine minutelyAnswers) minutely (.unfinished minutelyLog) :=
  Res.of_check (by decide +kernel)

/-- Witness for `C119_first` and `C119_punctual`, with ten milliseconds of work; the instant
aimed at is 60 s. -/
example : Job minutely 1 everyMinute ∧ (machine minutelyAnswers).env.zone = Zone.fixed 0 ∧
    minutelyLog = minutelyLog.take 4 ++ .spawned 1 11 22 23 :: .clock 60_510_000_000 ::
      ([.reaped, .polled []] ++ .polling :: .clock 59_500_000_000 :: minutelyLog.drop 10) ∧
    (∀ e ∈ ([.reaped, .polled []] : Log), isTurn 1 e = false) ∧
    (60_510_000_000 : Int) ≤ 59_500_000_000 + Sys.pollTimeout * 1_000_000 + 10_000_000 ∧
    ¬ ShuttingDown minutely.programs (minutelyLog.drop 9) := by
  refine ⟨⟨_, _, rfl, rfl, by decide +kernel⟩, rfl, by decide +kernel, by decide, by decide, ?_⟩
  rintro (hs | ⟨j, hs⟩)
  · simp [Asked, minutelyLog] at hs
  · obtain ⟨e, past, ⟨later, hh⟩, p, rc, who, rfl, -⟩ := sometime_happened.mp hs
    have : Event.waited p rc who ∈ minutelyLog.drop 9 := by rw [hh]; simp
    simp [minutelyLog] at this

end Cinit.Props
