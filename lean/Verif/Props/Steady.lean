import Verif.Spec.Steady
import Verif.Props.Punctuality
import Verif.Props.Clocks
/-!
# Cronjobs while the clock is not changed

C22, C23, C24, C96 and C119 are about clocks that are never changed. Here is what this says about
zones where they are, at times without changes: nothing is different as long as there is no change
from a day before the job's last turn until a day after the instant aimed at.
-/

namespace Cinit.Props

open Cinit Spec

variable {x : Machine} {config : Config} {m : Manager}

private theorem steps_weekday {s : Schedule} {z : Zone} {t n : Int} {a : Nat}
    (h : s.ByWeekday (z.wall t) n) (h' : s.StepsByWeekday z t a) : n = dayOf (z.wall t) + a := by
  obtain ⟨x, ⟨k, c, a0, a1⟩, f1, f2, f3⟩ := h
  obtain ⟨y, ⟨k', c', b0, b1⟩, g1, g2, g3⟩ := h'
  obtain rfl := Skip.unique a0 b0
  obtain ⟨rfl, rfl⟩ := Upcoming.unique a1 b1
  have hn : n = dayOf (z.wall t) + ((n - dayOf (z.wall t)).toNat : Nat) := by omega
  rcases Nat.lt_trichotomy (n - dayOf (z.wall t)).toNat a with hlt | heq | hgt
  · refine absurd ?_ (g3 _ (by omega) hlt)
    show weekdayOf (dayOf (z.wall t) + ((n - dayOf (z.wall t)).toNat : Nat)) = x
    rw [← hn]
    exact f2
  · omega
  · exact absurd g2 (f3 _ (by omega) (by omega))

private theorem steps_date {s : Schedule} {z : Zone} {t n : Int} {b N : Nat}
    (hN : ∀ k, k ≤ N → dateAfter z t k = dayOf (z.wall t) + k)
    (h : s.ByDate (z.wall t) n) (h' : s.StepsByDate z t b) :
    (n ≤ dayOf (z.wall t) + N → n = dayOf (z.wall t) + b) ∧
    (dayOf (z.wall t) + N < n → N < b) := by
  obtain ⟨x, mo, y, a1, f1, f2, f3⟩ := h
  obtain ⟨x', mo', y', b1, ⟨g1, g2, g3⟩, -⟩ := h'
  obtain ⟨rfl, rfl, rfl⟩ := DateChosen.unique a1 b1
  have hn : n = dayOf (z.wall t) + ((n - dayOf (z.wall t)).toNat : Nat) := by omega
  have key : b ≤ N → n ≤ dayOf (z.wall t) + b := by
    intro hb
    rw [hN b hb] at g2
    apply Int.not_lt.mp
    intro hlt
    exact f3 _ (by omega) hlt g2
  constructor
  · intro hle
    have hq : ¬ (n - dayOf (z.wall t)).toNat < b := by
      intro hlt
      refine g3 _ (by omega) hlt ?_
      show (civil (dateAfter z t (n - dayOf (z.wall t)).toNat)).day = x ∧
        (civil (dateAfter z t (n - dayOf (z.wall t)).toNat)).month = mo
      rw [hN _ (by omega), ← hn]
      exact f2
    have := key (by omega)
    omega
  · intro hlt
    apply Nat.lt_of_not_le
    intro hb
    have := key hb
    omega

/-- What is computed while the clock is not changed is the instant aimed at. -/
theorem next_steady {src : Str} {s : Timer} {z : Zone} {off t v v' : Int}
    (hp : Timer.parse src = .ok s) (hn : s.next z t = .ok v) (ha : s.schedule.Aimed off t v')
    (hs : Steady z off (t - nsDay) (v' + nsDay)) : v = v' := by
  obtain ⟨w, ⟨d, h, mi, e1, e2, e3, e4⟩, k, e5, e6, e7, e8⟩ := (C26_exact hp).mp hn
  obtain ⟨n, h', mi', a1, a2, a3⟩ := ha
  have hlow : dayOf (t + off) ≤ n := by
    rcases a1 with ⟨-, -, x, -, h, -⟩ | ⟨-, -, x, mo, y, -, h, -⟩ |
      ⟨-, -, a, b, ⟨x, -, h, -⟩, ⟨x', mo, y, -, h', -⟩, rfl⟩ <;> omega
  have hv : dayOf (t + off) * nsDay ≤ v' + off ∧ n * nsDay ≤ v' + off := by
    rw [a3]
    unfold wallAt nsDay nsHour nsMinute
    omega
  have ht : z.wall t = t + off := by
    refine (hs t ?_ ?_).1 <;> unfold dayOf nsDay at * <;> omega
  rw [ht] at e3
  obtain ⟨rfl, rfl⟩ := TimeChosen.unique a2 e3
  have hN : ∀ k : Nat, k ≤ (n - dayOf (t + off)).toNat →
      dateAfter z t k = dayOf (z.wall t) + k := by
    intro k hk
    unfold dateAfter
    rw [(hs (t + k * nsDay) (by unfold nsDay; omega)
      (by unfold dayOf nsDay at *; omega)).1, ht]
    unfold dayOf nsDay
    omega
  have hd : n = dayOf (z.wall t) + d := by
    rw [← ht] at a1
    rcases a1 with ⟨p1, p2, p3⟩ | ⟨p1, p2, p3⟩ | ⟨p1, p2, a, b, p3, p4, p5⟩ <;>
      rcases e1 with ⟨q1, q2, q3⟩ | ⟨q1, q2, q3⟩ | ⟨q1, q2, a', b', q3, q4, q5⟩
    · exact steps_weekday p3 q3
    · exact absurd ⟨p1, p2⟩ q1
    · exact absurd ⟨p1, p2⟩ q1
    · exact absurd ⟨q1, q2⟩ p1
    · exact (steps_date hN p3 q3).1 (by rw [ht]; omega)
    · exact absurd p2 q2
    · exact absurd ⟨q1, q2⟩ p1
    · exact absurd q2 p2
    · have r1 := steps_weekday p3 q3
      obtain ⟨r2, r3⟩ := steps_date hN p4 q4
      rw [ht] at r1 r2 r3 ⊢
      by_cases hb : b ≤ dayOf (t + off) + (n - dayOf (t + off)).toNat
      · have := r2 hb
        omega
      · have := r3 (by omega)
        omega
  have hw : w = v' + off := by
    rw [e4, a3, hN d (by rw [ht] at hd; omega), ← hd]
  obtain ⟨s1, s2⟩ := hs v' (by unfold dayOf nsDay at *; omega) (by unfold nsDay; omega)
  have hk : k = 0 := by
    apply Nat.eq_zero_of_not_pos
    intro hpos
    refine e8 0 hpos v' ?_
    rw [s1, hw]
    simp
  subst hk
  rw [hw] at e7
  simp only [Nat.cast_zero, Int.zero_mul, Int.add_zero] at e7
  rw [s2] at e7
  exact (Option.some.inj e7).symm

/-- C22, C23 and C24 in any zone: while the clock is not changed, the same is computed as where it
never is, so that the theorems on fixed offsets apply to the result. -/
theorem C24_steady {src : Str} {s : Timer} {z : Zone} {off t v v' : Int}
    (hp : Timer.parse src = .ok s) (hn : s.next z t = .ok v)
    (hf : s.next (Zone.fixed off) t = .ok v') (hs : Steady z off (t - nsDay) (v' + nsDay)) :
    v = v' :=
  next_steady hp hn (C22_computed_partial hp hf) hs

/-- C29 and C92 in any zone: polling comes to an end and hands out each job due once, if no job is
restricted to one weekday and the clock is not changed from a day before until a day after the
next executions. -/
theorem C92_steady {z : Zone} {config : Config} {clock : List Int} {c0 c : Cron} {now off : Int}
    (hb : buildCron z config clock = .ok c0) (hp : Polls z c0 c)
    (hnext : ∀ (i : Nat) pc desc s, config.programs[i]? = some pc → pc.ptype = .cronJob desc →
      Timer.parse desc = .ok s → (∃ x y, x ≠ y ∧ s.schedule.weekday x ∧ s.schedule.weekday y) ∧
      ∃ v v', s.next z now = .ok v ∧ s.next (Zone.fixed off) now = .ok v' ∧
        Steady z off (now - nsDay) (v' + nsDay) ∧ v' + config.programs.length ≤ chronoMax) :
    ∃ fuel ids c', drain z now fuel c = .ok (ids, true, c') ∧ ids.Nodup ∧
      ∀ i, i ∈ ids ↔ ∃ t, c.nextExecution i = .ok t ∧ t ≤ now := by
  obtain ⟨fuel, ids, c', h1, h2, h3, -⟩ := C29_terminates_partial hb hp
    (fun i pc desc s g1 g2 g3 => by
      obtain ⟨⟨x, y, e1, e2, e3⟩, v, v', e4, e5, e6, e7⟩ := hnext i pc desc s g1 g2 g3
      obtain rfl := C24_steady g3 e4 e5 e6
      exact ⟨v, e4, C23_two_weekdays_partial g3 e2 e3 e1 e5, e7⟩)
  exact ⟨fuel, ids, c', h1, h2, h3⟩

/-- C96 in any zone: if the clock is not changed, a cronjob has a turn only at or after the
instant aimed at from its last turn on. -/
theorem C96_turn_steady (h : x.manager config = .ok m) {i : Nat} {s : Timer} (hj : Job config i s)
    {e : Event} {past : Log} (he : Happened (x.loop m).log e past) (ht : isTurn i e = true) :
    ∃ t past', past = .clock t :: past' ∧ ∀ off v,
      s.schedule.Aimed off (lastTurn i (firstReading config.programs x.clock i) past') v →
      Steady x.env.zone off (lastTurn i (firstReading config.programs x.clock i) past' - nsDay)
        (v + nsDay) → v ≤ t := by
  obtain ⟨t, past', v, h1, h2, h3⟩ := turn_next h hj he ht
  obtain ⟨pc, desc, -, -, j3⟩ := hj.of
  exact ⟨t, past', h1, fun off v' ha hs => next_steady j3 h3 ha hs ▸ h2⟩

/-- C96 in any zone: whenever cinit waits for something to happen and is not shutting down, it has
just read the clock, and has not passed the instant aimed at from the last turn of any cronjob on
by more nanoseconds than there are cronjobs, if the clock is not changed meanwhile. -/
theorem C96_wait_steady (h : x.manager config = .ok m) {past : Log}
    (he : Happened (x.loop m).log .polling past) (hs : ¬ ShuttingDown config.programs past) :
    ∃ t past', past = .clock t :: past' ∧ ∀ i s, Job config i s → ∀ off v,
      s.schedule.Aimed off (lastTurn i (firstReading config.programs x.clock i) past) v →
      Steady x.env.zone off (lastTurn i (firstReading config.programs x.clock i) past - nsDay)
        (v + nsDay) → t < v + cronjobs config.programs := by
  obtain ⟨t, past', h1, h2⟩ := wait_next h he hs
  refine ⟨t, past', h1, fun i s hj off v' ha hst => ?_⟩
  obtain ⟨v, g1, g2⟩ := h2 i s hj
  obtain ⟨pc, desc, -, -, j3⟩ := hj.of
  exact next_steady j3 g1 ha hst ▸ g2

/-- C119 in any zone: if the clock is not changed, a cronjob has a turn not before and less than a
second (and the work) after the instant aimed at. -/
theorem C119_steady (h : x.manager config = .ok m) {i : Nat} {s : Timer} (hj : Job config i s)
    {e : Event} {later mid past : Log} {t t0 work off v : Int}
    (hl : (x.loop m).log = later ++ e :: .clock t :: (mid ++ .polling :: .clock t0 :: past))
    (ht : isTurn i e = true) (hm : ∀ e' ∈ mid, isTurn i e' = false)
    (hs : ¬ ShuttingDown config.programs (.clock t0 :: past))
    (hw : t ≤ t0 + Sys.pollTimeout * 1_000_000 + work)
    (ha : s.schedule.Aimed off
      (lastTurn i (firstReading config.programs x.clock i) (.clock t0 :: past)) v)
    (hst : Steady x.env.zone off
      (lastTurn i (firstReading config.programs x.clock i) (.clock t0 :: past) - nsDay)
      (v + nsDay)) :
    v ≤ t ∧ t < v + 1_000_000_000 + work + cronjobs config.programs := by
  obtain ⟨t', t0', mid', past', v', h1, h2, h3, h4, h5⟩ := C119_first h hj
    (mid := .clock t :: mid) (past := .clock t0 :: past) hl ht (by
      intro e' he'
      rcases List.mem_cons.mp he' with rfl | he'
      · rfl
      · exact hm e' he') hs
  cases h1
  cases h2
  obtain ⟨pc, desc, -, -, j3⟩ := hj.of
  obtain rfl := next_steady j3 h3 ha hst
  have : (Sys.pollTimeout : Int) * 1_000_000 = 1_000_000_000 := by decide
  omega

/-! ## A concrete case -/

/-- A zone where the clock is put forward by an hour after ten days. -/
def springSoon : Zone := Zone.change (10 * nsDay) 0 nsHour

private theorem steady_spring (u : Int) (h : u ≤ 60_000_000_000 + nsDay) :
    springSoon.wall u = u + 0 ∧ springSoon.resolve (u + 0) = some u := by
  have h : u < 10 * nsDay := by unfold nsDay at *; omega
  constructor
  · exact if_pos h
  · show (if u + 0 - 0 < 10 * nsDay then some (u + 0 - 0) else _) = some u
    rw [if_pos (by omega)]
    simp

def springMachine : Machine :=
  { machine minutelyAnswers with env := { (machine minutelyAnswers).env with zone := springSoon } }

theorem spring_ends : Ends springMachine minutely (.unfinished minutelyLog) :=
  Res.of_check (by decide +kernel)

/-- Witness for `next_steady`, `C24_steady`, `C96_turn_steady`, `C96_wait_steady` and
`C119_steady`: the job of every minute in the run above, where the last turn was at 0; the other conditions are met as in
Props/Punctuality.lean. -/
example : Job minutely 1 everyMinute ∧ springMachine.env.zone = springSoon ∧
    lastTurn 1 (firstReading minutely.programs springMachine.clock 1) (minutelyLog.drop 9) = 0 ∧
    everyMinute.next springSoon 0 = .ok 60_000_000_000 ∧
    everyMinute.next (Zone.fixed 0) 0 = .ok 60_000_000_000 ∧
    everyMinute.schedule.Aimed 0 0 60_000_000_000 ∧
    Steady springSoon 0 (0 - nsDay) (60_000_000_000 + nsDay) ∧
    springSoon.wall (11 * nsDay) = 11 * nsDay + nsHour := by
  have hj : Timer.parse ['*', ' ', '*', ' ', '*', ' ', '*', ' ', '*'] = .ok everyMinute := by
    decide +kernel
  refine ⟨⟨_, _, rfl, rfl, hj⟩, rfl, by decide +kernel, by decide +kernel, by decide +kernel,
    C22_computed_partial hj (by decide +kernel), fun u _ h2 => ?_, by decide +kernel⟩
  exact steady_spring u h2

/-- Witness for `C92_steady`. -/
example : ∃ c0, buildCron springSoon minutely [0] = .ok c0 ∧ Polls springSoon c0 c0 ∧
    ∀ (i : Nat) pc desc s, minutely.programs[i]? = some pc → pc.ptype = .cronJob desc →
      Timer.parse desc = .ok s → (∃ x y, x ≠ y ∧ s.schedule.weekday x ∧ s.schedule.weekday y) ∧
      ∃ v v', s.next springSoon 0 = .ok v ∧ s.next (Zone.fixed 0) 0 = .ok v' ∧
        Steady springSoon 0 (0 - nsDay) (v' + nsDay) ∧ v' + minutely.programs.length ≤ chronoMax := by
  have hj : Timer.parse ['*', ' ', '*', ' ', '*', ' ', '*', ' ', '*'] = .ok everyMinute := by
    decide +kernel
  have hb : (match buildCron springSoon minutely [0] with | .ok _ => true | _ => false) = true := by
    decide +kernel
  split at hb
  · rename_i c0 hc
    refine ⟨c0, hc, .refl _, fun i pc desc s g1 g2 g3 => ?_⟩
    rcases i with _ | _ | i
    · cases g1; cases g2
    · cases g1; cases g2
      rw [hj] at g3
      cases g3
      exact ⟨⟨0, 1, by decide, show 0 ∈ rangeIncl 0 6 by decide, show 1 ∈ rangeIncl 0 6 by decide⟩,
        60_000_000_000, 60_000_000_000, by decide +kernel, by decide +kernel, fun u _ h => steady_spring u h,
        by decide +kernel⟩
    · simp [minutely] at g1
  · cases hb

end Cinit.Props
