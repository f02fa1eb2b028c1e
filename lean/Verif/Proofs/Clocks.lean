import Verif.Spec.Clocks
import Verif.Proofs.CronNext
/-!
# The next execution in zones whose clock is changed
-/

namespace Cinit

open Spec

theorem searchDate_regular {z : Zone} {t : Int} (hr : DayRegular z t) (day month fuel d : Nat) :
    Timer.searchDate z t day month fuel d =
      Timer.searchDate (Zone.fixed (offset z t)) t day month fuel d := by
  induction fuel generalizing d with
  | zero => rfl
  | succ fuel ih =>
    unfold Timer.searchDate
    rcases hx : Timer.addDays t d with u | e | q
    · obtain ⟨-, rfl⟩ := addDays_ok.mp hx
      rw [Res.bind_ok, Res.bind_ok]
      have h1 := dayRegular_fixed (offset z t) t d
      have h2 : (Zone.fixed (offset z t)).wall t = z.wall t := by
        simp only [Zone.fixed, offset]; omega
      rw [h2] at h1
      dsimp only
      rw [hr d, h1, ih]
    · exact nomatch e
    · rfl

theorem planDays_regular {z : Zone} {t : Int} (hr : DayRegular z t) (s : Timer) (p : Timer.Plan) :
    Timer.planDays z s t p = Timer.planDays (Zone.fixed (offset z t)) s t p := by
  unfold Timer.planDays
  have h2 : (Zone.fixed (offset z t)).wall t = z.wall t := by
    simp only [Zone.fixed, offset]; omega
  rw [h2]
  simp only [searchDate_regular hr]

/-- Where whole days advance the date, what is computed is the same as if the clock were not
changed, except that the resulting local time is looked up in the zone. -/
theorem next_regular {z : Zone} {t : Int} (hr : DayRegular z t) (s : Timer) :
    s.next z t = s.next (Zone.fixed (offset z t)) t >>= fun v =>
      Timer.findValid z (v + offset z t) 15841 0 := by
  unfold Timer.next
  have h2 : (Zone.fixed (offset z t)).wall t = z.wall t := by
    simp only [Zone.fixed, offset]; omega
  have h3 : Timer.planDays (Zone.fixed (offset z t)) s t = Timer.planDays z s t :=
    funext fun p => (planDays_regular hr s p).symm
  rw [h2, h3]
  cases Timer.plan s (z.wall t) with
  | err e => exact nomatch e
  | panic q => rfl
  | ok p =>
    rw [Res.bind_ok, Res.bind_ok]
    cases Timer.planDays z s t p with
    | err e => exact nomatch e
    | panic q => rfl
    | ok d =>
      rw [Res.bind_ok, Res.bind_ok]
      rcases hx : Timer.addDays t d with u | e | q
      · obtain ⟨-, rfl⟩ := addDays_ok.mp hx
        have h1 := dayRegular_fixed (offset z t) t d
        rw [h2] at h1
        rw [Res.bind_ok, Res.bind_ok, hr d, h1]
        split
        · generalize wallAt (dayOf (z.wall t) + d) p.hour p.min = w
          rw [show Timer.findValid (Zone.fixed (offset z t)) w 15841 0 =
            if chronoMax < w + ((0 : Nat) : Int) * nsMinute then .panic .dateOverflow
            else .ok (w + ((0 : Nat) : Int) * nsMinute - offset z t) from rfl]
          by_cases hc : chronoMax < w + ((0 : Nat) : Int) * nsMinute
          · rw [if_pos hc, show (15841 : Nat) = 15840 + 1 from rfl]
            unfold Timer.findValid
            rw [if_pos hc]
            rfl
          · rw [if_neg hc, Res.bind_ok]
            congr 1
            simp
        · rfl
      · exact nomatch e
      · rfl

/-- In the middle of the day, whole days advance the date. -/
theorem dayRegular_of_daytime {z : Zone} {t : Int} (hw : WithinHour z t)
    (ht : Between 1 23 (z.wall t)) : DayRegular z t := by
  intro k
  have h := hw (t + k * nsDay)
  unfold Between offset at *
  unfold dayOf nsDay nsHour at *
  omega

/-- The search for an existing local time. -/
theorem findValid_ok {z : Zone} {w v : Int} (h : Timer.findValid z w 15841 0 = .ok v) :
    ∃ k : Nat, k ≤ 15840 ∧ z.resolve (w + k * nsMinute) = some v ∧ z.wall v = w + k * nsMinute ∧
      ∀ j : Nat, j < k → ∀ u, z.wall u ≠ w + j * nsMinute := by
  obtain ⟨j, -, h2, h3, h4⟩ := (findValid_spec _ _ _ _).1 v h
  exact ⟨j, by omega, h3, z.resolve_sound _ _ h3, fun i hi =>
    z.resolve_complete _ (h4 i (Nat.zero_le _) hi)⟩

end Cinit
