import Mathlib.Data.List.Perm.Subperm
import Mathlib.Data.List.Range
import Verif.Model.CronNext
import Verif.Proofs.CronParse
import Verif.Proofs.CalendarWalk
import Verif.Spec.CronMatch
/-!
# Lemmas on `Timer.next`
-/

namespace Cinit

open Spec

/-! ## Sets -/

theorem firstFrom_some {s : List Nat} {lo x : Nat} (hs : Incr s) (h : firstFrom s lo = some x) :
    x ∈ s ∧ lo ≤ x ∧ ∀ y ∈ s, lo ≤ y → x ≤ y := by
  unfold firstFrom at h
  induction s with
  | nil => simp at h
  | cons a s ih =>
    obtain ⟨h1, h2⟩ := List.pairwise_cons.mp hs
    rw [List.find?_cons] at h
    by_cases ha : lo ≤ a
    · simp [ha] at h
      subst h
      refine ⟨by simp, ha, fun y hy _ => ?_⟩
      rcases List.mem_cons.mp hy with rfl | hy
      · exact Nat.le_refl _
      · exact Nat.le_of_lt (h1 y hy)
    · simp [ha] at h
      obtain ⟨i1, i2, i3⟩ := ih h2 (by simpa using h)
      refine ⟨List.mem_cons_of_mem _ i1, i2, fun y hy hl => ?_⟩
      rcases List.mem_cons.mp hy with rfl | hy
      · omega
      · exact i3 y hy hl

theorem firstFrom_none {s : List Nat} {lo : Nat} (h : firstFrom s lo = none) :
    ∀ y ∈ s, y < lo := by
  intro y hy
  have := List.find?_eq_none.mp h y hy
  simpa using this

/-- What `pick` chooses. -/
inductive Picked (s : List Nat) (lo : Nat) : Nat × Nat → Prop where
  | here {x} (hx : x ∈ s) (hlo : lo ≤ x) (hmin : ∀ y ∈ s, lo ≤ y → x ≤ y) : Picked s lo (x, 0)
  | wrap {x} (hx : x ∈ s) (hlo : ∀ y ∈ s, y < lo) (hmin : ∀ y ∈ s, x ≤ y) : Picked s lo (x, 1)

theorem pick_ok {s : List Nat} (hs : Incr s) (hne : s ≠ []) (lo : Nat) :
    ∃ r, pick s lo = .ok r ∧ Picked s lo r := by
  unfold pick
  cases hf : firstFrom s lo with
  | some x =>
    obtain ⟨h1, h2, h3⟩ := firstFrom_some hs hf
    exact ⟨_, rfl, .here h1 h2 h3⟩
  | none =>
    cases s with
    | nil => exact absurd rfl hne
    | cons x s =>
      refine ⟨_, rfl, .wrap (by simp) (firstFrom_none hf) fun y hy => ?_⟩
      rcases List.mem_cons.mp hy with rfl | hy
      · exact Nat.le_refl _
      · exact Nat.le_of_lt ((List.pairwise_cons.mp hs).1 y hy)

theorem Picked.mem {s : List Nat} {lo : Nat} {r} (h : Picked s lo r) : r.1 ∈ s := by
  cases h <;> assumption

theorem Picked.carry {s : List Nat} {lo : Nat} {r} (h : Picked s lo r) : r.2 ≤ 1 := by
  cases h <;> simp

/-- A set of numbers from `lo..hi` is full iff it has the right size. -/
theorem full_iff_length {l : List Nat} {lo n : Nat} (hs : Incr l)
    (hb : ∀ v ∈ l, lo ≤ v ∧ v < lo + n) :
    l.length = n ↔ ∀ v, lo ≤ v → v < lo + n → v ∈ l := by
  have hnd : l.Nodup := hs.imp (fun h => Nat.ne_of_lt h)
  have hsub : l ⊆ List.range' lo n := by
    intro v hv
    have := hb v hv
    simp [List.mem_range'_1]; omega
  have hsp := List.subperm_of_subset hnd hsub
  constructor
  · intro h v h1 h2
    have hp := hsp.perm_of_length_le (by simp [h])
    exact hp.mem_iff.mpr (by simp [List.mem_range'_1]; omega)
  · intro h
    have h1 := hsp.length_le
    have h2 : (List.range' lo n).length ≤ l.length := by
      apply List.Subperm.length_le
      apply List.subperm_of_subset List.nodup_range'
      intro v hv
      simp [List.mem_range'_1] at hv
      exact h v hv.1 hv.2
    simp at h1 h2
    omega

/-- The schedule denoted by a timer. -/
def Timer.schedule (s : Timer) : Schedule where
  minute v := v ∈ s.minute
  hour v := v ∈ s.hour
  day v := v ∈ s.day
  month v := v ∈ s.month
  weekday v := v ∈ s.weekday

theorem weekdayRelevant_iff {s : Timer} (h : s.WF) :
    s.weekdayRelevant = false ↔ s.schedule.AnyWeekday := by
  unfold Timer.weekdayRelevant Schedule.AnyWeekday Timer.schedule
  have := full_iff_length (n := 7) (lo := 0) h.weekday.1
    (fun v hv => ⟨by omega, by have := h.weekday.2.2 v hv; omega⟩)
  simp only [bne_eq_false_iff_eq, this]
  constructor
  · intro h v hv; exact h v (by omega) (by omega)
  · intro h v _ hv; exact h v (by omega)

theorem day_full_iff {s : Timer} (h : s.WF) : s.day.length = 31 ↔ s.schedule.AnyDay := by
  have := full_iff_length (n := 31) (lo := 1) h.day.1
    (fun v hv => ⟨(h.day.2.2 v hv).1, by have := h.day.2.2 v hv; omega⟩)
  rw [this]
  constructor
  · intro h v h1 h2; exact h v h1 (by omega)
  · intro h v h1 h2; exact h v h1 (by omega)

theorem month_full_iff {s : Timer} (h : s.WF) : s.month.length = 12 ↔ s.schedule.AnyMonth := by
  have := full_iff_length (n := 12) (lo := 1) h.month.1
    (fun v hv => ⟨(h.month.2.2 v hv).1, by have := h.month.2.2 v hv; omega⟩)
  rw [this]
  constructor
  · intro h v h1 h2; exact h v h1 (by omega)
  · intro h v h1 h2; exact h v h1 (by omega)

theorem dateRelevant_iff {s : Timer} (h : s.WF) :
    s.dateRelevant = false ↔ s.schedule.AnyDay ∧ s.schedule.AnyMonth := by
  unfold Timer.dateRelevant
  rw [← day_full_iff h, ← month_full_iff h]
  simp

/-! ## Clock arithmetic -/

theorem dayOf_wallAt {n : Int} {h m : Nat} (hh : h ≤ 23) (hm : m ≤ 59) :
    dayOf (wallAt n h m) = n := by
  unfold dayOf wallAt nsDay nsHour nsMinute; omega

theorem hourOf_wallAt {n : Int} {h m : Nat} (hh : h ≤ 23) (hm : m ≤ 59) :
    hourOf (wallAt n h m) = h := by
  unfold hourOf wallAt nsDay nsHour nsMinute; omega

theorem minuteOf_wallAt {n : Int} {h m : Nat} (hm : m ≤ 59) :
    minuteOf (wallAt n h m) = m := by
  unfold minuteOf wallAt nsDay nsHour nsMinute; omega

/-- A wall clock reading is at or after its minute, and less than a minute after it. -/
theorem wall_split (w : Int) :
    hourOf w ≤ 23 ∧ minuteOf w ≤ 59 ∧ wallAt (dayOf w) (hourOf w) (minuteOf w) ≤ w ∧
      w < wallAt (dayOf w) (hourOf w) (minuteOf w) + nsMinute := by
  unfold dayOf hourOf minuteOf wallAt nsDay nsHour nsMinute; omega

theorem wall_lt_wallAt {w n : Int} {h m : Nat} (hh : h ≤ 23) (hm : m ≤ 59) :
    w < wallAt n h m ↔ dayOf w < n ∨ (dayOf w = n ∧
      (hourOf w < h ∨ (hourOf w = h ∧ minuteOf w < m))) := by
  obtain ⟨h1, h2, h3, h4⟩ := wall_split w
  generalize dayOf w = n' at *
  generalize hourOf w = h' at *
  generalize minuteOf w = m' at *
  unfold wallAt nsDay nsHour nsMinute at *
  omega

theorem weekdayOf_le (n : Int) : weekdayOf n ≤ 6 := by unfold weekdayOf; omega

theorem weekdayOf_add (n : Int) (k : Nat) : weekdayOf (n + k) = (weekdayOf n + k) % 7 := by
  unfold weekdayOf; omega

/-! ## The plan -/

/-- What the components of the plan are. -/
structure PlanSpec (s : Timer) (w : Int) (p : Timer.Plan) : Prop where
  ex : ∃ cm cd : Nat,
    Picked s.minute (minuteOf w + 1) (p.min, cm) ∧
    Picked s.hour (hourOf w + cm) (p.hour, p.carryHour) ∧
    (∃ cw, Picked s.weekday (weekdayOf (dayOf w) + p.carryHour) (p.weekday, cw)) ∧
    Picked s.day ((civil (dayOf w)).day + p.carryHour) (p.day, cd) ∧
    Picked s.month ((civil (dayOf w)).month + cd) (p.month, p.carryYear)

theorem plan_ok {s : Timer} (h : s.WF) (w : Int) : ∃ p, s.plan w = .ok p ∧ PlanSpec s w p := by
  obtain ⟨mi, e1, h1⟩ := pick_ok h.minute.1 h.minute.2.1 (minuteOf w + 1)
  obtain ⟨ho, e2, h2⟩ := pick_ok h.hour.1 h.hour.2.1 (hourOf w + mi.2)
  obtain ⟨wd, e3, h3⟩ := pick_ok h.weekday.1 h.weekday.2.1 (weekdayOf (dayOf w) + ho.2)
  obtain ⟨da, e4, h4⟩ := pick_ok h.day.1 h.day.2.1 ((civil (dayOf w)).day + ho.2)
  obtain ⟨mo, e5, h5⟩ := pick_ok h.month.1 h.month.2.1 ((civil (dayOf w)).month + da.2)
  refine ⟨⟨mi.1, ho.1, ho.2, wd.1, da.1, mo.1, mo.2⟩, ?_, mi.2, da.2, h1, h2, ⟨wd.2, h3⟩, h4, h5⟩
  unfold Timer.plan
  simp only [e1, e2, e3, e4, e5, Res.bind_ok]

theorem PlanSpec.min_mem {s : Timer} {w p} (h : PlanSpec s w p) : p.min ∈ s.minute := by
  obtain ⟨_, _, h1, -⟩ := h.ex; exact h1.mem
theorem PlanSpec.hour_mem {s : Timer} {w p} (h : PlanSpec s w p) : p.hour ∈ s.hour := by
  obtain ⟨_, _, -, h1, -⟩ := h.ex; exact h1.mem
theorem PlanSpec.weekday_mem {s : Timer} {w p} (h : PlanSpec s w p) : p.weekday ∈ s.weekday := by
  obtain ⟨_, _, -, -, ⟨_, h1⟩, -⟩ := h.ex; exact h1.mem
theorem PlanSpec.day_mem {s : Timer} {w p} (h : PlanSpec s w p) : p.day ∈ s.day := by
  obtain ⟨_, _, -, -, -, h1, -⟩ := h.ex; exact h1.mem
theorem PlanSpec.month_mem {s : Timer} {w p} (h : PlanSpec s w p) : p.month ∈ s.month := by
  obtain ⟨_, _, -, -, -, -, h1⟩ := h.ex; exact h1.mem
theorem PlanSpec.carryYear_le {s : Timer} {w p} (h : PlanSpec s w p) : p.carryYear ≤ 1 := by
  obtain ⟨_, _, -, -, -, -, h1⟩ := h.ex; exact h1.carry

/-! ## The search loops -/

theorem addDays_ok {t : Int} {d : Nat} {v : Int} :
    Timer.addDays t d = .ok v ↔ t + d * nsDay ≤ chronoMax ∧ v = t + d * nsDay := by
  unfold Timer.addDays
  split
  · constructor
    · intro h; cases h
    · rintro ⟨h, -⟩; omega
  · constructor
    · intro h; cases h; exact ⟨by omega, rfl⟩
    · rintro ⟨-, rfl⟩; rfl

theorem addDays_cases (t : Int) (d : Nat) :
    (t + d * nsDay ≤ chronoMax ∧ Timer.addDays t d = .ok (t + d * nsDay)) ∨
    (chronoMax < t + d * nsDay ∧ Timer.addDays t d = .panic .dateOverflow) := by
  unfold Timer.addDays
  split
  · right; exact ⟨by assumption, rfl⟩
  · left; exact ⟨by omega, rfl⟩

/-- Does the date `d` days on have this day and month? -/
def DateHit (z : Zone) (t : Int) (day month d : Nat) : Prop :=
  (civil (dayOf (z.wall (t + d * nsDay)))).day = day ∧
  (civil (dayOf (z.wall (t + d * nsDay)))).month = month

/-- The loop stops at the first hit, or runs into the end of chrono's range. -/
theorem searchDate_spec (z : Zone) (t : Int) (day month fuel d : Nat) :
    (∀ r, Timer.searchDate z t day month fuel d = .ok r →
      d ≤ r ∧ DateHit z t day month r ∧ t + r * nsDay ≤ chronoMax ∧
      ∀ k, d ≤ k → k < r → ¬ DateHit z t day month k) ∧
    (∀ q, Timer.searchDate z t day month fuel d = .panic q → q = .dateOverflow ∧
      ∀ k, d ≤ k → k < d + fuel → t + k * nsDay ≤ chronoMax → ¬ DateHit z t day month k) := by
  induction fuel generalizing d with
  | zero =>
    constructor
    · intro r h; cases h
    · intro q h; cases h; exact ⟨rfl, fun k h1 h2 => by omega⟩
  | succ fuel ih =>
    unfold Timer.searchDate
    rcases addDays_cases t d with ⟨hle, ha⟩ | ⟨hlt, ha⟩
    · rw [ha, Res.bind_ok]
      simp only
      by_cases hit : DateHit z t day month d
      · rw [if_neg (by rw [not_or]; exact ⟨by simpa using hit.1, by simpa using hit.2⟩)]
        constructor
        · intro r h; cases h
          exact ⟨Nat.le_refl _, hit, hle, fun k h1 h2 => by omega⟩
        · intro q h; cases h
      · have : (civil (dayOf (z.wall (t + d * nsDay)))).day ≠ day ∨
            (civil (dayOf (z.wall (t + d * nsDay)))).month ≠ month := by
          unfold DateHit at hit; omega
        rw [if_pos this]
        obtain ⟨i1, i2⟩ := ih (d + 1)
        constructor
        · intro r h
          obtain ⟨h1, h2, h3, h4⟩ := i1 r h
          refine ⟨by omega, h2, h3, fun k hk hr => ?_⟩
          rcases Nat.eq_or_lt_of_le hk with rfl | hk
          · exact hit
          · exact h4 k hk hr
        · intro q h
          obtain ⟨h1, h2⟩ := i2 q h
          refine ⟨h1, fun k hk hr hc => ?_⟩
          rcases Nat.eq_or_lt_of_le hk with rfl | hk
          · exact hit
          · exact h2 k hk (by omega) hc
    · rw [ha, Res.bind_panic]
      constructor
      · intro r h; cases h
      · intro q h; cases h
        refine ⟨rfl, fun k h1 h2 h3 => ?_⟩
        have : (d : Int) * nsDay ≤ k * nsDay :=
          Int.mul_le_mul_of_nonneg_right (by omega) (by decide)
        omega

/-- With the fuel used, running out of fuel is indistinguishable from the overflow. -/
theorem searchDate_fuel (t : Int) (d k : Nat) (h : t + k * nsDay ≤ chronoMax) :
    k < d + Timer.daysLeft t := by
  unfold Timer.daysLeft nsDay at *
  omega

theorem searchDate_total (z : Zone) (t : Int) (day month d : Nat) :
    (∃ r, Timer.searchDate z t day month (Timer.daysLeft t) d = .ok r ∧
      d ≤ r ∧ DateHit z t day month r ∧ t + r * nsDay ≤ chronoMax ∧
      ∀ k, d ≤ k → k < r → ¬ DateHit z t day month k) ∨
    (Timer.searchDate z t day month (Timer.daysLeft t) d = .panic .dateOverflow ∧
      ∀ k, d ≤ k → t + k * nsDay ≤ chronoMax → ¬ DateHit z t day month k) := by
  obtain ⟨h1, h2⟩ := searchDate_spec z t day month (Timer.daysLeft t) d
  cases h : Timer.searchDate z t day month (Timer.daysLeft t) d with
  | ok r => left; exact ⟨r, rfl, h1 r h⟩
  | err e => exact nomatch e
  | panic q =>
    right
    obtain ⟨rfl, h3⟩ := h2 q h
    exact ⟨rfl, fun k hk hc => h3 k hk (searchDate_fuel t d k hc) hc⟩

/-- The minute loop stops at the first existing local time. -/
theorem findValid_spec (z : Zone) (w : Int) (fuel k : Nat) :
    (∀ v, Timer.findValid z w fuel k = .ok v →
      ∃ j, k ≤ j ∧ j < k + fuel ∧ z.resolve (w + j * nsMinute) = some v ∧
        ∀ i, k ≤ i → i < j → z.resolve (w + i * nsMinute) = none) ∧
    (∀ q, Timer.findValid z w fuel k = .panic q →
      (q = .gapTooLong ∧ ∀ i, k ≤ i → i < k + fuel → z.resolve (w + i * nsMinute) = none) ∨
      (q = .dateOverflow ∧ ∃ i, k ≤ i ∧ i < k + fuel ∧ chronoMax < w + i * nsMinute ∧
        ∀ j, k ≤ j → j < i → z.resolve (w + j * nsMinute) = none)) := by
  induction fuel generalizing k with
  | zero =>
    constructor
    · intro v h; cases h
    · intro q h; cases h; left; exact ⟨rfl, fun i h1 h2 => by omega⟩
  | succ fuel ih =>
    unfold Timer.findValid
    split
    · constructor
      · intro v h; cases h
      · intro q h; cases h
        right; exact ⟨rfl, k, Nat.le_refl _, by omega, by assumption, fun j h1 h2 => by omega⟩
    · cases hr : z.resolve (w + k * nsMinute) with
      | some u =>
        constructor
        · intro v h; cases h
          exact ⟨k, Nat.le_refl _, by omega, hr, fun i h1 h2 => by omega⟩
        · intro q h; cases h
      | none =>
        obtain ⟨i1, i2⟩ := ih (k + 1)
        constructor
        · intro v h
          obtain ⟨j, h1, h2, h3, h4⟩ := i1 v h
          refine ⟨j, by omega, by omega, h3, fun i hi hj => ?_⟩
          rcases Nat.eq_or_lt_of_le hi with rfl | hi
          · exact hr
          · exact h4 i hi hj
        · intro q h
          rcases i2 q h with ⟨h1, h2⟩ | ⟨h1, i, h2, h3, h4, h5⟩
          · left
            refine ⟨h1, fun i hi hj => ?_⟩
            rcases Nat.eq_or_lt_of_le hi with rfl | hi
            · exact hr
            · exact h2 i hi (by omega)
          · right
            refine ⟨h1, i, by omega, by omega, h4, fun j hj hi => ?_⟩
            rcases Nat.eq_or_lt_of_le hj with rfl | hj
            · exact hr
            · exact h5 j hj hi

/-- The shape of a successful computation. -/
theorem next_ok {z : Zone} {s : Timer} (h : s.WF) {t v : Int} (hn : s.next z t = .ok v) :
    ∃ p d, s.plan (z.wall t) = .ok p ∧ PlanSpec s (z.wall t) p ∧
      Timer.planDays z s t p = .ok d ∧ t + d * nsDay ≤ chronoMax ∧
      Timer.findValid z (wallAt (dayOf (z.wall (t + d * nsDay))) p.hour p.min) 15841 0 = .ok v := by
  obtain ⟨p, hp, hs⟩ := plan_ok h (z.wall t)
  unfold Timer.next at hn
  rw [hp, Res.bind_ok] at hn
  obtain ⟨d, hd, hn⟩ := Res.bind_eq_ok.mp hn
  obtain ⟨u, hu, hn⟩ := Res.bind_eq_ok.mp hn
  obtain ⟨hc, rfl⟩ := addDays_ok.mp hu
  refine ⟨p, d, hp, hs, hd, hc, ?_⟩
  split at hn
  · exact hn
  · cases hn

/-! ## Days -/

/-- Adding whole days to `t` advances the local date by as many days: no zone transition
in the future of `t` is large enough, at this time of the day, to skip or repeat a date. -/
def DayRegular (z : Zone) (t : Int) : Prop :=
  ∀ k : Nat, dayOf (z.wall (t + k * nsDay)) = dayOf (z.wall t) + k

theorem dayRegular_fixed (off t : Int) : DayRegular (Zone.fixed off) t := by
  intro k
  simp only [Zone.fixed, dayOf, nsDay]
  omega

theorem weekDuration_hit {a b : Nat} (ha : a ≤ 6) (hb : b ≤ 6) :
    (a + Timer.weekDuration a b) % 7 = b ∧ Timer.weekDuration a b ≤ 6 := by
  unfold Timer.weekDuration
  split <;> omega

theorem weekDuration_zero {a b : Nat} (ha : a ≤ 6) : Timer.weekDuration a b = 0 ↔ a = b := by
  unfold Timer.weekDuration
  split <;> omega

/-- What `planDays` computes. -/
theorem planDays_total {z : Zone} {s : Timer} {t : Int} {p : Timer.Plan} :
    let week := Timer.weekDuration (weekdayOf (dayOf (z.wall t))) p.weekday
    (s.dateRelevant = false ∧ Timer.planDays z s t p = .ok week) ∨
    (s.dateRelevant = true ∧
      ((∃ r, p.carryYear * 365 ≤ r ∧ DateHit z t p.day p.month r ∧ t + r * nsDay ≤ chronoMax ∧
          (∀ k, p.carryYear * 365 ≤ k → k < r → ¬ DateHit z t p.day p.month k) ∧
          Timer.planDays z s t p =
            .ok (if s.weekdayRelevant then Min.min week r else r)) ∨
       (Timer.planDays z s t p = .panic .dateOverflow ∧
          ∀ k, p.carryYear * 365 ≤ k → t + k * nsDay ≤ chronoMax →
            ¬ DateHit z t p.day p.month k))) := by
  unfold Timer.planDays
  cases hd : s.dateRelevant with
  | false => left; simp
  | true =>
    right
    refine ⟨rfl, ?_⟩
    rcases searchDate_total z t p.day p.month (p.carryYear * 365) with ⟨r, h1, h2, h3, h4, h5⟩ | ⟨h1, h2⟩
    · left
      refine ⟨r, h2, h3, h4, h5, ?_⟩
      simp only [if_true, h1, Res.bind_ok, Bool.and_true]
      cases s.weekdayRelevant <;> simp
    · right
      refine ⟨?_, h2⟩
      simp only [if_true, h1, Res.bind_panic]

/-- On a regular day grid, the search works on the calendar. -/
theorem dateHit_iff {z : Zone} {t : Int} (h : DayRegular z t) (day month k : Nat) :
    DateHit z t day month k ↔ (civil (dayOf (z.wall t) + k)).day = day ∧
      (civil (dayOf (z.wall t) + k)).month = month := by
  unfold DateHit
  rw [h k]

/-- Today's weekday plus the week duration is the weekday chosen. -/
theorem weekday_hit {s : Timer} (hs : s.WF) {n : Int} {w : Nat} (hw : w ∈ s.weekday) :
    weekdayOf (n + Timer.weekDuration (weekdayOf n) w) = w := by
  rw [weekdayOf_add]
  exact (weekDuration_hit (weekdayOf_le n) (hs.weekday.2.2 w hw)).1

/-- The rule by which the code selects days. -/
def CodeDay (s : Timer) (n : Int) : Prop :=
  (s.dateRelevant = false ∧ weekdayOf n ∈ s.weekday) ∨
  (s.dateRelevant = true ∧ (((civil n).day ∈ s.day ∧ (civil n).month ∈ s.month) ∨
    (s.weekdayRelevant = true ∧ weekdayOf n ∈ s.weekday)))

theorem planDays_codeDay {z : Zone} {s : Timer} (hs : s.WF) {t : Int} (hr : DayRegular z t)
    {p : Timer.Plan} (hp : PlanSpec s (z.wall t) p) {d : Nat}
    (hd : Timer.planDays z s t p = .ok d) : CodeDay s (dayOf (z.wall t) + d) := by
  have hw := weekday_hit (n := dayOf (z.wall t)) hs hp.weekday_mem
  rcases planDays_total (z := z) (s := s) (t := t) (p := p) with
    ⟨h1, h2⟩ | ⟨h1, ⟨r, h2, h3, h4, h5, h6⟩ | ⟨h2, -⟩⟩
  · rw [h2] at hd; cases hd
    left; exact ⟨h1, by rw [hw]; exact hp.weekday_mem⟩
  · rw [h6] at hd
    right
    refine ⟨h1, ?_⟩
    have hdate := (dateHit_iff hr _ _ _).mp h3
    have hdate' : (civil (dayOf (z.wall t) + r)).day ∈ s.day ∧
        (civil (dayOf (z.wall t) + r)).month ∈ s.month := by
      rw [hdate.1, hdate.2]; exact ⟨hp.day_mem, hp.month_mem⟩
    cases hrel : s.weekdayRelevant with
    | false => rw [hrel] at hd; cases hd; left; exact hdate'
    | true =>
      rw [hrel] at hd
      simp only [if_true, Res.ok.injEq] at hd
      rcases Nat.le_total (Timer.weekDuration (weekdayOf (dayOf (z.wall t))) p.weekday) r with hle | hle
      · rw [Nat.min_eq_left hle] at hd
        subst hd
        right; exact ⟨rfl, by rw [hw]; exact hp.weekday_mem⟩
      · rw [Nat.min_eq_right hle] at hd
        subst hd
        left; exact hdate'
  · rw [h2] at hd; cases hd

theorem civil_day_range (n : Int) : 1 ≤ (civil n).day ∧ (civil n).day ≤ 31 ∧
    1 ≤ (civil n).month ∧ (civil n).month ≤ 12 := by
  obtain ⟨h1, h2, h3, h4⟩ := civil_valid n
  have := daysIn_pos (civil n).year (civil n).month
  omega

/-- The code's rule agrees with crontab(5) if the weekday or the month is unrestricted. -/
theorem codeDay_iff {s : Timer} (hs : s.WF) (hm : s.schedule.AnyWeekday ∨ s.schedule.AnyMonth)
    (n : Int) : CodeDay s n ↔ s.schedule.DayMatches n := by
  obtain ⟨r1, r2, r3, r4⟩ := civil_day_range n
  have r5 := weekdayOf_le n
  unfold CodeDay
  have e1 : s.dateRelevant = true ↔ ¬ (s.schedule.AnyDay ∧ s.schedule.AnyMonth) := by
    rw [← dateRelevant_iff hs]; cases s.dateRelevant <;> simp
  have e2 : s.weekdayRelevant = true ↔ ¬ s.schedule.AnyWeekday := by
    rw [← weekdayRelevant_iff hs]; cases s.weekdayRelevant <;> simp
  rw [dateRelevant_iff hs, e1, e2]
  unfold Schedule.DayMatches
  have a1 : s.schedule.AnyDay → (civil n).day ∈ s.day := fun h => h _ r1 r2
  have a2 : s.schedule.AnyMonth → (civil n).month ∈ s.month := fun h => h _ r3 r4
  have a3 : s.schedule.AnyWeekday → weekdayOf n ∈ s.weekday := fun h => h _ r5
  simp only [show ∀ v, s.schedule.day v = (v ∈ s.day) from fun _ => rfl,
    show ∀ v, s.schedule.month v = (v ∈ s.month) from fun _ => rfl,
    show ∀ v, s.schedule.weekday v = (v ∈ s.weekday) from fun _ => rfl]
  by_cases c1 : s.schedule.AnyDay <;> by_cases c2 : s.schedule.AnyMonth <;>
    by_cases c3 : s.schedule.AnyWeekday <;> simp_all
  exact And.comm

/-! ## Fixed offsets -/

/-- The shape of the result on a fixed-offset clock. -/
theorem next_fixed {off : Int} {s : Timer} (hs : s.WF) {t v : Int}
    (hn : s.next (Zone.fixed off) t = .ok v) :
    ∃ p d, PlanSpec s (t + off) p ∧ Timer.planDays (Zone.fixed off) s t p = .ok d ∧
      v + off = wallAt (dayOf (t + off) + d) p.hour p.min ∧ p.hour ≤ 23 ∧ p.min ≤ 59 := by
  obtain ⟨p, d, -, hp, hd, -, hv⟩ := next_ok hs hn
  refine ⟨p, d, hp, hd, ?_, hs.hour.2.2 _ hp.hour_mem, hs.minute.2.2 _ hp.min_mem⟩
  obtain ⟨j, -, -, hj, hmin⟩ := (findValid_spec _ _ _ _).1 v hv
  rcases Nat.eq_zero_or_pos j with rfl | hpos
  · have h1 := dayRegular_fixed off t d
    rw [h1] at hj
    have h2 := (Zone.fixed off).resolve_sound _ _ hj
    simpa [Zone.fixed] using h2
  · have := hmin 0 (Nat.zero_le _) hpos
    cases this

/-- The carry out of the hours says whether there is time left today. -/
theorem PlanSpec.carryHour_iff {s : Timer} (hs : s.WF) {w : Int} {p : Timer.Plan}
    (hp : PlanSpec s w p) :
    (p.carryHour = 0 ∧ w < wallAt (dayOf w) p.hour p.min) ∨
    (p.carryHour = 1 ∧ (∀ h ∈ s.hour, ∀ m ∈ s.minute, wallAt (dayOf w) h m ≤ w) ∧
      ∀ h ∈ s.hour, p.hour ≤ h) := by
  have b1 := hs.hour.2.2 _ hp.hour_mem
  have b2 := hs.minute.2.2 _ hp.min_mem
  obtain ⟨cm, cd, h1, h2, -⟩ := hp.ex
  generalize hc : p.carryHour = c at h2
  cases h2 with
  | here hx hlo hmin =>
    left
    refine ⟨rfl, (wall_lt_wallAt b1 b2).mpr (.inr ⟨rfl, ?_⟩)⟩
    cases h1 with
    | here => omega
    | wrap => omega
  | wrap hx hlo hmin =>
    right
    refine ⟨rfl, fun h hh m hm => ?_, hmin⟩
    have c1 := hs.hour.2.2 _ hh
    have c2 := hs.minute.2.2 _ hm
    apply Int.not_lt.mp
    rw [wall_lt_wallAt c1 c2]
    have := hlo h hh
    cases h1 with
    | here => omega
    | wrap _ hm' _ => have := hm' m hm; omega

/-- A date hit today while the time of today is over: impossible. -/
theorem no_hit_today {s : Timer} {w : Int} {p : Timer.Plan} (hp : PlanSpec s w p)
    (hc : p.carryHour = 1) (h1 : (civil (dayOf w)).day = p.day)
    (h2 : (civil (dayOf w)).month = p.month) : p.carryYear = 1 := by
  obtain ⟨cm, cd, -, -, -, h4, h5⟩ := hp.ex
  rw [hc] at h4
  generalize hcy : p.carryYear = cy at h5
  cases h4 with
  | here => omega
  | wrap =>
    cases h5 with
    | here => omega
    | wrap => rfl

/-- The week part: when is it zero although the time of today is over? -/
theorem week_zero {s : Timer} {w : Int} {p : Timer.Plan} (hp : PlanSpec s w p)
    (hc : p.carryHour = 1) (h1 : weekdayOf (dayOf w) = p.weekday) :
    ∀ x, x ∈ s.weekday ↔ x = weekdayOf (dayOf w) := by
  obtain ⟨cm, cd, -, -, ⟨cw, h3⟩, -, -⟩ := hp.ex
  rw [hc] at h3
  intro x
  cases h3 with
  | here => omega
  | wrap hx hlo hmin =>
    constructor
    · intro hx'
      have := hlo x hx'
      have := hmin x hx'
      omega
    · rintro rfl; rw [h1]; exact hx

/-- No listed weekday between today and the one chosen. -/
theorem week_gap {s : Timer} (hs : s.WF) {w : Int} {p : Timer.Plan} (hp : PlanSpec s w p) :
    (∀ k : Nat, 0 < k → k < Timer.weekDuration (weekdayOf (dayOf w)) p.weekday →
      weekdayOf (dayOf w + k) ∉ s.weekday) ∧
    (Timer.weekDuration (weekdayOf (dayOf w)) p.weekday ≠ 0 → weekdayOf (dayOf w) ∈ s.weekday →
      p.carryHour = 1) := by
  have hwd := weekdayOf_le (dayOf w)
  have hpw := hs.weekday.2.2 _ hp.weekday_mem
  have hcl : p.carryHour ≤ 1 := by
    obtain ⟨_, _, -, h, -⟩ := hp.ex; exact h.carry
  obtain ⟨cm, cd, -, -, ⟨cw, h3⟩, -, -⟩ := hp.ex
  constructor
  · intro k hk hlt hmem
    rw [weekdayOf_add] at hmem
    have hm6 := hs.weekday.2.2 _ hmem
    unfold Timer.weekDuration at hlt
    cases h3 with
    | here hx hlo hmin =>
      have := hmin _ hmem
      split at hlt <;> omega
    | wrap hx hlo hmin =>
      have h1 := hmin _ hmem
      have h2 := hlo _ hmem
      have h3 := hlo _ hx
      split at hlt <;> omega
  · intro hne hmem
    rw [Ne, weekDuration_zero hwd] at hne
    cases h3 with
    | here hx hlo hmin =>
      have := hmin _ hmem
      omega
    | wrap hx hlo hmin =>
      have := hlo _ hmem
      omega

/-- The general argument why no instant is skipped: what is needed of the result. -/
theorem no_skip {s : Timer} (hs : s.WF) {w : Int} {p : Timer.Plan} (hp : PlanSpec s w p)
    {d : Nat}
    (hA : d ≠ 0 → ∀ h ∈ s.hour, p.hour ≤ h)
    (hB : d ≠ 0 ∨ p.hour ≠ hourOf w → ∀ m ∈ s.minute, p.min ≤ m)
    (hD : ∀ k : Nat, 0 < k → k < d → ¬ s.schedule.DayMatches (dayOf w + k))
    (hT : d ≠ 0 → s.schedule.DayMatches (dayOf w) → p.carryHour = 1)
    {u : Int} (h1 : w < u) (h2 : u < wallAt (dayOf w + d) p.hour p.min) :
    ¬ s.schedule.Matches u := by
  rintro ⟨n, h, m, hh, hm, rfl, hh', hm', hday⟩
  have b1 := hs.hour.2.2 _ hp.hour_mem
  have b2 := hs.minute.2.2 _ hp.min_mem
  rw [wall_lt_wallAt (by omega) (by omega)] at h1
  rw [wall_lt_wallAt b1 b2, dayOf_wallAt (by omega) (by omega),
    hourOf_wallAt (by omega) (by omega), minuteOf_wallAt (by omega)] at h2
  change h ∈ s.hour at hh'
  change m ∈ s.minute at hm'
  obtain ⟨k, rfl⟩ : ∃ k : Nat, n = dayOf w + k := ⟨(n - dayOf w).toNat, by omega⟩
  rcases Nat.lt_or_ge k d with hk | hk
  · rcases Nat.eq_zero_or_pos k with rfl | hk0
    · have hc := hT (by omega) (by simpa using hday)
      rcases hp.carryHour_iff hs with ⟨h0, -⟩ | ⟨-, h0, -⟩
      · omega
      · have := h0 h hh' m hm'
        have h3 : w < wallAt (dayOf w) h m :=
          (wall_lt_wallAt (by omega) (by omega)).mpr (by omega)
        omega
    · exact hD k hk0 hk hday
  · have hkd : k = d := by omega
    subst hkd
    rcases Nat.eq_zero_or_pos k with rfl | hk0
    · have hc : p.carryHour = 0 := by
        rcases hp.carryHour_iff hs with ⟨h0, -⟩ | ⟨-, h0, -⟩
        · exact h0
        · have := h0 h hh' m hm'
          have h3 : w < wallAt (dayOf w) h m :=
            (wall_lt_wallAt (by omega) (by omega)).mpr (by omega)
          omega
      obtain ⟨cm, cd, p1, p2, -⟩ := hp.ex
      rw [hc] at p2
      cases p2 with
      | here hx hlo hmin =>
        by_cases hcase : hourOf w + cm ≤ h
        · have hle := hmin h hh' hcase
          have heq : h = p.hour := by omega
          by_cases hne : p.hour = hourOf w
          · cases p1 with
            | here _ hlo' hmin' => have := hmin' m hm' (by omega); omega
            | wrap => omega
          · have := hB (.inr hne) m hm'; omega
        · cases p1 with
          | here => omega
          | wrap _ hlo' _ => have := hlo' m hm'; omega
    · have := hA (by omega) h hh'
      have := hB (.inl (by omega)) m hm'
      omega

end Cinit
