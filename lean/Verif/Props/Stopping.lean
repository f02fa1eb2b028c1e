import Verif.Props.Runs
import Verif.Spec.Stopping
/-!
# What asking cinit to stop leads to
-/

namespace Cinit.Props

open Spec

/-! ## C105: each program is asked to stop once -/

/-- C105 in full: as long as cinit itself is asked to terminate no more than once, no process
cinit has started is sent more than one signal. -/
def C105_statement : Prop :=
  ∀ (x : Machine) (config : Config) (m : Manager), x.manager config = .ok m →
    timesAsked (x.loop m).log ≤ 1 →
    ∀ i p o r later past, (x.loop m).log = later ++ .spawned i p o r :: past →
      (∀ j o' r', .spawned j p o' r' ∉ later) →
      ((signalled later).filter (fun s => s.1 = p)).length ≤ 1

/-- The signals among some events. -/
def sentIn (es : List Event) : List (Int × Nat) := signalled es.reverse

private theorem signalled_append (a b : Log) : signalled (a ++ b) = signalled b ++ signalled a := by
  induction a with
  | nil => simp [signalled]
  | cons e a ih =>
    cases e <;> simp only [List.cons_append, signalled, ih, List.append_assoc]

private theorem sentIn_cons (e : Event) (es : List Event) :
    sentIn (e :: es) = signalled [e] ++ sentIn es := by
  simp only [sentIn, List.reverse_cons, signalled_append]

private theorem sentIn_sent (f : Nat → Int) (n : Nat) (is : List Nat) :
    sentIn (is.map (fun i => .sent (f i) n)) = is.map (fun i => (f i, n)) := by
  induction is with
  | nil => rfl
  | cons i is ih =>
    rw [List.map_cons, sentIn_cons, ih]
    rfl

private theorem sentIn_line (out : Bool) (name : Str) (ls : List Str) :
    sentIn (ls.map (fun t => .line out name t)) = [] := by
  induction ls with
  | nil => rfl
  | cons i is ih =>
    rw [List.map_cons, sentIn_cons, ih]
    rfl

/-- The signals to be sent in reaction to an event are those ordered by it. -/
private theorem sentIn_reaction (ps : List ProcessConfig) (e : Event) (l : Log) :
    sentIn (reaction ps (e :: l)) = match order ps l e with
      | none => []
      | some n => (runningPrograms ps (e :: l)).map (fun i => (mainPid ps l i, n)) := by
  cases e with
  | signal n =>
    have hr : runningPrograms ps (.signal n :: l) = runningPrograms ps l := rfl
    simp only [reaction, order, hr]
    by_cases h1 : n = Signal.int ∨ n = Signal.quit
    · rw [if_pos h1, if_pos h1]; exact sentIn_sent _ _ _
    · rw [if_neg h1, if_neg h1]
      by_cases h2 : n = Signal.term
      · rw [if_pos h2, if_pos h2]; exact sentIn_sent _ _ _
      · rw [if_neg h2, if_neg h2]; rfl
  | waited p rc who =>
    simp only [reaction, order]
    by_cases h1 : rc ≠ 0 ∧ (owner ps l p).isSome
    · rw [if_pos h1, if_pos h1]; exact sentIn_sent _ _ _
    · rw [if_neg h1, if_neg h1]; rfl
  | chunk fd bytes =>
    simp only [reaction, order]
    cases stream l fd with
    | none => rfl
    | some io => exact sentIn_line _ _ _
  | _ => rfl

section

variable {x : Machine} {config : Config} {m : Manager} (h : x.manager config = .ok m)
include h

/-- What has been sent and what is still to be sent at once is what has been ordered. -/
theorem signalled_obligations (l : Log) (hl : ∃ later, (x.loop m).log = later ++ l) :
    signalled l ++ sentIn (obligations config.programs l) = ordered config.programs l := by
  induction l with
  | nil => rfl
  | cons e l ih =>
    obtain ⟨later, hl⟩ := hl
    have ih := ih ⟨later ++ [e], by rw [hl]; simp⟩
    have he : Happened (x.loop m).log e l := ⟨later, hl⟩
    by_cases hr : isReaction e
    · obtain ⟨rest, hob⟩ := reaction_due (Machine.loop_legal h) he hr
      change obligations config.programs l = e :: rest at hob
      rw [obligations_step hob e]
      rw [hob, sentIn_cons, ← List.append_assoc] at ih
      have ho : order config.programs l e = none := by cases e <;> first | rfl | exact hr.elim
      simp only [ordered, ho, List.append_nil]
      rw [← ih, show e :: l = [e] ++ l from rfl, signalled_append]
    · have hcalm := calm_before h he hr
      rw [hcalm] at ih
      rw [obligations_react hcalm e, sentIn_reaction]
      have hs : signalled (e :: l) = signalled l := by
        cases e <;> first | rfl | exact absurd trivial hr
      simp only [ordered]
      rw [hs, ← ih]
      cases order config.programs l e <;> simp [sentIn, signalled]

/-- C105: at every time nothing has been sent but what had to be, in the right order. -/
theorem C105_ordered_partial (l : Log) (hl : ∃ later, (x.loop m).log = later ++ l) :
    signalled l <+: ordered config.programs l :=
  ⟨_, signalled_obligations h l hl⟩

/-- C105: the signals sent in a run are exactly these, in this order: for every termination
signal and for every program that ends unsuccessfully, one for every program running then. -/
theorem C105_account_partial {code : Int} {w : World} (ho : x.loop m = .ok code w) :
    signalled w.log = ordered config.programs w.log := by
  obtain ⟨past, h1, h2⟩ := exit_event h ho
  have hcalm := calm_before h h2 (fun hf => hf)
  have hlog : (x.loop m).log = w.log := by rw [ho]; rfl
  have := signalled_obligations h w.log ⟨[], by rw [hlog]; rfl⟩
  rw [h1, obligations_react hcalm] at this
  rw [h1, ← this]
  simp [reaction, sentIn, signalled]

omit h in
private theorem sum_map_add (f g : Nat → Nat) (is : List Nat) :
    (is.map (fun i => f i + g i)).sum = (is.map f).sum + (is.map g).sum := by
  induction is with
  | nil => rfl
  | cons i is ih => simp only [List.map_cons, List.sum_cons, ih]; omega

omit h in
private theorem length_filter_sum (p : Nat → Prop) [DecidablePred p] (is : List Nat) :
    (is.filter (fun i => p i)).length = (is.map (fun i => if p i then 1 else 0)).sum := by
  induction is with
  | nil => rfl
  | cons i is ih =>
    by_cases hp : p i
    · simp [hp, ih]; omega
    · simp [hp, ih]

omit h in
theorem ordered_length (ps : List ProcessConfig) (l : Log) :
    (ordered ps l).length =
      ((List.range ps.length).map (fun i => timesOrdered ps i l)).sum := by
  induction l with
  | nil => simp [ordered, timesOrdered]
  | cons e l ih =>
    simp only [ordered, timesOrdered, List.length_append, sum_map_add, ih]
    congr 1
    cases ho : order ps l e with
    | none => simp
    | some n =>
      simp only [List.length_map, runningPrograms, Option.isSome_some, true_and]
      exact length_filter_sum _ _

/-- C105: the number of signals sent is the sum, over all programs, of the number of times
cinit was asked to terminate or another program ended unsuccessfully while it was running. -/
theorem C105_number_partial {code : Int} {w : World} (ho : x.loop m = .ok code w) :
    (signalled w.log).length =
      ((List.range config.programs.length).map
        (fun i => timesOrdered config.programs i w.log)).sum := by
  rw [C105_account_partial h ho, ordered_length]

omit h in
private theorem order_counts (ps : List ProcessConfig) (e : Event) (l : Log) :
    timesAsked (e :: l) + timesCrashed ps (e :: l) =
      timesAsked l + timesCrashed ps l + (if (order ps l e).isSome then 1 else 0) := by
  cases e with
  | signal n =>
    simp only [timesAsked, timesCrashed, order]
    by_cases h1 : n = Signal.int ∨ n = Signal.quit
    · rw [if_pos (show n = Signal.int ∨ n = Signal.quit ∨ n = Signal.term by tauto)]
      simp only [h1, if_true, Option.isSome_some]
      omega
    · by_cases h2 : n = Signal.term
      · rw [if_pos (show n = Signal.int ∨ n = Signal.quit ∨ n = Signal.term by tauto)]
        simp only [h2, if_true]
        split <;> simp <;> omega
      · rw [if_neg (show ¬ (n = Signal.int ∨ n = Signal.quit ∨ n = Signal.term) by tauto)]
        simp only [h1, h2, if_false, Option.isSome_none]
        simp
  | waited p rc who =>
    simp only [timesAsked, timesCrashed, order]
    by_cases h1 : rc ≠ 0 ∧ (owner ps l p).isSome
    · rw [if_pos h1]
      simp only [if_pos h1, Option.isSome_some, if_true]
      omega
    · rw [if_neg h1]
      simp only [if_neg h1, Option.isSome_none]
      simp
  | _ => simp [timesAsked, timesCrashed, order]

omit h in
theorem timesOrdered_le (ps : List ProcessConfig) (i : Nat) (l : Log) :
    timesOrdered ps i l ≤ timesAsked l + timesCrashed ps l := by
  induction l with
  | nil => exact Nat.le_refl _
  | cons e l ih =>
    rw [order_counts]
    simp only [timesOrdered]
    by_cases h1 : (order ps l e).isSome
    · rw [if_pos h1]
      split <;> omega
    · rw [if_neg h1, if_neg (fun h => h1 h.1)]
      omega

/-- C105 for runs in which all programs end successfully, and cinit is asked to terminate
once: all programs running then are sent one signal, in the order of the configuration, and
that is all. -/
theorem C105_once_partial {code : Int} {w : World} (ho : x.loop m = .ok code w)
    {n : Nat} {later past : Log} (hl : w.log = later ++ .signal n :: past)
    (hn : n = Signal.int ∨ n = Signal.quit ∨ n = Signal.term)
    (ha : timesAsked w.log ≤ 1) (hc : timesCrashed config.programs w.log = 0) :
    signalled w.log = (runningPrograms config.programs past).map (fun i =>
      (mainPid config.programs past i, if n = Signal.term then Signal.int else n)) := by
  rw [C105_account_partial h ho]
  have none_of : ∀ l e, timesAsked (e :: l) = timesAsked l →
      timesCrashed config.programs (e :: l) = timesCrashed config.programs l →
      order config.programs l e = none := by
    intro l e h1 h2
    have := order_counts config.programs e l
    cases ho : order config.programs l e with
    | none => rfl
    | some n =>
      rw [ho] at this
      simp only [Option.isSome_some, if_true] at this
      omega
  have mono : ∀ e l, timesAsked l ≤ timesAsked (e :: l) ∧
      timesCrashed config.programs l ≤ timesCrashed config.programs (e :: l) := by
    intro e l
    cases e <;> simp only [timesAsked, timesCrashed] <;> omega
  have mono' : ∀ a l, timesAsked l ≤ timesAsked (a ++ l) ∧
      timesCrashed config.programs l ≤ timesCrashed config.programs (a ++ l) := by
    intro a l
    induction a with
    | nil => exact ⟨Nat.le_refl _, Nat.le_refl _⟩
    | cons e a ih =>
      have := mono e (a ++ l)
      rw [List.cons_append]
      omega
  have same : ∀ a l, timesAsked (a ++ l) = timesAsked l →
      timesCrashed config.programs (a ++ l) = timesCrashed config.programs l →
      ordered config.programs (a ++ l) = ordered config.programs l := by
    intro a l
    induction a with
    | nil => exact fun _ _ => rfl
    | cons e a ih =>
      intro h1 h2
      have g1 := mono e (a ++ l)
      have g2 := mono' a l
      rw [List.cons_append] at h1 h2 ⊢
      simp only [ordered]
      rw [none_of (a ++ l) e (by omega) (by omega), ih (by omega) (by omega), List.append_nil]
  have hS : timesAsked (.signal n :: past) = timesAsked past + 1 := by
    simp only [timesAsked]; rw [if_pos hn]
  have hC : timesCrashed config.programs (.signal n :: past) =
      timesCrashed config.programs past := rfl
  have g := mono' later (.signal n :: past)
  rw [← hl] at g
  have hlate := same later (.signal n :: past) (by rw [← hl]; omega) (by rw [← hl]; omega)
  have hpast : ordered config.programs past = [] := by
    have g0 : timesAsked past = 0 := by omega
    have := same past [] (by rw [List.append_nil, g0]; rfl)
      (by rw [List.append_nil]; simp only [timesCrashed]; omega)
    rwa [List.append_nil] at this
  rw [hl, hlate]
  have hord : order config.programs past (.signal n) =
      some (if n = Signal.term then Signal.int else n) := by
    simp only [order]
    rcases hn with rfl | rfl | rfl
    · rw [if_pos (.inl rfl), if_neg (by decide)]
    · rw [if_pos (.inr rfl), if_neg (by decide)]
    · rw [if_neg (by decide), if_pos rfl, if_pos rfl]
  have hrun : runningPrograms config.programs (.signal n :: past) =
      runningPrograms config.programs past := rfl
  simp only [ordered, hpast, hord, hrun, List.nil_append]

end

/-! ## C106: stopping on request is no failure -/

/-- C106 in full: if no program exits with a code other than 0, and none dies by a signal other
than one cinit has sent it, cinit ends with exit code 0. -/
def C106_statement : Prop :=
  ∀ (x : Machine) (config : Config) (m : Manager) (code : Int) (w : World),
    x.manager config = .ok m → x.loop m = .ok code w → code ≠ 3 →
    (∀ p rc, .wait (.exited p rc) ∈ x.answers → rc = 0) →
    (∀ p rc who past, Happened w.log (.waited p rc who) past → rc ≠ 0 →
      ∃ n : Nat, rc = n ∧ .sent p n ∈ past) →
    (∀ p sig, .lost p sig ∉ w.log) → code = 0

/-- Two programs are running when cinit gets SIGTERM. Neither knows of SIGINT, so both die by
it; the second one was slower. -/
def stopAnswers : List Answer :=
  [.setup true, .fork (some (10, 20, 21)), .epollAdd true, .epollAdd true,
   .fork (some (11, 22, 23)), .epollAdd true, .epollAdd true, .now 1,
   .epoll (some [⟨3, true, false⟩, ⟨20, false, true⟩, ⟨21, false, true⟩, ⟨22, false, true⟩,
     ⟨23, false, true⟩]),
   .signal (some 15), .kill true, .kill true,
   .wait (.killed 10 2), .kill true, .wait .alive,
   .epoll (some []), .wait (.killed 11 2), .wait .error]

def stopBefore : Log :=
  [.ready ⟨3, true, false⟩,
   .polled [⟨3, true, false⟩, ⟨20, false, true⟩, ⟨21, false, true⟩, ⟨22, false, true⟩,
     ⟨23, false, true⟩],
   .polling, .clock 1, .watched 23 true, .watched 22 true, .spawned 1 11 22 23,
   .watched 21 true, .watched 20 true, .spawned 0 10 20 21]

def stopAfter : Log :=
  [.exit 6, .reaped, .waited 11 2 (some 1), .polled [], .polling, .reaped,
   .sent 11 2, .waited 10 2 (some 0),
   .hangup 23, .ready ⟨23, false, true⟩, .hangup 22, .ready ⟨22, false, true⟩,
   .hangup 21, .ready ⟨21, false, true⟩, .hangup 20, .ready ⟨20, false, true⟩,
   .sent 11 2, .sent 10 2]

/-- This run meets the hypotheses of `C105_account_partial` and `C105_number_partial`. -/
theorem stop_ends : Ends (machine stopAnswers) crash
    (.exited 6 (stopAfter ++ .signal 15 :: stopBefore)) :=
  Res.of_check (by decide +kernel)

example : signalled (stopAfter ++ .signal 15 :: stopBefore) = [(10, 2), (11, 2), (11, 2)] ∧
    timesOrdered crash.programs 1 (stopAfter ++ .signal 15 :: stopBefore) = 2 := by
  decide +kernel

/-- C105 is false: the death of the first program by the signal it was sent makes cinit send
another one to the second program. -/
theorem C105_violated : ¬ C105_statement := by
  intro h
  obtain ⟨m, h1, h2⟩ := stop_ends.log
  have := h _ _ m h1 (by rw [h2]; decide +kernel) 1 11 22 23
    (stopAfter ++ .signal 15 :: stopBefore.take 6) (stopBefore.drop 7) (by rw [h2]; rfl)
    (by intro j o r hm; simp [stopAfter, stopBefore] at hm)
  exact absurd this (by decide +kernel)

/-- The run of `three` meets the hypotheses of `C105_once_partial`. -/
example : ∃ later past, threeLog = later ++ .signal 15 :: past ∧ timesAsked threeLog ≤ 1 ∧
    timesCrashed three.programs threeLog = 0 ∧
    runningPrograms three.programs past = [0, 2] :=
  ⟨threeLog.take 23, threeLog.drop 24, by decide +kernel, by decide +kernel, by decide +kernel,
    by decide +kernel⟩

/-- C106 is false: the death by the signal cinit has sent counts as a crash. -/
theorem C106_violated : ¬ C106_statement := by
  intro h
  obtain ⟨m, w, h1, h2, h3⟩ := stop_ends.exited
  have := h _ _ m 6 w h1 h2 (by decide) ?_ ?_ ?_
  · cases this
  · intro p rc hm
    simp [machine, stopAnswers] at hm
  · intro p rc who past hp hrc
    have : Always (fun e past => ∀ p rc who, e = .waited p rc who → rc ≠ 0 →
        ∃ n : Nat, rc = n ∧ .sent p n ∈ past) w.log := by
      rw [h3]
      simp only [stopAfter, stopBefore, List.cons_append, List.nil_append, Always]
      simp
    exact (hp.always this).1 p rc who rfl hrc
  · intro p sig hm
    rw [h3] at hm
    simp [stopAfter, stopBefore] at hm

section

variable {x : Machine} {config : Config} {m : Manager} (h : x.manager config = .ok m)
include h

/-- C106: cinit ends with exit code 0 or 6. It is 6 as soon as one main process has ended with
another code than 0 or by a signal, be it one that cinit has sent. -/
theorem C106_fatal_partial {code : Int} {w : World} (ho : x.loop m = .ok code w)
    {p rc : Int} {who : Option Nat} {past : Log}
    (he : Happened w.log (.waited p rc who) past) (hrc : rc ≠ 0)
    (hw : owner config.programs past p ≠ none) : code = 6 := by
  have hc : SomeCrash config.programs w.log := by
    cases hi : owner config.programs past p with
    | none => exact absurd hi hw
    | some i =>
      exact ⟨i, sometime_happened.mpr ⟨_, past, he, p, rc, who, rfl, hi, by simp [hrc]⟩⟩
  rcases C34_exit_status_partial h ho with ⟨-, e⟩ | ⟨e, -⟩ | ⟨-, e⟩
  · obtain ⟨later, hl⟩ := he
    rw [e] at hl
    rcases later with _ | ⟨_, _ | ⟨_, _⟩⟩ <;> simp at hl
  · exact e
  · exact absurd hc e

omit h in
private theorem alive_later {ps : List ProcessConfig} {i : Nat} {past : Log}
    (ha : Alive ps i past) (later : Log) :
    Alive ps i (later ++ past) ∨ ∃ a p rc who b, later = a ++ .waited p rc who :: b ∧
      owner ps (b ++ past) p = some i := by
  induction later with
  | nil => exact .inl ha
  | cons e later ih =>
    rcases ih with ih | ⟨a, p, rc, who, b, h1, h2⟩
    · cases e with
      | spawned j q o r => exact .inl (.inr ih)
      | waited q rc who =>
        by_cases hq : owner ps (later ++ past) q = some i
        · exact .inr ⟨[], q, rc, who, later, rfl, hq⟩
        · exact .inl ⟨hq, ih⟩
      | _ => exact .inl ih
    · exact .inr ⟨e :: a, p, rc, who, b, by rw [h1]; rfl, h2⟩

/-- C106, what exit code 0 demands: every program alive when cinit was asked to terminate (or at
any other time) has ended by itself with code 0 afterwards. -/
theorem C106_zero_partial {w : World} (ho : x.loop m = .ok 0 w)
    (hu : Undisturbed config.programs w.log) {later past : Log} (hl : w.log = later ++ past)
    {i : Nat} (ha : Alive config.programs i past) :
    ∃ a p who b, later = a ++ .waited p 0 who :: b ∧
      owner config.programs (b ++ past) p = some i := by
  rcases alive_later ha later with h1 | ⟨a, p, rc, who, b, h1, h2⟩
  · rw [← hl] at h1
    exact absurd h1 (C36_all_terminated h ho hu i)
  · by_cases hrc : rc = 0
    · exact ⟨a, p, who, b, by rw [h1, hrc], h2⟩
    · have := C106_fatal_partial h ho (p := p) (rc := rc) (who := who) (past := b ++ past)
        ⟨a, by rw [hl, h1]; simp⟩ hrc (by rw [h2]; simp)
      cases this

end

/-- The run of `two` (see there) meets the hypotheses of `C106_zero_partial`, that of
`stopAnswers` those of `C106_fatal_partial`. -/
example : twoLog = twoLog.take 18 ++ twoLog.drop 18 ∧ Alive two.programs 0 (twoLog.drop 18) ∧
    Happened (stopAfter ++ .signal 15 :: stopBefore) (.waited 11 2 (some 1))
      ((stopAfter ++ .signal 15 :: stopBefore).drop 3) := by
  refine ⟨rfl, .inl rfl, stopAfter.take 2, rfl⟩

end Cinit.Props
