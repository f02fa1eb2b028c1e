import Verif.Props.Signals
import Verif.Props.Startup
import Verif.Props.Stopping
import Verif.Props.Family
import Verif.Props.Budget
/-!
# Configurations without programs of type notify

What confuses cinit about which process belongs to which program are messages of programs of type
notify and deaths by real-time signals. Without such programs, whatever is sent to cinit's socket
and by whom, several properties that are false in general hold as far as nothing dies by a
real-time signal.
-/

namespace Cinit.Props

open Cinit.Spec

variable {x : Machine} {config : Config} {m : Manager} (h : x.manager config = .ok m)

include h

/-- C41: without programs of type notify the termination of a process is attributed to the program
it was started for. -/
theorem C41_no_notify_partial (hno : ∀ i, ¬ isNotify config.programs i)
    (hlost : ∀ p sig, .lost p sig ∉ (x.loop m).log) {later mid first : Log} {p rc o r : Int}
    {who : Option Nat} {j : Nat}
    (hl : (x.loop m).log = later ++ .waited p rc who :: (mid ++ .spawned j p o r :: first))
    (hw : ∀ rc' who', .waited p rc' who' ∉ mid) : who = some j := by
  have hr : 0 < p ∧ who = owner config.programs (mid ++ .spawned j p o r :: first) p :=
    rule h ⟨later, hl⟩
  have hleg := before h (e := .waited p rc who) ⟨later, hl⟩
  have hplain : Plain config.programs (mid ++ .spawned j p o r :: first) :=
    .of_no_notify hno fun q sig hm => hlost q sig (by
      rw [hl]; exact List.mem_append_right _ (List.mem_cons_of_mem _ hm))
  rw [hr.2]
  clear hr hl
  induction mid with
  | nil => simp [owner]
  | cons e mid ih =>
    have ih := ih (fun rc' who' hm => hw rc' who' (List.mem_cons_of_mem _ hm)) hleg.2 hplain.2
    rw [List.cons_append] at hplain hleg ⊢
    cases e with
    | spawned k q a b =>
      have hk : MayStart (x.setting config m) k (mid ++ .spawned j p o r :: first) ∧ 0 < q ∧
          ¬ Unreaped (mid ++ .spawned j p o r :: first) q ∧ _ := hleg.1.2
      simp only [owner]
      rw [if_neg, ih]
      rintro rfl
      exact hk.2.2.1 (plain_owner hplain.2 ih)
    | waited q rc' who' =>
      simp only [owner]
      rw [if_neg, ih]
      rintro rfl
      exact hw _ _ (List.mem_cons_self ..)
    | datagram q text => rw [plain_datagram hplain, ih]
    | _ => exact ih

/-- Without programs of type notify nothing confuses which process belongs to which program. -/
theorem undisturbed_no_notify (hno : ∀ i, ¬ isNotify config.programs i)
    (hlost : ∀ p sig, .lost p sig ∉ (x.loop m).log) :
    Undisturbed config.programs (x.loop m).log :=
  plain_undisturbed (Machine.loop_legal h) (.of_no_notify hno hlost)

/-- C36: without programs of type notify all programs have terminated and all processes have been
reaped when cinit ends. -/
theorem C36_no_notify {code : Int} {w : World} (ho : x.loop m = .ok code w)
    (hno : ∀ i, ¬ isNotify config.programs i) (hlost : ∀ p sig, .lost p sig ∉ w.log) :
    (∀ i, ¬ Alive config.programs i w.log) ∧ ∀ p, ¬ Unreaped w.log p := by
  have hlog : (x.loop m).log = w.log := by rw [ho]; rfl
  refine ⟨fun i => C36_all_terminated h ho ?_ i,
    fun p => C36_all_reaped h ho (.of_no_notify hno hlost) p⟩
  rw [← hlog] at hlost ⊢
  exact undisturbed_no_notify h hno hlost

/-- C45: without programs of type notify, if the event loop ends without a termination signal, a
crash or a failure to start something, every program other than a cronjob has been started and has
terminated with code 0. -/
theorem C45_no_notify_partial {code : Int} {w : World} (ho : x.loop m = .ok code w) (h3 : code ≠ 3)
    (hno : ∀ i, ¬ isNotify config.programs i) (hlost : ∀ p sig, .lost p sig ∉ w.log)
    (hs : ¬ ShuttingDown config.programs w.log) (hf : ∀ i, .spawnFailed i ∉ w.log)
    {i : Nat} (hi : i < config.programs.length) (hc : ¬ isCronjob config.programs i) :
    Started i w.log ∧ Terminated config.programs true i w.log := by
  have hlog : (x.loop m).log = w.log := by rw [ho]; rfl
  refine C45_clean_completion_partial h ho h3 hs hf ?_ hi hc
  rw [← hlog] at hlost ⊢
  exact undisturbed_no_notify h hno hlost

/-- C46: without programs of type notify, sending signals does not fail. -/
theorem C46_no_notify {p : Panic} {w : World} (ho : x.loop m = .panic p w)
    (hno : ∀ i, ¬ isNotify config.programs i) (hlost : ∀ p sig, .lost p sig ∉ w.log) :
    p ≠ .killFailed :=
  C46_kill_succeeds h ho (.of_no_notify hno hlost)

/-- C79: without programs of type notify, the programs left out when cinit ends with code 0 are
those that could not be started and those that depend on them. -/
theorem C79_no_notify_partial {w : World} (ho : x.loop m = .ok 0 w)
    (hno : ∀ i, ¬ isNotify config.programs i) (hlost : ∀ p sig, .lost p sig ∉ w.log)
    (hs : ¬ ShuttingDown config.programs w.log)
    {i : Nat} (hi : i < config.programs.length) (hc : ¬ isCronjob config.programs i) :
    ¬ Started i w.log ↔ ∃ j, .spawnFailed j ∈ w.log ∧ ¬ isCronjob config.programs j ∧
      Relation.ReflTransGen (DependsOn config.programs) j i := by
  have hlog : (x.loop m).log = w.log := by rw [ho]; rfl
  refine C79_left_out_partial h ho hs ?_ hi hc
  rw [← hlog] at hlost ⊢
  exact undisturbed_no_notify h hno hlost

/-- C102: without programs of type notify a signal goes to a single process that cinit has started
and not reaped. -/
theorem C102_no_notify_partial {p : Int} {n : Nat} {past : Log}
    (he : Happened (x.loop m).log (.sent p n) past) (hno : ∀ i, ¬ isNotify config.programs i)
    (hlost : ∀ p sig, .lost p sig ∉ past) : 0 < p ∧ Unreaped past p :=
  C102_children_partial h he (.of_no_notify hno hlost)

/-- C106: without programs of type notify, every program alive when cinit was asked to terminate
has ended by itself with code 0 afterwards if cinit ends with code 0. -/
theorem C106_no_notify_partial {w : World} (ho : x.loop m = .ok 0 w)
    (hno : ∀ i, ¬ isNotify config.programs i) (hlost : ∀ p sig, .lost p sig ∉ w.log)
    {later past : Log} (hl : w.log = later ++ past) {i : Nat} (ha : Alive config.programs i past) :
    ∃ a p who b, later = a ++ .waited p 0 who :: b ∧
      owner config.programs (b ++ past) p = some i := by
  have hlog : (x.loop m).log = w.log := by rw [ho]; rfl
  refine C106_zero_partial h ho ?_ hl ha
  rw [← hlog] at hlost ⊢
  exact undisturbed_no_notify h hno hlost

omit h in
private theorem state_others {ps : List ProcessConfig} {i : Nat} (hi : ¬ isNotify ps i) (l : Log) :
    Spec.state ps l i ≠ .starting ∧ Spec.state ps l i ≠ .stopping := by
  induction l with
  | nil => simp only [Spec.state]; split <;> simp
  | cons e l ih =>
    cases e with
    | spawned j q o r =>
      simp only [Spec.state]
      split
      · simp
      · exact ih
    | waited q rc who =>
      simp only [Spec.state]
      split
      · split
        · simp
        · split <;> simp
      · exact ih
    | datagram q text =>
      simp only [Spec.state]
      rw [if_neg fun ha => hi ha.2]
      exact ih
    | _ => exact ih

omit h in
private theorem alive_spawned {ps : List ProcessConfig} {i : Nat} {l : Log} (ha : Alive ps i l) :
    Started i l := by
  induction l with
  | nil => exact ha.elim
  | cons e l ih =>
    have up : Started i l → Started i (e :: l) := fun ⟨p, o, r, hm⟩ =>
      ⟨p, o, r, List.mem_cons_of_mem _ hm⟩
    cases e with
    | spawned j q o r =>
      rcases ha with rfl | ha
      · exact ⟨q, o, r, List.mem_cons_self ..⟩
      · exact up (ih ha)
    | waited q rc who => exact up (ih ha.2)
    | _ => exact up (ih ha)

omit h in
/-- A program that is alive and not of type notify is running. -/
theorem alive_running {past : Log} (hl : Always (Legal (x.setting config m)) past) {i : Nat}
    (hi : ¬ isNotify config.programs i) (ha : Alive config.programs i past) :
    i < config.programs.length ∧ Spec.state config.programs past i = .running := by
  constructor
  · obtain ⟨p, o, r, hm⟩ := alive_spawned ha
    obtain ⟨l1, l2, rfl⟩ := List.append_of_mem hm
    exact (always_of_suffix hl rfl).1.2.1.known
  · have := (alive_iff hl i).mp ha
    have hs := state_others hi past
    rcases this with h1 | h1 | h1
    · exact absurd h1 hs.1
    · exact h1
    · exact absurd h1 hs.2

/-- C35 for the programs of other types than notify, in every configuration: if they are alive when
a termination signal arrives, their main processes are sent a signal. -/
theorem C35_others_partial {code : Int} {w : World} (ho : x.loop m = .ok code w) {later past : Log}
    {n : Nat} (hl : w.log = later ++ .signal n :: past)
    (hn : n = Signal.int ∨ n = Signal.quit ∨ n = Signal.term) {i : Nat}
    (hi : ¬ isNotify config.programs i) (ha : Alive config.programs i past) :
    .sent (mainPid config.programs past i) (if n = Signal.term then Signal.int else n) ∈ later := by
  have hlog : (x.loop m).log = w.log := by rw [ho]; rfl
  have hl' := hlog.trans hl
  obtain ⟨h1, h2⟩ := alive_running (before h ⟨later, hl'⟩) hi ha
  obtain ⟨past', he, -⟩ := exit_event h ho
  have hmem : Event.sent (mainPid config.programs past i) (if n = Signal.term then Signal.int else n) ∈
      ((List.range config.programs.length).filter
        (fun i => Spec.state config.programs past i = .running)).map
      (fun i => Event.sent (mainPid config.programs past i)
        (if n = Signal.term then Signal.int else n)) := by
    refine List.mem_map.mpr ⟨i, List.mem_filter.mpr ⟨List.mem_range.mpr h1, ?_⟩, rfl⟩
    simpa using h2
  rcases C35_signal_partial h hl' hn with hp | hp
  · exfalso
    cases later with
    | nil => rw [he] at hl; cases hl
    | cons e later =>
      rw [he] at hl
      cases hl
      have := hp.subset (show Event.exit code ∈ (Event.exit code :: later).reverse by simp)
      simp at this
  · exact List.mem_reverse.mp (hp.subset hmem)

/-- C35 in the same way after a crash: all other programs alive that are not of type notify are
sent SIGINT. -/
theorem C35_others_crash_partial {code : Int} {w : World} (ho : x.loop m = .ok code w)
    {later past : Log} {p rc : Int} {who : Option Nat} {k : Nat}
    (hl : w.log = later ++ .waited p rc who :: past) (hrc : rc ≠ 0)
    (hk : owner config.programs past p = some k) {i : Nat} (hik : i ≠ k)
    (hi : ¬ isNotify config.programs i) (ha : Alive config.programs i past) :
    .sent (mainPid config.programs past i) Signal.int ∈ later := by
  have hlog : (x.loop m).log = w.log := by rw [ho]; rfl
  have hl' := hlog.trans hl
  obtain ⟨h1, h2⟩ := alive_running (before h ⟨later, hl'⟩) hi ha
  obtain ⟨past', he, -⟩ := exit_event h ho
  have hmem : Event.sent (mainPid config.programs past i) Signal.int ∈
      ((List.range config.programs.length).filter
        (fun i => i ≠ k ∧ Spec.state config.programs past i = .running)).map
      (fun i => Event.sent (mainPid config.programs past i) Signal.int) := by
    refine List.mem_map.mpr ⟨i, List.mem_filter.mpr ⟨List.mem_range.mpr h1, ?_⟩, rfl⟩
    simp [h2, hik]
  rcases C35_crash_partial h hl' hrc hk with hp | hp
  · exfalso
    cases later with
    | nil => rw [he] at hl; cases hl
    | cons e later =>
      rw [he] at hl
      cases hl
      have := hp.subset (show Event.exit code ∈ (Event.exit code :: later).reverse by simp)
      simp at this
  · exact List.mem_reverse.mp (hp.subset hmem)

omit h in
private theorem died_noticed {ps : List ProcessConfig} {i : Nat} {l : Log}
    (hlost : ∀ p sig, .lost p sig ∉ l) : Died ps i l ↔ Terminated ps false i l := by
  refine ⟨?_, Or.inl⟩
  rintro (hd | hd)
  · exact hd
  · obtain ⟨e, past, ⟨later, rfl⟩, p, sig, rfl, -⟩ := sometime_happened.mp hd
    exact absurd (by simp) (hlost p sig)

/-- C33 in full, as long as no process dies by a real-time signal. -/
theorem C33_noticed_partial {i : Nat} {p o r : Int} {past : Log}
    (he : Happened (x.loop m).log (.spawned i p o r) past) (hlost : ∀ p sig, .lost p sig ∉ past) :
    (.signal Signal.int ∉ past ∧ .signal Signal.quit ∉ past ∧ .signal Signal.term ∉ past) ∧
    ∀ j, ¬ Died config.programs j past := by
  obtain ⟨h1, h2⟩ := C33_no_start_partial h he
  refine ⟨h1, fun j hj => ?_⟩
  obtain ⟨e, past', hp, q, rc, who, rfl, hq, hrc⟩ :=
    sometime_happened.mp ((died_noticed hlost).mp hj)
  have := h2 q rc who past' hp (by simpa using hrc)
  rw [this] at hq
  cases hq

omit h

/-- Witness: the run `two_ends` of two programs of type oneshot, in which both are started and
terminate. -/
example : (∀ i, ¬ isNotify two.programs i) ∧ (∀ p sig, .lost p sig ∉ twoLog) ∧
    Started 1 twoLog ∧ ∃ m w, (machine twoAnswers).manager two = .ok m ∧
      (machine twoAnswers).loop m = .ok 0 w ∧ w.log = twoLog := by
  refine ⟨?_, by simp [twoLog], ?_, ?_⟩
  · rintro (_ | _ | i) <;> simp [isNotify, two, prog]
  · simp [Started, twoLog]
  · exact two_ends.exited

/-- Witness for `C35_others_partial`, `C33_noticed_partial`: when the signal
arrives in the run `three_ends`, the cronjob is running. See `crash_ends` for
`C35_others_crash_partial`. -/
example : threeLog = threeLog.take 23 ++ .signal 15 :: threeLog.drop 24 ∧
    ¬ isNotify three.programs 2 ∧ Alive three.programs 2 (threeLog.drop 24) ∧
    mainPid three.programs (threeLog.drop 24) 2 = 12 ∧ .sent 12 2 ∈ threeLog.take 23 ∧
    ∀ p sig, .lost p sig ∉ threeLog := by
  refine ⟨by decide +kernel, by decide +kernel, by simp [threeLog, Alive], by decide +kernel,
    by decide +kernel, ?_⟩
  simp [threeLog]

/-- What else happens in the run `piling_ends`. -/
def pilingSaga : Saga :=
  [.cinit .polling, .cinit (.clock 121_000_000_000), .cinit .reaped, .cinit (.waited 13 0 (some 1)),
   .ends 13, .cinit (.polled []), .forks 13 14, .cinit .polling, .cinit (.clock 120_800_000_000),
   .cinit (.watched 25 true), .cinit (.watched 24 true), .cinit (.spawned 1 13 24 25),
   .cinit (.clock 120_700_000_000), .cinit .reaped, .cinit (.polled []), .cinit .polling,
   .cinit (.clock 119_700_000_000), .cinit .reaped, .cinit (.waited 11 0 (some 1)), .ends 11,
   .cinit (.polled []), .forks 11 12, .cinit .polling, .cinit (.clock 60_600_000_000),
   .cinit (.watched 23 true), .cinit (.watched 22 true), .cinit (.spawned 1 11 22 23),
   .cinit (.clock 60_500_000_000), .cinit .reaped, .cinit (.polled []), .cinit .polling,
   .cinit (.clock 59_500_000_000), .cinit (.watched 21 true), .cinit (.watched 20 true),
   .cinit (.spawned 0 10 20 21)]

/-- Witness for `C113_no_notify_partial`: cinit waits for children while program 0 is running. -/
example : Ends (machine pilingAnswers) minutely (.unfinished pilingSaga.log) ∧
    Lawful pilingSaga ∧
    pilingSaga = pilingSaga.take 2 ++ .cinit .reaped :: pilingSaga.drop 3 ∧
    (∀ p sig, .lost p sig ∉ pilingSaga.log) ∧ (∀ i, ¬ isNotify minutely.programs i) ∧
    owner minutely.programs (Saga.log (pilingSaga.drop 3)) 10 = some 0 := by
  refine ⟨piling_ends, ?_, rfl, ?_, ?_, by decide +kernel⟩
  · simp only [pilingSaga, Lawful, Natural, parent, zombie]
    simp
  · simp [pilingSaga, Saga.log]
  · rintro (_ | _ | i) <;> simp [isNotify, minutely, prog]

end Cinit.Props
