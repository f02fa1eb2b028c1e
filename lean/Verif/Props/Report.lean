import Verif.Props.Service
import Verif.Proofs.CronParse
import Verif.Proofs.Numbers
/-!
# C44: the status report
-/

namespace Cinit.Props

open Cinit Spec

/-! ## Texts made of lines -/

theorem splitOn_unlines {ls : List Str} (h : ∀ w ∈ ls, '\n' ∉ w) :
    splitOn '\n' (unlines ls) = ls ++ [[]] := by
  induction ls with
  | nil => rfl
  | cons w ls ih =>
    have hw := h w (by simp)
    rw [unlines_cons]
    unfold splitOn at ih ⊢
    rw [splitWith_append (c := '\n'), ih fun v hv => h v (by simp [hv])]
    · rfl
    · intro c hc
      simp only [beq_eq_false_iff_ne]
      rintro rfl
      exact hw hc
    · simp

theorem digit_ne (n : Nat) : Char.ofNat (48 + n % 10) ≠ '\n' := by
  intro h
  have h1 : (Char.ofNat (48 + n % 10)).toNat = 48 + n % 10 := toNat_ofNat' (by omega)
  rw [h] at h1
  have : ('\n' : Char).toNat = 10 := rfl
  omega

theorem showNatAux_plain (fuel n : Nat) (acc : Str) (h : '\n' ∉ acc) :
    '\n' ∉ showNatAux fuel n acc := by
  induction fuel generalizing n acc with
  | zero => exact h
  | succ fuel ih =>
    have h' : '\n' ∉ Char.ofNat (48 + n % 10) :: acc := by
      rw [List.mem_cons, not_or]
      exact ⟨fun e => digit_ne n e.symm, h⟩
    unfold showNatAux
    simp only
    split
    · exact h'
    · exact ih _ _ h'

theorem showInt_plain (z : Int) : '\n' ∉ showInt z := by
  cases z with
  | ofNat n => exact showNatAux_plain _ _ _ (by simp)
  | negSucc n =>
    unfold showInt
    rw [List.mem_cons, not_or]
    exact ⟨by decide, showNatAux_plain _ _ _ (by simp)⟩

theorem assigned_plain {text key v : Str} (h : assigned text key = some v) : '\n' ∉ v := by
  have hm := List.mem_of_getLast? h
  rw [List.mem_filterMap] at hm
  obtain ⟨line, h1, h2⟩ := hm
  unfold valueIn at h2
  split at h2
  · cases h2
    intro hn
    exact not_mem_lines h1 (List.mem_of_mem_drop hn)
  · cases h2

/-- The status text of a program is a single line, whatever messages are received. -/
theorem status_plain (ps : List ProcessConfig) (l : Log) (i : Nat) : '\n' ∉ status ps l i := by
  induction l with
  | nil => simp [status]
  | cons e l ih =>
    cases e with
    | datagram q text =>
      simp only [status]
      split
      · cases ha : assigned text "STATUS".toList with
        | none => exact ih
        | some v => exact assigned_plain ha
      · exact ih
    | _ => exact ih

/-! ## C44 -/

variable {x : Machine} {config : Config} {m : Manager} (h : x.manager config = .ok m)

include h

/-- C44: a status report lists every program once, in the order of the configuration, each with
its current state, its status text if there is one, its exit code if and only if it is done or
crashed, and its planned execution if and only if it is a cronjob; see `reportLines`. Missing is
only the meaning of the process id, see `C44_pid_partial`. -/
theorem C44_report_partial {text : Str} {past : Log}
    (he : Happened (x.loop m).log (.report text) past) :
    ∃ shown plan, text = unlines ("programs:".toList ::
        (enumerate config.programs).flatMap fun p =>
          reportLines config.programs past shown plan p.1 p.2.name) ∧
      (∀ i, i < config.programs.length →
        (shown i = true ↔ ∃ j, owner config.programs past (mainPid config.programs past i) = some j)) ∧
      (∀ i, isCronjob config.programs i → ∃ c t, schedule x.env.zone m.cron past = some c ∧
        c.nextExecution i = .ok t ∧ plan i = x.env.rfc3339 t) :=
  rule h he

/-- C44: the programs of the report, as a list. -/
theorem C44_order : (enumerate config.programs).map (fun p => p.2.name) =
      config.programs.map (·.name) ∧
    (enumerate config.programs).map Prod.fst = List.range config.programs.length ∧
    (config.programs.map (·.name)).Nodup :=
  ⟨names_enumerate _, by
    apply List.ext_getElem <;> simp [enumerate], unique_names h⟩

/-- C44: a process id is shown for a program if and only if it is alive or its former process
id now is the process id of another program that is alive. In a history without disturbances;
without recycled process ids a process id is shown if and only if the program is alive. -/
theorem C44_pid_partial {text : Str} {past : Log}
    (he : Happened (x.loop m).log (.report text) past)
    (hu : Undisturbed config.programs past) (i : Nat) :
    (∃ j, owner config.programs past (mainPid config.programs past i) = some j) ↔
      Alive config.programs i past ∨
      ∃ j, j ≠ i ∧ Alive config.programs j past ∧
        mainPid config.programs past j = mainPid config.programs past i := by
  have hb : Always (Legal (x.setting config m)) past := before h he
  constructor
  · rintro ⟨j, hj⟩
    have ha : Alive config.programs j past := owner_alive hb hj
    by_cases hij : j = i
    · subst hij; exact .inl ha
    · exact .inr ⟨j, hij, ha, (owner_facts hb hj).2.1⟩
  · rintro (ha | ⟨j, -, ha, hp⟩)
    · exact ⟨i, alive_owner (X := x.setting config m) hb hu ha⟩
    · refine ⟨j, ?_⟩
      rw [← hp]
      exact alive_owner (X := x.setting config m) hb hu ha

/-- C44: no message can forge lines of the report: split at line feeds, the report consists of
the lines it is meant to consist of (if neither the names of programs nor the rendering of
instants contain line feeds). -/
theorem C44_not_forgeable {text : Str} {past : Log}
    (he : Happened (x.loop m).log (.report text) past)
    (hnames : ∀ c ∈ config.programs, '\n' ∉ c.name) (htime : ∀ t, '\n' ∉ x.env.rfc3339 t) :
    ∃ shown plan, splitOn '\n' text = ("programs:".toList ::
        (enumerate config.programs).flatMap fun p =>
          reportLines config.programs past shown plan p.1 p.2.name) ++ [[]] := by
  obtain ⟨shown, plan, h1, -, h3⟩ := C44_report_partial h he
  refine ⟨shown, plan, ?_⟩
  rw [h1]
  apply splitOn_unlines
  intro w hw
  rcases List.mem_cons.mp hw with rfl | hw
  · decide
  · rw [List.mem_flatMap] at hw
    obtain ⟨⟨i, c⟩, hm, hw⟩ := hw
    have hc : '\n' ∉ c.name := by
      apply hnames
      have : c ∈ (enumerate config.programs).map Prod.snd := List.mem_map_of_mem hm
      rwa [map_snd_enumerate] at this
    have hst := status_plain config.programs past i
    have hint := showInt_plain
    have hshow : ∀ s : PState, '\n' ∉ word s := by intro s; cases s <;> exact of_decide_eq_true rfl
    unfold reportLines at hw
    simp only [List.mem_append, List.mem_cons, List.not_mem_nil, or_false] at hw
    have e1 : '\n' ∉ "  - name: '".toList := by decide
    have e2 : '\n' ∉ "    state: '".toList := by decide
    have e3 : '\n' ∉ "    status: ".toList := by decide
    have e4 : '\n' ∉ "    exit_code: 0".toList := by decide
    have e5 : '\n' ∉ "    exit_code: ".toList := by decide
    have e6 : '\n' ∉ "    pid: ".toList := by decide
    have e7 : '\n' ∉ "    scheduled_at: '".toList := by decide
    generalize "  - name: '".toList = s1 at *
    generalize "    state: '".toList = s2 at *
    generalize "    status: ".toList = s3 at *
    generalize "    exit_code: 0".toList = s4 at *
    generalize "    exit_code: ".toList = s5 at *
    generalize "    pid: ".toList = s6 at *
    generalize "    scheduled_at: '".toList = s7 at *
    rcases hw with (((((rfl | rfl) | hw) | hw) | hw) | hw)
    · simp [e1, hc]
    · simp [e2, hshow]
    · split at hw
      · cases hw
      · simp only [List.mem_singleton] at hw; subst hw; simp [e3, hst]
    · split at hw
      · simp only [List.mem_singleton] at hw; subst hw; exact e4
      · simp only [List.mem_singleton] at hw; subst hw; simp [e5, hint]
      · cases hw
    · split at hw
      · simp only [List.mem_singleton] at hw; subst hw; simp [e6, hint]
      · cases hw
    · split at hw
      · rename_i hcron
        obtain ⟨_, t, -, -, h4⟩ := h3 i hcron
        simp only [List.mem_singleton] at hw
        subst hw
        rw [h4]
        simp [e7, htime]
      · cases hw

omit h

/-- C44 in full, for process ids: one is shown if and only if the program is alive. -/
def C44_statement : Prop :=
  ∀ (x : Machine) (config : Config) (m : Manager), x.manager config = .ok m →
    ∀ text past, Happened (x.loop m).log (.report text) past →
      ∃ shown plan, text = reportText config.programs past shown plan ∧
        ∀ i, i < config.programs.length → (shown i = true ↔ Alive config.programs i past)

/-- The process id of the first program is given to the second one. -/
def recycledAnswers : List Answer :=
  [.setup true, .fork (some (10, 20, 21)), .epollAdd true, .epollAdd true, .now 1,
   .epoll (some [⟨20, false, true⟩, ⟨21, false, true⟩]), .wait (.exited 10 0), .wait .error,
   .fork (some (10, 20, 21)), .epollAdd true, .epollAdd true, .now 2,
   .epoll (some [⟨4, true, false⟩]), .accept (some true)]

def recycledReport : Str :=
  ("programs:\n  - name: 'a'\n    state: 'done'\n    exit_code: 0\n    pid: 10\n" ++
   "  - name: 'b'\n    state: 'running'\n    pid: 10\n").toList

def recycledPast : Log :=
  [.ready ⟨4, true, false⟩, .polled [⟨4, true, false⟩], .polling, .clock 2,

   .watched 21 true, .watched 20 true, .spawned 1 10 20 21, .reaped, .waited 10 0 (some 0), .hangup 21, .ready ⟨21, false, true⟩,
   .hangup 20, .ready ⟨20, false, true⟩, .polled [⟨20, false, true⟩, ⟨21, false, true⟩],
   .polling, .clock 1, .watched 21 true, .watched 20 true, .spawned 0 10 20 21]

theorem recycled_ends : Ends (machine recycledAnswers) two
    (.unfinished (.report recycledReport :: recycledPast)) :=
  Res.of_check (by decide +kernel)

theorem reportText_congr {ps : List ProcessConfig} {l : Log} {s s' : Nat → Bool}
    {plan plan' : Nat → Str} (h1 : ∀ i, i < ps.length → s i = s' i)
    (h2 : ∀ i, i < ps.length → ¬ isCronjob ps i) :
    reportText ps l s plan = reportText ps l s' plan' := by
  unfold reportText
  congr 2
  apply List.flatMap_congr
  rintro ⟨i, c⟩ hm
  have hi : i < ps.length := by
    obtain ⟨k, hk, hk'⟩ := List.getElem_of_mem hm
    simp [enumerate] at hk hk'
    omega
  unfold reportLines
  simp only [h1 i hi, if_neg (h2 i hi)]

instance aliveDecidable (ps : List ProcessConfig) (i : Nat) (l : Log) : Decidable (Alive ps i l) := by
  induction l with
  | nil => exact isFalse id
  | cons e l ih => cases e <;> simp only [Alive] <;> infer_instance

/-- The report of this run shows a process id for a program that is done. -/
theorem C44_violated : ¬ C44_statement := by
  intro h
  obtain ⟨m, h1, h2⟩ := recycled_ends
  have hl : ((machine recycledAnswers).loop m).log = .report recycledReport :: recycledPast := by
    cases ho : (machine recycledAnswers).loop m with
    | ok c w => rw [ho] at h2; cases h2
    | panic p w => rw [ho] at h2; cases h2
    | stuck w => rw [ho] at h2; exact Ending.unfinished.inj h2
  obtain ⟨shown, plan, h3, h4⟩ := h _ _ m h1 recycledReport recycledPast ⟨[], hl⟩
  have h5 : ∀ i, i < two.programs.length → shown i = (i == 1) := by
    intro i hi
    rw [Bool.eq_iff_iff, h4 i hi]
    revert i
    decide +kernel
  rw [reportText_congr (plan' := fun _ => []) h5 (by decide +kernel)] at h3
  revert h3
  decide +kernel

/-- Witness for `C44_report_partial`, `C44_pid_partial`, `C44_not_forgeable`: the run above, whose
programs are a and b, and `three_ends`. -/
example : Plain two.programs recycledPast ∧ Alive two.programs 1 recycledPast ∧
    ¬ Alive two.programs 0 recycledPast ∧ (∀ c ∈ two.programs, '\n' ∉ c.name) := by
  refine ⟨.of_silent ?_ ?_, ?_⟩
  · intro q text hm; simp [recycledPast] at hm
  · intro p sig hm; simp [recycledPast] at hm
  · decide +kernel

/-- C44: process ids and exit codes are shown in decimal notation, as short as possible. -/
theorem C44_number (s : Str) (z : Int) : s = showInt z ↔ Written s z := written_iff.symm

/-- Witness. -/
example : Written "-9".toList (-9) ∧ Written "1409".toList 1409 :=
  ⟨(C44_number _ _).mp rfl, (C44_number _ _).mp rfl⟩

end Cinit.Props
