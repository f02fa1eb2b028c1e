import Verif.Props.Runs
import Verif.Props.Transcript
import Verif.Proofs.ExitCodes
/-!
# C107: the exit codes in the status report
-/

namespace Cinit.Props

open Cinit Spec

/-- C107 in full: whenever the status report shows an exit code for a program that has failed, its
main process has exited, and with this code. -/
def C107_statement : Prop :=
  ∀ (x : Machine) (config : Config) (m : Manager), x.manager config = .ok m →
    ∀ text past, Happened (x.loop m).log (.report text) past →
      ∀ i rc, state config.programs past i = .crashed rc →
        ∃ p n, rc = Int.ofNat n ∧ Numbered i p n past ∧ .wait (.exited p n) ∈ x.answers

/-! ## What is shown -/

private theorem crashed_numbered {x : Machine} {config : Config} {m : Manager}
    (h : x.manager config = .ok m) {i : Nat} {rc : Int} (l : Log)
    (hl : ∃ later, (x.loop m).log = later ++ l) (hs : state config.programs l i = .crashed rc) :
    rc ≠ 0 ∧ ∃ p, Numbered i p rc l := by
  induction l with
  | nil =>
    simp only [state] at hs
    split at hs <;> cases hs
  | cons e l ih =>
    obtain ⟨later, hl⟩ := hl
    have ih := ih ⟨later ++ [e], by rw [hl]; simp⟩
    have up : (rc ≠ 0 ∧ ∃ p, Numbered i p rc l) → rc ≠ 0 ∧ ∃ p, Numbered i p rc (e :: l) :=
      fun ⟨h0, p, hp⟩ => ⟨h0, p, List.mem_cons_of_mem _ hp⟩
    cases e with
    | spawned j q o r =>
      simp only [state] at hs
      split at hs
      · split at hs <;> cases hs
      · exact up (ih hs)
    | waited p n who =>
      simp only [state] at hs
      split at hs
      · rename_i hw
        split at hs
        · rename_i hn
          cases hs
          have hr : 0 < p ∧ who = owner config.programs l p := rule h ⟨later, hl⟩
          refine ⟨hn, p, ?_⟩
          unfold Numbered
          rw [hr.2, hw]
          exact List.mem_cons_self
        · split at hs <;> cases hs
      · exact up (ih hs)
    | datagram q text =>
      simp only [state] at hs
      split at hs
      · split at hs
        · cases hs
        · split at hs
          · cases hs
          · exact up (ih hs)
      · exact up (ih hs)
    | _ => exact up (ih hs)

private theorem done_numbered {x : Machine} {config : Config} {m : Manager}
    (h : x.manager config = .ok m) {i : Nat} (l : Log)
    (hl : ∃ later, (x.loop m).log = later ++ l) (hs : state config.programs l i = .done) :
    ∃ p, Numbered i p 0 l := by
  induction l with
  | nil =>
    simp only [state] at hs
    split at hs <;> cases hs
  | cons e l ih =>
    obtain ⟨later, hl⟩ := hl
    have ih := ih ⟨later ++ [e], by rw [hl]; simp⟩
    have up : (∃ p, Numbered i p 0 l) → ∃ p, Numbered i p 0 (e :: l) :=
      fun ⟨p, hp⟩ => ⟨p, List.mem_cons_of_mem _ hp⟩
    cases e with
    | spawned j q o r =>
      simp only [state] at hs
      split at hs
      · split at hs <;> cases hs
      · exact up (ih hs)
    | waited p n who =>
      simp only [state] at hs
      split at hs
      · rename_i hw
        split at hs
        · cases hs
        · rename_i hn
          have hn : n = 0 := by simpa using hn
          subst hn
          have hr : 0 < p ∧ who = owner config.programs l p := rule h ⟨later, hl⟩
          refine ⟨p, ?_⟩
          unfold Numbered
          rw [hr.2, hw]
          exact List.mem_cons_self
      · exact up (ih hs)
    | datagram q text =>
      simp only [state] at hs
      split at hs
      · split at hs
        · cases hs
        · split at hs
          · cases hs
          · exact up (ih hs)
      · exact up (ih hs)
    | _ => exact up (ih hs)

private theorem death_told {x : Machine} {m : Manager} {p rc : Int} {who : Option Nat}
    (hm : .waited p rc who ∈ (x.loop m).log) :
    ∃ n : Nat, rc = n ∧ (.wait (.exited p n) ∈ x.answers ∨
      .wait (.killed p n) ∈ x.answers ∧ n ≤ 31) := by
  obtain ⟨used, rest, h1, h2⟩ := C71_prefix x m
  have hf : Fact.died p rc ∈ used.flatMap told := by
    apply h2.subset
    simp only [account, List.mem_flatMap, List.mem_reverse]
    exact ⟨_, hm, by simp [seen]⟩
  obtain ⟨a, ha, hd⟩ := List.mem_flatMap.mp hf
  have ha : a ∈ x.answers := by rw [h1]; exact List.mem_append_left _ ha
  unfold told at hd
  split at hd <;> first
    | (simp only [List.mem_cons, reduceCtorEq, List.not_mem_nil, or_self] at hd; done)
    | skip
  · simp at hd
    obtain ⟨rfl, rfl⟩ := hd
    exact ⟨_, rfl, .inl ha⟩
  · split at hd
    · simp at hd
      obtain ⟨rfl, rfl⟩ := hd
      exact ⟨_, rfl, .inr ⟨ha, by omega⟩⟩
    · simp at hd

section

variable {x : Machine} {config : Config} {m : Manager} (h : x.manager config = .ok m)
  {text : Str} {past : Log} (he : Happened (x.loop m).log (.report text) past)
include h he

/-- C107: the number shown for a program that has failed is the exit code of its main process or
the number of the signal that has killed it. Missing: which of the two, see `C107_blind`. -/
theorem C107_shown_partial {i : Nat} {rc : Int}
    (hs : state config.programs past i = .crashed rc) :
    ∃ p n, rc = Int.ofNat n ∧ 0 < n ∧ Numbered i p n past ∧
      (.wait (.exited p n) ∈ x.answers ∨ .wait (.killed p n) ∈ x.answers ∧ n ≤ 31) := by
  obtain ⟨later, hl⟩ := he
  obtain ⟨h0, p, hp⟩ := crashed_numbered h past ⟨later ++ [.report text], by rw [hl]; simp⟩ hs
  have hm : .waited p rc (some i) ∈ (x.loop m).log := by
    rw [hl]
    exact List.mem_append_right _ (List.mem_cons_of_mem _ hp)
  obtain ⟨n, rfl, hn⟩ := death_told hm
  exact ⟨p, n, rfl, by omega, hp, hn⟩

/-- C107: an exit code above 31 is one the program has returned. -/
theorem C107_large_partial {i : Nat} {rc : Int}
    (hs : state config.programs past i = .crashed rc) (hrc : 31 < rc) :
    ∃ p n, rc = Int.ofNat n ∧ Numbered i p n past ∧ .wait (.exited p n) ∈ x.answers := by
  obtain ⟨p, n, h1, -, h2, h3 | ⟨-, h3⟩⟩ := C107_shown_partial h he hs
  · exact ⟨p, n, h1, h2, h3⟩
  · exfalso
    subst h1
    simp only [Int.ofNat_eq_natCast] at hrc
    omega

/-- C107: the exit code 0 of a program that is done is one it has returned; there is no signal
with the number 0. -/
theorem C107_done_partial {i : Nat} (hs : state config.programs past i = .done)
    (hz : ∀ p, .wait (.killed p 0) ∉ x.answers) :
    ∃ p, Numbered i p 0 past ∧ .wait (.exited p 0) ∈ x.answers := by
  obtain ⟨later, hl⟩ := he
  obtain ⟨p, hp⟩ := done_numbered h past ⟨later ++ [.report text], by rw [hl]; simp⟩ hs
  have hm : .waited p 0 (some i) ∈ (x.loop m).log := by
    rw [hl]
    exact List.mem_append_right _ (List.mem_cons_of_mem _ hp)
  obtain ⟨n, h0, hn⟩ := death_told hm
  have : n = 0 := by omega
  subst this
  exact ⟨p, hp, hn.resolve_right fun hk => hz p hk.1⟩

end

/-! ## What cannot be seen -/

/-- The machine on which processes exit with a number instead of being killed by the signal with
this number. -/
def disguise (x : Machine) : Machine := { x with answers := x.answers.map disguised }

/-- C107: nothing cinit does, reports or returns depends on whether a program exits with the code
`n` or is killed by the signal `n`, in any run. -/
theorem C107_blind (x : Machine) : run (disguise x) = run x := by
  have hl : ∀ m, ((disguise x).loop m).ending = (x.loop m).ending := by
    intro m
    have hb := start_blind x.env (x.world m)
    have hw : (x.world m).disguised = (disguise x).world m := rfl
    rw [hw] at hb
    have : (disguise x).loop m = (x.loop m).disguised := hb
    rw [this]
    cases x.loop m <;> rfl
  have hp : ∀ cs, (disguise x).processes cs = x.processes cs := by
    intro cs
    induction cs with
    | nil => rfl
    | cons c cs ih =>
      simp only [Machine.processes, ih]
      rfl
  have hm : (disguise x).manager = x.manager := by
    funext config
    unfold Machine.manager
    rw [hp]
    rfl
  unfold run
  rw [hm]
  simp only [hl]
  rfl

/-! ## A program that is killed -/

/-- The first of two programs is killed by SIGKILL; then somebody asks for a report. -/
def killedAnswers : List Answer :=
  [.setup true, .fork (some (10, 20, 21)), .epollAdd true, .epollAdd true,
   .fork (some (11, 22, 23)), .epollAdd true, .epollAdd true, .now 1, .epoll (some []),
   .wait (.killed 10 9), .kill true, .wait .alive,
   .epoll (some [⟨4, true, false⟩]), .accept (some true)]

def killedReport : Str :=
  ("programs:\n  - name: 'a'\n    state: 'crashed'\n    exit_code: 9\n" ++
   "  - name: 'b'\n    state: 'running'\n    pid: 11\n").toList

def killedPast : Log :=
  [.ready ⟨4, true, false⟩, .polled [⟨4, true, false⟩], .polling, .reaped, .sent 11 2,
   .waited 10 9 (some 0), .polled [], .polling, .clock 1, .watched 23 true, .watched 22 true,
   .spawned 1 11 22 23, .watched 21 true, .watched 20 true, .spawned 0 10 20 21]

theorem killed_ends : Ends (machine killedAnswers) crash
    (.unfinished (.report killedReport :: killedPast)) :=
  Res.of_check (by decide +kernel)

/-- C107 is false: for a program killed by SIGKILL the exit code 9 is shown, though no process has
exited at all. -/
theorem C107_violated : ¬ C107_statement := by
  intro h
  obtain ⟨m, h1, h2⟩ := killed_ends.log
  obtain ⟨p, n, -, -, hn⟩ := h _ _ m h1 killedReport killedPast ⟨[], by rw [h2]; rfl⟩ 0 9
    (by decide +kernel)
  simp [machine, killedAnswers] at hn

/-- The same run, with a program that exits with the code 9: it has the same history, so
`C107_blind` is about runs in which something is disguised, and this is a case of
`C107_shown_partial`. -/
example : disguised (.wait (.killed 10 9)) = .wait (.exited 10 9) ∧
    Ends (disguise (machine killedAnswers)) crash
      (.unfinished (.report killedReport :: killedPast)) ∧
    state crash.programs killedPast 0 = .crashed 9 :=
  ⟨rfl, Res.of_check (by decide +kernel), by decide +kernel⟩

/-- Case of `C107_large_partial`: the exit code 137, by which shells tell of SIGKILL, is only shown
if the program has returned it. -/
example : Ends (machine (killedAnswers.map fun a =>
      if a = .wait (.killed 10 9) then .wait (.exited 10 137) else a)) crash
    (.unfinished (.report
      ("programs:\n  - name: 'a'\n    state: 'crashed'\n    exit_code: 137\n" ++
       "  - name: 'b'\n    state: 'running'\n    pid: 11\n").toList ::
      (killedPast.map fun e => if e = .waited 10 9 (some 0) then .waited 10 137 (some 0) else e))) :=
  Res.of_check (by decide +kernel)

/-- Case of `C107_done_partial`: the first program exits with the code 0. -/
example : Ends (machine [.setup true, .fork (some (10, 20, 21)), .epollAdd true, .epollAdd true,
      .fork (some (11, 22, 23)), .epollAdd true, .epollAdd true, .now 1,
      .epoll (some []), .wait (.exited 10 0), .wait .alive, .now 2,
      .epoll (some [⟨4, true, false⟩]), .accept (some true)]) crash
    (.unfinished (.report
      ("programs:\n  - name: 'a'\n    state: 'done'\n    exit_code: 0\n" ++
       "  - name: 'b'\n    state: 'running'\n    pid: 11\n").toList ::
      [.ready ⟨4, true, false⟩, .polled [⟨4, true, false⟩], .polling, .clock 2, .reaped,
       .waited 10 0 (some 0), .polled [], .polling, .clock 1, .watched 23 true, .watched 22 true,
       .spawned 1 11 22 23, .watched 21 true, .watched 20 true, .spawned 0 10 20 21])) :=
  Res.of_check (by decide +kernel)

end Cinit.Props
