import Verif.Props.Supervision
import Verif.Props.ProcessBuilder
import Verif.Proofs.Toposort
/-!
# Concrete runs

Complete executions of a concrete machine: they meet the hypotheses of the theorems on
supervision, and refute those properties that do not hold in general.
-/

namespace Cinit

/-- The result is `ok` and satisfies `P`. -/
def Res.check {ε α : Type} (r : Res ε α) (P : α → Prop) [DecidablePred P] : Bool :=
  match r with
  | .ok a => decide (P a)
  | _ => false

theorem Res.of_check {ε α : Type} {r : Res ε α} {P : α → Prop} [DecidablePred P]
    (h : r.check P = true) : ∃ a, r = .ok a ∧ P a := by
  cases r with
  | ok a => exact ⟨a, rfl, of_decide_eq_true h⟩
  | err e => cases h
  | panic p => cases h

namespace Props

open Spec

/-- A program of the concrete configurations. -/
def prog (name : Char) (t : CfgType) (before : List Str := []) : ProcessConfig :=
  { name := [name], path := some ['/', name], ptype := t, user := some ['u'],
    group := some ['g'], before := before }

/-- A machine whose kernel gives the given answers. -/
def machine (answers : List Answer) : Machine where
  release := some "5.10.0".toList
  uid := 0
  tree := .file []
  yaml := fun _ => none
  mergeOrder := .id
  surroundings := sampleSystem
  topo := .warshall
  graphOrder := .id
  clock := [0, 0, 0]
  system := { nodes := fun _ => none }
  numbers := (3, 4, 5)
  epoll := true
  openFds := [0, 1, 2]
  env := { zone := .fixed 0, order := fun _ => .id, rfc3339 := showInt }
  answers := answers

/-- Bytes of an ASCII text. -/
def bytes (s : String) : List Nat := s.toList.map Char.toNat


/-- On machine `x` configuration `config` leads to an event loop that ends like `e`. -/
def Ends (x : Machine) (config : Config) (e : Ending) : Prop :=
  ∃ m, x.manager config = .ok m ∧ (x.loop m).ending = e

theorem Ends.exited {x : Machine} {config : Config} {code : Int} {l : Log}
    (h : Ends x config (.exited code l)) :
    ∃ m w, x.manager config = .ok m ∧ x.loop m = .ok code w ∧ w.log = l := by
  obtain ⟨m, h1, h2⟩ := h
  cases ho : x.loop m with
  | ok c w =>
    rw [ho] at h2
    cases h2
    exact ⟨m, w, h1, ho, rfl⟩
  | panic p w => rw [ho] at h2; cases h2
  | stuck w => rw [ho] at h2; cases h2

theorem Ends.log {x : Machine} {config : Config} {e : Ending} (h : Ends x config e) :
    ∃ m, x.manager config = .ok m ∧ (x.loop m).log = e.log := by
  obtain ⟨m, h1, h2⟩ := h
  refine ⟨m, h1, ?_⟩
  rw [← h2]
  cases x.loop m <;> rfl

/-! ## A run with everything in it -/

/-- A notify program, one depending on it, and a cronjob for every minute. -/
def three : Config :=
  ⟨[prog 'a' .notify [['b']], prog 'b' .oneshot, prog 'c' (.cronJob "* * * * *".toList)]⟩

def threeAnswers : List Answer :=
  [.setup true, .fork (some (10, 20, 21)), .epollAdd true, .epollAdd true, .now 30,
   .epoll (some [⟨5, true, false⟩]), .recv (some (bytes "STATUS=hi\nREADY=1\n", some 10)),
   .wait .alive,
   .fork (some (11, 22, 23)), .epollAdd true, .epollAdd true, .now 61_000_000_000,
   .fork (some (12, 24, 25)), .epollAdd true, .epollAdd true, .now 62_000_000_000,
   .epoll (some [⟨22, true, false⟩, ⟨23, false, true⟩, ⟨4, true, false⟩]),
   .read (some (bytes "hello\nwor")), .accept (some true),
   .wait (.exited 12 0), .wait (.exited 11 0), .wait (.exited 99 7), .wait .alive,
   .now 125_000_000_000, .fork (some (12, 26, 27)), .epollAdd true, .epollAdd true,
   .now 126_000_000_000,
   .epoll (some [⟨3, true, false⟩, ⟨20, false, true⟩, ⟨21, false, true⟩, ⟨22, false, true⟩,
     ⟨24, false, true⟩, ⟨25, false, true⟩]),
   .signal (some 15), .kill true, .kill true,
   .wait (.exited 10 0), .wait (.exited 12 0), .wait .error,
   .epoll (some [⟨26, false, true⟩, ⟨27, false, true⟩]), .wait .error]

def threeReport : Str :=
  ("programs:\n  - name: 'a'\n    state: 'running'\n    status: hi\n    pid: 10\n" ++
   "  - name: 'b'\n    state: 'running'\n    pid: 11\n" ++
   "  - name: 'c'\n    state: 'running'\n    pid: 12\n    scheduled_at: '120000000000'\n").toList

def threeLog : Log :=
  [.exit 0, .reaped, .hangup 27, .ready ⟨27, false, true⟩, .hangup 26, .ready ⟨26, false, true⟩,
   .polled [⟨26, false, true⟩, ⟨27, false, true⟩], .polling,
   .reaped, .waited 12 0 (some 2), .waited 10 0 (some 0),
   .hangup 25, .ready ⟨25, false, true⟩, .hangup 24, .ready ⟨24, false, true⟩,
   .hangup 22, .ready ⟨22, false, true⟩, .hangup 21, .ready ⟨21, false, true⟩,
   .hangup 20, .ready ⟨20, false, true⟩, .sent 12 2, .sent 10 2,
   .signal 15, .ready ⟨3, true, false⟩,
   .polled [⟨3, true, false⟩, ⟨20, false, true⟩, ⟨21, false, true⟩, ⟨22, false, true⟩,
     ⟨24, false, true⟩, ⟨25, false, true⟩], .polling,
   .clock 126_000_000_000,
   .watched 27 true, .watched 26 true, .spawned 2 12 26 27, .clock 125_000_000_000,
   .reaped, .waited 99 7 none, .waited 11 0 (some 1), .waited 12 0 (some 2),
   .report threeReport, .ready ⟨4, true, false⟩,
   .hangup 23, .ready ⟨23, false, true⟩,
   .line true ['b'] "wor".toList, .line true ['b'] "hello".toList,
   .chunk 22 (bytes "hello\nwor"), .ready ⟨22, true, false⟩,
   .polled [⟨22, true, false⟩, ⟨23, false, true⟩, ⟨4, true, false⟩], .polling,
   .clock 62_000_000_000, .watched 25 true, .watched 24 true, .spawned 2 12 24 25,
   .clock 61_000_000_000, .watched 23 true, .watched 22 true, .spawned 1 11 22 23, .reaped,
   .datagram 10 "STATUS=hi\nREADY=1\n".toList, .received (bytes "STATUS=hi\nREADY=1\n"),
   .ready ⟨5, true, false⟩, .polled [⟨5, true, false⟩], .polling, .clock 30,
   .watched 21 true, .watched 20 true, .spawned 0 10 20 21]

/-- This run meets the hypotheses of C30 (program 1 depends on program 0), C31, C32 (program 2
is started twice), C33, C35 to C37, C39, C40, C42 to C44, C57 to C59. -/
theorem three_ends : Ends (machine threeAnswers) three (.exited 0 threeLog) :=
  Res.of_check (by decide +kernel)

example : DependsOn three.programs 0 1 ∧ isNotify three.programs 0 ∧
    isCronjob three.programs 2 :=
  ⟨⟨_, _, rfl, rfl, .inl (by decide)⟩, by decide, by decide⟩

/-! ## Clean completion -/

/-- Two programs, one after the other. -/
def two : Config := ⟨[prog 'a' .oneshot [['b']], prog 'b' .oneshot]⟩

def twoAnswers : List Answer :=
  [.setup true, .fork (some (10, 20, 21)), .epollAdd true, .epollAdd true, .now 1,
   .epoll (some [⟨20, false, true⟩, ⟨21, false, true⟩]), .wait (.exited 10 0), .wait .error,
   .fork (some (11, 22, 23)), .epollAdd true, .epollAdd true, .now 2,
   .epoll (some [⟨22, false, true⟩, ⟨23, false, true⟩]), .wait (.exited 11 0), .wait .error]

def twoLog : Log :=
  [.exit 0, .reaped, .waited 11 0 (some 1), .hangup 23, .ready ⟨23, false, true⟩,
   .hangup 22, .ready ⟨22, false, true⟩, .polled [⟨22, false, true⟩, ⟨23, false, true⟩],
   .polling, .clock 2,
   .watched 23 true, .watched 22 true, .spawned 1 11 22 23, .reaped, .waited 10 0 (some 0),
   .hangup 21, .ready ⟨21, false, true⟩, .hangup 20, .ready ⟨20, false, true⟩,
   .polled [⟨20, false, true⟩, ⟨21, false, true⟩], .polling, .clock 1,
   .watched 21 true, .watched 20 true, .spawned 0 10 20 21]

/-- This run meets the hypotheses of C45. -/
theorem two_ends : Ends (machine twoAnswers) two (.exited 0 twoLog) :=
  Res.of_check (by decide +kernel)

theorem two_plain : Plain two.programs twoLog := by
  refine .of_silent ?_ ?_
  · intro q text hm; simp [twoLog] at hm
  · intro p sig hm; simp [twoLog] at hm

example : ¬ ShuttingDown two.programs twoLog ∧ (∀ i, .spawnFailed i ∉ twoLog) ∧
    Undisturbed two.programs twoLog := by
  obtain ⟨m, w, h1, h2, h3⟩ := two_ends.exited
  refine ⟨?_, by simp [twoLog], ?_⟩
  · rintro (hs | hs)
    · simp [twoLog, Asked] at hs
    · rcases C34_exit_status_partial h1 h2 with ⟨e, -⟩ | ⟨e, -⟩ | ⟨-, e⟩
      · cases e
      · cases e
      · rw [h3] at e; exact e hs
  · have := Machine.loop_legal h1
    rw [h2] at this
    change Always _ w.log at this
    rw [← h3]
    exact plain_undisturbed this (by rw [h3]; exact two_plain)

/-! ## A crash -/

def crash : Config := ⟨[prog 'a' .oneshot, prog 'b' .oneshot]⟩

def crashAnswers : List Answer :=
  [.setup true, .fork (some (10, 20, 21)), .epollAdd true, .epollAdd true,
   .fork (some (11, 22, 23)), .epollAdd true, .epollAdd true, .now 1,
   .epoll (some [⟨20, false, true⟩, ⟨21, false, true⟩, ⟨22, false, true⟩, ⟨23, false, true⟩]),
   .wait (.exited 10 1), .kill true, .wait (.killed 11 2), .wait .error]

/-- This run meets the hypotheses of C34 and `C35_crash_partial`. -/
theorem crash_ends : Ends (machine crashAnswers) crash
    (.exited 6 [.exit 6, .reaped, .waited 11 2 (some 1), .sent 11 2, .waited 10 1 (some 0),
      .hangup 23, .ready ⟨23, false, true⟩, .hangup 22, .ready ⟨22, false, true⟩,
      .hangup 21, .ready ⟨21, false, true⟩, .hangup 20, .ready ⟨20, false, true⟩,
      .polled [⟨20, false, true⟩, ⟨21, false, true⟩, ⟨22, false, true⟩, ⟨23, false, true⟩],
      .polling, .clock 1,
      .watched 23 true, .watched 22 true, .spawned 1 11 22 23, .watched 21 true, .watched 20 true, .spawned 0 10 20 21]) :=
  Res.of_check (by decide +kernel)

/-! ## C34, C57: real-time signals -/

/-- C34 in full: the exit status is 6 exactly if some main process died unsuccessfully. -/
def C34_statement : Prop :=
  ∀ (x : Machine) (config : Config) (m : Manager) (code : Int) (w : World),
    x.manager config = .ok m → x.loop m = .ok code w → code ≠ 3 →
    (code = 6 ↔ ∃ i, Died config.programs i w.log)

/-- C57 in full: once a main process has been reaped, its program is not alive any more. -/
def C57_statement : Prop :=
  ∀ (x : Machine) (config : Config) (m : Manager), x.manager config = .ok m →
    ∀ e past p i, Happened (x.loop m).log e past → owner config.programs past p = some i →
      ((∃ rc who, e = .waited p rc who) ∨ ∃ sig, e = .lost p sig) →
      ¬ Alive config.programs i (e :: past)

/-- C33 in full: nothing is started once a signal has arrived or a main process has died
unsuccessfully. -/
def C33_statement : Prop :=
  ∀ (x : Machine) (config : Config) (m : Manager), x.manager config = .ok m →
    ∀ i p o r past, Happened (x.loop m).log (.spawned i p o r) past →
      (.signal Signal.int ∉ past ∧ .signal Signal.quit ∉ past ∧ .signal Signal.term ∉ past) ∧
      ∀ j, ¬ Died config.programs j past

def lostPrograms : Config := ⟨[prog 'a' .oneshot, prog 'b' .oneshot [['c']], prog 'c' .oneshot]⟩

/-- Program `a` dies by signal 40; its process id is given to `c` later. -/
def lostAnswers : List Answer :=
  [.setup true, .fork (some (10, 20, 21)), .epollAdd true, .epollAdd true,
   .fork (some (11, 22, 23)), .epollAdd true, .epollAdd true, .now 1,
   .epoll (some [⟨20, false, true⟩, ⟨21, false, true⟩, ⟨22, false, true⟩, ⟨23, false, true⟩]),
   .wait (.exited 11 0), .wait (.killed 10 40),
   .fork (some (10, 20, 21)), .epollAdd true, .epollAdd true, .now 2,
   .epoll (some [⟨20, false, true⟩, ⟨21, false, true⟩]), .wait (.exited 10 0), .wait .error]

def lostBefore : Log :=
  [.waited 11 0 (some 1),
   .hangup 23, .ready ⟨23, false, true⟩, .hangup 22, .ready ⟨22, false, true⟩,
   .hangup 21, .ready ⟨21, false, true⟩, .hangup 20, .ready ⟨20, false, true⟩,
   .polled [⟨20, false, true⟩, ⟨21, false, true⟩, ⟨22, false, true⟩, ⟨23, false, true⟩],
   .polling, .clock 1,
   .watched 23 true, .watched 22 true, .spawned 1 11 22 23, .watched 21 true, .watched 20 true, .spawned 0 10 20 21]

def lostAfter : Log :=
  [.exit 0, .reaped, .waited 10 0 (some 2), .hangup 21, .ready ⟨21, false, true⟩,
   .hangup 20, .ready ⟨20, false, true⟩, .polled [⟨20, false, true⟩, ⟨21, false, true⟩],
   .polling, .clock 2, .watched 21 true, .watched 20 true, .spawned 2 10 20 21]

theorem lost_ends : Ends (machine lostAnswers) lostPrograms
    (.exited 0 (lostAfter ++ .lost 10 40 :: lostBefore)) :=
  Res.of_check (by decide +kernel)

/-- C34 is false: a death by a real-time signal goes unnoticed. -/
theorem C34_violated : ¬ C34_statement := by
  intro h
  obtain ⟨m, w, h1, h2, h3⟩ := lost_ends.exited
  have := (h _ _ m 0 w h1 h2 (by decide)).mpr ⟨0, .inr (sometime_happened.mpr
    ⟨.lost 10 40, lostBefore, ⟨lostAfter, h3⟩, 10, 40, rfl, by decide +kernel⟩)⟩
  cases this

/-- C33 is false for the same reason: after a death by a real-time signal programs are started. -/
theorem C33_violated : ¬ C33_statement := by
  intro h
  obtain ⟨m, h1, h2⟩ := lost_ends.log
  refine (h _ _ m h1 2 10 20 21 (.lost 10 40 :: lostBefore) ⟨lostAfter.dropLast, ?_⟩).2 0
    (.inr (sometime_happened.mpr
      ⟨.lost 10 40, lostBefore, ⟨[], rfl⟩, 10, 40, rfl, by decide +kernel⟩))
  rw [h2]; rfl

/-- C57 is false for the same reason. -/
theorem C57_violated : ¬ C57_statement := by
  intro h
  obtain ⟨m, h1, h2⟩ := lost_ends.log
  refine h _ _ m h1 (.lost 10 40) lostBefore 10 0 ⟨lostAfter, h2⟩ (by decide +kernel)
    (.inr ⟨40, rfl⟩) ?_
  simp only [lostBefore, Alive]
  refine ⟨by decide +kernel, ?_⟩
  simp

/-! ## C35: programs that are starting -/

/-- C35 in full: every program alive when a termination signal arrives is sent a signal. -/
def C35_statement : Prop :=
  ∀ (x : Machine) (config : Config) (m : Manager) (code : Int) (w : World),
    x.manager config = .ok m → x.loop m = .ok code w →
    ∀ later n past, w.log = later ++ .signal n :: past →
      (n = Signal.int ∨ n = Signal.quit ∨ n = Signal.term) →
      ∀ i, Alive config.programs i past →
        ∃ k, .sent (mainPid config.programs past i) k ∈ later

def notifyOnly : Config := ⟨[prog 'a' .notify]⟩

def startingAnswers : List Answer :=
  [.setup true, .fork (some (10, 20, 21)), .epollAdd true, .epollAdd true, .now 1,
   .epoll (some [⟨3, true, false⟩, ⟨20, false, true⟩, ⟨21, false, true⟩]), .signal (some 15),
   .wait .alive, .epoll none, .wait (.exited 10 0), .wait .error]

theorem starting_ends : Ends (machine startingAnswers) notifyOnly
    (.exited 0 ([.exit 0, .reaped, .waited 10 0 (some 0), .unpolled, .polling, .reaped,
      .hangup 21, .ready ⟨21, false, true⟩, .hangup 20, .ready ⟨20, false, true⟩] ++
      .signal 15 :: [.ready ⟨3, true, false⟩,
      .polled [⟨3, true, false⟩, ⟨20, false, true⟩, ⟨21, false, true⟩], .polling, .clock 1,
      .watched 21 true, .watched 20 true, .spawned 0 10 20 21])) :=
  Res.of_check (by decide +kernel)

/-- C35 is false: a notify program that has not yet announced to be ready is not sent any
signal. -/
theorem C35_violated : ¬ C35_statement := by
  intro h
  obtain ⟨m, w, h1, h2, h3⟩ := starting_ends.exited
  obtain ⟨k, hk⟩ := h _ _ m 0 w h1 h2 _ 15 _ h3 (.inr (.inr rfl)) 0 (.inl rfl)
  simp at hk

/-! ## C45, C41: claiming another program's process -/

/-- C45 in full. -/
def C45_statement : Prop :=
  ∀ (x : Machine) (config : Config) (m : Manager) (code : Int) (w : World),
    x.manager config = .ok m → x.loop m = .ok code w → code ≠ 3 →
    ¬ ShuttingDown config.programs w.log → (∀ i, .spawnFailed i ∉ w.log) →
    ∀ i, i < config.programs.length → ¬ isCronjob config.programs i →
      Started i w.log ∧ Terminated config.programs true i w.log

/-- C41 in full, for the other programs: as long as a process started for a program has not
been reaped and has not sent any message, its termination is attributed to this program. -/
def C41_statement : Prop :=
  ∀ (x : Machine) (config : Config) (m : Manager), x.manager config = .ok m →
    ∀ later p rc who mid j o r first,
      (x.loop m).log = later ++ .waited p rc who :: (mid ++ .spawned j p o r :: first) →
      (∀ rc' who', .waited p rc' who' ∉ mid) → (∀ text, .datagram p text ∉ mid) → who = some j

def claim : Config := ⟨[prog 'a' .notify, prog 'b' .oneshot]⟩

/-- Program `a` announces the process of `b` as its main process. -/
def claimAnswers : List Answer :=
  [.setup true, .fork (some (10, 20, 21)), .epollAdd true, .epollAdd true,
   .fork (some (11, 22, 23)), .epollAdd true, .epollAdd true, .now 1,
   .epoll (some [⟨5, true, false⟩, ⟨20, false, true⟩, ⟨21, false, true⟩, ⟨22, false, true⟩,
     ⟨23, false, true⟩]),
   .recv (some (bytes "MAINPID=11", some 10)), .wait (.exited 11 0), .wait (.exited 10 0),
   .wait .error]

theorem claim_ends : Ends (machine claimAnswers) claim
    (.exited 0 [.exit 0, .reaped, .waited 10 0 none, .waited 11 0 (some 0),
      .hangup 23, .ready ⟨23, false, true⟩, .hangup 22, .ready ⟨22, false, true⟩,
      .hangup 21, .ready ⟨21, false, true⟩, .hangup 20, .ready ⟨20, false, true⟩,
      .datagram 10 "MAINPID=11".toList, .received (bytes "MAINPID=11"), .ready ⟨5, true, false⟩,
      .polled [⟨5, true, false⟩, ⟨20, false, true⟩, ⟨21, false, true⟩, ⟨22, false, true⟩,
        ⟨23, false, true⟩], .polling, .clock 1,

      .watched 23 true, .watched 22 true, .spawned 1 11 22 23, .watched 21 true, .watched 20 true, .spawned 0 10 20 21]) :=
  Res.of_check (by decide +kernel)

/-- C45 is false: cinit exits while it regards program `b` as running. -/
theorem C45_violated : ¬ C45_statement := by
  intro h
  obtain ⟨m, w, h1, h2, h3⟩ := claim_ends.exited
  have hcr : ¬ ShuttingDown claim.programs w.log := by
    rintro (hs | hs)
    · rw [h3] at hs; simp [Asked] at hs
    · rcases C34_exit_status_partial h1 h2 with ⟨e, -⟩ | ⟨e, -⟩ | ⟨-, e⟩
      · cases e
      · cases e
      · exact e hs
  have := (h _ _ m 0 w h1 h2 (by decide) hcr (by rw [h3]; simp) 1 (by decide) (by decide)).2
  rw [h3] at this
  have hs : state claim.programs w.log 1 = .running := by rw [h3]; decide +kernel
  obtain ⟨e, past, g1, p, rc, who, rfl, g2, -⟩ := sometime_happened.mp this
  have hm := happened_mem g1
  obtain ⟨later, hl⟩ := g1
  have hl' := Machine.loop_legal h1
  rw [h2] at hl'
  change Always _ w.log at hl'
  rw [h3, hl] at hl'
  have hw : 0 < p ∧ who = owner claim.programs past p := (always_of_suffix hl' rfl).1.2
  rw [g2] at hw
  rw [hw.2] at hm
  simp at hm

/-- C41 is false: the termination of the process of `b` is attributed to `a`. -/
theorem C41_violated : ¬ C41_statement := by
  intro h
  obtain ⟨m, h1, h2⟩ := claim_ends.log
  have := h _ _ m h1 [.exit 0, .reaped, .waited 10 0 none] 11 0 (some 0)
    [.hangup 23, .ready ⟨23, false, true⟩, .hangup 22, .ready ⟨22, false, true⟩,
     .hangup 21, .ready ⟨21, false, true⟩, .hangup 20, .ready ⟨20, false, true⟩,
     .datagram 10 "MAINPID=11".toList, .received (bytes "MAINPID=11"), .ready ⟨5, true, false⟩,
     .polled [⟨5, true, false⟩, ⟨20, false, true⟩, ⟨21, false, true⟩, ⟨22, false, true⟩,
       ⟨23, false, true⟩], .polling, .clock 1, .watched 23 true, .watched 22 true] 1 22 23
    [.watched 21 true, .watched 20 true, .spawned 0 10 20 21] h2 (by simp) (by simp)
  cases this

end Props
end Cinit
