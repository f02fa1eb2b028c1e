import Verif.Props.Output
import Verif.Props.Reproducible
import Verif.Proofs.Unheard
/-!
# C121 to C124: what programs write, clients that go away, the clock and messages
-/

namespace Cinit.Props

open Cinit Spec

/-- The ending, with what remains of the history. -/
def viewed (view : Log → Log) : Ending → Ending
  | .exited code l => .exited code (view l)
  | .aborted p l => .aborted p (view l)
  | .unfinished l => .unfinished (view l)

/-- The machine on which the kernel answers differently. -/
def answering (x : Machine) (answers : List Answer) : Machine := { x with answers := answers }

private theorem manager_answering {x : Machine} {as : List Answer} :
    (answering x as).manager = x.manager := by
  have hp : ∀ cs, (answering x as).processes cs = x.processes cs := by
    intro cs
    induction cs with
    | nil => rfl
    | cons c cs ih =>
      simp only [Machine.processes, ih]
      rfl
  funext config
  unfold Machine.manager
  rw [hp]
  rfl

section Veiled

/-- The machine with one order of iteration. -/
private def ordered (x : Machine) : Machine :=
  { x with env := { x.env with order := fun _ => .id } }

private theorem loop_ordered (x : Machine) (m : Manager) : (ordered x).loop m = x.loop m := by
  have h : SameButHashing x (ordered x) := by
    unfold ordered
    constructor <;> rfl
  exact C86_loop_partial h m

variable {V : Veil} [V.Fits] {x : Machine} {as : List Answer}
  (h : List.Forall₂ V.same x.answers as)
include h

private theorem loop_answering {m : Manager} (hc : V.still → m.cron.timer = [])
    (hp : V.plain → Mute V.count m) :
    AlikeOut V (x.loop m) ((answering x as).loop m) := by
  rw [← loop_ordered x, ← loop_ordered (answering x as)]
  exact start_deaf (fun _ _ _ => rfl) _ _ ⟨rfl, rfl, h, rfl, hc, hp⟩

private theorem log_answering {m : Manager} (hc : V.still → m.cron.timer = [])
    (hp : V.plain → Mute V.count m) :
    ((answering x as).loop m).log.filterMap V.view = (x.loop m).log.filterMap V.view := by
  have := loop_answering h hc hp
  revert this
  cases x.loop m <;> cases (answering x as).loop m <;> intro this <;> cases this <;>
    exact (‹Alike V _ _› : Alike V _ _).log.symm

private theorem ending_answering {m : Manager} (hc : V.still → m.cron.timer = [])
    (hp : V.plain → Mute V.count m) :
    viewed (List.filterMap V.view) ((answering x as).loop m).ending =
      viewed (List.filterMap V.view) (x.loop m).ending := by
  have := loop_answering h hc hp
  revert this
  cases x.loop m <;> cases (answering x as).loop m <;> intro this <;> cases this <;>
    simp only [Out.ending, viewed, (‹Alike V _ _› : Alike V _ _).log]

private theorem run_answering (hs : ¬ V.still) (hp : ¬ V.plain) :
    viewed (List.filterMap V.view) (run (answering x as)) =
      viewed (List.filterMap V.view) (run x) := by
  have hl : ∀ m, viewed (List.filterMap V.view) ((answering x as).loop m).ending =
      viewed (List.filterMap V.view) (x.loop m).ending :=
    fun m => ending_answering h (fun h => absurd h hs) fun h => absurd h hp
  have hx : ∀ {β : Type} (r : Res Int β) (f g : β → Ending),
      (∀ b, viewed (List.filterMap V.view) (f b) = viewed (List.filterMap V.view) (g b)) →
      viewed (List.filterMap V.view) (orExit r f) =
        viewed (List.filterMap V.view) (orExit r g) := by
    intro β r f g hfg
    cases r with
    | ok b => exact hfg b
    | err e => rfl
    | panic p => rfl
  unfold run
  rw [manager_answering]
  exact hx _ _ _ fun _ => hx _ _ _ fun _ => hx _ _ _ hl

end Veiled

/-! ## What programs write -/

/-- C121: if programs write something else, in any run, cinit ends in the same way and does the
same until then: it starts the same programs, sends the same signals, sends the same reports. -/
theorem C121 {x : Machine} {as : List Answer}
    (h : List.Forall₂ SameButOutput x.answers as) :
    viewed unheard (run (answering x as)) = viewed unheard (run x) :=
  run_answering (V := outputVeil) h id id

/-- C121: everything that happens with one sequence of outputs happens with the other one, too;
apart from reading the output and logging it. -/
theorem C121_events {x : Machine} {as : List Answer}
    (h : List.Forall₂ SameButOutput x.answers as) (m : Manager) {e : Event}
    (hc : ∀ fd b, e ≠ .chunk fd b) (hn : ∀ o n t, e ≠ .line o n t) :
    e ∈ ((answering x as).loop m).log ↔ e ∈ (x.loop m).log := by
  have hm : ∀ l : Log, e ∈ unheard l ↔ e ∈ l := by
    intro l
    unfold unheard
    simp only [List.mem_filterMap]
    constructor
    · rintro ⟨a, ha, he⟩
      cases a with
      | chunk fd b => exact absurd (Option.some.inj he).symm (hc _ _)
      | line o n t => cases he
      | _ => cases Option.some.inj he; exact ha
    · intro he
      refine ⟨e, he, ?_⟩
      cases e with
      | chunk fd b => exact absurd rfl (hc _ _)
      | line o n t => exact absurd rfl (hn _ _ _)
      | _ => rfl
  have hl : unheard ((answering x as).loop m).log = unheard (x.loop m).log :=
    log_answering (V := outputVeil) h False.elim False.elim
  rw [← hm, ← hm (x.loop m).log, hl]

/-- Case of `C121` and `C121_events`: instead of `hé` in two parts, the program writes a line that
reads like a message to the notify socket, and then nothing. Another line is logged, the rest
remains the same. -/
example : List.Forall₂ SameButOutput (machine cutAnswers).answers (cutAnswers.map fun a =>
      if a = .read (some [0x68, 0xC3]) then .read (some (bytes "STOPPING=1\n"))
      else if a = .read (some [0xA9]) then .read (some []) else a) ∧
    Ends (answering (machine cutAnswers) (cutAnswers.map fun a =>
      if a = .read (some [0x68, 0xC3]) then .read (some (bytes "STOPPING=1\n"))
      else if a = .read (some [0xA9]) then .read (some []) else a)) ⟨[prog 'a' .oneshot]⟩
    (.exited 0 [.exit 0, .reaped, .hangup 21, .ready ⟨21, false, true⟩,
      .hangup 20, .ready ⟨20, false, true⟩, .polled [⟨20, false, true⟩, ⟨21, false, true⟩],
      .polling, .clock 3, .reaped, .waited 10 0 (some 0),
      .chunk 20 [], .ready ⟨20, true, true⟩,
      .polled [⟨20, true, true⟩], .polling, .clock 2, .reaped,
      .line true ['a'] "STOPPING=1".toList, .chunk 20 (bytes "STOPPING=1\n"),
      .ready ⟨20, true, false⟩,
      .polled [⟨20, true, false⟩], .polling, .clock 1,
      .watched 21 true, .watched 20 true, .spawned 0 10 20 21]) := by
  refine ⟨?_, Res.of_check (by decide +kernel)⟩
  simp only [machine, cutAnswers, List.map, reduceCtorEq, if_false, Answer.read.injEq,
    Option.some.injEq, List.cons.injEq, List.forall₂_cons, List.forall₂_nil_left_iff]
  repeat' apply And.intro
  all_goals first
    | exact .same _
    | exact .output _ _ (by unfold Readable; decide) (by unfold Readable; decide)
    | trivial

/-! ## Clients that go away -/

/-- C122: if clients that have connected go away before they have read their reports, or stay, in
any run, cinit ends in the same way and does the same until then, apart from sending the reports. -/
theorem C122 {x : Machine} {as : List Answer}
    (h : List.Forall₂ SameButClients x.answers as) :
    viewed unasked (run (answering x as)) = viewed unasked (run x) :=
  run_answering (V := clientVeil) h id id

/-- C122: everything else that happens if clients stay happens if they go away, and vice versa. -/
theorem C122_events {x : Machine} {as : List Answer}
    (h : List.Forall₂ SameButClients x.answers as) (m : Manager) {e : Event}
    (hr : ∀ t, e ≠ .report t) (hf : e ≠ .failed) :
    e ∈ ((answering x as).loop m).log ↔ e ∈ (x.loop m).log := by
  have hm : ∀ l : Log, e ∈ unasked l ↔ e ∈ l := by
    intro l
    unfold unasked
    simp only [List.mem_filterMap]
    constructor
    · rintro ⟨a, ha, he⟩
      cases a with
      | report t => exact absurd (Option.some.inj he).symm hf
      | _ => cases Option.some.inj he; exact ha
    · intro he
      refine ⟨e, he, ?_⟩
      cases e with
      | report t => exact absurd rfl (hr _)
      | _ => rfl
  have hl : unasked ((answering x as).loop m).log = unasked (x.loop m).log :=
    log_answering (V := clientVeil) h False.elim False.elim
  rw [← hm, ← hm (x.loop m).log, hl]

/-- A client asks for a report, then the program ends. -/
def askedAnswers (stays : Bool) : List Answer :=
  [.setup true, .fork (some (10, 20, 21)), .epollAdd true, .epollAdd true, .now 1,
   .epoll (some [⟨4, true, false⟩]), .accept (some stays), .wait (.exited 10 0), .wait .error,
   .now 2, .epoll (some [⟨20, false, true⟩, ⟨21, false, true⟩]), .wait .error]

def askedEnd : Log :=
  [.exit 0, .reaped, .hangup 21, .ready ⟨21, false, true⟩, .hangup 20, .ready ⟨20, false, true⟩,
   .polled [⟨20, false, true⟩, ⟨21, false, true⟩], .polling, .clock 2, .reaped,
   .waited 10 0 (some 0)]

def askedStart : Log :=
  [.ready ⟨4, true, false⟩, .polled [⟨4, true, false⟩], .polling, .clock 1,
   .watched 21 true, .watched 20 true, .spawned 0 10 20 21]

/-- Case of `C122` and `C122_events`: the client stays, or goes away. -/
example : List.Forall₂ SameButClients (machine (askedAnswers true)).answers (askedAnswers false) ∧
    Ends (machine (askedAnswers true)) ⟨[prog 'a' .oneshot]⟩
      (.exited 0 (askedEnd ++ .report
        "programs:\n  - name: 'a'\n    state: 'running'\n    pid: 10\n".toList :: askedStart)) ∧
    Ends (answering (machine (askedAnswers true)) (askedAnswers false)) ⟨[prog 'a' .oneshot]⟩
      (.exited 0 (askedEnd ++ .failed :: askedStart)) := by
  refine ⟨?_, Res.of_check (by decide +kernel), Res.of_check (by decide +kernel)⟩
  simp only [machine, askedAnswers, List.forall₂_cons, List.forall₂_nil_left_iff]
  repeat' apply And.intro
  all_goals first
    | exact .same _
    | exact .client _ _
    | trivial

/-! ## The clock -/

/-- The machine on which the clock shows something else, when the jobs are scheduled and later
on. -/
def clocked (x : Machine) (clock : List Int) (answers : List Answer) : Machine :=
  { x with clock := clock, answers := answers }

private theorem cron_still {z : Zone} {config : Config} {clock : List Int}
    (hn : ∀ c ∈ config.programs, c.ptype.isCron = false) : buildCron z config clock = .ok {} := by
  have : ∀ (pcs : List ProcessConfig) i, (∀ c ∈ pcs, c.ptype.isCron = false) →
      cronPrograms i pcs = [] := by
    intro pcs
    induction pcs with
    | nil => intro i _; rfl
    | cons c pcs ih =>
      intro i h
      simp only [cronPrograms, h c List.mem_cons_self, Bool.false_eq_true, if_false]
      exact ih _ fun c hc => h c (List.mem_cons_of_mem _ hc)
  unfold buildCron
  rw [this _ _ hn]
  rfl

private theorem manager_clocked {x : Machine} {config : Config} {clock : List Int}
    {as : List Answer} (hn : ∀ c ∈ config.programs, c.ptype.isCron = false) :
    (clocked x clock as).manager config = x.manager config := by
  have hp : ∀ cs, (clocked x clock as).processes cs = x.processes cs := by
    intro cs
    induction cs with
    | nil => rfl
    | cons c cs ih =>
      simp only [Machine.processes, ih]
      rfl
  unfold Machine.manager
  rw [hp, cron_still hn, cron_still hn]
  rfl

/-- C123: in a configuration without cronjobs, the time has no influence: whatever the clock shows,
and whether it goes forward, backward or not at all, the same event loop is set up, and it ends in
the same way and does the same until then. -/
theorem C123 {x : Machine} {config : Config} {m : Manager} (hx : x.manager config = .ok m)
    (hn : ∀ c ∈ config.programs, c.ptype.isCron = false) (clock : List Int) {as : List Answer}
    (h : List.Forall₂ SameButTime x.answers as) :
    (clocked x clock as).manager config = .ok m ∧
    viewed untimed ((clocked x clock as).loop m).ending = viewed untimed (x.loop m).ending := by
  refine ⟨(manager_clocked hn).trans hx, ?_⟩
  have ht : m.cron.timer = [] := by
    have := (Machine.manager_ok hx).2.2.1
    rw [cron_still hn] at this
    rw [← Res.ok.inj this]
  exact ending_answering (V := clockVeil) h (fun _ => ht) False.elim

/-- The clock goes backward by an hour between two readings. -/
def backwards : List Answer :=
  cutAnswers.map fun a => if a = .now 2 then .now (1 - 3600 * 1_000_000_000) else a

/-- Case of `C123`. -/
example : (∀ c ∈ (⟨[prog 'a' .oneshot]⟩ : Config).programs, c.ptype.isCron = false) ∧
    List.Forall₂ SameButTime (machine cutAnswers).answers backwards ∧
    backwards ≠ cutAnswers ∧ ∃ m, (machine cutAnswers).manager ⟨[prog 'a' .oneshot]⟩ = .ok m := by
  refine ⟨by decide, ?_, by decide, ?_⟩
  · simp only [machine, backwards, cutAnswers, List.map, reduceCtorEq, if_false,
      Answer.now.injEq, List.forall₂_cons, List.forall₂_nil_left_iff]
    repeat' apply And.intro
    all_goals first
      | exact .same _
      | exact .time _ _ (by decide) (by decide)
      | trivial
  · obtain ⟨m, h1, -⟩ := cut_ends.log
    exact ⟨m, h1⟩

/-! ## What messages say -/

/-- C124: in a configuration without programs of type notify, what messages say and who sends
them has no influence (as long as they are texts, see C47): cinit ends in the same way and does
the same until then. -/
theorem C124 {x : Machine} {config : Config} {m : Manager} (hx : x.manager config = .ok m)
    (hn : ∀ c ∈ config.programs, c.ptype ≠ .notify) {as : List Answer}
    (h : List.Forall₂ SameButMessages x.answers as) :
    (answering x as).manager config = .ok m ∧
    viewed unsaid ((answering x as).loop m).ending = viewed unsaid (x.loop m).ending := by
  refine ⟨by rw [manager_answering, hx], ?_⟩
  have hp : ∀ p ∈ m.procs, p.ptype ≠ .notify := by
    intro p hp
    obtain ⟨i, hi⟩ := List.mem_iff_getElem?.mp hp
    have hf := Machine.processes_ok (Machine.manager_ok hx).1
    obtain ⟨hi', rfl⟩ := List.getElem?_eq_some_iff.mp hi
    have hlen := hf.length_eq
    have hc := (List.forall₂_iff_get.mp hf).2 i (by omega) hi'
    simp only [List.get_eq_getElem] at hc
    obtain ⟨-, -, -, -, -, -, -, -, -, -, -, -, -, -, -, -, -, ht, -⟩ :=
      ProcessBuilder.processFrom_ok hc
    have hne := hn _ (List.getElem_mem (l := config.programs) (n := i) (by omega))
    rw [ht]
    revert hne
    cases (config.programs[i]'(by omega)).ptype <;> simp [ProcessBuilder.runtimeType]
  refine ending_answering (V := messageVeil m.procs.length) h False.elim fun _ =>
    ⟨hp, rfl, fun q i hi => ?_⟩
  have := (Machine.manager_ok hx).2.2.2
  rw [this] at hi
  cases hi

/-- A message, and then the end of the program. -/
def talking (message : List Nat) (sender : Int) : List Answer :=
  [.setup true, .fork (some (10, 20, 21)), .epollAdd true, .epollAdd true, .now 1,
   .epoll (some [⟨5, true, false⟩]), .recv (some (message, some sender)), .wait (.exited 10 0),
   .wait .error, .now 2, .epoll (some [⟨20, false, true⟩, ⟨21, false, true⟩]), .wait .error]

/-- Case of `C124`: a program of type oneshot announces its end, or a stranger another
main process. -/
example : (∀ c ∈ (⟨[prog 'a' .oneshot]⟩ : Config).programs, c.ptype ≠ .notify) ∧
    List.Forall₂ SameButMessages (machine (talking (bytes "STOPPING=1") 10)).answers
      (talking (bytes "MAINPID=11") 77) ∧
    Ends (machine (talking (bytes "STOPPING=1") 10)) ⟨[prog 'a' .oneshot]⟩
      (.exited 0 (askedEnd ++ .datagram 10 "STOPPING=1".toList :: .received (bytes "STOPPING=1") ::
        .ready ⟨5, true, false⟩ :: .polled [⟨5, true, false⟩] :: askedStart.drop 2)) := by
  have ht : ∀ t : String, t ∈ ["STOPPING=1", "MAINPID=11"] → Intelligible (bytes t) := by
    intro t h
    refine ⟨?_, ?_, ?_, t.toList, ?_⟩ <;> revert t <;>
      (try unfold Readable) <;> decide +kernel
  refine ⟨by decide, ?_, Res.of_check (by decide +kernel)⟩
  simp only [machine, talking, List.forall₂_cons, List.forall₂_nil_left_iff]
  repeat' apply And.intro
  all_goals first
    | exact .message _ _ _ _ (ht _ (by simp)) (ht _ (by simp))
    | exact .same _
    | trivial

end Cinit.Props
