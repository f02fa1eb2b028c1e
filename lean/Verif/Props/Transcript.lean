import Verif.Props.Runs
import Verif.Proofs.Transcript
import Verif.Proofs.Watch
import Verif.Proofs.Tables
/-!
# C71, C72, C73: cinit takes what the kernel says as it is, listens to all programs and leaks no
descriptors
-/

namespace Cinit.Props

open Cinit Spec

/-- C71: at the end of a run the history accounts for every answer of the kernel, one by one, in
their order and unaltered. -/
theorem C71_account {x : Machine} {m : Manager} {code : Int} {w : World}
    (h : x.loop m = .ok code w) :
    ∃ used, x.answers = used ++ w.answers ∧ account w.log = used.flatMap told := by
  have := start_tells x.env (x.world m)
  unfold Machine.loop at h
  rw [h] at this
  obtain ⟨c, es, h1, h2, h3⟩ := this
  refine ⟨c, h1, ?_⟩
  change [] ++ c.flatMap told = account es ++ [] at h3
  have h2 : w.log = es ++ [] := h2
  rw [h2, List.append_nil, ← List.append_nil (account es), ← h3]
  rfl

/-- C71: at any point of any run, including those that abort, the history says nothing the
kernel has not told, and nothing in another order. -/
theorem C71_prefix (x : Machine) (m : Manager) :
    ∃ used rest, x.answers = used ++ rest ∧ account (x.loop m).log <+: used.flatMap told := by
  have := start_tells x.env (x.world m)
  unfold Machine.loop
  cases hs : start x.env (x.world m) with
  | ok code w =>
    rw [hs] at this
    obtain ⟨c, es, h1, h2, h3⟩ := this
    refine ⟨c, w.answers, h1, ?_⟩
    have h2 : w.log = es ++ [] := h2
    change account w.log <+: _
    rw [h2, List.append_nil]
    exact ⟨[], h3.symm⟩
  | panic p w =>
    rw [hs] at this
    obtain ⟨c, es, h1, h2, h3⟩ := this
    refine ⟨c, w.answers, h1, ?_⟩
    have h2 : w.log = es ++ [] := h2
    change account w.log <+: _
    rw [h2, List.append_nil]
    exact h3
  | stuck w =>
    rw [hs] at this
    obtain ⟨c, es, h1, h2, h3⟩ := this
    refine ⟨c, w.answers, h1, ?_⟩
    have h2 : w.log = es ++ [] := h2
    change account w.log <+: _
    rw [h2, List.append_nil]
    exact h3

/-- C57: a death goes unnoticed only if it was by a real-time signal. -/
theorem C57_only_realtime_partial (x : Machine) (m : Manager) {p : Int} {sig : Nat}
    (h : .lost p sig ∈ (x.loop m).log) : 32 ≤ sig := by
  obtain ⟨used, rest, -, h2⟩ := C71_prefix x m
  have hm : Fact.vanished p sig ∈ used.flatMap told := by
    apply h2.subset
    simp only [account, List.mem_flatMap, List.mem_reverse]
    exact ⟨_, h, by simp [seen]⟩
  obtain ⟨a, -, ha⟩ := List.mem_flatMap.mp hm
  unfold told at ha
  split at ha <;> first
    | (simp only [List.mem_cons, reduceCtorEq, List.not_mem_nil, or_self] at ha; done)
    | skip
  split at ha
  · simp at ha
  · simp at ha
    obtain ⟨-, rfl⟩ := ha
    omega

/-- C57: every death by an exit or an ordinary signal that the kernel has reported is in the
history with the status reported. -/
theorem C57_all_reported_partial {x : Machine} {m : Manager} {code : Int} {w : World}
    (h : x.loop m = .ok code w) {used : List Answer} (hu : x.answers = used ++ w.answers)
    {p : Int} {status : Nat} (ha : .wait (.exited p status) ∈ used ∨
      (.wait (.killed p status) ∈ used ∧ status < 32)) :
    ∃ who, .waited p status who ∈ w.log := by
  obtain ⟨used', h1, h2⟩ := C71_account h
  have : used' = used := by
    rw [hu] at h1
    exact (List.append_cancel_right h1).symm
  subst this
  have hm : Fact.died p status ∈ used'.flatMap told := by
    rcases ha with ha | ⟨ha, hs⟩
    · exact List.mem_flatMap.mpr ⟨_, ha, by simp [told]⟩
    · exact List.mem_flatMap.mpr ⟨_, ha, by simp [told, hs]⟩
  rw [← h2] at hm
  simp only [account, List.mem_flatMap, List.mem_reverse] at hm
  obtain ⟨e, he, hs⟩ := hm
  cases e <;> simp [seen] at hs
  obtain ⟨rfl, rfl⟩ := hs
  exact ⟨_, he⟩

/-- C72: once a program has been started, the next two things cinit does are to register its
standard output and its standard error. -/
theorem C72_registered {x : Machine} {m : Manager} {later past : Log} {i : Nat} {p o r : Int}
    (hl : (x.loop m).log = later ++ .spawned i p o r :: past) :
    later = [] ∨ (∃ ok, later = [.watched o ok]) ∨
    ∃ later' ok ok', later = later' ++ [.watched r ok', .watched o ok] := by
  have hw := Machine.loop_watches x m
  rw [hl] at hw
  rcases List.eq_nil_or_concat later with rfl | ⟨l1, e1, rfl⟩
  · exact .inl rfl
  rw [List.concat_eq_append, List.append_assoc] at hw
  obtain ⟨ok, rfl⟩ := (always_of_suffix hw rfl).1
  rcases List.eq_nil_or_concat l1 with rfl | ⟨l2, e2, rfl⟩
  · exact .inr (.inl ⟨ok, rfl⟩)
  rw [List.concat_eq_append, List.append_assoc] at hw
  obtain ⟨ok', rfl⟩ := (always_of_suffix hw rfl).1
  exact .inr (.inr ⟨l2, ok, ok', by simp⟩)

theorem manager_fdDict {x : Machine} {config : Config} {m : Manager}
    (h : x.manager config = .ok m) : m.fdDict = [] := by
  unfold Machine.manager at h
  obtain ⟨procs, -, h⟩ := Res.bind_eq_ok.mp h
  split at h
  · cases h
  · cases h
  · split at h
    · cases h
    · obtain ⟨deps, -, h⟩ := Res.bind_eq_ok.mp h
      obtain ⟨cron, -, h⟩ := Res.bind_eq_ok.mp h
      split at h <;> cases h
      rfl

/-- C72: at any point of any run, the descriptors cinit listens to are its own ones and the
output streams whose registration has succeeded, except those that have been hung up. -/
theorem C72_listening {x : Machine} {config : Config} {m : Manager}
    (h : x.manager config = .ok m) {signals status notify : Int}
    (hf : x.sockets = some (signals, status, notify))
    {rest : List Answer} (hs : x.answers = .setup true :: rest) (fd : Int) :
    fd ∈ (x.loop m).world.kernel.epoll ↔
      listening ⟨signals, status, notify⟩ (x.loop m).log fd := by
  rw [Machine.manager_sockets h] at hf
  cases hf
  rcases Machine.loop_tables (x := x) (manager_fdDict h) with hc | ⟨hn, -⟩
  · refine (hc.epoll fd).trans ?_
    cases x.loop m <;> exact Iff.rfl
  · exact absurd hs (hn rest)

/-- C73: at any point of any run, the descriptors cinit holds are those it held when the event
loop started and the output streams that have not ended. -/
theorem C73_open {x : Machine} {config : Config} {m : Manager}
    (h : x.manager config = .ok m) (fd : Int) :
    fd ∈ (x.loop m).world.kernel.fds ↔
      fd ∈ m.signalFd :: m.statusFd :: m.notifyFd :: x.openFds ∨
      ∃ i out, stream (x.loop m).log fd = some (i, out) := by
  have he : ∀ r : Option (Nat × Bool), r.isSome = true ↔ ∃ i out, r = some (i, out) := by
    intro r
    rcases r with _ | ⟨i, out⟩ <;> simp
  rcases Machine.loop_tables (x := x) (manager_fdDict h) with hc | ⟨-, hk, hn, -⟩
  · rw [← he]
    refine (hc.opened fd).trans ?_
    cases x.loop m <;> exact Iff.rfl
  · rw [hk, hn]
    simp [Machine.world]

/-- C73: the output streams are never mixed up with the descriptors of cinit itself. -/
theorem C73_apart {x : Machine} {config : Config} {m : Manager}
    (h : x.manager config = .ok m) {fd : Int}
    (hf : fd ∈ m.signalFd :: m.statusFd :: m.notifyFd :: x.openFds) :
    stream (x.loop m).log fd = none := by
  rcases Machine.loop_tables (x := x) (manager_fdDict h) with hc | ⟨-, -, hn, -⟩
  · have := hc.apart fd hf
    cases hl : x.loop m <;> rw [hl] at this <;> exact this
  · exact hn fd

/-- C73: when cinit ends, exactly those descriptors are open that were open at the beginning. -/
theorem C73_end {x : Machine} {config : Config} {m : Manager} {code : Int} {w : World}
    (h : x.manager config = .ok m) (ho : x.loop m = .ok code w) (fd : Int) :
    fd ∈ w.kernel.fds ↔ fd ∈ m.signalFd :: m.statusFd :: m.notifyFd :: x.openFds := by
  have := C73_open h fd
  rw [ho] at this
  refine this.trans ⟨?_, .inl⟩
  rintro (hf | ⟨i, out, hs⟩)
  · exact hf
  · rw [show stream (Out.ok code w).log fd = none from (C36_outlives h ho).2 fd] at hs
    cases hs

/-- Witness for the theorems about runs that end. -/
example : ∃ m code w, (machine threeAnswers).loop m = .ok code w ∧
    account w.log = [Fact.child 10 20 21, .watching true, .watching true, .time 30,
      .happened [⟨5, true, false⟩], .message (bytes "STATUS=hi\nREADY=1\n"), .sender 10,
      .noneDied] ++ (account threeLog).drop 8 ∧ 30 < (account threeLog).length := by
  obtain ⟨m, w, -, h2, h3⟩ := three_ends.exited
  refine ⟨m, 0, w, h2, ?_, by decide +kernel⟩
  rw [h3]
  decide +kernel

/-- Witness for `C57_only_realtime_partial`. -/
example : ∃ m, .lost 10 40 ∈ ((machine lostAnswers).loop m).log := by
  obtain ⟨m, -, h2⟩ := lost_ends.log
  exact ⟨m, by rw [h2]; simp [Ending.log]⟩

/-- Witness for C72 and C73: a run waiting for the output of a program. -/
def halfway : Machine :=
  machine [.setup true, .fork (some (10, 20, 21)), .epollAdd true, .epollAdd false, .now 1]

example : ∃ m, halfway.manager two = .ok m ∧
    (halfway.loop m).world.kernel.epoll = [20, 3, 4, 5] ∧
    (halfway.loop m).world.kernel.fds = [20, 21, 3, 4, 5, 0, 1, 2] ∧
    stream (halfway.loop m).log 21 = some (0, false) :=
  Res.of_check (by decide +kernel)

end Cinit.Props
