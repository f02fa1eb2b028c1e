import Verif.Props.Output
/-!
# C61, C62: attention to what the kernel reports
-/

namespace Cinit.Props

open Cinit Spec

/-- The reports turned to, oldest first. -/
def turns (l : Log) : List Ready :=
  l.reverse.filterMap fun e => match e with
    | .ready ev => some ev
    | _ => none

/-- The kinds of events that begin a new round or end the run. -/
def newRound : Event → Prop
  | .polling | .clock _ | .spawned _ _ _ _ | .spawnFailed _ | .refused _ _ | .postponed _
  | .exit _ => True
  | _ => False

theorem next_event {x : Machine} {m : Manager} {ev : Ready} {e : Event} {later past : Log}
    (hl : (x.loop m).log = later ++ e :: .ready ev :: past) :
    (ev.inp = true → ev.fd = m.signalFd → (∃ n, e = .signal n) ∨ e = .failed) ∧
    (ev.inp = true → ev.fd ≠ m.signalFd → ev.fd = m.statusFd →
      (∃ text, e = .report text) ∨ e = .failed) ∧
    (ev.inp = true → ev.fd ≠ m.signalFd → ev.fd ≠ m.statusFd → ev.fd = m.notifyFd →
      (∃ b, e = .received b) ∨ e = .failed) ∧
    (ev.inp = true → ev.fd ≠ m.signalFd → ev.fd ≠ m.statusFd → ev.fd ≠ m.notifyFd →
      (∃ b, e = .chunk ev.fd b) ∨ e = .failed) ∧
    (ev.inp = false → ev.hup = true → e = .hangup ev.fd) := by
  have hs := Machine.loop_serves x m
  rw [hl] at hs
  have hs := (always_of_suffix hs rfl).1
  have hh : ev.inp = true ∨ ev.hup = true → hand (.ready ev :: past) = some ev := by
    intro h; simp [hand, h]
  have key : (ev.inp = true ∨ ev.hup = true) → ∃ ev', hand (.ready ev :: past) = some ev' ∧
      ev' = ev := fun h => ⟨ev, hh h, rfl⟩
  refine ⟨?_, ?_, ?_, ?_, ?_⟩
  · intro hi hf
    have hc := hh (.inl hi)
    cases e <;> simp [Serves, hc, hi, hf, Manager.inlets] at hs ⊢
    · exact absurd hs.1.symm hs.2.1
    · rw [hs] at hi; cases hi
  · intro hi h1 hf
    have hc := hh (.inl hi)
    cases e <;> simp [Serves, hc, hi, hf, Manager.inlets] at hs ⊢
    · exact absurd (hf.trans hs) h1
    · exact absurd hs.1.symm hs.2.2.1
    · rw [hs] at hi; cases hi
  · intro hi h1 h2 hf
    have hc := hh (.inl hi)
    cases e <;> simp [Serves, hc, hi, hf, Manager.inlets] at hs ⊢
    · exact absurd (hf.trans hs) h1
    · exact absurd hs.1.symm hs.2.2.2
    · rw [hs] at hi; cases hi
    · exact absurd (hf.trans hs.1) h2
  · intro hi h1 h2 h3
    have hc := hh (.inl hi)
    cases e <;> simp [Serves, hc, hi, h1, h2, h3, Manager.inlets] at hs ⊢
    · exact hs.1.symm
    · rw [hs] at hi; cases hi
  · intro hi hf
    have hc := hh (.inr hf)
    cases e <;> simp [Serves, hc, hi, Manager.inlets] at hs ⊢
    rw [hs]

/-- C61: what follows the report that something can be read is reading it (or noticing that
this fails), according to the descriptor: the one that was created for signals, the status
socket, the notify socket, or an output stream; what follows the report that a stream has ended,
and only this, is closing it. -/
theorem C61_next {x : Machine} {config : Config} {m : Manager} {signals status notify : Int}
    {ev : Ready} {e : Event} {later past : Log}
    (h : x.manager config = .ok m) (hf : x.sockets = some (signals, status, notify))
    (hl : (x.loop m).log = later ++ e :: .ready ev :: past) :
    (ev.inp = true → ev.fd = signals → (∃ n, e = .signal n) ∨ e = .failed) ∧
    (ev.inp = true → ev.fd ≠ signals → ev.fd = status →
      (∃ text, e = .report text) ∨ e = .failed) ∧
    (ev.inp = true → ev.fd ≠ signals → ev.fd ≠ status → ev.fd = notify →
      (∃ b, e = .received b) ∨ e = .failed) ∧
    (ev.inp = true → ev.fd ≠ signals → ev.fd ≠ status → ev.fd ≠ notify →
      (∃ b, e = .chunk ev.fd b) ∨ e = .failed) ∧
    (ev.inp = false → ev.hup = true → e = .hangup ev.fd) := by
  rw [Machine.manager_sockets h] at hf
  cases hf
  exact next_event hl

/-- Until the next wait, what has been turned to and what is still pending is what has been
reported. -/
theorem turns_pending {d : Inlets} {evs : List Ready} {mid past : Log}
    (hs : Always (Serves d) (mid ++ .polled evs :: past)) (hp : .polling ∉ mid) :
    turns mid ++ pending (mid ++ .polled evs :: past) = evs := by
  induction mid with
  | nil => rfl
  | cons e mid ih =>
    rw [List.mem_cons, not_or] at hp
    have ih := ih hs.2 hp.2
    have hse := hs.1
    unfold turns at ih ⊢
    rw [List.reverse_cons, List.filterMap_append]
    cases e with
    | ready ev =>
      obtain ⟨-, hse⟩ := hse
      change (pending (mid ++ .polled evs :: past)).head? = some ev at hse
      simp only [List.cons_append, pending]
      cases hq : pending (mid ++ .polled evs :: past) with
      | nil => rw [hq] at hse; cases hse
      | cons ev' rest =>
        rw [hq] at hse ih
        cases hse
        rw [← ih]
        simp
    | polled evs' =>
      exfalso
      obtain ⟨l, hl⟩ := hse
      cases mid with
      | nil => cases hl
      | cons e mid =>
        have hl : e :: (mid ++ .polled evs :: past) = .polling :: l := hl
        injection hl with h1 h2
        exact hp.2 (by rw [h1]; simp)
    | _ => simpa [pending] using ih

/-- C61: when cinit next waits, starts something or ends, it has turned to each of the reports,
once and in order. -/
theorem C61_all {x : Machine} {m : Manager} {e : Event} {evs : List Ready} {later mid past : Log}
    (hl : (x.loop m).log = later ++ e :: (mid ++ .polled evs :: past)) (he : newRound e)
    (hp : .polling ∉ mid) : turns mid = evs := by
  have hs := Machine.loop_serves x m
  rw [hl] at hs
  have hs := always_of_suffix hs rfl
  have hpend : pending (mid ++ .polled evs :: past) = [] := by
    have h1 := hs.1
    cases e <;> first
      | exact h1.2.1
      | exact he.elim
  have := turns_pending hs.2.2 hp
  rw [hpend, List.append_nil] at this
  exact this

/-- Being swept, spelled out. -/
theorem swept_mem {mid past : Log} (hs : Swept (mid ++ .polling :: past)) (hp : .polling ∉ mid) :
    .reaped ∈ mid ∨ ∃ p sig, .lost p sig ∈ mid := by
  induction mid with
  | nil => exact hs.elim
  | cons e mid ih =>
    rw [List.mem_cons, not_or] at hp
    cases e with
    | reaped => exact .inl (by simp)
    | lost p sig => exact .inr ⟨p, sig, by simp⟩
    | polling => exact absurd rfl hp.1
    | _ =>
      rcases ih hs hp.2 with h | ⟨p, sig, h⟩
      · exact .inl (List.mem_cons_of_mem _ h)
      · exact .inr ⟨p, sig, List.mem_cons_of_mem _ h⟩

/-- C62 in full: before cinit starts anything, waits again or ends, it has reaped terminated
children until the kernel knew of no further one. -/
def C62_statement : Prop :=
  ∀ (x : Machine) (config : Config) (m : Manager), x.manager config = .ok m →
    ∀ later e mid past, (x.loop m).log = later ++ e :: (mid ++ .polling :: past) → newRound e →
      .polling ∉ mid → .reaped ∈ mid

/-- C62, except for children terminated by real-time signals: reaping stops at them. -/
theorem C62_reaped_partial {x : Machine} {m : Manager} {later mid past : Log} {e : Event}
    (hl : (x.loop m).log = later ++ e :: (mid ++ .polling :: past)) (he : newRound e)
    (hp : .polling ∉ mid) (hlost : ∀ p sig, .lost p sig ∉ mid) : .reaped ∈ mid := by
  have hs := Machine.loop_serves x m
  rw [hl] at hs
  have hs := (always_of_suffix hs rfl).1
  have hsw : Swept (mid ++ .polling :: past) := by
    cases e <;> first
      | exact hs.2.2
      | exact he.elim
  rcases swept_mem hsw hp with h | ⟨p, sig, h⟩
  · exact h
  · exact absurd h (hlost p sig)

/-- C62 is false: after a death by a real-time signal, other terminated children wait until the
next round. -/
theorem C62_violated : ¬ C62_statement := by
  intro h
  obtain ⟨m, h1, h2⟩ := lost_ends.log
  have := h _ _ m h1 (lostAfter.take 12) (.spawned 2 10 20 21) (.lost 10 40 :: lostBefore.take 10)
    (lostBefore.drop 11) (h2.trans (by decide +kernel)) trivial (by decide +kernel)
  revert this
  decide +kernel

/-- Witnesses for `C61_all` and `C62_reaped_partial`, in the run `three_ends`; see `threeLog` for
`C61_next`. -/
example : (∃ later e mid past, threeLog = later ++ e :: (mid ++
      .polled [⟨22, true, false⟩, ⟨23, false, true⟩, ⟨4, true, false⟩] :: past) ∧ newRound e ∧
      .polling ∉ mid) ∧
    (∃ later e mid past, threeLog = later ++ e :: (mid ++ .polling :: past) ∧ newRound e ∧
      .polling ∉ mid ∧ ∀ p sig, .lost p sig ∉ mid) :=
  ⟨⟨threeLog.take 31, .clock 125_000_000_000, (threeLog.drop 32).take 12, threeLog.drop 45,
      by decide +kernel, trivial, by decide +kernel⟩,
    ⟨threeLog.take 31, .clock 125_000_000_000, (threeLog.drop 32).take 13, threeLog.drop 46,
      by decide +kernel, trivial, by decide +kernel, by
        intro p sig
        simp [threeLog]⟩⟩

end Cinit.Props
