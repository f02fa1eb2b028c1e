import Verif.Props.Aborts
import Verif.Props.Ending
import Verif.Props.Transcript
/-!
# C98: cinit hears of the end of everything it waits for
-/

namespace Cinit.Props

open Cinit Spec

/-! ## Histories -/

/-- The rules about descriptors that hold all along. -/
private structure Laws (X : Setting) (d : Inlets) (fds : List Int) (e : Event) (past : Log) :
    Prop where
  legal : Legal X e past
  serves : Serves d e past
  watches : Watches e past
  told : Told d fds e past

private theorem always_and {φ ψ : Event → Log → Prop} {l : Log} (h1 : Always φ l)
    (h2 : Always ψ l) : Always (fun e past => φ e past ∧ ψ e past) l := by
  induction l with
  | nil => trivial
  | cons e l ih => exact ⟨⟨h1.1, h2.1⟩, ih h1.2 h2.2⟩

private theorem always_mono {φ ψ : Event → Log → Prop} {l : Log} (h : Always φ l)
    (hm : ∀ e past, φ e past → ψ e past) : Always ψ l := by
  induction l with
  | nil => trivial
  | cons e l ih => exact ⟨hm _ _ h.1, ih h.2⟩

private theorem laws {x : Machine} {config : Config} {m : Manager} (h : x.manager config = .ok m) :
    Always (Laws (x.setting config m) m.inlets (x.opened m)) (x.loop m).log := by
  have ht : Always (Told m.inlets (x.opened m)) (x.loop m).log := by
    rcases Machine.loop_tables (x := x) (manager_fdDict h) with hc | ⟨-, -, -, hn⟩
    · have := hc.told
      cases hl : x.loop m <;> rw [hl] at this <;> exact this
    · exact hn
  exact always_mono (always_and (always_and (Machine.loop_legal h) (Machine.loop_serves x m))
    (always_and (Machine.loop_watches x m) ht)) fun e past ⟨⟨h1, h2⟩, h3, h4⟩ => ⟨h1, h2, h3, h4⟩

section

variable {X : Setting} {d : Inlets} {fds : List Int}

private theorem unwatched_stream {l : Log} (hl : Always (Laws X d fds) l) {fd : Int}
    (h : unwatched l = some fd) : ∃ y, stream l fd = some y := by
  unfold unwatched at h
  split at h
  · cases h
    simp [stream]
  · cases h
    simp only [stream]
    split
    · exact ⟨_, rfl⟩
    · simp
  · cases h

/-- cinit listens to nothing but its own descriptors and streams. -/
private theorem listening_stream {l : Log} (hl : Always (Laws X d fds) l)
    (hd : ∀ fd, fd = d.signalFd ∨ fd = d.statusFd ∨ fd = d.notifyFd → fd ∈ fds) {fd : Int}
    (h : listening d l fd) : fd ∈ fds ∨ ∃ y, stream l fd = some y := by
  induction l with
  | nil => exact .inl (hd fd h)
  | cons e l ih =>
    have hw := hl.1.watches
    cases e with
    | watched g ok =>
      rcases h with ⟨rfl, -⟩ | h
      · cases hu : unwatched l with
        | none =>
          unfold Watches at hw
          rw [hu] at hw
          exact absurd rfl (hw _ _)
        | some g =>
          unfold Watches at hw
          rw [hu] at hw
          obtain ⟨ok', he⟩ := hw
          cases he
          exact .inr (unwatched_stream hl.2 hu)
      · exact ih hl.2 h
    | hangup g =>
      obtain ⟨h1, h2⟩ := h
      rcases ih hl.2 h2 with h3 | ⟨y, h3⟩
      · exact .inl h3
      · exact .inr ⟨y, by simp only [stream]; rw [if_neg h1]; exact h3⟩
    | spawned i p o r =>
      rcases ih hl.2 h with h3 | ⟨y, h3⟩
      · exact .inl h3
      · refine .inr ?_
        simp only [stream]
        split
        · exact ⟨_, rfl⟩
        split
        · exact ⟨_, rfl⟩
        · exact ⟨y, h3⟩
    | _ => exact ih hl.2 h

/-- A stream cinit waits for without listening to it. -/
private structure Deaf (d : Inlets) (fd : Int) (l : Log) : Prop where
  open_ : ∃ y, stream l fd = some y
  deaf : ¬ listening d l fd
  pending : ∀ ev ∈ pending l, ev.fd ≠ fd
  hand : ∀ ev, hand l = some ev → ev.fd ≠ fd
  next : unwatched l ≠ some fd
  fresh : ∀ i p o r l', l = .spawned i p o r :: l' → r ≠ fd

private theorem deaf_step {e : Event} {l : Log} {fd : Int} (h : Deaf d fd l)
    (hl : Laws X d fds e l) : Deaf d fd (e :: l) := by
  obtain ⟨⟨y, h1⟩, h2, h3, h4, h5, h6⟩ := h
  have hs := hl.serves
  have hr := hl.legal.2
  have ht := hl.told
  have hw := hl.watches
  cases e with
  | spawned i p o r =>
    obtain ⟨-, -, -, ho, hr, -⟩ := hr
    have no : fd ≠ o := by rintro rfl; rw [h1] at ho; cases ho
    have nr : fd ≠ r := by rintro rfl; rw [h1] at hr; cases hr
    exact ⟨⟨y, by simp only [stream]; rw [if_neg no, if_neg nr]; exact h1⟩, h2, h3,
      (fun ev he => nomatch he), fun he => no (Option.some.inj he).symm,
      fun _ _ _ _ _ he => by cases he; exact nr.symm⟩
  | watched g ok =>
    have hg : unwatched l = some g := by
      unfold Watches at hw
      cases hu : unwatched l with
      | none => rw [hu] at hw; exact absurd rfl (hw _ _)
      | some g' => rw [hu] at hw; obtain ⟨ok', he⟩ := hw; cases he; rfl
    have ng : fd ≠ g := by rintro rfl; exact h5 hg
    refine ⟨⟨y, h1⟩, ?_, h3, (fun ev he => nomatch he), ?_, (fun _ _ _ _ _ he => nomatch he)⟩
    · rintro (⟨rfl, -⟩ | hc)
      · exact ng rfl
      · exact h2 hc
    · unfold unwatched
      split
      · rename_i he; cases he
      · rename_i he
        cases he
        intro hc
        exact h6 _ _ _ _ _ rfl (Option.some.inj hc)
      · simp
  | hangup g =>
    have ng : fd ≠ g := fun he => h4 _ hs he.symm
    exact ⟨⟨y, by simp only [stream]; rw [if_neg ng]; exact h1⟩, fun hc => h2 hc.2, h3,
      (fun ev he => nomatch he), (fun he => nomatch he), (fun _ _ _ _ _ he => nomatch he)⟩
  | polled evs =>
    exact ⟨⟨y, h1⟩, h2, fun ev he hf => h2 (hf ▸ ht.2.2 ev he), (fun ev he => nomatch he),
      (fun he => nomatch he), (fun _ _ _ _ _ he => nomatch he)⟩
  | ready ev =>
    obtain ⟨-, hp⟩ := hs
    have hev : ev.fd ≠ fd := h3 ev (List.mem_of_mem_head? hp)
    refine ⟨⟨y, h1⟩, h2, fun ev' he => h3 ev' (List.mem_of_mem_tail he), ?_,
      (fun he => nomatch he), (fun _ _ _ _ _ he => nomatch he)⟩
    intro ev' he
    simp only [Spec.hand] at he
    split at he
    · exact Option.some.inj he ▸ hev
    · exact nomatch he
  | _ => exact ⟨⟨y, h1⟩, h2, h3, (fun ev he => nomatch he), (fun he => nomatch he),
      (fun _ _ _ _ _ he => nomatch he)⟩

private theorem deaf_start {past : Log} {fd : Int}
    (hd : ∀ fd, fd = d.signalFd ∨ fd = d.statusFd ∨ fd = d.notifyFd → fd ∈ fds)
    (hl : Always (Laws X d fds) (.watched fd false :: past)) :
    Deaf d fd (.watched fd false :: past) := by
  have hu : unwatched past = some fd := by
    have hw := hl.1.watches
    unfold Watches at hw
    cases hu : unwatched past with
    | none => rw [hu] at hw; exact absurd rfl (hw _ _)
    | some g' => rw [hu] at hw; obtain ⟨ok', he⟩ := hw; cases he; rfl
  have hp : pending past = [] := hl.1.serves.2.1
  have hopen := unwatched_stream hl.2 hu
  refine ⟨hopen, ?_, fun ev he => ?_, (fun ev he => nomatch he), ?_, (fun _ _ _ _ _ he => nomatch he)⟩
  · rintro (⟨-, hc⟩ | hc)
    · cases hc
    unfold unwatched at hu
    split at hu
    · cases hu
      obtain ⟨-, -, -, ho, -⟩ := hl.2.1.legal.2
      rcases listening_stream hl.2.2 hd hc with hf | ⟨y, hy⟩
      · exact hl.2.1.told.1 hf
      · rw [ho] at hy; cases hy
    · cases hu
      obtain ⟨-, -, -, -, hr, hne⟩ := hl.2.2.1.legal.2
      rename_i g ok i p o l'
      have hg : g = o := by
        obtain ⟨ok', he⟩ := hl.2.1.watches
        cases he
        rfl
      rcases hc with ⟨he, -⟩ | hc
      · exact hne (hg ▸ he.symm)
      · rcases listening_stream hl.2.2.2 hd hc with hf | ⟨y, hy⟩
        · exact hl.2.2.1.told.2 hf
        · rw [hr] at hy; cases hy
    · cases hu
  · rw [show pending (.watched fd false :: past) = pending past from rfl, hp] at he
    cases he
  · unfold unwatched at hu
    split at hu
    · cases hu
      obtain ⟨-, -, -, -, -, hne⟩ := hl.2.1.legal.2
      exact fun he => hne (Option.some.inj he).symm
    · exact (fun he => nomatch he)
    · cases hu

private theorem deaf {l : Log} {fd : Int}
    (hd : ∀ fd, fd = d.signalFd ∨ fd = d.statusFd ∨ fd = d.notifyFd → fd ∈ fds)
    (hl : Always (Laws X d fds) l) (h : .watched fd false ∈ l) : Deaf d fd l := by
  induction l with
  | nil => cases h
  | cons e l ih =>
    rcases List.mem_cons.mp h with rfl | h
    · exact deaf_start hd hl
    · exact deaf_step (ih hl.2 h) hl.1

/-- Streams are listened to unless registering them has failed or is yet to be done. -/
private theorem heard {l : Log} (hl : Always (Laws X d fds) l) {fd : Int} {y : Nat × Bool}
    (h : stream l fd = some y) : listening d l fd ∨ .watched fd false ∈ l ∨
      unwatched l = some fd ∨ ∃ i p o l', l = .spawned i p o fd :: l' := by
  induction l generalizing y with
  | nil => cases h
  | cons e l ih =>
    have hw := hl.1.watches
    unfold Watches at hw
    by_cases hsp : ∃ i p o r, e = .spawned i p o r ∧ (fd = o ∨ fd = r)
    · obtain ⟨i, p, o, r, rfl, rfl | rfl⟩ := hsp
      · exact .inr (.inr (.inl rfl))
      · exact .inr (.inr (.inr ⟨_, _, _, _, rfl⟩))
    have hprev : ∃ y', stream l fd = some y' := by
      cases e with
      | spawned i p o r =>
        simp only [stream] at h
        rw [if_neg fun he => hsp ⟨i, p, o, r, rfl, .inl he⟩,
          if_neg fun he => hsp ⟨i, p, o, r, rfl, .inr he⟩] at h
        exact ⟨y, h⟩
      | hangup g =>
        simp only [stream] at h
        split at h
        · cases h
        · exact ⟨y, h⟩
      | _ => exact ⟨y, h⟩
    have hkeep : listening d l fd → listening d (e :: l) fd := by
      intro hli
      cases e with
      | watched g ok => exact .inr hli
      | hangup g =>
        refine ⟨?_, hli⟩
        rintro rfl
        simp [stream] at h
      | _ => exact hli
    obtain ⟨y', hy⟩ := hprev
    cases hu : unwatched l with
    | none =>
      rcases ih hl.2 hy with h1 | h1 | h1 | ⟨i, p, o, l', rfl⟩
      · exact .inl (hkeep h1)
      · exact .inr (.inl (List.mem_cons_of_mem _ h1))
      · rw [hu] at h1; cases h1
      · cases hu
    | some g =>
      rw [hu] at hw
      obtain ⟨ok, rfl⟩ := hw
      rcases ih hl.2 hy with h1 | h1 | h1 | ⟨i, p, o, l', rfl⟩
      · exact .inl (hkeep h1)
      · exact .inr (.inl (List.mem_cons_of_mem _ h1))
      · rw [hu] at h1
        cases h1
        cases ok with
        | true => exact .inl (.inl ⟨rfl, rfl⟩)
        | false => exact .inr (.inl (List.mem_cons_self))
      · exact .inr (.inr (.inl rfl))

end

/-! ## Runs -/

/-- C98, in full: whenever cinit waits for something to happen, the kernel will tell it of the end
of every output stream it has not seen the end of. -/
def C98_statement : Prop :=
  ∀ (x : Machine) (config : Config) (m : Manager) (past : Log) (fd : Int) (y : Nat × Bool),
    x.manager config = .ok m → Happened (x.loop m).log .polling past →
    stream past fd = some y → listening m.inlets past fd

private theorem inlets_opened (x : Machine) (m : Manager) (fd : Int)
    (h : fd = m.inlets.signalFd ∨ fd = m.inlets.statusFd ∨ fd = m.inlets.notifyFd) :
    fd ∈ x.opened m := by
  rcases h with rfl | rfl | rfl <;> simp [Machine.opened, Manager.inlets]

/-- C98, exactly: whenever cinit waits, the streams it waits for in vain are those whose
registration has failed. -/
theorem C98_exact_partial {x : Machine} {config : Config} {m : Manager} {past : Log} {fd : Int}
    {y : Nat × Bool} (h : x.manager config = .ok m) (he : Happened (x.loop m).log .polling past)
    (hs : stream past fd = some y) : listening m.inlets past fd ↔ .watched fd false ∉ past := by
  obtain ⟨hl, hp⟩ := he.always (laws h)
  constructor
  · intro h1 h2
    exact (deaf (inlets_opened x m) hp h2).deaf h1
  · intro h1
    have hu : unwatched past = none := by
      have := hl.watches
      unfold Watches at this
      cases hu : unwatched past with
      | none => rfl
      | some g => rw [hu] at this; obtain ⟨ok, he⟩ := this; cases he
    rcases heard hp hs with h2 | h2 | h2 | ⟨i, p, o, l', rfl⟩
    · exact h2
    · exact absurd h2 h1
    · rw [hu] at h2; cases h2
    · cases hu

/-- C98: if the kernel registers every stream, cinit hears of the end of everything it waits
for. -/
theorem C98_heard_partial {x : Machine} {config : Config} {m : Manager} {past : Log} {fd : Int}
    {y : Nat × Bool} (h : x.manager config = .ok m) (he : Happened (x.loop m).log .polling past)
    (hs : stream past fd = some y) (hw : ∀ g, .watched g false ∉ past) :
    listening m.inlets past fd :=
  (C98_exact_partial h he hs).mpr (hw fd)

/-- C98: a registration that fails is never made up for: from then on cinit does not see the end
of that stream any more, whatever happens. -/
theorem C98_forever {x : Machine} {config : Config} {m : Manager} {fd : Int}
    (h : x.manager config = .ok m) (hw : .watched fd false ∈ (x.loop m).log) :
    (∃ y, stream (x.loop m).log fd = some y) ∧ ¬ listening m.inlets (x.loop m).log fd := by
  have := deaf (inlets_opened x m) (laws h) hw
  exact ⟨this.open_, this.deaf⟩

/-- C98: once a registration has failed cinit never terminates: it waits for the end of that
stream. -/
theorem C98_never {x : Machine} {config : Config} {m : Manager} {fd : Int} {code : Int} {w : World}
    (h : x.manager config = .ok m) (ho : x.loop m = .ok code w) : .watched fd false ∉ w.log := by
  intro hw
  have hl : (x.loop m).log = w.log := by rw [ho]; rfl
  obtain ⟨⟨y, hy⟩, -⟩ := C98_forever (fd := fd) h (by rw [hl]; exact hw)
  rw [hl, (C36_outlives h ho).2 fd] at hy
  cases hy

/-! ## A concrete case -/

/-- The only program terminates; its output could not be registered. Its error stream is closed. -/
def deafAnswers : List Answer :=
  [.setup true, .fork (some (10, 20, 21)), .epollAdd false, .epollAdd true, .now 1,
   .epoll (some [⟨21, false, true⟩]), .wait (.exited 10 0), .wait .error, .now 2]

/-- Nothing is left to wait for but a stream the kernel will not tell about. -/
def deafLog : Log :=
  [.polling, .clock 2, .reaped, .waited 10 0 (some 0), .hangup 21, .ready ⟨21, false, true⟩,
   .polled [⟨21, false, true⟩], .polling, .clock 1, .watched 21 true, .watched 20 false,
   .spawned 0 10 20 21]

theorem deaf_ends : Ends (machine deafAnswers) oneProgram (.unfinished deafLog) :=
  Res.of_check (by decide +kernel)

/-- Witness for `C98_forever`, and for `C98_exact_partial` with the right hand side false; for it
being true see `three_ends`. -/
example : .watched 20 false ∈ deafLog ∧ Happened deafLog .polling deafLog.tail ∧
    stream deafLog.tail 20 = some (0, true) ∧ ¬ listening ⟨3, 4, 5⟩ deafLog.tail 20 :=
  ⟨by decide, ⟨[], rfl⟩, by decide, by simp [deafLog, listening]⟩

/-- Witness for `C98_heard_partial`. -/
example : ∀ g, .watched g false ∉ ([.clock 1, .watched 21 true, .watched 20 true,
    .spawned 0 10 20 21] : Log) := by
  intro g
  simp

/-- C98 is false: the failure to register a stream is logged and forgotten. In this run all that
was started has terminated, and cinit waits. -/
theorem C98_violated : ¬ C98_statement := by
  intro hc
  obtain ⟨m, h1, h2⟩ := deaf_ends.log
  have h2 : ((machine deafAnswers).loop m).log = deafLog := h2
  have := hc (machine deafAnswers) oneProgram m deafLog.tail 20 (0, true) h1
    (by rw [h2]; exact ⟨[], rfl⟩) (by decide)
  refine (C98_exact_partial (fd := 20) (y := (0, true)) h1
    (by rw [h2]; exact ⟨[], rfl⟩) (by decide)).mp this (by decide)

end Cinit.Props
