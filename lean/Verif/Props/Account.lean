import Verif.Proofs.AccountRuns
import Verif.Props.Troubles
/-!
# C99: the log is an exact account of the run
-/

namespace Cinit.Props

open Cinit Spec Logging

variable {x : Machine} {config : Config} {m : Manager} {voice : Voice}

/-- What the log of a run depends on besides the history. -/
def tellingOf (x : Machine) (config : Config) (m : Manager) (voice : Voice) : Telling :=
  ⟨x.setting config m, m.inlets, voice⟩

private theorem steady (h : x.manager config = .ok m) :
    Steady (tellingOf x config m voice) (x.world m) := by
  have hinv := (Machine.initial h).inv
  refine ⟨Narrated.static_of_tables hinv.tables, fun i p hp => ?_, rfl, hinv.cron⟩
  have hf := Machine.processes_ok (Machine.manager_ok h).1
  have hl : m.procs.length = config.programs.length := hf.length_eq.symm
  obtain ⟨hi, rfl⟩ := List.getElem?_eq_some_iff.mp hp
  have hi' : i < config.programs.length := hl ▸ hi
  obtain ⟨_, _, _, -, -, -, -, -, -, -, -, -, -, -, g, -⟩ :=
    ProcessBuilder.processFrom_ok (hf.get hi' hi)
  exact ⟨config.programs[i], List.getElem?_eq_getElem hi', g.symm⟩

/-- C99: besides what is said about answers of the kernel to requests for terminated children, the
log consists of a greeting if the set-up of the event loop succeeds, and of the shares of the events,
in their order. Only if the answers of the kernel end there can be something more: what has been said
about the event the next answer would have been part of. -/
theorem C99_account (h : x.manager config = .ok m) :
    ∃ es rest, (x.entries voice m).filter Spec.uttered =
        (if x.answers.head? = some (.setup true) then greeting else []) ++ (es ++ rest) ∧
      Account (tellingOf x config m voice) (x.loop m).log es ∧
      (rest = [] ∨ (x.loop m).isStuck ∧ Begun (tellingOf x config m voice) rest) := by
  have := Narrated.start_chron (T := tellingOf x config m voice) x.env (Machine.initial h) (steady h)
  rw [show (tellingOf x config m voice).voice = voice from rfl, narrated_loop] at this
  exact this

/-- C99: nothing is missing from and nothing is added to the log of a run that has ended. -/
theorem C99_ended (h : x.manager config = .ok m) (he : ¬ (x.loop m).isStuck) :
    ∃ es, (x.entries voice m).filter Spec.uttered =
        (if x.answers.head? = some (.setup true) then greeting else []) ++ es ∧
      Account (tellingOf x config m voice) (x.loop m).log es := by
  obtain ⟨es, rest, h1, h2, rfl | ⟨h3, -⟩⟩ := C99_account (voice := voice) h
  · exact ⟨es, by rw [h1, List.append_nil], h2⟩
  · exact absurd h3 he

private theorem share {T : Telling} {log : Log} {es : List Entry} (h : Account T log es)
    {e : Event} {past : Log} (he : Happened log e past) :
    ∃ before new after, es = before ++ new ++ after ∧ Account T past before ∧ Reason T past e new := by
  obtain ⟨later, rfl⟩ := he
  induction later generalizing es with
  | nil =>
    obtain ⟨old, new, rfl, h1, h2⟩ := h
    exact ⟨old, new, [], (List.append_nil _).symm, h1, h2⟩
  | cons e' later ih =>
    obtain ⟨old, new', rfl, h1, h2⟩ := h
    obtain ⟨before, new, after, rfl, h3, h4⟩ := ih h1
    exact ⟨before, new, after ++ new', by rw [List.append_assoc _ after], h3, h4⟩

/-- C99: what an event is the reason for is in the log, in one piece, and preceded by an exact account
of the history before it. -/
theorem C99_share (h : x.manager config = .ok m) {e : Event} {past : Log}
    (he : Happened (x.loop m).log e past) :
    ∃ before new after, (x.entries voice m).filter Spec.uttered =
        (if x.answers.head? = some (.setup true) then greeting else []) ++ before ++ new ++ after ∧
      Account (tellingOf x config m voice) past before ∧
      Reason (tellingOf x config m voice) past e new := by
  obtain ⟨es, rest, h1, h2, -⟩ := C99_account (voice := voice) h
  obtain ⟨before, new, after, rfl, h3, h4⟩ := share h2 he
  exact ⟨before, new, after ++ rest, by rw [h1]; simp only [List.append_assoc], h3, h4⟩

private theorem reason {T : Telling} {log : Log} {es : List Entry} (h : Account T log es)
    {entry : Entry} (hm : entry ∈ es) :
    ∃ e past new, Happened log e past ∧ Reason T past e new ∧ entry ∈ new := by
  induction log generalizing es with
  | nil => rw [show es = [] from h] at hm; cases hm
  | cons e past ih =>
    obtain ⟨old, new, rfl, ho, hr⟩ := h
    rcases List.mem_append.mp hm with hm | hm
    · obtain ⟨e', past', new', ⟨later, hl⟩, h2, h3⟩ := ih ho hm
      exact ⟨e', past', new', ⟨e :: later, by rw [hl]; rfl⟩, h2, h3⟩
    · exact ⟨e, past, new, ⟨[], rfl⟩, hr, hm⟩

/-- C99: there is an event that gives reason for each entry of a run that has ended, but for the
greeting. -/
theorem C99_reason (h : x.manager config = .ok m) (he : ¬ (x.loop m).isStuck) {entry : Entry}
    (hm : entry ∈ x.entries voice m) (ht : Spec.uttered entry = true) (hg : entry ∉ greeting) :
    ∃ e past new, Happened (x.loop m).log e past ∧
      Reason (tellingOf x config m voice) past e new ∧ entry ∈ new := by
  obtain ⟨es, h1, h2⟩ := C99_ended (voice := voice) h he
  have : entry ∈ (x.entries voice m).filter Spec.uttered := List.mem_filter.mpr ⟨hm, ht⟩
  rw [h1] at this
  rcases List.mem_append.mp this with h3 | h3
  · split at h3
    · exact absurd h3 hg
    · cases h3
  · exact reason h2 h3

/-- The entries of a run by itself. -/
def entriesOf (x : Machine) (config : Config) : Option (List Entry) :=
  match x.manager config with
  | .ok m => some (x.entries plainVoice m)
  | _ => none

def textOf : Entry → Str
  | .own _ msg => msg.text
  | .program _ name text => name ++ ": ".toList ++ text

/-- Witness for `C99_account`, `C99_ended`, `C99_share` and `C99_reason`: all that is said in a run
that ends. -/
example : (∃ m, (machine threeAnswers).manager three = .ok m ∧
      ¬ ((machine threeAnswers).loop m).isStuck) ∧
    (entriesOf (machine threeAnswers) three).map (fun es => (es.filter Spec.uttered).map textOf) =
    some (["setup successful", "Entering poll loop", "Starting a", "Started child a", "Started child 10",
      "Registering fd 20", "Registering fd 21", "Got 1 events",
      "Received notification 'STATUS=hi\nREADY=1\n' from 10",
      "child a has started successfully", "child a has started successfully", "child a: hi",
      "Starting b", "Started child b", "Started child 11", "Registering fd 22", "Registering fd 23",
      "Scheduled next execution at 120000000000", "Starting c", "Started child c", "Started child 12",
      "Registering fd 24", "Registering fd 25", "Got 3 events", "b: hello", "b: wor",
      "Child c has finished and is going to sleep", "Child c has finished and is going to sleep",
      "Child b exited successfully", "Child b exited successfully",
      "Reaped zombie process 99 with return code 7", "Reaped zombie process 99 with return code 7",
      "Scheduled next execution at 180000000000", "Starting c", "Started child c", "Started child 12",
      "Registering fd 26", "Registering fd 27", "Got 6 events",
      "Received termination signal", "Killing children", "Child a exited successfully",
      "Child a exited successfully", "Process 0 has already triggered its dependants",
      "Child c has finished and is going to sleep", "Child c has finished and is going to sleep",
      "Shutting down", "Got 2 events", "Exiting", "Exiting"].map String.toList) := by
  refine ⟨?_, by decide +kernel⟩
  obtain ⟨m, w, h1, h2, -⟩ := three_ends.exited
  exact ⟨m, h1, by rw [h2]; exact fun h => h⟩

end Cinit.Props
