import Verif.Proofs.TaleOrder
import Verif.Props.Fates
/-!
# C77, C84, C85, C87: what is in the log of a run
-/

namespace Cinit.Props

open Cinit Spec Logging

variable {x : Machine} {config : Config} {m : Manager} {voice : Voice}

/-- The log of a run: what the event loop writes, with some times. -/
def Logged (x : Machine) (voice : Voice) (m : Manager) (es : List (Time × Entry)) : Prop :=
  es.map (·.2) = x.entries voice m

/-! ## What is logged -/

theorem told (h : x.manager config = .ok m) :
    Told config.programs (x.world m) (Narrated.start voice x.env (x.world m)) :=
  Narrated.start_told voice x.env (Machine.initial h)

theorem narrated_loop : (Narrated.start voice x.env (x.world m)).1 = x.loop m :=
  Narrated.start_erases voice x.env _

/-- The entries are those the events give reason for, in their order. In addition there may be the
announcement of a program at whose start a run is still busy. -/
theorem entries_items (h : x.manager config = .ok m) :
    ∃ es rest, x.entries voice m = es ++ rest ∧
      es.filterMap itemOf = tale config.programs (x.loop m).log ∧
      (rest = [] ∨ (x.loop m).isStuck ∧ ∃ c ∈ config.programs,
        rest = Narrated.entries Narrated.inProcess [.starting c.name]) := by
  obtain ⟨es, rest, h1, h2, h3⟩ := (told (voice := voice) h).items
  rw [narrated_loop] at h2 h3
  exact ⟨es, rest, h1, by rw [h2]; rfl, h3⟩

theorem entries_own (h : x.manager config = .ok m) {target : List Str} {msg : Msg}
    (hm : .own target msg ∈ x.entries voice m) : target ∈ ownTargets ∧
      Possible (config.programs.map (·.name)) (textsReceived (x.loop m).log) msg := by
  have := (told (voice := voice) h).own target msg hm
  rwa [narrated_loop] at this

/-! Parts of a tale -/

def Item.entry? : Item → Option Entry
  | .line o n t => some (.program o n t)
  | _ => none

def Item.life? : Item → Option Msg
  | .life msg => some msg
  | _ => none

def Item.status? : Item → Option (Str × Str)
  | .status n s => some (n, s)
  | _ => none

theorem tale_programs (ps : List ProcessConfig) (log : Log) :
    (tale ps log).filterMap Item.entry? = programEntries log := by
  induction log with
  | nil => rfl
  | cons e past ih =>
    have hl : ∀ l : List Msg, (l.map Item.life).filterMap Item.entry? = [] := by
      intro l; simp [List.filterMap_map, Function.comp_def, Item.entry?]
    rw [tale, List.filterMap_append, ih]
    cases e <;> simp only [items, programEntries, hl, List.append_nil] <;> try rfl
    rw [List.filterMap_map]
    simp [Function.comp_def, Item.entry?]

theorem tale_life (ps : List ProcessConfig) (log : Log) :
    (tale ps log).filterMap Item.life? = lifeLog ps log := by
  induction log with
  | nil => rfl
  | cons e past ih =>
    have hl : ∀ l : List Msg, (l.map Item.life).filterMap Item.life? = l := by
      intro l; simp [List.filterMap_map, Function.comp_def, Item.life?]
    rw [tale, List.filterMap_append, ih, lifeLog]
    cases e <;> simp only [items, hl] <;> try rfl
    rw [List.filterMap_map]
    simp [Function.comp_def, Item.life?, lifeMessages]

theorem tale_status (ps : List ProcessConfig) (log : Log) :
    (tale ps log).filterMap Item.status? = published ps log := by
  induction log with
  | nil => rfl
  | cons e past ih =>
    have hl : ∀ l : List Msg, (l.map Item.life).filterMap Item.status? = [] := by
      intro l; simp [List.filterMap_map, Function.comp_def, Item.status?]
    rw [tale, List.filterMap_append, ih]
    cases e <;> simp only [items, published, hl, List.append_nil] <;> try rfl
    · rw [List.filterMap_map]
      have : (Item.status? ∘ fun s : Str × Str => Item.status s.1 s.2) = some := rfl
      rw [this, List.filterMap_some]
      rfl
    · simp [Item.status?]

theorem itemOf_status {target : List Str} {msg : Msg} :
    (itemOf (.own target msg)).bind Item.status? = statusOf (⟨2024, 1, 1, 0, 0, 0, 0⟩, .own target msg) := by
  cases msg <;> rfl

theorem narrates_of {ps : List ProcessConfig} {log : Log} {es : List (Time × Entry)}
    (hi : (es.map (·.2)).filterMap itemOf = tale ps log)
    (ho : ∀ t target msg, (t, .own target msg) ∈ es → target ∈ ownTargets ∧
      Possible (ps.map (·.name)) (textsReceived log) msg) : Narrates ps log es := by
  refine ⟨⟨?_, ho⟩, ?_, ?_⟩
  · rw [← tale_programs ps, ← hi, List.filterMap_filterMap, ← List.filterMap_eq_filter]
    congr 1
    funext e
    cases e with
    | program => rfl
    | own target msg => cases msg <;> rfl
  · rw [← tale_life ps, ← hi, List.filterMap_filterMap, List.filterMap_map]
    congr 1
    funext e
    obtain ⟨t, e⟩ := e
    cases e with
    | program => rfl
    | own target msg => cases msg <;> rfl
  · rw [← tale_status ps, ← hi, List.filterMap_filterMap, List.filterMap_map]
    congr 1
    funext e
    obtain ⟨t, e⟩ := e
    cases e with
    | program => rfl
    | own target msg => cases msg <;> rfl

/-- The log of a run tells what happened in it, apart from the pending announcement. -/
theorem logged_narrates (h : x.manager config = .ok m) {es : List (Time × Entry)}
    (hl : Logged x voice m es) :
    ∃ es' rest, es = es' ++ rest ∧ Narrates config.programs (x.loop m).log es' ∧
      (rest = [] ∨ (x.loop m).isStuck ∧ ∃ c ∈ config.programs, ∃ t,
        rest = [(t, .own ["cinit".toList, "runtime".toList, "process".toList] (.starting c.name))]) := by
  obtain ⟨a, r, h1, h2, h3⟩ := entries_items (voice := voice) h
  rw [Logged, h1, List.map_eq_append_iff] at hl
  obtain ⟨es', rest, rfl, ha, hr⟩ := hl
  refine ⟨es', rest, rfl, narrates_of (by rw [ha]; exact h2) ?_, ?_⟩
  · intro t target msg hm
    refine entries_own (voice := voice) h ?_
    rw [h1, ← ha]
    exact List.mem_append_left _ (List.mem_map.mpr ⟨_, hm, rfl⟩)
  · rcases h3 with rfl | ⟨hs, c, hc, rfl⟩
    · exact .inl (List.map_eq_nil_iff.mp hr)
    · refine .inr ⟨hs, c, hc, ?_⟩
      rcases rest with _ | ⟨⟨t, e⟩, _ | ⟨_, _⟩⟩
      · cases hr
      · cases hr; exact ⟨t, rfl⟩
      · cases hr

theorem logged_accords (h : x.manager config = .ok m) {es : List (Time × Entry)}
    (hl : Logged x voice m es) : Accords (config.programs.map (·.name)) (x.loop m).log es := by
  have hown : ∀ t target msg, (t, .own target msg) ∈ es → target ∈ ownTargets ∧
      Possible (config.programs.map (·.name)) (textsReceived (x.loop m).log) msg := by
    intro t target msg hm
    refine entries_own (voice := voice) h ?_
    rw [← hl]
    exact List.mem_map.mpr ⟨_, hm, rfl⟩
  obtain ⟨es', rest, rfl, hn, hr⟩ := logged_narrates h hl
  refine ⟨?_, hown⟩
  rw [List.map_append, List.filter_append, hn.programs]
  rcases hr with rfl | ⟨-, c, -, t, rfl⟩
  · simp
  · simp [ofProgram]

/-! ## C77: the log can be read -/

/-- C77 in full: under the name of a program a reader finds exactly the lines of this program. -/
def C77_statement : Prop :=
  ∀ (x : Machine) (config : Config) (m : Manager) (voice : Voice) (v : Nat) (es : List (Time × Entry)),
    x.manager config = .ok m → Logged x voice m es → ∀ c ∈ config.programs, ∀ out,
      messagesUnder c.name (console v (streamFor out) es) = linesLogged c.name out (x.loop m).log

/-- C77 without `-v`, or with more than two of them: every line of the log is exactly one message,
and says its level, its origin and its text. Missing: names that confuse readers, and the levels
for debugging. -/
theorem C77_readable_partial (h : x.manager config = .ok m) {es : List (Time × Entry)}
    (hl : Logged x voice m es) (hf : ∀ c ∈ config.programs, FineName c.name) {v : Nat}
    (hv : v ≠ 1 ∧ v ≠ 2) (s : Stream) :
    (logLines (console v s es)).map readLine =
      (es.filter (fun e => shownOn v s e.2)).map (fun e => some (view e.2)) :=
  readable h (logged_accords h hl) hf hv s

/-- C77 without `-v`: under the name of a program a reader finds exactly its lines. Missing: names
that confuse readers, and the levels for debugging. -/
theorem C77_program_partial (h : x.manager config = .ok m) {es : List (Time × Entry)}
    (hl : Logged x voice m es) (hf : ∀ c ∈ config.programs, FineName c.name) {v : Nat}
    (hv : v ≠ 1 ∧ v ≠ 2) {c : ProcessConfig} (hc : c ∈ config.programs) (out : Bool) :
    messagesUnder c.name (console v (streamFor out) es) = linesLogged c.name out (x.loop m).log :=
  program_lines h (logged_accords h hl) hf hv hc out

/-- C77 for the standard error, however verbose. Missing: names that confuse readers. -/
theorem C77_stderr_partial (h : x.manager config = .ok m) {es : List (Time × Entry)}
    (hl : Logged x voice m es) (hf : ∀ c ∈ config.programs, FineName c.name) (v : Nat)
    {c : ProcessConfig} (hc : c ∈ config.programs) :
    messagesUnder c.name (console v .stderr es) = linesLogged c.name false (x.loop m).log :=
  stderr_lines h (logged_accords h hl) hf v hc

/-- Some voice. -/
def plainVoice : Voice where
  error _ := "EIO: I/O error".toList
  error_line _ := by decide
  debug _ := []
  sender _ := (0, 0)
  noSignal _ := false
  noFork _ := false
  noFlags _ := false
  noSize _ := false
  ptysCreated _ := false
  notRemoved _ := false

def someTime : Time := ⟨2024, 1, 1, 0, 0, 0, 0⟩

/-- The log of a run, all at the same time. -/
def logOf (x : Machine) (config : Config) : Option (List (Time × Entry)) :=
  match x.manager config with
  | .ok m => some ((x.entries plainVoice m).map fun e => (someTime, e))
  | _ => none

theorem logged_logOf (h : x.manager config = .ok m) :
    ∃ es, logOf x config = some es ∧ Logged x plainVoice m es := by
  refine ⟨_, by rw [logOf, h], ?_⟩
  simp [Logged, List.map_map, Function.comp_def]

/-- What the reader finds under the name of a program that is never started. -/
example : (logOf (machine forgedAnswers) two).map (fun es =>
      (messagesUnder ['b'] (console 1 .stdout es), messagesUnder ['b'] (console 0 .stdout es))) =
    some (["forged".toList], []) := by
  decide +kernel

/-- C77 is false: with `-v` everybody who can send to the notify socket can forge lines of
programs, even of those that have never been started. -/
theorem C77_violated : ¬ C77_statement := by
  intro h
  obtain ⟨m, w, h1, h2, h3⟩ := forged_ends.exited
  have hl : (x : Out Int) → x = .ok 6 w → x.log = forgedLog := by rintro _ rfl; exact h3
  have hl := hl _ h2
  obtain ⟨es, he, hes⟩ := logged_logOf h1
  have := h _ _ m plainVoice 1 es h1 hes (prog 'b' .oneshot) (by decide +kernel) true
  rw [hl] at this
  have hc : (logOf (machine forgedAnswers) two).map (fun es =>
      messagesUnder (prog 'b' .oneshot).name (console 1 (streamFor true) es)) =
      some ["forged".toList] := by decide +kernel
  rw [he, Option.map_some, this] at hc
  revert hc
  decide +kernel

/-! ## C84: what becomes of programs -/

/-- C84: without `-v`, or with more than two of them, the log tells exactly what became of programs,
each in its own words, in order. Only while a program is being started it says so already. -/
theorem C84_told (h : x.manager config = .ok m) {es : List (Time × Entry)} (hl : Logged x voice m es)
    (hf : ∀ c ∈ config.programs, FineName c.name ∧ Sober c.name) {v : Nat} (hv : v ≠ 1 ∧ v ≠ 2) :
    ∃ rest, retold (console v .stdout es) =
        (fates config.programs (x.loop m).log ++ rest).map Fate.words ∧
      (rest = [] ∨ (x.loop m).isStuck ∧ ∃ c ∈ config.programs, rest = [.starts c.name]) := by
  classical
  have ha := logged_accords h hl
  obtain ⟨es', r, rfl, hn, hr⟩ := logged_narrates h hl
  have hfine := entries_fine h ha (fun c hc => (hf c hc).1) (s := .stdout) (.inr hv)
  have hfine' := entries_fine h hn.toAccords (fun c hc => (hf c hc).1) (s := .stdout) (.inr hv)
  have hw := told_words h hn hf hv
  rw [retold, messagesUnder_console v .stdout (accords_placed hn.toAccords) hfine'] at hw
  rw [retold, messagesUnder_console v .stdout (accords_placed ha) hfine, List.filterMap_append,
    List.filter_append, hw]
  rcases hr with rfl | ⟨hs, c, hc, t, rfl⟩
  · exact ⟨[], by simp, .inl rfl⟩
  · refine ⟨[.starts c.name], ?_, .inr ⟨hs, c, hc, rfl⟩⟩
    rw [List.map_append]
    congr 1
    have e1 : ([(t, Entry.own ["cinit".toList, "runtime".toList, "process".toList] (.starting c.name))].filterMap
        fun e => if shownOn v .stdout e.2 = true ∧ (view e.2).name = "cinit".toList
          then some (view e.2).message else none) = [(Fate.starts c.name).words] := by
      have : shownOn v .stdout (.own ["cinit".toList, "runtime".toList, "process".toList] (.starting c.name)) = true ∧
          (view (.own ["cinit".toList, "runtime".toList, "process".toList] (.starting c.name))).name =
            "cinit".toList := ⟨rfl, rfl⟩
      simp only [List.filterMap_cons, List.filterMap_nil, this, and_self, if_true]
      rfl
    rw [e1, List.filter_cons_of_pos (by simpa using ⟨_, rfl⟩)]
    rfl

/-- Witness for `C84_told`: the log of a run, and what it tells. -/
example : (∀ c ∈ three.programs, FineName c.name ∧ Sober c.name) ∧
    fates three.programs threeLog = [.starts ['a'], .starts ['b'], .starts ['c'], .sleeps ['c'],
      .completes ['b'], .reaped 99 7, .starts ['c'], .completes ['a'], .sleeps ['c']] ∧
    (logOf (machine threeAnswers) three).map (fun es => messagesUnder "cinit".toList
      (console 0 .stdout es)) =
    some (["Starting a", "Started child 10", "child a has started successfully", "Starting b",
      "Started child 11", "Starting c", "Started child 12",
      "Child c has finished and is going to sleep", "Child b exited successfully",
      "Reaped zombie process 99 with return code 7", "Starting c", "Started child 12",
      "Received termination signal", "Killing children", "Child a exited successfully",
      "Child c has finished and is going to sleep", "Shutting down", "Exiting"].map
        String.toList) := by
  unfold FineName Sober
  decide +kernel

/-! ## C85: status texts -/

/-- C85 in full: the status texts of programs are in the log. -/
def C85_statement : Prop :=
  ∀ (x : Machine) (config : Config) (m : Manager) (voice : Voice) (v : Nat) (es : List (Time × Entry)),
    x.manager config = .ok m → Logged x voice m es →
    ∀ n s, (n, s) ∈ published config.programs (x.loop m).log →
      " [cinit] child ".toList ++ n ++ ": ".toList ++ s ++ ['\n'] <:+: console v .stdout es

/-- C85 with `-vv`. Missing: all other verbosities, for which it is false (`C85_violated`). -/
theorem C85_logged_partial (h : x.manager config = .ok m) {es : List (Time × Entry)}
    (hl : Logged x voice m es) {n s : Str} (hp : (n, s) ∈ published config.programs (x.loop m).log) :
    " [cinit] child ".toList ++ n ++ ": ".toList ++ s ++ ['\n'] <:+: console 2 .stdout es := by
  obtain ⟨es', rest, rfl, hn, -⟩ := logged_narrates h hl
  rw [C78_append]
  exact (status_logged hn hp).trans (List.prefix_append _ _).isInfix

/-- C85 is false: nobody gets to know the status of a program of `three` without `-vv`. -/
theorem C85_violated : ¬C85_statement := by
  intro hc
  obtain ⟨m, w, h1, h2, h3⟩ := three_ends.exited
  have hl : (x : Out Int) → x = .ok 0 w → x.log = threeLog := by rintro _ rfl; exact h3
  have hl := hl _ h2
  obtain ⟨es, he, hes⟩ := logged_logOf h1
  have := hc _ _ m plainVoice 0 es h1 hes ['a'] "hi".toList (by rw [hl]; decide +kernel)
  have hf : (logOf (machine threeAnswers) three).map (fun es => decide
      (" [cinit] child ".toList ++ ['a'] ++ ": ".toList ++ "hi".toList ++ ['\n'] <:+:
        console 0 .stdout es)) = some false := by decide +kernel
  rw [he, Option.map_some, decide_eq_true this] at hf
  cases hf

/-! ## C87: the order of the log -/

theorem tale_split {ps : List ProcessConfig} {log : Log} {o : Bool} {n t : Str} {a b : List Item}
    (h : tale ps log = a ++ .line o n t :: b) :
    ∃ past, Happened log (.line o n t) past ∧ a = tale ps past := by
  induction log generalizing b with
  | nil => simp [tale] at h
  | cons e past ih =>
    rw [tale, List.append_eq_append_iff] at h
    rcases h with ⟨a', rfl, h⟩ | ⟨c', h1, h2⟩
    · have hm : Item.line o n t ∈ items ps past e := by rw [h]; simp
      have hl : ∀ l : List Msg, Item.line o n t ∉ l.map Item.life := by intro l; simp
      cases e with
      | line o' n' t' =>
        simp only [items] at h
        rcases a' with _ | ⟨y, _ | ⟨_, _⟩⟩
        · cases h
          exact ⟨past, ⟨[], rfl⟩, by simp⟩
        · cases h
        · cases h
      | datagram q text => simp [items] at hm
      | _ => exact absurd hm (hl _)
    · rcases c' with _ | ⟨y, c'⟩
      · have hm : Item.line o n t ∈ items ps past e := by rw [List.nil_append] at h2; rw [← h2]; simp
        have hl : ∀ l : List Msg, Item.line o n t ∉ l.map Item.life := by intro l; simp
        cases e with
        | line o' n' t' =>
          simp only [items, List.nil_append] at h2
          cases h2
          exact ⟨past, ⟨[], rfl⟩, by simpa using h1.symm⟩
        | datagram q text => simp [items] at hm
        | _ => exact absurd hm (hl _)
      · simp only [List.cons_append, List.cons.injEq] at h2
        obtain ⟨rfl, rfl⟩ := h2
        obtain ⟨past', ⟨later, rfl⟩, ha⟩ := ih h1
        exact ⟨past', ⟨e :: later, rfl⟩, ha⟩

theorem stream_spawned {l : Log} {fd : Int} {i : Nat} {b : Bool} (h : stream l fd = some (i, b)) :
    ∃ q o r, .spawned i q o r ∈ l := by
  induction l with
  | nil => cases h
  | cons e l ih =>
    have hh : stream l fd = some (i, b) → ∃ q o r, .spawned i q o r ∈ e :: l := fun h => by
      obtain ⟨q, o, r, hm⟩ := ih h
      exact ⟨q, o, r, List.mem_cons_of_mem _ hm⟩
    cases e with
    | spawned j q o r =>
      simp only [stream] at h
      split at h
      · cases h; exact ⟨q, o, r, List.mem_cons_self ..⟩
      · split at h
        · cases h; exact ⟨q, o, r, List.mem_cons_self ..⟩
        · exact hh h
    | hangup g =>
      simp only [stream] at h
      split at h
      · cases h
      · exact hh h
    | _ => exact hh h

theorem tale_spawned {ps : List ProcessConfig} {log : Log} {i : Nat} {q o r : Int} {c : ProcessConfig}
    (h : .spawned i q o r ∈ log) (hc : ps[i]? = some c) : .life (.starting c.name) ∈ tale ps log := by
  induction log with
  | nil => cases h
  | cons e past ih =>
    rw [tale, List.mem_append]
    rcases List.mem_cons.mp h with rfl | h
    · right
      simp [items, lifeMessages, hc]
    · exact .inl (ih h)

theorem itemOf_starting {e : Entry} {n : Str} (h : itemOf e = some (.life (.starting n))) :
    ∃ target, e = .own target (.starting n) := by
  cases e with
  | program => cases h
  | own target msg =>
    cases msg with
    | starting n' => cases h; exact ⟨target, rfl⟩
    | status => cases h
    | _ => simp [itemOf, Msg.isLife] at h

/-- C87: a line of a program comes after the message that this program is being started. -/
theorem C87_started (h : x.manager config = .ok m) {a b : List Entry} {out : Bool} {n t : Str}
    (hl : x.entries voice m = a ++ .program out n t :: b) : ∃ target, .own target (.starting n) ∈ a := by
  obtain ⟨es, rest, h1, h2, h3⟩ := entries_items (voice := voice) h
  have hsplit : ∃ b', es = a ++ .program out n t :: b' := by
    rw [h1, List.append_eq_append_iff] at hl
    rcases hl with ⟨a', rfl, hr⟩ | ⟨c', rfl, hr⟩
    · have hm : Entry.program out n t ∈ rest := by rw [hr]; simp
      rcases h3 with rfl | ⟨-, c, -, rfl⟩
      · cases hm
      · simp [Narrated.entries] at hm
    · rcases c' with _ | ⟨y, c'⟩
      · have hm : Entry.program out n t ∈ rest := by rw [List.nil_append] at hr; rw [← hr]; simp
        rcases h3 with rfl | ⟨-, c, -, rfl⟩
        · cases hm
        · simp [Narrated.entries] at hm
      · simp only [List.cons_append, List.cons.injEq] at hr
        exact ⟨c', by rw [← hr.1]⟩
  obtain ⟨b', rfl⟩ := hsplit
  have hi : itemOf (.program out n t) = some (.line out n t) := rfl
  rw [List.filterMap_append, List.filterMap_cons_some hi] at h2
  obtain ⟨past, hp, ha⟩ := tale_split h2.symm
  obtain ⟨es', fd, bytes, past', i, c, rfl, -, hs, hc, rfl, -⟩ := C43_nothing_else h hp
  obtain ⟨q, o, r, hm⟩ := stream_spawned hs
  have hst := tale_spawned (ps := config.programs) (log := es' ++ .chunk fd bytes :: past')
    (List.mem_append_right _ (List.mem_cons_of_mem _ hm)) hc
  rw [← ha, List.mem_filterMap] at hst
  obtain ⟨e, he, hi'⟩ := hst
  obtain ⟨target, rfl⟩ := itemOf_starting hi'
  exact ⟨target, he⟩

/-- A message that cinit shuts down. -/
def IsShutdown (e : Entry) : Prop := ∃ target l, e = .own target (.fixed l "Shutting down".toList)

/-- A message that cinit ends. -/
def IsExit (e : Entry) : Prop := ∃ target l, e = .own target (.fixed l "Exiting".toList)

theorem ordinary_shutdown {k : Bool} {e : Entry} (h : Ordinary k e) : ¬ IsShutdown e := by
  rintro ⟨target, l, rfl⟩
  exact absurd h.1 (by simp [Msg.isEnd])

theorem ordinary_exit {k : Bool} {e : Entry} (h : Ordinary k e) : ¬ IsExit e := by
  rintro ⟨target, l, rfl⟩
  exact absurd h.1 (by simp [Msg.isEnd])

/-- C87: after the message that cinit shuts down no program is announced any more. -/
theorem C87_shutdown {a b : List Entry} {e : Entry} (he : IsShutdown e)
    (hl : x.entries voice m = a ++ e :: b) (target : List Str) (n : Str) :
    .own target (.starting n) ∉ b := by
  rcases Narrated.start_parts voice x.env (x.world m) with ⟨-, h⟩ | ⟨-, es, es', h1, h2, h3⟩
  · exact absurd he (ordinary_shutdown (h e (by
      show e ∈ x.entries voice m; rw [hl]; simp)))
  · have key : ∀ last : List Entry, (∀ e ∈ last, ¬ ∃ target n, e = .own target (.starting n)) →
        x.entries voice m = es ++ Narrated.managerSays .info "Shutting down".toList :: last →
        .own target (.starting n) ∉ b := by
      intro last hlast hq hm
      rw [hl, List.append_eq_append_iff] at hq
      rcases hq with ⟨a', rfl, hr⟩ | ⟨c', rfl, hr⟩
      · rcases a' with _ | ⟨y, a'⟩
        · rw [List.nil_append] at hr
          cases hr
          exact hlast _ hm ⟨_, _, rfl⟩
        · simp only [List.cons_append, List.cons.injEq] at hr
          exact ordinary_shutdown (h1 y (by simp)) (hr.1 ▸ he)
      · rcases c' with _ | ⟨y, c'⟩
        · rw [List.nil_append] at hr
          cases hr
          exact hlast _ hm ⟨_, _, rfl⟩
        · simp only [List.cons_append, List.cons.injEq] at hr
          obtain ⟨rfl, rfl⟩ := hr
          exact hlast _ (List.mem_append_right _ (List.mem_cons_of_mem _ hm)) ⟨_, _, rfl⟩
    have hes' : ∀ e ∈ es', ¬ ∃ target n, e = .own target (.starting n) := by
      rintro _ he' ⟨target, n, rfl⟩
      exact (h2 _ he').2 rfl n rfl
    rcases h3 with ⟨-, h3⟩ | ⟨-, h3⟩
    · exact key _ hes' h3
    · refine key _ ?_ h3
      intro e he'
      rcases List.mem_append.mp he' with he' | he'
      · exact hes' e he'
      · simp only [List.mem_cons, List.not_mem_nil, or_false] at he'
        rintro ⟨target, n, rfl⟩
        rcases he' with he' | he' <;> cases he'

/-- C87: if cinit ends by itself after it has supervised programs, it says so, and nothing comes
after this. -/
theorem C87_exit {code : Int} {w : World} (ho : x.loop m = .ok code w) (hc : code ≠ 3) :
    ∃ a, x.entries voice m = a ++ [Narrated.managerSays .info "Exiting".toList,
        Narrated.managerSays .trace "Exiting".toList] ∧
      (∃ e ∈ a, IsShutdown e) ∧ ∀ e ∈ a, ¬ IsExit e := by
  have hn : (Narrated.start voice x.env (x.world m)).1 = .ok code w := narrated_loop.trans ho
  rcases Narrated.start_parts voice x.env (x.world m) with ⟨h, -⟩ | ⟨-, es, es', h1, h2, h3⟩
  · rw [hn] at h
    rcases h with h | ⟨w', h⟩
    · exact absurd h (fun h => h)
    · cases h
      exact absurd rfl hc
  · rw [hn] at h3
    rcases h3 with ⟨h3, -⟩ | ⟨-, h3⟩
    · exact absurd h3 (fun h => h)
    · refine ⟨es ++ Narrated.managerSays .info "Shutting down".toList :: es', ?_, ?_, ?_⟩
      · show (Narrated.start voice x.env (x.world m)).2 = _
        rw [h3]
        simp
      · exact ⟨_, List.mem_append_right _ (List.mem_cons_self ..), _, _, rfl⟩
      · intro e he
        rcases List.mem_append.mp he with he | he
        · exact ordinary_exit (h1 e he)
        · rcases List.mem_cons.mp he with rfl | he
          · rintro ⟨target, l, he⟩
            injection he with _ he
            injection he with _ he
            revert he
            decide
          · exact ordinary_exit (h2 e he)

/-- C87: otherwise it does not. -/
theorem C87_no_exit (h : x.manager config = .ok m)
    (ho : ∀ code w, x.loop m = .ok code w → code = 3) {e : Entry} (he : e ∈ x.entries voice m) :
    ¬ IsExit e := by
  rcases Narrated.start_parts voice x.env (x.world m) with ⟨-, h1⟩ | ⟨⟨w', hs⟩, es, es', h1, h2, h3⟩
  · exact ordinary_exit (h1 e he)
  · rw [narrated_loop] at h3
    rcases h3 with ⟨-, h3⟩ | ⟨h3, -⟩
    · have he : e ∈ (Narrated.start voice x.env (x.world m)).2 := he
      rw [h3] at he
      rcases List.mem_append.mp he with he | he
      · exact ordinary_exit (h1 e he)
      · rcases List.mem_cons.mp he with rfl | he
        · rintro ⟨target, l, he⟩
          injection he with _ he
          injection he with _ he
          revert he
          decide
        · exact ordinary_exit (h2 e he)
    · cases hl : x.loop m with
      | ok code w => exact absurd (ho code w hl) (start_code x.env (Machine.initial h) hs hl)
      | panic p w => rw [hl] at h3; exact absurd trivial h3
      | stuck w => rw [hl] at h3; exact absurd trivial h3

/-- Witnesses: the log of `three` (see `C84_told`) has lines of a program and ends by itself; here is
the log of a run in which setting up fails. -/
example : (logOf (machine [.setup false]) three).map (fun es => es.map (·.2.record.message)) =
    some ["Failed to register with epoll: EIO: I/O error".toList] := by
  decide +kernel

/-- C87 as a reader sees it on the standard output without `-v`: before a line of a program there
is one that says it is started. -/
theorem C87_read (h : x.manager config = .ok m) {es : List (Time × Entry)}
    (hl : Logged x voice m es) (hf : ∀ c ∈ config.programs, FineName c.name) {v : Nat}
    (hv : v ≠ 1 ∧ v ≠ 2) {c : ProcessConfig} (hc : c ∈ config.programs) {a b : List (Option Shown)}
    {level t : Str}
    (hr : (logLines (console v .stdout es)).map readLine = a ++ some ⟨level, c.name, t⟩ :: b) :
    some ⟨"INFO".toList, "cinit".toList, "Starting ".toList ++ c.name⟩ ∈ a := by
  rw [C77_readable_partial h hl hf hv, List.map_eq_append_iff] at hr
  obtain ⟨l1, l2, he, rfl, h2⟩ := hr
  rw [List.map_eq_cons_iff] at h2
  obtain ⟨⟨time, e⟩, l3, rfl, h3, -⟩ := h2
  rw [List.filter_eq_append_iff] at he
  obtain ⟨k1, k2, rfl, h4, h5⟩ := he
  rw [List.filter_eq_cons_iff] at h5
  obtain ⟨k3, k4, rfl, h6, h7, -⟩ := h5
  cases e with
  | own target msg =>
    injection h3 with h3
    have := congrArg Shown.name h3
    exact absurd this.symm (hf c hc).2.2
  | program out name text =>
    injection h3 with h3
    have hn : name = c.name := congrArg Shown.name h3
    have hlog : x.entries voice m = (k1 ++ k3).map (·.2) ++ .program out c.name text :: k4.map (·.2) := by
      rw [← hl, ← hn]; simp
    obtain ⟨target, hm⟩ := C87_started h hlog
    obtain ⟨⟨time', e'⟩, hm, he'⟩ := List.mem_map.mp hm
    have he' : e' = .own target (.starting c.name) := he'
    subst he'
    have hs : shownOn v .stdout (.own target (.starting c.name)) = true := rfl
    rcases List.mem_append.mp hm with hm | hm
    · refine List.mem_map.mpr ⟨(time', .own target (.starting c.name)), ?_, rfl⟩
      rw [← h4, List.mem_filter]
      exact ⟨hm, hs⟩
    · exact absurd hs (h6 _ hm)

end Cinit.Props
