import Verif.Proofs.Numbers
import Verif.Props.Output
import Verif.Proofs.Logging
/-!
# C77, C78: the log
-/

namespace Cinit.Props

open Cinit Spec Logging

/-- The stream of cinit that output of programs is logged to. -/
def streamFor (out : Bool) : Stream := if out then .stdout else .stderr

/-! ## C77: the log can be read -/

/-- Names that do not confuse readers of the log. -/
def FineName (n : Str) : Prop := '\n' ∉ n ∧ ']' ∉ n ∧ n ≠ "cinit".toList

theorem accords_placed {names : List Str} {log : Log} {es : List (Time × Entry)}
    (h : Accords names log es) : Placed es := fun t target msg hm => (h.own t target msg hm).1

/-- Lines of programs are one line, under the name of a program. -/
theorem entry_program {x : Machine} {config : Config} {m : Manager} {es : List (Time × Entry)}
    (h : x.manager config = .ok m) (ha : Accords (config.programs.map (·.name)) (x.loop m).log es)
    {t : Time} {out : Bool} {name text : Str} (he : (t, .program out name text) ∈ es) :
    name ∈ config.programs.map (·.name) ∧ '\n' ∉ text := by
  have h1 : Entry.program out name text ∈ programEntries (x.loop m).log := by
    rw [← ha.programs, List.mem_filter]
    exact ⟨List.mem_map.mpr ⟨_, he, rfl⟩, rfl⟩
  obtain ⟨o, n, t', h2, h3⟩ := mem_programEntries.mp h1
  cases h2
  obtain ⟨later, past, hl⟩ := List.append_of_mem h3
  obtain ⟨_, _, b, _, i, c, -, -, -, hc, hn, ht⟩ := C43_nothing_else h ⟨later, hl⟩
  exact ⟨List.mem_map.mpr ⟨c, List.mem_of_getElem? hc, hn⟩, not_mem_lines ht⟩

theorem entries_fine {x : Machine} {config : Config} {m : Manager} {es : List (Time × Entry)}
    (h : x.manager config = .ok m) (ha : Accords (config.programs.map (·.name)) (x.loop m).log es)
    (hf : ∀ c ∈ config.programs, FineName c.name) {v : Nat} {s : Stream}
    (hv : s = .stderr ∨ (v ≠ 1 ∧ v ≠ 2)) :
    ∀ e ∈ es, shownOn v s e.2 = true → ']' ∉ (view e.2).name ∧ '\n' ∉ (view e.2).name ∧
      '\n' ∉ (view e.2).message := by
  rintro ⟨t, e⟩ he hs
  cases e with
  | program out name text =>
    obtain ⟨hn, ht⟩ := entry_program h ha he
    obtain ⟨c, hc, rfl⟩ := List.mem_map.mp hn
    exact ⟨(hf c hc).2.1, (hf c hc).1, ht⟩
  | own target msg =>
    rcases hv with rfl | hv
    · simp [shownOn] at hs
    · refine ⟨by show ']' ∉ "cinit".toList; decide, by show '\n' ∉ "cinit".toList; decide, ?_⟩
      refine possible_oneline ?_ (ha.own _ _ _ he).2 ?_
      · rintro n hn
        obtain ⟨c, hc, rfl⟩ := List.mem_map.mp hn
        exact (hf c hc).1
      · intro hd
        simp [shownOn, hd, wanted, hv.1, hv.2] at hs

/-- Without `-v`, or with more than two of them: every line of the log is exactly one message,
and says its level, its origin and its text. -/
theorem readable {x : Machine} {config : Config} {m : Manager}
    {es : List (Time × Entry)} (h : x.manager config = .ok m)
    (ha : Accords (config.programs.map (·.name)) (x.loop m).log es)
    (hf : ∀ c ∈ config.programs, FineName c.name) {v : Nat} (hv : v ≠ 1 ∧ v ≠ 2) (s : Stream) :
    (logLines (console v s es)).map readLine =
      (es.filter (fun e => shownOn v s e.2)).map (fun e => some (view e.2)) :=
  read_console v s (accords_placed ha) (entries_fine h ha hf (.inr hv))

theorem filterMap_programs (f : Entry → Option Str) (hf : ∀ target msg, f (.own target msg) = none)
    (es : List (Time × Entry)) :
    es.filterMap (fun e => f e.2) = ((es.map (·.2)).filter ofProgram).filterMap f := by
  induction es with
  | nil => rfl
  | cons e es ih =>
    obtain ⟨t, e⟩ := e
    cases e with
    | program out name text =>
      simp only [List.map_cons, List.filter_cons, ofProgram, if_true, List.filterMap_cons, ih]
    | own target msg =>
      simp only [List.map_cons, List.filter_cons, ofProgram, Bool.false_eq_true, if_false,
        List.filterMap_cons, hf, ih]

theorem messages_of_program {x : Machine} {config : Config} {m : Manager}
    {es : List (Time × Entry)} (h : x.manager config = .ok m)
    (ha : Accords (config.programs.map (·.name)) (x.loop m).log es)
    (hf : ∀ c ∈ config.programs, FineName c.name) {v : Nat} {out : Bool}
    (hv : streamFor out = .stderr ∨ (v ≠ 1 ∧ v ≠ 2)) {c : ProcessConfig}
    (hc : c ∈ config.programs) :
    messagesUnder c.name (console v (streamFor out) es) =
      linesLogged c.name out (x.loop m).log := by
  rw [messagesUnder_console v _ (accords_placed ha) (entries_fine h ha hf hv), linesLogged_eq,
    ← ha.programs, ← filterMap_programs _ (fun _ _ => rfl)]
  congr 1
  funext e
  obtain ⟨t, e⟩ := e
  cases e with
  | program o n t =>
    cases o <;> cases out <;> simp [shownOn, streamFor, view]
  | own target msg =>
    have : "cinit".toList ≠ c.name := fun e => (hf c hc).2.2 e.symm
    exact if_neg (fun hh => this hh.2)

/-- Without `-v`: under the name of a program a reader finds exactly its lines. -/
theorem program_lines {x : Machine} {config : Config} {m : Manager}
    {es : List (Time × Entry)} (h : x.manager config = .ok m)
    (ha : Accords (config.programs.map (·.name)) (x.loop m).log es)
    (hf : ∀ c ∈ config.programs, FineName c.name) {v : Nat} (hv : v ≠ 1 ∧ v ≠ 2)
    {c : ProcessConfig} (hc : c ∈ config.programs) (out : Bool) :
    messagesUnder c.name (console v (streamFor out) es) = linesLogged c.name out (x.loop m).log :=
  messages_of_program h ha hf (.inr hv) hc

/-- The standard error, however verbose. -/
theorem stderr_lines {x : Machine} {config : Config} {m : Manager}
    {es : List (Time × Entry)} (h : x.manager config = .ok m)
    (ha : Accords (config.programs.map (·.name)) (x.loop m).log es)
    (hf : ∀ c ∈ config.programs, FineName c.name) (v : Nat)
    {c : ProcessConfig} (hc : c ∈ config.programs) :
    messagesUnder c.name (console v .stderr es) = linesLogged c.name false (x.loop m).log :=
  messages_of_program (out := false) h ha hf (.inl rfl) hc

/-- A process that cinit does not know sends a message of two lines. -/
def forged : Str := "\n2024-01-01T00:00:00.000 INFO [b] forged\n".toList

def forgedAnswers : List Answer :=
  [.setup true, .fork (some (10, 20, 21)), .epollAdd true, .epollAdd true, .now 1,
   .epoll (some [⟨5, true, false⟩, ⟨20, false, true⟩, ⟨21, false, true⟩]),
   .recv (some (forged.map Char.toNat, some 99)),
   .wait (.exited 10 1), .wait .error]

/-- Program `b` is never started. -/
def forgedLog : Log :=
  [.exit 6, .reaped, .waited 10 1 (some 0), .hangup 21, .ready ⟨21, false, true⟩,
   .hangup 20, .ready ⟨20, false, true⟩, .datagram 99 forged, .received (forged.map Char.toNat),
   .ready ⟨5, true, false⟩,
   .polled [⟨5, true, false⟩, ⟨20, false, true⟩, ⟨21, false, true⟩], .polling, .clock 1,
   .watched 21 true, .watched 20 true, .spawned 0 10 20 21]

theorem forged_ends : Ends (machine forgedAnswers) two (.exited 6 forgedLog) :=
  Res.of_check (by decide +kernel)

/-- A program may also be called `cinit`, so its lines look like those of cinit. -/
theorem C77_impostor (v : Nat) (t : Time) :
    console v .stdout [(t, .program true "cinit".toList "Exiting".toList)] =
      console v .stdout [(t, .own ["cinit".toList] (.fixed .info "Exiting".toList))] := by
  rw [console_eq v _ (fun _ _ _ h => by simp at h), console_eq v _ (fun _ _ _ h => by
    rw [List.mem_singleton] at h
    cases h
    decide +kernel)]
  rfl

/-! ## C78: program output and verbosity -/

/-- C78: every line of a program is written once, in the documented format, to the stream it
belongs to, however verbose cinit is. -/
theorem C78_line (v : Nat) (t : Time) (out : Bool) (name text : Str) (s : Stream) :
    console v s [(t, .program out name text)] =
      if s = streamFor out then
        t.show ++ " INFO [".toList ++ name ++ "] ".toList ++ text ++ ['\n']
      else [] := by
  rw [console_eq v s (fun _ _ _ h => by simp at h)]
  cases s <;> cases out <;> simp [shownOn, streamFor, lineOf, view]

/-- C78: a message of cinit is written once, to the standard output, if its level is wanted. -/
theorem C78_own (v : Nat) (t : Time) {target : List Str} (h : target ∈ ownTargets) (msg : Msg)
    (s : Stream) :
    console v s [(t, .own target msg)] =
      if s = .stdout ∧ wanted v msg.level then
        t.show ++ ' ' :: msg.level.show ++ " [cinit] ".toList ++ msg.text ++ ['\n']
      else [] := by
  rw [console_eq v s (fun _ _ _ hm => by
    rw [List.mem_singleton] at hm; cases hm; exact h)]
  cases s <;> by_cases hw : wanted v msg.level = true <;> simp [shownOn, lineOf, view, hw]

/-- C78: messages do not disturb each other. -/
theorem C78_append (v : Nat) (s : Stream) (es es' : List (Time × Entry)) :
    console v s (es ++ es') = console v s es ++ console v s es' := List.flatMap_append

/-- C78: the standard error does not depend on the verbosity. -/
theorem C78_stderr (v v' : Nat) {es : List (Time × Entry)}
    (h : ∀ t target msg, (t, .own target msg) ∈ es → target ∈ ownTargets) :
    console v .stderr es = console v' .stderr es := by
  rw [console_eq v _ h, console_eq v' _ h]
  rfl

private theorem pad_step {w : Nat} (hw : 0 < w) (n : Nat) :
    pad (w + 1) n = pad w (n / 10) ++ [Char.ofNat (48 + n % 10)] := by
  have hd : n % 10 < 10 := Nat.mod_lt _ (by decide)
  by_cases h0 : n / 10 = 0
  · have hn : n < 10 := by omega
    rw [h0, Nat.mod_eq_of_lt hn]
    simp only [pad, showNat_digit hn, showNat_digit (d := 0) (by decide)]
    obtain ⟨v, rfl⟩ : ∃ v, w = v + 1 := ⟨w - 1, by omega⟩
    simp only [List.length_singleton, Nat.add_sub_cancel, List.replicate_succ']
  · have := showNat_snoc h0 hd
    rw [Nat.div_add_mod] at this
    simp only [pad, this, List.length_append, List.length_singleton, List.append_assoc]
    congr 2
    omega

private theorem pad_one {n : Nat} (h : n < 10) : pad 1 n = [Char.ofNat (48 + n)] := by
  simp [pad, showNat_digit h]

/-- C78: times are shown with year, month, day, hour, minute, second and milliseconds, all digit
by digit with fixed numbers of them. -/
theorem C78_time (t : Time) (hy : t.year < 10000) (hmo : t.month < 100) (hd : t.day < 100)
    (hh : t.hour < 100) (hmi : t.minute < 100) (hs : t.second < 100) (hm : t.milli < 1000) :
    let digit (n : Nat) : Char := Char.ofNat (48 + n % 10)
    t.show =
      [digit (t.year / 1000), digit (t.year / 100), digit (t.year / 10), digit t.year, '-',
        digit (t.month / 10), digit t.month, '-', digit (t.day / 10), digit t.day, 'T',
        digit (t.hour / 10), digit t.hour, ':', digit (t.minute / 10), digit t.minute, ':',
        digit (t.second / 10), digit t.second, '.',
        digit (t.milli / 100), digit (t.milli / 10), digit t.milli] := by
  have two : ∀ n, n < 100 → pad 2 n = [Char.ofNat (48 + n / 10 % 10), Char.ofNat (48 + n % 10)] := by
    intro n hn
    rw [pad_step (by decide), pad_one (by omega), Nat.mod_eq_of_lt (a := n / 10) (by omega)]
    rfl
  have three : ∀ n, n < 1000 → pad 3 n = [Char.ofNat (48 + n / 100 % 10),
      Char.ofNat (48 + n / 10 % 10), Char.ofNat (48 + n % 10)] := by
    intro n hn
    rw [pad_step (by decide), two _ (by omega), Nat.div_div_eq_div_mul]
    rfl
  have four : ∀ n, n < 10000 → pad 4 n = [Char.ofNat (48 + n / 1000 % 10),
      Char.ofNat (48 + n / 100 % 10), Char.ofNat (48 + n / 10 % 10), Char.ofNat (48 + n % 10)] := by
    intro n hn
    rw [pad_step (by decide), three _ (by omega), Nat.div_div_eq_div_mul, Nat.div_div_eq_div_mul]
    rfl
  intro digit
  rw [Time.show, four _ hy, two _ hmo, two _ hd, two _ hh, two _ hmi, two _ hs, three _ hm]
  rfl

/-- A time as in the documentation. -/
example : (Time.mk 1970 11 23 13 25 44 567).show = "1970-11-23T13:25:44.567".toList := by
  decide +kernel

end Cinit.Props
