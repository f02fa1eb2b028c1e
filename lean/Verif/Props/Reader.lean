import Verif.Proofs.Yaml
/-!
# C100: the status report can be read
-/

namespace Cinit.Props

open Cinit Spec Spec.Yaml

/-- The keys of which the values are written in quotes. -/
def quotedKeys : List Str := ["name".toList, "state".toList, "scheduled_at".toList]

/-- A field the way it is written. -/
def asWritten (f : Str × Str) : Str × Str :=
  (f.1, if f.1 ∈ quotedKeys then ' ' :: '\'' :: (f.2 ++ ['\'']) else ' ' :: f.2)

/-- All a status report has to say. -/
def reportedAll (ps : List ProcessConfig) (l : Log) (shown : Nat → Bool) (plan : Nat → Str) :
    List (List (Str × Str)) :=
  (enumerate ps).map fun p => reported ps l shown plan p.1 p.2.name

theorem reportLines_asWritten (ps : List ProcessConfig) (l : Log) (shown : Nat → Bool)
    (plan : Nat → Str) (i : Nat) (name : Str) :
    reportLines ps l shown plan i name = itemLines ((reported ps l shown plan i name).map asWritten) := by
  have q1 : "name".toList ∈ quotedKeys := by decide
  have q2 : "state".toList ∈ quotedKeys := by decide
  have q3 : "status".toList ∉ quotedKeys := by decide
  have q4 : "exit_code".toList ∉ quotedKeys := by decide
  have q5 : "pid".toList ∉ quotedKeys := by decide
  have q6 : "scheduled_at".toList ∈ quotedKeys := by decide
  have e1 : "  - name: '".toList = [' ', ' ', '-', ' '] ++ ("name".toList ++ [':', ' ', '\'']) := by
    decide
  have e2 : "    state: '".toList = [' ', ' ', ' ', ' '] ++ ("state".toList ++ [':', ' ', '\'']) := by
    decide
  have e3 : "    status: ".toList = [' ', ' ', ' ', ' '] ++ ("status".toList ++ [':', ' ']) := by
    decide
  have e4 : "    exit_code: 0".toList = [' ', ' ', ' ', ' '] ++ ("exit_code".toList ++ [':', ' ', '0']) := by
    decide
  have e5 : "    exit_code: ".toList = [' ', ' ', ' ', ' '] ++ ("exit_code".toList ++ [':', ' ']) := by
    decide
  have e6 : "    pid: ".toList = [' ', ' ', ' ', ' '] ++ ("pid".toList ++ [':', ' ']) := by
    decide
  have e7 : "    scheduled_at: '".toList =
      [' ', ' ', ' ', ' '] ++ ("scheduled_at".toList ++ [':', ' ', '\'']) := by
    decide
  unfold reportLines reported
  rw [e1, e2, e3, e4, e5, e6, e7]
  generalize "name".toList = k1 at *
  generalize "state".toList = k2 at *
  generalize "status".toList = k3 at *
  generalize "exit_code".toList = k4 at *
  generalize "pid".toList = k5 at *
  generalize "scheduled_at".toList = k6 at *
  simp only [List.cons_append, List.nil_append, List.map_cons, List.map_append, itemLines_cons]
  cases state ps l i <;> by_cases h1 : status ps l i = [] <;> by_cases h2 : shown i = true <;>
    by_cases h3 : isCronjob ps i <;>
    simp [asWritten, q1, q2, q3, q4, q5, q6, h1, h2, h3]

/-- The report is the document of the fields the way they are written. -/
theorem report_document (ps : List ProcessConfig) (l : Log) (shown : Nat → Bool)
    (plan : Nat → Str) : reportText ps l shown plan =
      document ((reportedAll ps l shown plan).map (·.map asWritten)) := by
  unfold reportText document reportedAll
  rw [List.map_map, List.flatMap_map]
  congr 2
  apply List.flatMap_congr
  rintro ⟨i, c⟩ -
  exact reportLines_asWritten ..

theorem reported_facts {ps : List ProcessConfig} {l : Log} {shown : Nat → Bool} {plan : Nat → Str}
    {i : Nat} {name : Str} {f : Str × Str} (hf : f ∈ reported ps l shown plan i name) :
    f = ("name".toList, name) ∨ f = ("state".toList, word (state ps l i)) ∨
    (f = ("status".toList, status ps l i) ∧ status ps l i ≠ []) ∨
    (∃ z, f = ("exit_code".toList, showInt z)) ∨ (∃ z, f = ("pid".toList, showInt z)) ∨
    (f = ("scheduled_at".toList, plan i) ∧ isCronjob ps i) := by
  unfold reported at hf
  simp only [List.mem_append, List.mem_cons, List.not_mem_nil, or_false] at hf
  rcases hf with (((((h | h) | h) | h) | h) | h)
  · exact .inl h
  · exact .inr (.inl h)
  · split at h
    · cases h
    · exact .inr (.inr (.inl ⟨List.mem_singleton.mp h, by assumption⟩))
  · refine .inr (.inr (.inr (.inl ?_)))
    split at h
    · exact ⟨0, List.mem_singleton.mp h⟩
    · exact ⟨_, List.mem_singleton.mp h⟩
    · cases h
  · split at h
    · exact .inr (.inr (.inr (.inr (.inl ⟨_, List.mem_singleton.mp h⟩))))
    · cases h
  · split at h
    · exact .inr (.inr (.inr (.inr (.inr ⟨List.mem_singleton.mp h, by assumption⟩))))
    · cases h

theorem reported_name (ps : List ProcessConfig) (l : Log) (shown : Nat → Bool) (plan : Nat → Str)
    (i : Nat) (name : Str) : ("name".toList, name) ∈ reported ps l shown plan i name := by
  unfold reported; simp only [List.mem_append, List.mem_cons, true_or]

theorem reported_status {ps : List ProcessConfig} {l : Log} {i : Nat} (h : status ps l i ≠ [])
    (shown : Nat → Bool) (plan : Nat → Str) (name : Str) :
    ("status".toList, status ps l i) ∈ reported ps l shown plan i name := by
  unfold reported
  simp only [List.mem_append, if_neg h, List.mem_singleton, true_or, or_true]

theorem keys_letters {ps : List ProcessConfig} {l : Log} {shown : Nat → Bool} {plan : Nat → Str}
    {i : Nat} {name : Str} {f : Str × Str} (hf : f ∈ reported ps l shown plan i name) :
    ∀ c ∈ f.1, keyChar c = true := by
  have h1 : ∀ c ∈ "name".toList, keyChar c = true := by decide
  have h2 : ∀ c ∈ "state".toList, keyChar c = true := by decide
  have h3 : ∀ c ∈ "status".toList, keyChar c = true := by decide
  have h4 : ∀ c ∈ "exit_code".toList, keyChar c = true := by decide
  have h5 : ∀ c ∈ "pid".toList, keyChar c = true := by decide
  have h6 : ∀ c ∈ "scheduled_at".toList, keyChar c = true := by decide
  rcases reported_facts hf with rfl | rfl | ⟨rfl, -⟩ | ⟨z, rfl⟩ | ⟨z, rfl⟩ | ⟨rfl, -⟩ <;> assumption

/-- A text that can stand between apostrophes. -/
def Quotable (v : Str) : Prop := (∀ c ∈ v, printable c = true) ∧ '\'' ∉ v

instance (v : Str) : Decidable (Quotable v) := by unfold Quotable; infer_instance

theorem asWritten_quoted {k v : Str} (h : k ∈ quotedKeys) :
    (asWritten (k, v)).2 = ' ' :: '\'' :: (v ++ ['\'']) := if_pos h

theorem asWritten_bare {k v : Str} (h : k ∉ quotedKeys) : (asWritten (k, v)).2 = ' ' :: v := if_neg h

/-- When each field is read the way it is meant. -/
theorem fields_iff {ps : List ProcessConfig} {l : Log} {shown : Nat → Bool} {plan : Nat → Str}
    {i : Nat} {name : Str} (hplan : isCronjob ps i → Quotable (plan i)) :
    (∀ f ∈ reported ps l shown plan i name, Field (asWritten f) f) ↔
      Quotable name ∧ (status ps l i ≠ [] → plain (status ps l i) = true) := by
  have q1 : "name".toList ∈ quotedKeys := by decide
  have q2 : "state".toList ∈ quotedKeys := by decide
  have q3 : "status".toList ∉ quotedKeys := by decide
  have q4 : "exit_code".toList ∉ quotedKeys := by decide
  have q5 : "pid".toList ∉ quotedKeys := by decide
  have q6 : "scheduled_at".toList ∈ quotedKeys := by decide
  constructor
  · intro h
    refine ⟨?_, fun hs => ?_⟩
    · have := (h _ (reported_name ps l shown plan i name)).2.2
      rw [asWritten_quoted q1] at this
      exact value_quoted.mp this
    · have := (h _ (reported_status hs shown plan name)).2.2
      rw [asWritten_bare q3] at this
      exact value_bare.mp this
  · rintro ⟨h1, h2⟩ f hf
    refine ⟨rfl, keys_letters (f := f) hf, ?_⟩
    rcases reported_facts hf with rfl | rfl | ⟨rfl, hs⟩ | ⟨z, rfl⟩ | ⟨z, rfl⟩ | ⟨rfl, hc⟩
    · rw [asWritten_quoted q1]
      exact value_quoted.mpr h1
    · rw [asWritten_quoted q2]
      refine value_quoted.mpr ?_
      cases state ps l i <;> exact of_decide_eq_true rfl
    · rw [asWritten_bare q3]
      exact value_bare.mpr (h2 hs)
    · rw [asWritten_bare q4]
      exact value_bare.mpr (plain_showInt z)
    · rw [asWritten_bare q5]
      exact value_bare.mpr (plain_showInt z)
    · rw [asWritten_quoted q6]
      exact value_quoted.mpr (hplan hc)

theorem asWritten_clean {ps : List ProcessConfig} {l : Log} {shown : Nat → Bool} {plan : Nat → Str}
    (hn : ∀ c ∈ ps, '\n' ∉ c.name) (hp : ∀ i, isCronjob ps i → '\n' ∉ plan i) :
    Clean ((reportedAll ps l shown plan).map (·.map asWritten)) := by
  constructor
  · intro hm
    obtain ⟨it, h1, h2⟩ := List.mem_map.mp hm
    obtain ⟨⟨i, c⟩, -, rfl⟩ := List.mem_map.mp h1
    have := List.map_eq_nil_iff.mp h2
    have h3 := reported_name ps l shown plan i c.name
    rw [this] at h3
    cases h3
  · intro it hit f hf
    obtain ⟨it, h1, rfl⟩ := List.mem_map.mp hit
    obtain ⟨g, hg, rfl⟩ := List.mem_map.mp hf
    obtain ⟨⟨i, c⟩, hm, rfl⟩ := List.mem_map.mp h1
    have hc : '\n' ∉ c.name := by
      apply hn
      have : c ∈ (enumerate ps).map Prod.snd := List.mem_map_of_mem hm
      rwa [map_snd_enumerate] at this
    refine ⟨keys_letters (f := g) hg, ?_⟩
    have hv : '\n' ∉ g.2 := by
      rcases reported_facts hg with rfl | rfl | ⟨rfl, hs⟩ | ⟨z, rfl⟩ | ⟨z, rfl⟩ | ⟨rfl, hc⟩
      · exact hc
      · show '\n' ∉ word (state ps l i)
        cases state ps l i <;> exact of_decide_eq_true rfl
      · exact status_plain ps l i
      · exact showInt_plain z
      · exact showInt_plain z
      · exact hp i hc
    unfold asWritten
    split <;> simp [hv]

theorem reads_printable {text : Str} {d : List (List (Str × Str))} (h : Reads text d) :
    ∀ it ∈ d, ∀ f ∈ it, '\n' ∉ f.2 := by
  obtain ⟨raw, h1, -, -⟩ := h
  intro it hit f hf hn
  obtain ⟨it', -, h2⟩ := forall₂_mem_left (List.Forall₂.flip h1) hit
  obtain ⟨f', -, h3⟩ := forall₂_mem_left (List.Forall₂.flip h2) hf
  exact printable_ne ((value_printable h3.2.2).2 _ hn) rfl

variable {x : Machine} {config : Config} {m : Manager} (h : x.manager config = .ok m)

include h

/-- C100: exactly when the status report is read the way it is meant: if and only if no name of a
program contains an apostrophe or characters that cannot be printed, and each status text is one
that may be written without quotes. Missing is that the other names and status texts are read as
well, see `C100_violated`. Instants are assumed to be rendered without apostrophes. -/
theorem C100_exact_partial {text : Str} {past : Log}
    (he : Happened (x.loop m).log (.report text) past) (htime : ∀ t, Quotable (x.env.rfc3339 t)) :
    ∃ shown plan, text = reportText config.programs past shown plan ∧
      (Reads text (reportedAll config.programs past shown plan) ↔
        (∀ c ∈ config.programs, Quotable c.name) ∧
        ∀ i, i < config.programs.length → status config.programs past i ≠ [] →
          plain (status config.programs past i) = true) := by
  obtain ⟨shown, plan, h1, -, h3⟩ := C44_report_partial h he
  have hplan : ∀ i, isCronjob config.programs i → Quotable (plan i) := by
    intro i hi
    obtain ⟨_, t, -, -, h4⟩ := h3 i hi
    rw [h4]
    exact htime t
  refine ⟨shown, plan, h1, ?_⟩
  have hall : (∀ it ∈ reportedAll config.programs past shown plan, ∀ f ∈ it, Field (asWritten f) f) ↔
      (∀ c ∈ config.programs, Quotable c.name) ∧
        ∀ i, i < config.programs.length → status config.programs past i ≠ [] →
          plain (status config.programs past i) = true := by
    constructor
    · intro hf
      have hi : ∀ i c, config.programs[i]? = some c → Quotable c.name ∧
          (status config.programs past i ≠ [] → plain (status config.programs past i) = true) := by
        intro i c hc
        exact (fields_iff (hplan i)).mp (hf _ (List.mem_map_of_mem (mem_enumerate.mpr hc)))
      constructor
      · intro c hc
        obtain ⟨i, hi'⟩ := List.mem_iff_getElem?.mp hc
        exact (hi i c hi').1
      · intro i hl
        exact (hi i _ (List.getElem?_eq_getElem hl)).2
    · rintro ⟨g1, g2⟩ it hit
      obtain ⟨⟨i, c⟩, hm, rfl⟩ := List.mem_map.mp hit
      have hc := mem_enumerate.mp hm
      exact (fields_iff (hplan i)).mpr ⟨g1 c (List.mem_of_getElem? hc),
        g2 i (List.getElem?_eq_some_iff.mp hc).1⟩
  rw [← hall]
  have h1' : text = document ((reportedAll config.programs past shown plan).map (·.map asWritten)) :=
    h1.trans (report_document ..)
  have hclean : (∀ it ∈ reportedAll config.programs past shown plan, ∀ f ∈ it, '\n' ∉ f.2) →
      Clean ((reportedAll config.programs past shown plan).map (·.map asWritten)) := by
    intro hn
    apply asWritten_clean
    · intro c hc
      rw [← map_snd_enumerate config.programs] at hc
      obtain ⟨p, hp, rfl⟩ := List.mem_map.mp hc
      exact hn _ (List.mem_map_of_mem hp) _ (reported_name ..)
    · intro i hi hm
      exact printable_ne ((hplan i hi).1 _ hm) rfl
  have hsame : List.Forall₂ (List.Forall₂ Field)
      ((reportedAll config.programs past shown plan).map (·.map asWritten))
      (reportedAll config.programs past shown plan) ↔
      ∀ it ∈ reportedAll config.programs past shown plan, ∀ f ∈ it, Field (asWritten f) f := by
    rw [List.forall₂_map_left_iff, List.forall₂_same]
    simp only [List.forall₂_map_left_iff, List.forall₂_same]
  constructor
  · intro hr
    rw [← hsame, ← reads_document (hclean (reads_printable hr)), ← h1']
    exact hr
  · intro hf
    rw [h1', reads_document, hsame]
    · exact hf
    · apply hclean
      intro it hit f hm hn
      exact printable_ne ((value_printable (hf it hit f hm).2.2).2 _ hn) rfl

/-- C100: one status text that is no scalar, and nothing of the report can be read. -/
theorem C100_unreadable {text : Str} {past : Log}
    (he : Happened (x.loop m).log (.report text) past)
    (hnames : ∀ c ∈ config.programs, '\n' ∉ c.name) (htime : ∀ t, '\n' ∉ x.env.rfc3339 t)
    {i : Nat} (hi : i < config.programs.length) {a b : Str}
    (hs : status config.programs past i = a ++ ':' :: ' ' :: b)
    (h0 : ∀ c, (a ++ [':']).head? = some c → white c = false ∧ c ≠ '\'')
    (h1 : '#' ∉ status config.programs past i) (d : List (List (Str × Str))) : ¬ Reads text d := by
  obtain ⟨shown, plan, g1, -, g3⟩ := C44_report_partial h he
  have hclean : Clean ((reportedAll config.programs past shown plan).map (·.map asWritten)) := by
    apply asWritten_clean hnames
    intro i hi
    obtain ⟨_, t, -, -, h4⟩ := g3 i hi
    rw [h4]
    exact htime t
  intro hr
  rw [g1] at hr
  have hr : Reads (reportText config.programs past shown plan) d := hr
  rw [report_document, reads_document hclean] at hr
  have hne : status config.programs past i ≠ [] := by rw [hs]; simp
  have hit : reported config.programs past shown plan i (config.programs[i].name) ∈
      reportedAll config.programs past shown plan := by
    refine List.mem_map.mpr ⟨(i, config.programs[i]), ?_, rfl⟩
    exact mem_enumerate.mpr (List.getElem?_eq_getElem hi)
  obtain ⟨it', -, k1⟩ := forall₂_mem_left hr (List.mem_map_of_mem hit)
  obtain ⟨f', -, -, -, k2⟩ := forall₂_mem_left k1 (List.mem_map_of_mem
    (reported_status hne shown plan config.programs[i].name))
  have q3 : "status".toList ∉ quotedKeys := by decide
  rw [asWritten_bare q3] at k2
  have hcons : ∃ c t, status config.programs past i = c :: t ∧ (a ++ [':']).head? = some c := by
    rw [hs]
    cases a with
    | nil => exact ⟨_, _, rfl, rfl⟩
    | cons c a => exact ⟨_, _, rfl, rfl⟩
  obtain ⟨c, t, hc, hh⟩ := hcons
  rw [hc, value_scalar (h0 c hh).1, ← hc, hs] at k2
  refine not_scalar ?_ (hs ▸ h1) k2
  intro ha
  cases a with
  | nil => cases ha
  | cons e a =>
    simp only [List.head?_cons, Option.some.injEq] at ha
    subst ha
    exact (h0 _ rfl).2 rfl

omit h

theorem showInt_noquote (z : Int) : '\'' ∉ showInt z := by
  have hnat : ∀ n, '\'' ∉ showNat n := by
    intro n hm
    obtain ⟨k, hk⟩ := digits_showNatAux (n + 1) n [] (by intro c hc; cases hc) _ hm
    have := (digit_facts k _ hk).2.2.1
    revert this; decide
  cases z with
  | ofNat n => exact hnat n
  | negSucc n =>
    show '\'' ∉ '-' :: showNat (n + 1)
    rw [List.mem_cons, not_or]
    exact ⟨by decide, hnat _⟩

/-- C100 in full: whatever the programs are called and whatever status texts they send, a reader of
YAML finds in the status report what it is meant to say. -/
def C100_statement : Prop :=
  ∀ (x : Machine) (config : Config) (m : Manager), x.manager config = .ok m →
    (∀ t, Quotable (x.env.rfc3339 t)) →
    ∀ text past, Happened (x.loop m).log (.report text) past →
      ∃ shown plan, text = reportText config.programs past shown plan ∧
        Reads text (reportedAll config.programs past shown plan)

/-- Two programs, the first of which says how many clients it has. -/
def clients : Config := ⟨[prog 'a' .notify, prog 'b' .oneshot]⟩

def clientsAnswers (s : String) : List Answer :=
  [.setup true, .fork (some (10, 20, 21)), .epollAdd true, .epollAdd true,
   .fork (some (11, 22, 23)), .epollAdd true, .epollAdd true, .now 1,
   .epoll (some [⟨5, true, false⟩, ⟨4, true, false⟩]), .recv (some (bytes s, some 10)),
   .accept (some true)]

def clientsReport (s : String) : Str :=
  ("programs:\n  - name: 'a'\n    state: 'starting'\n    status: " ++ s ++ "\n    pid: 10\n" ++
   "  - name: 'b'\n    state: 'running'\n    pid: 11\n").toList

def clientsPast (s : String) : Log :=
  [.ready ⟨4, true, false⟩, .datagram 10 s.toList, .received (bytes s), .ready ⟨5, true, false⟩,
   .polled [⟨5, true, false⟩, ⟨4, true, false⟩], .polling, .clock 1,
   .watched 23 true, .watched 22 true, .spawned 1 11 22 23,
   .watched 21 true, .watched 20 true, .spawned 0 10 20 21]

theorem clients_ends : Ends (machine (clientsAnswers "STATUS=clients: 3")) clients
    (.unfinished (.report (clientsReport "clients: 3") :: clientsPast "STATUS=clients: 3")) :=
  Res.of_check (by decide +kernel)

theorem comment_ends : Ends (machine (clientsAnswers "STATUS=50% # of all")) clients
    (.unfinished (.report (clientsReport "50% # of all") :: clientsPast "STATUS=50% # of all")) :=
  Res.of_check (by decide +kernel)

/-- The report of this run cannot be read at all, not even what it says about the other program. -/
theorem C100_violated : ¬ C100_statement ∧
    ∀ d, ¬ Reads (clientsReport "clients: 3") d := by
  obtain ⟨m, h1, h2⟩ := clients_ends.log
  have he : Happened ((machine (clientsAnswers "STATUS=clients: 3")).loop m).log
      (.report (clientsReport "clients: 3")) (clientsPast "STATUS=clients: 3") := ⟨[], h2⟩
  have hs : status clients.programs (clientsPast "STATUS=clients: 3") 0 =
      "clients".toList ++ ':' :: ' ' :: ['3'] := by decide +kernel
  have hno : ∀ d, ¬ Reads (clientsReport "clients: 3") d := fun d =>
    C100_unreadable h1 he (by decide) showInt_plain (i := 0) (by decide) hs (by decide)
      (by rw [hs]; decide) d
  refine ⟨fun hc => ?_, hno⟩
  obtain ⟨shown, plan, -, hr⟩ := hc _ _ m h1 
    (fun t => ⟨plain_printable (plain_showInt t), showInt_noquote t⟩) _ _ he
  exact hno _ hr

/-- Here the report can be read, but the reader gets another status text than the one sent. -/
theorem C100_cut : Reads (clientsReport "50% # of all")
      [[("name".toList, ['a']), ("state".toList, "starting".toList), ("status".toList, "50%".toList),
        ("pid".toList, "10".toList)],
       [("name".toList, ['b']), ("state".toList, "running".toList), ("pid".toList, "11".toList)]] ∧
    status clients.programs (clientsPast "STATUS=50% # of all") 0 = "50% # of all".toList := by
  refine ⟨?_, by decide +kernel⟩
  refine ⟨[[("name".toList, " 'a'".toList), ("state".toList, " 'starting'".toList),
      ("status".toList, " 50% # of all".toList), ("pid".toList, " 10".toList)],
      [("name".toList, " 'b'".toList), ("state".toList, " 'running'".toList),
       ("pid".toList, " 11".toList)]], ?_, by decide, by decide +kernel⟩
  have hb : ∀ v : Str, plain v = true → Value (' ' :: v) v := fun v => value_bare.mpr
  have hq : ∀ v : Str, Quotable v → Value (' ' :: '\'' :: (v ++ ['\''])) v := fun v => value_quoted.mpr
  have hc : Value " 50% # of all".toList "50%".toList :=
    ⟨[' '], "50% # of all".toList, by simp, by decide, by decide,
      Scalar.plain (v := "50%".toList) (r := " # of all".toList) (by decide)
        (Trailing.comment (w := [' ']) (t := " of all".toList) (by simp) (by decide) (by decide))⟩
  refine .cons (.cons ⟨rfl, by decide, hq ['a'] (of_decide_eq_true rfl)⟩
    (.cons ⟨rfl, by decide, hq "starting".toList (of_decide_eq_true rfl)⟩
    (.cons ⟨rfl, by decide, hc⟩ (.cons ⟨rfl, by decide, hb "10".toList (by decide)⟩ .nil))))
    (.cons (.cons ⟨rfl, by decide, hq ['b'] (of_decide_eq_true rfl)⟩
    (.cons ⟨rfl, by decide, hq "running".toList (of_decide_eq_true rfl)⟩
    (.cons ⟨rfl, by decide, hb "11".toList (by decide)⟩ .nil))) .nil)

/-- The report of the run with everything in it is read the way it is meant. -/
example : ∃ past shown plan, Happened threeLog (.report threeReport) past ∧
    Reads threeReport (reportedAll three.programs past shown plan) := by
  obtain ⟨m, h1, h2⟩ := three_ends.log
  obtain ⟨past, hp, hs⟩ : ∃ past, Happened threeLog (.report threeReport) past ∧
      ∀ i, i < 3 → status three.programs past i ≠ [] → plain (status three.programs past i) = true :=
    ⟨threeLog.drop 37, ⟨threeLog.take 36, by decide +kernel⟩, by decide +kernel⟩
  obtain ⟨shown, plan, -, g2⟩ := C100_exact_partial h1 (text := threeReport) (past := past)
    (h2 ▸ hp) (fun t => ⟨plain_printable (plain_showInt t), showInt_noquote t⟩)
  exact ⟨past, shown, plan, hp, g2.mpr ⟨by
    have : ∀ c ∈ three.programs, (∀ d ∈ c.name, printable d = true) ∧ '\'' ∉ c.name := by decide
    exact this, hs⟩⟩

end Cinit.Props
