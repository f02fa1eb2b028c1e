import Verif.Props.Runs
import Verif.Props.Config
import Verif.Props.CronSched
import Verif.Props.CronParse
import Verif.Props.DepGraph
import Verif.Props.Notify
import Verif.Proofs.CronFaults
import Verif.Spec.Main
/-!
# C50 – C52: preconditions, exit codes, verbosity
-/

namespace Cinit.Props

open Cinit Spec

/-! ## C50 -/

private theorem loose_nodot {s : Str} {n : Nat} (h : LooseNum s n) :
    ∀ c ∈ s, (c == '.') = false := by
  intro c hc
  rw [beq_eq_false_iff_ne]
  rintro rfl
  cases h with
  | plain h => exact h.not_mem (by decide) hc
  | plus h =>
    rcases List.mem_cons.mp hc with e | hc
    · cases e
    · exact h.not_mem (by decide) hc

theorem release_split {text : Str} {major minor : Nat} :
    Release text major minor ↔ ∃ a b rest, splitOn '.' text = a :: b :: rest ∧
      parseU32 a = some major ∧ parseU32 b = some minor := by
  constructor
  · rintro ⟨a, b, h1, h2, h3, h4, rfl | ⟨rest, rfl⟩⟩
    · refine ⟨a, b, [], ?_, loose_parse h1 h3, loose_parse h2 h4⟩
      unfold splitOn
      rw [splitWith_append (loose_nodot h1) (by simp), splitWith_of_none (loose_nodot h2)]
    · refine ⟨a, b, splitWith (fun c => c == '.') rest, ?_, loose_parse h1 h3, loose_parse h2 h4⟩
      unfold splitOn
      rw [List.append_assoc, List.cons_append, splitWith_append (loose_nodot h1) (by simp),
        splitWith_append (loose_nodot h2) (by simp)]
  · rintro ⟨a, b, rest, h1, h2, h3⟩
    refine ⟨a, b, parseU32_loose h2, parseU32_loose h3, parse_bound h2, parse_bound h3, ?_⟩
    obtain ⟨-, ⟨h, -⟩ | ⟨c, t, hc, e, h5⟩⟩ := splitWith_head h1
    · cases h
    · rw [beq_iff_eq] at hc
      subst hc
      obtain ⟨-, ⟨h, rfl⟩ | ⟨c, t', hc, e', h6⟩⟩ := splitWith_head h5
      · exact .inl e
      · rw [beq_iff_eq] at hc
        subst hc
        subst e'
        exact .inr ⟨t', by rw [e]; simp⟩

theorem kernel_cases (release : Option Str) :
    checkKernelVersion release = .err 5 ∧
      (∃ text major minor, release = some text ∧ Release text major minor ∧ Old major minor) ∨
    checkKernelVersion release = .ok () ∧
      ¬ ∃ text major minor, release = some text ∧ Release text major minor ∧ Old major minor := by
  cases release with
  | none => exact .inr ⟨rfl, by simp⟩
  | some text =>
    unfold checkKernelVersion
    simp only
    split
    · rename_i a b rest hs
      split
      · rename_i major minor h1 h2
        split
        · rename_i ho
          exact .inl ⟨rfl, text, major, minor, rfl, release_split.mpr ⟨a, b, rest, hs, h1, h2⟩, ho⟩
        · rename_i ho
          refine .inr ⟨rfl, ?_⟩
          rintro ⟨text', M, m, e, hr, hold⟩
          cases e
          obtain ⟨a', b', rest', hs', h1', h2'⟩ := release_split.mp hr
          rw [hs] at hs'
          cases hs'
          rw [h1] at h1'
          rw [h2] at h2'
          cases h1'
          cases h2'
          exact ho hold
      · rename_i hno
        refine .inr ⟨rfl, ?_⟩
        rintro ⟨text', M, m, e, hr, hold⟩
        cases e
        obtain ⟨a', b', rest', hs', h1', h2'⟩ := release_split.mp hr
        rw [hs] at hs'
        cases hs'
        exact hno M m h1' h2'
    · rename_i hno
      refine .inr ⟨rfl, ?_⟩
      rintro ⟨text', M, m, e, hr, hold⟩
      cases e
      obtain ⟨a', b', rest', hs', h1', h2'⟩ := release_split.mp hr
      exact hno a' b' rest' hs'

/-- C50: the start-up checks fail, with exit code 5, exactly if cinit is not root or the kernel
release is that of a kernel older than 4.3. -/
theorem C50_checks (release : Option Str) (uid : Nat) :
    doStartupChecks release uid = .err 5 ∧ Refused release uid ∨
    doStartupChecks release uid = .ok () ∧ ¬ Refused release uid := by
  unfold doStartupChecks
  rcases kernel_cases release with ⟨h1, h2⟩ | ⟨h1, h2⟩
  · exact .inl ⟨by rw [h1]; rfl, .inr h2⟩
  · rw [h1, Res.bind_ok]
    unfold checkUser
    by_cases hu : uid = 0
    · refine .inr ⟨by rw [if_neg (by simpa using hu)], ?_⟩
      rintro (h | h)
      · exact h hu
      · exact h2 h
    · exact .inl ⟨by rw [if_pos hu]; rfl, .inl hu⟩

/-! ## C51 -/

theorem processes_err {x : Machine} {cs : List ProcessConfig} {code : Int}
    (h : x.processes cs = .err code) : code = 2 ∧ ∃ c ∈ cs, Unbuildable x.surroundings c := by
  induction cs with
  | nil => cases h
  | cons c cs ih =>
    unfold Machine.processes at h
    cases hp : ProcessBuilder.processFrom x.surroundings c with
    | ok p =>
      rw [hp] at h
      simp only at h
      rcases Res.bind_eq_err.mp h with h | ⟨a, -, h⟩
      · obtain ⟨h1, c', h2, h3⟩ := ih h
        exact ⟨h1, c', by simp [h2], h3⟩
      · cases h
    | err e =>
      rw [hp] at h
      cases h
      exact ⟨rfl, c, by simp, C12_error_iff.mp ⟨e, hp⟩⟩
    | panic q => rw [hp] at h; cases h

theorem processes_ok_iff {x : Machine} {cs : List ProcessConfig} {ps : List Process}
    (h : x.processes cs = .ok ps) : ∀ c ∈ cs, ¬ Unbuildable x.surroundings c := by
  intro c hc hu
  obtain ⟨e, he⟩ := C12_error_iff.mpr hu
  have hf := Machine.processes_ok h
  obtain ⟨i, hi, rfl⟩ := List.getElem_of_mem hc
  have := hf.get hi (by rw [← hf.length_eq]; exact hi)
  simp only [List.get_eq_getElem] at this
  rw [he] at this
  cases this

/-- If building the process manager fails, then with exit code 2, because the configuration is
invalid or because of signals or sockets. -/
theorem manager_err {x : Machine} {config : Config} {code : Int}
    (hu : UniqueNames config.programs) (h : x.manager config = .err code) :
    code = 2 ∧ (Invalid x.surroundings config.programs ∨ x.sockets = none) := by
  unfold Machine.manager at h
  rcases Res.bind_eq_err.mp h with h | ⟨procs, -, h⟩
  · obtain ⟨h1, h2⟩ := processes_err h
    exact ⟨h1, .inl (.inl h2)⟩
  · have hdep : ∀ c, buildDependencyManager x.topo x.graphOrder config = .err c →
        c = 2 ∧ Invalid x.surroundings config.programs := by
      intro c hc
      refine ⟨(C14_report x.topo x.graphOrder hu).2 c hc, ?_⟩
      by_cases hv : RefsKnown config.programs ∧ NoAfterCron config.programs ∧
          Acyclic config.programs
      · obtain ⟨d, hd⟩ := (C13_accept_iff x.topo x.graphOrder hu).1.mpr hv
        unfold buildDependencyManager at hc
        rw [hd] at hc
        cases hc
      · simp only [Decidable.not_and_iff_or_not, not_and_or] at hv
        rcases hv with hv | hv | hv
        · exact .inr (.inl hv)
        · exact .inr (.inr (.inl hv))
        · exact .inr (.inr (.inr (.inl hv)))
    have hcron : ∀ c, buildCron x.env.zone config x.clock = .err c →
        c = 2 ∧ Invalid x.surroundings config.programs := by
      intro c hc
      obtain ⟨h1, id, pc, desc, msg, h2, h3, h4⟩ := C51_cron_error hc
      exact ⟨h1, .inr (.inr (.inr (.inr ⟨pc, List.mem_of_getElem? h2, desc, _, h3, timer_wrong h4⟩)))⟩
    split at h
    · cases h
    · cases h
    · split at h
      · rename_i hs
        cases h
        exact ⟨rfl, .inr hs⟩
      · rcases Res.bind_eq_err.mp h with h | ⟨d, -, h⟩
        · exact ⟨(hdep _ h).1, .inl (hdep _ h).2⟩
        · rcases Res.bind_eq_err.mp h with h | ⟨c, -, h⟩
          · exact ⟨(hcron _ h).1, .inl (hcron _ h).2⟩
          · split at h <;> cases h

theorem manager_valid {x : Machine} {config : Config} {m : Manager}
    (h : x.manager config = .ok m) :
    ¬ Invalid x.surroundings config.programs ∧ x.sockets ≠ none ∧ x.epoll = true := by
  obtain ⟨h1, h2, h3, -⟩ := Machine.manager_ok h
  obtain ⟨-, g1, g2, g3, -⟩ := buildDependencyManager_ok h2
  refine ⟨?_, ?_⟩
  · rintro (⟨c, hc, hb⟩ | hb | hb | hb | ⟨c, hc, desc, msg, hd, hp⟩)
    · exact processes_ok_iff h1 c hc hb
    · exact hb g1
    · exact hb g2
    · exact hb g3
    · obtain ⟨i, hi⟩ := List.getElem?_of_mem hc
      obtain ⟨td, ht⟩ := C51_cron_accepted h3 hi hd
      exact timer_right ht _ hp
  · unfold Machine.manager at h
    rw [h1, Res.bind_ok, h2, h3] at h
    simp only at h
    split at h
    · cases h
    · rename_i hs
      simp only [Res.bind_ok] at h
      split at h
      · rename_i he
        exact ⟨by rw [hs]; simp, he⟩
      · cases h

/-- Building the schedule aborts only on a zero step or if no next execution exists. -/
theorem withJobs_panic {z : Zone} {jobs : List (Nat × ProcessConfig)} {c : Cron} {clock : List Int}
    {q : Panic} (hj : ∀ j ∈ jobs, j.2.ptype.isCron = true)
    (h : Cron.withJobs z c jobs clock = .panic q) :
    (q = .divByZero ∧ ∃ j ∈ jobs, ∃ desc, j.2.ptype = .cronJob desc ∧ ZeroStep desc) ∨
    q = .dateOverflow ∨ q = .gapTooLong := by
  induction jobs generalizing c clock with
  | nil => cases h
  | cons job jobs ih =>
    obtain ⟨id, pc⟩ := job
    unfold Cron.withJobs at h
    split at h
    · rename_i desc hd
      cases hp : Timer.parse desc with
      | err e => rw [hp] at h; cases h
      | panic q' =>
        rw [hp] at h
        cases h
        obtain ⟨rfl, hz⟩ := C21_panic_partial _ _ hp
        exact .inl ⟨rfl, (id, pc), by simp, desc, hd, hz⟩
      | ok td =>
        rw [hp] at h
        change Cron.lift _ >>= _ = _ at h
        cases hn : td.next z (clock.headD 0) with
        | err e => exact nomatch e
        | panic q' =>
          rw [hn] at h
          cases h
          exact .inr (next_panics hp hn)
        | ok t =>
          rw [hn] at h
          change Cron.lift (c.insertJob t id) >>= _ = _ at h
          cases hi : c.insertJob t id with
          | err e => exact nomatch e
          | panic q' =>
            rw [hi] at h
            cases h
            unfold Cron.insertJob at hi
            rcases Res.bind_eq_panic.mp hi with hi | ⟨t', -, hi⟩
            · exact .inr (.inl (Cron.freeSlot_panic hi).1)
            · cases hi
          | ok c' =>
            rw [hi] at h
            change Cron.withJobs z _ jobs clock.tail = _ at h
            rcases ih (fun j hm => hj j (by simp [hm])) h with ⟨h1, j, h2, h3⟩ | h1
            · exact .inl ⟨h1, j, by simp [h2], h3⟩
            · exact .inr h1
    · rename_i hno
      have := hj _ (List.mem_cons_self)
      simp only at this
      cases ht : pc.ptype with
      | cronJob d => exact absurd ht (hno d)
      | oneshot => rw [ht] at this; cases this
      | notify => rw [ht] at this; cases this

theorem buildCron_panic {z : Zone} {config : Config} {clock : List Int} {q : Panic}
    (h : buildCron z config clock = .panic q) :
    (q = .divByZero ∧ ∃ c ∈ config.programs, ∃ desc, c.ptype = .cronJob desc ∧ ZeroStep desc) ∨
    q = .dateOverflow ∨ q = .gapTooLong := by
  unfold buildCron at h
  split at h
  · cases h
  · rename_i p hw
    cases h
    rcases withJobs_panic (fun j hj => (mem_cronPrograms.mp hj).2.2) hw with
      ⟨h1, j, h2, desc, h3⟩ | h1
    · exact .inl ⟨h1, j.2, List.mem_of_getElem? (mem_cronPrograms.mp h2).2.1, desc, h3⟩
    · exact .inr h1
  · rename_i msg id hw
    obtain ⟨pc, desc, msg', id', h1, h2, h3, h4⟩ := Cron.withJobs_err hw
    cases h1
    have hm := (mem_cronPrograms.mp h2).2.1
    simp only [Nat.sub_zero] at hm
    rw [hm] at h
    cases h

theorem processes_panic {x : Machine} {cs : List ProcessConfig} {q : Panic}
    (h : x.processes cs = .panic q) :
    ∃ c ∈ cs, ProcessBuilder.processFrom x.surroundings c = .panic q := by
  induction cs with
  | nil => cases h
  | cons c cs ih =>
    unfold Machine.processes at h
    cases hp : ProcessBuilder.processFrom x.surroundings c with
    | ok p =>
      rw [hp] at h
      simp only at h
      rcases Res.bind_eq_panic.mp h with h | ⟨a, -, h⟩
      · obtain ⟨c', h2, h3⟩ := ih h
        exact ⟨c', by simp [h2], h3⟩
      · cases h
    | err e => rw [hp] at h; cases h
    | panic q' => rw [hp] at h; cases h; exact ⟨c, by simp, hp⟩

private theorem cstring_panic {ε : Type} {t : Str} {q : Panic}
    (h : (ProcessBuilder.cstring t : Res ε Str) = .panic q) : q = .nulByte := by
  unfold ProcessBuilder.cstring at h
  split at h <;> cases h
  rfl

private theorem mapM_panic {ε α β : Type} {f : α → Res ε β} {l : List α} {q : Panic}
    (hf : ∀ a, f a = .panic q → q = .nulByte) (h : Res.mapM' f l = .panic q) : q = .nulByte := by
  induction l with
  | nil => cases h
  | cons a l ih =>
    rw [Res.mapM'] at h
    rcases Res.bind_eq_panic.mp h with h | ⟨b, -, h⟩
    · exact hf a h
    · rcases Res.bind_eq_panic.mp h with h | ⟨bs, -, h⟩
      · exact ih h
      · cases h

private theorem convertArgs_panic {s : Surroundings} {env : AMap Str Str} {i : Nat}
    {l : List Str} {q : Panic} (h : ProcessBuilder.convertArgs s env i l = .panic q) :
    q = .nulByte := by
  induction l generalizing i with
  | nil => cases h
  | cons a l ih =>
    unfold ProcessBuilder.convertArgs at h
    rcases Res.bind_eq_panic.mp h with h | ⟨b, -, h⟩
    · exact cstring_panic h
    · rcases Res.bind_eq_panic.mp h with h | ⟨bs, -, h⟩
      · exact ih h
      · cases h

private theorem mapId_panic {α : Type} {id : Option Nat} {name : Option Str}
    {f : Nat → Option α} {g : Str → Option α} {q : Panic} :
    ProcessBuilder.mapId id name f g ≠ .panic q := by
  unfold ProcessBuilder.mapId
  split
  · simp
  · simp only
    split <;> simp

theorem processFrom_panic {s : Surroundings} {c : ProcessConfig} {q : Panic}
    (h : ProcessBuilder.processFrom s c = .panic q) : q = .nulByte := by
  unfold ProcessBuilder.processFrom at h
  split at h
  · cases h
  · rcases Res.bind_eq_panic.mp h with h | ⟨user, -, h⟩
    · exact absurd h mapId_panic
    rcases Res.bind_eq_panic.mp h with h | ⟨group, -, h⟩
    · exact absurd h mapId_panic
    simp only at h
    split at h
    · cases h
    · rcases Res.bind_eq_panic.mp h with h | ⟨flat, -, h⟩
      · exact mapM_panic (fun _ => cstring_panic) h
      rcases Res.bind_eq_panic.mp h with h | ⟨a0, -, h⟩
      · exact cstring_panic h
      rcases Res.bind_eq_panic.mp h with h | ⟨args, -, h⟩
      · exact convertArgs_panic h
      · cases h

/-- Building the process manager aborts only because of a NUL character, a zero step in a cron
expression, a cronjob without next execution, or if there is no epoll descriptor. -/
theorem manager_panic {x : Machine} {config : Config} {q : Panic}
    (hu : UniqueNames config.programs) (h : x.manager config = .panic q) :
    (q = .nulByte ∧ ∃ c ∈ config.programs,
      ProcessBuilder.processFrom x.surroundings c = .panic .nulByte) ∨
    (q = .divByZero ∧ ∃ c ∈ config.programs, ∃ desc, c.ptype = .cronJob desc ∧ ZeroStep desc) ∨
    ((q = .dateOverflow ∨ q = .gapTooLong) ∧ ∃ c ∈ config.programs, c.ptype.isCron = true) ∨
    (q = .epollFailed ∧ x.epoll = false) := by
  have hcron : buildCron x.env.zone config x.clock = .panic q →
      (q = .divByZero ∧ ∃ c ∈ config.programs, ∃ desc, c.ptype = .cronJob desc ∧ ZeroStep desc) ∨
      ((q = .dateOverflow ∨ q = .gapTooLong) ∧ ∃ c ∈ config.programs, c.ptype.isCron = true) := by
    intro h
    rcases buildCron_panic h with h1 | h1
    · exact .inl h1
    · refine .inr ⟨h1, ?_⟩
      by_contra hno
      have : cronPrograms 0 config.programs = [] := by
        cases hc : cronPrograms 0 config.programs with
        | nil => rfl
        | cons j js =>
          have hm : j ∈ cronPrograms 0 config.programs := by rw [hc]; simp
          have := mem_cronPrograms.mp hm
          exact absurd ⟨j.2, List.mem_of_getElem? this.2.1, this.2.2⟩ hno
      unfold buildCron at h
      rw [this] at h
      cases h
  unfold Machine.manager at h
  rcases Res.bind_eq_panic.mp h with h | ⟨procs, -, h⟩
  · obtain ⟨c, hc, hp⟩ := processes_panic h
    have := processFrom_panic hp
    subst this
    exact .inl ⟨rfl, c, hc, hp⟩
  · right
    split at h
    · rename_i hd
      exact absurd hd ((C14_report x.topo x.graphOrder hu).1 _)
    · rename_i hc _
      cases h
      rcases hcron hc with h | h
      · exact .inl h
      · exact .inr (.inl h)
    · rename_i hd hc
      split at h
      · cases h
      · rcases Res.bind_eq_panic.mp h with h | ⟨d, -, h⟩
        · exact absurd h (hd _)
        · rcases Res.bind_eq_panic.mp h with h | ⟨c, -, h⟩
          · exact absurd h (hc _)
          · split at h
            · cases h
            · rename_i he
              cases h
              exact .inr (.inr ⟨rfl, by simpa using he⟩)

/-- The configuration of the machine was loaded. -/
def Loaded (x : Machine) (config : Config) : Prop :=
  parseConfig x.yaml x.mergeOrder x.tree = .ok config

theorem Loaded.unique {x : Machine} {config : Config} (h : Loaded x config) :
    UniqueNames config.programs := by
  obtain ⟨-, -, fs, -, -, -, hm⟩ := C06_load_complete h
  exact (C04_names hm).1

theorem parseConfig_err {x : Machine} {code : Int}
    (h : parseConfig x.yaml x.mergeOrder x.tree = .err code) :
    code = 1 ∧ (Unreadable x.yaml x.tree ∨
      ∃ es n, AllEntries x.yaml x.tree es ∧ Conflict (entriesOf es n)) := by
  unfold parseConfig at h
  rcases readConfig_cases x.tree with ⟨hu, hb, he⟩ | ⟨hu, he⟩ | ⟨hu, he⟩
  · rw [he, Res.bind_ok] at h
    have hall : ∀ p c, (p, c) ∈ filesOf x.tree ↔ FileAt x.tree p c := mem_filesOf x.tree
    by_cases hy : ∃ p c, FileAt x.tree p c ∧ x.yaml c = none
    · refine ⟨(C06_failure_partial (yaml := x.yaml) (ord := x.mergeOrder) hb).2.1 code ?_, .inl (.inr hy)⟩
      unfold parseConfig
      rw [he, Res.bind_ok]
      exact h
    · obtain ⟨c, hc⟩ : ∃ c, parseRawConfig x.yaml ((filesOf x.tree).map (·.2)) = .ok c := by
        unfold parseRawConfig
        rw [if_neg]
        · exact ⟨_, rfl⟩
        · simp only [List.any_map, List.any_eq_true, Function.comp_apply, Option.isNone_iff_eq_none,
            not_exists, not_and]
          rintro ⟨p, c⟩ hm hn
          exact hy ⟨p, c, (hall p c).mp hm, hn⟩
      rw [hc, Res.bind_ok] at h
      obtain ⟨h1, n, h2⟩ := (C02_duplicates_rejected x.mergeOrder c).2.1 code h
      refine ⟨h1, .inr ⟨c.programs, n, ⟨filesOf x.tree, filesOf_nodup x.tree, hall, ?_⟩, h2⟩⟩
      rw [(parseRawConfig_ok hc).2]
      generalize filesOf x.tree = l
      induction l with
      | nil => rfl
      | cons f fs ih =>
        simp only [List.flatMap_cons, List.map_cons, List.filterMap_cons]
        cases x.yaml f.2 <;> rw [← ih] <;> rfl
  · rw [he] at h; cases h; exact ⟨rfl, .inl (.inl hu)⟩
  · rw [he] at h; cases h

/-- C51: what each exit code means. -/
theorem C51_codes_partial {x : Machine} {code : Int} {log : Log} (h : run x = .exited code log) :
    (code = 5 ∧ log = [] ∧ Refused x.release x.uid) ∨
    (¬ Refused x.release x.uid ∧
      ((code = 1 ∧ log = [] ∧ (Unreadable x.yaml x.tree ∨
        ∃ es n, AllEntries x.yaml x.tree es ∧ Conflict (entriesOf es n))) ∨
      ∃ config, Loaded x config ∧
        ((code = 2 ∧ log = [] ∧
          (Invalid x.surroundings config.programs ∨ x.sockets = none)) ∨
        (¬ Invalid x.surroundings config.programs ∧ x.sockets ≠ none ∧ x.epoll = true ∧
          ((code = 3 ∧ log = [.exit 3]) ∨
           (code = 6 ∧ SomeCrash config.programs log) ∨
           (code = 0 ∧ ¬ SomeCrash config.programs log)))))) := by
  unfold run orExit at h
  rcases C50_checks x.release x.uid with ⟨h1, h2⟩ | ⟨h1, h2⟩
  · rw [h1] at h
    cases h
    exact .inl ⟨rfl, rfl, h2⟩
  · refine .inr ⟨h2, ?_⟩
    rw [h1] at h
    simp only at h
    cases hc : parseConfig x.yaml x.mergeOrder x.tree with
    | panic q => rw [hc] at h; cases h
    | err e =>
      rw [hc] at h
      cases h
      obtain ⟨h3, h4⟩ := parseConfig_err hc
      exact .inl ⟨h3, rfl, h4⟩
    | ok config =>
      rw [hc] at h
      simp only at h
      have hl : Loaded x config := hc
      refine .inr ⟨config, hl, ?_⟩
      cases hm : x.manager config with
      | panic q => rw [hm] at h; cases h
      | err e =>
        rw [hm] at h
        cases h
        obtain ⟨h3, h4⟩ := manager_err hl.unique hm
        exact .inl ⟨h3, rfl, h4⟩
      | ok m =>
        rw [hm] at h
        simp only at h
        obtain ⟨h3, h4, h5⟩ := manager_valid hm
        refine .inr ⟨h3, h4, h5, ?_⟩
        cases ho : x.loop m with
        | panic p w => rw [ho] at h; cases h
        | stuck w => rw [ho] at h; cases h
        | ok c w =>
          rw [ho] at h
          cases h
          exact C34_exit_status_partial hm ho

/-- C51: unless the exit code is 0 or 6, no program was started and nothing else happened. -/
theorem C51_nothing_started {x : Machine} {code : Int} {log : Log} (h : run x = .exited code log)
    (h0 : code ≠ 0) (h6 : code ≠ 6) : log = [] ∨ log = [.exit 3] := by
  rcases C51_codes_partial h with ⟨-, e, -⟩ | ⟨-, ⟨-, e, -⟩ | ⟨config, -, ⟨-, e, -⟩ |
    ⟨-, -, -, ⟨-, e⟩ | ⟨e, -⟩ | ⟨e, -⟩⟩⟩⟩
  · exact .inl e
  · exact .inl e
  · exact .inl e
  · exact .inr e
  · exact absurd e h6
  · exact absurd e h0

/-- C50: cinit exits with code 5 exactly if it must not run, and then nothing happens. -/
theorem C50_exit (x : Machine) :
    (Refused x.release x.uid → run x = .exited 5 []) ∧
    ((∃ log, run x = .exited 5 log) → Refused x.release x.uid) := by
  constructor
  · intro hr
    rcases C50_checks x.release x.uid with ⟨h1, -⟩ | ⟨-, h2⟩
    · unfold run orExit; rw [h1]
    · exact absurd hr h2
  · rintro ⟨log, h⟩
    rcases C51_codes_partial h with ⟨-, -, e⟩ | ⟨-, ⟨e, -⟩ | ⟨config, -, ⟨e, -⟩ |
      ⟨-, -, -, ⟨e, -⟩ | ⟨e, -⟩ | ⟨e, -⟩⟩⟩⟩
    · exact e
    all_goals cases e

private theorem duplicate_perm {es es' : List ProcessConfig} (hp : es.Perm es')
    (h : DuplicateField es) : DuplicateField es' := by
  have : ∀ {α : Type} (f : ProcessConfig → Option α), (given f es).length = (given f es').length :=
    fun f => (hp.filterMap f).length_eq
  unfold DuplicateField at h ⊢
  simpa only [this] using h

/-- C51: if the preconditions hold but the configuration cannot be read, or two entries of a
program contradict each other, the exit code is 1 and nothing happens. -/
theorem C51_unreadable {x : Machine} (hr : ¬ Refused x.release x.uid) (hb : ¬ HasBadName x.tree)
    (hu : Unreadable x.yaml x.tree ∨
      ∃ es n, AllEntries x.yaml x.tree es ∧ DuplicateField (entriesOf es n)) :
    run x = .exited 1 [] := by
  have hc : parseConfig x.yaml x.mergeOrder x.tree = .err 1 := by
    have hf := C06_failure_partial (yaml := x.yaml) (ord := x.mergeOrder) hb
    rcases hu with hu | ⟨es, n, ⟨fs, h1, h2, rfl⟩, hd⟩
    · exact hf.1 hu
    · cases hp : parseConfig x.yaml x.mergeOrder x.tree with
      | panic q => exact absurd hp (hf.2.2 q)
      | err c => rw [hf.2.1 c hp]
      | ok config =>
        exfalso
        obtain ⟨-, -, fs', g1, g2, -, g3⟩ := C06_load_complete hp
        have hperm : fs.Perm fs' :=
          (List.perm_ext_iff_of_nodup h1 g1).mpr fun f => by rw [h2 f.1 f.2, g2 f.1 f.2]
        have hd' := duplicate_perm ((hperm.flatMap_right _).filter _) hd
        have key : ∀ es : List ProcessConfig, DuplicateField (entriesOf es n) →
            mergeDropins x.mergeOrder ⟨es⟩ = .err 1 :=
          fun es h => (C02_duplicates_rejected x.mergeOrder ⟨es⟩).1 ⟨n, h⟩
        rw [key _ hd'] at g3
        cases g3
  rcases C50_checks x.release x.uid with ⟨-, h⟩ | ⟨h1, -⟩
  · exact absurd h hr
  · unfold run orExit
    rw [h1, hc]

/-- C51: if the preconditions hold and the configuration was read but is invalid, the exit code
is 2 (unless cinit aborts) and nothing happens. -/
theorem C51_invalid_partial {x : Machine} {config : Config} (hr : ¬ Refused x.release x.uid)
    (hl : Loaded x config) (hi : Invalid x.surroundings config.programs) :
    run x = .exited 2 [] ∨ ∃ p, run x = .aborted p [] := by
  rcases C50_checks x.release x.uid with ⟨-, h⟩ | ⟨h1, -⟩
  · exact absurd h hr
  · unfold run orExit
    rw [h1, show parseConfig x.yaml x.mergeOrder x.tree = .ok config from hl]
    simp only
    cases hm : x.manager config with
    | ok m => exact absurd hi (manager_valid hm).1
    | err e => rw [(manager_err hl.unique hm).1]; exact .inl rfl
    | panic p => exact .inr ⟨p, rfl⟩

/-- C46, C51: all ways cinit may abort, in a whole run: a configuration file whose name is not
UTF-8, a NUL character in what a program is started with, a zero step in a cron expression, a
cronjob without next execution, no epoll descriptor, or one of the causes within the event
loop. -/
theorem C46_run {x : Machine} {p : Panic} {log : Log} (h : run x = .aborted p log) :
    (log = [] ∧
      ((p = .invalidUtf8 ∧ HasBadName x.tree) ∨
      ∃ config, Loaded x config ∧
      ((p = .nulByte ∧ ∃ c ∈ config.programs,
        ProcessBuilder.processFrom x.surroundings c = .panic .nulByte) ∨
      (p = .divByZero ∧ ∃ c ∈ config.programs, ∃ desc, c.ptype = .cronJob desc ∧ ZeroStep desc) ∨
      ((p = .dateOverflow ∨ p = .gapTooLong) ∧ ∃ c ∈ config.programs, c.ptype.isCron = true) ∨
      (p = .epollFailed ∧ x.epoll = false)))) ∨
    ∃ config m w, Loaded x config ∧ x.manager config = .ok m ∧ x.loop m = .panic p w ∧
      log = w.log ∧
      p ∈ [.killFailed, .invalidUtf8, .emptyDatagram, .undefinedBehaviour, .dateOverflow,
        .gapTooLong] := by
  unfold run orExit at h
  rcases C50_checks x.release x.uid with ⟨h1, h2⟩ | ⟨h1, h2⟩
  · rw [h1] at h
    cases h
  · rw [h1] at h
    simp only at h
    cases hc : parseConfig x.yaml x.mergeOrder x.tree with
    | panic q =>
      rw [hc] at h
      cases h
      refine .inl ⟨rfl, .inl ?_⟩
      by_cases hb : HasBadName x.tree
      · refine ⟨?_, hb⟩
        unfold parseConfig at hc
        rcases readConfig_cases x.tree with ⟨-, hb', -⟩ | ⟨-, he⟩ | ⟨-, he⟩
        · exact absurd hb hb'
        · rw [he] at hc; cases hc
        · rw [he] at hc; cases hc; rfl
      · exact absurd hc ((C06_failure_partial (yaml := x.yaml) (ord := x.mergeOrder) hb).2.2 _)
    | err e => rw [hc] at h; cases h
    | ok config =>
      rw [hc] at h
      simp only at h
      have hl : Loaded x config := hc
      cases hm : x.manager config with
      | panic q =>
        rw [hm] at h
        cases h
        exact .inl ⟨rfl, .inr ⟨config, hl, manager_panic hl.unique hm⟩⟩
      | err e => rw [hm] at h; cases h
      | ok m =>
        rw [hm] at h
        simp only at h
        cases ho : x.loop m with
        | ok c w => rw [ho] at h; cases h
        | stuck w => rw [ho] at h; cases h
        | panic p w =>
          rw [ho] at h
          cases h
          refine .inr ⟨config, m, w, hl, hm, ho, rfl, ?_⟩
          rcases C46_causes hm ho with ⟨rfl, -⟩ | ⟨rfl, -⟩ | ⟨rfl, -⟩ | ⟨rfl, -⟩ | ⟨rfl | rfl, -⟩ <;>
            simp

/-- The concrete machine with a configuration file. -/
def configured (config : Config) (answers : List Answer) : Machine :=
  { machine answers with yaml := fun _ => some config, mergeOrder := .rev }

/-- Complete runs with exit codes 0, 6, 3, 2, 1 and 5. -/
example : run (configured three threeAnswers) = .exited 0 threeLog := by decide +kernel

example : run (configured three [.setup false]) = .exited 3 [.exit 3] := by decide +kernel

example : run (configured ⟨[prog 'a' .oneshot [['b']]]⟩ []) = .exited 2 [] := by decide +kernel

example : run (configured ⟨[prog 'a' .oneshot, prog 'a' .oneshot]⟩ []) = .exited 1 [] := by
  decide +kernel

example : run { configured three [] with release := some "4.2.7-1".toList } = .exited 5 [] := by
  decide +kernel

/-- A release text old enough. -/
example : Refused (some "4.2.7-1".toList) 0 :=
  .inr ⟨_, 4, 2, rfl, ⟨['4'], ['2'], .plain (.digit (d := 4) (by decide)), .plain (.digit (d := 2) (by decide)),
    by decide, by decide, .inr ⟨"7-1".toList, rfl⟩⟩, .inr ⟨rfl, by decide⟩⟩

/-- C51 in full: failing to set up the runtime gives exit code 3. -/
def C51_statement : Prop :=
  ∀ (x : Machine) (config : Config), ¬ Refused x.release x.uid → Loaded x config →
    ¬ Invalid x.surroundings config.programs → (x.sockets = none ∨ x.epoll = false) →
    ∃ log, run x = .exited 3 log

/-- A machine with directories where the sockets belong. -/
def blocked (config : Config) : Machine :=
  { configured config [] with system := { nodes := fun _ => some .directory } }

/-- C51 is false: if signals cannot be blocked or the sockets cannot be created, the exit code is
2, that of an invalid configuration. -/
theorem C51_violated : ¬ C51_statement := by
  intro h
  obtain ⟨m, w, hm, -⟩ := two_ends.exited
  have hr : run (blocked two) = .exited 2 [] := by decide +kernel
  obtain ⟨log, hl⟩ := h (blocked two) two
    (fun hr' => by
      have := (C50_exit (blocked two)).1 hr'
      rw [hr] at this
      cases this)
    (by
      obtain ⟨c, h1, rfl⟩ := Res.of_check (P := fun c => c = two)
        (r := parseConfig (fun _ => some two) .rev (.file [])) (by decide +kernel)
      exact h1)
    (manager_valid hm).1 (.inl rfl)
  rw [hr] at hl
  cases hl

/-- C51: without epoll descriptor cinit aborts. -/
theorem C51_epoll :
    run { configured two [] with epoll := false } = .aborted .epollFailed [] := by
  decide +kernel

/-! ## C52 -/

/-- How much a level lets through. -/
def amount : LevelFilter → Nat
  | .off => 0
  | .error => 1
  | .warn => 2
  | .info => 3
  | .debug => 4
  | .trace => 5

/-- C52 in full. -/
def C52_statement : Prop := ∀ a b, a ≤ b → amount (levelFor a) ≤ amount (levelFor b)

/-- C52 is false: the third `-v` switches back to the default level. -/
theorem C52_violated : ¬ C52_statement := fun h => absurd (h 2 3 (by decide)) (by decide)

/-- C52, up to two flags; with more the level is the default one. -/
theorem C52_verbosity_partial (a b : Nat) (h : a ≤ b) :
    (b ≤ 2 → amount (levelFor a) ≤ amount (levelFor b)) ∧
    (2 < b → levelFor b = levelFor 0) ∧ amount (levelFor 0) ≤ amount (levelFor b) := by
  have h3 : ∀ n, 2 < n → levelFor n = .info := by
    intro n hn
    unfold levelFor
    split
    · omega
    · omega
    · rfl
  refine ⟨fun hb => ?_, fun hb => h3 b hb, ?_⟩
  · match a, b with
    | 0, 0 => decide
    | 0, 1 => decide
    | 0, 2 => decide
    | 1, 1 => decide
    | 1, 2 => decide
    | 2, 2 => decide
    | 1, 0 => omega
    | 2, 0 => omega
    | 2, 1 => omega
    | a + 3, b => omega
    | a, b + 3 => omega
  · match b with
    | 0 => decide
    | 1 => decide
    | 2 => decide
    | b + 3 => rw [h3 (b + 3) (by omega)]; decide

end Cinit.Props
