import Verif.Spec.PathSearch
import Verif.Props.ProcessBuilder
import Verif.Proofs.CronText
/-!
# C82: which file is executed
-/

namespace Cinit.Props

open Cinit Spec PathSearch

theorem directories_iff {ds : List Str} {s : Str} : Directories ds s ↔ splitOn ':' s = ds := by
  constructor
  · intro h
    induction h with
    | last h => exact splitWith_of_none (fun c hc => by simp; rintro rfl; exact h hc)
    | more h _ ih =>
      have := splitWith_append (p := fun x => x == ':') (c := ':') (t := ‹Str›)
        (fun c hc => by simp; rintro rfl; exact h hc) (by simp)
      rw [splitOn, this, ← splitOn, ih]
  · intro hl
    induction ds generalizing s with
    | nil => exact absurd hl (splitWith_ne_nil _ _)
    | cons w ws ih =>
      obtain ⟨h1, h2⟩ := splitWith_head hl
      have hw : ':' ∉ w := fun h => by simpa using h1 _ h
      rcases h2 with ⟨rfl, rfl⟩ | ⟨c, t, hc, rfl, ht⟩
      · exact .last hw
      · have hc' : c = ':' := by simpa using hc
        subst hc'
        exact .more hw (ih ht)

theorem inDir_iff {d file q : Str} : InDir d file q ↔ q = candidate d file := by
  constructor
  · rintro (_ | h)
    · simp [candidate]
    · simp [candidate, h]
  · rintro rfl
    unfold candidate
    split
    · subst d; exact .here
    · have := InDir.dir (file := file) (by assumption : d ≠ [])
      simpa using this

private theorem absent_iff {attempt : Str → Attempt} {d file : Str} :
    Absent attempt d file ↔ attempt (candidate d file) = .refused 2 ∨
      attempt (candidate d file) = .refused 13 ∨ attempt (candidate d file) = .refused 20 := by
  constructor
  · exact fun h => h _ (inDir_iff.mpr rfl)
  · rintro h q hq
    rw [inDir_iff.mp hq]
    exact h

private theorem bytes_size (s : Str) : bytes s = size s := by
  induction s with
  | nil => rfl
  | cons c s ih =>
    have : String.ofList (c :: s) = String.singleton c ++ String.ofList s := by
      rw [show c :: s = [c] ++ s from rfl, String.ofList_append]; rfl
    rw [size, this, String.utf8ByteSize_append, String.utf8ByteSize_singleton, ← size, ← ih]
    simp [bytes]

/-- The directories are of usual size. -/
private def Short (dirs : List Str) : Prop := ∀ d ∈ dirs, bytes d < 4096

private theorem usual_short (dirs : List Str) : Short (usual dirs) := fun d hd => by
  rw [bytes_size]
  simpa using (List.mem_filter.mp hd).2

private theorem search_usual {attempt : Str → Attempt} {file : Str} {dirs : List Str}
    {denied : Bool} {last : Nat} :
    search attempt file dirs denied last = search attempt file (usual dirs) denied last := by
  induction dirs generalizing denied last with
  | nil => rfl
  | cons dir dirs ih =>
    by_cases hd : size dir < 4096
    · rw [show usual (dir :: dirs) = dir :: usual dirs from List.filter_cons_of_pos (by simpa using hd)]
      simp only [search]
      rw [← bytes_size] at hd
      rw [if_neg (by omega), if_neg (by omega)]
      split
      · rfl
      · split
        · exact ih
        · split
          · exact ih
          · rfl
    · rw [show usual (dir :: dirs) = usual dirs from List.filter_cons_of_neg (by simpa using hd)]
      rw [← bytes_size] at hd
      simp only [search]
      rw [if_pos (by omega)]
      exact ih

private theorem search_found {attempt : Str → Attempt} {file q : Str} {f : ExeFile}
    {dirs : List Str} (hs : Short dirs) {denied : Bool} {last : Nat} :
    search attempt file dirs denied last = .found q f ↔ FirstAlong attempt dirs file q f := by
  induction dirs generalizing denied last with
  | nil =>
    simp only [search]
    constructor
    · intro h; cases h
    · rintro ⟨pre, d, post, h, -⟩
      simp at h
  | cons dir dirs ih =>
    have hd := hs dir (List.mem_cons_self ..)
    have hrec : ∀ {denied last}, Absent attempt dir file →
        (search attempt file dirs denied last = .found q f ↔
          FirstAlong attempt (dir :: dirs) file q f) := by
      intro denied last ha
      rw [ih (fun d h => hs d (List.mem_cons_of_mem _ h))]
      constructor
      · rintro ⟨pre, d, post, rfl, h2, h3⟩
        refine ⟨dir :: pre, d, post, rfl, fun x hx => ?_, h3⟩
        rcases List.mem_cons.mp hx with rfl | hx
        · exact ha
        · exact h2 x hx
      · rintro ⟨pre, d, post, h1, h2, h3, h4⟩
        cases pre with
        | nil =>
          cases h1
          exfalso
          rcases ha _ h3 with h | h | h <;> rw [h4] at h <;> cases h
        | cons p pre =>
          cases h1
          exact ⟨pre, d, post, rfl, fun x hx => h2 x (List.mem_cons_of_mem _ hx), h3, h4⟩
    simp only [search]
    rw [if_neg (by omega)]
    cases ht : attempt (candidate dir file) with
    | runs g =>
      simp only
      constructor
      · intro h
        cases h
        exact ⟨[], dir, dirs, rfl, by simp, inDir_iff.mpr rfl, ht⟩
      · rintro ⟨pre, d, post, h1, h2, h3, h4⟩
        cases pre with
        | nil =>
          cases h1
          rw [inDir_iff.mp h3, ht] at h4
          cases h4
          rw [inDir_iff.mp h3]
        | cons p pre =>
          cases h1
          have := absent_iff.mp (h2 dir (List.mem_cons_self ..))
          rw [ht] at this
          rcases this with h | h | h <;> cases h
    | refused e =>
      simp only
      split
      · rename_i he
        refine hrec (absent_iff.mpr ?_)
        rw [ht, he]; exact .inr (.inl rfl)
      · split
        · rename_i he
          refine hrec (absent_iff.mpr ?_)
          rw [ht]
          rcases he with rfl | rfl
          · exact .inl rfl
          · exact .inr (.inr rfl)
        · rename_i h1 h2
          constructor
          · intro h; cases h
          · rintro ⟨pre, d, post, g1, g2, g3, g4⟩
            cases pre with
            | nil =>
              cases g1
              rw [inDir_iff.mp g3, ht] at g4
              cases g4
            | cons p pre =>
              cases g1
              have := absent_iff.mp (g2 dir (List.mem_cons_self ..))
              rw [ht] at this
              unfold eAcces at h1
              unfold eNoEnt eNotDir at h2
              rcases this with h | h | h <;> cases h <;> omega

private theorem search_absent {attempt : Str → Attempt} {file : Str} {dirs : List Str}
    (hs : Short dirs) (ha : ∀ d ∈ dirs, Absent attempt d file) {denied : Bool} {last : Nat}
    (hl : last = 2 ∨ last = 13 ∨ last = 20) :
    ∃ e, search attempt file dirs denied last = .failed e ∧ (e = 2 ∨ e = 13 ∨ e = 20) ∧
      (denied = true ∨ (∃ d ∈ dirs, attempt (candidate d file) = .refused 13) → e = 13) := by
  induction dirs generalizing denied last with
  | nil =>
    refine ⟨_, rfl, ?_, ?_⟩
    · split
      · exact .inr (.inl rfl)
      · exact hl
    · rintro (h | ⟨d, h, -⟩)
      · simp [h, eAcces]
      · simp at h
  | cons dir dirs ih =>
    have hd := hs dir (List.mem_cons_self ..)
    have ih' := fun {denied last} => ih (denied := denied) (last := last)
      (fun d h => hs d (List.mem_cons_of_mem _ h))
      (fun d h => ha d (List.mem_cons_of_mem _ h))
    simp only [search]
    rw [if_neg (by omega)]
    rcases absent_iff.mp (ha dir (List.mem_cons_self ..)) with ht | ht | ht
    · obtain ⟨e, h1, h2, h3⟩ := ih' (denied := denied) (last := 2) (.inl rfl)
      refine ⟨e, by simp [ht, eAcces, eNoEnt, h1], h2, fun h => h3 (h.imp id ?_)⟩
      rintro ⟨d, g1, g2⟩
      rcases List.mem_cons.mp g1 with rfl | g1
      · rw [ht] at g2; cases g2
      · exact ⟨d, g1, g2⟩
    · obtain ⟨e, h1, h2, h3⟩ := ih' (denied := true) (last := 13) (.inr (.inl rfl))
      exact ⟨e, by simp [ht, eAcces, h1], h2, fun _ => h3 (.inl rfl)⟩
    · obtain ⟨e, h1, h2, h3⟩ := ih' (denied := denied) (last := 20) (.inr (.inr rfl))
      refine ⟨e, by simp [ht, eAcces, eNoEnt, eNotDir, h1], h2, fun h => h3 (h.imp id ?_)⟩
      rintro ⟨d, g1, g2⟩
      rcases List.mem_cons.mp g1 with rfl | g1
      · rw [ht] at g2; cases g2
      · exact ⟨d, g1, g2⟩

/-- C82 for paths with a slash: exactly this file is executed, whatever `PATH` is. -/
theorem C82_slash {path : Option Str} {attempt : Str → Attempt} {file q : Str} {f : ExeFile}
    (h : '/' ∈ file) :
    execvpe path attempt file = .found q f ↔ q = file ∧ attempt file = .runs f := by
  have hne : file ≠ [] := fun h0 => by rw [h0] at h; cases h
  unfold execvpe
  rw [if_neg hne, if_pos h]
  cases ha : attempt file with
  | runs g =>
    simp only [Outcome.found.injEq, Attempt.runs.injEq]
    constructor <;> rintro ⟨rfl, rfl⟩ <;> exact ⟨rfl, rfl⟩
  | refused e => simp

/-- C82 for names: the file executed is the first one of this name along the `PATH` of
cinit. -/
theorem C82_search {path attempt} {file q : Str} {f : ExeFile} {dirs : List Str}
    (h : '/' ∉ file) (hne : file ≠ []) (hlen : size file ≤ 255) (hd : Directories dirs path) :
    execvpe (some path) attempt file = .found q f ↔ FirstAlong attempt (usual dirs) file q f := by
  rw [← bytes_size] at hlen
  unfold execvpe
  rw [if_neg hne, if_neg h, if_neg (by omega), Option.getD_some, directories_iff.mp hd, search_usual]
  exact search_found (usual_short _)

/-- C82 for names: if cinit has no `PATH`, the file executed is the first one of this name in the
usual directories. -/
theorem C82_fallback {attempt} {file q : Str} {f : ExeFile}
    (h : '/' ∉ file) (hne : file ≠ []) (hlen : size file ≤ 255) :
    execvpe none attempt file = .found q f ↔ FirstAlong attempt fallback file q f := by
  have hf : splitOn ':' defaultPath = fallback := by decide +kernel
  rw [← bytes_size] at hlen
  unfold execvpe
  rw [if_neg hne, if_neg h, if_neg (by omega), Option.getD_none, hf]
  refine search_found fun d hd => ?_
  revert d
  decide +kernel

/-- C82 for names: there are no files with names of more than 255 bytes. -/
theorem C82_long {path attempt} {file : Str} (h : '/' ∉ file) (hlen : 255 < size file) :
    execvpe path attempt file = .failed 36 := by
  have hne : file ≠ [] := by rintro rfl; exact absurd hlen (by decide)
  rw [← bytes_size] at hlen
  unfold execvpe
  rw [if_neg hne, if_neg h, if_pos hlen]
  rfl

/-- C82 for names: if there is no such file along the `PATH` of cinit, the call fails, with
EACCES if one of them must not be executed, and with ENOENT or ENOTDIR otherwise. -/
theorem C82_missing {path attempt} {file : Str} {dirs : List Str}
    (h : '/' ∉ file) (hne : file ≠ []) (hlen : size file ≤ 255)
    (hd : Directories dirs path) (ha : ∀ d ∈ usual dirs, Absent attempt d file) :
    ∃ e, execvpe (some path) attempt file = .failed e ∧ (e = 2 ∨ e = 13 ∨ e = 20) ∧
      ((∃ d ∈ usual dirs, ∃ q, InDir d file q ∧ attempt q = .refused 13) → e = 13) := by
  rw [← bytes_size] at hlen
  unfold execvpe
  rw [if_neg hne, if_neg h, if_neg (by omega), Option.getD_some, directories_iff.mp hd, search_usual]
  obtain ⟨e, h1, h2, h3⟩ :=
    search_absent (usual_short dirs) ha (denied := false) (last := eNoEnt) (.inl rfl)
  refine ⟨e, h1, h2, ?_⟩
  rintro ⟨d, g1, q, g2, g3⟩
  rw [inDir_iff.mp g2] at g3
  exact h3 (.inr ⟨d, g1, g3⟩)

/-- C82 as stated: a program given by a name is the first one of this name along the `PATH`
it is given. -/
def C82_statement : Prop :=
  ∀ (s : Surroundings) (c : ProcessConfig) (p : Process) (attempt : Str → Attempt)
    (path q : Str) (f : ExeFile) (dirs : List Str),
    ProcessBuilder.processFrom s c = .ok p → ProperNames c →
    '/' ∉ p.path → p.path ≠ [] → size p.path ≤ 255 →
    EnvHas p.env "PATH".toList path → Directories dirs path →
    (execvpe (s.getenv "PATH".toList) attempt p.path = .found q f ↔
      FirstAlong attempt (usual dirs) p.path q f)

/-- C82 for all programs whose `PATH` is not configured, if cinit has got one: it is
forwarded, and the program is the first one of this name along it. Missing: programs with a
`PATH` of their own, for which it is false (`C82_violated`). -/
theorem C82_forwarded_partial {s : Surroundings} {c : ProcessConfig} {p : Process}
    {attempt : Str → Attempt} {path w q : Str} {f : ExeFile} {dirs : List Str}
    (h : ProcessBuilder.processFrom s c = .ok p) (hn : ProperNames c)
    (h1 : '/' ∉ p.path) (h2 : p.path ≠ []) (h3 : size p.path ≤ 255)
    (he : EnvHas p.env "PATH".toList path) (hd : Directories dirs path)
    (hm : ¬ Mentions c.env "PATH".toList) (hw : s.getenv "PATH".toList = some w) :
    execvpe (s.getenv "PATH".toList) attempt p.path = .found q f ↔
      FirstAlong attempt (usual dirs) p.path q f := by
  obtain ⟨user, -, hv⟩ := C08_values h hn
  have hdoc : "PATH".toList ∈ documented := by decide
  obtain ⟨-, -, -, h4⟩ := (hv _ hdoc hm path).mp he
  have := h4 (by decide)
  rw [hw, Option.getD_some] at this
  subst this
  rw [hw]
  exact C82_search h1 h2 h3 hd

/-- A program given by name, with a `PATH` of its own if `v` is given. -/
private def named (v : List (List (Str × Option Str))) : ProcessConfig :=
  { name := ['p'], path := some ['p'], env := v }

/-- The only such program is `/b/p`. -/
private def onlyB (q : Str) : Attempt :=
  if q = ['/', 'b', '/', 'p'] then .runs .plain else .refused 2

private theorem properNames_path {v : Option Str} :
    ProperNames (named [[(['P', 'A', 'T', 'H'], v)]]) := by
  rintro k ⟨e, h1, w, h2⟩
  simp only [named, List.mem_singleton] at h1
  subst h1
  simp only [List.mem_singleton, Prod.mk.injEq] at h2
  rw [h2.1]
  unfold ProperName
  decide

/-- C82 is false: the program has the `PATH` `/x` and is executed from `/b`, which is on the
`PATH` of cinit. -/
theorem C82_violated : ¬ C82_statement := by
  intro h
  obtain ⟨p, hp, hpath, henv⟩ : ∃ p,
      ProcessBuilder.processFrom sampleSystem (named [[(['P', 'A', 'T', 'H'], some ['/', 'x'])]]) =
        .ok p ∧ p.path = ['p'] ∧ EnvHas p.env ['P', 'A', 'T', 'H'] ['/', 'x'] := by
    refine ⟨_, rfl, ?_⟩
    unfold EnvHas
    decide +kernel
  have hb : size ['p'] ≤ 255 := by decide
  have := (h sampleSystem _ p onlyB ['/', 'x'] ['/', 'b', '/', 'p'] .plain [['/', 'x']] hp
    properNames_path (by rw [hpath]; decide) (by rw [hpath]; decide) (by rw [hpath]; exact hb)
    henv (.last (by decide))).mp (by rw [hpath]; rfl)
  obtain ⟨pre, d, post, h1, -, h3, h4⟩ := this
  have hd : d ∈ [['/', 'x']] := (List.mem_filter.mp (by rw [← usual, h1]; simp)).1
  rw [List.mem_singleton.mp hd, hpath] at h3
  have := inDir_iff.mp h3
  revert this
  decide

/-- The hypotheses of `C82_forwarded_partial` and of `C82_search`: the program is found. -/
example : ∃ p, ProcessBuilder.processFrom sampleSystem (named []) = .ok p ∧
    ProperNames (named []) ∧ '/' ∉ p.path ∧ p.path ≠ [] ∧ size p.path ≤ 255 ∧
    EnvHas p.env "PATH".toList ['/', 'b'] ∧ Directories [['/', 'b']] ['/', 'b'] ∧
    ¬ Mentions (named []).env "PATH".toList ∧
    execvpe (sampleSystem.getenv "PATH".toList) onlyB p.path =
      .found ['/', 'b', '/', 'p'] .plain := by
  have hb : size ['p'] ≤ 255 := by decide
  obtain ⟨p, hp, hpath, henv⟩ : ∃ p, ProcessBuilder.processFrom sampleSystem (named []) = .ok p ∧
      p.path = ['p'] ∧ EnvHas p.env ['P', 'A', 'T', 'H'] ['/', 'b'] := by
    refine ⟨_, rfl, ?_⟩
    unfold EnvHas
    decide +kernel
  refine ⟨p, hp, ?_, by rw [hpath]; decide, by rw [hpath]; decide, by rw [hpath]; exact hb, henv,
    .last (by decide), ?_, by rw [hpath]; rfl⟩
  · rintro k ⟨e, h1, -⟩
    cases h1
  · rintro ⟨e, h1, -⟩
    cases h1

/-- The hypotheses of `C82_missing`. -/
example : Directories [['/', 'x'], [], ['/', 'y']] ['/', 'x', ':', ':', '/', 'y'] ∧
    (∀ d ∈ [['/', 'x'], [], ['/', 'y']], Absent onlyB d ['p']) := by
  refine ⟨.more (d := ['/', 'x']) (by decide) (.more (d := []) (by decide) (.last (by decide))),
    fun d hd => ?_⟩
  rw [absent_iff]
  left
  simp only [List.mem_cons, List.not_mem_nil, or_false] at hd
  rcases hd with rfl | rfl | rfl <;> rfl

/-- The hypotheses of `C82_fallback`: a program in the second of the usual directories. -/
example : execvpe none (fun q => if q = "/bin/sh".toList then .runs .plain else .refused 2)
    ['s', 'h'] = .found "/bin/sh".toList .plain := by
  rw [C82_fallback (by decide) (by decide) (by decide)]
  exact ⟨["/usr/local/bin".toList], "/bin".toList, ["/usr/bin".toList], rfl, fun d hd q hq => by
    rw [List.mem_singleton.mp hd] at hq
    rw [inDir_iff.mp hq]
    exact .inl (if_neg (by decide +kernel)), inDir_iff.mpr (by decide +kernel), if_pos rfl⟩

/-- The hypotheses of `C82_long`: 128 characters of two bytes each. -/
example : 255 < size (List.replicate 128 'é') := by
  rw [← bytes_size]; decide +kernel

end Cinit.Props
