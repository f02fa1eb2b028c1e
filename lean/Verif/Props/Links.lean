import Verif.Proofs.Disk
import Verif.Props.Main
import Verif.Props.Runs
/-!
# C101: links in the directory of the configuration
-/

namespace Cinit.Props

open Spec
open Cinit.Disk (Disk Entry Node mem_files read_ok files_nodup trouble_tree bad_name_tree)

/-- C101 in full: if everything beneath the path of the configuration can be read, each file is taken
once, however many names and links lead to it. -/
def C101_statement : Prop :=
  ∀ (disk : Disk) (path : Str), WellNamed disk → ¬ Trouble disk path →
    ∃ fs : List (Nat × Str), (fs.map (·.1)).Nodup ∧
      (∀ i c, (i, c) ∈ fs ↔ (∃ ns, Found disk path ns i) ∧ disk.node i = .file (some c)) ∧
      readConfig (disk.tree path) = .ok (fs.map (·.2))

/-- C101: a file is taken as often as there are sequences of names leading to it, links included.
Missing: only once. -/
theorem C101_exact_partial {disk : Disk} {path : Str} (hw : WellNamed disk)
    (ht : ¬ Trouble disk path) :
    ∃ fs : List (List Str × Nat × Str), (fs.map (·.1)).Nodup ∧
      (∀ ns i c, (ns, i, c) ∈ fs ↔ Found disk path ns i ∧ disk.node i = .file (some c)) ∧
      readConfig (disk.tree path) = .ok (fs.map (·.2.2)) :=
  ⟨disk.files Disk.pathMax path, files_nodup hw _ _,
    mem_files hw _ _ ht (Nat.le_add_right _ _), read_ok hw _ _ ht (Nat.le_add_right _ _)⟩

/-- C101: each file is taken once if no two sequences of names lead to the same file. -/
theorem C101_once_partial {disk : Disk} {path : Str} (hw : WellNamed disk)
    (ht : ¬ Trouble disk path)
    (ho : ∀ ns ns' i c, Found disk path ns i → Found disk path ns' i →
      disk.node i = .file (some c) → ns = ns') :
    ∃ fs : List (Nat × Str), (fs.map (·.1)).Nodup ∧
      (∀ i c, (i, c) ∈ fs ↔ (∃ ns, Found disk path ns i) ∧ disk.node i = .file (some c)) ∧
      readConfig (disk.tree path) = .ok (fs.map (·.2)) := by
  obtain ⟨fs, h1, h2, h3⟩ := C101_exact_partial hw ht
  refine ⟨fs.map (·.2), ?_, ?_, by rw [h3, List.map_map]; rfl⟩
  · rw [List.map_map]
    rw [List.Nodup, List.pairwise_map] at h1 ⊢
    refine List.Pairwise.imp_of_mem ?_ h1
    intro a b ha hb hne he
    obtain ⟨ns, i, c⟩ := a
    obtain ⟨ns', i', c'⟩ := b
    simp only [Function.comp_apply] at he
    subst he
    obtain ⟨f1, g1⟩ := (h2 _ _ _).mp ha
    obtain ⟨f2, -⟩ := (h2 _ _ _).mp hb
    exact hne (ho _ _ _ _ f1 f2 g1)
  · intro i c
    simp only [List.mem_map]
    constructor
    · rintro ⟨⟨ns, i', c'⟩, hm, he⟩
      cases he
      obtain ⟨f, g⟩ := (h2 _ _ _).mp hm
      exact ⟨⟨ns, f⟩, g⟩
    · rintro ⟨⟨ns, f⟩, g⟩
      exact ⟨(ns, i, c), (h2 _ _ _).mpr ⟨f, g⟩, rfl⟩

/-- C101: each file is taken once if there are no links of any kind. -/
theorem C101_unlinked_partial {disk : Disk} {path : Str} (hw : WellNamed disk)
    (hu : Unlinked disk) (ht : ¬ Trouble disk path) :
    ∃ fs : List (Nat × Str), (fs.map (·.1)).Nodup ∧
      (∀ i c, (i, c) ∈ fs ↔ (∃ ns, Found disk path ns i) ∧ disk.node i = .file (some c)) ∧
      readConfig (disk.tree path) = .ok (fs.map (·.2)) := by
  refine C101_once_partial hw ht fun ns ns' i c h h' _ => ?_
  obtain ⟨r, -, hr⟩ := Disk.no_trouble_here hw ht
  exact Chain.unique hu _ _ _ (h.chain hw hu r hr) (h'.chain hw hu r hr)

/-- C101: nothing is loaded if beneath the path there is something that cannot be read. -/
theorem C101_trouble {disk : Disk} {path : Str} (hw : WellNamed disk) (ht : Trouble disk path) :
    readConfig (disk.tree path) = .err 1 ∨ readConfig (disk.tree path) = .panic .invalidUtf8 := by
  rcases readConfig_cases (disk.tree path) with ⟨h1, h2, -⟩ | ⟨-, h⟩ | ⟨-, h⟩
  · rcases trouble_tree hw ht Disk.pathMax with h | h
    · exact absurd h h1
    · exact absurd h h2
  · exact .inl h
  · exact .inr h

/-- C101: a link that leads, across other links or not, to the directory it is in makes cinit end with
exit code 1. Reading the configuration always ends. -/
theorem C101_cycle {x : Machine} {disk : Disk} {path : Str} (hx : x.tree = disk.tree path)
    (hw : WellNamed disk) (hr : ¬ Refused x.release x.uid)
    (hb : ∀ d parent entries listable j, disk.node d = .dir parent entries listable →
      ⟨none, j⟩ ∉ entries)
    {d j k : Nat} {n target : Str} {ns : List Str} (hf : Found disk path ns d)
    (hn : Names disk d n j) (ht : disk.node j = .link target) (hl : Leads disk d [n] k d) :
    run x = .exited 1 [] := by
  have key : Trouble disk path := by
    clear hx
    induction hf with
    | here h =>
      obtain ⟨h1, k, h2, h3⟩ := h
      exact Disk.cycle_trouble hw hn ht hl 41 _ k (by omega) h2 h1 h3
    | inside h1 h2 h3 _ ih => exact .inside h1 h2 h3 (ih hn hl)
  have hbad : ¬ HasBadName x.tree := by
    rw [hx]
    intro h
    obtain ⟨d, p, es, l, j, h1, h2⟩ := bad_name_tree _ _ h
    exact hb _ _ _ _ _ h1 h2
  refine C51_unreadable hr hbad (.inl (.inl ?_))
  rw [hx] at hbad ⊢
  exact (trouble_tree hw key _).resolve_right hbad

private theorem given_two {ps qs rs : List ProcessConfig} {p : ProcessConfig}
    (hp : p.path.isSome) {c : List ProcessConfig} (hc : p ∈ c) :
    2 ≤ (given (·.path) (entriesOf (ps ++ c ++ qs ++ c ++ rs) p.name)).length := by
  have h1 : 1 ≤ (given (·.path) (entriesOf c p.name)).length := by
    obtain ⟨v, hv⟩ := Option.isSome_iff_exists.mp hp
    have : v ∈ given (·.path) (entriesOf c p.name) :=
      List.mem_filterMap.mpr ⟨p, List.mem_filter.mpr ⟨hc, by simp⟩, hv⟩
    exact List.length_pos_of_mem this
  unfold given entriesOf at h1 ⊢
  simp only [List.filter_append, List.filterMap_append, List.length_append]
  omega

/-- C101: if two sequences of names lead to the same file and this file gives the path of a program,
cinit ends with exit code 1. -/
theorem C101_twice {x : Machine} {disk : Disk} {path : Str} (hx : x.tree = disk.tree path)
    (hw : WellNamed disk) (ht : ¬ Trouble disk path) (hr : ¬ Refused x.release x.uid)
    {ns ns' : List Str} {i : Nat} (h : Found disk path ns i) (h' : Found disk path ns' i)
    (hne : ns ≠ ns') {c : Str} (hc : disk.node i = .file (some c)) {config : Config}
    (hy : x.yaml c = some config) {p : ProcessConfig} (hp : p ∈ config.programs)
    (hpath : p.path.isSome) : run x = .exited 1 [] := by
  obtain ⟨fs, h1, h2, h3⟩ := C101_exact_partial hw ht
  have m1 := (h2 ns i c).mpr ⟨h, hc⟩
  have m2 := (h2 ns' i c).mpr ⟨h', hc⟩
  have two : ∃ as bs cs : List Str, fs.map (·.2.2) = as ++ [c] ++ bs ++ [c] ++ cs := by
    obtain ⟨l, r, rfl⟩ := List.append_of_mem m1
    simp only [List.mem_append, List.mem_cons, Prod.mk.injEq] at m2
    rcases m2 with m2 | ⟨e, -⟩ | m2
    · obtain ⟨l1, l2, rfl⟩ := List.append_of_mem m2
      exact ⟨l1.map (·.2.2), l2.map (·.2.2), r.map (·.2.2), by simp⟩
    · exact absurd e.symm hne
    · obtain ⟨l1, l2, rfl⟩ := List.append_of_mem m2
      exact ⟨l.map (·.2.2), l1.map (·.2.2), l2.map (·.2.2), by simp⟩
  have hparse : parseConfig x.yaml x.mergeOrder x.tree = .err 1 := by
    unfold parseConfig
    rw [hx, h3]
    simp only [Res.bind_ok]
    obtain ⟨as, bs, cs, e⟩ := two
    rw [e]
    cases hq : parseRawConfig x.yaml (as ++ [c] ++ bs ++ [c] ++ cs) with
    | panic q =>
      unfold parseRawConfig at hq
      split at hq <;> cases hq
    | err q =>
      unfold parseRawConfig at hq
      split at hq <;> cases hq
      rfl
    | ok all =>
      simp only [Res.bind_ok]
      refine (C02_duplicates_rejected x.mergeOrder all).1 ⟨p.name, .inl ?_⟩
      rw [(parseRawConfig_ok hq).2]
      simp only [List.filterMap_append, List.flatMap_append, List.filterMap_cons, hy,
        List.filterMap_nil, List.flatMap_cons, List.flatMap_nil, List.append_nil]
      exact given_two hpath hp
  unfold run orExit
  rcases C50_checks x.release x.uid with ⟨-, h2⟩ | ⟨h1, -⟩
  · exact absurd h2 hr
  · rw [h1]
    simp only
    rw [hparse]

/-! ## A volume of Kubernetes

The files of a ConfigMap are in a directory named after the time, a link `..data` leads to this
directory, and a link for each file leads through `..data`. -/

/-- `/c` is such a volume with one file. -/
def volume : Disk where
  root := 0
  cwd := 0
  node
    | 0 => .dir 0 [⟨some "c".toList, 1⟩] true
    | 1 => .dir 0 [⟨some "..2026".toList, 2⟩, ⟨some "..data".toList, 3⟩,
        ⟨some "web.yml".toList, 4⟩] true
    | 2 => .dir 1 [⟨some "web.yml".toList, 5⟩] true
    | 3 => .link "..2026".toList
    | 4 => .link "..data/web.yml".toList
    | 5 => .file (some "web".toList)
    | _ => .special

theorem volume_dirs {d parent : Nat} {entries : List Entry} {listable : Bool}
    (h : volume.node d = .dir parent entries listable) :
    entries = [⟨some "c".toList, 1⟩] ∨
    entries = [⟨some "..2026".toList, 2⟩, ⟨some "..data".toList, 3⟩, ⟨some "web.yml".toList, 4⟩] ∨
    entries = [⟨some "web.yml".toList, 5⟩] := by
  unfold volume at h
  dsimp only at h
  split at h <;> cases h <;> simp

theorem volume_named : WellNamed volume := by
  constructor
  · intro d parent entries listable h
    rcases volume_dirs h with rfl | rfl | rfl <;> decide
  · rintro d n i ⟨parent, entries, listable, h, hm⟩
    have : ∀ e ∈ entries, e.name ≠ some [] ∧ e.name ≠ some ['.'] ∧ e.name ≠ some ['.', '.'] ∧
        ∀ n, e.name = some n → '/' ∉ n := by
      rcases volume_dirs h with rfl | rfl | rfl <;> simp
    obtain ⟨h1, h2, h3, h4⟩ := this _ hm
    simp only [ne_eq, Option.some.injEq] at h1 h2 h3
    exact ⟨h1, h2, h3, h4 _ rfl⟩

theorem volume_read : readConfig (volume.tree "/c".toList) =
    .ok ["web".toList, "web".toList, "web".toList] := by decide +kernel

theorem volume_fine : ¬ Trouble volume "/c".toList := by
  intro h
  rcases C101_trouble volume_named h with h | h <;> rw [volume_read] at h <;> cases h

/-- C101 is false: the file of a ConfigMap is taken three times. -/
theorem C101_violated : ¬ C101_statement := by
  intro h
  obtain ⟨fs, h1, h2, h3⟩ := h volume _ volume_named volume_fine
  rw [volume_read] at h3
  have hall : ∀ x ∈ fs, x.1 = 5 := by
    rintro ⟨i, c⟩ hm
    have := ((h2 i c).mp hm).2
    unfold volume at this
    dsimp only at this
    split at this <;> cases this
    rfl
  match fs, h1, h3, hall with
  | [], _, h3, _ => cases h3
  | [a], _, h3, _ => simp at h3
  | a :: b :: rest, h1, _, hall =>
    have ha := hall a (by simp)
    have hb := hall b (by simp)
    simp [ha, hb] at h1

/-- C101: with such a volume cinit ends with exit code 1, though the file in it is loaded without
objection. -/
theorem C101_volume {x : Machine} (hx : x.tree = volume.tree "/c".toList)
    (hr : ¬ Refused x.release x.uid) {config : Config}
    (hy : x.yaml "web".toList = some config) {p : ProcessConfig} (hp : p ∈ config.programs)
    (hpath : p.path.isSome) :
    run x = .exited 1 [] ∧
      readConfig (volume.tree "/c/..data/web.yml".toList) = .ok ["web".toList] := by
  obtain ⟨fs, h1, h2, h3⟩ := C101_exact_partial volume_named volume_fine
  rw [volume_read] at h3
  refine ⟨?_, by decide +kernel⟩
  match fs, h1, h2, h3 with
  | [], _, _, h3 => cases h3
  | [a], _, _, h3 => simp at h3
  | a :: b :: rest, h1, h2, h3 =>
    obtain ⟨ns, i, c⟩ := a
    obtain ⟨ns', i', c'⟩ := b
    obtain ⟨f1, g1⟩ := (h2 ns i c).mp (by simp)
    obtain ⟨f2, g2⟩ := (h2 ns' i' c').mp (by simp)
    have five : ∀ i c, volume.node i = .file (some c) → i = 5 := by
      intro i c h
      unfold volume at h
      dsimp only at h
      split at h <;> cases h
      rfl
    cases five _ _ g1
    cases five _ _ g2
    simp only [List.map_cons, List.nodup_cons, List.mem_cons, not_or] at h1
    have hc : c = "web".toList := by
      simp only [List.map_cons, Res.ok.injEq, List.cons.injEq] at h3
      exact h3.1.symm
    exact C101_twice hx volume_named volume_fine hr f1 f2 h1.1.1 g1 (hc ▸ hy) hp hpath

example : ∃ x : Machine, x.tree = volume.tree "/c".toList ∧ ¬ Refused x.release x.uid ∧
    x.yaml "web".toList = some ⟨[prog 'a' .oneshot]⟩ ∧ run x = .exited 1 [] :=
  ⟨{ machine [] with
      tree := volume.tree "/c".toList, yaml := fun _ => some ⟨[prog 'a' .oneshot]⟩ },
    rfl, (by
      rcases C50_checks (some "5.10.0".toList) 0 with ⟨h, -⟩ | ⟨-, h⟩
      · exact absurd h (by decide)
      · exact h), rfl, by
      have h : ¬ Refused (some "5.10.0".toList) 0 := by
        rcases C50_checks (some "5.10.0".toList) 0 with ⟨h, -⟩ | ⟨-, h⟩
        · exact absurd h (by decide)
        · exact h
      exact (C101_volume (x := { machine [] with
        tree := volume.tree "/c".toList, yaml := fun _ => some ⟨[prog 'a' .oneshot]⟩ }) rfl h
        (config := ⟨[prog 'a' .oneshot]⟩) rfl (p := prog 'a' .oneshot) (by simp) rfl).1⟩

/-! ## A link to its own directory -/

/-- `/c` has a link `all` to itself. -/
def loop : Disk where
  root := 0
  cwd := 0
  node
    | 0 => .dir 0 [⟨some "c".toList, 1⟩] true
    | 1 => .dir 0 [⟨some "all".toList, 2⟩] true
    | 2 => .link "../c/".toList
    | _ => .special

theorem loop_dirs {d parent : Nat} {entries : List Entry} {listable : Bool}
    (h : loop.node d = .dir parent entries listable) :
    entries = [⟨some "c".toList, 1⟩] ∨ entries = [⟨some "all".toList, 2⟩] := by
  unfold loop at h
  dsimp only at h
  split at h <;> cases h <;> simp

theorem loop_named : WellNamed loop := by
  constructor
  · intro d parent entries listable h
    rcases loop_dirs h with rfl | rfl <;> decide
  · rintro d n i ⟨parent, entries, listable, h, hm⟩
    have : ∀ e ∈ entries, e.name ≠ some [] ∧ e.name ≠ some ['.'] ∧ e.name ≠ some ['.', '.'] ∧
        ∀ n, e.name = some n → '/' ∉ n := by
      rcases loop_dirs h with rfl | rfl <;> simp
    obtain ⟨h1, h2, h3, h4⟩ := this _ hm
    simp only [ne_eq, Option.some.injEq] at h1 h2 h3
    exact ⟨h1, h2, h3, h4 _ rfl⟩

/-- `C101_cycle` applied. -/
theorem loop_ends {x : Machine} (hx : x.tree = loop.tree "/c".toList)
    (hr : ¬ Refused x.release x.uid) : run x = .exited 1 [] := by
  refine C101_cycle (d := 1) (j := 2) (k := 1) (n := "all".toList) (target := "../c/".toList)
    (ns := []) hx loop_named hr ?_ (.here ?_) ⟨0, _, true, rfl, by simp⟩ rfl ?_
  · intro d parent entries listable j h hm
    rcases loop_dirs h with rfl | rfl <;> simp at hm
  · exact (Disk.metadata_iff loop_named).mp (by decide)
  · exact .link (b := 1) (j := 2) (ts := ["..".toList, "c".toList, []]) (target := "../c/".toList)
      ⟨0, _, true, rfl, by simp⟩ rfl (.inr ⟨rfl, by simp⟩)
      (.more (w := "..".toList) (by decide) (.more (w := "c".toList) (by decide) (.last (by simp))))
      (.up (parent := 0) ⟨_, true, rfl⟩ (.enter (j := 1) ⟨0, _, true, rfl, by simp⟩
        (fun t h => by cases h) (.here (parent := 0) ⟨_, true, rfl⟩ (.inl rfl) (.done 1))))

/-! ## A plain directory -/

/-- `/c` with two files. -/
def flat : Disk where
  root := 0
  cwd := 0
  node
    | 0 => .dir 0 [⟨some "c".toList, 1⟩] true
    | 1 => .dir 0 [⟨some "a".toList, 2⟩, ⟨some "b".toList, 3⟩] true
    | 2 => .file (some "x".toList)
    | 3 => .file (some "x".toList)
    | _ => .special

theorem flat_dirs {d parent : Nat} {entries : List Entry} {listable : Bool}
    (h : flat.node d = .dir parent entries listable) :
    d = 0 ∧ entries = [⟨some "c".toList, 1⟩] ∨
    d = 1 ∧ entries = [⟨some "a".toList, 2⟩, ⟨some "b".toList, 3⟩] := by
  unfold flat at h
  dsimp only at h
  split at h <;> cases h <;> simp

theorem flat_names {d i : Nat} {n : Str} (h : Names flat d n i) :
    d = 0 ∧ n = "c".toList ∧ i = 1 ∨ d = 1 ∧ n = "a".toList ∧ i = 2 ∨
      d = 1 ∧ n = "b".toList ∧ i = 3 := by
  obtain ⟨p, es, l, h, hm⟩ := h
  rcases flat_dirs h with ⟨rfl, rfl⟩ | ⟨rfl, rfl⟩
  · simp only [List.mem_singleton, Entry.mk.injEq, Option.some.injEq] at hm
    exact .inl ⟨rfl, hm⟩
  · simp only [List.mem_cons, List.not_mem_nil, or_false, Entry.mk.injEq, Option.some.injEq] at hm
    rcases hm with hm | hm
    · exact .inr (.inl ⟨rfl, hm⟩)
    · exact .inr (.inr ⟨rfl, hm⟩)

/-- This disk meets the hypotheses of `C101_unlinked_partial`. -/
example : WellNamed flat ∧ Unlinked flat ∧ ¬ Trouble flat "/c".toList := by
  have hw : WellNamed flat := by
    constructor
    · intro d parent entries listable h
      rcases flat_dirs h with ⟨rfl, rfl⟩ | ⟨rfl, rfl⟩ <;> decide
    · intro d n i h
      rcases flat_names h with ⟨-, rfl, -⟩ | ⟨-, rfl, -⟩ | ⟨-, rfl, -⟩ <;> simp
  refine ⟨hw, ⟨?_, ?_, ?_⟩, ?_⟩
  · intro i target h
    unfold flat at h
    dsimp only at h
    split at h <;> cases h
  · intro d n d' n' i h h'
    rcases flat_names h with ⟨rfl, rfl, rfl⟩ | ⟨rfl, rfl, rfl⟩ | ⟨rfl, rfl, rfl⟩ <;>
      rcases flat_names h' with ⟨rfl, rfl, h⟩ | ⟨rfl, rfl, h⟩ | ⟨rfl, rfl, h⟩ <;>
      first | exact ⟨rfl, rfl⟩ | omega
  · have up : ∀ d ns i, Chain flat d ns i → ns = [] ∨ d < i := by
      intro d ns i h
      induction h with
      | done d => exact .inl rfl
      | step hn _ ih =>
        right
        have : ∀ {d n i}, Names flat d n i → d < i := by
          intro d n i h
          rcases flat_names h with ⟨rfl, -, rfl⟩ | ⟨rfl, -, rfl⟩ | ⟨rfl, -, rfl⟩ <;> omega
        rcases ih with rfl | ih
        · rename_i hc; cases hc; exact this hn
        · exact Nat.lt_trans (this hn) ih
    intro d ns h
    exact (up d ns d h).resolve_right (Nat.lt_irrefl _)
  · intro h
    have : readConfig (flat.tree "/c".toList) = .ok ["x".toList, "x".toList] := by decide +kernel
    rcases C101_trouble hw h with h | h <;> rw [this] at h <;> cases h

end Cinit.Props
