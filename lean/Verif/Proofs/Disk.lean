import Verif.Spec.Links
import Verif.Proofs.ConfigTree
import Verif.Proofs.CronParse
import Mathlib.Data.List.Nodup
import Mathlib.Data.List.Induction
/-!
# Lemmas about paths and links
-/

namespace Cinit.Disk

open Cinit Cinit.Spec

/-! ## Paths -/

theorem pieces_iff {ws : List Str} {s : Str} : Pieces ws s ↔ splitOn '/' s = ws := by
  constructor
  · intro h
    induction h with
    | last h =>
      exact splitWith_of_none fun c hc => by simpa using fun e : c = '/' => h (e ▸ hc)
    | more h _ ih =>
      rw [← ih]
      exact splitWith_append (fun c hc => by simpa using fun e : c = '/' => h (e ▸ hc)) (by simp)
  · intro h
    induction ws generalizing s with
    | nil => exact absurd h (splitWith_ne_nil _ _)
    | cons w ws ih =>
      obtain ⟨h1, ⟨rfl, rfl⟩ | ⟨c, t, h2, rfl, h3⟩⟩ := splitWith_head h
      · exact .last fun hm => by simpa using h1 _ hm
      · have : c = '/' := by simpa using h2
        subst this
        exact .more (fun hm => by simpa using h1 _ hm) (ih h3)

theorem pieces_exists (s : Str) : Pieces (splitOn '/' s) s := pieces_iff.mpr rfl

/-- `.` for an empty piece. -/
def dot (w : Str) : Str := if w = [] then ['.'] else w

theorem components_eq (s : Str) : components s = (splitOn '/' s).map dot := rfl

theorem begins_iff {disk : Disk} {d : Nat} {path : Str} {b : Nat} :
    Begins disk d path b ↔ b = disk.start d path := by
  unfold Begins Disk.start
  cases path with
  | nil => simp
  | cons c s =>
    by_cases hc : c = '/'
    · subst hc; simp
    · simp [hc]

theorem below_iff {path n path' : Str} : Below path n path' ↔ path' = join path n := by
  unfold join
  constructor
  · rintro (_ | h)
    · simp
    · rw [if_neg h]
  · intro h
    split at h
    · rename_i hs
      obtain ⟨p, rfl⟩ : ∃ p, path = p ++ ['/'] := by
        rcases List.eq_nil_or_concat path with rfl | ⟨p, c, rfl⟩
        · cases hs
        · simp at hs; exact ⟨p, by simp [hs]⟩
      subst h
      simpa using Below.slash
    · rename_i hs
      subst h
      exact .plain hs

theorem bytes_join {path n : Str} (hn : n ≠ []) : bytes path + 1 ≤ bytes (join path n) := by
  have h1 : ∀ c : Char, 1 ≤ c.utf8Size := fun c => c.utf8Size_pos
  unfold join bytes
  cases n with
  | nil => exact absurd rfl hn
  | cons c n =>
    have := h1 c
    split <;> simp <;> omega

/-! ## Resolution -/

theorem lookup_iff {entries : List Entry} (hd : (entries.map (·.name)).Nodup) {n : Str} {i : Nat} :
    lookup entries n = some i ↔ ⟨some n, i⟩ ∈ entries := by
  unfold lookup
  induction entries with
  | nil => simp
  | cons e es ih =>
    simp only [List.map_cons, List.nodup_cons] at hd
    by_cases he : e.name = some n
    · rw [List.find?_cons_of_pos (by simp [he])]
      simp only [Option.map_some, Option.some.injEq, List.mem_cons]
      constructor
      · rintro rfl; left; cases e; simp_all
      · rintro (rfl | h)
        · rfl
        · exact absurd (List.mem_map.mpr ⟨_, h, he.symm⟩) hd.1
    · rw [List.find?_cons_of_neg (by simp [he]), ih hd.2]
      simp only [List.mem_cons]
      constructor
      · exact .inr
      · rintro (rfl | h)
        · exact absurd rfl he
        · exact h

variable {disk : Disk}

theorem names_dir {d parent : Nat} {entries : List Entry} {listable : Bool} {n : Str} {i : Nat}
    (h : disk.node d = .dir parent entries listable) : Names disk d n i ↔ ⟨some n, i⟩ ∈ entries := by
  constructor
  · rintro ⟨p, es, l, h', hm⟩
    rw [h] at h'
    cases h'
    exact hm
  · exact fun hm => ⟨_, _, _, h, hm⟩

theorem walk_sound_aux (hw : WellNamed disk) {left : Nat}
    {follow : Nat → List Str → Option (Nat × Nat)}
    (hf : ∀ d ws r, follow d (ws.map dot) = some r →
      ∃ k, Leads disk d ws k r.1 ∧ k + 1 + r.2 = left) (ws : List Str) :
    ∀ d r, disk.walkWith follow left d (ws.map dot) = some r →
      ∃ k, Leads disk d ws k r.1 ∧ k + r.2 = left := by
  induction ws with
  | nil =>
    intro d r h
    simp only [List.map_nil, Disk.walkWith, Option.some.injEq] at h
    subst h
    exact ⟨0, .done _, by simp⟩
  | cons w ws ih =>
    intro d r h
    simp only [List.map_cons] at h
    unfold Disk.walkWith at h
    split at h
    · rename_i parent entries listable hd
      by_cases h1 : dot w = ['.']
      · rw [if_pos h1] at h
        obtain ⟨k, hl, hk⟩ := ih _ _ h
        refine ⟨k, .here ⟨_, _, hd⟩ ?_ hl, hk⟩
        unfold dot at h1
        split at h1
        · exact .inl ‹_›
        · exact .inr h1
      · rw [if_neg h1] at h
        have hw' : dot w = w := by
          unfold dot at h1 ⊢
          split
          · rename_i e; rw [if_pos e] at h1; exact absurd rfl h1
          · rfl
        rw [hw'] at h
        by_cases h2 : w = ['.', '.']
        · rw [if_pos h2] at h
          obtain ⟨k, hl, hk⟩ := ih _ _ h
          subst h2
          exact ⟨k, .up ⟨_, _, hd⟩ hl, hk⟩
        · rw [if_neg h2] at h
          split at h
          · cases h
          · rename_i j hj
            have hn : Names disk d w j :=
              (names_dir hd).mpr ((lookup_iff (hw.distinct _ _ _ _ hd)).mp hj)
            split at h
            · rename_i target ht
              rw [components_eq, ← List.map_append] at h
              obtain ⟨k, hl, hk⟩ := hf _ _ _ h
              exact ⟨k + 1, .link hn ht (begins_iff.mpr rfl) (pieces_exists _) hl, hk⟩
            · rename_i hnl
              obtain ⟨k, hl, hk⟩ := ih _ _ h
              exact ⟨k, .enter hn (fun t e => hnl t e) hl, hk⟩
    · cases h

theorem walk_sound (hw : WellNamed disk) (left : Nat) : ∀ (d : Nat) (ws : List Str) (r : Nat × Nat),
    disk.walk left d (ws.map dot) = some r → ∃ k, Leads disk d ws k r.1 ∧ k + r.2 = left := by
  induction left with
  | zero =>
    intro d ws r h
    unfold Disk.walk at h
    exact walk_sound_aux hw (fun _ _ _ h => by cases h) ws d r h
  | succ n ih =>
    intro d ws r h
    unfold Disk.walk at h
    refine walk_sound_aux hw (fun d ws r h => ?_) ws d r h
    obtain ⟨k, h1, h2⟩ := ih _ _ _ h
    exact ⟨k, h1, by omega⟩

theorem walk_with (left : Nat) : ∃ follow, disk.walk left = disk.walkWith follow left ∧
    ∀ n, left = n + 1 → follow = disk.walk n := by
  cases left with
  | zero => exact ⟨_, by unfold Disk.walk; rfl, fun n h => by omega⟩
  | succ n => exact ⟨_, by conv_lhs => unfold Disk.walk, fun m h => by cases h; rfl⟩

theorem walk_complete (hw : WellNamed disk) {d : Nat} {ws : List Str} {k i : Nat}
    (h : Leads disk d ws k i) : ∀ r, disk.walk (k + r) d (ws.map dot) = some (i, r) := by
  induction h with
  | done d =>
    intro r
    obtain ⟨f, h1, -⟩ := walk_with (disk := disk) (0 + r)
    rw [h1]
    simp [Disk.walkWith]
  | @here d parent w ws k i hd hdot _ ih =>
    intro r
    have ih := ih r
    obtain ⟨f, h1, -⟩ := walk_with (disk := disk) (k + r)
    rw [h1] at ih ⊢
    obtain ⟨es, l, hd⟩ := hd
    have : dot w = ['.'] := by
      rcases hdot with rfl | rfl <;> simp [dot]
    simp only [List.map_cons, this, Disk.walkWith, hd, if_true]
    exact ih
  | @up d parent ws k i hd _ ih =>
    intro r
    have ih := ih r
    obtain ⟨f, h1, -⟩ := walk_with (disk := disk) (k + r)
    rw [h1] at ih ⊢
    obtain ⟨es, l, hd⟩ := hd
    have : dot ['.', '.'] = ['.', '.'] := by decide
    simp only [List.map_cons, this, Disk.walkWith, hd, if_true]
    exact ih
  | @enter d j w ws k i hn hl _ ih =>
    intro r
    have ih := ih r
    obtain ⟨f, h1, -⟩ := walk_with (disk := disk) (k + r)
    rw [h1] at ih ⊢
    obtain ⟨p1, p2, p3, -⟩ := hw.proper _ _ _ hn
    obtain ⟨p, es, l, hd, hm⟩ := hn
    have : dot w = w := if_neg p1
    simp only [List.map_cons, this, Disk.walkWith, hd, if_neg p2, if_neg p3]
    rw [(lookup_iff (hw.distinct _ _ _ _ hd)).mpr hm]
    simp only
    exact ih
  | @link d j b w target ts ws k i hn ht hb hp _ ih =>
    intro r
    have ih := ih r
    obtain ⟨f, h1, h2⟩ := walk_with (disk := disk) (k + 1 + r)
    rw [h1]
    have h2 := h2 (k + r) (by omega)
    obtain ⟨p1, p2, p3, -⟩ := hw.proper _ _ _ hn
    obtain ⟨p, es, l, hd, hm⟩ := hn
    have : dot w = w := if_neg p1
    simp only [List.map_cons, this, Disk.walkWith, hd, if_neg p2, if_neg p3]
    rw [(lookup_iff (hw.distinct _ _ _ _ hd)).mpr hm]
    simp only [ht, h2]
    rw [begins_iff] at hb
    rw [pieces_iff] at hp
    rw [components_eq, hp, ← hb, ← List.map_append]
    exact ih

theorem _root_.Cinit.Spec.Leads.unique (hw : WellNamed disk) {d : Nat} {ws : List Str} {k i k' i' : Nat}
    (h : Leads disk d ws k i) (h' : Leads disk d ws k' i') : k = k' ∧ i = i' := by
  have e := walk_complete hw h k'
  have e' := walk_complete hw h' k
  rw [Nat.add_comm, e'] at e
  simp only [Option.some.injEq, Prod.mk.injEq] at e
  exact ⟨e.2, e.1.symm⟩

theorem _root_.Cinit.Spec.PathTo.unique (hw : WellNamed disk) {path : Str} {k i k' i' : Nat}
    (h : PathTo disk path k i) (h' : PathTo disk path k' i') : k = k' ∧ i = i' := by
  obtain ⟨-, b, ws, hb, hp, h⟩ := h
  obtain ⟨-, b', ws', hb', hp', h'⟩ := h'
  rw [begins_iff] at hb hb'
  rw [pieces_iff] at hp hp'
  subst hb hb' hp hp'
  exact Leads.unique hw h h'

theorem _root_.Cinit.Spec.At.unique (hw : WellNamed disk) {path : Str} {i i' : Nat}
    (h : At disk path i) (h' : At disk path i') : i = i' := by
  obtain ⟨-, k, -, h⟩ := h
  obtain ⟨-, k', -, h'⟩ := h'
  exact (PathTo.unique hw h h').2

theorem metadata_iff (hw : WellNamed disk) {path : Str} {i : Nat} :
    disk.metadata path = some i ↔ At disk path i := by
  unfold Disk.metadata At PathTo
  constructor
  · intro h
    split at h
    · cases h
    · rename_i hc
      simp only [not_or, Nat.not_le] at hc
      cases hr : disk.walk maxLinks (disk.start disk.cwd path) (components path) with
      | none => rw [hr] at h; cases h
      | some r =>
        rw [hr] at h
        simp only [Option.map_some, Option.some.injEq] at h
        subst h
        rw [components_eq] at hr
        obtain ⟨k, h1, h2⟩ := walk_sound hw _ _ _ _ hr
        have : maxLinks = 40 := rfl
        exact ⟨hc.2, k, by omega, hc.1, _, _, begins_iff.mpr rfl, pieces_exists _, h1⟩
  · rintro ⟨hl, k, hk, hne, b, ws, hb, hp, h⟩
    rw [if_neg (by simp only [not_or, Nat.not_le]; exact ⟨hne, hl⟩)]
    rw [begins_iff] at hb
    rw [pieces_iff] at hp
    have := walk_complete hw h (maxLinks - k)
    have hm : maxLinks = 40 := rfl
    rw [show k + (maxLinks - k) = maxLinks by omega] at this
    rw [components_eq, hp, ← hb, this]
    rfl

/-! ## What is read -/

/-- The files beneath a path: the names leading to them, their inodes and contents. -/
def Disk.files (disk : Disk) : Nat → Str → List (List Str × Nat × Str)
  | 0, _ => []
  | fuel + 1, path =>
    match disk.metadata path with
    | none => []
    | some i =>
      match disk.node i with
      | .file (some content) => [([], i, content)]
      | .dir _ entries true =>
        entries.flatMap fun e =>
          match e.name with
          | none => []
          | some n => (disk.files fuel (join path n)).map fun x => (n :: x.1, x.2)
      | _ => []

theorem readEntries_map {α : Type} {f : α → FileTree} {g : α → List Str} {es : List α}
    (h : ∀ e ∈ es, readConfig (f e) = .ok (g e)) : readEntries (es.map f) = .ok (es.flatMap g) := by
  induction es with
  | nil => rfl
  | cons e es ih =>
    simp only [List.map_cons, readEntries, h e (by simp), ih fun x hx => h x (by simp [hx]),
      Res.bind_ok, List.flatMap_cons]

theorem bytes_eq (path : Str) : bytes path = (path.map Char.utf8Size).sum := rfl

theorem no_trouble_here (hw : WellNamed disk) {path : Str} (h : ¬ Trouble disk path) :
    ∃ i, disk.metadata path = some i ∧ At disk path i := by
  by_cases hn : ∃ i, At disk path i
  · obtain ⟨i, hi⟩ := hn
    exact ⟨i, (metadata_iff hw).mpr hi, hi⟩
  · exact absurd (.nowhere fun i hi => hn ⟨i, hi⟩) h

theorem read_ok (hw : WellNamed disk) (fuel : Nat) : ∀ path : Str, ¬ Trouble disk path →
    pathMax ≤ fuel + bytes path →
    readConfig (disk.view fuel path) = .ok ((disk.files fuel path).map (·.2.2)) := by
  induction fuel with
  | zero =>
    intro path ht hb
    obtain ⟨i, -, h, -⟩ := no_trouble_here hw ht
    have : pathMax = 4096 := rfl
    rw [bytes_eq] at hb
    omega
  | succ fuel ih =>
    intro path ht hb
    obtain ⟨i, hm, hi⟩ := no_trouble_here hw ht
    unfold Disk.view Disk.files
    simp only [hm]
    cases hn : disk.node i with
    | file c =>
      cases c with
      | none => exact absurd (.file hi hn) ht
      | some c => rfl
    | special => rfl
    | link t => rfl
    | dir parent entries listable =>
      cases listable with
      | false => exact absurd (.dir hi hn) ht
      | true =>
        simp only [readConfig, List.map_flatMap]
        refine readEntries_map fun e he => ?_
        obtain ⟨name, j⟩ := e
        cases name with
        | none => exact absurd (.name hi hn he) ht
        | some n =>
          have hnames : Names disk i n j := (names_dir hn).mpr he
          have h1 := bytes_join (path := path) (hw.proper _ _ _ hnames).1
          simp only
          rw [ih (join path n) (fun h => ht (.inside hi hnames (below_iff.mpr rfl) h)) (by omega)]
          simp [Function.comp_def]

theorem mem_files (hw : WellNamed disk) (fuel : Nat) : ∀ path : Str, ¬ Trouble disk path →
    pathMax ≤ fuel + bytes path → ∀ (ns : List Str) (i : Nat) (c : Str),
    ((ns, i, c) ∈ disk.files fuel path ↔ Found disk path ns i ∧ disk.node i = .file (some c)) := by
  induction fuel with
  | zero =>
    intro path ht hb
    obtain ⟨i, -, h, -⟩ := no_trouble_here hw ht
    have : pathMax = 4096 := rfl
    rw [bytes_eq] at hb
    omega
  | succ fuel ih =>
    intro path ht hb ns i c
    obtain ⟨r, hm, hr⟩ := no_trouble_here hw ht
    unfold Disk.files
    simp only [hm]
    constructor
    · intro h
      cases hn : disk.node r with
      | file c' =>
        cases c' with
        | none => simp [hn] at h
        | some c' =>
          simp only [hn, List.mem_singleton, Prod.mk.injEq] at h
          obtain ⟨rfl, rfl, rfl⟩ := h
          exact ⟨.here hr, hn⟩
      | special => simp [hn] at h
      | link t => simp [hn] at h
      | dir parent entries listable =>
        cases listable with
        | false => simp [hn] at h
        | true =>
          simp only [hn, List.mem_flatMap] at h
          obtain ⟨⟨name, j⟩, he, h⟩ := h
          cases name with
          | none => cases h
          | some n =>
            have hnames : Names disk r n j := (names_dir hn).mpr he
            have h1 := bytes_join (path := path) (hw.proper _ _ _ hnames).1
            simp only [List.mem_map, Prod.mk.injEq] at h
            obtain ⟨⟨ns', i', c'⟩, h, rfl, rfl, rfl⟩ := h
            obtain ⟨h2, h3⟩ := (ih (join path n)
              (fun h => ht (.inside hr hnames (below_iff.mpr rfl) h)) (by omega) _ _ _).mp h
            exact ⟨.inside hr hnames (below_iff.mpr rfl) h2, h3⟩
    · rintro ⟨hf, hc⟩
      cases hf with
      | here h =>
        cases At.unique hw h hr
        simp [hc]
      | @inside _ path' n ns d j _ h hnames hb' hf =>
        cases At.unique hw h hr
        cases below_iff.mp hb'
        have h1 := bytes_join (path := path) (hw.proper _ _ _ hnames).1
        obtain ⟨parent, entries, listable, hn, he⟩ := id hnames
        cases listable with
        | false => exact absurd (.dir hr hn) ht
        | true =>
          simp only [hn, List.mem_flatMap]
          refine ⟨_, he, ?_⟩
          simp only [List.mem_map, Prod.mk.injEq]
          exact ⟨_, (ih (join path n)
              (fun h => ht (.inside hr hnames (below_iff.mpr rfl) h)) (by omega) _ _ _).mpr ⟨hf, hc⟩,
            rfl, rfl⟩

theorem files_nodup (hw : WellNamed disk) (fuel : Nat) : ∀ path : Str,
    ((disk.files fuel path).map (·.1)).Nodup := by
  induction fuel with
  | zero => intro path; simp [Disk.files]
  | succ fuel ih =>
    intro path
    unfold Disk.files
    split
    · simp
    · split
      · simp
      · rename_i i _ parent entries hn
        rw [List.map_flatMap, List.nodup_flatMap]
        constructor
        · intro e he
          split
          · simp
          · rename_i n _
            rw [List.map_map]
            have : ((fun x : List Str × Nat × Str => x.1) ∘
                fun x : List Str × Nat × Str => (n :: x.1, x.2)) =
                (fun l => n :: l) ∘ fun x => x.1 := rfl
            rw [this, ← List.map_map]
            exact nodup_map_inj (fun x y h => (List.cons.inj h).2) (ih _)
        · have := hw.distinct _ _ _ _ hn
          rw [List.Nodup, List.pairwise_map] at this
          refine this.imp fun {a b} hab => ?_
          rw [Function.onFun, List.disjoint_left]
          intro x h1 h2
          cases ha : a.name with
          | none => simp [ha] at h1
          | some n =>
            cases hb : b.name with
            | none => simp [hb] at h2
            | some n' =>
              simp only [ha, List.map_map, List.mem_map, Function.comp_apply] at h1
              simp only [hb, List.map_map, List.mem_map, Function.comp_apply] at h2
              obtain ⟨u, -, rfl⟩ := h1
              obtain ⟨v, -, h⟩ := h2
              rw [ha, hb] at hab
              exact hab (by rw [(List.cons.inj h).1])
      · simp

theorem trouble_tree (hw : WellNamed disk) {path : Str} (h : Trouble disk path) :
    ∀ fuel, HasUnreadable (disk.view fuel path) ∨ HasBadName (disk.view fuel path) := by
  induction h with
  | @nowhere path h =>
    intro fuel
    cases fuel with
    | zero => exact .inl .here
    | succ fuel =>
      unfold Disk.view
      cases hm : disk.metadata path with
      | none => exact .inl .here
      | some i => exact absurd ((metadata_iff hw).mp hm) (h i)
  | @file path i h hn =>
    intro fuel
    cases fuel with
    | zero => exact .inl .here
    | succ fuel =>
      unfold Disk.view
      rw [(metadata_iff hw).mpr h]
      simp only [hn]
      exact .inl .here
  | @dir path d parent entries h hn =>
    intro fuel
    cases fuel with
    | zero => exact .inl .here
    | succ fuel =>
      unfold Disk.view
      rw [(metadata_iff hw).mpr h]
      simp only [hn]
      exact .inl .here
  | @name path d parent j entries listable h hn he =>
    intro fuel
    cases fuel with
    | zero => exact .inl .here
    | succ fuel =>
      unfold Disk.view
      rw [(metadata_iff hw).mpr h]
      cases listable with
      | false => simp only [hn]; exact .inl .here
      | true =>
        simp only [hn]
        exact .inr (.inside (List.mem_map.mpr ⟨_, he, rfl⟩) .here)
  | @inside path path' n d j h hnames hb _ ih =>
    intro fuel
    cases fuel with
    | zero => exact .inl .here
    | succ fuel =>
      unfold Disk.view
      rw [(metadata_iff hw).mpr h]
      cases below_iff.mp hb
      obtain ⟨parent, entries, listable, hn, he⟩ := hnames
      cases listable with
      | false => simp only [hn]; exact .inl .here
      | true =>
        simp only [hn]
        rcases ih fuel with hx | hx
        · exact .inl (.inside (List.mem_map.mpr ⟨_, he, rfl⟩) hx)
        · exact .inr (.inside (List.mem_map.mpr ⟨_, he, rfl⟩) hx)

theorem bad_name_tree (fuel : Nat) : ∀ path : Str, HasBadName (disk.view fuel path) →
    ∃ d parent entries listable j, disk.node d = .dir parent entries listable ∧
      ⟨none, j⟩ ∈ entries := by
  induction fuel with
  | zero => intro path h; cases h
  | succ fuel ih =>
    intro path h
    unfold Disk.view at h
    split at h
    · cases h
    · split at h
      · cases h
      · cases h
      · cases h
      · rename_i hn
        cases h with
        | inside hm ht =>
          obtain ⟨e, he, rfl⟩ := List.mem_map.mp hm
          split at ht
          · rename_i hnone
            exact ⟨_, _, _, _, e.inode, hn, by cases e; simp_all⟩
          · exact ih _ ht
      · cases h
      · cases h

/-! ## Links and directories -/

theorem _root_.Cinit.Spec.Leads.append {d : Nat} {ws : List Str} {k e : Nat} (h : Leads disk d ws k e)
    {vs : List Str} {k' i : Nat} (h' : Leads disk e vs k' i) :
    Leads disk d (ws ++ vs) (k + k') i := by
  induction h with
  | done d => simpa using h'
  | here hd hw _ ih => exact .here hd hw (ih h')
  | up hd _ ih => exact .up hd (ih h')
  | enter hn hl _ ih => exact .enter hn hl (ih h')
  | link hn ht hb hp _ ih =>
    rw [Nat.add_right_comm]
    exact .link hn ht hb hp (by simpa [List.append_assoc] using ih h')

theorem _root_.Cinit.Spec.Leads.split {d : Nat} {us : List Str} {k i : Nat} (h : Leads disk d us k i) :
    ∀ ws vs, us = ws ++ vs →
      ∃ e k1 k2, Leads disk d ws k1 e ∧ Leads disk e vs k2 i ∧ k = k1 + k2 := by
  induction h with
  | done d =>
    intro ws vs h
    obtain ⟨rfl, rfl⟩ := List.append_eq_nil_iff.mp h.symm
    exact ⟨d, 0, 0, .done d, .done d, rfl⟩
  | @here d parent w us k i hd hw hl ih =>
    intro ws vs h
    cases ws with
    | nil => simp only [List.nil_append] at h; subst h; exact ⟨d, 0, k, .done d, .here hd hw hl, by omega⟩
    | cons w' ws =>
      simp only [List.cons_append, List.cons.injEq] at h
      obtain ⟨rfl, h⟩ := h
      obtain ⟨e, k1, k2, h1, h2, h3⟩ := ih _ _ h
      exact ⟨e, k1, k2, .here hd hw h1, h2, h3⟩
  | @up d parent us k i hd hl ih =>
    intro ws vs h
    cases ws with
    | nil => simp only [List.nil_append] at h; subst h; exact ⟨d, 0, k, .done d, .up hd hl, by omega⟩
    | cons w' ws =>
      simp only [List.cons_append, List.cons.injEq] at h
      obtain ⟨rfl, h⟩ := h
      obtain ⟨e, k1, k2, h1, h2, h3⟩ := ih _ _ h
      exact ⟨e, k1, k2, .up hd h1, h2, h3⟩
  | @enter d j w us k i hn hnl hl ih =>
    intro ws vs h
    cases ws with
    | nil => simp only [List.nil_append] at h; subst h; exact ⟨d, 0, k, .done d, .enter hn hnl hl, by omega⟩
    | cons w' ws =>
      simp only [List.cons_append, List.cons.injEq] at h
      obtain ⟨rfl, h⟩ := h
      obtain ⟨e, k1, k2, h1, h2, h3⟩ := ih _ _ h
      exact ⟨e, k1, k2, .enter hn hnl h1, h2, h3⟩
  | @link d j b w target ts us k i hn ht hb hp hl ih =>
    intro ws vs h
    cases ws with
    | nil =>
      simp only [List.nil_append] at h; subst h
      exact ⟨d, 0, k + 1, .done d, .link hn ht hb hp hl, by omega⟩
    | cons w' ws =>
      simp only [List.cons_append, List.cons.injEq] at h
      obtain ⟨rfl, h⟩ := h
      obtain ⟨e, k1, k2, h1, h2, h3⟩ := ih (ts ++ ws) vs (by rw [h, List.append_assoc])
      exact ⟨e, k1 + 1, k2, .link hn ht hb hp h1, h2, by omega⟩

theorem splitOn_slash (s t : Str) : splitOn '/' (s ++ '/' :: t) = splitOn '/' s ++ splitOn '/' t := by
  unfold splitOn
  induction s with
  | nil => simp [splitWith]
  | cons c s ih =>
    simp only [List.cons_append, splitWith, ih]
    split
    · rfl
    · cases h : splitWith (fun x => x == '/') s with
      | nil => exact absurd h (splitWith_ne_nil _ _)
      | cons w ws => rfl

theorem splitOn_name {n : Str} (h : '/' ∉ n) : splitOn '/' n = [n] := pieces_iff.mp (.last h)

theorem start_join {path n : Str} (hne : path ≠ []) (d : Nat) :
    disk.start d (join path n) = disk.start d path := by
  unfold Disk.start join
  cases path with
  | nil => exact absurd rfl hne
  | cons c s => split <;> simp

/-- A name in a directory, links included, at the path of the directory. -/
theorem pathTo_join (hw : WellNamed disk) {path n : Str} {k d j : Nat} (h : PathTo disk path k d)
    (hn : Names disk d n j) {k' i : Nat} (hl : Leads disk d [n] k' i) :
    PathTo disk (join path n) (k + k') i := by
  obtain ⟨hne, b, ws, hb, hp, h⟩ := h
  have hnn := hw.proper _ _ _ hn
  refine ⟨?_, b, ?_⟩
  · intro e
    have := bytes_join (path := path) hnn.1
    rw [e] at this
    simp [bytes] at this
  rw [begins_iff] at hb
  rw [pieces_iff] at hp
  subst hb hp
  by_cases hs : path.getLast? = some '/'
  · obtain ⟨p, rfl⟩ : ∃ p, path = p ++ ['/'] := by
      rcases List.eq_nil_or_concat path with rfl | ⟨p, c, rfl⟩
      · cases hs
      · simp at hs; exact ⟨p, by simp [hs]⟩
    have hj : join (p ++ ['/']) n = p ++ '/' :: n := by simp [join]
    rw [splitOn_slash] at h
    obtain ⟨e, k1, k2, h1, h2, h3⟩ := h.split _ _ rfl
    refine ⟨splitOn '/' p ++ [n], begins_iff.mpr ?_, pieces_iff.mpr ?_, ?_⟩
    · exact (start_join hne _).symm
    · rw [hj, splitOn_slash, splitOn_name hnn.2.2.2]
    · have hnil : splitOn '/' [] = [[]] := rfl
      rw [hnil] at h2
      cases h2 with
      | here hd hw' h2 =>
        cases h2
        rw [h3]
        simpa using h1.append hl
      | enter hn' => exact absurd rfl (hw.proper _ _ _ hn').1
      | link hn' => exact absurd rfl (hw.proper _ _ _ hn').1
  · have hj : join path n = path ++ '/' :: n := by simp [join, hs]
    refine ⟨splitOn '/' path ++ [n], begins_iff.mpr ?_, pieces_iff.mpr ?_, h.append hl⟩
    · exact (start_join hne _).symm
    · rw [hj, splitOn_slash, splitOn_name hnn.2.2.2]

/-- A link that leads to the directory it is in. -/
theorem cycle_trouble (hw : WellNamed disk) {d j k' : Nat} {n target : Str}
    (hn : Names disk d n j) (ht : disk.node j = .link target) (hl : Leads disk d [n] k' d) :
    ∀ (m : Nat) (path : Str) (k : Nat), 40 < m + k → k ≤ 40 →
      (path.map Char.utf8Size).sum < 4096 → PathTo disk path k d → Trouble disk path := by
  have hpos : 1 ≤ k' := by
    cases hl with
    | here hd hw' _ =>
      have := hw.proper _ _ _ hn
      rcases hw' with rfl | rfl
      · exact absurd rfl this.1
      · exact absurd rfl this.2.1
    | up hd _ => exact absurd rfl (hw.proper _ _ _ hn).2.2.1
    | enter hn' hnl _ =>
      obtain ⟨p, es, l, hd, hm⟩ := hn
      rw [(names_dir hd)] at hn'
      have h1 := (lookup_iff (hw.distinct _ _ _ _ hd)).mpr hm
      have h2 := (lookup_iff (hw.distinct _ _ _ _ hd)).mpr hn'
      rw [h1] at h2
      cases h2
      exact absurd ht (hnl _)
    | link => omega
  intro m
  induction m with
  | zero => intro path k h1 h2; omega
  | succ m ih =>
    intro path k h1 h2 h3 h4
    have h5 := pathTo_join hw h4 hn hl
    refine .inside ⟨h3, k, h2, h4⟩ hn (below_iff.mpr rfl) ?_
    by_cases h6 : k + k' ≤ 40 ∧ ((join path n).map Char.utf8Size).sum < 4096
    · exact ih _ _ (by omega) h6.1 h6.2 h5
    · refine .nowhere fun i hi => h6 ⟨?_, hi.1⟩
      obtain ⟨-, k'', hk, hi⟩ := hi
      rw [(PathTo.unique hw h5 hi).1]
      exact hk

/-! ## Without links -/

theorem _root_.Cinit.Spec.Chain.snoc_inv {d i : Nat} {ns : List Str} {n : Str} (h : Chain disk d (ns ++ [n]) i) :
    ∃ e, Chain disk d ns e ∧ Names disk e n i := by
  induction ns generalizing d with
  | nil =>
    cases h with
    | step hn h => cases h; exact ⟨d, .done d, hn⟩
  | cons m ns ih =>
    cases h with
    | step hn h =>
      obtain ⟨e, h1, h2⟩ := ih h
      exact ⟨e, .step hn h1, h2⟩

theorem _root_.Cinit.Spec.Chain.unique (hp : Unlinked disk) {r : Nat} (ns : List Str) : ∀ (ns' : List Str) (i : Nat),
    Chain disk r ns i → Chain disk r ns' i → ns = ns' := by
  induction ns using List.reverseRecOn with
  | nil =>
    intro ns' i h h'
    cases h
    exact (hp.acyclic _ _ h').symm
  | append_singleton ns n ih =>
    intro ns' i h h'
    rcases List.eq_nil_or_concat ns' with rfl | ⟨ns', n', rfl⟩
    · cases h'
      exact hp.acyclic _ _ h
    · rw [List.concat_eq_append] at h' ⊢
      obtain ⟨e, h1, h2⟩ := h.snoc_inv
      obtain ⟨e', h1', h2'⟩ := h'.snoc_inv
      obtain ⟨rfl, rfl⟩ := hp.oneName _ _ _ _ _ h2 h2'
      rw [ih _ _ h1 h1']

theorem _root_.Cinit.Spec.Found.chain (hw : WellNamed disk) (hp : Unlinked disk) {path : Str} {ns : List Str}
    {i : Nat} (h : Found disk path ns i) : ∀ r, At disk path r → Chain disk r ns i := by
  induction h with
  | here h => intro r hr; cases At.unique hw h hr; exact .done _
  | @inside path path' n ns d j i h hn hb hf ih =>
    intro r hr
    cases At.unique hw h hr
    cases below_iff.mp hb
    refine .step hn ?_
    have : ∃ e, At disk (join path n) e := by
      cases hf with
      | here h => exact ⟨_, h⟩
      | inside h => exact ⟨_, h⟩
    obtain ⟨e, he⟩ := this
    have hej : e = j := by
      obtain ⟨-, k, -, h⟩ := h
      obtain ⟨-, k', -, he⟩ := he
      exact (PathTo.unique hw he (pathTo_join hw h hn (.enter hn (hp.noLink _) (.done _)))).2
    subst hej
    exact ih _ he

end Cinit.Disk
