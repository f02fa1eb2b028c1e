import Verif.Model.CronParse
import Verif.Spec.CronExpr
import Mathlib.Data.List.Forall2
/-!
# Lemmas about cron expression parsing
-/

namespace Cinit

open Spec

/-! ## Splitting -/

theorem splitWith_ne_nil (p : Char → Bool) (s : Str) : splitWith p s ≠ [] := by
  cases s with
  | nil => simp [splitWith]
  | cons c cs =>
    unfold splitWith
    split
    · simp
    · split <;> simp

theorem splitWith_of_none {p : Char → Bool} {s : Str} (h : ∀ c ∈ s, p c = false) :
    splitWith p s = [s] := by
  induction s with
  | nil => rfl
  | cons c cs ih =>
    have h1 := h c (by simp)
    have h2 := ih (fun x hx => h x (by simp [hx]))
    simp [splitWith, h1, h2]

theorem splitWith_append {p : Char → Bool} {s : Str} {c : Char} {t : Str}
    (h : ∀ c ∈ s, p c = false) (hc : p c = true) :
    splitWith p (s ++ c :: t) = s :: splitWith p t := by
  induction s with
  | nil => simp [splitWith, hc]
  | cons x xs ih =>
    have h1 := h x (by simp)
    have h2 := ih (fun x hx => h x (by simp [hx]))
    simp [splitWith, h1, h2]

/-- A piece sits between separators (or the ends). -/
theorem splitWith_head {p : Char → Bool} {s w : Str} {ws : List Str}
    (h : splitWith p s = w :: ws) :
    (∀ c ∈ w, p c = false) ∧
    ((ws = [] ∧ s = w) ∨ ∃ c t, p c = true ∧ s = w ++ c :: t ∧ splitWith p t = ws) := by
  induction s generalizing w ws with
  | nil => simp [splitWith] at h; obtain ⟨rfl, rfl⟩ := h; simp
  | cons x xs ih =>
    unfold splitWith at h
    split at h
    · rename_i hx
      obtain ⟨rfl, rfl⟩ := List.cons.inj h
      exact ⟨by simp, .inr ⟨x, xs, hx, rfl, rfl⟩⟩
    · rename_i hx
      cases hs : splitWith p xs with
      | nil => exact absurd hs (splitWith_ne_nil p xs)
      | cons w' ws' =>
        rw [hs] at h
        obtain ⟨rfl, rfl⟩ := List.cons.inj h
        obtain ⟨h1, h2⟩ := ih hs
        refine ⟨?_, ?_⟩
        · intro c hc
          rcases List.mem_cons.mp hc with rfl | hc
          · simpa using hx
          · exact h1 c hc
        · rcases h2 with ⟨rfl, rfl⟩ | ⟨c, t, hc, rfl, ht⟩
          · exact .inl ⟨rfl, rfl⟩
          · exact .inr ⟨c, t, hc, rfl, ht⟩

theorem splitWith_mem {p : Char → Bool} {s w : Str} (h : w ∈ splitWith p s) :
    (∀ c ∈ w, p c = false) ∧
    ∃ pre post, s = pre ++ w ++ post ∧ ∀ c, post.head? = some c → p c = true := by
  generalize hl : splitWith p s = l at h
  induction l generalizing s with
  | nil => cases h
  | cons x xs ih =>
    obtain ⟨h1, h2⟩ := splitWith_head hl
    rcases List.mem_cons.mp h with rfl | h
    · refine ⟨h1, [], ?_⟩
      rcases h2 with ⟨-, rfl⟩ | ⟨c, t, hc, rfl, -⟩
      · exact ⟨[], by simp, by simp⟩
      · exact ⟨c :: t, by simp, by simpa using hc⟩
    · rcases h2 with ⟨rfl, -⟩ | ⟨c, t, hc, rfl, ht⟩
      · cases h
      · obtain ⟨g1, pre, post, rfl, g2⟩ := ih ht h
        exact ⟨g1, x ++ c :: pre, post, by simp, g2⟩

theorem isWhitespace_iff (c : Char) : isWhitespace c = true ↔ IsSpace c := by
  simp only [isWhitespace, IsSpace, Bool.or_eq_true, Bool.and_eq_true, decide_eq_true_eq,
    beq_iff_eq, List.mem_cons, List.not_mem_nil, or_false]
  generalize c.toNat = n
  omega

theorem splitWhitespace_of_words {ws : List Str} {s : Str} (h : Words ws s) :
    splitWhitespace s = ws := by
  have lead : ∀ (sp t : Str), (∀ c ∈ sp, IsSpace c) →
      splitWhitespace (sp ++ t) = splitWhitespace t := by
    intro sp t hsp
    induction sp with
    | nil => rfl
    | cons c cs ih =>
      have hc := (isWhitespace_iff c).mpr (hsp c (by simp))
      have := ih (fun x hx => hsp x (by simp [hx]))
      simp only [splitWhitespace] at this ⊢
      simp [splitWith, hc, this]
  induction h with
  | @nil sp hsp =>
    have := lead sp [] hsp
    simpa [splitWhitespace, splitWith] using this
  | @cons sp w t ws hsp hw hns hsep ht ih =>
    rw [List.append_assoc, lead _ _ hsp]
    have hns' : ∀ c ∈ w, isWhitespace c = false := by
      intro c hc
      cases hcon : isWhitespace c with
      | false => rfl
      | true => exact absurd ((isWhitespace_iff c).mp hcon) (hns c hc)
    cases t with
    | nil =>
      have hws : ws = [] := by rw [← ih]; rfl
      subst hws
      simp only [List.append_nil, splitWhitespace, splitWith_of_none hns']
      cases w <;> simp_all
    | cons c t =>
      have hc := (isWhitespace_iff c).mpr (hsep c rfl)
      have : splitWhitespace (c :: t) = splitWhitespace t := lead [c] t (by
        simpa using (isWhitespace_iff c).mp hc)
      rw [this] at ih
      simp only [splitWhitespace] at ih ⊢
      rw [splitWith_append hns' hc, List.filter_cons, ih]
      cases w <;> simp_all

/-! ## Numbers -/

theorem digit_toNat {d : Nat} (h : d < 10) : (Char.ofNat (48 + d)).toNat = 48 + d := by
  match d, h with
  | 0, _ | 1, _ | 2, _ | 3, _ | 4, _ | 5, _ | 6, _ | 7, _ | 8, _ | 9, _ => rfl

theorem digitVal_digit {d : Nat} (h : d < 10) : digitVal (Char.ofNat (48 + d)) = some d := by
  unfold digitVal
  rw [digit_toNat h, if_pos (by omega)]
  congr 1; omega

theorem parseDigits_append (acc : Nat) (s : Str) (c : Char) :
    parseDigits acc (s ++ [c]) =
      match parseDigits acc s, digitVal c with
      | some a, some d => some (a * 10 + d)
      | _, _ => none := by
  induction s generalizing acc with
  | nil =>
    simp only [List.nil_append, parseDigits]
    cases digitVal c <;> rfl
  | cons x xs ih =>
    simp only [List.cons_append, parseDigits]
    cases digitVal x with
    | none => simp
    | some d => exact ih _

theorem Spec.Numeral.parse {s : Str} {n : Nat} (h : Numeral s n) : parseDigits 0 s = some n := by
  induction h with
  | digit h => simp [parseDigits, digitVal_digit h]
  | snoc hs h ih =>
    rw [parseDigits_append, ih, digitVal_digit h]
    simp; omega

theorem Spec.Numeral.digits {s : Str} {n : Nat} (h : Numeral s n) :
    ∀ c ∈ s, 48 ≤ c.toNat ∧ c.toNat ≤ 57 := by
  induction h with
  | digit h => intro c hc; rw [List.mem_singleton.mp hc, digit_toNat h]; omega
  | snoc hs h ih =>
    intro c hc
    rcases List.mem_append.mp hc with hc | hc
    · exact ih c hc
    · rw [List.mem_singleton.mp hc, digit_toNat h]; omega

theorem Spec.Numeral.ne_nil {s : Str} {n : Nat} (h : Numeral s n) : s ≠ [] := by
  cases h <;> simp

theorem stripPlus_of_ne {s : Str} (h : s.head? ≠ some '+') : stripPlus s = s := by
  unfold stripPlus
  split
  · simp at h
  · rfl

theorem Spec.Numeral.not_mem {s : Str} {n : Nat} (h : Numeral s n) {c : Char}
    (hc : c.toNat < 48 ∨ 57 < c.toNat) : c ∉ s := by
  intro hm
  have := h.digits c hm
  omega

theorem Spec.Numeral.parseU32 {s : Str} {n : Nat} (h : Numeral s n) :
    Cinit.parseU32 s = if n < 2 ^ 32 then some n else none := by
  have hne := h.ne_nil
  have hp : stripPlus s = s := by
    apply stripPlus_of_ne
    intro hh
    exact h.not_mem (c := '+') (by decide) (List.mem_of_mem_head? hh)
  unfold Cinit.parseU32
  split
  · exact absurd rfl hne
  · rw [hp, h.parse]
    simp only
    by_cases hn : n < 2 ^ 32
    · rw [if_pos (by omega), if_pos hn]
    · rw [if_neg (by omega), if_neg hn]

/-! ## Sets -/

theorem mem_setInsert {x y : Nat} {l : List Nat} : y ∈ setInsert x l ↔ y = x ∨ y ∈ l := by
  induction l with
  | nil => simp [setInsert]
  | cons z zs ih =>
    unfold setInsert
    split
    · simp
    · split
      · simp_all
      · simp [ih]; grind

/-- A `BTreeSet` as a list. -/
abbrev Incr (l : List Nat) : Prop := l.Pairwise (· < ·)

theorem setInsert_incr {x : Nat} {l : List Nat} (h : Incr l) : Incr (setInsert x l) := by
  induction l with
  | nil => simp [setInsert, Incr]
  | cons z zs ih =>
    have hz : ∀ a ∈ zs, z < a := (List.pairwise_cons.mp h).1
    have hzs := List.Pairwise.of_cons h
    unfold setInsert
    split
    · rename_i hx
      refine List.pairwise_cons.mpr ⟨?_, h⟩
      intro a ha
      rcases List.mem_cons.mp ha with rfl | ha
      · exact hx
      · exact Nat.lt_trans hx (hz a ha)
    · split
      · exact h
      · rename_i h1 h2
        refine List.pairwise_cons.mpr ⟨?_, ih hzs⟩
        intro a ha
        rcases mem_setInsert.mp ha with rfl | ha
        · omega
        · exact hz a ha

theorem foldl_setInsert_if (q : Nat → Prop) [DecidablePred q] (xs acc : List Nat) :
    (∀ v, v ∈ xs.foldl (fun r i => if q i then setInsert i r else r) acc ↔
      v ∈ acc ∨ (v ∈ xs ∧ q v)) ∧
    (Incr acc → Incr (xs.foldl (fun r i => if q i then setInsert i r else r) acc)) := by
  induction xs generalizing acc with
  | nil => simp
  | cons x xs ih =>
    simp only [List.foldl_cons]
    constructor
    · intro v
      rw [(ih _).1]
      by_cases hq : q x
      · rw [if_pos hq, mem_setInsert]; grind
      · rw [if_neg hq]; grind
    · intro h
      apply (ih _).2
      by_cases hq : q x
      · rw [if_pos hq]; exact setInsert_incr h
      · rw [if_neg hq]; exact h

theorem mem_rangeIncl {b e v : Nat} : v ∈ rangeIncl b e ↔ b ≤ v ∧ v ≤ e := by
  unfold rangeIncl
  rw [List.mem_range'_1]
  omega

theorem star_set (lo hi : Nat) :
    (∀ v, v ∈ (rangeIncl lo hi).foldl (fun result i => setInsert i result) [] ↔
      lo ≤ v ∧ v ≤ hi) ∧
    Incr ((rangeIncl lo hi).foldl (fun result i => setInsert i result) []) := by
  have h := foldl_setInsert_if (fun _ => True) (rangeIncl lo hi) []
  simp only [if_true, and_true] at h
  refine ⟨fun v => ?_, h.2 (by simp [Incr])⟩
  rw [h.1]; simp [mem_rangeIncl]

/-- The stepping condition of the loop. -/
theorem mod_step_iff {a v k : Nat} (hav : a ≤ v) :
    v % k = a % k ↔ ∃ m, v = a + m * k := by
  constructor
  · intro h
    refine ⟨(v - a) / k, ?_⟩
    have h1 : (v - a) % k = 0 := by
      exact Nat.sub_mod_eq_zero_of_mod_eq h
    have h2 := Nat.div_add_mod (v - a) k
    rw [h1] at h2
    have : k * ((v - a) / k) = (v - a) / k * k := Nat.mul_comm _ _
    omega
  · rintro ⟨m, rfl⟩
    exact Nat.add_mul_mod_self_right a m k

/-! ## One element -/

/-- The normal form of an element: begin, end, step. -/
def itemBounds (lo hi : Nat) : CronItem → Nat × Nat
  | .star => (lo, hi)
  | .starStep _ => (lo, hi)
  | .num n => (n, n)
  | .range a b => (a, b)
  | .rangeStep a b _ => (a, b)

def itemStep : CronItem → Nat
  | .starStep k => k
  | .rangeStep _ _ k => k
  | _ => 1

private theorem dash : '-'.toNat < 48 ∨ 57 < '-'.toNat := by decide
private theorem slash : '/'.toNat < 48 ∨ 57 < '/'.toNat := by decide
private theorem comma : ','.toNat < 48 ∨ 57 < ','.toNat := by decide
private theorem starc : '*'.toNat < 48 ∨ 57 < '*'.toNat := by decide

private theorem no_sep {s : Str} {x : Char} (h : x ∉ s) : ∀ c ∈ s, (c == x) = false := by
  intro c hc
  simp only [beq_eq_false_iff_ne]
  rintro rfl
  exact h hc

private theorem bounds_num {s : Str} {n lo hi : Nat} (h : Numeral s n) :
    parseBounds lo hi s = if n < 2 ^ 32 then .ok (n, n) else .err .invalidNumber := by
  unfold parseBounds
  rw [if_neg (by rintro rfl; exact h.not_mem starc (by simp)),
    splitOn, splitWith_of_none (no_sep (h.not_mem dash))]
  simp only [h.parseU32]
  by_cases h1 : n < 2 ^ 32
  · simp only [if_pos h1]
  · simp only [if_neg h1]

private theorem bounds_range {s t : Str} {a b lo hi : Nat} (ha : Numeral s a) (hb : Numeral t b) :
    parseBounds lo hi (s ++ '-' :: t) =
      if a < 2 ^ 32 then (if b < 2 ^ 32 then .ok (a, b) else .err .invalidEnd)
      else .err .invalidNumber := by
  unfold parseBounds
  rw [if_neg, splitOn, splitWith_append (no_sep (ha.not_mem dash)) (by simp),
    splitWith_of_none (no_sep (hb.not_mem dash))]
  · simp only [ha.parseU32, hb.parseU32]
    by_cases h1 : a < 2 ^ 32
    · by_cases h2 : b < 2 ^ 32
      · simp only [if_pos h1, if_pos h2]
      · simp only [if_pos h1, if_neg h2]
    · simp only [if_neg h1]
  · intro h
    have := ha.ne_nil
    cases s with
    | nil => exact this rfl
    | cons x xs => simp at h

private theorem bounds_star (lo hi : Nat) : parseBounds lo hi ['*'] = .ok (lo, hi) := rfl

/-- What `parseInterval` does on the spelling of an element. -/
theorem parseInterval_spelling {lo hi : Nat} {i : CronItem} {s : Str} (h : i.Spelling s)
    (hlo : lo ≤ hi) (hhi : hi < 2 ^ 32) (acc : List Nat) :
    (i.InRange lo hi ∧ i.Ordered ∧ i.StepOk →
      parseInterval lo hi acc s =
        .ok ((rangeIncl (itemBounds lo hi i).1 (itemBounds lo hi i).2).foldl (fun r v =>
          if v % itemStep i = (itemBounds lo hi i).1 % itemStep i then setInsert v r else r) acc)) ∧
    (¬ (i.InRange lo hi ∧ i.Ordered ∧ i.StepOk) → ∀ r, parseInterval lo hi acc s ≠ .ok r) := by
  -- the four ingredients
  have key : ∀ (v : Str) (vs : List Str) (rs : Res CronParseErr Nat)
      (rb : Res CronParseErr (Nat × Nat)), splitOn '/' s = v :: vs →
      parseStep vs = rs → parseBounds lo hi v = rb →
      parseInterval lo hi acc s = (rs >>= fun step => rb >>= fun be =>
        if be.1 < lo ∨ hi < be.1 then .err .outOfRange
        else if be.2 < lo ∨ hi < be.2 then .err .outOfRange
        else if be.2 < be.1 then .err .reversed
        else if step = 0 then .panic .divByZero
        else .ok ((rangeIncl be.1 be.2).foldl (fun result i =>
          if i % step = be.1 % step then setInsert i result else result) acc)) := by
    intro v vs rs rb h1 h2 h3
    unfold parseInterval
    rw [h1]
    simp only [h2, h3]
  have step_num : ∀ {u : Str} {k : Nat}, Numeral u k →
      parseStep [u] = if k < 2 ^ 32 then .ok k else .err .invalidStep := by
    intro u k hk
    simp only [parseStep, hk.parseU32]
    by_cases h1 : k < 2 ^ 32
    · simp only [if_pos h1]
    · simp only [if_neg h1]
  cases h with
  | star =>
    rw [key ['*'] [] (.ok 1) (.ok (lo, hi)) rfl rfl rfl]
    simp only [Res.bind_ok]
    rw [if_neg (by simp; omega), if_neg (by simp; omega), if_neg (by simp; omega), if_neg (by simp)]
    exact ⟨fun _ => rfl, fun h => absurd ⟨trivial, trivial, trivial⟩ h⟩
  | @starStep k u hk =>
    have hsp : splitOn '/' ('*' :: '/' :: u) = [['*'], u] := by
      rw [splitOn, show '*' :: '/' :: u = ['*'] ++ '/' :: u from rfl,
        splitWith_append (by simp) (by simp), splitWith_of_none (no_sep (hk.not_mem slash))]
    rw [key _ _ _ (.ok (lo, hi)) hsp (step_num hk) rfl]
    by_cases h1 : k < 2 ^ 32
    · rw [if_pos h1]
      simp only [Res.bind_ok]
      rw [if_neg (by simp; omega), if_neg (by simp; omega), if_neg (by simp; omega)]
      by_cases h0 : k = 0
      · rw [if_pos h0]
        constructor
        · rintro ⟨-, -, h, -⟩; omega
        · intro _ r hr; cases hr
      · rw [if_neg h0]
        constructor
        · intro _; rfl
        · intro hn
          exact absurd ⟨trivial, trivial, by omega, h1⟩ hn
    · rw [if_neg h1]
      simp only [Res.bind_err]
      constructor
      · rintro ⟨-, -, -, h⟩; exact absurd h h1
      · intro _ r hr; cases hr
  | @num n _ hn =>
    have hsp : splitOn '/' s = [s] := by
      rw [splitOn, splitWith_of_none (no_sep (hn.not_mem slash))]
    rw [key _ _ (.ok 1) _ hsp rfl (bounds_num hn)]
    by_cases h1 : n < 2 ^ 32
    · rw [if_pos h1]
      simp only [Res.bind_ok]
      by_cases h2 : n < lo ∨ hi < n
      · rw [if_pos h2]
        constructor
        · rintro ⟨h, -⟩; simp only [CronItem.InRange] at h; omega
        · intro _ r hr; cases hr
      · rw [if_neg h2, if_neg h2, if_neg (by omega), if_neg (by simp)]
        constructor
        · intro _; rfl
        · intro hn
          refine absurd ⟨?_, trivial, trivial⟩ hn
          simp only [CronItem.InRange]; omega
    · rw [if_neg h1]
      simp only [Res.bind_ok, Res.bind_err]
      constructor
      · rintro ⟨h, -⟩; simp only [CronItem.InRange] at h; omega
      · intro _ r hr; cases hr
  | @range a b u t ha hb =>
    have hsp : splitOn '/' (u ++ '-' :: t) = [u ++ '-' :: t] := by
      rw [splitOn, splitWith_of_none (no_sep _)]
      simp [ha.not_mem slash, hb.not_mem slash]
    rw [key _ _ (.ok 1) _ hsp rfl (bounds_range ha hb)]
    have hIn : (CronItem.range a b).InRange lo hi ↔ (lo ≤ a ∧ a ≤ hi) ∧ (lo ≤ b ∧ b ≤ hi) := Iff.rfl
    have hOr : (CronItem.range a b).Ordered ↔ a ≤ b := Iff.rfl
    have hSt : (CronItem.range a b).StepOk ↔ True := Iff.rfl
    simp only [hIn, hOr, hSt, itemBounds, itemStep, Res.bind_ok]
    by_cases h1 : a < 2 ^ 32
    · by_cases h2 : b < 2 ^ 32
      · simp only [if_pos h1, if_pos h2, Res.bind_ok]
        by_cases h3 : a < lo ∨ hi < a
        · rw [if_pos h3]
          exact ⟨fun h => by omega, fun _ r hr => by cases hr⟩
        · rw [if_neg h3]
          by_cases h4 : b < lo ∨ hi < b
          · rw [if_pos h4]
            exact ⟨fun h => by omega, fun _ r hr => by cases hr⟩
          · rw [if_neg h4]
            by_cases h5 : b < a
            · rw [if_pos h5]
              exact ⟨fun h => by omega, fun _ r hr => by cases hr⟩
            · rw [if_neg h5, if_neg (by simp)]
              exact ⟨fun _ => rfl, fun h => absurd (by simp only [and_true]; omega) h⟩
      · simp only [if_pos h1, if_neg h2, Res.bind_err]
        exact ⟨fun h => by omega, fun _ r hr => by cases hr⟩
    · simp only [if_neg h1, Res.bind_err]
      exact ⟨fun h => by omega, fun _ r hr => by cases hr⟩
  | @rangeStep a b k u t w ha hb hk =>
    have hsp : splitOn '/' (u ++ '-' :: t ++ '/' :: w) = [u ++ '-' :: t, w] := by
      rw [splitOn, splitWith_append (no_sep _) (by simp), splitWith_of_none (no_sep (hk.not_mem slash))]
      simp [ha.not_mem slash, hb.not_mem slash]
    rw [key _ _ _ _ hsp (step_num hk) (bounds_range ha hb)]
    have hIn : (CronItem.rangeStep a b k).InRange lo hi ↔
      (lo ≤ a ∧ a ≤ hi) ∧ (lo ≤ b ∧ b ≤ hi) := Iff.rfl
    have hOr : (CronItem.rangeStep a b k).Ordered ↔ a ≤ b := Iff.rfl
    have hSt : (CronItem.rangeStep a b k).StepOk ↔ 0 < k ∧ k < 2 ^ 32 := Iff.rfl
    simp only [hIn, hOr, hSt, itemBounds, itemStep]
    by_cases h0 : k < 2 ^ 32
    · simp only [if_pos h0, Res.bind_ok]
      by_cases h1 : a < 2 ^ 32
      · by_cases h2 : b < 2 ^ 32
        · simp only [if_pos h1, if_pos h2, Res.bind_ok]
          by_cases h3 : a < lo ∨ hi < a
          · rw [if_pos h3]
            exact ⟨fun h => by omega, fun _ r hr => by cases hr⟩
          · rw [if_neg h3]
            by_cases h4 : b < lo ∨ hi < b
            · rw [if_pos h4]
              exact ⟨fun h => by omega, fun _ r hr => by cases hr⟩
            · rw [if_neg h4]
              by_cases h5 : b < a
              · rw [if_pos h5]
                exact ⟨fun h => by omega, fun _ r hr => by cases hr⟩
              · rw [if_neg h5]
                by_cases h6 : k = 0
                · rw [if_pos h6]
                  exact ⟨fun h => by omega, fun _ r hr => by cases hr⟩
                · rw [if_neg h6]
                  exact ⟨fun _ => rfl, fun h => by omega⟩
        · simp only [if_pos h1, if_neg h2, Res.bind_err]
          exact ⟨fun h => by omega, fun _ r hr => by cases hr⟩
      · simp only [if_neg h1, Res.bind_err]
        exact ⟨fun h => by omega, fun _ r hr => by cases hr⟩
    · simp only [if_neg h0, Res.bind_err]
      exact ⟨fun h => by omega, fun _ r hr => by cases hr⟩

theorem denotes_iff {lo hi : Nat} {i : CronItem} (hst : i.StepOk) (v : Nat) :
    i.Denotes lo hi v ↔
      (v ∈ rangeIncl (itemBounds lo hi i).1 (itemBounds lo hi i).2 ∧
        v % itemStep i = (itemBounds lo hi i).1 % itemStep i) := by
  rw [mem_rangeIncl]
  cases i with
  | star => simp [CronItem.Denotes, itemBounds, itemStep, Nat.mod_one]
  | num n => simp [CronItem.Denotes, itemBounds, itemStep, Nat.mod_one]; omega
  | range a b => simp [CronItem.Denotes, itemBounds, itemStep, Nat.mod_one]
  | starStep k =>
    simp only [CronItem.Denotes, itemBounds, itemStep]
    constructor
    · rintro ⟨m, h, hh⟩
      have : lo ≤ v := by rw [h]; exact Nat.le_add_right _ _
      exact ⟨⟨this, hh⟩, (mod_step_iff this).mpr ⟨m, h⟩⟩
    · rintro ⟨⟨h1, h2⟩, h3⟩
      obtain ⟨m, h⟩ := (mod_step_iff h1).mp h3
      exact ⟨m, h, h2⟩
  | rangeStep a b k =>
    simp only [CronItem.Denotes, itemBounds, itemStep]
    constructor
    · rintro ⟨m, h, hh⟩
      have : a ≤ v := by rw [h]; exact Nat.le_add_right _ _
      exact ⟨⟨this, hh⟩, (mod_step_iff this).mpr ⟨m, h⟩⟩
    · rintro ⟨⟨h1, h2⟩, h3⟩
      obtain ⟨m, h⟩ := (mod_step_iff h1).mp h3
      exact ⟨m, h, h2⟩

private theorem spelling_no_comma {i : CronItem} {s : Str} (h : i.Spelling s) : ',' ∉ s := by
  cases h with
  | star => decide
  | starStep hk => simp [hk.not_mem comma]
  | num h => exact h.not_mem comma
  | range ha hb => simp [ha.not_mem comma, hb.not_mem comma]
  | rangeStep ha hb hk => simp [ha.not_mem comma, hb.not_mem comma, hk.not_mem comma]

theorem spelling_ne_nil {i : CronItem} {s : Str} (h : i.Spelling s) : s ≠ [] := by
  cases h with
  | star => simp
  | starStep hk => simp
  | num h => exact h.ne_nil
  | range ha hb => simp
  | rangeStep ha hb hk => simp

theorem fieldSpelling_ne_nil {is : List CronItem} {s : Str} (h : FieldSpelling is s) :
    s ≠ [] := by
  cases h with
  | one h => exact spelling_ne_nil h
  | cons h _ => simp

/-- The pieces between commas are spellings of the elements. -/
theorem split_field {is : List CronItem} {s : Str} (h : FieldSpelling is s) :
    List.Forall₂ CronItem.Spelling is (splitOn ',' s) := by
  induction h with
  | one h =>
    rw [splitOn, splitWith_of_none (no_sep (spelling_no_comma h))]
    exact .cons h .nil
  | cons h ht ih =>
    rw [splitOn, splitWith_append (no_sep (spelling_no_comma h)) (by simp)]
    exact .cons h ih

theorem foldlM_items {lo hi : Nat} (hlo : lo ≤ hi) (hhi : hi < 2 ^ 32) {is : List CronItem}
    {ss : List Str} (h : List.Forall₂ CronItem.Spelling is ss) (acc : List Nat) :
    (FieldOk lo hi is → ∃ r, Res.foldlM (parseInterval lo hi) acc ss = .ok r ∧
      (∀ v, v ∈ r ↔ v ∈ acc ∨ FieldDenotes lo hi is v) ∧ (Incr acc → Incr r)) ∧
    (¬ FieldOk lo hi is → ∀ r, Res.foldlM (parseInterval lo hi) acc ss ≠ .ok r) := by
  induction h generalizing acc with
  | nil =>
    refine ⟨fun _ => ⟨acc, rfl, by simp [FieldDenotes], fun h => h⟩, fun h => ?_⟩
    exact absurd (by intro i hi; cases hi) h
  | @cons i s is ss hs hss ih =>
    have hp := parseInterval_spelling hs hlo hhi acc
    by_cases hiok : i.InRange lo hi ∧ i.Ordered ∧ i.StepOk
    · have hpi := hp.1 hiok
      generalize hacc' : (rangeIncl (itemBounds lo hi i).1 (itemBounds lo hi i).2).foldl (fun r v =>
          if v % itemStep i = (itemBounds lo hi i).1 % itemStep i then setInsert v r else r) acc
          = acc' at hpi
      have hset := foldl_setInsert_if
        (fun v => v % itemStep i = (itemBounds lo hi i).1 % itemStep i)
        (rangeIncl (itemBounds lo hi i).1 (itemBounds lo hi i).2) acc
      rw [hacc'] at hset
      constructor
      · intro hok
        obtain ⟨r, h1, h2, h3⟩ := (ih acc').1 (fun j hj => hok j (by simp [hj]))
        refine ⟨r, by simp [hpi, h1], ?_, fun h => h3 (hset.2 h)⟩
        intro v
        rw [h2, hset.1, ← denotes_iff hiok.2.2]
        simp only [FieldDenotes, List.mem_cons, exists_eq_or_imp, or_assoc]
      · intro hn r
        simp only [Res.foldlM_cons, hpi, Res.bind_ok]
        refine (ih acc').2 ?_ r
        intro hok
        refine hn (fun j hj => ?_)
        rcases List.mem_cons.mp hj with rfl | hj
        · exact hiok
        · exact hok j hj
    · refine ⟨fun hok => absurd (hok i (by simp)) hiok, fun _ r => ?_⟩
      intro hr
      simp only [Res.foldlM_cons] at hr
      obtain ⟨a, ha, -⟩ := Res.bind_eq_ok.mp hr
      exact hp.2 hiok a ha

private theorem star_only {is : List CronItem} {s : Str} (h : FieldSpelling is s)
    (hs : s = ['*']) : is = [.star] := by
  have aux : ∀ {s t : Str} {c : Char}, s ≠ [] → s ++ c :: t ≠ ['*'] := by
    intro s t c h
    cases s with
    | nil => exact absurd rfl h
    | cons x xs => simp
  cases h with
  | one h =>
    cases h with
    | star => rfl
    | starStep => simp at hs
    | num h => exact absurd (hs ▸ List.mem_singleton.mpr rfl) (h.not_mem starc)
    | range ha hb => exact absurd hs (aux ha.ne_nil)
    | rangeStep ha hb hk => exact absurd hs (aux (by simp))
  | cons h ht => exact absurd hs (aux (spelling_ne_nil h))

/-- The field parser on spellings of fields. -/
theorem parseElement_spelling {lo hi : Nat} (hlo : lo ≤ hi) (hhi : hi < 2 ^ 32)
    {is : List CronItem} {s : Str} (h : FieldSpelling is s) :
    (FieldOk lo hi is → ∃ r, parseElement (some s) lo hi = .ok r ∧ Incr r ∧
      ∀ v, v ∈ r ↔ FieldDenotes lo hi is v) ∧
    (¬ FieldOk lo hi is → ∀ r, parseElement (some s) lo hi ≠ .ok r) := by
  have hne := fieldSpelling_ne_nil h
  unfold parseElement
  rw [if_neg (by omega)]
  simp only
  rw [if_neg (by simpa using hne)]
  by_cases hstar : s = ['*']
  · subst hstar
    simp only [if_true]
    have his : is = [.star] := star_only h rfl
    subst his
    have hs := star_set lo hi
    constructor
    · intro _
      refine ⟨_, rfl, hs.2, ?_⟩
      intro v
      rw [hs.1]
      simp [FieldDenotes, CronItem.Denotes]
    · intro hn
      exact absurd (by intro i hi; rw [List.mem_singleton.mp hi]; exact ⟨trivial, trivial, trivial⟩) hn
  · rw [if_neg hstar]
    have := foldlM_items hlo hhi (split_field h) []
    constructor
    · intro hok
      obtain ⟨r, h1, h2, h3⟩ := this.1 hok
      exact ⟨r, h1, h3 (by simp [Incr]), by simpa using h2⟩
    · exact this.2

/-! ## Arbitrary text -/

theorem parseDigits_zero {acc : Nat} {s : Str} (h : parseDigits acc s = some 0) :
    acc = 0 ∧ ∀ c ∈ s, c = '0' := by
  induction s generalizing acc with
  | nil => simpa [parseDigits] using h
  | cons c cs ih =>
    unfold parseDigits at h
    cases hd : digitVal c with
    | none => rw [hd] at h; cases h
    | some d =>
      rw [hd] at h
      obtain ⟨h1, h2⟩ := ih h
      have h0 : acc = 0 ∧ d = 0 := by omega
      refine ⟨h0.1, ?_⟩
      intro x hx
      rcases List.mem_cons.mp hx with rfl | hx
      · unfold digitVal at hd
        split at hd
        · have : x.toNat = 48 := by
            have := Option.some.inj hd
            omega
          have h48 : ('0' : Char).toNat = 48 := rfl
          exact Char.toNat_inj.mp (this.trans h48.symm)
        · cases hd
      · exact h2 x hx

theorem parseU32_zero {z : Str} (h : parseU32 z = some 0) : ZeroNumeral z := by
  unfold parseU32 at h
  split at h
  · cases h
  · rename_i s hne
    cases hp : parseDigits 0 (stripPlus z) with
    | none => rw [hp] at h; cases h
    | some n =>
      rw [hp] at h
      simp only at h
      split at h
      · cases h
        have hz := (parseDigits_zero hp).2
        unfold stripPlus at hz
        split at hz
        · rename_i c cs
          exact ⟨c :: cs, .inr rfl, by simp, hz⟩
        · exact ⟨z, .inl rfl, fun h => hne h, hz⟩
      · cases h

/-- One piece: what can come out of `parseInterval`. -/
theorem parseInterval_total {lo hi : Nat} (acc : List Nat) (w : Str) :
    (∀ r, parseInterval lo hi acc w = .ok r →
      (Incr acc → Incr r) ∧ r ≠ [] ∧ (∀ v ∈ r, v ∈ acc ∨ (lo ≤ v ∧ v ≤ hi))) ∧
    (∀ q, parseInterval lo hi acc w = .panic q → q = .divByZero ∧
      ∃ pre z post, w = pre ++ '/' :: z ++ post ∧ ZeroNumeral z ∧
        ∀ c, post.head? = some c → c = '/') := by
  unfold parseInterval
  cases hs : splitOn '/' w with
  | nil => exact ⟨fun r h => (by cases h), fun q h => by cases h⟩
  | cons v vs =>
    simp only
    have hb : ∀ q, parseBounds lo hi v ≠ .panic q := by
      intro q
      unfold parseBounds
      repeat' split
      all_goals intro h; cases h
    have hst : ∀ q, parseStep vs ≠ .panic q := by
      intro q
      unfold parseStep
      repeat' split
      all_goals intro h; cases h
    cases hstep : parseStep vs with
    | panic q => exact absurd hstep (hst q)
    | err e => exact ⟨fun r h => (by cases h), fun q h => by cases h⟩
    | ok step =>
      cases hbd : parseBounds lo hi v with
      | panic q => exact absurd hbd (hb q)
      | err e => exact ⟨fun r h => (by cases h), fun q h => by cases h⟩
      | ok be =>
        simp only [Res.bind_ok]
        by_cases h1 : be.1 < lo ∨ hi < be.1
        · rw [if_pos h1]; exact ⟨fun r h => (by cases h), fun q h => by cases h⟩
        rw [if_neg h1]
        by_cases h2 : be.2 < lo ∨ hi < be.2
        · rw [if_pos h2]; exact ⟨fun r h => (by cases h), fun q h => by cases h⟩
        rw [if_neg h2]
        by_cases h3 : be.2 < be.1
        · rw [if_pos h3]; exact ⟨fun r h => (by cases h), fun q h => by cases h⟩
        rw [if_neg h3]
        by_cases h4 : step = 0
        · rw [if_pos h4]
          refine ⟨fun r h => (by cases h), fun q h => ?_⟩
          cases h
          refine ⟨rfl, ?_⟩
          subst h4
          cases vs with
          | nil => simp [parseStep] at hstep
          | cons z zs =>
            have hz : parseU32 z = some 0 := by
              simp only [parseStep] at hstep
              cases hu : parseU32 z with
              | none => rw [hu] at hstep; cases hstep
              | some n => rw [hu] at hstep; cases hstep; rfl
            obtain ⟨-, hh⟩ := splitWith_head hs
            rcases hh with ⟨h, -⟩ | ⟨c, t, hc, rfl, ht⟩
            · cases h
            · have hc' : c = '/' := by simpa using hc
              subst hc'
              obtain ⟨-, hh⟩ := splitWith_head ht
              rcases hh with ⟨-, rfl⟩ | ⟨c, t', hc, rfl, -⟩
              · exact ⟨v, t, [], by simp, parseU32_zero hz, by simp⟩
              · refine ⟨v, z, c :: t', by simp, parseU32_zero hz, ?_⟩
                simpa using hc
        · rw [if_neg h4]
          refine ⟨fun r h => ?_, fun q h => by cases h⟩
          have hset := foldl_setInsert_if (fun i => i % step = be.1 % step) (rangeIncl be.1 be.2) acc
          have hr := Res.ok.inj h
          rw [hr] at hset
          refine ⟨hset.2, ?_, ?_⟩
          · apply List.ne_nil_of_mem (a := be.1)
            exact (hset.1 _).mpr (.inr ⟨mem_rangeIncl.mpr ⟨Nat.le_refl _, by omega⟩, rfl⟩)
          · intro v hv
            rcases (hset.1 v).mp hv with h | ⟨h, -⟩
            · exact .inl h
            · rw [mem_rangeIncl] at h; right; omega

private theorem foldlM_total {lo hi : Nat} (ws : List Str) (acc : List Nat) :
    (∀ r, Res.foldlM (parseInterval lo hi) acc ws = .ok r →
      (Incr acc → Incr r) ∧ ((acc ≠ [] ∨ ws ≠ []) → r ≠ []) ∧
      (∀ v ∈ r, v ∈ acc ∨ (lo ≤ v ∧ v ≤ hi))) ∧
    (∀ q, Res.foldlM (parseInterval lo hi) acc ws = .panic q → q = .divByZero ∧
      ∃ w ∈ ws, ∃ pre z post, w = pre ++ '/' :: z ++ post ∧ ZeroNumeral z ∧
        ∀ c, post.head? = some c → c = '/') := by
  induction ws generalizing acc with
  | nil =>
    refine ⟨fun r h => ?_, fun q h => by cases h⟩
    cases h
    exact ⟨fun h => h, fun h => by simpa using h, fun v hv => .inl hv⟩
  | cons w ws ih =>
    have hp := parseInterval_total (lo := lo) (hi := hi) acc w
    simp only [Res.foldlM_cons]
    cases h1 : parseInterval lo hi acc w with
    | err e => exact ⟨fun r h => (by cases h), fun q h => by cases h⟩
    | panic q' =>
      refine ⟨fun r h => (by cases h), fun q h => ?_⟩
      cases h
      exact ⟨(hp.2 _ h1).1, w, by simp, (hp.2 _ h1).2⟩
    | ok r1 =>
      obtain ⟨g1, g2, g3⟩ := hp.1 _ h1
      simp only [Res.bind_ok]
      refine ⟨fun r h => ?_, fun q h => ?_⟩
      · obtain ⟨k1, k2, k3⟩ := (ih r1).1 r h
        refine ⟨fun h => k1 (g1 h), fun _ => k2 (.inl g2), ?_⟩
        intro v hv
        rcases k3 v hv with h | h
        · exact g3 v h
        · exact .inr h
      · obtain ⟨k1, w', hw', k2⟩ := (ih r1).2 q h
        exact ⟨k1, w', by simp [hw'], k2⟩

/-- One field of arbitrary text. -/
theorem parseElement_total {lo hi : Nat} (input : Option Str) :
    (∀ r, parseElement input lo hi = .ok r →
      input.isSome ∧ Incr r ∧ r ≠ [] ∧ ∀ v ∈ r, lo ≤ v ∧ v ≤ hi) ∧
    (∀ q, parseElement input lo hi = .panic q → q = .divByZero ∧
      ∃ w, input = some w ∧ ∃ pre z post, w = pre ++ '/' :: z ++ post ∧ ZeroNumeral z ∧
        ∀ c, post.head? = some c → c = '/' ∨ c = ',') := by
  unfold parseElement
  by_cases hb : hi < lo
  · rw [if_pos hb]; exact ⟨fun r h => (by cases h), fun q h => by cases h⟩
  rw [if_neg hb]
  cases input with
  | none => exact ⟨fun r h => (by cases h), fun q h => by cases h⟩
  | some w =>
    simp only
    by_cases he : w.isEmpty = true
    · rw [if_pos he]; exact ⟨fun r h => (by cases h), fun q h => by cases h⟩
    rw [if_neg he]
    by_cases hs : w = ['*']
    · rw [if_pos hs]
      refine ⟨fun r h => ?_, fun q h => by cases h⟩
      cases h
      have := star_set lo hi
      refine ⟨rfl, this.2, ?_, fun v hv => (this.1 v).mp hv⟩
      exact List.ne_nil_of_mem ((this.1 lo).mpr ⟨Nat.le_refl _, by omega⟩)
    · rw [if_neg hs]
      have ht := foldlM_total (lo := lo) (hi := hi) (splitOn ',' w) []
      refine ⟨fun r h => ?_, fun q h => ?_⟩
      · obtain ⟨h1, h2, h3⟩ := ht.1 r h
        refine ⟨rfl, h1 (by simp [Incr]), h2 (.inr (splitWith_ne_nil _ _)), ?_⟩
        intro v hv
        simpa using h3 v hv
      · obtain ⟨h1, x, hx, pre, z, post, rfl, hz, hpost⟩ := ht.2 q h
        refine ⟨h1, w, rfl, ?_⟩
        obtain ⟨-, p1, p2, hw, hp2⟩ := splitWith_mem hx
        refine ⟨p1 ++ pre, z, post ++ p2, by simp [hw], hz, ?_⟩
        intro c hc
        cases post with
        | nil => right; simpa using hp2 c (by simpa using hc)
        | cons y ys => left; exact hpost c (by simpa using hc)

private theorem word_mem {s w : Str} {k : Nat} (h : (splitWhitespace s)[k]? = some w) :
    ∃ pre post, s = pre ++ w ++ post ∧ ∀ c, post.head? = some c → IsSpace c := by
  have hm : w ∈ splitWith isWhitespace s :=
    (List.mem_filter.mp (List.mem_of_getElem? h)).1
  obtain ⟨-, pre, post, h1, h2⟩ := splitWith_mem hm
  exact ⟨pre, post, h1, fun c hc => (isWhitespace_iff c).mp (h2 c hc)⟩

/-- A well-formed schedule: all sets nonempty and within their ranges. -/
structure Timer.WF (t : Timer) : Prop where
  minute : Incr t.minute ∧ t.minute ≠ [] ∧ ∀ v ∈ t.minute, v ≤ 59
  hour : Incr t.hour ∧ t.hour ≠ [] ∧ ∀ v ∈ t.hour, v ≤ 23
  day : Incr t.day ∧ t.day ≠ [] ∧ ∀ v ∈ t.day, 1 ≤ v ∧ v ≤ 31
  month : Incr t.month ∧ t.month ≠ [] ∧ ∀ v ∈ t.month, 1 ≤ v ∧ v ≤ 12
  weekday : Incr t.weekday ∧ t.weekday ≠ [] ∧ ∀ v ∈ t.weekday, v ≤ 6

theorem parse_total (s : Str) :
    (∀ t, Timer.parse s = .ok t → t.WF ∧ (splitWhitespace s).length = 5) ∧
    (∀ q, Timer.parse s = .panic q → q = .divByZero ∧ ZeroStep s) := by
  have field : ∀ (k lo hi : Nat) (q : Panic),
      parseElement (splitWhitespace s)[k]? lo hi = .panic q → q = .divByZero ∧ ZeroStep s := by
    intro k lo hi q h
    obtain ⟨h1, w, hw, pre, z, post, rfl, hz, hpost⟩ := (parseElement_total _).2 q h
    obtain ⟨p1, p2, hs, hp2⟩ := word_mem hw
    refine ⟨h1, p1 ++ pre, z, post ++ p2, by simp [hs], hz, ?_⟩
    intro c hc
    cases post with
    | nil => exact .inr (.inr (hp2 c (by simpa using hc)))
    | cons y ys =>
      rcases hpost c (by simpa using hc) with h | h
      · exact .inr (.inl h)
      · exact .inl h
  unfold Timer.parse
  simp only
  have f0 := parseElement_total (lo := 0) (hi := 59) (splitWhitespace s)[0]?
  have f1 := parseElement_total (lo := 0) (hi := 23) (splitWhitespace s)[1]?
  have f2 := parseElement_total (lo := 1) (hi := 31) (splitWhitespace s)[2]?
  have f3 := parseElement_total (lo := 1) (hi := 12) (splitWhitespace s)[3]?
  have f4 := parseElement_total (lo := 0) (hi := 6) (splitWhitespace s)[4]?
  cases h0 : parseElement (splitWhitespace s)[0]? 0 59 with
  | err e => exact ⟨fun r h => (by cases h), fun q h => by cases h⟩
  | panic q' => exact ⟨fun r h => (by cases h), fun q h => by cases h; exact field _ _ _ _ h0⟩
  | ok r0 =>
  cases h1 : parseElement (splitWhitespace s)[1]? 0 23 with
  | err e => exact ⟨fun r h => (by cases h), fun q h => by cases h⟩
  | panic q' => exact ⟨fun r h => (by cases h), fun q h => by cases h; exact field _ _ _ _ h1⟩
  | ok r1 =>
  cases h2 : parseElement (splitWhitespace s)[2]? 1 31 with
  | err e => exact ⟨fun r h => (by cases h), fun q h => by cases h⟩
  | panic q' => exact ⟨fun r h => (by cases h), fun q h => by cases h; exact field _ _ _ _ h2⟩
  | ok r2 =>
  cases h3 : parseElement (splitWhitespace s)[3]? 1 12 with
  | err e => exact ⟨fun r h => (by cases h), fun q h => by cases h⟩
  | panic q' => exact ⟨fun r h => (by cases h), fun q h => by cases h; exact field _ _ _ _ h3⟩
  | ok r3 =>
  cases h4 : parseElement (splitWhitespace s)[4]? 0 6 with
  | err e => exact ⟨fun r h => (by cases h), fun q h => by cases h⟩
  | panic q' => exact ⟨fun r h => (by cases h), fun q h => by cases h; exact field _ _ _ _ h4⟩
  | ok r4 =>
  simp only [Res.bind_ok]
  cases h5 : (splitWhitespace s)[5]? with
  | some _ => exact ⟨fun r h => (by cases h), fun q h => by cases h⟩
  | none =>
    refine ⟨fun t h => ?_, fun q h => by cases h⟩
    cases h
    have g0 := f0.1 _ h0
    have g1 := f1.1 _ h1
    have g2 := f2.1 _ h2
    have g3 := f3.1 _ h3
    have g4 := f4.1 _ h4
    refine ⟨⟨⟨g0.2.1, g0.2.2.1, fun v hv => (g0.2.2.2 v hv).2⟩,
      ⟨g1.2.1, g1.2.2.1, fun v hv => (g1.2.2.2 v hv).2⟩, g2.2, g3.2,
      ⟨g4.2.1, g4.2.2.1, fun v hv => (g4.2.2.2 v hv).2⟩⟩, ?_⟩
    have a4 := g4.1
    rw [List.getElem?_eq_none_iff] at h5
    have : ¬ (splitWhitespace s).length ≤ 4 := by
      intro hle
      rw [List.getElem?_eq_none hle] at a4
      cases a4
    omega

end Cinit
