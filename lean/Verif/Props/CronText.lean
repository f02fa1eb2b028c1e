import Verif.Proofs.CronText
import Verif.Props.CronParse
/-!
# C53, C54: the documented cron language
-/

namespace Cinit.Props
open Spec

/-! ## C54: malformed expressions are rejected -/

/-- An accepted expression consists of exactly five words, and each of them was accepted as the
corresponding field. -/
theorem C54_five_fields (s : Str) (t : Timer) (h : Timer.parse s = .ok t) :
    ∃ w0 w1 w2 w3 w4, Words [w0, w1, w2, w3, w4] s ∧
      parseElement (some w0) 0 59 = .ok t.minute ∧ parseElement (some w1) 0 23 = .ok t.hour ∧
      parseElement (some w2) 1 31 = .ok t.day ∧ parseElement (some w3) 1 12 = .ok t.month ∧
      parseElement (some w4) 0 6 = .ok t.weekday := by
  have hw := words_split s
  unfold Timer.parse at h
  simp only [Res.bind_eq_ok] at h
  obtain ⟨m, h0, hr, h1, d, h2, mo, h3, wd, h4, h5⟩ := h
  have none_err : ∀ lo hi r, parseElement none lo hi ≠ .ok r := by
    intro lo hi r; unfold parseElement; split <;> simp
  generalize splitWhitespace s = ws at *
  match ws, hw, h0, h1, h2, h3, h4, h5 with
  | [w0, w1, w2, w3, w4], hw, h0, h1, h2, h3, h4, h5 =>
    simp only [List.getElem?_cons_zero, List.getElem?_cons_succ, List.getElem?_nil] at h0 h1 h2 h3 h4 h5
    cases h5
    exact ⟨w0, w1, w2, w3, w4, hw, h0, h1, h2, h3, h4⟩
  | [], _, h0, _, _, _, _, _ => exact absurd h0 (none_err _ _ _)
  | [_], _, _, h1, _, _, _, _ => exact absurd h1 (none_err _ _ _)
  | [_, _], _, _, _, h2, _, _, _ => exact absurd h2 (none_err _ _ _)
  | [_, _, _], _, _, _, _, h3, _, _ => exact absurd h3 (none_err _ _ _)
  | [_, _, _, _], _, _, _, _, _, h4, _ => exact absurd h4 (none_err _ _ _)
  | _ :: _ :: _ :: _ :: _ :: _ :: _, _, _, _, _, _, _, h5 => simp at h5

/-- The claim: a field is accepted only if it is spelled according to the documented grammar. -/
def C54_statement : Prop :=
  ∀ (lo hi : Nat) (s : Str) (r : List Nat), parseElement (some s) lo hi = .ok r →
    ∃ items, FieldSpelling items s

private theorem num_count {s : Str} {n : Nat} (h : Numeral s n) : s.count '-' = 0 :=
  List.count_eq_zero.mpr (h.not_mem (by decide))

/-- A spelled element has at most one dash. -/
theorem spelling_dashes {i : CronItem} {s : Str} (h : i.Spelling s) : s.count '-' ≤ 1 := by
  cases h with
  | star => decide
  | starStep h => simp [num_count h]
  | num h => simp [num_count h]
  | range ha hb => simp [num_count ha, num_count hb]
  | rangeStep ha hb hk => simp [num_count ha, num_count hb, num_count hk]

/-- `1-5-9` is accepted (as `1-5`). -/
theorem C54_violated : ¬ C54_statement := by
  intro h
  obtain ⟨items, hi⟩ := h 0 59 ['1', '-', '5', '-', '9'] [1, 2, 3, 4, 5] (by decide +kernel)
  generalize hs : ['1', '-', '5', '-', '9'] = s at hi
  cases hi with
  | one h =>
    have := spelling_dashes h
    rw [← hs] at this
    revert this
    decide
  | cons h ht =>
    have : ',' ∈ ['1', '-', '5', '-', '9'] := by rw [hs]; simp
    revert this
    decide

/-- What is accepted, exactly: comma-separated pieces, each a number, range or star with an
optional step, where text behind a second dash or a second slash is ignored; everything is in
range, and the result are the values the pieces stand for, in increasing order. `lo..hi` is any
domain. -/
theorem C54_language_partial {lo hi : Nat} (hlo : lo ≤ hi) (hhi : hi < 2 ^ 32) (s : Str)
    (r : List Nat) : parseElement (some s) lo hi = .ok r ↔
      r.Pairwise (· < ·) ∧ LooseField lo hi s (fun v => v ∈ r) :=
  parseElement_iff hlo hhi

/-- Whole expressions: exactly those of five such fields are accepted. -/
theorem C54_expression_partial (s : Str) :
    (∃ t, Timer.parse s = .ok t) ↔ ∃ w0 w1 w2 w3 w4, Words [w0, w1, w2, w3, w4] s ∧
      (∃ ok, LooseField 0 59 w0 ok) ∧ (∃ ok, LooseField 0 23 w1 ok) ∧
      (∃ ok, LooseField 1 31 w2 ok) ∧ (∃ ok, LooseField 1 12 w3 ok) ∧
      ∃ ok, LooseField 0 6 w4 ok := by
  have key : ∀ {lo hi : Nat} (hlo : lo ≤ hi) (hhi : hi < 2 ^ 32) (w : Str),
      (∃ r, parseElement (some w) lo hi = .ok r) ↔ ∃ ok, LooseField lo hi w ok := by
    intro lo hi hlo hhi w
    constructor
    · rintro ⟨r, hr⟩
      exact ⟨_, ((parseElement_iff hlo hhi).mp hr).2⟩
    · rintro ⟨ok, ws, ds, h1, h2, h3⟩
      obtain ⟨r, -, g2, g3⟩ := foldlM_of_loose hhi h2 []
      exact ⟨r, (parseElement_iff hlo hhi).mpr ⟨g2 (by simp [Incr]), ws, ds, h1, h2,
        by simpa using g3⟩⟩
  constructor
  · rintro ⟨t, h⟩
    obtain ⟨w0, w1, w2, w3, w4, hw, h0, h1, h2, h3, h4⟩ := C54_five_fields s t h
    exact ⟨w0, w1, w2, w3, w4, hw, (key (by decide) (by decide) _).mp ⟨_, h0⟩,
      (key (by decide) (by decide) _).mp ⟨_, h1⟩, (key (by decide) (by decide) _).mp ⟨_, h2⟩,
      (key (by decide) (by decide) _).mp ⟨_, h3⟩, (key (by decide) (by decide) _).mp ⟨_, h4⟩⟩
  · rintro ⟨w0, w1, w2, w3, w4, hw, h0, h1, h2, h3, h4⟩
    obtain ⟨r0, h0⟩ := (key (by decide) (by decide) _).mpr h0
    obtain ⟨r1, h1⟩ := (key (by decide) (by decide) _).mpr h1
    obtain ⟨r2, h2⟩ := (key (by decide) (by decide) _).mpr h2
    obtain ⟨r3, h3⟩ := (key (by decide) (by decide) _).mpr h3
    obtain ⟨r4, h4⟩ := (key (by decide) (by decide) _).mpr h4
    exact ⟨⟨r0, r1, r2, r3, r4⟩,
      (parse_of_elements (splitWhitespace_of_words hw) _).mpr ⟨rfl, h0, h1, h2, h3, h4⟩⟩

/-- A case of the odd forms: `+1-5-9/2/x` is the range 1-5 in steps of 2. -/
example : LooseField 0 59 "+1-5-9/2/x".toList (fun v => v ∈ [1, 3, 5]) :=
  ((C54_language_partial (by decide) (by decide) _ _).mp
    (show parseElement (some "+1-5-9/2/x".toList) 0 59 = .ok [1, 3, 5] by decide +kernel)).2

private theorem tidy_num {s : Str} {n : Nat} (h : LooseNum s n) (hp : '+' ∉ s) : Numeral s n := by
  cases h with
  | plain h => exact h
  | plus h => simp at hp

private theorem tidy_piece {lo hi b e k : Nat} {w : Str} (h : LoosePiece lo hi b e k w)
    (ht : TidyPiece w) : ∃ i : CronItem, i.Spelling w := by
  obtain ⟨hd, hs, hp, hb⟩ := ht
  cases h with
  | plain h =>
    cases h with
    | star => exact ⟨_, .star⟩
    | num h => exact ⟨_, .num (tidy_num h hp)⟩
    | range ha hb' =>
      simp at hp
      exact ⟨_, .range (tidy_num ha hp.1) (tidy_num hb' hp.2)⟩
    | rangeJunk ha hb' => simp at hd; omega
  | step h hk =>
    cases h with
    | star =>
      simp at hp
      exact ⟨_, .starStep (tidy_num hk hp)⟩
    | num h =>
      simp at hp
      have h1 := tidy_num h hp.1
      have h2 := tidy_num hk hp.2
      have a1 := h1.not_mem (c := '*') (by decide)
      have a2 := h1.not_mem (c := '-') (by decide)
      have a3 := h2.not_mem (c := '*') (by decide)
      have a4 := h2.not_mem (c := '-') (by decide)
      simp [a1, a2, a3, a4] at hb
    | range ha hb' =>
      simp at hp
      exact ⟨_, .rangeStep (tidy_num ha hp.1) (tidy_num hb' hp.2.1) (tidy_num hk hp.2.2)⟩
    | rangeJunk ha hb' => simp at hd; omega
  | stepJunk h hk => simp at hs; omega

/-- The claim for text without repeated dashes and slashes, plus signs and steps behind single
numbers: if it is accepted then it is spelled according to the documented grammar. -/
theorem C54_strict_partial (lo hi : Nat) (s : Str) (r : List Nat) (ws : List Str)
    (hws : Commas ws s) (ht : ∀ w ∈ ws, TidyPiece w)
    (h : parseElement (some s) lo hi = .ok r) : ∃ items, FieldSpelling items s := by
  obtain ⟨ws', ds, hc, hf, -⟩ := parseElement_loose h
  have : ws' = ws := by rw [← commas_unique hc, ← commas_unique hws]
  subst this
  clear h hws
  induction hc generalizing ds with
  | one hw =>
    cases hf with
    | cons hp _ =>
      obtain ⟨i, hi⟩ := tidy_piece hp.1 (ht _ (by simp))
      exact ⟨[i], .one hi⟩
  | cons hw _ ih =>
    cases hf with
    | cons hp hf =>
      obtain ⟨i, hi⟩ := tidy_piece hp.1 (ht _ (by simp))
      obtain ⟨is, his⟩ := ih _ hf (fun w hw => ht w (by simp [hw]))
      exact ⟨i :: is, .cons hi his⟩

/-- `C54_strict_partial` applies to `1-9/2,30`. -/
example : ∃ items, FieldSpelling items ['1', '-', '9', '/', '2', ',', '3', '0'] :=
  C54_strict_partial 0 59 _ [1, 3, 5, 7, 9, 30] [['1', '-', '9', '/', '2'], ['3', '0']]
    (.cons (by decide) (.one (by decide)))
    (by
      intro w hw
      simp only [List.mem_cons, List.not_mem_nil, or_false] at hw
      rcases hw with rfl | rfl
      · exact ⟨by decide, by decide, by decide, by decide⟩
      · exact ⟨by decide, by decide, by decide, by decide⟩)
    (by decide +kernel)

/-! ## C53: the notation of crontab(5) for weekdays and months -/

/-- The claim for weekdays: seven is accepted (crontab(5): "0-7 (0 or 7 is Sunday)"). -/
def C53_statement : Prop :=
  ∀ s, Words [['0'], ['0'], ['*'], ['*'], ['7']] s → ∃ t, Timer.parse s = .ok t

theorem C53_violated : ¬ C53_statement := by
  intro h
  have hw := words_split ['0', ' ', '0', ' ', '*', ' ', '*', ' ', '7']
  rw [show splitWhitespace ['0', ' ', '0', ' ', '*', ' ', '*', ' ', '7'] =
    [['0'], ['0'], ['*'], ['*'], ['7']] by decide +kernel] at hw
  obtain ⟨t, ht⟩ := h _ hw
  have : Timer.parse ['0', ' ', '0', ' ', '*', ' ', '*', ' ', '7'] = .err .outOfRange := by
    decide +kernel
  rw [this] at ht
  cases ht

private theorem letter_not_loose {c : Char} {w : Str} {n : Nat} (hc : c.isAlpha = true)
    (h : LooseNum (c :: w) n) : False := by
  have hn : c.toNat < 48 ∨ 57 < c.toNat := by
    simp [Char.isAlpha, Char.isUpper, Char.isLower, UInt32.le_iff_toNat_le] at hc
    have : c.toNat = c.val.toNat := rfl
    omega
  generalize hw : c :: w = x at h
  cases h with
  | plain h => exact h.not_mem hn (by rw [← hw]; simp)
  | plus h =>
    have := (List.cons.inj hw).1
    subst this
    revert hc
    decide

private theorem letter_append {c : Char} {w s t : Str} {d : Char} (hs : s ≠ [])
    (h : c :: w = s ++ d :: t) : ∃ s', s = c :: s' := by
  cases s with
  | nil => exact absurd rfl hs
  | cons x xs => simp at h; exact ⟨xs, by rw [h.1]⟩

private theorem loose_ne_nil {s : Str} {n : Nat} (h : LooseNum s n) : s ≠ [] := by
  cases h with
  | plain h => exact h.ne_nil
  | plus h => simp

private theorem letter_base {lo hi b e : Nat} {c : Char} {w : Str} (hc : c.isAlpha = true)
    (h : LooseBase lo hi b e (c :: w)) : False := by
  generalize hw : c :: w = x at h
  cases h with
  | star => have := (List.cons.inj hw).1; subst this; revert hc; decide
  | num h => subst hw; exact letter_not_loose hc h
  | range ha hb =>
    obtain ⟨s', rfl⟩ := letter_append (loose_ne_nil ha) hw
    exact letter_not_loose hc ha
  | rangeJunk ha hb =>
    rw [List.append_assoc, List.cons_append] at hw
    obtain ⟨s', rfl⟩ := letter_append (loose_ne_nil ha) hw
    exact letter_not_loose hc ha

private theorem base_ne_nil {lo hi b e : Nat} {s : Str} (h : LooseBase lo hi b e s) : s ≠ [] := by
  cases h with
  | star => simp
  | num h => exact loose_ne_nil h
  | range ha hb => simp
  | rangeJunk ha hb => simp

/-- Names are not accepted either: no field any of whose pieces starts with a letter is. -/
theorem C53_names_rejected (lo hi : Nat) (s : Str) (ws : List Str) (hws : Commas ws s)
    (c : Char) (w : Str) (hc : c.isAlpha = true) (hw : c :: w ∈ ws) (r : List Nat) :
    parseElement (some s) lo hi ≠ .ok r := by
  intro h
  obtain ⟨ws', ds, hcm, hf, -⟩ := parseElement_loose h
  have : ws' = ws := by rw [← commas_unique hcm, ← commas_unique hws]
  subst this
  have : ∃ b e k, LoosePiece lo hi b e k (c :: w) := by
    clear hcm hws h
    induction hf with
    | nil => cases hw
    | cons hp _ ih =>
      rcases List.mem_cons.mp hw with rfl | hw
      · exact ⟨_, _, _, hp.1⟩
      · exact ih hw
  obtain ⟨b, e, k, hp⟩ := this
  generalize hx : c :: w = x at hp
  cases hp with
  | plain h => subst hx; exact letter_base hc h
  | step h hk =>
    obtain ⟨s', rfl⟩ := letter_append (base_ne_nil h) hx
    exact letter_base hc h
  | stepJunk h hk =>
    rw [List.append_assoc, List.cons_append] at hx
    obtain ⟨s', rfl⟩ := letter_append (base_ne_nil h) hx
    exact letter_base hc h

/-- Weekday seven is rejected however it is written. -/
theorem C53_seven_rejected {s w0 w1 w2 w3 w4 : Str} {f4 : List CronItem}
    (hw : Words [w0, w1, w2, w3, w4] s) (h4 : FieldSpelling f4 w4) (h7 : .num 7 ∈ f4) (t : Timer) :
    Timer.parse s ≠ .ok t := by
  intro h
  obtain ⟨v0, v1, v2, v3, v4, hv, -, -, -, -, hr⟩ := C54_five_fields s t h
  have e1 := splitWhitespace_of_words hw
  have e2 := splitWhitespace_of_words hv
  rw [e1] at e2
  simp only [List.cons.injEq, and_true] at e2
  obtain ⟨-, -, -, -, rfl⟩ := e2
  refine (C20_field (lo := 0) (hi := 6) (by decide) (by decide) h4).2 ?_ _ hr
  intro hok
  have := (hok _ h7).1
  simp [CronItem.InRange] at this

/-- What holds of the claim: months and weekdays written as numbers 1-12 and 0-6 are accepted,
and mean what they say. -/
theorem C53_numbers_partial {s w0 w1 w2 w3 w4 : Str} {f0 f1 f2 f3 f4 : List CronItem}
    (hw : Words [w0, w1, w2, w3, w4] s)
    (h0 : FieldSpelling f0 w0) (h1 : FieldSpelling f1 w1) (h2 : FieldSpelling f2 w2)
    (h3 : FieldSpelling f3 w3) (h4 : FieldSpelling f4 w4)
    (g0 : FieldOk 0 59 f0) (g1 : FieldOk 0 23 f1) (g2 : FieldOk 1 31 f2) (g3 : FieldOk 1 12 f3)
    (g4 : FieldOk 0 6 f4) :
    ∃ t, Timer.parse s = .ok t ∧ (∀ v, v ∈ t.month ↔ FieldDenotes 1 12 f3 v) ∧
      (∀ v, v ∈ t.weekday ↔ FieldDenotes 0 6 f4 v) := by
  obtain ⟨hi, hd⟩ := C20_expression hw h0 h1 h2 h3 h4
  obtain ⟨t, ht⟩ := hi.mpr ⟨g0, g1, g2, g3, g4⟩
  obtain ⟨-, -, -, a, b⟩ := hd t ht
  exact ⟨t, ht, a, b⟩

/-- `C53_names_rejected` is about texts such as `mon,5`, `C53_seven_rejected` about `* * * * 7`. -/
example : parseElement (some ['m', 'o', 'n', ',', '5']) 0 6 ≠ .ok [1, 5] :=
  C53_names_rejected 0 6 _ [['m', 'o', 'n'], ['5']] (.cons (by decide) (.one (by decide)))
    'm' ['o', 'n'] (by decide) (by simp) _

example (t : Timer) : Timer.parse ['*', ' ', '*', ' ', '*', ' ', '*', ' ', '7'] ≠ .ok t := by
  have hw := words_split ['*', ' ', '*', ' ', '*', ' ', '*', ' ', '7']
  rw [show splitWhitespace ['*', ' ', '*', ' ', '*', ' ', '*', ' ', '7'] =
    [['*'], ['*'], ['*'], ['*'], ['7']] by decide +kernel] at hw
  exact C53_seven_rejected hw (.one (.num (.digit (d := 7) (by decide)))) (by simp) t

end Cinit.Props
