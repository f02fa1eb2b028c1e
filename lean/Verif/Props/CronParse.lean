import Verif.Proofs.CronParse
/-!
# C20, C21: cron expressions
-/

namespace Cinit.Props

open Cinit Spec

/-! ## C20 -/

/-- C20, one field: every spelling of a field whose numbers are in range, whose ranges are
not reversed and whose steps are positive is accepted, and yields exactly the values the
field denotes (as a duplicate-free increasing sequence). Any other spelling is not accepted.
`lo..hi` is any domain (the code uses 0-59, 0-23, 1-31, 1-12, 0-6). -/
theorem C20_field {lo hi : Nat} (hlo : lo ≤ hi) (hhi : hi < 2 ^ 32)
    {items : List CronItem} {s : Str} (h : FieldSpelling items s) :
    (FieldOk lo hi items → ∃ r, parseElement (some s) lo hi = .ok r ∧ r.Pairwise (· < ·) ∧
      ∀ v, v ∈ r ↔ FieldDenotes lo hi items v) ∧
    (¬ FieldOk lo hi items → ∀ r, parseElement (some s) lo hi ≠ .ok r) :=
  parseElement_spelling hlo hhi h

theorem parse_of_elements {s : Str} {w0 w1 w2 w3 w4 : Str} {rest : List Str}
    (h : splitWhitespace s = w0 :: w1 :: w2 :: w3 :: w4 :: rest) (t : Timer) :
    Timer.parse s = .ok t ↔ rest = [] ∧
      parseElement (some w0) 0 59 = .ok t.minute ∧ parseElement (some w1) 0 23 = .ok t.hour ∧
      parseElement (some w2) 1 31 = .ok t.day ∧ parseElement (some w3) 1 12 = .ok t.month ∧
      parseElement (some w4) 0 6 = .ok t.weekday := by
  unfold Timer.parse
  rw [h]
  simp only [List.getElem?_cons_zero, List.getElem?_cons_succ]
  constructor
  · intro h
    obtain ⟨r0, h0, h⟩ := Res.bind_eq_ok.mp h
    obtain ⟨r1, h1, h⟩ := Res.bind_eq_ok.mp h
    obtain ⟨r2, h2, h⟩ := Res.bind_eq_ok.mp h
    obtain ⟨r3, h3, h⟩ := Res.bind_eq_ok.mp h
    obtain ⟨r4, h4, h⟩ := Res.bind_eq_ok.mp h
    cases rest with
    | nil => cases h; exact ⟨rfl, h0, h1, h2, h3, h4⟩
    | cons => cases h
  · rintro ⟨rfl, h0, h1, h2, h3, h4⟩
    rw [h0, h1, h2, h3, h4]
    rfl

/-- C20, whole expressions: for a text consisting of five words, each spelling a field, the
text is accepted iff all five fields are proper, and then each component is exactly the set
denoted by its field. -/
theorem C20_expression {s w0 w1 w2 w3 w4 : Str} {f0 f1 f2 f3 f4 : List CronItem}
    (hw : Words [w0, w1, w2, w3, w4] s)
    (h0 : FieldSpelling f0 w0) (h1 : FieldSpelling f1 w1) (h2 : FieldSpelling f2 w2)
    (h3 : FieldSpelling f3 w3) (h4 : FieldSpelling f4 w4) :
    ((∃ t, Timer.parse s = .ok t) ↔ FieldOk 0 59 f0 ∧ FieldOk 0 23 f1 ∧ FieldOk 1 31 f2 ∧
      FieldOk 1 12 f3 ∧ FieldOk 0 6 f4) ∧
    ∀ t, Timer.parse s = .ok t →
      (∀ v, v ∈ t.minute ↔ FieldDenotes 0 59 f0 v) ∧
      (∀ v, v ∈ t.hour ↔ FieldDenotes 0 23 f1 v) ∧
      (∀ v, v ∈ t.day ↔ FieldDenotes 1 31 f2 v) ∧
      (∀ v, v ∈ t.month ↔ FieldDenotes 1 12 f3 v) ∧
      (∀ v, v ∈ t.weekday ↔ FieldDenotes 0 6 f4 v) := by
  have hsp := splitWhitespace_of_words hw
  have key := parse_of_elements hsp
  have c0 := parseElement_spelling (lo := 0) (hi := 59) (by omega) (by omega) h0
  have c1 := parseElement_spelling (lo := 0) (hi := 23) (by omega) (by omega) h1
  have c2 := parseElement_spelling (lo := 1) (hi := 31) (by omega) (by omega) h2
  have c3 := parseElement_spelling (lo := 1) (hi := 12) (by omega) (by omega) h3
  have c4 := parseElement_spelling (lo := 0) (hi := 6) (by omega) (by omega) h4
  have ok : ∀ {lo hi : Nat} {f : List CronItem} {w : Str} {r : List Nat},
      ((FieldOk lo hi f → ∃ r, parseElement (some w) lo hi = .ok r ∧ Incr r ∧
          ∀ v, v ∈ r ↔ FieldDenotes lo hi f v) ∧
        (¬ FieldOk lo hi f → ∀ r, parseElement (some w) lo hi ≠ .ok r)) →
      parseElement (some w) lo hi = .ok r →
      FieldOk lo hi f ∧ ∀ v, v ∈ r ↔ FieldDenotes lo hi f v := by
    intro lo hi f w r hc hr
    by_cases hf : FieldOk lo hi f
    · obtain ⟨r', h1, -, h2⟩ := hc.1 hf
      rw [hr] at h1; cases h1
      exact ⟨hf, h2⟩
    · exact absurd hr (hc.2 hf r)
  refine ⟨⟨?_, ?_⟩, ?_⟩
  · rintro ⟨t, ht⟩
    obtain ⟨-, e0, e1, e2, e3, e4⟩ := (key t).mp ht
    exact ⟨(ok c0 e0).1, (ok c1 e1).1, (ok c2 e2).1, (ok c3 e3).1, (ok c4 e4).1⟩
  · rintro ⟨g0, g1, g2, g3, g4⟩
    obtain ⟨r0, e0, -⟩ := c0.1 g0
    obtain ⟨r1, e1, -⟩ := c1.1 g1
    obtain ⟨r2, e2, -⟩ := c2.1 g2
    obtain ⟨r3, e3, -⟩ := c3.1 g3
    obtain ⟨r4, e4, -⟩ := c4.1 g4
    exact ⟨⟨r0, r1, r2, r3, r4⟩, (key _).mpr ⟨rfl, e0, e1, e2, e3, e4⟩⟩
  · intro t ht
    obtain ⟨-, e0, e1, e2, e3, e4⟩ := (key t).mp ht
    exact ⟨(ok c0 e0).2, (ok c1 e1).2, (ok c2 e2).2, (ok c3 e3).2, (ok c4 e4).2⟩

/-- C20: a text with fewer or more than five words is never accepted. -/
theorem C20_field_count {ws : List Str} {s : Str} (hw : Words ws s) (hn : ws.length ≠ 5)
    (t : Timer) : Timer.parse s ≠ .ok t := by
  intro h
  have := ((parse_total s).1 t h).2
  rw [splitWhitespace_of_words hw] at this
  exact hn this

/-! Concrete fields and expressions. -/

theorem num5 : Numeral ['5'] 5 := .digit (d := 5) (by decide)
theorem num10 : Numeral ['1', '0'] 10 := .snoc (.digit (d := 1) (by decide)) (d := 0) (by decide)
theorem num0 : Numeral ['0'] 0 := .digit (d := 0) (by decide)

/-- `5-10/5,0` as a field of minutes: hypotheses of `C20_field` and the resulting set. -/
example : FieldSpelling [.rangeStep 5 10 5, .num 0]
      ['5', '-', '1', '0', '/', '5', ',', '0'] ∧
    FieldOk 0 59 [.rangeStep 5 10 5, .num 0] ∧
    parseElement (some ['5', '-', '1', '0', '/', '5', ',', '0']) 0 59 = .ok [0, 5, 10] ∧
    FieldDenotes 0 59 [.rangeStep 5 10 5, .num 0] 10 := by
  refine ⟨.cons (.rangeStep num5 num10 num5) (.one (.num num0)), ?_, by decide, ?_⟩
  · intro i hi
    simp only [List.mem_cons, List.not_mem_nil, or_false] at hi
    rcases hi with rfl | rfl
    · simp [CronItem.InRange, CronItem.Ordered, CronItem.StepOk]
    · simp [CronItem.InRange, CronItem.Ordered, CronItem.StepOk]
  · exact ⟨_, List.mem_cons_self .., 1, rfl, by decide⟩

/-- ` 5 *\t5 10 5 ` has five words and is accepted. -/
example : Words [['5'], ['*'], ['5'], ['1', '0'], ['5']]
      [' ', '5', ' ', '*', '\t', '5', ' ', '1', '0', ' ', '5', ' '] ∧
    ∃ t, Timer.parse [' ', '5', ' ', '*', '\t', '5', ' ', '1', '0', ' ', '5', ' '] = .ok t ∧
      t.minute = [5] ∧ t.hour.length = 24 ∧ t.month = [10] := by
  refine ⟨?_, _, rfl, by decide, by decide, by decide⟩
  refine .cons (sp := [' ']) (w := ['5']) ?_ (by simp) ?_ ?_
    (.cons (sp := [' ']) (w := ['*']) ?_ (by simp) ?_ ?_
      (.cons (sp := ['\t']) (w := ['5']) ?_ (by simp) ?_ ?_
        (.cons (sp := [' ']) (w := ['1', '0']) ?_ (by simp) ?_ ?_
          (.cons (sp := [' ']) (w := ['5']) (t := [' ']) ?_ (by simp) ?_ ?_ (.nil ?_))))) <;>
    simp [IsSpace]

/-! ## C21 -/

/-- The full statement of C21. -/
def C21_statement : Prop :=
  ∀ s : Str, (∃ e, Timer.parse s = .err e) ∨
    ∃ t, Timer.parse s = .ok t ∧
      (t.minute ≠ [] ∧ ∀ v ∈ t.minute, v ≤ 59) ∧ (t.hour ≠ [] ∧ ∀ v ∈ t.hour, v ≤ 23) ∧
      (t.day ≠ [] ∧ ∀ v ∈ t.day, 1 ≤ v ∧ v ≤ 31) ∧
      (t.month ≠ [] ∧ ∀ v ∈ t.month, 1 ≤ v ∧ v ≤ 12) ∧
      (t.weekday ≠ [] ∧ ∀ v ∈ t.weekday, v ≤ 6)

/-- C21 is false of the code: a step of zero (`*/0 * * * *`) aborts cinit. -/
theorem C21_violated : ¬ C21_statement := by
  intro h
  have hp : Timer.parse ['*', '/', '0', ' ', '*', ' ', '*', ' ', '*', ' ', '*'] =
    .panic .divByZero := by decide
  rcases h ['*', '/', '0', ' ', '*', ' ', '*', ' ', '*', ' ', '*'] with ⟨e, he⟩ | ⟨t, ht, -⟩
  · rw [hp] at he; cases he
  · rw [hp] at ht; cases ht

/-- C21, proved part: every text containing no step of zero is either rejected with an error
or yields a schedule whose five sets are nonempty and within range.
Missing: texts with a zero step, see `C21_violated`. -/
theorem C21_total_partial (s : Str) (hz : ¬ ZeroStep s) :
    (∃ e, Timer.parse s = .err e) ∨
    ∃ t, Timer.parse s = .ok t ∧
      (t.minute ≠ [] ∧ ∀ v ∈ t.minute, v ≤ 59) ∧ (t.hour ≠ [] ∧ ∀ v ∈ t.hour, v ≤ 23) ∧
      (t.day ≠ [] ∧ ∀ v ∈ t.day, 1 ≤ v ∧ v ≤ 31) ∧
      (t.month ≠ [] ∧ ∀ v ∈ t.month, 1 ≤ v ∧ v ≤ 12) ∧
      (t.weekday ≠ [] ∧ ∀ v ∈ t.weekday, v ≤ 6) := by
  have h := parse_total s
  cases hp : Timer.parse s with
  | err e => exact .inl ⟨e, rfl⟩
  | panic q => exact absurd (h.2 q hp).2 hz
  | ok t =>
    have hw := (h.1 t hp).1
    exact .inr ⟨t, rfl, hw.minute.2, hw.hour.2, hw.day.2, hw.month.2, hw.weekday.2⟩

/-- Even with a zero step the only abort is the division by zero, and accepted texts yield
schedules within range. -/
theorem C21_panic_partial (s : Str) (q : Panic) (h : Timer.parse s = .panic q) :
    q = .divByZero ∧ ZeroStep s := (parse_total s).2 q h

/-- A text without zero step. -/
example : ¬ ZeroStep ['5', ' ', '*', '/', '2'] := by
  rintro ⟨pre, z, post, h, ⟨d, hz, hne, hd⟩, -⟩
  have hmem : '0' ∈ (['5', ' ', '*', '/', '2'] : Str) := by
    rw [h]
    cases d with
    | nil => exact absurd rfl hne
    | cons c cs =>
      have := hd c (by simp)
      subst this
      rcases hz with rfl | rfl <;> simp
  exact absurd hmem (by decide)

end Cinit.Props
