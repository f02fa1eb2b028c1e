import Verif.Model.Template
import Verif.Spec.Templates
import Verif.Props.ProcessBuilder
import Verif.Proofs.Numbers
/-!
# C108: templates are filled in with the values of variables
-/

namespace Cinit.Props

open Cinit.Spec Cinit.ProcessBuilder Cinit.Template

/-! ## The parts of a template are recognised -/

/-- The tokens of a part. -/
def tokens : Piece → List Token
  | .text t => t.map .char
  | .ref _ _ n => [.ref n]

private theorem dropBlanks (l : Nat) {t : Str} (h : ∀ c, t.head? = some c → c ≠ ' ') :
    (List.replicate l ' ' ++ t).dropWhile (· == ' ') = t := by
  induction l with
  | zero =>
    cases t with
    | nil => rfl
    | cons c t => simp [List.dropWhile, h c rfl]
  | succ l ih => simpa [List.replicate_succ, List.dropWhile] using ih

private theorem named_chars {n : Str} (h : Named n) :
    (∃ c cs, n = c :: cs ∧ firstChar c = true) ∧ ∀ c ∈ n, nameChar c = true := by
  cases n with
  | nil => exact h.elim
  | cons c cs =>
    obtain ⟨h1, h2⟩ := h
    refine ⟨⟨c, cs, rfl, ?_⟩, fun d hd => ?_⟩
    · rcases h1 with h1 | h1 <;> simp [firstChar, h1]
    · rcases List.mem_cons.mp hd with rfl | hd
      · rcases h1 with h1 | h1 <;> simp [nameChar, h1]
      · rcases h2 d hd with h1 | h1 | h1 <;> simp [nameChar, h1]

private theorem reference_written {n : Str} (h : Named n) (l r : Nat) (rest : Str) :
    reference (List.replicate l ' ' ++ (n ++ (List.replicate r ' ' ++ '}' :: '}' :: rest))) =
      some (n, rest) := by
  obtain ⟨⟨c, cs, rfl, hc⟩, hn⟩ := named_chars h
  have hhead : c ≠ ' ' := by rintro rfl; exact absurd hc (by decide)
  have hend : ∀ d, (List.replicate r ' ' ++ '}' :: '}' :: rest).head? = some d →
      nameChar d = false := by
    intro d hd
    cases r with
    | zero => simp at hd; subst hd; decide
    | succ r => simp [List.replicate_succ] at hd; subst hd; decide
  have htail : ∀ u : Str, (∀ d, u.head? = some d → nameChar d = false) →
      u.takeWhile nameChar = [] ∧ u.dropWhile nameChar = u := by
    intro u hu
    cases u with
    | nil => exact ⟨rfl, rfl⟩
    | cons d u => simp [hu d rfl]
  obtain ⟨ht, hd⟩ := htail _ hend
  unfold reference
  simp only
  rw [dropBlanks l (by simpa using hhead)]
  rw [List.takeWhile_append_of_pos hn, List.dropWhile_append_of_pos hn, ht, hd,
    dropBlanks r (by simp)]
  simp [hc]

private theorem parse_written (ps : List Piece) (h : ∀ p ∈ ps, p.Plain) :
    ∀ n, (written ps).length ≤ n → parse n (written ps) = some (ps.flatMap tokens) := by
  induction ps with
  | nil => intro n _; cases n <;> rfl
  | cons p ps ih =>
    have ih := ih (fun q hq => h q (List.mem_cons_of_mem _ hq))
    have hp := h p (List.mem_cons_self ..)
    have hw : written (p :: ps) = p.written ++ written ps := rfl
    intro n hn
    rw [hw] at hn ⊢
    cases p with
    | text t =>
      simp only [Piece.written, Piece.Plain, List.flatMap_cons, tokens] at hp hn ⊢
      clear hw h
      induction t generalizing n with
      | nil => exact ih n hn
      | cons c t iht =>
        rw [List.mem_cons, not_or] at hp
        cases n with
        | zero => simp at hn
        | succ n =>
          have := iht n hp.2 (by simpa using hn)
          simp only [List.cons_append, parse, if_neg (Ne.symm hp.1), this]
          rfl
    | ref l r x =>
      cases n with
      | zero => simp [Piece.written] at hn
      | succ n =>
        have e : (Piece.ref l r x).written ++ written ps =
            '{' :: '{' :: (List.replicate l ' ' ++ (x ++ (List.replicate r ' ' ++
              '}' :: '}' :: written ps))) := by simp [Piece.written]
        rw [e] at hn ⊢
        rw [parse, if_pos rfl, reference_written hp]
        simp only [Option.bind_some]
        rw [ih n (by simp at hn; omega)]
        rfl

private theorem fill_tokens (values : Str → Option Str) (ps : List Piece) :
    fill false values (ps.flatMap tokens) = filled values ps := by
  induction ps with
  | nil => rfl
  | cons p ps ih =>
    rw [List.flatMap_cons]
    cases p with
    | text t =>
      simp only [tokens, filled, Piece.meant, Option.bind_some]
      rw [← ih]
      induction t with
      | nil => simp
      | cons c t iht =>
        simp only [List.map_cons, List.cons_append, fill, iht, Option.map_map]
        rfl
    | ref l r n =>
      simp only [tokens, List.cons_append, List.nil_append, fill, filled, Piece.meant, ih]
      rfl

private theorem not_escapes {name : Str} (h : ¬ Markup name) : escapes name = false := by
  unfold Markup at h
  simp only [not_or] at h
  unfold escapes
  rw [← Bool.not_eq_true]
  simp only [Bool.or_eq_true, List.isSuffixOf_iff_suffix]
  rintro ((hh | hh) | hh)
  · exact h.1 hh
  · exact h.2.1 hh
  · exact h.2.2 hh

/-- An engine like tera fills in templates whose names do not look like names of markup. -/
theorem likeTera_filled {render : Str → (Str → Option Str) → Str → Option Str}
    (ht : LikeTera render) {name : Str} (hm : ¬ Markup name) {ps : List Piece}
    (hp : ∀ p ∈ ps, p.Plain) (values : Str → Option Str) :
    render name values (written ps) = filled values ps := by
  rw [ht name values _ _ (parse_written ps hp _ (Nat.le_refl _)), not_escapes hm, fill_tokens]

private theorem readMarkup_char {c : Char} (h : c ≠ '&') (t : Str) :
    readMarkup (c :: t) = c :: readMarkup t := by
  rw [readMarkup]
  all_goals (intros; simp_all)

private theorem readMarkup_text {t : Str} (h : '&' ∉ t) (r : Str) :
    readMarkup (t ++ r) = t ++ readMarkup r := by
  induction t with
  | nil => rfl
  | cons c t ih =>
    rw [List.mem_cons, not_or] at h
    rw [List.cons_append, readMarkup_char (Ne.symm h.1), ih h.2, List.cons_append]

private theorem readMarkup_escape (v r : Str) :
    readMarkup (escapeHtml v ++ r) = v ++ readMarkup r := by
  induction v with
  | nil => rfl
  | cons c v ih =>
    have e : escapeHtml (c :: v) ++ r = escapeChar c ++ (escapeHtml v ++ r) := by
      simp [escapeHtml]
    rw [e, List.cons_append, ← ih]
    unfold escapeChar
    split_ifs with h1 h2 h3 h4 h5 h6
    · subst h1; rfl
    · subst h2; rfl
    · subst h3; rfl
    · subst h4; rfl
    · subst h5; rfl
    · subst h6; rfl
    · exact readMarkup_char h1 _

private theorem fill_markup (values : Str → Option Str) (ps : List Piece)
    (h : ∀ t, Piece.text t ∈ ps → '&' ∉ t) :
    (fill true values (ps.flatMap tokens)).map readMarkup = filled values ps := by
  induction ps with
  | nil => rfl
  | cons p ps ih =>
    have ih := ih (fun t ht => h t (List.mem_cons_of_mem _ ht))
    rw [List.flatMap_cons]
    cases p with
    | text t =>
      simp only [tokens, filled, Piece.meant, Option.bind_some]
      rw [← ih]
      have ht := h t (List.mem_cons_self ..)
      have e : fill true values (t.map .char ++ ps.flatMap tokens) =
          (fill true values (ps.flatMap tokens)).map (t ++ ·) := by
        clear h ih ht
        induction t with
        | nil => simp
        | cons c t iht =>
          simp only [List.map_cons, List.cons_append, fill, iht, Option.map_map]
          rfl
      rw [e, Option.map_map, Option.map_map]
      congr 1
      funext r
      exact readMarkup_text ht r
    | ref l r n =>
      simp only [tokens, List.cons_append, List.nil_append, fill, filled, Piece.meant, ← ih]
      cases values n with
      | none => rfl
      | some v =>
        simp only [Option.bind_some, Option.map_map, if_true]
        congr 1
        funext r
        exact readMarkup_escape v r

private theorem escapes_markup {name : Str} (h : Markup name) : escapes name = true := by
  unfold Markup at h
  unfold escapes
  simp only [Bool.or_eq_true, List.isSuffixOf_iff_suffix]
  rcases h with h | h | h
  · exact Or.inl (Or.inl h)
  · exact Or.inl (Or.inr h)
  · exact Or.inr h

/-- An engine like tera fills in templates whose names look like names of markup such that
browsers show what is meant. -/
theorem likeTera_markup {render : Str → (Str → Option Str) → Str → Option Str}
    (ht : LikeTera render) {name : Str} (hm : Markup name) {ps : List Piece}
    (hp : ∀ p ∈ ps, p.Plain) (ha : ∀ t, Piece.text t ∈ ps → '&' ∉ t) (values : Str → Option Str) :
    (render name values (written ps)).map readMarkup = filled values ps := by
  rw [ht name values _ _ (parse_written ps hp _ (Nat.le_refl _)), escapes_markup hm,
    fill_markup values ps ha]

/-- The engine of the model is like tera: the assumption can be met. -/
theorem likeTera_engine : LikeTera engine := by
  intro name context raw ts h
  simp [engine, h]

private theorem filled_congr {f g : Str → Option Str} {ps : List Piece}
    (h : ∀ x, RefersTo ps x → f x = g x) : filled f ps = filled g ps := by
  induction ps with
  | nil => rfl
  | cons p ps ih =>
    have ih := ih (fun x ⟨l, r, hx⟩ => h x ⟨l, r, List.mem_cons_of_mem _ hx⟩)
    have e : p.meant f = p.meant g := by
      cases p with
      | text t => rfl
      | ref l r n => exact h n ⟨l, r, List.mem_cons_self ..⟩
    simp [filled, ih, e]

private theorem named_proper {n : Str} (h : Named n) : ProperName n := by
  intro he
  exact absurd ((named_chars h).2 _ he) (by decide)

private theorem refersTo_named {ps : List Piece} (hp : ∀ p ∈ ps, p.Plain) {x : Str}
    (hx : RefersTo ps x) : Named x := by
  obtain ⟨l, r, hx⟩ := hx
  exact hp _ hx

/-! ## The property -/

/-- C108 in full: on a system with an engine like tera, whose name for the variable is `k`, a
variable whose last assignment is a template referring only to variables assigned earlier has as
value the template filled in with the values the program itself finds in its environment, or the
text as it is written if one of them is not there. -/
def C108_statement : Prop :=
  ∀ (s : Surroundings) (c : ProcessConfig) (p : Process)
    (before after : List (Str × Option Str)) (k : Str) (ps : List Piece) (values : Str → Option Str),
    LikeTera s.render → processFrom s c = .ok p → ProperNames c → (∀ q ∈ ps, q.Plain) →
    c.env.flatten = before ++ (k, some (written ps)) :: after → (∀ v, (k, v) ∉ after) →
    ¬ (c.ptype = .notify ∧ (k = notifyVar ∨ RefersTo ps notifyVar)) →
    (∀ x, RefersTo ps x → x ≠ k ∧ ∀ v, (x, v) ∉ after) →
    (∀ x, ProperName x → ∀ v, values x = some v ↔ EnvHas p.env x v) →
    ∀ v, EnvHas p.env k v ↔ v = (filled values ps).getD (written ps)

/-- C108 for all variables whose names do not end like names of markup. -/
theorem C108_variable_partial {s : Surroundings} {c : ProcessConfig} {p : Process}
    {before after : List (Str × Option Str)} {k : Str} {ps : List Piece}
    {values : Str → Option Str} (ht : LikeTera s.render) (h : processFrom s c = .ok p)
    (hn : ProperNames c) (hp : ∀ q ∈ ps, q.Plain)
    (he : c.env.flatten = before ++ (k, some (written ps)) :: after) (hlast : ∀ v, (k, v) ∉ after)
    (hk : ¬ (c.ptype = .notify ∧ (k = notifyVar ∨ RefersTo ps notifyVar)))
    (hrefs : ∀ x, RefersTo ps x → x ≠ k ∧ ∀ v, (x, v) ∉ after)
    (hv : ∀ x, ProperName x → ∀ v, values x = some v ↔ EnvHas p.env x v) (hm : ¬ Markup k) :
    ∀ v, EnvHas p.env k v ↔ v = (filled values ps).getD (written ps) := by
  obtain ⟨user, -, hmean⟩ := C09_meaning h hn
  have hmk : Mentions c.env k := by
    rw [← mentions_iff, he]; exact ⟨some (written ps), by simp⟩
  have hrev : c.env.flatten.reverse = after.reverse ++ (k, some (written ps)) :: before.reverse := by
    simp [he]
  have hctx : filled (valueAfter s.getenv s.render (defaultValue s.getenv user.dir user.name)
      before.reverse) ps = filled values ps := by
    refine filled_congr fun x hx => ?_
    have hxp := named_proper (refersTo_named hp hx)
    have hxn : ¬ (c.ptype = .notify ∧ x = notifyVar) := fun hh =>
      hk ⟨hh.1, Or.inr (hh.2 ▸ hx)⟩
    have hval := hmean x hxp hxn
    rw [hrev, valueAfter_skip (fun ⟨v, hv⟩ => (hrefs x hx).2 v (List.mem_reverse.mp hv)),
      valueAfter, if_neg (hrefs x hx).1] at hval
    apply Option.ext
    intro v
    rw [← hval v, hv x hxp v]
  intro v
  rw [hmean k (hn k hmk) (fun hh => hk ⟨hh.1, Or.inl hh.2⟩), hrev,
    valueAfter_skip (fun ⟨v, hv⟩ => hlast v (List.mem_reverse.mp hv)), valueAfter, if_pos rfl,
    likeTera_filled ht hm hp, hctx]
  simp [eq_comm]

/-- What C108 comes to for the other variables: nothing but the characters of markup are replaced,
and by what stands for them in markup. Who reads the value as markup reads the template filled in;
a template that cannot be filled in is passed on as it is written. -/
theorem C108_markup_partial {s : Surroundings} {c : ProcessConfig} {p : Process}
    {before after : List (Str × Option Str)} {k : Str} {ps : List Piece}
    {values : Str → Option Str} (ht : LikeTera s.render) (h : processFrom s c = .ok p)
    (hn : ProperNames c) (hp : ∀ q ∈ ps, q.Plain) (ha : ∀ t, Piece.text t ∈ ps → '&' ∉ t)
    (he : c.env.flatten = before ++ (k, some (written ps)) :: after) (hlast : ∀ v, (k, v) ∉ after)
    (hk : ¬ (c.ptype = .notify ∧ (k = notifyVar ∨ RefersTo ps notifyVar)))
    (hrefs : ∀ x, RefersTo ps x → x ≠ k ∧ ∀ v, (x, v) ∉ after)
    (hv : ∀ x, ProperName x → ∀ v, values x = some v ↔ EnvHas p.env x v) (hm : Markup k) :
    ∃ w, (∀ v, EnvHas p.env k v ↔ v = w) ∧
      (filled values ps = none → w = written ps) ∧
      ∀ t, filled values ps = some t → readMarkup w = t := by
  obtain ⟨user, -, hmean⟩ := C09_meaning h hn
  have hmk : Mentions c.env k := by
    rw [← mentions_iff, he]; exact ⟨some (written ps), by simp⟩
  have hrev : c.env.flatten.reverse = after.reverse ++ (k, some (written ps)) :: before.reverse := by
    simp [he]
  have hctx : filled (valueAfter s.getenv s.render (defaultValue s.getenv user.dir user.name)
      before.reverse) ps = filled values ps := by
    refine filled_congr fun x hx => ?_
    have hxp := named_proper (refersTo_named hp hx)
    have hxn : ¬ (c.ptype = .notify ∧ x = notifyVar) := fun hh =>
      hk ⟨hh.1, Or.inr (hh.2 ▸ hx)⟩
    have hval := hmean x hxp hxn
    rw [hrev, valueAfter_skip (fun ⟨v, hv⟩ => (hrefs x hx).2 v (List.mem_reverse.mp hv)),
      valueAfter, if_neg (hrefs x hx).1] at hval
    apply Option.ext
    intro v
    rw [← hval v, hv x hxp v]
  have hr := likeTera_markup ht hm hp ha (valueAfter s.getenv s.render
    (defaultValue s.getenv user.dir user.name) before.reverse)
  rw [hctx] at hr
  refine ⟨(s.render k (valueAfter s.getenv s.render
    (defaultValue s.getenv user.dir user.name) before.reverse) (written ps)).getD (written ps),
    fun v => ?_, fun hf => ?_, fun t hf => ?_⟩
  · rw [hmean k (hn k hmk) (fun hh => hk ⟨hh.1, Or.inl hh.2⟩), hrev,
      valueAfter_skip (fun ⟨v, hv⟩ => hlast v (List.mem_reverse.mp hv)), valueAfter, if_pos rfl]
    simp [eq_comm]
  · rw [hf, Option.map_eq_none_iff] at hr
    rw [hr]; rfl
  · rw [hf, Option.map_eq_some_iff] at hr
    obtain ⟨w, hw, rfl⟩ := hr
    rw [hw]; rfl

/-- C108 for a template that refers to the variable it is assigned to, as in
`PATH: "{{ PATH }}:/opt/bin"`, or to variables assigned again later: the values are those of the
program with only the assignments before. -/
theorem C108_extended_partial {s : Surroundings} {c : ProcessConfig} {p p' : Process}
    {before after : List (Str × Option Str)} {k : Str} {ps : List Piece}
    {values : Str → Option Str} (ht : LikeTera s.render) (h : processFrom s c = .ok p)
    (hn : ProperNames c) (hp : ∀ q ∈ ps, q.Plain)
    (he : c.env.flatten = before ++ (k, some (written ps)) :: after) (hlast : ∀ v, (k, v) ∉ after)
    (hk : ¬ (c.ptype = .notify ∧ k = notifyVar))
    (h' : processFrom s { c with env := [before], ptype := .oneshot } = .ok p')
    (hv : ∀ x, ProperName x → ∀ v, values x = some v ↔ EnvHas p'.env x v) (hm : ¬ Markup k) :
    ∀ v, EnvHas p.env k v ↔ v = (filled values ps).getD (written ps) := by
  obtain ⟨context, hc, hres⟩ := C09_last_value h hn he hlast hk h'
  rw [likeTera_filled ht hm hp] at hres
  have : filled context ps = filled values ps := by
    refine filled_congr fun x hx => ?_
    apply Option.ext
    intro v
    have hxp := named_proper (refersTo_named hp hx)
    rw [hc x hxp v, hv x hxp v]
  rw [this] at hres
  exact hres

private theorem digit_end (i : Nat) : ∃ t d, showNat i = t ++ [d] ∧ d.isDigit = true := by
  have hd : ∀ d, d < 10 → (Char.ofNat (48 + d)).isDigit = true := by decide
  by_cases h : i < 10
  · exact ⟨[], _, showNat_digit h, hd i h⟩
  · refine ⟨showNat (i / 10), _, ?_, hd (i % 10) (Nat.mod_lt _ (by decide))⟩
    rw [← showNat_snoc (by omega) (Nat.mod_lt _ (by decide))]
    congr 1
    omega

private theorem argName_plain (i : Nat) : ¬ Markup (argName i) := by
  obtain ⟨t, d, e, hd⟩ := digit_end i
  have key : ∀ (u : Str) (x : Char), x.isDigit = false → ¬ (u ++ [x]) <:+ argName i := by
    rintro u x hx ⟨w, hw⟩
    unfold argName at hw
    rw [e, ← List.append_assoc, ← List.append_assoc] at hw
    have := (List.append_inj' hw rfl).2
    simp only [List.cons.injEq, and_true] at this
    subst this
    rw [hx] at hd
    cases hd
  rintro (h | h | h)
  · exact key ['.', 'h', 't', 'm'] 'l' (by decide) h
  · exact key ['.', 'h', 't'] 'm' (by decide) h
  · exact key ['.', 'x', 'm'] 'l' (by decide) h

/-- C108: every argument is the template filled in with the values the program finds in its
environment, or the text as it is written if one of them is not there. -/
theorem C108_argument {s : Surroundings} {c : ProcessConfig} {p : Process} {i : Nat}
    {ps : List Piece} {values : Str → Option Str} (ht : LikeTera s.render)
    (h : processFrom s c = .ok p) (hn : ProperNames c) (hp : ∀ q ∈ ps, q.Plain)
    (hi : c.args[i]? = some (written ps))
    (hv : ∀ x, ProperName x → ∀ v, values x = some v ↔ EnvHas p.env x v) :
    p.args[i + 1]? = some ((filled values ps).getD (written ps)) := by
  obtain ⟨path, args, context, -, -, ha, -, hc, -, hargs⟩ := C11_arguments h hn
  rw [ha, List.getElem?_cons_succ, hargs i _ hi, likeTera_filled ht (argName_plain i) hp]
  have : filled context ps = filled values ps := by
    refine filled_congr fun x hx => ?_
    apply Option.ext
    intro v
    have hxp := named_proper (refersTo_named hp hx)
    rw [hc x hxp v, hv x hxp v]
  rw [this]

/-- A template means nothing exactly if it refers to a variable without value. -/
theorem filled_none {values : Str → Option Str} {ps : List Piece} :
    filled values ps = none ↔ ∃ x, RefersTo ps x ∧ values x = none := by
  induction ps with
  | nil => simp [filled, RefersTo]
  | cons p ps ih =>
    cases p with
    | text t =>
      simp only [filled, Piece.meant, Option.bind_some, Option.map_eq_none_iff, ih]
      simp [RefersTo]
    | ref l r n =>
      simp only [filled, Piece.meant]
      constructor
      · intro h
        cases hn : values n with
        | none => exact ⟨n, ⟨l, r, List.mem_cons_self ..⟩, hn⟩
        | some v =>
          rw [hn, Option.bind_some, Option.map_eq_none_iff, ih] at h
          obtain ⟨x, ⟨l', r', hx⟩, hv⟩ := h
          exact ⟨x, ⟨l', r', List.mem_cons_of_mem _ hx⟩, hv⟩
      · rintro ⟨x, ⟨l', r', hx⟩, hv⟩
        rcases List.mem_cons.mp hx with hx | hx
        · cases hx
          rw [hv]
          rfl
        · have := ih.mpr ⟨x, ⟨l', r', hx⟩, hv⟩
          rw [this]
          cases values n <;> rfl

/-- C108: a variable or argument referring to a variable the program does not have is passed on
as it is written. -/
theorem C108_undefined {s : Surroundings} {c : ProcessConfig} {p : Process} {i : Nat}
    {ps : List Piece} {x : Str} (ht : LikeTera s.render)
    (h : processFrom s c = .ok p) (hn : ProperNames c) (hp : ∀ q ∈ ps, q.Plain)
    (hi : c.args[i]? = some (written ps)) (hx : RefersTo ps x) (hno : ∀ v, ¬ EnvHas p.env x v) :
    p.args[i + 1]? = some (written ps) := by
  obtain ⟨path, args, context, -, -, ha, -, hc, -, hargs⟩ := C11_arguments h hn
  rw [C108_argument ht h hn hp hi hc]
  have : filled context ps = none := by
    refine filled_none.mpr ⟨x, hx, ?_⟩
    cases hv : context x with
    | none => rfl
    | some v => exact absurd ((hc x (named_proper (refersTo_named hp hx)) v).mp hv) (hno v)
  rw [this]
  rfl

/-! ## Concrete cases -/

/-- A system with the engine of the model. -/
def teraSystem : Surroundings := { sampleSystem with render := engine }

/-- After doc/README.md:33-71: `PROGRAM_USER` and an argument refer to `NAME`; another argument
refers to a variable that does not exist; the value of `RAW` contains a reference, which
is not resolved again. -/
def documentedProgram : ProcessConfig :=
  { name := ['p'], path := some ['/', 'p'],
    args := ["{{ NAME }}_arg".toList, "{{NAME}}{{ NONE }}".toList, "{{  RAW}}".toList],
    env := [[("NAME".toList, some "my_program".toList)],
      [("PROGRAM_USER".toList, some "{{ NAME }}_user".toList)],
      [("RAW".toList, some "{{ NAME }".toList)],
      [("PATH".toList, some "{{ PATH }}:/opt".toList)]] }

example : ∃ p, processFrom teraSystem documentedProgram = .ok p ∧
    EnvHas p.env "PROGRAM_USER".toList "my_program_user".toList ∧
    EnvHas p.env "PATH".toList "/b:/opt".toList ∧
    p.args = [['/', 'p'], "my_program_arg".toList, "{{NAME}}{{ NONE }}".toList,
      "{{ NAME }".toList] := by
  refine ⟨_, rfl, ?_, ?_, ?_⟩
  · unfold EnvHas; decide +kernel
  · unfold EnvHas; decide +kernel
  · decide +kernel

/-- The hypotheses of `C108_variable_partial` and `C108_argument` are met by it. -/
example : ∃ p before after ps qs, processFrom teraSystem documentedProgram = .ok p ∧
    documentedProgram.env.flatten =
      before ++ ("PROGRAM_USER".toList, some (written ps)) :: after ∧
    (∀ v, ("PROGRAM_USER".toList, v) ∉ after) ∧ RefersTo ps "NAME".toList ∧
    (∀ q ∈ ps, q.Plain) ∧ ¬ Markup "PROGRAM_USER".toList ∧
    (∀ x, RefersTo ps x → x ≠ "PROGRAM_USER".toList ∧ ∀ v, (x, v) ∉ after) ∧
    documentedProgram.args[0]? = some (written qs) ∧ (∀ q ∈ qs, q.Plain) := by
  refine ⟨_, [("NAME".toList, some "my_program".toList)],
    [("RAW".toList, some "{{ NAME }".toList), ("PATH".toList, some "{{ PATH }}:/opt".toList)],
    [.ref 1 1 "NAME".toList, .text "_user".toList],
    [.ref 1 1 "NAME".toList, .text "_arg".toList], rfl, by decide +kernel, ?_, ?_, ?_, ?_, ?_,
    by decide +kernel, ?_⟩
  · intro v hv
    simp at hv
  · exact ⟨1, 1, List.mem_cons_self ..⟩
  · intro q hq
    simp only [List.mem_cons, List.not_mem_nil, or_false] at hq
    rcases hq with rfl | rfl <;> simp [Piece.Plain, Named] <;> decide
  · unfold Markup; decide
  · rintro x ⟨l, r, hx⟩
    simp only [List.mem_cons, Piece.ref.injEq, reduceCtorEq, List.not_mem_nil, or_false] at hx
    obtain ⟨-, -, rfl⟩ := hx
    refine ⟨by decide, fun v hv => ?_⟩
    simp at hv
  · intro q hq
    simp only [List.mem_cons, List.not_mem_nil, or_false] at hq
    rcases hq with rfl | rfl <;> simp [Piece.Plain, Named] <;> decide

/-- A program with a variable called `x.html`. -/
def markupProgram : ProcessConfig :=
  { name := ['p'], path := some ['/', 'p'],
    env := [[("A".toList, some "a/b".toList)], [("x.html".toList, some "{{A}}".toList)]] }

/-- The program meets the assumptions of `C108_markup_partial`. -/
example : ∃ p, processFrom teraSystem markupProgram = .ok p ∧
    EnvHas p.env "x.html".toList "a&#x2F;b".toList ∧
    readMarkup "a&#x2F;b".toList = "a/b".toList ∧ Markup "x.html".toList ∧
    markupProgram.env.flatten = [("A".toList, some "a/b".toList)] ++
      ("x.html".toList, some (written [.ref 0 0 "A".toList])) :: [] := by
  refine ⟨_, rfl, ?_, by decide +kernel, Or.inl ?_, by decide +kernel⟩
  · unfold EnvHas
    decide +kernel
  · decide

/-- C108 is false: tera takes the name of the variable for the name of a file, and values put into
a variable called `x.html` are changed. -/
theorem C108_violated : ¬ C108_statement := by
  intro h
  have hb : ∃ p, processFrom teraSystem markupProgram = .ok p ∧
      EnvHas p.env "x.html".toList "a&#x2F;b".toList ∧ EnvHas p.env "A".toList "a/b".toList := by
    refine ⟨_, rfl, ?_⟩
    unfold EnvHas
    decide +kernel
  obtain ⟨p, hp, hv, hA⟩ := hb
  have hn : ProperNames markupProgram := by
    rintro k ⟨e, h1, v, h2⟩
    simp only [markupProgram, List.mem_cons, List.not_mem_nil, or_false] at h1
    unfold ProperName
    rcases h1 with rfl | rfl <;>
      (simp only [List.mem_singleton, Prod.mk.injEq] at h2; rw [h2.1]; decide)
  obtain ⟨path, args, context, -, -, -, -, hc, -⟩ := C11_arguments hp hn
  have := (h teraSystem markupProgram p [("A".toList, some "a/b".toList)] [] "x.html".toList
    [.ref 0 0 "A".toList] context likeTera_engine hp hn (by simp [Piece.Plain, Named])
    (by decide +kernel) (by simp) (fun hh => by cases hh.1)
    (by
      rintro x ⟨l, r, hx⟩
      simp only [List.mem_cons, Piece.ref.injEq, List.not_mem_nil, or_false] at hx
      obtain ⟨-, -, rfl⟩ := hx
      exact ⟨by decide, by simp⟩) hc _).mp hv
  have ha := (hc "A".toList (by unfold ProperName; decide) _).mpr hA
  simp only [filled, Piece.meant, ha] at this
  exact absurd this (by decide)

end Cinit.Props
