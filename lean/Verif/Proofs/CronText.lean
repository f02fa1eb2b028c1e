import Verif.Proofs.CronParse
/-!
# The language accepted by the cron expression parser
-/

namespace Cinit
open Spec

theorem digitVal_some {c : Char} {d : Nat} (h : digitVal c = some d) :
    d < 10 ∧ c = Char.ofNat (48 + d) := by
  unfold digitVal at h
  split at h
  · have := Option.some.inj h
    refine ⟨by omega, ?_⟩
    apply Char.toNat_inj.mp
    rw [digit_toNat (by omega)]
    omega
  · cases h

theorem parseDigits_numeral {s pre : Str} {acc n : Nat} (hp : Numeral pre acc)
    (h : parseDigits acc s = some n) : Numeral (pre ++ s) n := by
  induction s generalizing pre acc with
  | nil => simp [parseDigits] at h; subst h; simpa using hp
  | cons c cs ih =>
    unfold parseDigits at h
    cases hd : digitVal c with
    | none => rw [hd] at h; cases h
    | some d =>
      rw [hd] at h
      obtain ⟨h1, rfl⟩ := digitVal_some hd
      have := ih (pre := pre ++ [Char.ofNat (48 + d)]) (acc := acc * 10 + d)
        (by rw [Nat.mul_comm]; exact .snoc hp h1) h
      simpa using this

theorem parseDigits_numeral' {s : Str} {n : Nat} (hne : s ≠ [])
    (h : parseDigits 0 s = some n) : Numeral s n := by
  cases s with
  | nil => exact absurd rfl hne
  | cons c cs =>
    unfold parseDigits at h
    cases hd : digitVal c with
    | none => rw [hd] at h; cases h
    | some d =>
      rw [hd] at h
      obtain ⟨h1, rfl⟩ := digitVal_some hd
      simp only [Nat.zero_mul, Nat.zero_add] at h
      exact parseDigits_numeral (.digit h1) h

theorem parseU32_loose {s : Str} {n : Nat} (h : parseU32 s = some n) : LooseNum s n := by
  unfold parseU32 at h
  split at h
  · cases h
  · rename_i hne
    cases hp : parseDigits 0 (stripPlus s) with
    | none => rw [hp] at h; cases h
    | some m =>
      rw [hp] at h
      simp only at h
      split at h
      · cases h
        unfold stripPlus at hp
        split at hp
        · exact .plus (parseDigits_numeral' (by simp) hp)
        · exact .plain (parseDigits_numeral' hne hp)
      · cases h

theorem loose_parse {s : Str} {n : Nat} (h : LooseNum s n) (hn : n < 2 ^ 32) :
    parseU32 s = some n := by
  cases h with
  | plain h => rw [h.parseU32, if_pos hn]
  | plus h =>
    rename_i s
    have h1 := h.parse
    cases s with
    | nil => exact absurd rfl h.ne_nil
    | cons c cs =>
      unfold parseU32
      simp only [stripPlus]
      rw [h1]
      simp only
      rw [if_pos (by omega)]

theorem parse_bound {s : Str} {n : Nat} (h : parseU32 s = some n) : n < 2 ^ 32 := by
  unfold parseU32 at h
  split at h
  · cases h
  · split at h
    · cases h
    · split at h
      · cases h; omega
      · cases h

theorem parseBounds_loose {lo hi : Nat} {w : Str} {be : Nat × Nat} (hw : '/' ∉ w)
    (h : parseBounds lo hi w = .ok be) : LooseBase lo hi be.1 be.2 w := by
  unfold parseBounds at h
  split at h
  · rename_i hs; cases h; subst hs; exact .star
  · cases hs : splitOn '-' w with
    | nil => exact absurd hs (splitWith_ne_nil _ _)
    | cons b rest =>
      rw [hs] at h
      simp only at h
      cases hb : parseU32 b with
      | none => rw [hb] at h; cases h
      | some b' =>
        rw [hb] at h
        have hb' := parseU32_loose hb
        obtain ⟨-, hh⟩ := splitWith_head hs
        cases rest with
        | nil =>
          cases h
          rcases hh with ⟨-, rfl⟩ | ⟨c, t, -, -, ht⟩
          · exact .num hb'
          · exact absurd ht (splitWith_ne_nil _ _)
        | cons e rest' =>
          simp only at h
          cases he : parseU32 e with
          | none => rw [he] at h; cases h
          | some e' =>
            rw [he] at h
            cases h
            have he' := parseU32_loose he
            rcases hh with ⟨hn, -⟩ | ⟨c, t, hc, rfl, ht⟩
            · cases hn
            · have hc' : c = '-' := by simpa using hc
              subst hc'
              obtain ⟨-, hh2⟩ := splitWith_head ht
              rcases hh2 with ⟨-, rfl⟩ | ⟨c, t', hc, rfl, -⟩
              · exact .range hb' he'
              · have hc' : c = '-' := by simpa using hc
                subst hc'
                have := LooseBase.rangeJunk (lo := lo) (hi := hi) (junk := t') hb' he'
                  (fun hj => hw (by simp [hj]))
                simpa using this

/-- One piece whose parts are numbers. -/
theorem piece_loose {lo hi : Nat} {w v : Str} {vs : List Str} {step : Nat} {be : Nat × Nat}
    (hs : splitOn '/' w = v :: vs) (hstep : parseStep vs = .ok step)
    (hb : LooseBase lo hi be.1 be.2 v) : LoosePiece lo hi be.1 be.2 step w := by
  obtain ⟨-, hh⟩ := splitWith_head hs
  cases vs with
  | nil =>
    simp only [parseStep] at hstep
    cases hstep
    rcases hh with ⟨-, rfl⟩ | ⟨c, t, -, -, ht⟩
    · exact .plain hb
    · exact absurd ht (splitWith_ne_nil _ _)
  | cons u us =>
    simp only [parseStep] at hstep
    cases hu : parseU32 u with
    | none => rw [hu] at hstep; cases hstep
    | some n =>
      rw [hu] at hstep
      cases hstep
      have hu' := parseU32_loose hu
      rcases hh with ⟨hn, -⟩ | ⟨c, t, hc, rfl, ht⟩
      · cases hn
      · have hc' : c = '/' := by simpa using hc
        subst hc'
        obtain ⟨-, hh2⟩ := splitWith_head ht
        rcases hh2 with ⟨-, rfl⟩ | ⟨c, t', hc, rfl, -⟩
        · exact .step hb hu'
        · have hc' : c = '/' := by simpa using hc
          subst hc'
          have := LoosePiece.stepJunk (junk := t') hb hu'
          simpa using this

theorem step_bound {vs : List Str} {step : Nat} (h : parseStep vs = .ok step) : step < 2 ^ 32 := by
  unfold parseStep at h
  split at h
  · cases h; decide
  · split at h
    · cases h
    · cases h; exact parse_bound (by assumption)

theorem slash_free {w v : Str} {vs : List Str} (hs : splitOn '/' w = v :: vs) : '/' ∉ v :=
  fun h => by simpa using (splitWith_head hs).1 _ h

/-- One accepted piece. -/
theorem parseInterval_loose {lo hi : Nat} {acc r : List Nat} {w : Str}
    (h : parseInterval lo hi acc w = .ok r) :
    ∃ b e k, LoosePiece lo hi b e k w ∧ lo ≤ b ∧ b ≤ e ∧ e ≤ hi ∧ 0 < k ∧ k < 2 ^ 32 ∧
      ∀ v, v ∈ r ↔ v ∈ acc ∨ (b ≤ v ∧ v ≤ e ∧ k ∣ v - b) := by
  unfold parseInterval at h
  cases hs : splitOn '/' w with
  | nil => exact absurd hs (splitWith_ne_nil _ _)
  | cons v vs =>
    rw [hs] at h
    simp only [Res.bind_eq_ok] at h
    obtain ⟨step, hstep, be, hbe, h⟩ := h
    by_cases h1 : be.1 < lo ∨ hi < be.1
    · rw [if_pos h1] at h; cases h
    rw [if_neg h1] at h
    by_cases h2 : be.2 < lo ∨ hi < be.2
    · rw [if_pos h2] at h; cases h
    rw [if_neg h2] at h
    by_cases h3 : be.2 < be.1
    · rw [if_pos h3] at h; cases h
    rw [if_neg h3] at h
    by_cases h4 : step = 0
    · rw [if_pos h4] at h; cases h
    rw [if_neg h4] at h
    have hb := parseBounds_loose (slash_free hs) hbe
    refine ⟨be.1, be.2, step, ?_, by omega, by omega, by omega, by omega, step_bound hstep, ?_⟩
    · exact piece_loose hs hstep hb
    · intro x
      have hset := foldl_setInsert_if (fun i => i % step = be.1 % step) (rangeIncl be.1 be.2) acc
      rw [Res.ok.inj h] at hset
      rw [hset.1 x, mem_rangeIncl]
      constructor
      · rintro (hx | ⟨⟨hx1, hx2⟩, hx3⟩)
        · exact .inl hx
        · refine .inr ⟨hx1, hx2, ?_⟩
          obtain ⟨m, hm⟩ := (mod_step_iff hx1).mp hx3
          exact ⟨m, by rw [Nat.mul_comm]; omega⟩
      · rintro (hx | ⟨hx1, hx2, hx3⟩)
        · exact .inl hx
        · obtain ⟨m, hm⟩ := hx3
          exact .inr ⟨⟨hx1, hx2⟩, (mod_step_iff hx1).mpr ⟨m, by rw [Nat.mul_comm]; omega⟩⟩

theorem commas_split (s : Str) : Commas (splitOn ',' s) s := by
  generalize hl : splitOn ',' s = l
  induction l generalizing s with
  | nil => exact absurd hl (splitWith_ne_nil _ _)
  | cons w ws ih =>
    obtain ⟨h1, h2⟩ := splitWith_head hl
    have hw : ',' ∉ w := fun h => by simpa using h1 _ h
    rcases h2 with ⟨rfl, rfl⟩ | ⟨c, t, hc, rfl, ht⟩
    · exact .one hw
    · have hc' : c = ',' := by simpa using hc
      subst hc'
      exact .cons hw (ih t ht)

theorem commas_unique {ws : List Str} {s : Str} (h : Commas ws s) : splitOn ',' s = ws := by
  induction h with
  | one h =>
    exact splitWith_of_none (fun c hc => by simp; rintro rfl; exact h hc)
  | cons h _ ih =>
    have := splitWith_append (p := fun x => x == ',') (c := ',') (t := ‹Str›)
      (fun c hc => by simp; rintro rfl; exact h hc) (by simp)
    rw [splitOn, this, ← splitOn, ih]

theorem foldlM_loose {lo hi : Nat} {ws : List Str} {acc r : List Nat}
    (h : Res.foldlM (parseInterval lo hi) acc ws = .ok r) :
    ∃ ds : List (Nat × Nat × Nat),
      List.Forall₂ (fun w d => LoosePiece lo hi d.1 d.2.1 d.2.2 w ∧
        lo ≤ d.1 ∧ d.1 ≤ d.2.1 ∧ d.2.1 ≤ hi ∧ 0 < d.2.2 ∧ d.2.2 < 2 ^ 32) ws ds ∧
      ∀ v, v ∈ r ↔ v ∈ acc ∨ ∃ d ∈ ds, d.1 ≤ v ∧ v ≤ d.2.1 ∧ d.2.2 ∣ v - d.1 := by
  induction ws generalizing acc with
  | nil =>
    simp only [Res.foldlM] at h
    cases h
    exact ⟨[], .nil, by simp⟩
  | cons w ws ih =>
    simp only [Res.foldlM, Res.bind_eq_ok] at h
    obtain ⟨acc', h1, h2⟩ := h
    obtain ⟨b, e, k, hp, g1, g2, g3, g4, g5, hv⟩ := parseInterval_loose h1
    obtain ⟨ds, hf, hd⟩ := ih h2
    refine ⟨(b, e, k) :: ds, .cons ⟨hp, g1, g2, g3, g4, g5⟩ hf, fun v => ?_⟩
    rw [hd v, hv v]
    simp [or_assoc]

private theorem loosePiece_star (lo hi : Nat) : LoosePiece lo hi lo hi 1 ['*'] := .plain .star

theorem parseElement_loose {lo hi : Nat} {s : Str} {r : List Nat}
    (h : parseElement (some s) lo hi = .ok r) :
    ∃ (ws : List Str) (ds : List (Nat × Nat × Nat)), Commas ws s ∧
      List.Forall₂ (fun w d => LoosePiece lo hi d.1 d.2.1 d.2.2 w ∧
        lo ≤ d.1 ∧ d.1 ≤ d.2.1 ∧ d.2.1 ≤ hi ∧ 0 < d.2.2 ∧ d.2.2 < 2 ^ 32) ws ds ∧
      ∀ v, v ∈ r ↔ ∃ d ∈ ds, d.1 ≤ v ∧ v ≤ d.2.1 ∧ d.2.2 ∣ v - d.1 := by
  unfold parseElement at h
  split at h
  · cases h
  rename_i hlo
  simp only at h
  split at h
  · cases h
  split at h
  · rename_i hs
    subst hs
    refine ⟨[['*']], [(lo, hi, 1)], .one (by decide), .cons ⟨loosePiece_star lo hi, by simp, by simp; omega, by simp, by simp, by simp⟩ .nil, ?_⟩
    intro v
    have := star_set lo hi
    rw [Res.ok.inj h] at this
    simp [this]
  · obtain ⟨ds, hf, hv⟩ := foldlM_loose h
    exact ⟨_, ds, commas_split s, hf, by simpa using hv⟩

/-! ## All of these texts are accepted -/

theorem loose_free {s : Str} {n : Nat} (h : LooseNum s n) {c : Char}
    (hc : c.toNat < 48 ∨ 57 < c.toNat) (hp : c ≠ '+') : c ∉ s := by
  cases h with
  | plain h => exact h.not_mem hc
  | plus h =>
    intro hm
    rcases List.mem_cons.mp hm with e | hm
    · exact hp e
    · exact h.not_mem hc hm

theorem not_sep {s : Str} {x : Char} (h : x ∉ s) : ∀ c ∈ s, (c == x) = false := by
  intro c hc
  simp only [beq_eq_false_iff_ne]
  rintro rfl
  exact h hc

theorem loose_nonempty {s : Str} {n : Nat} (h : LooseNum s n) : s ≠ [] := by
  cases h with
  | plain h => exact h.ne_nil
  | plus h => simp

theorem base_parse {lo hi b e : Nat} {v : Str} (h : LooseBase lo hi b e v) (hb : b < 2 ^ 32)
    (he : e < 2 ^ 32) : parseBounds lo hi v = .ok (b, e) := by
  unfold parseBounds
  cases h with
  | star => rfl
  | num h =>
    rw [if_neg (by rintro rfl; exact loose_free h (c := '*') (by decide) (by decide) (by simp)),
      splitOn, splitWith_of_none (not_sep (loose_free h (by decide) (by decide)))]
    simp only [loose_parse h hb]
  | @range s t _ _ ha hb' =>
    have hne : s ++ '-' :: t ≠ ['*'] := by
      intro heq
      have : '-' ∈ ['*'] := heq ▸ (by simp)
      revert this
      decide
    rw [if_neg hne, splitOn, splitWith_append (not_sep (loose_free ha (by decide) (by decide)))
      (by simp), splitWith_of_none (not_sep (loose_free hb' (by decide) (by decide)))]
    simp only [loose_parse ha hb, loose_parse hb' he]
  | @rangeJunk s t junk _ _ ha hb' hj =>
    have hne : s ++ '-' :: t ++ '-' :: junk ≠ ['*'] := by
      intro heq
      have : '-' ∈ ['*'] := heq ▸ (by simp)
      revert this
      decide
    rw [if_neg hne, List.append_assoc, List.cons_append, splitOn,
      splitWith_append (not_sep (loose_free ha (by decide) (by decide))) (by simp),
      splitWith_append (not_sep (loose_free hb' (by decide) (by decide))) (by simp)]
    simp only [loose_parse ha hb, loose_parse hb' he]

theorem base_slash {lo hi b e : Nat} {v : Str} (h : LooseBase lo hi b e v) : '/' ∉ v := by
  cases h with
  | star => decide
  | num h => exact loose_free h (by decide) (by decide)
  | range ha hb =>
    have h1 := loose_free ha (c := '/') (by decide) (by decide)
    have h2 := loose_free hb (c := '/') (by decide) (by decide)
    simp [h1, h2]
  | rangeJunk ha hb hj =>
    have h1 := loose_free ha (c := '/') (by decide) (by decide)
    have h2 := loose_free hb (c := '/') (by decide) (by decide)
    simp [h1, h2, hj]

theorem piece_cut {lo hi b e k : Nat} {w : Str} (h : LoosePiece lo hi b e k w) :
    ∃ v vs, splitOn '/' w = v :: vs ∧ LooseBase lo hi b e v ∧
      (k < 2 ^ 32 → parseStep vs = .ok k) := by
  cases h with
  | plain h =>
    exact ⟨w, [], splitWith_of_none (not_sep (base_slash h)), h, fun _ => rfl⟩
  | @step s u _ _ _ h hk =>
    refine ⟨s, [u], ?_, h, fun hb => by simp [parseStep, loose_parse hk hb]⟩
    rw [splitOn, splitWith_append (not_sep (base_slash h)) (by simp),
      splitWith_of_none (not_sep (loose_free hk (by decide) (by decide)))]
  | @stepJunk s u junk _ _ _ h hk =>
    refine ⟨s, u :: splitOn '/' junk, ?_, h, fun hb => by simp [parseStep, loose_parse hk hb]⟩
    rw [List.append_assoc, List.cons_append, splitOn,
      splitWith_append (not_sep (base_slash h)) (by simp),
      splitWith_append (not_sep (loose_free hk (by decide) (by decide))) (by simp)]

theorem parseInterval_of_loose {lo hi b e k : Nat} {w : Str} (hhi : hi < 2 ^ 32)
    (h : LoosePiece lo hi b e k w) (h1 : lo ≤ b) (h2 : b ≤ e) (h3 : e ≤ hi) (h4 : 0 < k)
    (h5 : k < 2 ^ 32) (acc : List Nat) :
    ∃ r, parseInterval lo hi acc w = .ok r ∧ (Incr acc → Incr r) ∧
      ∀ v, v ∈ r ↔ v ∈ acc ∨ (b ≤ v ∧ v ≤ e ∧ k ∣ v - b) := by
  obtain ⟨v, vs, hs, hb, hk⟩ := piece_cut h
  have key : ∃ r, parseInterval lo hi acc w = .ok r := by
    unfold parseInterval
    rw [hs]
    dsimp only
    rw [hk h5, Res.bind_ok, base_parse hb (by omega) (by omega), Res.bind_ok,
      if_neg (by dsimp only; omega), if_neg (by dsimp only; omega), if_neg (by dsimp only; omega),
      if_neg (by omega)]
    exact ⟨_, rfl⟩
  obtain ⟨r, hr⟩ := key
  refine ⟨r, hr, ((parseInterval_total acc w).1 r hr).1, ?_⟩
  obtain ⟨b', e', k', g0, g1, g2, g3, g4, g5, g6⟩ := parseInterval_loose hr
  obtain ⟨v', vs', hs', hb', hk'⟩ := piece_cut g0
  rw [hs] at hs'
  obtain ⟨rfl, rfl⟩ := List.cons.inj hs'
  have e1 := (hk h5).symm.trans (hk' g5)
  have e2 := (base_parse hb (by omega) (by omega)).symm.trans
    (base_parse hb' (by omega) (by omega))
  cases e1
  cases e2
  exact g6

theorem foldlM_of_loose {lo hi : Nat} {ws : List Str} {ds : List (Nat × Nat × Nat)}
    (hhi : hi < 2 ^ 32)
    (h : List.Forall₂ (fun w d => LoosePiece lo hi d.1 d.2.1 d.2.2 w ∧
      lo ≤ d.1 ∧ d.1 ≤ d.2.1 ∧ d.2.1 ≤ hi ∧ 0 < d.2.2 ∧ d.2.2 < 2 ^ 32) ws ds)
    (acc : List Nat) :
    ∃ r, Res.foldlM (parseInterval lo hi) acc ws = .ok r ∧ (Incr acc → Incr r) ∧
      ∀ v, v ∈ r ↔ v ∈ acc ∨ ∃ d ∈ ds, d.1 ≤ v ∧ v ≤ d.2.1 ∧ d.2.2 ∣ v - d.1 := by
  induction h generalizing acc with
  | nil => exact ⟨acc, rfl, id, by simp⟩
  | cons h _ ih =>
    obtain ⟨h0, h1, h2, h3, h4, h5⟩ := h
    obtain ⟨r, g1, g2, g3⟩ := parseInterval_of_loose hhi h0 h1 h2 h3 h4 h5 acc
    obtain ⟨r', g4, g5, g6⟩ := ih r
    refine ⟨r', ?_, fun h => g5 (g2 h), fun v => ?_⟩
    · simp only [Res.foldlM]
      rw [g1]
      exact g4
    · rw [g6 v, g3 v]
      simp [or_assoc]

theorem incr_ext {r r' : List Nat} (h : Incr r) (h' : Incr r') (hm : ∀ v, v ∈ r ↔ v ∈ r') :
    r = r' := by
  induction r generalizing r' with
  | nil =>
    cases r' with
    | nil => rfl
    | cons a l => exact absurd ((hm a).mpr (by simp)) (by simp)
  | cons a l ih =>
    cases r' with
    | nil => exact absurd ((hm a).mp (by simp)) (by simp)
    | cons a' l' =>
      have h1 := List.pairwise_cons.mp h
      have h2 := List.pairwise_cons.mp h'
      have hle : ∀ {p q : Nat} {m n : List Nat}, (∀ x ∈ n, q < x) → p ∈ q :: n → q ≤ p := by
        intro p q m n hx hp
        rcases List.mem_cons.mp hp with rfl | hp
        · exact Nat.le_refl _
        · exact Nat.le_of_lt (hx _ hp)
      have g1 : a' ≤ a := hle (m := l) h2.1 ((hm a).mp (by simp))
      have g2 : a ≤ a' := hle (m := l) h1.1 ((hm a').mpr (by simp))
      have : a = a' := Nat.le_antisymm g2 g1
      subst this
      congr 1
      refine ih h1.2 h2.2 fun v => ⟨fun hv => ?_, fun hv => ?_⟩
      · rcases List.mem_cons.mp ((hm v).mp (by simp [hv])) with rfl | h3
        · exact absurd (h1.1 _ hv) (Nat.lt_irrefl _)
        · exact h3
      · rcases List.mem_cons.mp ((hm v).mpr (by simp [hv])) with rfl | h3
        · exact absurd (h2.1 _ hv) (Nat.lt_irrefl _)
        · exact h3

/-- The texts that are accepted as a field. -/
theorem parseElement_iff {lo hi : Nat} (hlo : lo ≤ hi) (hhi : hi < 2 ^ 32) {s : Str} {r : List Nat} :
    parseElement (some s) lo hi = .ok r ↔
      r.Pairwise (· < ·) ∧ LooseField lo hi s (fun v => v ∈ r) := by
  constructor
  · intro h
    exact ⟨((parseElement_total (some s)).1 r h).2.1, parseElement_loose h⟩
  · rintro ⟨h1, ws, ds, h2, h3, h4⟩
    dsimp only at h4
    have hall : ∀ r', parseElement (some s) lo hi = .ok r' →
        (∀ v, v ∈ r' ↔ v ∈ r) → parseElement (some s) lo hi = .ok r := by
      intro r' hr' hm
      rw [hr', incr_ext ((parseElement_total (some s)).1 r' hr').2.1 h1 hm]
    obtain ⟨r', g1, -, g3⟩ := foldlM_of_loose hhi h3 []
    by_cases hs : s = ['*']
    · subst hs
      have hw : ws = [['*']] := (commas_unique h2).symm.trans (by decide)
      subst hw
      refine hall ((rangeIncl lo hi).foldl (fun result i => setInsert i result) []) ?_ fun v => ?_
      · unfold parseElement
        rw [if_neg (by omega)]
        rfl
      · rw [(star_set lo hi).1 v, h4 v]
        cases h3 with
        | @cons _ d _ _ h3 h5 =>
          cases h5
          obtain ⟨b, e, k⟩ := d
          dsimp only at h3
          obtain ⟨v', vs', hs', hb', hk'⟩ := piece_cut h3.1
          have e0 : splitOn '/' ['*'] = [['*']] := by decide
          rw [e0] at hs'
          obtain ⟨rfl, rfl⟩ := List.cons.inj hs'
          have e1 := hk' h3.2.2.2.2.2
          have e2 := base_parse hb' (by omega) (by omega)
          rw [show parseBounds lo hi ['*'] = .ok (lo, hi) from rfl] at e2
          cases e1
          cases e2
          simp
    · refine hall r' ?_ fun v => by simp [g3 v, h4 v]
      unfold parseElement
      rw [if_neg (by omega)]
      dsimp only
      rw [if_neg ?_, if_neg hs, commas_unique h2, g1]
      intro hn
      have : s = [] := by simpa using hn
      subst this
      have hw : ws = [[]] := (commas_unique h2).symm.trans (by decide)
      subst hw
      cases h3 with
      | @cons _ d _ _ h3 h5 =>
        obtain ⟨b, e, k⟩ := d
        dsimp only at h3
        obtain ⟨v', vs', hs', hb', -⟩ := piece_cut h3.1
        have e0 : splitOn '/' [] = [[]] := by decide
        rw [e0] at hs'
        obtain ⟨rfl, rfl⟩ := List.cons.inj hs'
        have e2 := base_parse hb' (by omega) (by omega)
        cases e2

theorem words_space {ws : List Str} {t : Str} {c : Char} (hc : IsSpace c) (h : Words ws t) :
    Words ws (c :: t) := by
  cases h with
  | nil h =>
    exact .nil (fun x hx => by rcases List.mem_cons.mp hx with rfl | hx; exacts [hc, h x hx])
  | cons hsp hw hns hsep ht =>
    have := Words.cons (sp := c :: _)
      (fun x hx => by rcases List.mem_cons.mp hx with rfl | hx; exacts [hc, hsp x hx]) hw hns hsep ht
    simpa using this

theorem words_split (s : Str) : Words (splitWhitespace s) s := by
  unfold splitWhitespace
  generalize hl : splitWith isWhitespace s = l
  induction l generalizing s with
  | nil => exact absurd hl (splitWith_ne_nil _ _)
  | cons w ws ih =>
    obtain ⟨h1, h2⟩ := splitWith_head hl
    have hns : ∀ c ∈ w, ¬ IsSpace c := by
      intro c hc hsp
      rw [← isWhitespace_iff] at hsp
      rw [h1 c hc] at hsp
      cases hsp
    rcases h2 with ⟨rfl, rfl⟩ | ⟨c, t, hc, rfl, ht⟩
    · cases s with
      | nil => exact .nil (by simp)
      | cons x xs =>
        have := Words.cons (sp := []) (w := x :: xs) (t := []) (ws := []) (by simp) (by simp) hns
          (by simp) (.nil (by simp))
        simpa using this
    · have hi := words_space ((isWhitespace_iff c).mp hc) (ih t ht)
      cases w with
      | nil => simpa using hi
      | cons x xs =>
        have := Words.cons (sp := []) (w := x :: xs) (by simp) (by simp) hns
          (by simpa using (isWhitespace_iff c).mp hc) hi
        simpa using this

end Cinit
