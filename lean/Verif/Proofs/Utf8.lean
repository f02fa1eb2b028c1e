import Verif.Spec.Utf8
import Verif.Model.Utf8
import Mathlib.Tactic.IntervalCases
/-!
# The decoder decodes exactly what the encoding produces
-/

namespace Cinit

open Spec

theorem toNat_valid (c : Char) : c.toNat < 0xD800 ∨ (0xDFFF < c.toNat ∧ c.toNat < 0x110000) := by
  exact c.valid

theorem ofNat_toNat' (c : Char) (n : Nat) (h : n = c.toNat) : Char.ofNat n = c := by
  subst h; exact Char.ofNat_toNat c

theorem go_single {b : Nat} {c : Char} {bs : List Nat} (h : leadByte b = .single c) :
    utf8Go none (b :: bs) = some c :: utf8Go none bs := by
  simp [utf8Go, h]

theorem go_more {b k acc lo hi : Nat} {bs : List Nat} (h : leadByte b = .more k acc lo hi) :
    utf8Go none (b :: bs) = utf8Go (some (k, acc, lo, hi)) bs := by
  simp [utf8Go, h]

theorem go_last {b acc lo hi : Nat} {bs : List Nat} (h : lo ≤ b ∧ b ≤ hi) :
    utf8Go (some (1, acc, lo, hi)) (b :: bs) =
      some (Char.ofNat (acc * 64 + (b - 0x80))) :: utf8Go none bs := by
  simp [utf8Go, h]

theorem go_next {b k acc lo hi : Nat} {bs : List Nat} (h : lo ≤ b ∧ b ≤ hi) (hk : 1 < k) :
    utf8Go (some (k, acc, lo, hi)) (b :: bs) =
      utf8Go (some (k - 1, acc * 64 + (b - 0x80), 0x80, 0xBF)) bs := by
  simp [utf8Go, h, show ¬ k ≤ 1 by omega]

/-- What the first byte of a sequence of `k + 1` says, as a relation. -/
theorem leadByte_more {b k acc lo hi : Nat} (h : leadByte b = .more k acc lo hi) :
    (k = 1 ∧ 0xC2 ≤ b ∧ b < 0xE0 ∧ acc = b - 0xC0 ∧ lo = 0x80 ∧ hi = 0xBF) ∨
    (k = 2 ∧ 0xE0 ≤ b ∧ b < 0xF0 ∧ acc = b - 0xE0 ∧ lo = (if b = 0xE0 then 0xA0 else 0x80) ∧
      hi = (if b = 0xED then 0x9F else 0xBF)) ∨
    (k = 3 ∧ 0xF0 ≤ b ∧ b ≤ 0xF4 ∧ acc = b - 0xF0 ∧ lo = (if b = 0xF0 then 0x90 else 0x80) ∧
      hi = (if b = 0xF4 then 0x8F else 0xBF)) := by
  unfold leadByte at h
  repeat' split at h
  all_goals first
    | (simp only [reduceCtorEq] at h; done)
    | (simp only [Lead.more.injEq] at h
       obtain ⟨rfl, rfl, rfl, rfl⟩ := h
       first
        | (left; omega)
        | (right; left; refine ⟨rfl, by omega, by omega, by omega, ?_, ?_⟩ <;> split <;> omega)
        | (right; right; refine ⟨rfl, by omega, by omega, by omega, ?_, ?_⟩ <;> split <;> omega))

theorem leadByte_two {b : Nat} (h1 : 0xC2 ≤ b) (h2 : b < 0xE0) :
    leadByte b = .more 1 (b - 0xC0) 0x80 0xBF := by
  unfold leadByte
  rw [if_neg (by omega), if_neg (by omega), if_pos h2]

theorem leadByte_three {b : Nat} (h1 : 0xE0 ≤ b) (h2 : b < 0xF0) :
    leadByte b = .more 2 (b - 0xE0) (if b = 0xE0 then 0xA0 else 0x80)
      (if b = 0xED then 0x9F else 0xBF) := by
  interval_cases b <;> rfl

theorem leadByte_four {b : Nat} (h1 : 0xF0 ≤ b) (h2 : b ≤ 0xF4) :
    leadByte b = .more 3 (b - 0xF0) (if b = 0xF0 then 0x90 else 0x80)
      (if b = 0xF4 then 0x8F else 0xBF) := by
  interval_cases b <;> rfl

theorem utf8Go_encodeChar (c : Char) (bs : List Nat) :
    utf8Go none (encodeChar c ++ bs) = some c :: utf8Go none bs := by
  have hv := toNat_valid c
  unfold encodeChar
  generalize hn : c.toNat = n at hv ⊢
  simp only
  split
  · rename_i h
    rw [List.singleton_append, go_single (c := c)]
    unfold leadByte
    rw [if_pos h, ofNat_toNat' c n hn.symm]
  · split
    · rename_i h1 h2
      simp only [List.cons_append, List.nil_append]
      rw [go_more (leadByte_two (by omega) (by omega)), go_last (by omega),
        ofNat_toNat' c _ (by rw [hn]; omega)]
    · split
      · rename_i h1 h2 h3
        simp only [List.cons_append, List.nil_append]
        rw [go_more (leadByte_three (by omega) (by omega)), go_next ?_ (by omega),
          go_last (by omega), ofNat_toNat' c _ (by rw [hn]; omega)]
        constructor <;> split <;> omega
      · rename_i h1 h2 h3
        simp only [List.cons_append, List.nil_append]
        rw [go_more (leadByte_four (by omega) (by omega)), go_next ?_ (by omega),
          go_next (by omega) (by omega), go_last (by omega),
          ofNat_toNat' c _ (by rw [hn]; omega)]
        constructor <;> split <;> omega

theorem utf8_encode_append (t : Str) (bs : List Nat) :
    utf8 (encode t ++ bs) = t.map some ++ utf8 bs := by
  unfold utf8
  induction t with
  | nil => rfl
  | cons c t ih =>
    rw [show encode (c :: t) = encodeChar c ++ encode t from rfl, List.append_assoc,
      utf8Go_encodeChar, ih]
    rfl

theorem utf8_encode (t : Str) : utf8 (encode t) = t.map some := by
  have := utf8_encode_append t []
  rwa [List.append_nil, show utf8 [] = [] from rfl, List.append_nil] at this

theorem fromUtf8Lossy_encode (t : Str) : fromUtf8Lossy (encode t) = t := by
  unfold fromUtf8Lossy
  rw [utf8_encode, List.map_map]
  simp

theorem sequence_map_some {α : Type} (l : List α) : sequence (l.map some) = some l := by
  induction l with
  | nil => rfl
  | cons a l ih => simp [sequence, ih]

theorem sequence_eq_some {α : Type} {l : List (Option α)} {r : List α} (h : sequence l = some r) :
    l = r.map some := by
  induction l generalizing r with
  | nil => cases h; rfl
  | cons o l ih =>
    cases o with
    | none => cases h
    | some a =>
      simp only [sequence, Option.map_eq_some_iff] at h
      obtain ⟨r', h1, rfl⟩ := h
      rw [ih h1]; rfl

/-- A valid char from its number. -/
theorem toNat_ofNat' {n : Nat} (h : n < 0xD800 ∨ (0xDFFF < n ∧ n < 0x110000)) :
    (Char.ofNat n).toNat = n := by
  have hv : n.isValidChar := h
  unfold Char.ofNat
  rw [dif_pos hv]
  rfl

/-- Decoding without errors is the inverse of encoding: the pending part is `pre`. -/
theorem utf8Go_some {t : Str} : ∀ (bs : List Nat), utf8Go none bs = t.map some → bs = encode t := by
  induction t with
  | nil =>
    intro bs h
    cases bs with
    | nil => rfl
    | cons b bs =>
      exfalso
      have : ∀ (bs : List Nat) (s : Nat × Nat × Nat × Nat), utf8Go (some s) bs ≠ [] := by
        intro bs
        induction bs with
        | nil => rintro ⟨k, a, lo, hi⟩; simp [utf8Go]
        | cons b bs ih =>
          rintro ⟨k, a, lo, hi⟩
          unfold utf8Go
          split
          · split
            · simp
            · exact ih _
          · simp
      cases hl : leadByte b with
      | single c => simp [utf8Go, hl] at h
      | bad => simp [utf8Go, hl] at h
      | more k acc lo hi =>
        rw [go_more hl] at h
        exact this _ _ h
  | cons c t ih =>
    intro bs h
    -- a continuation byte has to fit
    have step : ∀ {k acc lo hi : Nat} {bs : List Nat},
        utf8Go (some (k, acc, lo, hi)) bs = (c :: t).map some →
        ∃ b bs', bs = b :: bs' ∧ lo ≤ b ∧ b ≤ hi := by
      intro k acc lo hi bs h
      cases bs with
      | nil => simp [utf8Go] at h
      | cons b bs =>
        unfold utf8Go at h
        split at h
        · rename_i hb; exact ⟨b, bs, rfl, hb⟩
        · simp at h
    cases bs with
    | nil => simp [utf8Go] at h
    | cons b bs =>
      show b :: bs = encodeChar c ++ encode t
      cases hl : leadByte b with
      | single c' =>
        rw [go_single hl] at h
        simp only [List.map_cons, List.cons.injEq, Option.some.injEq] at h
        obtain ⟨rfl, h⟩ := h
        rw [ih bs h]
        unfold leadByte at hl
        split at hl
        · rename_i hb
          cases hl
          have : (Char.ofNat b).toNat = b := toNat_ofNat' (by omega)
          unfold encodeChar
          simp only [this]
          rw [if_pos hb]; rfl
        · repeat' split at hl
          all_goals cases hl
      | bad => simp [utf8Go, hl] at h
      | more k acc lo hi =>
        rw [go_more hl] at h
        obtain ⟨b1, bs1, rfl, hb1⟩ := step h
        rcases leadByte_more hl with ⟨hk, g1, g2, ha, g3, g4⟩ | ⟨hk, g1, g2, ha, g3, g4⟩ |
          ⟨hk, g1, g2, ha, g3, g4⟩
        all_goals rw [hk, ha] at h
        · rw [g3, g4] at hb1 h
          rw [go_last hb1] at h
          simp only [List.map_cons, List.cons.injEq, Option.some.injEq] at h
          obtain ⟨rfl, h⟩ := h
          rw [ih _ h]
          unfold encodeChar
          rw [toNat_ofNat' (by omega)]
          simp only
          rw [if_neg (by omega), if_pos (by omega)]
          simp only [List.cons_append, List.nil_append, List.cons.injEq, and_true]
          omega
        · rw [go_next hb1 (by omega)] at h
          obtain ⟨b2, bs2, rfl, hb2⟩ := step h
          rw [go_last hb2] at h
          simp only [List.map_cons, List.cons.injEq, Option.some.injEq] at h
          obtain ⟨rfl, h⟩ := h
          rw [ih _ h]
          have hlo : 0x80 ≤ b1 ∧ b1 ≤ 0xBF ∧ (b = 0xE0 → 0xA0 ≤ b1) ∧ (b = 0xED → b1 ≤ 0x9F) := by
            rw [g3, g4] at hb1
            obtain ⟨q1, q2⟩ := hb1
            split at q1 <;> split at q2 <;> omega
          unfold encodeChar
          rw [toNat_ofNat' (by omega)]
          simp only
          rw [if_neg (by omega), if_neg (by omega), if_pos (by omega)]
          simp only [List.cons_append, List.nil_append, List.cons.injEq, and_true]
          omega
        · rw [go_next hb1 (by omega)] at h
          obtain ⟨b2, bs2, rfl, hb2⟩ := step h
          rw [go_next hb2 (by omega)] at h
          obtain ⟨b3, bs3, rfl, hb3⟩ := step h
          rw [go_last hb3] at h
          simp only [List.map_cons, List.cons.injEq, Option.some.injEq] at h
          obtain ⟨rfl, h⟩ := h
          rw [ih _ h]
          have hlo : 0x80 ≤ b1 ∧ b1 ≤ 0xBF ∧ (b = 0xF0 → 0x90 ≤ b1) ∧ (b = 0xF4 → b1 ≤ 0x8F) := by
            rw [g3, g4] at hb1
            obtain ⟨q1, q2⟩ := hb1
            split at q1 <;> split at q2 <;> omega
          unfold encodeChar
          rw [toNat_ofNat' (by omega)]
          simp only
          rw [if_neg (by omega), if_neg (by omega), if_neg (by omega)]
          simp only [List.cons_append, List.nil_append, List.cons.injEq, and_true]
          omega

/-- Strict decoding succeeds exactly on encodings. -/
theorem fromUtf8_iff {bs : List Nat} {t : Str} : fromUtf8 bs = some t ↔ bs = encode t := by
  constructor
  · intro h
    exact utf8Go_some _ (sequence_eq_some h)
  · rintro rfl
    unfold fromUtf8
    rw [utf8_encode, sequence_map_some]

theorem fromUtf8_none {bs : List Nat} : fromUtf8 bs = none ↔ ∀ t, bs ≠ encode t := by
  rw [Option.eq_none_iff_forall_ne_some]
  exact forall_congr' fun t => not_congr fromUtf8_iff

/-! ## Bytes that are no text -/

/-- The bytes `p` lead to this state of the decoder. -/
structure Pending (p : List Nat) (k acc lo hi : Nat) : Prop where
  run : ∀ bs, utf8Go none (p ++ bs) = utf8Go (some (k, acc, lo, hi)) bs
  k_pos : 1 ≤ k
  k_le : k ≤ 3
  lo_le : lo ≤ hi

theorem utf8Go_encodeChar_nil (c : Char) : utf8Go none (encodeChar c) = [some c] := by
  have := utf8Go_encodeChar c []
  rwa [List.append_nil] at this

theorem encodeChar_of_go {bs : List Nat} {c : Char} (h : utf8Go none bs = [some c]) :
    bs = encodeChar c := by
  have := utf8Go_some (t := [c]) bs (by rw [h]; rfl)
  rw [this]
  simp [encode]

theorem Pending.of_lead {b k acc lo hi : Nat} (h : leadByte b = .more k acc lo hi) :
    Pending [b] k acc lo hi := by
  refine ⟨fun bs => go_more h, ?_, ?_, ?_⟩ <;>
    rcases leadByte_more h with ⟨hk, _, _, _, hl, hh⟩ | ⟨hk, _, _, _, hl, hh⟩ |
      ⟨hk, _, _, _, hl, hh⟩ <;> (first | omega | (subst hl hh; split <;> split <;> omega))

theorem Pending.viable {p : List Nat} {k acc lo hi : Nat} (h : Pending p k acc lo hi) :
    Viable p := by
  have hrun := h.run (lo :: List.replicate (k - 1) 0x80)
  have hl := h.lo_le
  have : ∃ c, utf8Go (some (k, acc, lo, hi)) (lo :: List.replicate (k - 1) 0x80) = [some c] := by
    have h1 := h.k_pos
    have h2 := h.k_le
    obtain rfl | rfl | rfl : k = 1 ∨ k = 2 ∨ k = 3 := by omega
    · exact ⟨_, go_last ⟨Nat.le_refl _, hl⟩⟩
    · rw [go_next ⟨Nat.le_refl _, hl⟩ (by omega)]
      exact ⟨_, go_last ⟨by omega, by omega⟩⟩
    · rw [go_next ⟨Nat.le_refl _, hl⟩ (by omega)]
      simp only [show (3 - 1 : Nat) = 1 + 1 from rfl, List.replicate_succ]
      rw [go_next ⟨by omega, by omega⟩ (by omega)]
      exact ⟨_, go_last ⟨by omega, by omega⟩⟩
  obtain ⟨c, hc⟩ := this
  rw [hc] at hrun
  exact ⟨c, _, encodeChar_of_go hrun⟩

/-- The decoder reports an error for the bytes at hand, and goes on with the next byte. -/
theorem go_broken {b k acc lo hi : Nat} {bs : List Nat} (h : ¬ (lo ≤ b ∧ b ≤ hi)) :
    utf8Go (some (k, acc, lo, hi)) (b :: bs) = none :: utf8Go none (b :: bs) := by
  conv_lhs => rw [utf8Go, if_neg h]
  conv_rhs => rw [utf8Go]

theorem no_char_of_error {bs : List Nat} {out : List (Option Char)}
    (h : utf8Go none bs = none :: out) (c : Char) : ¬ encodeChar c <+: bs := by
  rintro ⟨r, rfl⟩
  rw [utf8Go_encodeChar] at h
  cases h

theorem Viable.of_prefix {s s' : List Nat} (h : s <+: s') (hv : Viable s') : Viable s := by
  obtain ⟨c, hc⟩ := hv
  exact ⟨c, h.trans hc⟩

theorem Pending.not_viable {p : List Nat} {k acc lo hi b : Nat} (h : Pending p k acc lo hi)
    (hb : ¬ (lo ≤ b ∧ b ≤ hi)) : ¬ Viable (p ++ [b]) := by
  rintro ⟨c, r, hc⟩
  have := h.run ([b] ++ r)
  rw [← List.append_assoc, hc, utf8Go_encodeChar_nil, List.singleton_append, go_broken hb] at this
  cases this

/-- A longer prefix contains the next byte. -/
theorem prefix_next {s s' bs : List Nat} {b : Nat} (h : s' <+: s ++ b :: bs)
    (hl : s.length < s'.length) : s ++ [b] <+: s' := by
  have h2 : s ++ [b] <+: s ++ b :: bs := ⟨bs, by simp⟩
  exact List.prefix_of_prefix_length_le h2 h (by simp; omega)

theorem pending_decoded {p bs : List Nat} {k acc lo hi : Nat} (h : Pending p k acc lo hi)
    (hp : p ≠ []) (ih : ∀ bs', bs'.length ≤ bs.length → Decoded bs' (utf8Go none bs')) :
    Decoded (p ++ bs) (utf8Go (some (k, acc, lo, hi)) bs) := by
  induction bs generalizing p k acc lo hi with
  | nil =>
    have hr := h.run []
    rw [show utf8Go (some (k, acc, lo, hi)) [] = [none] from rfl] at hr ⊢
    refine .error hp (no_char_of_error hr) (.inr h.viable) ?_ .nil
    intro s' hs' hl
    have := hs'.length_le
    simp at this
    omega
  | cons b bs ihb =>
    by_cases hb : lo ≤ b ∧ b ≤ hi
    · by_cases hk : 1 < k
      · have hnext : Pending (p ++ [b]) (k - 1) (acc * 64 + (b - 0x80)) 0x80 0xBF := by
          refine ⟨fun bs => ?_, by have := h.k_pos; omega, by have := h.k_le; omega, by decide⟩
          rw [List.append_assoc, List.singleton_append, h.run, go_next hb hk]
        have := ihb hnext (by simp) (fun bs' hl => ih bs' (by simp; omega))
        rwa [List.append_assoc, List.singleton_append, ← go_next hb hk] at this
      · have hk1 : k = 1 := by have := h.k_pos; omega
        subst hk1
        have h1 := h.run [b]
        rw [go_last hb] at h1
        have h1 : utf8Go none (p ++ [b]) = [some (Char.ofNat (acc * 64 + (b - 0x80)))] := h1
        rw [go_last hb, show p ++ b :: bs = (p ++ [b]) ++ bs by simp, encodeChar_of_go h1]
        exact .char _ (ih bs (by simp))
    · have hr := h.run (b :: bs)
      rw [go_broken hb] at hr ⊢
      refine .error hp (no_char_of_error hr) (.inr h.viable) ?_ (ih (b :: bs) (by simp))
      intro s' hs' hl hv
      exact h.not_viable hb (Viable.of_prefix (prefix_next hs' hl) hv)

theorem decoded_utf8 (bs : List Nat) : Decoded bs (utf8 bs) := by
  unfold utf8
  induction hn : bs.length using Nat.strongRecOn generalizing bs with
  | _ n ih =>
    cases bs with
    | nil => exact .nil
    | cons b bs =>
      have ih' : ∀ bs', bs'.length ≤ bs.length → Decoded bs' (utf8Go none bs') := fun bs' hl =>
        ih bs'.length (by subst hn; simp; omega) bs' rfl
      cases hb : leadByte b with
      | single c =>
        have h1 : utf8Go none [b] = [some c] := go_single hb
        rw [go_single hb, show b :: bs = [b] ++ bs from rfl, encodeChar_of_go h1]
        exact .char c (ih' bs (Nat.le_refl _))
      | more k acc lo hi =>
        rw [go_more hb]
        exact pending_decoded (Pending.of_lead hb) (by simp) ih'
      | bad =>
        have hgo : ∀ bs, utf8Go none (b :: bs) = none :: utf8Go none bs := fun bs => by
          simp [utf8Go, hb]
        rw [hgo]
        refine .error (s := [b]) (by simp) (no_char_of_error (hgo bs)) (.inl rfl) ?_
          (ih' bs (Nat.le_refl _))
        intro s' hs' hl hv
        have h1 : [b] <+: s' := List.prefix_of_prefix_length_le ⟨bs, rfl⟩ hs' (by simp at hl ⊢; omega)
        obtain ⟨c, r, hc⟩ := Viable.of_prefix h1 hv
        have := hgo r
        rw [show b :: r = encodeChar c from hc, utf8Go_encodeChar_nil] at this
        cases this

theorem prefix_free {c c' : Char} {r r' : List Nat} (h : encodeChar c ++ r = encodeChar c' ++ r') :
    c = c' ∧ r = r' := by
  have h1 := utf8Go_encodeChar c r
  rw [h, utf8Go_encodeChar] at h1
  have hc : c = c' := by
    have := (List.cons.inj h1).1
    exact (Option.some.inj this).symm
  subst hc
  exact ⟨rfl, List.append_cancel_left h⟩

theorem decoded_unique {bs bs' : List Nat} {out out' : List (Option Char)} (h : Decoded bs out)
    (h' : Decoded bs' out') (e : bs = bs') : out = out' := by
  have hne : ∀ c, encodeChar c ≠ [] := fun c hc => by
    have := utf8Go_encodeChar_nil c
    rw [hc] at this
    cases this
  induction h generalizing bs' out' with
  | nil =>
    cases h' with
    | nil => rfl
    | char c _ => exact absurd (List.append_eq_nil_iff.mp e.symm).1 (hne c)
    | error hs _ _ _ _ => exact absurd (List.append_eq_nil_iff.mp e.symm).1 hs
  | char c _ ih =>
    cases h' with
    | nil => exact absurd (List.append_eq_nil_iff.mp e).1 (hne c)
    | char c' h' =>
      obtain ⟨hc, e'⟩ := prefix_free e
      subst hc
      rw [ih h' e']
    | error _ hno _ _ _ => exact absurd ⟨_, e⟩ (hno c)
  | @error s bs out hs hno hv hmax hd ih =>
    cases h' with
    | nil => exact absurd (List.append_eq_nil_iff.mp e).1 hs
    | char c' h' => exact absurd ⟨_, e.symm⟩ (hno c')
    | @error s' bs' out' hs' hno' hv' hmax' hd' =>
      have hlen : s.length = s'.length := by
        have key : ∀ {s s' bs bs' : List Nat}, s ≠ [] → s ++ bs = s' ++ bs' →
            (s'.length = 1 ∨ Viable s') →
            (∀ s'', s'' <+: s ++ bs → s.length < s''.length → ¬ Viable s'') →
            ¬ s.length < s'.length := by
          intro s s' bs bs' hs e hv' hmax hl
          rcases hv' with hv' | hv'
          · have : s.length ≠ 0 := fun h0 => hs (List.length_eq_zero_iff.mp h0)
            omega
          · exact hmax s' ⟨bs', e.symm⟩ hl hv'
        have h1 := key hs e hv' hmax
        have h2 := key hs' e.symm hv hmax'
        omega
      obtain ⟨-, e⟩ := List.append_inj e hlen
      rw [ih hd' e]

theorem decoded_iff {bs : List Nat} {out : List (Option Char)} :
    Decoded bs out ↔ out = utf8 bs :=
  ⟨fun h => decoded_unique h (decoded_utf8 bs) rfl, fun h => h ▸ decoded_utf8 bs⟩

theorem shownAs_iff {bs : List Nat} {t : Str} : ShownAs bs t ↔ t = fromUtf8Lossy bs := by
  unfold ShownAs fromUtf8Lossy
  constructor
  · rintro ⟨out, hd, rfl⟩
    rw [decoded_iff.mp hd]
    rfl
  · rintro rfl
    exact ⟨_, decoded_utf8 bs, rfl⟩

/-! ## ASCII characters -/

theorem encodeChar_ascii (c : Char) :
    (encodeChar c).filter (· < 128) = if c.toNat < 128 then [c.toNat] else [] := by
  unfold encodeChar
  simp only
  split
  · rename_i h
    simp [h]
  · split
    · simp; omega
    · split
      · simp; omega
      · simp; omega

theorem error_not_ascii {s bs : List Nat} (hno : ∀ c, ¬ encodeChar c <+: s ++ bs)
    (hv : s.length = 1 ∨ Viable s) : ∀ b ∈ s, 128 ≤ b := by
  have h1 : ∀ b, b < 128 → encodeChar (Char.ofNat b) = [b] := fun b hb => by
    unfold encodeChar
    rw [toNat_ofNat' (by omega), if_pos hb]
  rcases hv with hv | ⟨c, r, hc⟩
  · obtain ⟨b, rfl⟩ := List.length_eq_one_iff.mp hv
    intro b' hb'
    rw [List.mem_singleton] at hb'
    subst hb'
    refine Nat.le_of_not_lt fun hlt => hno (Char.ofNat b') ?_
    rw [h1 b' hlt]
    exact ⟨bs, rfl⟩
  · intro b hb
    refine Nat.le_of_not_lt fun hlt => ?_
    have hm : b ∈ (encodeChar c).filter (· < 128) := by
      rw [List.mem_filter, ← hc]
      exact ⟨List.mem_append_left _ hb, by simpa using hlt⟩
    rw [encodeChar_ascii] at hm
    split at hm
    · rename_i hc7
      have he : encodeChar c = [c.toNat] := by
        unfold encodeChar
        rw [if_pos hc7]
      rw [he] at hc
      cases s with
      | nil => cases hb
      | cons b' s =>
        have : s = [] := by
          have := congrArg List.length hc
          simp at this
          exact this.1
        subst this
        refine hno c ?_
        rw [he]
        simp at hc
        rw [hc.1]
        exact ⟨bs, rfl⟩
    · cases hm

/-- ASCII characters are shown, whatever surrounds them, and no others are added. -/
theorem decoded_ascii {bs : List Nat} {out : List (Option Char)} (h : Decoded bs out) :
    (out.map (·.getD '\uFFFD')).filter (fun c => c.toNat < 128) =
      (bs.filter (· < 128)).map Char.ofNat := by
  induction h with
  | nil => rfl
  | char c _ ih =>
    rw [List.map_cons, List.filter_append, List.map_append, ← ih, encodeChar_ascii,
      List.filter_cons]
    simp only [Option.getD_some]
    by_cases hc : c.toNat < 128 <;> simp [hc]
  | @error s bs out hs hno hv _ _ ih =>
    have hnil : s.filter (· < 128) = [] := List.filter_eq_nil_iff.mpr fun b hb => by
      have := error_not_ascii hno hv b hb
      simp; omega
    rw [List.map_cons, List.filter_append, List.map_append, ← ih, List.filter_cons,
      if_neg (by decide), hnil]
    rfl

end Cinit
