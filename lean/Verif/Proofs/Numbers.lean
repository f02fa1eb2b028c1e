import Verif.Proofs.CronText
import Verif.Spec.Numbers
/-!
# Reading and writing integers
-/

namespace Cinit
open Spec

theorem parseI32_iff {s : Str} {z : Int} :
    parseI32 s = some z ↔ IntText s z ∧ -2147483648 ≤ z ∧ z ≤ 2147483647 := by
  have head : ∀ {s : Str} {n : Nat} {c : Char} {cs : Str}, Numeral s n → s = c :: cs →
      48 ≤ c.toNat := by
    intro s n c cs h e
    exact (h.digits c (by rw [e]; simp)).1
  constructor
  · intro h
    unfold parseI32 at h
    split at h
    · cases h
    · rename_i c cs
      cases hp : parseDigits 0 (c :: cs) with
      | none => rw [hp] at h; cases h
      | some n =>
        rw [hp] at h
        simp only at h
        split at h
        · cases h
          exact ⟨.minus (parseDigits_numeral' (by simp) hp), by omega, by omega⟩
        · cases h
    · rename_i hne _
      cases hp : parseDigits 0 (stripPlus s) with
      | none => rw [hp] at h; cases h
      | some n =>
        rw [hp] at h
        simp only at h
        split at h
        · cases h
          refine ⟨?_, by omega, by omega⟩
          unfold stripPlus at hp
          split at hp
          · exact .plus (parseDigits_numeral' (by simp) hp)
          · exact .plain (parseDigits_numeral' hne hp)
        · cases h
  · rintro ⟨h, h1, h2⟩
    cases h with
    | @plain _ n hn =>
      have hp := hn.parse
      have hne := hn.ne_nil
      have hplus : stripPlus s = s := by
        unfold stripPlus
        split
        · exact absurd (head hn rfl) (by decide)
        · rfl
      unfold parseI32
      split
      · exact absurd rfl hne
      · exact absurd (head hn rfl) (by decide)
      · rw [hplus, hp]
        simp only
        rw [if_pos (by omega)]
    | @plus s n hn =>
      have hp := hn.parse
      cases s with
      | nil => exact absurd rfl hn.ne_nil
      | cons c cs =>
        show (match parseDigits 0 (c :: cs) with
          | none => none
          | some n => if n ≤ 2147483647 then some (n : Int) else none) = _
        rw [hp]
        simp only
        rw [if_pos (by omega)]
    | @minus s n hn =>
      have hp := hn.parse
      cases s with
      | nil => exact absurd rfl hn.ne_nil
      | cons c cs =>
        simp only [parseI32]
        rw [hp]
        simp only
        rw [if_pos (by omega)]

theorem showNatAux_acc (fuel n : Nat) (acc : Str) :
    showNatAux fuel n acc = showNatAux fuel n [] ++ acc := by
  induction fuel generalizing n acc with
  | zero => rfl
  | succ fuel ih =>
    simp only [showNatAux]
    split
    · rfl
    · rw [ih, ih (acc := [_])]
      simp

theorem showNatAux_fuel {fuel fuel' n : Nat} (h : n < fuel) (h' : n < fuel') (acc : Str) :
    showNatAux fuel n acc = showNatAux fuel' n acc := by
  induction fuel generalizing fuel' n acc with
  | zero => omega
  | succ fuel ih =>
    cases fuel' with
    | zero => omega
    | succ fuel' =>
      simp only [showNatAux]
      split
      · rfl
      · exact ih (by omega) (by omega) _

theorem showNat_digit {d : Nat} (h : d < 10) : showNat d = [Char.ofNat (48 + d)] := by
  unfold showNat
  rw [showNatAux]
  rw [if_pos (by omega), Nat.mod_eq_of_lt h]

theorem showNat_snoc {n d : Nat} (hn : n ≠ 0) (h : d < 10) :
    showNat (10 * n + d) = showNat n ++ [Char.ofNat (48 + d)] := by
  unfold showNat
  rw [showNatAux]
  rw [if_neg (by omega), show (10 * n + d) % 10 = d by omega,
    show (10 * n + d) / 10 = n by omega, showNatAux_acc]
  rw [showNatAux_fuel (fuel' := n + 1) (by omega) (by omega)]

theorem showNat_numeral (n : Nat) : Numeral (showNat n) n := by
  induction n using Nat.strongRecOn with
  | _ n ih =>
    by_cases h : n < 10
    · rw [showNat_digit h]; exact .digit h
    · have e : n = 10 * (n / 10) + n % 10 := by omega
      rw [e, showNat_snoc (by omega) (by omega)]
      exact .snoc (ih (n / 10) (by omega)) (by omega)

theorem digit_zero {d : Nat} (h : d < 10) (e : Char.ofNat (48 + d) = '0') : d = 0 := by
  have := digit_toNat h
  rw [e] at this
  have h0 : ('0' : Char).toNat = 48 := rfl
  omega

theorem showNat_head {n : Nat} (hn : n ≠ 0) : (showNat n).head? ≠ some '0' := by
  induction n using Nat.strongRecOn with
  | _ n ih =>
    by_cases h : n < 10
    · rw [showNat_digit h]
      intro e
      exact hn (digit_zero h (Option.some.inj e))
    · have e : n = 10 * (n / 10) + n % 10 := by omega
      rw [e, showNat_snoc (by omega) (by omega)]
      have hne := (showNat_numeral (n / 10)).ne_nil
      rw [List.head?_append_of_ne_nil _ hne]
      exact ih (n / 10) (by omega) (by omega)

theorem numeral_unique {s : Str} {n : Nat} (h : Numeral s n)
    (h0 : s.head? = some '0' → s = ['0']) : s = showNat n := by
  induction h with
  | digit h => rw [showNat_digit h]
  | @snoc s n d hs h ih =>
    have hne := hs.ne_nil
    rw [List.head?_append_of_ne_nil _ hne] at h0
    have hh : s.head? ≠ some '0' := by
      intro e
      have := congrArg List.length (h0 e)
      cases s with
      | nil => exact hne rfl
      | cons c s => simp at this
    have e := ih (fun e => absurd e hh)
    have hn : n ≠ 0 := by
      rintro rfl
      rw [e] at hh
      exact hh rfl
    rw [showNat_snoc hn h, ← e]

theorem written_iff {s : Str} {z : Int} : Written s z ↔ s = showInt z := by
  constructor
  · intro h
    cases h with
    | @nonneg _ n hn h0 => exact numeral_unique hn h0
    | @neg s n hn h0 =>
      have e := numeral_unique hn (fun e => absurd e h0)
      cases n with
      | zero => rw [e] at h0; exact absurd rfl h0
      | succ n =>
        rw [e]
        rfl
  · rintro rfl
    cases z with
    | ofNat n =>
      refine .nonneg (showNat_numeral n) fun e => ?_
      show showNat n = _
      by_cases hn : n = 0
      · subst hn; rfl
      · exact absurd e (showNat_head hn)
    | negSucc n => exact .neg (showNat_numeral (n + 1)) (showNat_head (by omega))

end Cinit
