import Verif.Spec.Lines
import Mathlib.Tactic.Conv
/-!
# `str::lines` yields the lines of a text
-/

namespace Cinit

open Spec

theorem splitInclusive_last {w : Str} (h1 : w ≠ []) (h2 : '\n' ∉ w) :
    splitInclusive '\n' w = [w] := by
  induction w with
  | nil => exact absurd rfl h1
  | cons c w ih =>
    unfold splitInclusive
    rw [List.mem_cons, not_or] at h2
    rw [if_neg (fun e => h2.1 e.symm)]
    cases w with
    | nil => rfl
    | cons c' w => rw [ih (by simp) h2.2]

theorem splitInclusive_line {w : Str} (t : Str) (h : '\n' ∉ w) :
    splitInclusive '\n' (w ++ '\n' :: t) = (w ++ ['\n']) :: splitInclusive '\n' t := by
  induction w with
  | nil => simp [splitInclusive]
  | cons c w ih =>
    rw [List.mem_cons, not_or] at h
    rw [List.cons_append]
    conv_lhs => unfold splitInclusive
    rw [if_neg (fun e => h.1 e.symm), ih h.2]
    rfl

theorem chompLine_last {w : Str} (h : '\n' ∉ w) : chompLine w = w := by
  unfold chompLine stripSuffix
  rw [if_neg]
  intro e
  exact h (List.mem_of_getLast? e)

theorem chompLine_line (w : Str) :
    chompLine (w ++ ['\n']) = if w.getLast? = some '\r' then w.dropLast else w := by
  unfold chompLine stripSuffix
  rw [if_pos (by simp)]
  simp only [List.dropLast_concat]
  split
  · rename_i h; split at h
    · cases h
    · rename_i h'; rw [if_neg h']
  · rename_i h; split at h
    · rename_i h'; cases h; rw [if_pos h']
    · cases h

theorem lines_last {w : Str} (h1 : w ≠ []) (h2 : '\n' ∉ w) : lines w = [w] := by
  unfold lines
  rw [splitInclusive_last h1 h2, List.map_singleton, chompLine_last h2]

theorem lines_line {w : Str} (t : Str) (h : '\n' ∉ w) :
    lines (w ++ '\n' :: t) = (if w.getLast? = some '\r' then w.dropLast else w) :: lines t := by
  unfold lines
  rw [splitInclusive_line t h, List.map_cons, chompLine_line]

/-- Any text is a last line or starts with a complete one. -/
theorem first_line (s : Str) : '\n' ∉ s ∨ ∃ w t, s = w ++ '\n' :: t ∧ '\n' ∉ w := by
  induction s with
  | nil => exact .inl (by simp)
  | cons c s ih =>
    by_cases hc : c = '\n'
    · subst hc; exact .inr ⟨[], s, rfl, by simp⟩
    · rcases ih with h | ⟨w, t, rfl, h⟩
      · exact .inl (by rw [List.mem_cons, not_or]; exact ⟨fun e => hc e.symm, h⟩)
      · exact .inr ⟨c :: w, t, rfl, by rw [List.mem_cons, not_or]; exact ⟨fun e => hc e.symm, h⟩⟩

theorem lines_linesOf (s : Str) : LinesOf (lines s) s := by
  induction hn : s.length using Nat.strongRecOn generalizing s with
  | _ n ih =>
    rcases first_line s with h | ⟨w, t, rfl, hw⟩
    · cases s with
      | nil => exact .nil
      | cons c s =>
        rw [lines_last (by simp) h]
        exact .last _ (by simp) h
    · rw [lines_line t hw]
      have hlt : t.length < n := by
        subst hn
        rw [List.length_append, List.length_cons]; omega
      have iht := ih t.length hlt t rfl
      split
      · rename_i hr
        have hd : w.dropLast ++ ['\r'] = w := by
          obtain ⟨a, rfl⟩ := List.getLast?_eq_some_iff.mp hr
          simp
        have : w ++ '\n' :: t = w.dropLast ++ '\r' :: '\n' :: t := by
          conv_lhs => rw [← hd]
          simp
        rw [this]
        refine .crlf _ _ _ (fun hm => hw ?_) iht
        rw [← hd]; exact List.mem_append_left _ hm
      · rename_i hr
        exact .lf _ _ _ hw hr iht

theorem linesOf_lines {ws : List Str} {s : Str} (h : LinesOf ws s) : ws = lines s := by
  induction h with
  | nil => rfl
  | last w h1 h2 => rw [lines_last h1 h2]
  | lf w t ws h1 h2 _ ih => rw [lines_line t h1, if_neg h2, ih]
  | crlf w t ws h1 _ ih =>
    rw [show w ++ '\r' :: '\n' :: t = (w ++ ['\r']) ++ '\n' :: t by simp,
      lines_line t (by simp [h1]), if_pos (by simp), ih]
    simp

theorem linesOf_iff {ws : List Str} {s : Str} : LinesOf ws s ↔ ws = lines s :=
  ⟨linesOf_lines, fun h => h ▸ lines_linesOf s⟩

theorem not_mem_lines {s w : Str} (h : w ∈ lines s) : '\n' ∉ w := by
  have := lines_linesOf s
  generalize lines s = ws at this h
  induction this with
  | nil => cases h
  | last w h1 h2 => rw [List.mem_singleton] at h; rw [h]; exact h2
  | lf w t ws h1 h2 _ ih =>
    rcases List.mem_cons.mp h with rfl | h
    · exact h1
    · exact ih h
  | crlf w t ws h1 _ ih =>
    rcases List.mem_cons.mp h with rfl | h
    · exact h1
    · exact ih h

/-! ## Without line ends -/

theorem unterminated_cons {c : Char} {t : Str} (h1 : c ≠ '\n')
    (h2 : c = '\r' → t.head? ≠ some '\n') : unterminated (c :: t) = c :: unterminated t := by
  rw [unterminated.eq_4]
  · exact h1
  · rintro t' hc rfl
    exact h2 hc rfl

theorem unterminated_plain {w : Str} (h : '\n' ∉ w) : unterminated w = w := by
  induction w with
  | nil => rfl
  | cons c w ih =>
    rw [List.mem_cons, not_or] at h
    rw [unterminated_cons (fun e => h.1 e.symm), ih h.2]
    intro _ hh
    exact h.2 (List.mem_of_head? hh)

theorem unterminated_line {w : Str} (t : Str) (h : '\n' ∉ w) :
    unterminated (w ++ '\n' :: t) =
      (if w.getLast? = some '\r' then w.dropLast else w) ++ unterminated t := by
  induction w with
  | nil => simp [unterminated]
  | cons c w ih =>
    rw [List.mem_cons, not_or] at h
    cases w with
    | nil =>
      by_cases hc : c = '\r'
      · subst hc; simp [unterminated]
      · rw [List.singleton_append, unterminated_cons (fun e => h.1 e.symm) (fun e => absurd e hc)]
        simp [unterminated, hc]
    | cons c' w =>
      rw [List.cons_append, unterminated_cons (fun e => h.1 e.symm), ih h.2]
      · simp only [List.getLast?_cons_cons]
        split <;> simp
      · intro _ hh
        simp only [List.cons_append, List.head?_cons, Option.some.injEq] at hh
        exact h.2 (by rw [hh]; simp)

theorem flatten_lines (s : Str) : (lines s).flatten = unterminated s := by
  induction hn : s.length using Nat.strongRecOn generalizing s with
  | _ n ih =>
    rcases first_line s with h | ⟨w, t, rfl, hw⟩
    · cases s with
      | nil => rfl
      | cons c s => rw [lines_last (by simp) h, unterminated_plain h]; simp
    · have hlt : t.length < n := by
        subst hn
        rw [List.length_append, List.length_cons]; omega
      rw [lines_line t hw, unterminated_line t hw, List.flatten_cons, ih _ hlt t rfl]

theorem flatten_filter_nonempty (ws : List Str) :
    (ws.filter (fun t => !t.isEmpty)).flatten = ws.flatten := by
  induction ws with
  | nil => rfl
  | cons w ws ih =>
    rw [List.filter_cons]
    cases w with
    | nil => simpa using ih
    | cons c w => simp [ih]

theorem filter_unterminated (s : Str) :
    (unterminated s).filter (· ≠ '\r') = s.filter (fun c => c ≠ '\r' ∧ c ≠ '\n') := by
  induction s using unterminated.induct with
  | case1 => rfl
  | case2 t ih => simp only [unterminated, ih]; simp
  | case3 t ih => simp only [unterminated, ih]; simp
  | case4 c t h1 h2 ih =>
    have hc : c ≠ '\n' := h1
    rw [unterminated_cons hc]
    · rw [List.filter_cons, List.filter_cons, ih]
      simp [hc]
    · rintro rfl hh
      cases t with
      | nil => cases hh
      | cons c' t =>
        simp only [List.head?_cons, Option.some.injEq] at hh
        exact h2 t rfl (by rw [hh])

end Cinit
