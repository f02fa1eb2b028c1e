import Verif.Model.CommandLine
import Verif.Spec.CommandLine
/-!
# Lemmas on the command line
-/

namespace Cinit.CommandLine

open Spec

/-- Storing options one after the other. -/
def applyAll (m : Matches) : List Opt → Res Stop Matches
  | [] => .ok m
  | .verbose :: os => applyAll m.count os
  | .config p :: os => m.set p >>= fun m => applyAll m os

theorem applyAll_append (m : Matches) (os os' : List Opt) :
    applyAll m (os ++ os') = applyAll m os >>= fun m => applyAll m os' := by
  induction os generalizing m with
  | nil => rfl
  | cons o os ih =>
    cases o with
    | verbose => exact ih _
    | config p =>
      simp only [List.cons_append, applyAll]
      cases m.set p with
      | ok m => exact ih m
      | err e => rfl
      | panic p => rfl

theorem applyAll_usage {m : Matches} {os : List Opt} {e : Stop} (h : applyAll m os = .err e) :
    e = .usage := by
  induction os generalizing m with
  | nil => cases h
  | cons o os ih =>
    cases o with
    | verbose => exact ih h
    | config p =>
      simp only [applyAll] at h
      cases hs : m.set p with
      | ok m => rw [hs] at h; exact ih h
      | err e =>
        rw [hs] at h; cases h
        unfold Matches.set at hs
        split at hs
        · cases hs; rfl
        · split at hs <;> cases hs; rfl
      | panic p =>
        unfold Matches.set at hs
        split at hs
        · cases hs
        · split at hs <;> cases hs

theorem set_no_panic {m : Matches} {v : List Nat} {p : Panic} : m.set v ≠ .panic p := by
  intro hs
  unfold Matches.set at hs
  split at hs
  · cases hs
  · split at hs <;> cases hs

/-! ## Letters -/

theorem shorts_of {cs : List Nat} {os : List Opt} {w : Bool} (h : Letters cs os w) (m : Matches) :
    shorts m cs = applyAll m os >>= fun m => .ok (m, w) := by
  induction h generalizing m with
  | none => rfl
  | verbose h ih => rw [shorts, if_pos rfl]; exact ih _
  | config => rfl
  | equals path =>
    rw [shorts, if_neg (by decide), if_pos rfl, if_neg (by simp), if_pos (by simp)]
    simp only [applyAll, List.tail]
    cases m.set path <;> rfl
  | joined path h1 h2 =>
    rw [shorts, if_neg (by decide), if_pos rfl, if_neg h1, if_neg h2]
    simp only [applyAll]
    cases m.set path <;> rfl

theorem of_shorts {cs : List Nat} {m m' : Matches} {w : Bool} (h : shorts m cs = .ok (m', w)) :
    ∃ os, Letters cs os w ∧ applyAll m os = .ok m' := by
  induction cs generalizing m with
  | nil => cases h; exact ⟨[], .none, rfl⟩
  | cons b rest ih =>
    rw [shorts] at h
    split at h
    · rename_i hb; subst hb
      obtain ⟨os, h1, h2⟩ := ih h
      exact ⟨_, .verbose h1, h2⟩
    split at h
    · rename_i hb; subst hb
      split at h
      · rename_i hr; subst hr; cases h
        exact ⟨[], .config, rfl⟩
      split at h
      · rename_i hr hq
        cases rest with
        | nil => cases hq
        | cons q path =>
          cases hq
          simp only [List.tail] at h
          cases hs : m.set path with
          | ok m1 =>
            rw [hs] at h; cases h
            exact ⟨[.config path], .equals path, by rw [applyAll, hs]; rfl⟩
          | err e => rw [hs] at h; cases h
          | panic p => rw [hs] at h; cases h
      · rename_i hr hq
        cases hs : m.set rest with
        | ok m1 =>
          rw [hs] at h; cases h
          exact ⟨[.config rest], .joined rest hr hq, by rw [applyAll, hs]; rfl⟩
        | err e => rw [hs] at h; cases h
        | panic p => rw [hs] at h; cases h
    split at h
    · cases h
    split at h <;> cases h

/-! ## Words -/

theorem splitOnce_none {bs name : List Nat} (h : splitOnce bs = (name, none)) : bs = name := by
  induction bs generalizing name with
  | nil => cases h; rfl
  | cons b bs ih =>
    simp only [splitOnce] at h
    split at h
    · cases h
    · simp only [Prod.mk.injEq] at h
      rw [← h.1]
      exact congrArg (b :: ·) (ih (Prod.ext rfl h.2))

theorem splitOnce_some {bs name value : List Nat} (h : splitOnce bs = (name, some value)) :
    bs = name ++ '='.toNat :: value := by
  induction bs generalizing name with
  | nil => cases h
  | cons b bs ih =>
    simp only [splitOnce] at h
    split at h
    · rename_i hb; cases h; rw [hb]; rfl
    · simp only [Prod.mk.injEq] at h
      rw [← h.1]
      exact congrArg (b :: ·) (ih (Prod.ext rfl h.2))

theorem splitOnce_word {name : List Nat} (h : '='.toNat ∉ name) :
    splitOnce name = (name, none) := by
  induction name with
  | nil => rfl
  | cons b bs ih =>
    simp only [List.mem_cons, not_or] at h
    rw [splitOnce, if_neg (Ne.symm h.1), ih h.2]

theorem splitOnce_equals {name : List Nat} (h : '='.toNat ∉ name) (value : List Nat) :
    splitOnce (name ++ '='.toNat :: value) = (name, some value) := by
  induction name with
  | nil => simp [splitOnce]
  | cons b bs ih =>
    simp only [List.mem_cons, not_or] at h
    rw [List.cons_append, splitOnce, if_neg (Ne.symm h.1), ih h.2]

/-! ## Arguments -/

/-- The value of an option. -/
theorem arguments_value {m : Matches} {path : List Nat} (h : ¬ Dashed path)
    (as : List (List Nat)) :
    arguments m true (path :: as) = m.set path >>= fun m => arguments m false as := by
  have h1 : path ≠ ascii "--" := fun e => h ⟨'-'.toNat, [], e⟩
  have h2 : ¬ path.take 2 = ascii "--" := by
    intro e
    match path, e with
    | [], e => exact absurd e (by decide)
    | [b], e => simp [ascii] at e
    | b :: c :: rest, e =>
      simp [ascii] at e
      exact h ⟨c, rest, by rw [e.1]; rfl⟩
  have h3 : ¬ (path.head? = some '-'.toNat ∧ path ≠ ascii "-") := by
    rintro ⟨e1, e2⟩
    match path, e1, e2 with
    | [b], e1, e2 => exact e2 (by simp at e1; rw [e1]; rfl)
    | b :: c :: rest, e1, _ =>
      simp at e1
      exact h ⟨c, rest, by rw [e1]; rfl⟩
  rw [arguments, if_neg h1, if_neg h2, if_neg h3, if_pos rfl]

/-- One argument beginning with two dashes. -/
theorem arguments_long {m : Matches} {bs : List Nat} (hb : bs ≠ []) (as : List (List Nat)) :
    arguments m false (('-'.toNat :: '-'.toNat :: bs) :: as) =
      long m (splitOnce bs).1 (splitOnce bs).2 >>= fun r => arguments r.1 r.2 as := by
  rw [arguments, if_neg, if_pos (by rfl), if_neg (by simp)]
  · rfl
  · intro e
    simp [ascii] at e
    exact hb e

/-- One argument beginning with a single dash. -/
theorem arguments_short {m : Matches} {cs : List Nat} (hb : cs ≠ [])
    (hd : cs.head? ≠ some '-'.toNat) (as : List (List Nat)) :
    arguments m false (('-'.toNat :: cs) :: as) =
      shorts m cs >>= fun r => arguments r.1 r.2 as := by
  match cs, hb, hd with
  | c :: cs, _, hd =>
    have hc : c ≠ '-'.toNat := fun e => hd (by simp [e])
    rw [arguments, if_neg, if_neg, if_pos, if_neg (by simp)]
    · rfl
    · exact ⟨rfl, by simp [ascii]⟩
    · intro e
      simp [ascii] at e
      exact hc e
    · intro e
      simp [ascii] at e
      exact hc e.1

theorem Letters_head {cs : List Nat} {os : List Opt} {w : Bool} (h : Letters cs os w) :
    cs.head? ≠ some '-'.toNat := by
  cases h <;> simp

theorem Letters_true {cs : List Nat} {os : List Opt} (h : Letters cs os true) : cs ≠ [] := by
  intro e; subst e; cases h

/-- Arguments that stand for options store these. -/
theorem arguments_of {os : List Opt} {as : List (List Nat)} (h : Open os as) (m : Matches)
    (tail : List (List Nat)) :
    arguments m false (as ++ tail) = applyAll m os >>= fun m => arguments m false tail := by
  induction h generalizing m with
  | nil => rfl
  | @verbose os as h ih =>
    rw [List.cons_append, show word' "--verbose" = '-'.toNat :: '-'.toNat :: ascii "verbose" from
      by decide, arguments_long (by decide), splitOnce_word (by decide)]
    exact ih _
  | @config path os as hd h ih =>
    rw [List.cons_append, List.cons_append, show word' "--config" =
      '-'.toNat :: '-'.toNat :: ascii "config" from
      by decide, arguments_long (by decide), splitOnce_word (by decide)]
    change arguments m true _ = _
    rw [arguments_value hd]
    simp only [applyAll]
    cases m.set path with
    | ok m => exact ih m
    | err e => rfl
    | panic p => rfl
  | @equals path os as h ih =>
    rw [List.cons_append, show word' "--config=" ++ path =
      '-'.toNat :: '-'.toNat :: (ascii "config" ++ '='.toNat :: path) from
      by simp [word', ascii], arguments_long (by simp), splitOnce_equals (by decide)]
    simp only [long, if_pos, applyAll]
    cases m.set path with
    | ok m => exact ih m
    | err e => rfl
    | panic p => rfl
  | @letters cs os os' as hc hl h ih =>
    rw [List.cons_append, arguments_short hc (Letters_head hl), shorts_of hl, applyAll_append]
    cases applyAll m os with
    | ok m => exact ih m
    | err e => rfl
    | panic p => rfl
  | @value cs path os os' as hl hd h ih =>
    rw [List.cons_append, List.cons_append, arguments_short (Letters_true hl) (Letters_head hl),
      shorts_of hl, applyAll_append]
    cases applyAll m os with
    | ok m =>
      change arguments m true _ = _
      rw [arguments_value hd]
      change _ = applyAll m (_ :: _) >>= _
      simp only [applyAll]
      cases m.set path with
      | ok m => exact ih m
      | err e => rfl
      | panic p => rfl
    | err e => rfl
    | panic p => rfl

/-- What is found while a value is waited for. -/
theorem of_arguments_value {m : Matches} {as : List (List Nat)} {r : Res Stop Matches}
    (h : arguments m true as = r) (hr : r ≠ .err .usage) :
    ∃ path as', as = path :: as' ∧ ¬ Dashed path ∧
      (m.set path >>= fun m => arguments m false as') = r := by
  cases as with
  | nil => exact absurd h.symm hr
  | cons path as' =>
    by_cases hd : Dashed path
    · exfalso
      apply hr
      rw [← h, arguments]
      split
      · rw [if_pos (.inl rfl)]
      split
      · rw [if_pos rfl]
      obtain ⟨b, rest, rfl⟩ := hd
      rw [if_pos ⟨rfl, by simp [ascii]⟩, if_pos rfl]
    · exact ⟨path, as', rfl, hd, by rw [← h, arguments_value hd]⟩

/-- What makes clap print something. -/
def Asks (e : Stop) (a : List Nat) : Prop :=
  (e = .help ∧ Prints "--help" 'h' a) ∨ (e = .version ∧ Prints "--version" 'V' a)

theorem of_shorts_err {cs : List Nat} {m : Matches} {e : Stop} (h : shorts m cs = .err e)
    (he : e ≠ .usage) : Asks e ('-'.toNat :: cs) := by
  have key : ∃ k rest, (e = .help ∧ cs = List.replicate k 'v'.toNat ++ 'h'.toNat :: rest) ∨
      (e = .version ∧ cs = List.replicate k 'v'.toNat ++ 'V'.toNat :: rest) := by
    induction cs generalizing m with
    | nil => cases h
    | cons b rest ih =>
      have hset : ∀ {v : List Nat}, (m.set v >>= fun m => Res.ok (m, false)) = .err e → False := by
        intro v h
        cases hs : m.set v with
        | ok m => rw [hs] at h; cases h
        | panic p => exact set_no_panic hs
        | err e' =>
          rw [hs] at h; cases h
          exact he (applyAll_usage (m := m) (os := [.config v]) (by rw [applyAll, hs]; rfl))
      rw [shorts] at h
      split at h
      · rename_i hb; subst hb
        obtain ⟨k, rest', h1 | h1⟩ := ih h
        · exact ⟨k + 1, rest', .inl ⟨h1.1, by rw [h1.2]; rfl⟩⟩
        · exact ⟨k + 1, rest', .inr ⟨h1.1, by rw [h1.2]; rfl⟩⟩
      split at h
      · split at h
        · cases h
        split at h
        · exact (hset h).elim
        · exact (hset h).elim
      split at h
      · rename_i hb; subst hb; cases h; exact ⟨0, rest, .inl ⟨rfl, rfl⟩⟩
      split at h
      · rename_i hb; subst hb; cases h; exact ⟨0, rest, .inr ⟨rfl, rfl⟩⟩
      · cases h; exact absurd rfl he
  obtain ⟨k, rest, h1 | h1⟩ := key
  · exact .inl ⟨h1.1, .inr ⟨k, rest, by rw [h1.2]⟩⟩
  · exact .inr ⟨h1.1, .inr ⟨k, rest, by rw [h1.2]⟩⟩

theorem shorts_no_panic {cs : List Nat} {m : Matches} {p : Panic} : shorts m cs ≠ .panic p := by
  induction cs generalizing m with
  | nil => intro h; cases h
  | cons b rest ih =>
    intro h
    have hset : ∀ {v : List Nat}, (m.set v >>= fun m => Res.ok (m, false)) = .panic p → False := by
      intro v h
      cases hs : m.set v with
      | ok m => rw [hs] at h; cases h
      | panic p => exact set_no_panic hs
      | err e' => rw [hs] at h; cases h
    rw [shorts] at h
    split at h
    · exact ih h
    split at h
    · split at h
      · cases h
      split at h
      · exact hset h
      · exact hset h
    split at h
    · cases h
    split at h <;> cases h

/-- What a result says about the arguments. -/
def Explained (m : Matches) (as : List (List Nat)) (r : Res Stop Matches) : Prop :=
  ∃ os pre post m', as = pre ++ post ∧ Open os pre ∧ applyAll m os = .ok m' ∧
    (((post = [] ∨ post = [word' "--"]) ∧ r = .ok m') ∨
      ∃ e a rest, post = a :: rest ∧ r = .err e ∧ Asks e a)

theorem Explained.cons {m m1 : Matches} {as p : List (List Nat)} {r : Res Stop Matches}
    {o : List Opt} (ho : ∀ {os pre}, Open os pre → Open (o ++ os) (p ++ pre))
    (hm : applyAll m o = .ok m1) (h : Explained m1 as r) : Explained m (p ++ as) r := by
  obtain ⟨os, pre, post, m', rfl, h1, h2, h3⟩ := h
  refine ⟨o ++ os, p ++ pre, post, m', by simp, ho h1, ?_, h3⟩
  rw [applyAll_append, hm]; exact h2

theorem explained {n : Nat} {m : Matches} {as : List (List Nat)} {r : Res Stop Matches}
    (hn : as.length ≤ n) (h : arguments m false as = r) (hr : r ≠ .err .usage) :
    Explained m as r := by
  induction n generalizing m as with
  | zero =>
    obtain rfl : as = [] := by simpa using hn
    exact ⟨[], [], [], m, rfl, .nil, rfl, .inl ⟨.inl rfl, h.symm⟩⟩
  | succ n ih =>
    cases as with
    | nil => exact ⟨[], [], [], m, rfl, .nil, rfl, .inl ⟨.inl rfl, h.symm⟩⟩
    | cons a as =>
      have hn' : as.length ≤ n := by simpa using hn
      have hwait : ∀ {m1 : Matches} {o : List Opt} {a : List Nat},
          (∀ {path os pre}, ¬ Dashed path → Open os pre →
            Open (o ++ .config path :: os) (a :: path :: pre)) →
          applyAll m o = .ok m1 → arguments m1 true as = r → Explained m (a :: as) r := by
        intro m1 o a ho hm h
        obtain ⟨path, as', rfl, hd, h⟩ := of_arguments_value h hr
        cases hs : m1.set path with
        | panic p => exact (set_no_panic hs).elim
        | err e =>
          rw [hs] at h
          have := applyAll_usage (m := m1) (os := [.config path]) (e := e) (by rw [applyAll, hs]; rfl)
          rw [this] at h
          exact absurd h.symm hr
        | ok m2 =>
          rw [hs] at h
          refine Explained.cons (p := [a, path]) (o := o ++ [.config path]) ?_ ?_
            (ih (m := m2) (as := as') (by simp at hn'; omega) h)
          · intro os pre h
            rw [List.append_assoc]
            exact ho hd h
          · rw [applyAll_append, hm]
            change applyAll m1 [.config path] = _
            rw [applyAll, hs]; rfl
      rw [arguments] at h
      split at h
      · rename_i ha
        split at h
        · exact absurd h.symm hr
        · rename_i hx
          obtain rfl : as = [] := by simpa using hx
          exact ⟨[], [], [a], m, rfl, .nil, rfl, .inl ⟨.inr (by rw [ha]; rfl), h.symm⟩⟩
      rename_i hne
      split at h
      · rename_i ht
        obtain ⟨bs, rfl⟩ : ∃ bs, a = '-'.toNat :: '-'.toNat :: bs := by
          match a, ht with
          | [], ht => exact absurd ht (by decide)
          | [b], ht => simp [ascii] at ht
          | b :: c :: bs, ht =>
            simp [ascii] at ht
            exact ⟨bs, by rw [ht.1, ht.2]; rfl⟩
        rw [if_neg (by simp)] at h
        simp only [List.drop] at h
        cases hb : splitOnce bs with
        | mk name value =>
        rw [hb] at h
        simp only at h
        unfold long at h
        split at h
        · rename_i hname
          cases value with
          | none =>
            have := splitOnce_none hb
            subst this hname
            exact hwait (o := []) (fun hd h => .config hd h) rfl h
          | some v =>
            have := splitOnce_some hb
            subst this hname
            simp only at h
            cases hs : m.set v with
            | panic p => exact (set_no_panic hs).elim
            | err e =>
              rw [hs] at h
              have := applyAll_usage (m := m) (os := [.config v]) (e := e)
                (by rw [applyAll, hs]; rfl)
              rw [this] at h
              exact absurd h.symm hr
            | ok m2 =>
              rw [hs] at h
              refine Explained.cons (p := [_]) (o := [.config v]) ?_ ?_ (ih hn' h)
              · intro os pre h
                exact .equals h
              · rw [applyAll, hs]; rfl
        split at h
        · exact absurd h.symm hr
        rename_i hname hvalue
        obtain rfl : value = none := by simpa using hvalue
        obtain rfl := splitOnce_none hb
        split at h
        · rename_i hv; subst hv
          refine Explained.cons (p := [_]) (o := [.verbose]) ?_ rfl (ih hn' h)
          intro os pre h
          exact .verbose h
        split at h
        · rename_i hv; subst hv
          exact ⟨[], [], _, m, rfl, .nil, rfl, .inr ⟨.help, _, as, rfl, h.symm, .inl ⟨rfl, .inl rfl⟩⟩⟩
        split at h
        · rename_i hv; subst hv
          exact ⟨[], [], _, m, rfl, .nil, rfl,
            .inr ⟨.version, _, as, rfl, h.symm, .inr ⟨rfl, .inl rfl⟩⟩⟩
        · exact absurd h.symm hr
      rename_i ht
      split at h
      · rename_i hd
        obtain ⟨c, cs, rfl⟩ : ∃ c cs, a = '-'.toNat :: c :: cs := by
          match a, hd with
          | [b], hd => exact absurd (by simpa [ascii] using hd.1) (by simpa [ascii] using hd.2)
          | b :: c :: bs, hd =>
            have := hd.1
            simp at this
            exact ⟨c, bs, by rw [this]; rfl⟩
        rw [if_neg (by simp)] at h
        simp only [List.drop] at h
        cases hs : shorts m (c :: cs) with
        | panic p => exact (shorts_no_panic hs).elim
        | err e =>
          rw [hs] at h
          have he : e ≠ .usage := by rintro rfl; exact hr h.symm
          exact ⟨[], [], _, m, rfl, .nil, rfl, .inr ⟨e, _, as, rfl, h.symm, of_shorts_err hs he⟩⟩
        | ok x =>
          obtain ⟨m1, w⟩ := x
          rw [hs] at h
          obtain ⟨o, hl, hm⟩ := of_shorts hs
          cases w with
          | true => exact hwait (o := o) (fun hd h => .value hl hd h) hm h
          | false =>
            refine Explained.cons (p := [_]) (o := o) ?_ hm (ih hn' h)
            intro os pre h
            exact .letters (by simp) hl h
      · rw [if_neg (by simp)] at h
        exact absurd h.symm hr

/-- The converse for what makes clap print something. -/
theorem arguments_asks {m : Matches} {e : Stop} {a : List Nat} (h : Asks e a)
    (as : List (List Nat)) : arguments m false (a :: as) = .err e := by
  have key : ∀ (l : Nat) (e : Stop), (∀ m rest, shorts m (l :: rest) = .err e) → ∀ k rest m,
      shorts m (List.replicate k 'v'.toNat ++ l :: rest) = .err e := by
    intro l e hl k rest
    induction k with
    | zero => intro m; exact hl m rest
    | succ k ih =>
      intro m
      rw [List.replicate_succ, List.cons_append, shorts, if_pos rfl]
      exact ih _
  have hd : ∀ (l : Nat), l ≠ '-'.toNat → ∀ k rest,
      (List.replicate k 'v'.toNat ++ l :: rest).head? ≠ some '-'.toNat := by
    intro l hl k rest
    cases k with
    | zero => simpa using hl
    | succ k => simp [List.replicate_succ]
  rcases h with ⟨rfl, rfl | ⟨k, rest, rfl⟩⟩ | ⟨rfl, rfl | ⟨k, rest, rfl⟩⟩
  · rfl
  · rw [arguments_short (by simp) (hd _ (by decide) k rest),
      key 'h'.toNat .help (fun _ _ => rfl)]
    rfl
  · rfl
  · rw [arguments_short (by simp) (hd _ (by decide) k rest),
      key 'V'.toNat .version (fun _ _ => rfl)]
    rfl

/-! ## What is stored -/

theorem applyAll_iff {m m' : Matches} {os : List Opt} (hm : m.verbose ≤ 255) :
    applyAll m os = .ok m' ↔ m'.verbose = min (m.verbose + verbosityIn os) 255 ∧
      match m.config with
      | some p => pathsIn os = [] ∧ m'.config = some p
      | none => Consistent os m'.config := by
  induction os generalizing m with
  | nil =>
    simp only [applyAll, verbosityIn, pathsIn, Consistent, Nat.add_zero]
    constructor
    · intro h; cases h
      refine ⟨by omega, ?_⟩
      cases m'.config <;> simp
    · rintro ⟨h1, h2⟩
      have : m.config = m'.config := by
        cases hc : m.config with
        | none => rw [hc] at h2; simpa using h2.elim (fun h => h.2.symm) (by simp)
        | some p => rw [hc] at h2; exact h2.2.symm
      cases m; cases m'
      simp only at this h1 hm
      subst this
      rw [h1, Nat.min_eq_left hm]
  | cons o os ih =>
    cases o with
    | verbose =>
      rw [applyAll, ih (by simp only [Matches.count]; omega)]
      simp only [Matches.count, verbosityIn, pathsIn, Consistent]
      rw [show min (min (m.verbose + 1) 255 + verbosityIn os) 255 =
        min (m.verbose + (verbosityIn os + 1)) 255 by omega]
    | config p =>
      rw [applyAll]
      simp only [Matches.set, verbosityIn, pathsIn, Consistent]
      cases hc : m.config with
      | some q => simp [Res.bind]
      | none =>
        cases hp : fromUtf8 p with
        | none => simp; intro _ _ _ _ ; simp_all
        | some text =>
          change applyAll { m with config := some text } os = _ ↔ _
          rw [ih (m := { m with config := some text }) hm]
          simp only [reduceCtorEq, false_and, false_or, List.cons.injEq]
          constructor
          · rintro ⟨h1, h2, h3⟩
            exact ⟨h1, p, text, ⟨rfl, h2⟩, hp, h3⟩
          · rintro ⟨h1, q, text', ⟨rfl, h2⟩, h3, h4⟩
            rw [hp] at h3; cases h3
            exact ⟨h1, h2, h4⟩

end Cinit.CommandLine
