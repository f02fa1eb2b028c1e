import Verif.Spec.Fates
import Verif.Props.Logging
import Verif.Props.Report
import Verif.Props.Document
/-!
# C84: the log tells what becomes of programs
-/

namespace Cinit.Props

open Cinit Spec Logging

/-! ## The words are unambiguous -/

private theorem showInt_ne_nil (z : Int) : showInt z ≠ [] := by
  cases z with
  | ofNat n => exact showNat_ne_nil n
  | negSucc n => simp [showInt]

private theorem showNat_inj {a b : Nat} (h : showNat a = showNat b) : a = b := by
  rw [← digits_showNat a, h, digits_showNat]

private theorem minus_not_mem (n : Nat) : '-' ∉ showNat n := not_mem_showNat (by decide) n

private theorem showInt_inj {a b : Int} (h : showInt a = showInt b) : a = b := by
  cases a with
  | ofNat n =>
    cases b with
    | ofNat k => rw [showNat_inj (a := n) (b := k) h]
    | negSucc k =>
      have h' : showNat n = '-' :: showNat (k + 1) := h
      exact absurd (by rw [h']; simp) (minus_not_mem n)
  | negSucc n =>
    cases b with
    | ofNat k =>
      have h' : '-' :: showNat (n + 1) = showNat k := h
      exact absurd (by rw [← h']; simp) (minus_not_mem k)
    | negSucc k =>
      have h' : '-' :: showNat (n + 1) = '-' :: showNat (k + 1) := h
      have := showNat_inj (List.cons.inj h').2
      rw [show n = k by omega]

private theorem not_blank (z : Int) : ' ' ∉ showInt z :=
  not_mem_showInt blank_ne_digit (by decide) z

private theorem last_word {s t x y : Str} {c : Char} (h : s ++ c :: x = t ++ c :: y) (hx : c ∉ x)
    (hy : c ∉ y) : s = t ∧ x = y := by
  rcases List.append_eq_append_iff.mp h with ⟨as, h1, h2⟩ | ⟨as, h1, h2⟩
  · cases as with
    | nil => exact ⟨by simpa using h1.symm, by simpa using h2⟩
    | cons a as =>
      rw [List.cons_append] at h2
      obtain ⟨-, h3⟩ := List.cons.inj h2
      exact absurd (by rw [h3]; simp) hx
  · cases as with
    | nil => exact ⟨by simpa using h1, by simpa using h2.symm⟩
    | cons a as =>
      rw [List.cons_append] at h2
      obtain ⟨-, h3⟩ := List.cons.inj h2
      exact absurd (by rw [h3]; simp) hy

private theorem last_mem {s u v : Str} {c : Char} (h : s ++ [c] = u ++ v) (hv : v ≠ []) : c ∈ v := by
  obtain ⟨v', d, rfl⟩ : ∃ v' d, v = v' ++ [d] :=
    ⟨v.dropLast, v.getLast hv, (List.dropLast_append_getLast hv).symm⟩
  rw [← List.append_assoc] at h
  have := (List.append_inj' h rfl).2
  simp at this
  simp [this]

private theorem letter_not_mem {c : Char} (z : Int) (h : c = 'y' ∨ c = 'p' ∨ c = 's') :
    c ∉ showInt z := by
  rcases h with rfl | rfl | rfl <;> exact not_mem_showInt (by decide) (by decide) z

private theorem crash_ne {s n : Str} {c : Char} {rc : Int} (h : c = 'y' ∨ c = 'p' ∨ c = 's') :
    s ++ [c] ≠ n ++ showInt rc := fun h' =>
  letter_not_mem rc h (last_mem h' (showInt_ne_nil rc))

private theorem words1 (n : Str) : (Fate.starts n).words = "Starting ".toList ++ n := rfl
private theorem words2 (n : Str) : (Fate.completes n).words =
    "Child ".toList ++ n ++ " exited successfully".toList := rfl
private theorem words3 (n : Str) : (Fate.sleeps n).words =
    "Child ".toList ++ n ++ " has finished and is going to sleep".toList := rfl
private theorem words4 (n : Str) (rc : Int) : (Fate.crashes n rc).words =
    "Child ".toList ++ n ++ " crashed with ".toList ++ showInt rc := rfl
private theorem words5 (pid rc : Int) : (Fate.reaped pid rc).words =
    "Reaped zombie process ".toList ++ showInt pid ++ " with return code ".toList ++ showInt rc := rfl

private theorem words_last {f : Fate} {s : Str} {c : Char} (h : f.words = s ++ [c]) :
    (∃ n, f = .starts n) ∨ (c = 'y' ∧ ∃ n, f = .completes n) ∨ (c = 'p' ∧ ∃ n, f = .sleeps n) ∨
      (¬ (c = 'y' ∨ c = 'p' ∨ c = 's') ∧ ((∃ n rc, f = .crashes n rc) ∨ ∃ p rc, f = .reaped p rc)) := by
  cases f with
  | starts n => exact .inl ⟨n, rfl⟩
  | completes n =>
    refine .inr (.inl ⟨?_, n, rfl⟩)
    have : ("Child ".toList ++ n ++ " exited successfull".toList) ++ ['y'] = s ++ [c] := by
      rw [← h]; simp [words2, words3]
    simpa using (List.append_inj' this rfl).2.symm
  | sleeps n =>
    refine .inr (.inr (.inl ⟨?_, n, rfl⟩))
    have : ("Child ".toList ++ n ++ " has finished and is going to slee".toList) ++ ['p'] =
        s ++ [c] := by
      rw [← h]; simp [words2, words3]
    simpa using (List.append_inj' this rfl).2.symm
  | crashes n rc => exact .inr (.inr (.inr ⟨fun hc => crash_ne hc h.symm, .inl ⟨n, rc, rfl⟩⟩))
  | reaped p rc => exact .inr (.inr (.inr ⟨fun hc => crash_ne hc h.symm, .inr ⟨p, rc, rfl⟩⟩))

/-- C84: the words are unambiguous. -/
theorem C84_words {f g : Fate} (h : f.words = g.words) : f = g := by
  have e1 : ∀ n m : Str, "Child ".toList ++ n ++ " exited successfully".toList =
      "Child ".toList ++ m ++ " exited successfully".toList → n = m := fun n m h => by
    simpa using h
  have e2 : ∀ n m : Str, "Child ".toList ++ n ++ " has finished and is going to sleep".toList =
      "Child ".toList ++ m ++ " has finished and is going to sleep".toList → n = m := fun n m h => by
    simpa using h
  have hy : ∀ n, (Fate.completes n).words = ("Child ".toList ++ n ++ " exited successfull".toList) ++
      ['y'] := fun n => by simp [words2, words3]
  have hp : ∀ n, (Fate.sleeps n).words = ("Child ".toList ++ n ++
      " has finished and is going to slee".toList) ++ ['p'] := fun n => by simp [words2, words3]
  cases f with
  | starts n => cases g <;> simp [words1, words2, words3, words4, words5] at h ⊢; exact h
  | completes n =>
    rcases words_last (h.symm.trans (hy n)) with ⟨m, rfl⟩ | ⟨-, m, rfl⟩ | ⟨hc, -⟩ | ⟨hc, -⟩
    · simp [words1, words2, words3, words4, words5] at h
    · rw [e1 n m h]
    · cases hc
    · exact absurd (.inl rfl) hc
  | sleeps n =>
    rcases words_last (h.symm.trans (hp n)) with ⟨m, rfl⟩ | ⟨hc, -⟩ | ⟨-, m, rfl⟩ | ⟨hc, -⟩
    · simp [words1, words2, words3, words4, words5] at h
    · cases hc
    · rw [e2 n m h]
    · exact absurd (.inr (.inl rfl)) hc
  | crashes n rc =>
    cases g with
    | starts m => simp [words1, words2, words3, words4, words5] at h
    | completes m =>
      rw [hy] at h
      exact absurd h.symm (crash_ne (.inl rfl))
    | sleeps m =>
      rw [hp] at h
      exact absurd h.symm (crash_ne (.inr (.inl rfl)))
    | crashes m rc' =>
      have : ("Child ".toList ++ n ++ " crashed with".toList) ++ ' ' :: showInt rc =
          ("Child ".toList ++ m ++ " crashed with".toList) ++ ' ' :: showInt rc' := by
        simpa [words1, words2, words3, words4, words5] using h
      obtain ⟨h1, h2⟩ := last_word this (not_blank _) (not_blank _)
      rw [showInt_inj h2]
      simp at h1
      rw [h1]
    | reaped p rc' => simp [words1, words2, words3, words4, words5] at h
  | reaped p rc =>
    cases g with
    | reaped p' rc' =>
      have : ("Reaped zombie process ".toList ++ showInt p ++ " with return code".toList) ++
          ' ' :: showInt rc =
          ("Reaped zombie process ".toList ++ showInt p' ++ " with return code".toList) ++
            ' ' :: showInt rc' := by
        simpa [words1, words2, words3, words4, words5] using h
      obtain ⟨h1, h2⟩ := last_word this (not_blank _) (not_blank _)
      rw [showInt_inj h2]
      simp at h1
      rw [showInt_inj h1]
    | _ => simp [words1, words2, words3, words4, words5] at h

/-! ## Which messages tell something -/

/-- What a message tells. -/
private def tells : Msg → Option Fate
  | .starting n => some (.starts n)
  | .exited _ n => some (.completes n)
  | .sleeps _ n => some (.sleeps n)
  | .crashed _ n rc => some (.crashes n rc)
  | .zombie _ p rc => some (.reaped p rc)
  | _ => none

private theorem tells_words {msg : Msg} {f : Fate} (h : tells msg = some f) : msg.text = f.words := by
  cases msg <;> cases h <;> rfl

private theorem words_prefix (f : Fate) : "Starting ".toList <+: f.words ∨
    "Child ".toList <+: f.words ∨ "Reaped ".toList <+: f.words := by
  cases f with
  | starts n => exact .inl ⟨_, rfl⟩
  | completes n => exact .inr (.inl (by rw [words2, List.append_assoc]; exact List.prefix_append ..))
  | sleeps n => exact .inr (.inl (by rw [words3, List.append_assoc]; exact List.prefix_append ..))
  | crashes n rc =>
    exact .inr (.inl (by rw [words4, List.append_assoc, List.append_assoc]; exact List.prefix_append ..))
  | reaped p rc =>
    refine .inr (.inr ?_)
    rw [words5, show "Reaped zombie process ".toList = "Reaped ".toList ++ "zombie process ".toList
      from by decide, List.append_assoc, List.append_assoc, List.append_assoc]
    exact List.prefix_append ..

private theorem fixed_words : ∀ p ∈ fixedMessages, ¬ "Starting ".toList <+: p.2 ∧
    ¬ "Child ".toList <+: p.2 ∧ ¬ "Reaped ".toList <+: p.2 := by decide +kernel

/-- Names that do not make a warning look like the start of a program. -/
def Sober (n : Str) : Prop := ¬ "Starting".toList <+: n

attribute [local irreducible] fixedMessages

private theorem notAllowed_words {n : Str} (hn : Sober n) (f : Fate) :
    n ++ " is not allowed to send notifications".toList ≠ f.words := by
  intro h
  have h' : f.words = (n ++ " is not allowed to send notification".toList) ++ ['s'] := by
    rw [← h]; simp
  rcases words_last h' with ⟨m, rfl⟩ | ⟨hc, -⟩ | ⟨hc, -⟩ | ⟨hc, -⟩
  · have h2 : n ++ ' ' :: "is not allowed to send notifications".toList =
        "Starting".toList ++ (' ' :: m) := by simpa [words1] using h
    rcases List.append_eq_append_iff.mp h2 with ⟨as, h3, h4⟩ | ⟨as, h3, h4⟩
    · cases as with
      | nil => exact hn ⟨[], by rw [h3]; simp⟩
      | cons a as =>
        rw [List.cons_append] at h4
        obtain ⟨rfl, -⟩ := List.cons.inj h4
        have : ' ' ∈ "Starting".toList := by rw [h3]; simp
        revert this
        decide
    · exact hn ⟨as, h3.symm⟩
  · cases hc
  · cases hc
  · exact hc (.inr (.inr rfl))

/-- Only messages about the life of programs look like that, unless for debugging. -/
private theorem words_tells {names texts : List Str} {msg : Msg} (hn : ∀ n ∈ names, Sober n)
    (hp : Possible names texts msg) (hd : msg.level ≠ .debug) (ht : msg.level ≠ .trace) {f : Fate}
    (h : msg.text = f.words) : tells msg = some f := by
  have key : ∀ g, tells msg = some g → tells msg = some f := fun g hg => by
    rw [hg, C84_words ((tells_words hg).symm.trans h)]
  have hpre := words_prefix f
  rw [← h] at hpre
  cases msg with
  | fixed l s =>
    have := fixed_words _ (show (l, s) ∈ fixedMessages from hp)
    rcases hpre with h | h | h
    · exact absurd h this.1
    · exact absurd h this.2.1
    · exact absurd h this.2.2
  | alreadyTriggered _ => exact (hd (by simp only [Msg.level])).elim
  | scheduled _ => exact (hd (by simp only [Msg.level])).elim
  | startedAgain _ _ => exact (hd (by simp only [Msg.level])).elim
  | received _ _ => exact (hd (by simp only [Msg.level])).elim
  | debugged _ _ => exact (hd (by simp only [Msg.level])).elim
  | counted _ _ _ => exact (hd (by simp only [Msg.level])).elim
  | childExited _ _ => exact (hd (by simp only [Msg.level])).elim
  | startedName n => exact (ht (by simp only [Msg.level])).elim
  | status n v => exact (ht (by simp only [Msg.level])).elim
  | notAllowed n => exact absurd h (notAllowed_words (hn n hp) f)
  | starting n => exact key _ rfl
  | exited l n => exact key _ rfl
  | sleeps l n => exact key _ rfl
  | crashed l n rc => exact key _ rfl
  | zombie l p rc => exact key _ rfl
  | failure l w e =>
    exfalso
    have hw : w ∈ failureTexts := hp.1
    simp only [failureTexts, List.mem_cons, List.not_mem_nil, or_false] at hw
    rcases hw with rfl | rfl | rfl | rfl | rfl | rfl <;> delta Msg.text at hpre <;> simp at hpre
  | startedPid p => delta Msg.text at hpre; simp at hpre
  | unexpected k v => delta Msg.text at hpre; simp at hpre
  | started l n => delta Msg.text at hpre; simp at hpre
  | stopping l n => delta Msg.text at hpre; simp at hpre
  | badMainpid v e => delta Msg.text at hpre; simp at hpre
  | mainpid l n a b => delta Msg.text at hpre; simp at hpre
  | unknownPid p => delta Msg.text at hpre; simp at hpre
  | ignored k v => delta Msg.text at hpre; simp at hpre
  | unparsed l => delta Msg.text at hpre; simp at hpre
  | postponed l n => delta Msg.text at hpre; simp at hpre
  | refused l n s => delta Msg.text at hpre; simp at hpre

/-! ## The whole log -/

private theorem filterMap_eq {α β : Type} {f g : α → Option β} {l : List α}
    (h : ∀ a ∈ l, f a = g a) : l.filterMap f = l.filterMap g := by
  induction l with
  | nil => rfl
  | cons a l ih =>
    rw [List.filterMap_cons, List.filterMap_cons, h a (List.mem_cons_self ..),
      ih fun b hb => h b (List.mem_cons_of_mem _ hb)]

private theorem tells_life {msg : Msg} {f : Fate} (h : tells msg = some f) : msg.isLife = true := by
  cases msg <;> first | rfl | cases h

/-- What is found of the messages about the life of programs. -/
private def shown (v : Nat) (msg : Msg) : Option Str :=
  if wanted v msg.level then (tells msg).map Fate.words else none

private theorem shown_life {v : Nat} (hv : v ≠ 1 ∧ v ≠ 2) {ps : List ProcessConfig} {log : Log}
    (ha : ∀ p rc who past, Happened log (.waited p rc who) past → who = owner ps past p) :
    (lifeLog ps log).filterMap (shown v) = (fates ps log).map Fate.words := by
  induction log with
  | nil => rfl
  | cons e past ih =>
    have ih := ih fun p rc who past' ⟨l, hl⟩ => ha p rc who past' ⟨e :: l, by rw [hl]; rfl⟩
    have hw : wanted v .info = true ∧ wanted v .error = true ∧ wanted v .trace = false ∧
        wanted v .warn = true ∧ wanted v .debug = false := by
      simp [wanted, hv.1, hv.2]
    rw [lifeLog, fates, List.filterMap_append, List.map_append, ih]
    congr 1
    cases e with
    | spawned i p o r =>
      simp only [lifeMessages, fate]
      cases ps[i]? <;> simp [shown, tells, Msg.level, hw]
    | spawnFailed i =>
      simp only [lifeMessages, fate]
      cases ps[i]? <;> simp [shown, tells, Msg.level, hw]
    | waited p rc who =>
      have := ha p rc who past ⟨[], rfl⟩
      subst this
      simp only [fate]
      cases ho : owner ps past p with
      | none => simp [lifeMessages, shown, tells, Msg.level, hw]
      | some i =>
        simp only [lifeMessages]
        cases hc : ps[i]? with
        | none => simp
        | some c =>
          by_cases hr : rc = 0
          · subst hr
            have hcron : isCronjob ps i ↔ ∃ t, c.ptype = .cronJob t := by simp [isCronjob, hc]
            cases ht : c.ptype <;>
              simp [endMessages, ht, shown, tells, Msg.level, hw, hcron]
          · simp [endMessages, hr, shown, tells, Msg.level, hw]
    | refused i st =>
      simp only [lifeMessages, fate]
      cases ps[i]? <;> simp [shown, tells]
    | postponed i =>
      simp only [lifeMessages, fate]
      cases ps[i]? <;> simp [shown, tells]
    | _ => rfl

/-- C84: without `-v`, or with more than two of them, the log tells exactly what became of programs:
in order, each start, each end with its exit code, and each process reaped for others. -/
theorem told_words {x : Machine} {config : Config} {m : Manager} {es : List (Time × Entry)}
    (h : x.manager config = .ok m) (ha : Narrates config.programs (x.loop m).log es)
    (hf : ∀ c ∈ config.programs, FineName c.name ∧ Sober c.name) {v : Nat} (hv : v ≠ 1 ∧ v ≠ 2) :
    retold (console v .stdout es) = (fates config.programs (x.loop m).log).map Fate.words := by
  classical
  have hfine := entries_fine h ha.toAccords (fun c hc => (hf c hc).1) (s := .stdout) (.inr hv)
  rw [← shown_life hv fun p rc who past he => C57_attribution_partial h he, ← ha.life,
    List.filterMap_filterMap, retold, messagesUnder_console v .stdout (accords_placed ha.toAccords) hfine,
    List.filter_filterMap]
  refine filterMap_eq ?_
  rintro ⟨t, e⟩ he
  cases e with
  | program out name text =>
    obtain ⟨hn, -⟩ := entry_program h ha.toAccords he
    obtain ⟨c, hc, rfl⟩ := List.mem_map.mp hn
    have : (view (.program out c.name text)).name ≠ "cinit".toList := (hf c hc).1.2.2
    rw [if_neg fun hx => this hx.2]
    rfl
  | own target msg =>
    obtain ⟨-, hp⟩ := ha.own _ _ _ he
    have hname : (view (.own target msg)).name = "cinit".toList := rfl
    have hmsg : (view (.own target msg)).message = msg.text := rfl
    by_cases hs : wanted v msg.level = true
    · have hd : msg.level ≠ .debug := fun hd => by simp [hd, wanted, hv.1, hv.2] at hs
      have ht : msg.level ≠ .trace := fun hd => by simp [hd, wanted, hv.2] at hs
      have hs' : shownOn v .stdout (.own target msg) = true := by simp [shownOn, hs]
      by_cases hw : ∃ f : Fate, msg.text = f.words
      · obtain ⟨f, hw⟩ := hw
        have hn : ∀ n ∈ config.programs.map (·.name), Sober n := by
          rintro n hn
          obtain ⟨c, hc, rfl⟩ := List.mem_map.mp hn
          exact (hf c hc).2
        have htell := words_tells hn hp hd ht hw
        have hex : ∃ g : Fate, f.words = g.words := ⟨f, rfl⟩
        simp [lifeOf, hname, hmsg, hs', tells_life htell, shown, hs, htell, hw, hex]
      · have htell : tells msg = none := by
          cases hx : tells msg with
          | none => rfl
          | some f => exact absurd ⟨f, tells_words hx⟩ hw
        have hx : shown v msg = none := by simp [shown, htell]
        have hy : (if msg.isLife = true then some msg else none).bind (shown v) = none := by
          split <;> simp [hx]
        refine Eq.trans ?_ hy.symm
        rw [if_pos ⟨hs', hname⟩, hmsg]
        simpa [Option.filter] using hw
    · have hs' : ¬ shownOn v .stdout (.own target msg) = true := by simp [shownOn, hs]
      have hx : shown v msg = none := by simp [shown, hs]
      have hy : (if msg.isLife = true then some msg else none).bind (shown v) = none := by
        split <;> simp [hx]
      refine Eq.trans ?_ hy.symm
      rw [if_neg fun hx => hs' hx.1]
      rfl

/-! ## There are such logs -/

private theorem life_possible {ps : List ProcessConfig} {log : Log} {texts : List Str} {msg : Msg}
    (h : msg ∈ lifeLog ps log) : Possible (ps.map (·.name)) texts msg ∧ msg.isLife = true := by
  induction log with
  | nil => cases h
  | cons e past ih =>
    rw [lifeLog, List.mem_append] at h
    rcases h with h | h
    · exact ih h
    · have hn : ∀ (i : Nat) (c : ProcessConfig), ps[i]? = some c → c.name ∈ ps.map (·.name) := fun i c hc =>
        List.mem_map.mpr ⟨c, List.mem_of_getElem? hc, rfl⟩
      cases e with
      | spawned i p o r =>
        simp only [lifeMessages] at h
        cases hc : ps[i]? with
        | none => simp [hc] at h
        | some c => simp [hc] at h; subst h; exact ⟨hn i c hc, rfl⟩
      | spawnFailed i =>
        simp only [lifeMessages] at h
        cases hc : ps[i]? with
        | none => simp [hc] at h
        | some c => simp [hc] at h; subst h; exact ⟨hn i c hc, rfl⟩
      | refused i s =>
        simp only [lifeMessages] at h
        cases hc : ps[i]? with
        | none => simp [hc] at h
        | some c => simp [hc] at h; rcases h with rfl | rfl <;> exact ⟨hn i c hc, rfl⟩
      | postponed i =>
        simp only [lifeMessages] at h
        cases hc : ps[i]? with
        | none => simp [hc] at h
        | some c => simp [hc] at h; rcases h with rfl | rfl <;> exact ⟨hn i c hc, rfl⟩
      | waited p rc who =>
        cases who with
        | none =>
          simp [lifeMessages] at h
          rcases h with rfl | rfl <;> exact ⟨trivial, rfl⟩
        | some i =>
          simp only [lifeMessages] at h
          cases hc : ps[i]? with
          | none => simp [hc] at h
          | some c =>
            simp [hc, endMessages] at h
            split at h
            · split at h <;> simp at h <;> rcases h with rfl | rfl <;> exact ⟨hn i c hc, rfl⟩
            · simp at h
              rcases h with rfl | rfl <;> exact ⟨hn i c hc, rfl⟩
      | _ => cases h

private theorem published_possible {ps : List ProcessConfig} {log : Log} {n s : Str}
    (h : (n, s) ∈ published ps log) :
    Possible (ps.map (·.name)) (textsReceived log) (.status n s) := by
  induction log with
  | nil => cases h
  | cons e past ih =>
    have mono : ∀ e, Possible (ps.map (·.name)) (textsReceived past) (.status n s) →
        Possible (ps.map (·.name)) (textsReceived (e :: past)) (.status n s) := by
      rintro e ⟨h1, t, h2, h3⟩
      refine ⟨h1, t, ?_, h3⟩
      cases e <;> first | exact h2 | exact List.mem_cons_of_mem _ h2
    cases e with
    | datagram q text =>
      rw [published, List.mem_append] at h
      rcases h with h | h
      · exact mono _ (ih h)
      · cases ho : owner ps past q with
        | none => simp [ho] at h
        | some i =>
          simp only [ho] at h
          split at h
          · cases hc : ps[i]? with
            | none => simp [hc] at h
            | some c =>
              simp only [hc, Option.bind_some, Option.mem_toList, Option.mem_def,
                Option.map_eq_some_iff, Prod.mk.injEq] at h
              obtain ⟨s', h1, rfl, rfl⟩ := h
              refine ⟨List.mem_map.mpr ⟨c, List.mem_of_getElem? hc, rfl⟩, text,
                List.mem_cons_self .., AMap.mem_of_get? ?_⟩
              exact (parseNotification_get (by decide)).trans h1
          · cases h
    | _ => exact mono _ (ih h)

/-! ## Status texts -/

/-- Status texts are shown with `-vv`. -/
theorem status_logged {ps : List ProcessConfig} {log : Log} {es : List (Time × Entry)}
    (ha : Narrates ps log es) {n s : Str} (h : (n, s) ∈ published ps log) :
    " [cinit] child ".toList ++ n ++ ": ".toList ++ s ++ ['\n'] <:+: console 2 .stdout es := by
  rw [← ha.status, List.mem_filterMap] at h
  obtain ⟨⟨t, e⟩, he, hs⟩ := h
  cases e with
  | program => cases hs
  | own target msg =>
    cases msg with
    | status n' s' =>
      cases hs
      rw [Logging.console_eq 2 .stdout (accords_placed ha.toAccords), List.flatMap_def]
      have hm := List.mem_map_of_mem (f := fun e => Logging.lineOf e.1 e.2 ++ ['\n'])
        (List.mem_filter (p := fun e => shownOn 2 .stdout e.2).mpr
          ⟨he, (rfl : shownOn 2 .stdout (.own target (.status n s)) = true)⟩)
      obtain ⟨l1, l2, hl⟩ := List.append_of_mem hm
      rw [hl]
      refine ⟨l1.flatten ++ t.show ++ " TRACE".toList, l2.flatten, ?_⟩
      have hv : view (.own target (.status n s)) =
          ⟨"TRACE".toList, "cinit".toList, "child ".toList ++ n ++ ": ".toList ++ s⟩ := rfl
      simp [Logging.lineOf, hv]
    | _ => cases hs

end Cinit.Props
