import Mathlib.Data.List.Nodup
import Verif.Model.CronSched
import Verif.Proofs.CronNext
/-!
# Lemmas on the cron scheduler
-/

namespace Cinit

namespace Cron

/-- Strictly ascending keys. -/
abbrev Sorted (m : List (Int × Nat)) : Prop := m.Pairwise (fun a b => a.1 < b.1)

theorem hasKey_iff {m : List (Int × Nat)} {t : Int} :
    hasKey m t = true ↔ t ∈ m.map (·.1) := by
  simp [hasKey]

theorem freeSlot_spec (m : List (Int × Nat)) (fuel : Nat) (t t' : Int)
    (h : freeSlot m fuel t = .ok t') :
    t ≤ t' ∧ (∀ x, t ≤ x → x < t' → hasKey m x = true) ∧
      (hasKey m t' = false ∨ t' = t + fuel) := by
  induction fuel generalizing t with
  | zero => cases h; exact ⟨Int.le_refl _, fun x h1 h2 => by omega, .inr (by simp)⟩
  | succ fuel ih =>
    unfold freeSlot at h
    cases hk : hasKey m t with
    | false =>
      rw [hk] at h
      cases h
      exact ⟨Int.le_refl _, fun x h1 h2 => by omega, .inl hk⟩
    | true =>
      rw [hk, if_pos rfl] at h
      split at h
      · cases h
      · obtain ⟨h1, h2, h3⟩ := ih _ h
        refine ⟨by omega, fun x hx hx' => ?_, ?_⟩
        · by_cases he : x = t
          · rw [he]; exact hk
          · exact h2 x (by omega) hx'
        · rcases h3 with h3 | h3
          · exact .inl h3
          · right; omega

/-- The slot found is free, and it is the first free one. -/
theorem freeSlot_free {m : List (Int × Nat)} {t t' : Int}
    (h : freeSlot m (m.length + 1) t = .ok t') :
    t ≤ t' ∧ t' ≤ t + m.length ∧ hasKey m t' = false ∧
      ∀ x, t ≤ x → x < t' → hasKey m x = true := by
  obtain ⟨h1, h2, h3⟩ := freeSlot_spec m _ t t' h
  have pigeon : t' ≤ t + m.length := by
    apply Int.not_lt.mp
    intro hlt
    have hsub : (List.range (m.length + 1)).map (fun k : Nat => t + (k : Int)) ⊆ m.map (·.1) := by
      intro x hx
      obtain ⟨k, hk, rfl⟩ := List.mem_map.mp hx
      have := List.mem_range.mp hk
      exact hasKey_iff.mp (h2 _ (by omega) (by omega))
    have hnd : ((List.range (m.length + 1)).map (fun k : Nat => t + (k : Int))).Nodup := by
      apply List.Nodup.map _ List.nodup_range
      intro a b hab
      simp only at hab
      omega
    have := (List.subperm_of_subset hnd hsub).length_le
    simp at this
    omega
  refine ⟨h1, pigeon, ?_, h2⟩
  rcases h3 with h3 | h3
  · exact h3
  · push_cast at h3; omega

theorem freeSlot_panic {m : List (Int × Nat)} {fuel : Nat} {t : Int} {q : Panic}
    (h : freeSlot m fuel t = .panic q) : q = .dateOverflow ∧ chronoMax < t + fuel := by
  induction fuel generalizing t with
  | zero => cases h
  | succ fuel ih =>
    unfold freeSlot at h
    split at h
    · split at h
      · cases h; exact ⟨rfl, by omega⟩
      · obtain ⟨h1, h2⟩ := ih h
        exact ⟨h1, by omega⟩
    · cases h

theorem put_perm {m : List (Int × Nat)} {t : Int} {id : Nat} (h : hasKey m t = false) :
    (put t id m).Perm ((t, id) :: m) := by
  induction m with
  | nil => exact .refl _
  | cons e m ih =>
    obtain ⟨t', id'⟩ := e
    simp only [hasKey, List.any_cons, Bool.or_eq_false_iff, beq_eq_false_iff_ne] at h
    simp only [put]
    split
    · exact .refl _
    · split
      · rename_i heq; exact absurd heq.symm h.1
      · exact ((ih (by simpa [hasKey] using h.2)).cons _).trans (.swap _ _ _)

theorem put_sorted {m : List (Int × Nat)} {t : Int} {id : Nat} (hs : Sorted m)
    (h : hasKey m t = false) : Sorted (put t id m) := by
  induction m with
  | nil => simp [put, Sorted]
  | cons e m ih =>
    obtain ⟨t', id'⟩ := e
    obtain ⟨h1, h2⟩ := List.pairwise_cons.mp hs
    have h' := h
    simp only [hasKey, List.any_cons, Bool.or_eq_false_iff, beq_eq_false_iff_ne] at h
    simp only [put]
    split
    · rename_i hlt
      refine List.pairwise_cons.mpr ⟨fun e he => ?_, hs⟩
      rcases List.mem_cons.mp he with rfl | he
      · exact hlt
      · exact Int.lt_trans hlt (h1 e he)
    · split
      · rename_i heq; exact absurd heq.symm h.1
      · refine List.pairwise_cons.mpr ⟨fun e he => ?_, ih h2 (by simpa [hasKey] using h.2)⟩
        have := (put_perm (id := id) (by simpa [hasKey] using h.2)).mem_iff.mp he
        rcases List.mem_cons.mp this with rfl | he
        · simp only; omega
        · exact h1 e he

/-- What `insertJob` does. -/
theorem insertJob_spec {c c' : Cron} {t : Int} {id : Nat} (hs : Sorted c.timer)
    (h : c.insertJob t id = .ok c') :
    c'.timers = c.timers ∧ Sorted c'.timer ∧ ∃ t', t ≤ t' ∧ t' ≤ t + c.timer.length ∧
      c'.timer.Perm ((t', id) :: c.timer) := by
  unfold insertJob at h
  obtain ⟨t', h1, h2⟩ := Res.bind_eq_ok.mp h
  cases h2
  obtain ⟨g1, g2, g3, -⟩ := freeSlot_free h1
  exact ⟨rfl, put_sorted hs g3, t', g1, g2, put_perm g3⟩

/-- The scheduler's invariant: the ids planned are exactly `ids`, and `T` holds of their
timers. -/
structure Inv (T : Nat → Timer → Prop) (ids : List Nat) (c : Cron) : Prop where
  sorted : Sorted c.timer
  nodup : ids.Nodup
  perm : (c.timer.map (·.2)).Perm ids
  timers : ∀ id ∈ ids, ∃ td, c.timers.get? id = some td ∧ td.WF ∧ T id td

theorem lift_eq_ok {ε α : Type} {x : Res Empty α} {a : α} :
    (lift x : Res ε α) = .ok a ↔ x = .ok a := by
  cases x with
  | ok b => simp [lift]
  | err e => exact nomatch e
  | panic p => simp [lift]

theorem withJobs_inv {z : Zone} {jobs : List (Nat × ProcessConfig)} {ids : List Nat}
    {c c' : Cron} {clock : List Int} {T : Nat → Timer → Prop} (hc : c.Inv T ids)
    (hn : (ids ++ jobs.map (·.1)).Nodup)
    (hT : ∀ id pc desc td, (id, pc) ∈ jobs → pc.ptype = .cronJob desc →
      Timer.parse desc = .ok td → T id td)
    (h : withJobs z c jobs clock = .ok c') : c'.Inv T (ids ++ jobs.map (·.1)) := by
  induction jobs generalizing ids c clock with
  | nil =>
    unfold withJobs at h
    cases h
    simpa using hc
  | cons job jobs ih =>
    obtain ⟨id, pc⟩ := job
    unfold withJobs at h
    split at h
    · rename_i desc hdesc
      obtain ⟨td, h1, h⟩ := Res.bind_eq_ok.mp h
      obtain ⟨t, h2, h⟩ := Res.bind_eq_ok.mp h
      obtain ⟨c1, h3, h⟩ := Res.bind_eq_ok.mp h
      have hp : Timer.parse desc = .ok td := by
        cases hq : Timer.parse desc <;> rw [hq] at h1 <;> simp [Res.mapErr] at h1
        rw [h1]
      have hwf := ((parse_total desc).1 td hp).1
      obtain ⟨e1, e2, t', -, -, e3⟩ := insertJob_spec hc.sorted (lift_eq_ok.mp h3)
      have hids : (ids ++ [id]) ++ jobs.map (·.1) = ids ++ (((id, pc) :: jobs).map (·.1)) := by
        simp
      rw [← hids] at hn ⊢
      refine ih ?_ hn (fun i p d t hi => hT i p d t (List.mem_cons_of_mem _ hi)) h
      refine ⟨e2, (List.nodup_append.mp hn).1, ?_, ?_⟩
      · refine (e3.map _).trans ?_
        simp only [List.map_cons]
        exact (hc.perm.cons _).trans (List.perm_append_singleton _ _).symm
      · intro i hi
        simp only [AMap.get?_insert]
        split
        · rename_i heq
          subst heq
          exact ⟨td, rfl, hwf, hT _ _ _ _ (List.mem_cons_self ..) hdesc hp⟩
        · rename_i hne
          rcases List.mem_append.mp hi with hi | hi
          · rw [e1]; exact hc.timers i hi
          · exact absurd (List.mem_singleton.mp hi).symm hne
    · cases h

/-- All that can be said about a poll. -/
theorem popRunnable_spec {z : Zone} {c : Cron} {now : Int} {ids : List Nat}
    {T : Nat → Timer → Prop} (hc : c.Inv T ids) :
    (∀ c', popRunnable z c now = .ok (none, c') → c' = c ∧ ∀ e ∈ c.timer, now < e.1) ∧
    (∀ id c', popRunnable z c now = .ok (some id, c') → c'.Inv T ids ∧ c'.timers = c.timers ∧
      ∃ t td v t' rest, c.timer = (t, id) :: rest ∧ t ≤ now ∧ c.timers.get? id = some td ∧
        T id td ∧ td.next z now = .ok v ∧ v ≤ t' ∧ t' ≤ v + rest.length ∧
        c'.timer.Perm ((t', id) :: rest)) ∧
    (∀ q, popRunnable z c now = .panic q → ∃ t id td rest, c.timer = (t, id) :: rest ∧ t ≤ now ∧
      c.timers.get? id = some td ∧ (td.next z now = .panic q ∨
        (q = .dateOverflow ∧ ∃ v, td.next z now = .ok v ∧ chronoMax < v + ids.length))) := by
  have hget : ∀ {t id rest}, c.timer = (t, id) :: rest → id ∈ ids := by
    intro t id rest he
    apply hc.perm.mem_iff.mp
    rw [he]; simp
  unfold popRunnable
  cases ht : c.timer with
  | nil =>
    refine ⟨?_, ?_, ?_⟩
    · intro c' h; cases h; exact ⟨rfl, by simp⟩
    · intro id c' h; cases h
    · intro q h; cases h
  | cons e rest =>
    obtain ⟨t, id⟩ := e
    have hsr : Sorted ((t, id) :: rest) := ht ▸ hc.sorted
    obtain ⟨hlow, hsrest⟩ := List.pairwise_cons.mp hsr
    by_cases hle : t ≤ now
    · obtain ⟨td, htd, -, hwf⟩ := hc.timers id (hget ht)
      simp only [if_pos hle, htd, Res.ofOption_some, Res.bind_ok]
      refine ⟨?_, ?_, ?_⟩
      · intro c' h
        obtain ⟨v, -, h⟩ := Res.bind_eq_ok.mp h
        obtain ⟨c1, -, h⟩ := Res.bind_eq_ok.mp h
        cases h
      · intro id' c' h
        obtain ⟨v, hv, h⟩ := Res.bind_eq_ok.mp h
        obtain ⟨c1, h3, h⟩ := Res.bind_eq_ok.mp h
        cases h
        obtain ⟨e1, e2, t', g1, g2, e3⟩ := insertJob_spec (c := { c with timer := rest }) hsrest h3
        refine ⟨⟨e2, hc.nodup, ?_, ?_⟩, e1, t, td, v, t', rest, rfl, hle, htd, hwf, hv, g1, g2, e3⟩
        · refine (e3.map _).trans ?_
          have := hc.perm
          rw [ht] at this
          simpa using this
        · rw [e1]; exact hc.timers
      · intro q h
        refine ⟨t, id, td, rest, rfl, hle, htd, ?_⟩
        cases hv : td.next z now with
        | err e => exact nomatch e
        | panic q' => rw [hv] at h; cases h; exact .inl rfl
        | ok v =>
          rw [hv] at h
          simp only [Res.bind_ok] at h
          right
          have hl : ids.length = rest.length + 1 := by
            have := hc.perm.length_eq
            rw [ht] at this
            simpa using this.symm
          cases hf : freeSlot rest (rest.length + 1) v with
          | err e => exact nomatch e
          | ok t' => simp only [insertJob, hf] at h; cases h
          | panic q' =>
            simp only [insertJob, hf] at h
            cases h
            obtain ⟨g1, g2⟩ := freeSlot_panic hf
            exact ⟨g1, v, rfl, by rw [hl]; exact g2⟩
    · simp only [if_neg hle]
      refine ⟨?_, ?_, ?_⟩
      · intro c' h; cases h
        refine ⟨rfl, fun e he => ?_⟩
        rcases List.mem_cons.mp he with rfl | he
        · simp only; omega
        · have := hlow e he; simp only at this; omega
      · intro id c' h; cases h
      · intro q h; cases h

/-- `get_next_execution` on a planned id. -/
theorem nextExecution_spec {c : Cron} {ids : List Nat} {T : Nat → Timer → Prop}
    (hc : c.Inv T ids) {id : Nat}
    (hid : id ∈ ids) : ∃ t, (t, id) ∈ c.timer ∧ c.nextExecution id = .ok t ∧
      ∀ t', (t', id) ∈ c.timer → t' = t := by
  have hmem : id ∈ c.timer.map (·.2) := hc.perm.mem_iff.mpr hid
  have huniq : ∀ {a b : Int}, (a, id) ∈ c.timer → (b, id) ∈ c.timer → a = b := by
    intro a b ha hb
    have hnd : (c.timer.map (·.2)).Nodup := hc.perm.nodup_iff.mpr hc.nodup
    have := List.inj_on_of_nodup_map hnd ha hb rfl
    exact congrArg (·.1) this
  obtain ⟨⟨t, id'⟩, he, rfl⟩ := List.mem_map.mp hmem
  refine ⟨t, he, ?_, fun t' ht' => huniq ht' he⟩
  unfold nextExecution
  cases hf : c.timer.find? (fun e => id' == e.2) with
  | none =>
    have := List.find?_eq_none.mp hf _ he
    simp at this
  | some e =>
    have h1 := List.mem_of_find?_eq_some hf
    have h2 := List.find?_some hf
    simp at h2
    have : e.1 = t := huniq (by rw [h2]; exact h1) (by simpa using he)
    simp [this]

end Cron

/-- The ids of the cronjobs are the positions of the cronjobs. -/
theorem mem_cronPrograms {pcs : List ProcessConfig} {i k : Nat} {pc : ProcessConfig} :
    (k, pc) ∈ cronPrograms i pcs ↔
      i ≤ k ∧ pcs[k - i]? = some pc ∧ pc.ptype.isCron = true := by
  induction pcs generalizing i with
  | nil => simp [cronPrograms]
  | cons p pcs ih =>
    unfold cronPrograms
    have hidx : ∀ k, i + 1 ≤ k → (p :: pcs)[k - i]? = pcs[k - (i + 1)]? := by
      intro k hk
      rw [show k - i = (k - (i + 1)) + 1 from by omega, List.getElem?_cons_succ]
    by_cases hk : k = i
    · subst hk
      split
      · rename_i hc
        simp only [List.mem_cons, Prod.mk.injEq, true_and, ih, Nat.sub_self,
          List.getElem?_cons_zero, Option.some.injEq, Nat.le_refl]
        constructor
        · rintro (rfl | ⟨h, -⟩)
          · exact ⟨rfl, hc⟩
          · omega
        · rintro ⟨rfl, -⟩; exact .inl rfl
      · rename_i hc
        simp only [ih, Nat.sub_self, List.getElem?_cons_zero, Option.some.injEq, Nat.le_refl,
          true_and]
        constructor
        · rintro ⟨h, -⟩; omega
        · rintro ⟨rfl, h⟩; exact absurd h hc
    · by_cases hle : i + 1 ≤ k
      · rw [hidx k hle]
        split
        · simp only [List.mem_cons, Prod.mk.injEq, ih, hk, false_and, false_or]
          constructor <;> rintro ⟨h1, h2⟩ <;> exact ⟨by omega, h2⟩
        · simp only [ih]
          constructor <;> rintro ⟨h1, h2⟩ <;> exact ⟨by omega, h2⟩
      · split
        · simp only [List.mem_cons, Prod.mk.injEq, ih, hk, false_and, false_or]
          constructor <;> rintro ⟨h1, h2⟩ <;> omega
        · simp only [ih]
          constructor <;> rintro ⟨h1, h2⟩ <;> omega

theorem cronPrograms_nodup (i : Nat) (pcs : List ProcessConfig) :
    ((cronPrograms i pcs).map (·.1)).Nodup := by
  induction pcs generalizing i with
  | nil => simp [cronPrograms]
  | cons p pcs ih =>
    unfold cronPrograms
    split
    · simp only [List.map_cons, List.nodup_cons]
      refine ⟨?_, ih _⟩
      intro h
      obtain ⟨⟨k, pc⟩, h1, h2⟩ := List.mem_map.mp h
      have := (mem_cronPrograms.mp h1).1
      simp only at h2
      omega
    · exact ih _

/-- The configured cronjobs' ids. -/
def cronIds (config : Config) : List Nat := (cronPrograms 0 config.programs).map (·.1)

theorem mem_cronIds {config : Config} {i : Nat} :
    i ∈ cronIds config ↔ ∃ pc, config.programs[i]? = some pc ∧ pc.ptype.isCron = true := by
  unfold cronIds
  constructor
  · intro h
    obtain ⟨⟨k, pc⟩, h1, rfl⟩ := List.mem_map.mp h
    exact ⟨pc, by simpa using (mem_cronPrograms.mp h1).2⟩
  · rintro ⟨pc, h1, h2⟩
    exact List.mem_map.mpr ⟨(i, pc), mem_cronPrograms.mpr ⟨Nat.zero_le _, by simpa using h1, h2⟩, rfl⟩

/-- The timer of a job is the one of its expression. -/
def CronTimer (config : Config) (id : Nat) (td : Timer) : Prop :=
  ∃ pc desc, config.programs[id]? = some pc ∧ pc.ptype = .cronJob desc ∧
    Timer.parse desc = .ok td

theorem buildCron_inv {z : Zone} {config : Config} {clock : List Int} {c : Cron}
    (h : buildCron z config clock = .ok c) : c.Inv (CronTimer config) (cronIds config) := by
  unfold buildCron at h
  cases hw : Cron.withJobs z {} (cronPrograms 0 config.programs) clock with
  | ok c' =>
    rw [hw] at h
    cases h
    have hi : Cron.Inv (CronTimer config) [] {} := ⟨.nil, .nil, .refl _, by simp⟩
    have := Cron.withJobs_inv hi (by simpa using cronPrograms_nodup 0 config.programs)
      (fun id pc desc td h1 h2 h3 =>
        ⟨pc, desc, by simpa using (mem_cronPrograms.mp h1).2.1, h2, h3⟩) hw
    simpa [cronIds] using this
  | panic p => rw [hw] at h; cases h
  | err e =>
    rw [hw] at h
    cases e
    simp only at h
    split at h <;> cases h

theorem Cron.withJobs_err {z : Zone} {jobs : List (Nat × ProcessConfig)} {c : Cron}
    {clock : List Int} {e : CronError} (h : Cron.withJobs z c jobs clock = .err e) :
    ∃ pc desc msg id, e = .timeParse msg id ∧ (id, pc) ∈ jobs ∧ pc.ptype = .cronJob desc ∧
      Timer.parse desc = .err msg := by
  induction jobs generalizing c clock with
  | nil => unfold withJobs at h; cases h
  | cons job jobs ih =>
    obtain ⟨id, pc⟩ := job
    unfold withJobs at h
    split at h
    · rename_i desc hd
      cases hp : Timer.parse desc with
      | err msg =>
        rw [hp] at h
        cases h
        exact ⟨pc, desc, msg, id, rfl, List.mem_cons_self .., hd, hp⟩
      | panic p => rw [hp] at h; cases h
      | ok td =>
        rw [hp] at h
        simp only [Res.mapErr, Res.bind_ok] at h
        cases hn : td.next z (clock.headD 0) with
        | err e => exact nomatch e
        | panic p => rw [hn] at h; cases h
        | ok t =>
          rw [hn] at h
          simp only [Cron.lift, Res.bind_ok] at h
          cases hi : c.insertJob t id with
          | err e => exact nomatch e
          | panic p => rw [hi] at h; cases h
          | ok c' =>
            rw [hi] at h
            simp only [Cron.lift, Res.bind_ok] at h
            obtain ⟨pc', desc', msg, id', h1, h2, h3, h4⟩ := ih h
            exact ⟨pc', desc', msg, id', h1, List.mem_cons_of_mem _ h2, h3, h4⟩
    · cases h

/-- The errors of `build_cron`. -/
theorem buildCron_err {z : Zone} {config : Config} {clock : List Int} {e : Int}
    (h : buildCron z config clock = .err e) :
    e = 2 ∧ ∃ (id : Nat) (pc : ProcessConfig) (desc : Str) (msg : CronParseErr),
      config.programs[id]? = some pc ∧ pc.ptype = .cronJob desc ∧ Timer.parse desc = .err msg := by
  unfold buildCron at h
  split at h
  · cases h
  · cases h
  · rename_i msg id hw
    obtain ⟨pc, desc, msg', id', h1, h2, h3, h4⟩ := Cron.withJobs_err hw
    cases h1
    have hm := (mem_cronPrograms.mp h2).2.1
    simp only [Nat.sub_zero] at hm
    rw [hm] at h
    cases h
    exact ⟨rfl, id, pc, desc, msg, hm, h3, h4⟩

end Cinit
