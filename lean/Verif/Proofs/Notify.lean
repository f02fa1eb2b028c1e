import Verif.Model.Manager
import Verif.Spec.Supervision
/-!
# Lemmas on notification messages
-/

set_option linter.unusedSimpArgs false

namespace Cinit

open Spec

theorem splitFirst_some {c : Char} {s key v : Str} :
    splitFirst c s = (key, some v) ↔ c ∉ key ∧ s = key ++ c :: v := by
  induction s generalizing key with
  | nil => simp [splitFirst]
  | cons x xs ih =>
    unfold splitFirst
    split
    · rename_i h
      subst h
      constructor
      · intro h; cases h; simp
      · rintro ⟨h1, h2⟩
        cases key with
        | nil => simp at h2; simp [h2]
        | cons k ks => simp at h1 h2; exact absurd h2.1 h1.1
    · rename_i h
      constructor
      · intro h'
        simp only [Prod.mk.injEq] at h'
        obtain ⟨h1, h2⟩ := h'
        cases key with
        | nil => cases h1
        | cons k ks =>
          simp only [List.cons.injEq] at h1
          obtain ⟨rfl, h3⟩ := h1
          have := ih.mp (Prod.ext h3 h2)
          refine ⟨?_, by rw [this.2]; rfl⟩
          simp only [List.mem_cons, not_or]
          exact ⟨fun e => h e.symm, this.1⟩
      · rintro ⟨h1, h2⟩
        cases key with
        | nil => simp at h2; exact absurd h2.1 h
        | cons k ks =>
          simp only [List.cons_append, List.cons.injEq] at h2
          obtain ⟨rfl, h3⟩ := h2
          simp only [List.mem_cons, not_or] at h1
          have := ih.mpr ⟨h1.2, h3⟩
          simp [this]

theorem valueIn_some {key line v : Str} : valueIn key line = some v ↔ line = key ++ '=' :: v := by
  unfold valueIn
  split
  · rename_i h
    rw [List.isPrefixOf_iff_prefix] at h
    obtain ⟨t, rfl⟩ := h
    have : ((key ++ ['=']) ++ t).drop (key.length + 1) = t := by
      rw [List.drop_append_of_le_length (by simp), List.drop_of_length_le (by simp)]; rfl
    rw [this]
    constructor
    · rintro ⟨⟩; simp
    · intro h; simpa using h
  · rename_i h
    constructor
    · intro h; cases h
    · rintro rfl
      exact absurd (List.isPrefixOf_iff_prefix.mpr ⟨v, by simp⟩) h

theorem allowedKeys_noEq {key : Str} (h : key ∈ allowedKeys) : '=' ∉ key := by
  simp only [allowedKeys, List.mem_cons, List.not_mem_nil, or_false] at h
  rcases h with rfl | rfl | rfl | rfl <;> decide

theorem parseLine_get {m : AMap Str Str} {line key : Str} (hk : key ∈ allowedKeys) :
    (parseLine m line).get? key = (valueIn key line).or (m.get? key) := by
  unfold parseLine
  cases hs : splitFirst '=' line with
  | mk k ov =>
    cases ov with
    | none =>
      have : valueIn key line = none := by
        cases hv : valueIn key line with
        | none => rfl
        | some v =>
          have := splitFirst_some.mpr ⟨allowedKeys_noEq hk, valueIn_some.mp hv⟩
          rw [hs] at this; cases this
      simp [this]
    | some v =>
      obtain ⟨h1, h2⟩ := splitFirst_some.mp hs
      simp only
      by_cases e : k = key
      · subst e
        rw [if_pos (List.contains_iff_mem.mpr hk), valueIn_some.mpr h2]
        simp
      · have : valueIn key line = none := by
          cases hv : valueIn key line with
          | none => rfl
          | some v' =>
            have := splitFirst_some.mpr ⟨allowedKeys_noEq hk, valueIn_some.mp hv⟩
            rw [hs] at this; cases this; exact absurd rfl e
        rw [this]
        split
        · rw [AMap.get?_insert_ne _ _ e]; rfl
        · rfl

theorem parseLine_wf {m : AMap Str Str} (line : Str) (h : AMap.WF m)
    (hk : ∀ k ∈ AMap.keys m, k ∈ allowedKeys) :
    AMap.WF (parseLine m line) ∧ ∀ k ∈ AMap.keys (parseLine m line), k ∈ allowedKeys := by
  unfold parseLine
  split
  · exact ⟨h, hk⟩
  · split
    · rename_i hc
      refine ⟨h.insert _ _, fun k hk' => ?_⟩
      rcases (AMap.mem_keys_insert _ _ _ _).mp hk' with rfl | h'
      · exact List.contains_iff_mem.mp hc
      · exact hk k h'
    · exact ⟨h, hk⟩

theorem parseNotification_wf (text : Str) :
    AMap.WF (parseNotification text) ∧
      ∀ k ∈ AMap.keys (parseNotification text), k ∈ allowedKeys := by
  unfold parseNotification
  have : ∀ (ls : List Str) (m : AMap Str Str), AMap.WF m → (∀ k ∈ AMap.keys m, k ∈ allowedKeys) →
      AMap.WF (ls.foldl parseLine m) ∧ ∀ k ∈ AMap.keys (ls.foldl parseLine m), k ∈ allowedKeys := by
    intro ls
    induction ls with
    | nil => exact fun m h1 h2 => ⟨h1, h2⟩
    | cons l ls ih =>
      intro m h1 h2
      obtain ⟨h3, h4⟩ := parseLine_wf l h1 h2
      exact ih _ h3 h4
  exact this _ [] AMap.WF.nil (by simp [AMap.keys])

/-- The parsed message holds the last assignment of each known variable. -/
theorem parseNotification_get {text key : Str} (hk : key ∈ allowedKeys) :
    (parseNotification text).get? key = assigned text key := by
  unfold parseNotification assigned
  have : ∀ (ls : List Str) (m : AMap Str Str),
      (ls.foldl parseLine m).get? key = ((ls.filterMap (valueIn key)).getLast?).or (m.get? key) := by
    intro ls
    induction ls with
    | nil => simp
    | cons l ls ih =>
      intro m
      rw [List.foldl_cons, ih, parseLine_get hk]
      cases hv : valueIn key l with
      | none => rw [List.filterMap_cons_none hv]; simp
      | some v =>
        rw [List.filterMap_cons_some hv, List.getLast?_cons]
        cases (List.filterMap (valueIn key) ls).getLast? <;> simp
  rw [this]; simp

theorem AMap.get?_perm {κ ν : Type} [DecidableEq κ] {m m' : AMap κ ν} (h : AMap.WF m)
    (hp : List.Perm m' m) (k : κ) : AMap.WF m' ∧ AMap.get? m' k = AMap.get? m k := by
  have hw : AMap.WF m' := by
    unfold AMap.WF AMap.keys
    exact (hp.map _).nodup_iff.mpr h
  refine ⟨hw, ?_⟩
  cases hg : AMap.get? m k with
  | none =>
    rw [AMap.get?_eq_none_iff] at hg ⊢
    intro hm; exact hg ((hp.map _).mem_iff.mp hm)
  | some v =>
    rw [← AMap.mem_iff_get? hw, hp.mem_iff, AMap.mem_iff_get? h]; exact hg

/-- The effect of a set of variables on a process, in closed form. -/
def applyVars (V : AMap Str Str) (p : Process) : Process :=
  { p with
    state := if V.get? Process.keyStopping = some ['1'] then .stopping
      else if V.get? Process.keyReady = some ['1'] ∧ p.state = .starting then .running
      else p.state
    status := (V.get? Process.keyStatus).getD p.status
    pid := ((V.get? Process.keyMainpid).bind parseI32).getD p.pid }

theorem handleNotification_foldl (V : AMap Str Str) (hw : AMap.WF V)
    (hk : ∀ k ∈ AMap.keys V, k ∈ allowedKeys) (p : Process) :
    V.foldl (fun q kv => q.handleNotification kv.1 kv.2) p = applyVars V p := by
  induction V generalizing p with
  | nil => simp [applyVars]
  | cons kv V ih =>
    obtain ⟨k, v⟩ := kv
    have hw' := hw
    unfold AMap.WF at hw'
    simp only [AMap.keys, List.map_cons, List.nodup_cons] at hw'
    obtain ⟨hnk, hwV⟩ := hw'
    have hnone : AMap.get? V k = none := (AMap.get?_eq_none_iff V k).mpr hnk
    rw [List.foldl_cons, ih hwV (fun k' h' => hk k' (by simp only [AMap.keys, List.map_cons, List.mem_cons]; exact .inr h'))]
    have hka := hk k (by simp [AMap.keys])
    simp only [allowedKeys, List.mem_cons, List.not_mem_nil, or_false] at hka
    have d1 : Process.keyReady ≠ Process.keyStopping := by decide
    have d2 : Process.keyReady ≠ Process.keyStatus := by decide
    have d3 : Process.keyReady ≠ Process.keyMainpid := by decide
    have d4 : Process.keyStopping ≠ Process.keyStatus := by decide
    have d5 : Process.keyStopping ≠ Process.keyMainpid := by decide
    have d6 : Process.keyStatus ≠ Process.keyMainpid := by decide
    rcases hka with rfl | rfl | rfl | rfl
    · simp only [applyVars, Process.handleNotification, AMap.get?_cons, if_pos, d1, d2, d3, hnone,
        if_neg, not_false_eq_true]
      by_cases e : v = ['1']
      · subst e
        by_cases e2 : p.state = .starting <;> simp [e2]
      · simp [e]
    · simp only [applyVars, Process.handleNotification, AMap.get?_cons, if_pos, d1, d1.symm, d4, d5, hnone,
        if_neg, not_false_eq_true]
      by_cases e : v = ['1']
      · subst e; simp
      · simp [e]
    · simp only [applyVars, Process.handleNotification, AMap.get?_cons, if_pos, d2, d2.symm, d4,
        d4.symm, d6, hnone, if_neg, not_false_eq_true]
      simp
    · simp only [applyVars, Process.handleNotification, AMap.get?_cons, if_pos, d3, d3.symm, d5,
        d5.symm, d6, d6.symm, hnone, if_neg, not_false_eq_true]
      cases hp : parseI32 v <;> simp [hp]

/-- The effect of a set of variables on the tables, in closed form. -/
def applyVarsMgr (V : AMap Str Str) (i : Nat) (pid : Int) (m : Manager) : Res Empty Manager :=
  (if V.get? Process.keyReady = some ['1'] then m.deps.notifyProcessFinished i else .ok m.deps)
    >>= fun d =>
  .ok { m with
    deps := d
    pidDict := match (V.get? Process.keyMainpid).bind parseI32 with
      | some r => (m.pidDict.erase pid).insert r i
      | none => m.pidDict }

theorem handleNotification_foldlM (V : AMap Str Str) (hw : AMap.WF V)
    (hk : ∀ k ∈ AMap.keys V, k ∈ allowedKeys) (i : Nat) (pid : Int) (m : Manager) :
    Res.foldlM (fun m kv => Manager.handleNotification m i pid kv.1 kv.2) m V =
      applyVarsMgr V i pid m := by
  induction V generalizing m with
  | nil => simp [applyVarsMgr]
  | cons kv V ih =>
    obtain ⟨k, v⟩ := kv
    have hw' := hw
    unfold AMap.WF at hw'
    simp only [AMap.keys, List.map_cons, List.nodup_cons] at hw'
    obtain ⟨hnk, hwV⟩ := hw'
    have hnone : AMap.get? V k = none := (AMap.get?_eq_none_iff V k).mpr hnk
    have hk' : ∀ k' ∈ AMap.keys V, k' ∈ allowedKeys := fun k' h' => hk k' (by
      simp only [AMap.keys, List.map_cons, List.mem_cons]; exact .inr h')
    rw [Res.foldlM_cons]
    have hka := hk k (by simp [AMap.keys])
    simp only [allowedKeys, List.mem_cons, List.not_mem_nil, or_false] at hka
    have d1 : Process.keyReady ≠ Process.keyStopping := by decide
    have d2 : Process.keyReady ≠ Process.keyStatus := by decide
    have d3 : Process.keyReady ≠ Process.keyMainpid := by decide
    have d4 : Process.keyStopping ≠ Process.keyStatus := by decide
    have d5 : Process.keyStopping ≠ Process.keyMainpid := by decide
    have d6 : Process.keyStatus ≠ Process.keyMainpid := by decide
    rcases hka with rfl | rfl | rfl | rfl
    · have hs : Manager.handleNotification m i pid Process.keyReady v =
          (if v = ['1'] then m.deps.notifyProcessFinished i else .ok m.deps) >>= fun d =>
            .ok { m with deps := d } := by
        unfold Manager.handleNotification
        by_cases e : v = ['1'] <;> simp [e]
      show (Manager.handleNotification m i pid _ v >>= _) = _
      rw [hs]
      by_cases e : v = ['1']
      · subst e
        rw [if_pos rfl]
        cases hn : m.deps.notifyProcessFinished i with
        | err e => exact nomatch e
        | panic q => simp [applyVarsMgr, hn]
        | ok d =>
          simp only [Res.bind_ok]
          rw [ih hwV hk']
          simp [applyVarsMgr, hn, hnone, d3]
      · rw [if_neg e, Res.bind_ok, Res.bind_ok, ih hwV hk']
        simp [applyVarsMgr, hnone, d3, e]
    · have hs : Manager.handleNotification m i pid Process.keyStopping v = .ok m := by
        unfold Manager.handleNotification
        rw [if_neg d1.symm, if_neg d5]
      show (Manager.handleNotification m i pid _ v >>= _) = _
      rw [hs, Res.bind_ok, ih hwV hk']
      simp [applyVarsMgr, d1.symm, d5]
    · have hs : Manager.handleNotification m i pid Process.keyStatus v = .ok m := by
        unfold Manager.handleNotification
        rw [if_neg d2.symm, if_neg d6]
      show (Manager.handleNotification m i pid _ v >>= _) = _
      rw [hs, Res.bind_ok, ih hwV hk']
      simp [applyVarsMgr, d2.symm, d6]
    · have hs : Manager.handleNotification m i pid Process.keyMainpid v =
          match parseI32 v with
          | none => .ok m
          | some r => .ok (Manager.registerPid i r (Manager.deregisterPid pid m)) := by
        unfold Manager.handleNotification
        rw [if_neg d3.symm, if_pos rfl]
        cases parseI32 v <;> rfl
      show (Manager.handleNotification m i pid _ v >>= _) = _
      rw [hs]
      cases hp : parseI32 v with
      | none =>
        simp only [Res.bind_ok]
        rw [ih hwV hk']
        simp [applyVarsMgr, hnone, d3.symm, hp]
      | some r =>
        simp only [Res.bind_ok]
        rw [ih hwV hk']
        simp only [applyVarsMgr, hnone, d3.symm, hp, Manager.registerPid, Manager.deregisterPid,
          AMap.get?_cons, if_neg, if_pos, not_false_eq_true, Option.bind_some, Option.bind_none]

/-- The effect of a message on the process, in terms of its assignments. -/
def applyText (text : Str) (p : Process) : Process :=
  { p with
    state := if saysStopping text then .stopping
      else if saysReady text ∧ p.state = .starting then .running
      else p.state
    status := (assigned text "STATUS".toList).getD p.status
    pid := (newMainPid text).getD p.pid }

/-- `process` on a message accepted from program `i`, for every hash order. -/
theorem process_accepted (ord : HashOrder) {m : Manager} {text : Str} {peer : Int} {i : Nat}
    {p : Process} (h1 : m.processIdForPid peer = some i) (h2 : m.procs[i]? = some p)
    (h3 : p.ptype = .notify) :
    m.process ord text peer =
      ((if saysReady text then m.deps.notifyProcessFinished i else .ok m.deps) >>= fun d =>
      .ok { m with
        procs := m.procs.set i (applyText text p)
        deps := d
        pidDict := match newMainPid text with
          | some r => (m.pidDict.erase p.pid).insert r i
          | none => m.pidDict }) := by
  obtain ⟨hw, hk⟩ := parseNotification_wf text
  have hp := ord.perm (parseNotification text)
  have hw' : AMap.WF (ord.apply (parseNotification text)) := by
    unfold AMap.WF AMap.keys
    exact (hp.map _).nodup_iff.mpr hw
  have hk' : ∀ k ∈ AMap.keys (ord.apply (parseNotification text)), k ∈ allowedKeys :=
    fun k h => hk k ((hp.map _).mem_iff.mp h)
  have hg : ∀ k ∈ allowedKeys,
      AMap.get? (ord.apply (parseNotification text)) k = assigned text k := fun k hka => by
    rw [(AMap.get?_perm hw hp k).2, parseNotification_get hka]
  have e1 : Process.keyReady = "READY".toList := rfl
  have e2 : Process.keyStopping = "STOPPING".toList := rfl
  have e3 : Process.keyStatus = "STATUS".toList := rfl
  have e4 : Process.keyMainpid = "MAINPID".toList := rfl
  have g1 := hg Process.keyReady (by simp [allowedKeys])
  have g2 := hg Process.keyStopping (by simp [allowedKeys])
  have g3 := hg Process.keyStatus (by simp [allowedKeys])
  have g4 := hg Process.keyMainpid (by simp [allowedKeys])
  unfold Manager.process
  rw [h1]
  simp only
  rw [h2]
  simp only
  rw [if_neg (by simp [h3])]
  rw [handleNotification_foldl _ hw' hk', handleNotification_foldlM _ hw' hk']
  simp only [applyVarsMgr, applyVars, g1, g2, g3, g4, Manager.setProc]
  rfl

/-- `process` on any other message. -/
theorem process_rejected (ord : HashOrder) {m : Manager} {text : Str} {peer : Int}
    (h : ∀ i, m.processIdForPid peer = some i → ∃ p, m.procs[i]? = some p ∧ p.ptype ≠ .notify) :
    m.process ord text peer = .ok m := by
  unfold Manager.process
  cases h1 : m.processIdForPid peer with
  | none => rfl
  | some i =>
    obtain ⟨p, h2, h3⟩ := h i h1
    simp only
    rw [h2]
    simp only
    rw [if_pos h3]

end Cinit
