import Verif.Props.Sockets
import Verif.Proofs.Prologue
import Verif.Spec.Complaints
import Verif.Props.Main
import Verif.Props.ProcessBuilder
import Verif.Proofs.CronFaults
/-!
# The errors in the log before the event loop
-/

namespace Cinit

open Spec Logging Heralded

theorem timerText_eq (e : CronParseErr) : timerText e = (timerString e).toList := by
  cases e <;> rfl

/-! ## Messages of a level -/

@[simp] theorem textsAt_nil (l : Level) : textsAt l [] = [] := rfl

@[simp] theorem textsAt_append (l : Level) (a b : List Record) :
    textsAt l (a ++ b) = textsAt l a ++ textsAt l b := by
  simp [textsAt]

theorem textsAt_cons (l : Level) (r : Record) (rs : List Record) :
    textsAt l (r :: rs) = (if r.level = l then [r.message] else []) ++ textsAt l rs := by
  unfold textsAt
  by_cases h : r.level = l
  · simp [h]
  · simp [h]

namespace W

variable {ε α β : Type}

theorem bind_snd (x : W ε α) (f : α → W ε β) :
    (x.bind f).2 = x.2 ++ (match x.1 with | .ok a => (f a).2 | _ => []) := by
  unfold bind
  cases x.1 <;> simp

@[simp] theorem after_snd (rs : List Record) (x : W ε α) : (after rs x).2 = rs ++ x.2 := rfl
@[simp] theorem ret_snd (a : α) : (ret a : W ε α).2 = [] := rfl
@[simp] theorem silent_snd (r : Res ε α) : (silent r).2 = [] := rfl

/-- Nothing is said on this level. -/
def Mute (l : Level) (w : W ε α) : Prop := textsAt l w.2 = []

theorem Mute.bind {l : Level} {w : W ε α} {f : α → W ε β} (h : w.Mute l)
    (hf : ∀ a, w.1 = .ok a → (f a).Mute l) : (w.bind f).Mute l := by
  unfold Mute at *
  rw [bind_snd, textsAt_append, h]
  cases hw : w.1 with
  | ok a => simpa using hf a hw
  | err e => rfl
  | panic p => rfl

theorem Mute.after {l : Level} {w : W ε α} {rs : List Record} (h : w.Mute l)
    (hr : textsAt l rs = []) : (after rs w).Mute l := by
  unfold Mute at *
  rw [after_snd, textsAt_append, hr, h]
  rfl

theorem mute_silent (l : Level) (r : Res ε α) : (silent r).Mute l := rfl
theorem mute_ret (l : Level) (a : α) : (ret a : W ε α).Mute l := rfl

end W

/-- The errors in the log are the words for faults that are there; success means none, failure
means some, all with the exit code. -/
def Explains (h : Herald) (x : Machine) {α : Type} (w : W Int α) : Prop :=
  ∃ fs : List Fault, (∀ f ∈ fs, f.Present x) ∧ textsAt .error w.2 = fs.flatMap (·.words h) ∧
    (∀ a, w.1 = .ok a → fs = []) ∧ ∀ code, w.1 = .err code → fs ≠ [] ∧ ∀ f ∈ fs, f.code = code

namespace Explains

variable {h : Herald} {x : Machine} {α β : Type}

theorem bind {w : W Int α} {f : α → W Int β} (hw : Explains h x w)
    (hf : ∀ a, w.1 = .ok a → Explains h x (f a)) : Explains h x (w.bind f) := by
  obtain ⟨fs, h1, h2, h3, h4⟩ := hw
  unfold Explains
  rw [W.bind_fst, W.bind_snd, textsAt_append, h2]
  cases ho : w.1 with
  | ok a =>
    obtain ⟨gs, g1, g2, g3, g4⟩ := hf a ho
    cases h3 a ho
    refine ⟨gs, g1, by simpa using g2, ?_, ?_⟩
    · simpa using g3
    · simpa using g4
  | err e =>
    refine ⟨fs, h1, by simp, by simp, ?_⟩
    intro code hc
    simp at hc
    subst hc
    exact h4 _ ho
  | panic p => exact ⟨fs, h1, by simp, by simp, by simp⟩

theorem after {w : W Int α} {rs : List Record} (hw : Explains h x w) (hr : textsAt .error rs = []) :
    Explains h x (W.after rs w) := by
  obtain ⟨fs, h1, h2, h3, h4⟩ := hw
  exact ⟨fs, h1, by rw [W.after_snd, textsAt_append, hr, h2]; rfl, h3, h4⟩

theorem ret (a : α) : Explains h x (W.ret a) :=
  ⟨[], by simp, rfl, fun _ _ => rfl, fun _ h => by cases h⟩

theorem panic (p : Panic) {rs : List Record} (hr : textsAt .error rs = []) :
    Explains h x ((.panic p, rs) : W Int α) :=
  ⟨[], by simp, hr, by simp, by simp⟩

theorem ok (a : α) {rs : List Record} (hr : textsAt .error rs = []) :
    Explains h x ((.ok a, rs) : W Int α) :=
  ⟨[], by simp, hr, by simp, by simp⟩

/-- One fault. -/
theorem one (f : Fault) {rs : List Record} (hp : f.Present x)
    (hr : textsAt .error rs = f.words h) :
    Explains h x ((.err f.code, rs) : W Int α) :=
  ⟨[f], by simpa using hp, by simpa using hr, by simp, by simp⟩

end Explains

/-! ## The checks -/

theorem checkKernelVersion_tells (h : Herald) (x : Machine) :
    Explains h x (Heralded.checkKernelVersion h x.release) := by
  unfold Heralded.checkKernelVersion
  cases hr : x.release with
  | none => exact Explains.ok _ rfl
  | some text =>
    dsimp only
    rcases hs : splitOn '.' text with _ | ⟨a, _ | ⟨b, l⟩⟩
    · exact Explains.ok _ rfl
    · exact Explains.ok _ rfl
    · dsimp only
      cases ha : parseU32 a with
      | none => exact Explains.ok _ rfl
      | some major =>
        cases hb : parseU32 b with
        | none => exact Explains.ok _ rfl
        | some minor =>
          dsimp only
          split
          · rename_i hv
            exact Explains.one .oldKernel
              ⟨text, major, minor, hr, Props.release_split.mpr ⟨a, b, l, hs, ha, hb⟩, hv⟩ rfl
          · exact Explains.ok _ rfl

theorem checkUser_tells (h : Herald) (x : Machine) : Explains h x (Heralded.checkUser x.uid) := by
  unfold Heralded.checkUser
  split
  · rename_i hu
    exact Explains.one .notRoot hu rfl
  · exact Explains.ret ()

theorem doStartupChecks_tells (h : Herald) (x : Machine) :
    Explains h x (Heralded.doStartupChecks h x.release x.uid) :=
  (checkKernelVersion_tells h x).bind fun _ _ => checkUser_tells h x

/-! ## The configuration -/

theorem nodeAt_step {t t' : FileTree} {pos : List Nat} {es : List FileTree} {i : Nat}
    (h : nodeAt t pos = some (.dir es)) (hi : es[i]? = some t') :
    nodeAt t (pos ++ [i]) = some t' := by
  induction pos generalizing t with
  | nil =>
    simp only [nodeAt, Option.some.injEq] at h
    subst h
    simp [nodeAt, hi]
  | cons j pos ih =>
    cases t with
    | dir ts =>
      simp only [nodeAt, List.cons_append, Option.bind_eq_some_iff] at h ⊢
      obtain ⟨u, h1, h2⟩ := h
      exact ⟨u, h1, ih h2⟩
    | file => simp [nodeAt] at h
    | other => simp [nodeAt] at h
    | unreadable => simp [nodeAt] at h
    | badName => simp [nodeAt] at h

mutual
theorem readConfig_tells (h : Herald) (x : Machine) (pos : List Nat) : (t : FileTree) →
    nodeAt x.tree pos.reverse = some t → Explains h x (Heralded.readConfig h pos t)
  | .file _, _ => by simp only [Heralded.readConfig]; exact Explains.ok _ rfl
  | .dir entries, ht => by
    simp only [Heralded.readConfig]
    exact readEntries_tells h x pos 0 entries fun k t hk => by
      rw [List.reverse_cons]
      exact nodeAt_step ht (by simpa using hk)
  | .other, _ => by simp only [Heralded.readConfig]; exact Explains.ok _ rfl
  | .unreadable, ht => by
    simp only [Heralded.readConfig]
    refine Explains.one (.unreadable pos.reverse) ht ?_
    simp only [Fault.words, List.reverse_reverse, Heralded.unreadable, textsAt_cons, textsAt_nil]
    cases h.failure pos with
    | metadata => simp
    | listing => simp
    | content => simp
    | entry => cases pos <;> simp
  | .badName, _ => by simp only [Heralded.readConfig]; exact Explains.panic _ rfl
theorem readEntries_tells (h : Herald) (x : Machine) (pos : List Nat) (i : Nat) :
    (ts : List FileTree) →
    (∀ (k : Nat) (t : FileTree), ts[k]? = some t →
      nodeAt x.tree ((i + k) :: pos).reverse = some t) →
    Explains h x (Heralded.readEntries h pos i ts)
  | [], _ => by simp only [Heralded.readEntries]; exact Explains.ret _
  | t :: ts, hts => by
    simp only [Heralded.readEntries]
    exact (readConfig_tells h x (i :: pos) t (hts 0 t rfl)).bind fun _ _ =>
      (readEntries_tells h x pos (i + 1) ts fun k t' hk => by
        have := hts (k + 1) t' (by simpa using hk)
        rwa [show i + (k + 1) = i + 1 + k by omega] at this).bind fun _ _ => Explains.ret _
end

mutual
/-- What cannot be read is named. -/
theorem readConfig_names (h : Herald) (x : Machine) (pos : List Nat) : (t : FileTree) →
    nodeAt x.tree pos.reverse = some t →
    (∃ raw, (Heralded.readConfig h pos t).1 = .ok raw) ∧
      textsAt .error (Heralded.readConfig h pos t).2 = [] ∨
    (∃ q, (Heralded.readConfig h pos t).1 = .panic q) ∨
    ∃ q, nodeAt x.tree q = some .unreadable ∧
      textsAt .error (Heralded.readConfig h pos t).2 = (Fault.unreadable q).words h
  | .file c, _ => .inl ⟨⟨[c], rfl⟩, rfl⟩
  | .dir entries, ht => by
    simp only [Heralded.readConfig]
    exact readEntries_names h x pos 0 entries fun k t hk => by
      rw [List.reverse_cons]
      exact nodeAt_step ht (by simpa using hk)
  | .other, _ => .inl ⟨⟨[], rfl⟩, rfl⟩
  | .unreadable, ht => by
    refine .inr (.inr ⟨pos.reverse, ht, ?_⟩)
    simp only [Heralded.readConfig, Fault.words, List.reverse_reverse, Heralded.unreadable,
      textsAt_cons, textsAt_nil]
    cases h.failure pos with
    | metadata => simp
    | listing => simp
    | content => simp
    | entry => cases pos <;> simp
  | .badName, _ => .inr (.inl ⟨_, rfl⟩)
theorem readEntries_names (h : Herald) (x : Machine) (pos : List Nat) (i : Nat) :
    (ts : List FileTree) →
    (∀ (k : Nat) (t : FileTree), ts[k]? = some t →
      nodeAt x.tree ((i + k) :: pos).reverse = some t) →
    (∃ raw, (Heralded.readEntries h pos i ts).1 = .ok raw) ∧
      textsAt .error (Heralded.readEntries h pos i ts).2 = [] ∨
    (∃ q, (Heralded.readEntries h pos i ts).1 = .panic q) ∨
    ∃ q, nodeAt x.tree q = some .unreadable ∧
      textsAt .error (Heralded.readEntries h pos i ts).2 = (Fault.unreadable q).words h
  | [], _ => .inl ⟨⟨[], rfl⟩, rfl⟩
  | t :: ts, hts => by
    simp only [Heralded.readEntries]
    have h1 := readConfig_names h x (i :: pos) t (hts 0 t rfl)
    have h2 := readEntries_names h x pos (i + 1) ts fun k t' hk => by
      have := hts (k + 1) t' (by simpa using hk)
      rwa [show i + (k + 1) = i + 1 + k by omega] at this
    rw [W.bind_fst, W.bind_snd, textsAt_append]
    cases hr : (Heralded.readConfig h (i :: pos) t).1 with
    | panic q => exact .inr (.inl ⟨q, rfl⟩)
    | err e =>
      rw [hr] at h1
      rcases h1 with ⟨⟨_, h1⟩, -⟩ | ⟨_, h1⟩ | ⟨q, h1, h3⟩
      · cases h1
      · cases h1
      · exact .inr (.inr ⟨q, h1, by rw [h3]; exact List.append_nil _⟩)
    | ok raw =>
      dsimp only
      rw [Res.bind_ok, W.bind_fst, W.bind_snd, textsAt_append]
      have hmute : textsAt .error (Heralded.readConfig h (i :: pos) t).2 = [] := by
        rcases readConfig_tells h x (i :: pos) t (hts 0 t rfl) with ⟨fs, -, g2, g3, -⟩
        rw [g2, g3 raw hr]
        rfl
      rw [hmute, List.nil_append]
      cases hr' : (Heralded.readEntries h pos (i + 1) ts).1 with
      | panic q => exact .inr (.inl ⟨q, rfl⟩)
      | err e =>
        rw [hr'] at h2
        rcases h2 with ⟨⟨_, h2⟩, -⟩ | ⟨_, h2⟩ | ⟨q, h2, h3⟩
        · cases h2
        · cases h2
        · exact .inr (.inr ⟨q, h2, by rw [h3]; exact List.append_nil _⟩)
      | ok raw' =>
        rw [hr'] at h2
        refine .inl ⟨⟨_, rfl⟩, ?_⟩
        have hmute : textsAt .error (Heralded.readEntries h pos (i + 1) ts).2 = [] := by
          rcases readEntries_tells h x pos (i + 1) ts (fun k t' hk => by
            have := hts (k + 1) t' (by simpa using hk)
            rwa [show i + (k + 1) = i + 1 + k by omega] at this) with ⟨fs, -, g2, g3, -⟩
          rw [g2, g3 raw' hr']
          rfl
        rw [hmute]
        rfl
end

/-- What the errors of merging say about the entries. -/
def MergeWrong (es : List ProcessConfig) (n : Str) : MergeError → Prop
  | .pathSpecified n' => n' = n ∧ 2 ≤ (given (·.path) es).length
  | .invalidFieldSpecified n' f => n' = n ∧ 2 ≤ Fault.times es f
  | .cronjobSpecified n' => n' = n ∧ CronDropin es

theorem mergeInto_which {p d : ProcessConfig} {er : MergeError} (h : p.mergeInto d = .err er) :
    (er = .pathSpecified p.name ∧ d.path.isSome) ∨ (d.path = none ∧
    ((er = .invalidFieldSpecified p.name .workdir ∧ d.workdir.isSome ∧ p.workdir.isSome) ∨
    (er = .invalidFieldSpecified p.name .uid ∧ d.uid.isSome ∧ p.uid.isSome) ∨
    (er = .invalidFieldSpecified p.name .gid ∧ d.gid.isSome ∧ p.gid.isSome) ∨
    (er = .invalidFieldSpecified p.name .user ∧ d.user.isSome ∧ p.user.isSome) ∨
    (er = .invalidFieldSpecified p.name .group ∧ d.group.isSome ∧ p.group.isSome) ∨
    (er = .cronjobSpecified p.name ∧ d.ptype.isCron = true))) := by
  unfold ProcessConfig.mergeInto at h
  repeat' split at h
  all_goals simp_all

theorem Merged.step_wrong {es : List ProcessConfig} {m x : ProcessConfig} {er : MergeError}
    (hm : Merged es m) (hn : m.name = x.name) (h : m.merge x = .err er) :
    MergeWrong (es ++ [x]) x.name er := by
  unfold ProcessConfig.merge at h
  split at h
  · simp at h
  obtain ⟨pre, p, post, he, hpre, hpost, hcron, hty, hargs, henv⟩ := hm.primary
  split at h
  · rename_i hp
    have hp : m.path = none := by simpa using hp
    rcases mergeInto_which h with ⟨rfl, hh⟩ | ⟨-, ⟨rfl, hh⟩ | ⟨rfl, hh⟩ | ⟨rfl, hh⟩ | ⟨rfl, hh⟩ |
      ⟨rfl, hh⟩ | ⟨rfl, hh⟩⟩
    · simp [hp] at hh
    · exact ⟨rfl, two_le hm.workdir hh.2 hh.1⟩
    · exact ⟨rfl, two_le hm.uid hh.2 hh.1⟩
    · exact ⟨rfl, two_le hm.gid hh.2 hh.1⟩
    · exact ⟨rfl, two_le hm.user hh.2 hh.1⟩
    · exact ⟨rfl, two_le hm.group hh.2 hh.1⟩
    · have hpp : p.path = none := by
        have := hm.path
        rw [hp, he] at this
        simp at this
        exact this.2.1
      exact ⟨rfl, p, by simp [he], hpp, isCron_iff.mp (hty ▸ hh)⟩
  · rename_i hp
    have hp : m.path.isSome := by cases hmp : m.path <;> simp_all
    rcases mergeInto_which h with ⟨rfl, hh⟩ | ⟨hx, ⟨rfl, hh⟩ | ⟨rfl, hh⟩ | ⟨rfl, hh⟩ | ⟨rfl, hh⟩ |
      ⟨rfl, hh⟩ | ⟨rfl, hh⟩⟩
    · exact ⟨hn, two_le hm.path hh hp⟩
    · exact ⟨hn, two_le hm.workdir hh.1 hh.2⟩
    · exact ⟨hn, two_le hm.uid hh.1 hh.2⟩
    · exact ⟨hn, two_le hm.gid hh.1 hh.2⟩
    · exact ⟨hn, two_le hm.user hh.1 hh.2⟩
    · exact ⟨hn, two_le hm.group hh.1 hh.2⟩
    · exact ⟨hn, x, by simp, hx, isCron_iff.mp hh⟩

theorem MergeWrong.mono {es rest : List ProcessConfig} {n : Str} {er : MergeError}
    (h : MergeWrong es n er) : MergeWrong (es ++ rest) n er := by
  cases er with
  | pathSpecified n' =>
    refine ⟨h.1, ?_⟩
    have := h.2
    simp only [given, List.filterMap_append, List.length_append] at *
    omega
  | invalidFieldSpecified n' f =>
    refine ⟨h.1, ?_⟩
    have := h.2
    cases f <;> simp only [Fault.times, given, List.filterMap_append, List.length_append] at * <;>
      omega
  | cronjobSpecified n' =>
    obtain ⟨h1, e, h2, h3⟩ := h
    exact ⟨h1, e, by simp [h2], h3⟩

/-- The fault an error of merging is about. -/
def MergeError.fault : MergeError → Fault
  | .pathSpecified n => .twice n
  | .invalidFieldSpecified n f => .doubled n f
  | .cronjobSpecified n => .cronDropin n

theorem mergeError_tells {h : Herald} {x : Machine} {es : List ProcessConfig} {n : Str}
    {er : MergeError} (he : AllEntries x.yaml x.tree es) (hw : MergeWrong (entriesOf es n) n er) :
    Explains h x ((.err configExitCode, [⟨inParser, .error, mergeText er⟩,
      ⟨inParser, .trace, mergeText er⟩]) : W Int (AMap Str ProcessConfig)) := by
  have hc : configExitCode = er.fault.code := by cases er <;> rfl
  rw [hc]
  refine Explains.one er.fault ?_ ?_
  · cases er with
    | pathSpecified n' => obtain ⟨rfl, hw⟩ := hw; exact ⟨es, he, hw⟩
    | invalidFieldSpecified n' f => obtain ⟨rfl, hw⟩ := hw; exact ⟨es, he, hw⟩
    | cronjobSpecified n' => obtain ⟨rfl, hw⟩ := hw; exact ⟨es, he, hw⟩
  · simp only [textsAt_cons, textsAt_nil]
    cases er with
    | pathSpecified n' => rfl
    | invalidFieldSpecified n' f =>
      cases f <;> exact congrArg (fun t => [t]) (List.append_assoc _ _ _)
    | cronjobSpecified n' => rfl

theorem mergeLoop_tells {h : Herald} {x : Machine} {es : List ProcessConfig}
    (he : AllEntries x.yaml x.tree es) {done : List ProcessConfig} {d : AMap Str ProcessConfig}
    (hd : DictInv done d) (pcs : List ProcessConfig) (hes : done ++ pcs = es) :
    Explains h x (Heralded.mergeLoop d pcs) := by
  induction pcs generalizing done d with
  | nil => exact Explains.ret _
  | cons pc pcs ih =>
    unfold Heralded.mergeLoop
    refine Explains.bind ?_ ?_
    · unfold Heralded.mergeDropinsStep
      cases hg : d.get? pc.name with
      | none => exact Explains.ret _
      | some m =>
        dsimp only
        cases hmerge : m.merge pc with
        | ok m' => exact Explains.ret _
        | panic p => exact Explains.panic _ rfl
        | err er =>
          refine mergeError_tells (n := pc.name) he ?_
          by_cases hn : entriesOf done pc.name = []
          · rw [hd.absent _ hn] at hg; cases hg
          · obtain ⟨m', hm, hmn, hmm⟩ := hd.present _ hn
            rw [hg] at hm
            cases hm
            have := (hmm.step_wrong hmn hmerge).mono (rest := entriesOf pcs pc.name)
            rw [← hes, show done ++ pc :: pcs = done ++ [pc] ++ pcs by simp, entriesOf_append,
              entriesOf_append, entriesOf_single, if_pos rfl]
            exact this
    · intro d' hd'
      rw [mergeDropinsStep_fst] at hd'
      rcases hd.step pc with ⟨d'', h1, h2⟩ | ⟨h1, -⟩
      · rw [h1] at hd'
        cases hd'
        exact ih h2 (by rw [← hes]; simp)
      · rw [h1] at hd'; cases hd'

theorem parseRawConfig_tells {h : Herald} {x : Machine} {raw : List Str}
    (hr : ∀ c, c ∈ raw ↔ ∃ p, FileAt x.tree p c) :
    Explains h x (Heralded.parseRawConfig h x.yaml raw) := by
  unfold Heralded.parseRawConfig
  split
  · rename_i hy
    refine Explains.one (.malformed (raw.filter (fun t => (x.yaml t).isNone))) ?_ ?_
    · refine ⟨?_, ?_⟩
      · intro hn
        simp only [List.filter_eq_nil_iff] at hn
        simp only [List.any_map, List.any_eq_true, Function.comp_apply] at hy
        obtain ⟨c, h1, h2⟩ := hy
        exact hn c h1 h2
      · intro c
        simp only [List.mem_filter, hr, Option.isNone_iff_eq_none]
        exact And.comm
    · unfold Fault.words
      rw [List.cons_append, textsAt_cons, if_pos rfl, textsAt_append, textsAt_cons,
        if_neg (by decide), textsAt_nil]
      generalize "Could not parse config: ".toList = a
      simp [textsAt, Function.comp_def, List.filter_map]
  · exact Explains.ret _

theorem parseConfig_tells (h : Herald) (x : Machine) :
    Explains h x (Heralded.parseConfig h x.yaml x.mergeOrder x.tree) := by
  unfold Heralded.parseConfig
  refine (readConfig_tells h x [] x.tree rfl).bind fun raw hraw => Explains.after ?_ rfl
  rw [readConfig_fst] at hraw
  rcases readConfig_cases x.tree with ⟨-, -, hc⟩ | ⟨-, hc⟩ | ⟨-, hc⟩
  · rw [hc] at hraw
    cases hraw
    have hall : ∀ p c, (p, c) ∈ filesOf x.tree ↔ FileAt x.tree p c := mem_filesOf x.tree
    refine (parseRawConfig_tells ?_).bind fun c hc => ?_
    · intro c
      simp only [List.mem_map, Prod.exists, exists_eq_right, hall]
    · rw [parseRawConfig_fst] at hc
      have hes : AllEntries x.yaml x.tree c.programs := by
        refine ⟨filesOf x.tree, filesOf_nodup x.tree, hall, ?_⟩
        rw [(parseRawConfig_ok hc).2]
        generalize filesOf x.tree = l
        induction l with
        | nil => rfl
        | cons f fs ih =>
          simp only [List.flatMap_cons, List.map_cons, List.filterMap_cons]
          cases x.yaml f.2 <;> rw [← ih] <;> rfl
      unfold Heralded.mergeDropins
      exact (mergeLoop_tells hes DictInv.nil c.programs rfl).bind fun _ _ => Explains.ret _
  · rw [hc] at hraw; cases hraw
  · rw [hc] at hraw; cases hraw

/-! ## Programs, dependencies, timers -/

theorem warning_mute (t : Str) : textsAt .error (warning t) = [] := rfl

theorem complaint_texts (t : Str) : textsAt .error (complaint t) = [t] := rfl

theorem copyMessages_mute (h : Herald) (s : Surroundings) (r : AMap Str Str)
    (kv : Str × Option Str) : textsAt .error (copyMessages h s r kv) = [] := by
  unfold copyMessages
  repeat' split
  all_goals first | rfl | exact warning_mute _

theorem copyLoop_mute (h : Herald) (s : Surroundings) (kvs : List (Str × Option Str))
    (r : AMap Str Str) : textsAt .error (copyLoop h s r kvs).2 = [] := by
  induction kvs generalizing r with
  | nil => rfl
  | cons kv kvs ih =>
    simp only [copyLoop, textsAt_append, copyMessages_mute, ih, List.append_nil]

theorem notifyMessages_mute (c : ProcessConfig) (env : AMap Str Str) :
    textsAt .error (notifyMessages c env) = [] := by
  unfold notifyMessages
  split <;> rfl

theorem argMessages_mute (h : Herald) (i : Nat) (ctx : Str → Option Str) (raw : Str)
    (o : Option Str) : textsAt .error (argMessages h i ctx raw o) = [] := by
  unfold argMessages
  repeat' split
  all_goals first | rfl | exact warning_mute _

theorem convertArgs_mute (h : Herald) (s : Surroundings) (env : AMap Str Str) (xs : List Str)
    (i : Nat) : (Heralded.convertArgs h s env i xs).Mute .error := by
  induction xs generalizing i with
  | nil => rfl
  | cons x xs ih =>
    unfold Heralded.convertArgs
    refine W.Mute.after ?_ (argMessages_mute _ _ _ _ _)
    exact (W.mute_silent _ _).bind fun _ _ => (ih _).bind fun _ _ => rfl

theorem processFrom_mute (h : Herald) (s : Surroundings) (c : ProcessConfig) :
    (Heralded.processFrom h s c).Mute .error := by
  unfold Heralded.processFrom
  split
  · rfl
  · refine (W.mute_silent _ _).bind fun user _ => (W.mute_silent _ _).bind fun group _ =>
      W.Mute.after ?_ ?_
    · dsimp only
      split
      · rfl
      · exact (W.mute_silent _ _).bind fun _ _ => (W.mute_silent _ _).bind fun _ _ =>
          (convertArgs_mute _ _ _ _ _).bind fun _ _ => rfl
    · rw [textsAt_append, notifyMessages_mute, List.append_nil]
      exact copyLoop_mute _ _ _ _

theorem processes_tells {h : Herald} {x : Machine} {ps : List ProcessConfig}
    (hp : Fault.Configured x ps) (cs : List ProcessConfig) (hcs : ∀ c ∈ cs, c ∈ ps) :
    Explains h x (Heralded.processes h x.surroundings cs) := by
  induction cs with
  | nil => exact Explains.ret _
  | cons c cs ih =>
    have hc := hcs c (by simp)
    have hmute := processFrom_mute h x.surroundings c
    unfold Heralded.processes
    cases hf : (Heralded.processFrom h x.surroundings c).1 with
    | ok p =>
      dsimp only
      exact ((ih fun c' h' => hcs c' (by simp [h'])).bind fun _ _ => Explains.ret _).after hmute
    | panic q => exact Explains.panic _ hmute
    | err e =>
      rw [processFrom_fst] at hf
      obtain ⟨h1, h2, h3⟩ := Props.C12_which_error hf
      dsimp only
      cases e with
      | cronjobDependency =>
        refine Explains.one (.cronBefore c.name) ?_ ?_
        · obtain ⟨h4, h5⟩ := h1.mp rfl
          exact ⟨ps, hp, c, hc, rfl, isCron_iff.mp h4, h5⟩
        · rw [textsAt_append, hmute, complaint_texts]
          exact congrArg (fun t => [t]) (List.append_assoc _ _ _)
      | userGroupInvalid =>
        refine Explains.one (.identity c.name) ⟨ps, hp, c, hc, rfl, h3 rfl⟩ ?_
        rw [textsAt_append, hmute, complaint_texts]
        exact congrArg (fun t => [t]) (List.append_assoc _ _ _)
      | pathMissing =>
        refine Explains.one (.noPath c.name) ⟨ps, hp, c, hc, rfl, (h2 rfl).1⟩ ?_
        rw [textsAt_append, hmute, complaint_texts]
        exact congrArg (fun t => [t]) (List.append_assoc _ _ _)

/-- The dependencies are fine, or one fault in them is reported. -/
theorem buildDependencyManager_one (h : Herald) {x : Machine} {config : Config}
    (topo : Toposort) (ord : HashOrder) (hp : Fault.Configured x config.programs)
    (hu : UniqueNames config.programs) :
    (∃ d, Heralded.buildDependencyManager topo ord config = .ret d) ∨
    ∃ f : Fault, f.InDependencies ∧ f.Present x ∧
      (Heralded.buildDependencyManager topo ord config).1 = .err 2 ∧
      textsAt .error (Heralded.buildDependencyManager topo ord config).2 = f.words h := by
  unfold Heralded.buildDependencyManager
  rcases DepMgr.withNodes_cases topo ord hu with ⟨d, hw, -⟩ | ⟨e, hw, -⟩
  · rw [hw]; exact .inl ⟨d, rfl⟩
  refine .inr ?_
  have hc := Props.C14_culprit topo ord hu hw
  rw [hw]
  dsimp only
  cases e with
  | cycle i =>
    obtain ⟨hlt, hcyc⟩ := hc
    unfold Heralded.reportDepError
    have hi : config.programs[i]? = some config.programs[i] := by simp [hlt]
    simp only [hi]
    exact ⟨.cycle config.programs[i].name, trivial,
      ⟨_, hp, _, List.mem_of_getElem? hi, rfl, Props.cycle_names hi hcyc⟩, rfl, complaint_texts _⟩
  | unknownAfterReference i k =>
    obtain ⟨c, n, h1, h2, h3⟩ := hc
    unfold Heralded.reportDepError
    simp only [h1, h2]
    refine ⟨.unknownAfter n c.name, trivial,
      ⟨_, hp, c, List.mem_of_getElem? h1, rfl, List.mem_of_getElem? h2, h3⟩, rfl, ?_⟩
    refine (complaint_texts _).trans ?_
    exact congrArg (fun t => [t]) (List.append_assoc _ _ _)
  | unknownBeforeReference i k =>
    obtain ⟨c, n, h1, h2, h3⟩ := hc
    unfold Heralded.reportDepError
    simp only [h1, h2]
    refine ⟨.unknownBefore n c.name, trivial,
      ⟨_, hp, c, List.mem_of_getElem? h1, rfl, List.mem_of_getElem? h2, h3⟩, rfl, ?_⟩
    refine (complaint_texts _).trans ?_
    exact congrArg (fun t => [t]) (List.append_assoc _ _ _)
  | cronjobDependency i =>
    obtain ⟨c, n, h1, h2, c', h3, rfl, h4⟩ := hc
    unfold Heralded.reportDepError
    simp only [h1]
    exact ⟨.afterCron c.name, trivial,
      ⟨_, hp, c, List.mem_of_getElem? h1, rfl, c', h3, h2, h4⟩, rfl, complaint_texts _⟩

theorem withJobs_mute (env : Env) (jobs : List (Nat × ProcessConfig)) (c : Cron)
    (clock : List Int) : (Heralded.withJobs env c jobs clock).Mute .error := by
  induction jobs generalizing c clock with
  | nil => rfl
  | cons job jobs ih =>
    obtain ⟨id, pc⟩ := job
    unfold Heralded.withJobs
    split
    · exact (W.mute_silent _ _).bind fun _ _ => (W.mute_silent _ _).bind fun _ _ =>
        W.Mute.after ((W.mute_silent _ _).bind fun _ _ => ih _ _) rfl
    · rfl

/-- The timers are fine, or cinit aborts, or one fault in them is reported. -/
theorem buildCron_one (h : Herald) {x : Machine} {config : Config} (env : Env)
    (clock : List Int) (hp : Fault.Configured x config.programs) :
    ((∃ c, (Heralded.buildCron env config clock).1 = .ok c) ∧
      textsAt .error (Heralded.buildCron env config clock).2 = []) ∨
    ((∃ q, (Heralded.buildCron env config clock).1 = .panic q) ∧
      textsAt .error (Heralded.buildCron env config clock).2 = []) ∨
    ∃ n why, (Fault.timer n why).Present x ∧
      (Heralded.buildCron env config clock).1 = .err 2 ∧
      textsAt .error (Heralded.buildCron env config clock).2 = (Fault.timer n why).words h := by
  unfold Heralded.buildCron
  have hmute := withJobs_mute env (cronPrograms 0 config.programs) {} clock
  have hfst := withJobs_fst env {} (cronPrograms 0 config.programs) clock
  dsimp only
  cases hw : (Heralded.withJobs env {} (cronPrograms 0 config.programs) clock).1 with
  | ok c => exact .inl ⟨⟨c, rfl⟩, hmute⟩
  | panic q => exact .inr (.inl ⟨⟨q, rfl⟩, hmute⟩)
  | err e =>
    rw [hw] at hfst
    obtain ⟨pc, desc, msg, id, rfl, h1, h2, h3⟩ := Cron.withJobs_err hfst.symm
    obtain ⟨-, h4, -⟩ := mem_cronPrograms.mp h1
    simp only [Nat.sub_zero] at h4
    simp only [h4]
    refine .inr (.inr ⟨pc.name, timerString msg,
      ⟨_, hp, pc, List.mem_of_getElem? h4, rfl, desc, h2, timer_wrong h3⟩, rfl, ?_⟩)
    rw [textsAt_append, hmute, complaint_texts, timerText_eq]
    exact congrArg (fun t => [t]) (List.append_assoc _ _ _)

theorem socketMessages_mute (a b : Sockets.State) : textsAt .error (socketMessages a b) = [] := by
  unfold socketMessages textsAt
  rw [List.filter_map]
  simp [Function.comp_def]

/-- All that is wrong with the dependencies, the timers and the sockets together. -/
structure Overall (h : Herald) (x : Machine) (config : Config) (deps cron socks : List Fault) :
    Prop where
  dependencies : ∀ f ∈ deps, f.InDependencies ∧ f.Present x
  noDependencies : deps = [] ↔ ∃ d, buildDependencyManager x.topo x.graphOrder config = .ok d
  timers : ∀ f ∈ cron, (∃ n why, f = .timer n why) ∧ f.Present x
  noTimers : (∃ q, buildCron x.env.zone config x.clock = .panic q) ∨
    (cron = [] ↔ ∃ c, buildCron x.env.zone config x.clock = .ok c)
  sockets : ∀ f ∈ socks, ∃ e, f = .sockets e ∧ SocketTrouble x.system e
  noSockets : (∃ q, buildCron x.env.zone config x.clock = .panic q) ∨
    ((socks = [] ↔ x.sockets ≠ none) ∧ socks.length ≤ 1)

theorem code_of_dependencies {f : Fault} (h : f.InDependencies) : f.code = 2 := by
  cases f <;> first | rfl | exact absurd h (by simp [Fault.InDependencies])

theorem manager_overall (h : Herald) {x : Machine} {config : Config}
    (hp : Fault.Configured x config.programs) (hu : UniqueNames config.programs)
    {procs : List Process} (hprocs : x.processes config.programs = .ok procs) :
    ∃ deps cron socks, Overall h x config deps cron socks ∧
      textsAt .error (Heralded.manager h x config).2 =
        (deps ++ cron ++ socks).flatMap (·.words h) ∧
      (∀ m, x.manager config = .ok m → deps ++ cron ++ socks = []) ∧
      (∀ c, x.manager config = .err c → deps ++ cron ++ socks ≠ [] ∧ c = 2) := by
  have hmute : textsAt .error (Heralded.processes h x.surroundings config.programs).2 = [] := by
    obtain ⟨fs, -, h2, h3, -⟩ := processes_tells (h := h) hp config.programs fun _ h => h
    rw [h2, h3 procs ((processes_fst _ _ _).trans hprocs)]
    rfl
  rw [← manager_fst h]
  unfold Heralded.manager
  simp only [W.bind_fst, W.bind_snd, textsAt_append, hmute, processes_fst, hprocs, Res.bind_ok,
    List.nil_append]
  have hdf := buildDependencyManager_fst x.topo x.graphOrder config
  have hcf := buildCron_fst x.env config x.clock
  obtain ⟨deps, d1, d2, d3, d4⟩ : ∃ deps : List Fault,
      (∀ f ∈ deps, f.InDependencies ∧ f.Present x) ∧
      textsAt .error (Heralded.buildDependencyManager x.topo x.graphOrder config).2 =
        deps.flatMap (·.words h) ∧
      (deps = [] ↔ ∃ d, buildDependencyManager x.topo x.graphOrder config = .ok d) ∧
      (deps ≠ [] ↔ (Heralded.buildDependencyManager x.topo x.graphOrder config).1 = .err 2) := by
    rcases buildDependencyManager_one h x.topo x.graphOrder hp hu with ⟨d, h1⟩ | ⟨f, h1, h2, h3, h4⟩
    · rw [← hdf, h1]
      exact ⟨[], by simp, rfl, by simp, by simp⟩
    · rw [← hdf, h3]
      exact ⟨[f], by simpa using ⟨h1, h2⟩, by simpa using h4, by simp, by simp⟩
  obtain ⟨cron, c1, c2, c3, c4⟩ : ∃ cron : List Fault,
      (∀ f ∈ cron, (∃ n why, f = .timer n why) ∧ f.Present x) ∧
      textsAt .error (Heralded.buildCron x.env config x.clock).2 = cron.flatMap (·.words h) ∧
      ((∃ q, buildCron x.env.zone config x.clock = .panic q) ∨
        (cron = [] ↔ ∃ c, buildCron x.env.zone config x.clock = .ok c)) ∧
      ((∃ q, buildCron x.env.zone config x.clock = .panic q) ∨
        (cron ≠ [] ↔ (Heralded.buildCron x.env config x.clock).1 = .err 2)) := by
    rcases buildCron_one h x.env x.clock hp with ⟨⟨c, h1⟩, h2⟩ | ⟨⟨q, h1⟩, h2⟩ | ⟨n, why, h2, h3, h4⟩
    · rw [← hcf, h1]
      exact ⟨[], by simp, h2, .inr (by simp), .inr (by simp)⟩
    · rw [← hcf, h1]
      exact ⟨[], by simp, h2, .inl ⟨q, rfl⟩, .inl ⟨q, rfl⟩⟩
    · rw [← hcf, h3]
      exact ⟨[.timer n why], fun f hf => List.mem_singleton.mp hf ▸ ⟨⟨n, why, rfl⟩, h2⟩, by simpa using h4,
        .inr (by simp), .inr (by simp)⟩
  rw [← hdf] at d3
  rw [← hcf] at c3 c4
  have hdp : ∀ q, (Heralded.buildDependencyManager x.topo x.graphOrder config).1 ≠ .panic q := by
    intro q hq
    exact (Props.C14_report x.topo x.graphOrder hu).1 q (hdf.symm.trans hq)
  split
  · rename_i q hq
    exact absurd hq (hdp q)
  split
  · rename_i q hq
    refine ⟨deps, cron, [], ⟨d1, hdf ▸ d3, c1, .inl ⟨q, hcf ▸ hq⟩, by simp, .inl ⟨q, hcf ▸ hq⟩⟩, ?_,
      by simp, by simp⟩
    simp [d2, c2]
  rename_i hcp
  have c3 := c3.resolve_left fun ⟨q, hq⟩ => hcp q hq
  have c4 := c4.resolve_left fun ⟨q, hq⟩ => hcp q hq
  cases hs : Sockets.setupFileDescriptors x.system with
  | err e s' =>
    have hn : x.sockets = none := by unfold Machine.sockets; rw [hs]
    refine ⟨deps, cron, [.sockets e], ⟨d1, hdf ▸ d3, c1, .inr (hcf ▸ c3), fun f hf =>
      ⟨e, List.mem_singleton.mp hf, Props.C83_reason hs⟩, .inr (by simp [hn])⟩, ?_, by simp, ?_⟩
    · simp only [W.after_snd, textsAt_append, d2, c2, socketMessages_mute, List.flatMap_append,
        List.flatMap_cons, List.flatMap_nil, List.append_assoc, List.nil_append, List.append_nil]
      rfl
    · intro c hc
      simp only [W.after_fst, Res.err.injEq] at hc
      exact ⟨by simp, hc.symm⟩
  | ok r s' =>
    have hn : x.sockets = some x.numbers := by unfold Machine.sockets; rw [hs]
    dsimp only
    refine ⟨deps, cron, [], ⟨d1, hdf ▸ d3, c1, .inr (hcf ▸ c3), by simp, .inr (by simp [hn])⟩,
      ?_, ?_, ?_⟩
    · have htexts : textsAt .error ((W.silent
          (Heralded.buildDependencyManager x.topo x.graphOrder config).1).bind fun deps =>
          (W.silent (Heralded.buildCron x.env config x.clock).1).bind fun cron =>
          if x.epoll then
            (W.ret { procs := procs, deps := deps, cron := cron,
                     signalFd := x.numbers.1, statusFd := x.numbers.2.1,
                     notifyFd := x.numbers.2.2 } : W Int Manager)
          else (.panic .epollFailed, [])).2 = [] := by
        refine W.Mute.bind (W.mute_silent _ _) fun _ _ =>
          W.Mute.bind (W.mute_silent _ _) fun _ _ => ?_
        split <;> rfl
      simp only [W.after_snd, textsAt_append, d2, c2, socketMessages_mute, htexts,
        List.flatMap_append, List.append_nil]
    · intro a ha
      simp only [W.after_fst, W.bind_fst, W.silent_fst, Res.bind_eq_ok] at ha
      obtain ⟨d, h1, c, h2, -⟩ := ha
      rw [d3.mpr ⟨d, h1⟩, c3.mpr ⟨c, h2⟩]
      rfl
    · intro c hc
      simp only [W.after_fst, W.bind_fst, W.silent_fst, Res.bind_eq_err] at hc
      rcases hc with hc | ⟨d, -, hc | ⟨e, -, hc⟩⟩
      · have h2 := (Props.C14_report x.topo x.graphOrder hu).2 c (hdf.symm.trans hc)
        subst h2
        exact ⟨by simp [d4.mpr hc], rfl⟩
      · have h2 := (Props.C51_cron_error (hcf.symm.trans hc)).1
        subst h2
        exact ⟨by simp [c4.mpr hc], rfl⟩
      · split at hc <;> cases hc

theorem manager_tells {h : Herald} {x : Machine} {config : Config}
    (hp : Fault.Configured x config.programs) (hu : UniqueNames config.programs) :
    Explains h x (Heralded.manager h x config) := by
  cases hpr : x.processes config.programs with
  | ok procs =>
    obtain ⟨deps, cron, socks, ho, h1, h2, h3⟩ := manager_overall h hp hu hpr
    rw [← manager_fst h] at h2 h3
    refine ⟨deps ++ cron ++ socks, ?_, h1, h2, ?_⟩
    · intro f hf
      simp only [List.mem_append] at hf
      rcases hf with (hf | hf) | hf
      · exact (ho.dependencies f hf).2
      · exact (ho.timers f hf).2
      · obtain ⟨e, rfl, he⟩ := ho.sockets f hf
        exact he
    · intro code hc
      obtain ⟨h4, rfl⟩ := h3 code hc
      refine ⟨h4, ?_⟩
      intro f hf
      simp only [List.mem_append] at hf
      rcases hf with (hf | hf) | hf
      · exact code_of_dependencies (ho.dependencies f hf).1
      · obtain ⟨⟨n, why, rfl⟩, -⟩ := ho.timers f hf
        rfl
      · obtain ⟨e, rfl, -⟩ := ho.sockets f hf
        rfl
  | err e =>
    unfold Heralded.manager
    exact (processes_tells hp config.programs fun _ h => h).bind fun procs h1 => by
      rw [processes_fst, hpr] at h1; cases h1
  | panic q =>
    unfold Heralded.manager
    exact (processes_tells hp config.programs fun _ h => h).bind fun procs h1 => by
      rw [processes_fst, hpr] at h1; cases h1

/-! ## The start -/

theorem prologue_tells (h : Herald) (x : Machine) : Explains h x (Heralded.prologue h x) := by
  unfold Heralded.prologue
  refine Explains.after ?_ rfl
  refine (doStartupChecks_tells h x).bind fun _ _ => Explains.after ?_ rfl
  refine (parseConfig_tells h x).bind fun config hc => Explains.after ?_ rfl
  rw [parseConfig_fst] at hc
  have hu : UniqueNames config.programs := Props.Loaded.unique hc
  exact (manager_tells hc hu).bind fun _ _ => (Explains.ret _).after rfl

end Cinit
