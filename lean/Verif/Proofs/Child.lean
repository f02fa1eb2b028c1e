import Verif.Spec.Child
import Mathlib.Tactic.SplitIfs
/-!
# Proofs about the child's side of starting a program
-/

namespace Cinit

namespace Child

open Spec

/-! ## Successful computations -/

theorem pure_ok {α : Type} {a b : α} {s s' : Proc} : (pure a : C α) s = .ok b s' ↔ a = b ∧ s = s' := by
  change Ret.ok a s = .ok b s' ↔ _
  constructor
  · intro h; cases h; exact ⟨rfl, rfl⟩
  · rintro ⟨rfl, rfl⟩; rfl

theorem bind_ok {α β : Type} {x : C α} {f : α → C β} {s s' : Proc} {b : β} :
    (x >>= f) s = .ok b s' ↔ ∃ a s1, x s = .ok a s1 ∧ f a s1 = .ok b s' := by
  change C.bind x f s = _ ↔ _
  unfold C.bind
  cases x s with
  | ok a s1 =>
    constructor
    · intro h; exact ⟨a, s1, rfl, h⟩
    · rintro ⟨a', s1', h1, h2⟩; cases h1; exact h2
  | err e s1 =>
    constructor
    · exact nofun
    · rintro ⟨_, _, h, _⟩; cases h
  | panic e s1 =>
    constructor
    · exact nofun
    · rintro ⟨_, _, h, _⟩; cases h
  | stuck s1 =>
    constructor
    · exact nofun
    · rintro ⟨_, _, h, _⟩; cases h

theorem sys_ok {call : Call} {act : Proc → Option Proc} {s s' : Proc} :
    sys call act s = .ok () s' ↔ ∃ rest t, s.answers = none :: rest ∧ act s = some t ∧
      s' = { t with answers := rest, calls := (call, true) :: s.calls } := by
  unfold sys
  cases s.answers with
  | nil => simp
  | cons o rest =>
    cases o with
    | some e => simp
    | none =>
      cases act s with
      | none => simp
      | some t =>
        simp only [Ret.ok.injEq, true_and, List.cons.injEq, Option.some.injEq]
        constructor
        · intro h; exact ⟨rest, t, rfl, rfl, h.symm⟩
        · rintro ⟨_, _, rfl, rfl, h⟩; exact h.symm

theorem sysCred_ok {call : Call} {act : Cred → Option Cred} {s s' : Proc} :
    sysCred call act s = .ok () s' ↔ ∃ rest c, s.answers = none :: rest ∧ act s.cred = some c ∧
      s' = { s with cred := c, answers := rest, calls := (call, true) :: s.calls } := by
  unfold sysCred
  rw [sys_ok]
  constructor
  · rintro ⟨rest, t, h1, h2, rfl⟩
    rw [Option.map_eq_some_iff] at h2
    obtain ⟨c, h2, rfl⟩ := h2
    exact ⟨rest, c, h1, h2, rfl⟩
  · rintro ⟨rest, c, h1, h2, rfl⟩
    exact ⟨rest, _, h1, by rw [h2]; rfl, rfl⟩

theorem mapToErrno_ok {α : Type} {reason : Str} {x : C α} {s s' : Proc} {a : α} :
    mapToErrno reason x s = .ok a s' ↔ x s = .ok a s' := by
  unfold mapToErrno
  cases x s with
  | err e s1 =>
    simp only
    unfold println
    cases s1.files 1 <;> simp
  | _ => rfl

theorem println_eq (t : Str) (s : Proc) : ∃ w, println t s = .ok () { s with written := w ++ s.written } := by
  unfold println
  cases s.files 1 with
  | none => exact ⟨[], rfl⟩
  | some f => exact ⟨[(f.object, t)], rfl⟩

/-! ## The names of capabilities -/

theorem capName_capNames : ∀ (i : Fin capNames.length),
    capName (Fin.ofNat 64 i) = some capNames[i] := by decide +kernel

theorem capFromStr_iff {n : Str} {c : Cap} : capFromStr n = some c ↔ capName c = some n := by
  constructor
  · intro h
    unfold capFromStr at h
    rw [Option.map_eq_some_iff] at h
    obtain ⟨i, h1, rfl⟩ := h
    rw [List.findIdx?_eq_some_iff_getElem] at h1
    obtain ⟨hi, h1, -⟩ := h1
    have hn : capNames[i] = n := by simpa using h1
    subst hn
    exact capName_capNames ⟨i, hi⟩
  · intro h
    have hall : ∀ c : Cap, ∀ n ∈ capName c, capFromStr n = some c := by decide +kernel
    exact hall c n h

/-- What is known about the configured capabilities. -/
theorem knownCaps_eq (names : List Str) (acc : List Cap) (s : Proc) :
    ∃ l w, knownCaps names acc s = .ok l { s with written := w ++ s.written } ∧
      ∀ c, c ∈ l ↔ c ∈ acc ∨ Configured names c := by
  induction names generalizing acc s with
  | nil => exact ⟨acc, [], rfl, fun c => by simp [Configured]⟩
  | cons n names ih =>
    unfold knownCaps
    cases hc : capFromStr n with
    | some c =>
      obtain ⟨l, w, h1, h2⟩ := ih (if c ∈ acc then acc else acc ++ [c]) s
      refine ⟨l, w, h1, fun d => ?_⟩
      rw [h2]
      have hd : d = c ↔ capName d = some n := by
        rw [← capFromStr_iff, hc]
        exact ⟨fun h => by rw [h], fun h => (Option.some.inj h).symm⟩
      have hcons : Configured (n :: names) d ↔ d = c ∨ Configured names d := by
        rw [hd]
        unfold Configured
        constructor
        · rintro ⟨m, h3, h4⟩
          rcases List.mem_cons.mp h4 with rfl | h4
          · exact .inl h3
          · exact .inr ⟨m, h3, h4⟩
        · rintro (h3 | ⟨m, h3, h4⟩)
          · exact ⟨n, h3, by simp⟩
          · exact ⟨m, h3, by simp [h4]⟩
      rw [hcons]
      split
      · rename_i hm
        constructor
        · rintro (h | h)
          · exact .inl h
          · exact .inr (.inr h)
        · rintro (h | rfl | h)
          · exact .inl h
          · exact .inl hm
          · exact .inr h
      · rw [List.mem_append, List.mem_singleton, or_assoc]
    | none =>
      obtain ⟨w1, hw⟩ := println_eq ("Failed to set ".toList ++ n) s
      obtain ⟨l, w, h1, h2⟩ := ih acc { s with written := w1 ++ s.written }
      refine ⟨l, w ++ w1, ?_, fun d => ?_⟩
      · change C.bind _ _ s = _
        unfold C.bind
        rw [hw]
        simp only
        rw [h1]
        simp
      · rw [h2]
        have hcons : Configured (n :: names) d ↔ Configured names d := by
          unfold Configured
          constructor
          · rintro ⟨m, h3, h4⟩
            rcases List.mem_cons.mp h4 with rfl | h4
            · rw [← capFromStr_iff, hc] at h3; cases h3
            · exact ⟨m, h3, h4⟩
          · rintro ⟨m, h3, h4⟩
            exact ⟨m, h3, by simp [h4]⟩
        rw [hcons]

theorem mem_insertCap {c d : Cap} {l : List Cap} : c ∈ insertCap d l ↔ c ∈ l ∨ c = d := by
  unfold insertCap
  split
  · rename_i h
    constructor
    · exact .inl
    · rintro (h' | rfl) <;> assumption
  · simp

/-! ## The credentials -/

end Child

namespace Cred

theorem capset_some {c d : Cred} {e p i : Caps} : c.capset e p i = some d ↔
    ((c.effective capSetpcap = true ∨ i.Subset (c.inheritable.union c.permitted)) ∧
      i.Subset (c.inheritable.union c.bounding) ∧ p.Subset c.permitted ∧ e.Subset p) ∧
    d = { c with effective := e, permitted := p, inheritable := i,
                 ambient := c.ambient.inter (p.inter i) } := by
  unfold capset
  split
  · rename_i h
    simp only [Option.some.injEq, h, true_and]
    exact eq_comm
  · rename_i h
    simp [h]

@[simp] theorem fixup_ruid (c d : Cred) : (c.fixup d).ruid = d.ruid := by
  unfold fixup; simp only; split_ifs <;> rfl
@[simp] theorem fixup_euid (c d : Cred) : (c.fixup d).euid = d.euid := by
  unfold fixup; simp only; split_ifs <;> rfl
@[simp] theorem fixup_suid (c d : Cred) : (c.fixup d).suid = d.suid := by
  unfold fixup; simp only; split_ifs <;> rfl
@[simp] theorem fixup_rgid (c d : Cred) : (c.fixup d).rgid = d.rgid := by
  unfold fixup; simp only; split_ifs <;> rfl
@[simp] theorem fixup_egid (c d : Cred) : (c.fixup d).egid = d.egid := by
  unfold fixup; simp only; split_ifs <;> rfl
@[simp] theorem fixup_sgid (c d : Cred) : (c.fixup d).sgid = d.sgid := by
  unfold fixup; simp only; split_ifs <;> rfl
@[simp] theorem fixup_groups (c d : Cred) : (c.fixup d).groups = d.groups := by
  unfold fixup; simp only; split_ifs <;> rfl
@[simp] theorem fixup_bounding (c d : Cred) : (c.fixup d).bounding = d.bounding := by
  unfold fixup; simp only; split_ifs <;> rfl
@[simp] theorem fixup_inheritable (c d : Cred) : (c.fixup d).inheritable = d.inheritable := by
  unfold fixup; simp only; split_ifs <;> rfl
@[simp] theorem fixup_noRoot (c d : Cred) : (c.fixup d).noRoot = d.noRoot := by
  unfold fixup; simp only; split_ifs <;> rfl

theorem setKeepCaps_some {c d : Cred} {b : Bool} (h : c.setKeepCaps b = some d) :
    d = { c with keepCaps := b } := by
  unfold setKeepCaps at h
  split at h
  · cases h
  · injection h with h; exact h.symm

theorem setgid_some {c d : Cred} {g : Nat} (hc : c.effective capSetgid = true)
    (h : c.setgid g = some d) : d = { c with rgid := g, egid := g, sgid := g } := by
  unfold setgid at h
  rw [if_pos hc] at h
  injection h with h; exact h.symm

theorem setgroups_some {c d : Cred} {g : List Nat} (h : c.setgroups g = some d) :
    d = { c with groups := g } := by
  unfold setgroups at h
  split at h
  · injection h with h; exact h.symm
  · cases h

theorem setuid_some {c d : Cred} {u : Nat} (hc : c.effective capSetuid = true)
    (h : c.setuid u = some d) : d = c.fixup { c with ruid := u, euid := u, suid := u } := by
  unfold setuid at h
  rw [if_pos hc] at h
  injection h with h; exact h.symm

/-- The effect of the whole sequence of calls. -/
theorem chain {c0 c1 c2 c3 c4 c5 c6 c7 c8 c9 c10 c11 c12 c13 c14 : Cred} {T A : Caps}
    {uid gid : Nat} (hu : T capSetuid = true) (hg : T capSetgid = true)
    (e1 : c0.capset c0.effective c0.permitted T = some c1)
    (e2 : c1.capset T c1.permitted c1.inheritable = some c2)
    (e3 : c2.setKeepCaps true = some c3) (e4 : c3.setgid gid = some c4)
    (e5 : c4.setgroups [gid] = some c5) (e6 : c5.setuid uid = some c6)
    (e7 : c6.setKeepCaps false = some c7)
    (e8 : c7.capset c7.effective c7.permitted T = some c8)
    (e9 : c8.capset T c8.permitted c8.inheritable = some c9)
    (e10 : c9.ambientClear = some c10) (e11 : c10.ambientClear = some c11)
    (e12 : c12 = { c11 with ambient := fun c => c11.ambient c || A c })
    (e13 : c12.capset c12.effective c12.permitted A = some c13)
    (e14 : c13.capset A c13.permitted c13.inheritable = some c14) :
    c14.ruid = uid ∧ c14.euid = uid ∧ c14.suid = uid ∧ c14.rgid = gid ∧ c14.egid = gid ∧
    c14.sgid = gid ∧ c14.groups = [gid] ∧ c14.effective = A ∧ c14.inheritable = A ∧
    c14.ambient = A ∧ c14.bounding = c0.bounding ∧ c14.noRoot = c0.noRoot := by
  rw [capset_some] at e1 e2 e8 e9 e13 e14
  have f2 : c2.effective = T := by rw [e2.2]
  have g3 := setKeepCaps_some e3
  have f3 : c3.effective = T := by rw [g3]; exact f2
  have g4 := setgid_some (by rw [f3]; exact hg) e4
  have f4 : c4.effective = T := by rw [g4]; exact f3
  have g5 := setgroups_some e5
  have f5 : c5.effective = T := by rw [g5]; exact f4
  have g6 := setuid_some (by rw [f5]; exact hu) e6
  have g7 := setKeepCaps_some e7
  have g10 : c10 = { c9 with ambient := Caps.empty } := (Option.some.inj e10).symm
  have g11 : c11 = { c10 with ambient := Caps.empty } := (Option.some.inj e11).symm
  have hsub : ∀ c, A c = true → c13.permitted c = true := e14.1.2.2.2
  have hp : c13.permitted = c12.permitted := by rw [e13.2]
  have ha12 : c12.ambient = A := by rw [e12, g11]; funext c; simp [Caps.empty]
  have hi13 : c13.inheritable = A := by rw [e13.2]
  have ha13 : c13.ambient = A := by
    rw [e13.2]
    funext c
    simp only [Caps.inter, ha12, ← hp]
    cases hc : A c with
    | false => rfl
    | true => simp [hsub c hc]
  have ha14 : c14.ambient = A := by
    rw [e14.2]
    funext c
    simp only [Caps.inter, ha13, hi13]
    cases hc : A c with
    | false => rfl
    | true => simp [hsub c hc]
  have hi14 : c14.inheritable = A := by rw [e14.2]; exact hi13
  have he14 : c14.effective = A := by rw [e14.2]
  have s1 : c6.ruid = uid ∧ c6.euid = uid ∧ c6.suid = uid ∧ c6.rgid = gid ∧ c6.egid = gid ∧
      c6.sgid = gid ∧ c6.groups = [gid] ∧ c6.bounding = c5.bounding ∧ c6.noRoot = c5.noRoot := by
    rw [g6]
    simp only [fixup_ruid, fixup_euid, fixup_suid, fixup_rgid, fixup_egid, fixup_sgid,
      fixup_groups, fixup_bounding, fixup_noRoot, true_and, and_true]
    rw [g5, g4]
    exact ⟨rfl, rfl, rfl, rfl⟩
  have s2 : c5.bounding = c0.bounding ∧ c5.noRoot = c0.noRoot := by
    rw [g5, g4, g3, e2.2, e1.2]
    exact ⟨rfl, rfl⟩
  have s3 : c14.ruid = c6.ruid ∧ c14.euid = c6.euid ∧ c14.suid = c6.suid ∧ c14.rgid = c6.rgid ∧
      c14.egid = c6.egid ∧ c14.sgid = c6.sgid ∧ c14.groups = c6.groups ∧
      c14.bounding = c6.bounding ∧ c14.noRoot = c6.noRoot := by
    rw [e14.2, e13.2, e12, g11, g10, e9.2, e8.2, g7]
    exact ⟨rfl, rfl, rfl, rfl, rfl, rfl, rfl, rfl, rfl⟩
  obtain ⟨r1, r2, r3, r4, r5, r6, r7, r8, r9⟩ := s3
  obtain ⟨t1, t2, t3, t4, t5, t6, t7, t8, t9⟩ := s1
  exact ⟨r1.trans t1, r2.trans t2, r3.trans t3, r4.trans t4, r5.trans t5, r6.trans t6, r7.trans t7,
    he14, hi14, ha14, (r8.trans t8).trans s2.1, (r9.trans t9).trans s2.2⟩

end Cred

namespace Child

open Spec

/-- The child after successful calls. -/
structure After (s s' : Proc) (calls : List Call) : Prop where
  files : s'.files = s.files
  mask : s'.mask = s.mask
  ignored : s'.ignored = s.ignored
  cwd : s'.cwd = s.cwd
  calls : s'.calls = calls.reverse.map (·, true) ++ s.calls

theorem After.trans {s1 s2 s3 : Proc} {c d : List Call} (h1 : After s1 s2 c) (h2 : After s2 s3 d) :
    After s1 s3 (c ++ d) where
  files := h2.files.trans h1.files
  mask := h2.mask.trans h1.mask
  ignored := h2.ignored.trans h1.ignored
  cwd := h2.cwd.trans h1.cwd
  calls := by rw [h2.calls, h1.calls]; simp

theorem sysCred_after {call : Call} {act : Cred → Option Cred} {s s' : Proc}
    (h : sysCred call act s = .ok () s') : act s.cred = some s'.cred ∧ After s s' [call] := by
  rw [sysCred_ok] at h
  obtain ⟨rest, c, h1, h2, rfl⟩ := h
  exact ⟨h2, ⟨rfl, rfl, rfl, rfl, rfl⟩⟩

theorem capget_after {s s' : Proc} (h : sys .capget some s = .ok () s') :
    s'.cred = s.cred ∧ After s s' [.capget] := by
  rw [sys_ok] at h
  obtain ⟨rest, t, h1, h2, rfl⟩ := h
  cases h2
  exact ⟨rfl, ⟨rfl, rfl, rfl, rfl, rfl⟩⟩

theorem applyInheritable_after {caps : List Cap} {s s' : Proc}
    (h : applyInheritable caps s = .ok () s') :
    s.cred.capset s.cred.effective s.cred.permitted (Caps.ofList caps) = some s'.cred ∧
      After s s' [.capget, .capsetInheritable caps] := by
  unfold applyInheritable at h
  rw [bind_ok] at h
  obtain ⟨_, s1, h1, h2⟩ := h
  obtain ⟨hc, ha⟩ := capget_after h1
  obtain ⟨h3, h4⟩ := sysCred_after h2
  rw [hc] at h3
  exact ⟨h3, ha.trans h4⟩

theorem applyEffective_after {caps : List Cap} {s s' : Proc}
    (h : applyEffective caps s = .ok () s') :
    s.cred.capset (Caps.ofList caps) s.cred.permitted s.cred.inheritable = some s'.cred ∧
      After s s' [.capget, .capsetEffective caps] := by
  unfold applyEffective at h
  rw [bind_ok] at h
  obtain ⟨_, s1, h1, h2⟩ := h
  obtain ⟨hc, ha⟩ := capget_after h1
  obtain ⟨h3, h4⟩ := sysCred_after h2
  rw [hc] at h3
  exact ⟨h3, ha.trans h4⟩

theorem raiseAll_after {caps : List Cap} {s s' : Proc} (h : raiseAll caps s = .ok () s') :
    s'.cred = { s.cred with ambient := fun c => s.cred.ambient c || caps.contains c } ∧
      After s s' (caps.map .ambientRaise) := by
  induction caps generalizing s with
  | nil =>
    obtain ⟨-, rfl⟩ := pure_ok.mp h
    exact ⟨by simp, ⟨rfl, rfl, rfl, rfl, rfl⟩⟩
  | cons c caps ih =>
    unfold raiseAll at h
    rw [bind_ok] at h
    obtain ⟨_, s1, h1, h2⟩ := h
    obtain ⟨h3, h4⟩ := sysCred_after h1
    obtain ⟨h5, h6⟩ := ih h2
    refine ⟨?_, h4.trans h6⟩
    rw [h5]
    unfold Cred.ambientRaise at h3
    split at h3
    · injection h3 with h3
      rw [← h3]
      simp only [Caps.insert, Cred.mk.injEq, true_and, and_true]
      funext d
      rw [Bool.eq_iff_iff]
      simp only [Bool.or_eq_true, beq_iff_eq, List.contains_iff_mem, List.mem_cons]
      exact ⟨by rintro ((h | h) | h) <;> simp [h], by rintro (h | h | h) <;> simp [h]⟩
    · cases h3

/-- The calls that prepare the execution of a program for a user, with the configured
capabilities `actual`, `temporary` during the change, raised in the order `order`. -/
def expected (p : Process) (temporary actual order : List Cap) : List Call :=
  [.capget, .capsetInheritable temporary, .capget, .capsetEffective temporary, .keepCaps true,
   .setgid p.gid, .setgroups [p.gid], .setuid p.uid, .keepCaps false, .capget,
   .capsetInheritable temporary, .capget, .capsetEffective temporary, .ambientClear,
   .ambientClear] ++ order.map .ambientRaise ++
  [.capget, .capsetInheritable actual, .capget, .capsetEffective actual]

theorem setUserAndCaps_after {ord : HashOrder} {reason : Str} {p : Process} {s s' : Proc}
    (h : setUserAndCaps ord reason p s = .ok () s') :
    ∃ temporary actual order, (∀ c, c ∈ actual ↔ Configured p.capabilities c) ∧
      (∀ c, c ∈ temporary ↔ c ∈ actual ∨ c ∈ [capSetuid, capSetgid, capSetpcap, capSetfcap]) ∧
      order.Perm actual ∧
      After s s' (expected p temporary actual order) ∧
      s'.cred.ruid = p.uid ∧ s'.cred.euid = p.uid ∧ s'.cred.suid = p.uid ∧
      s'.cred.rgid = p.gid ∧ s'.cred.egid = p.gid ∧ s'.cred.sgid = p.gid ∧
      s'.cred.groups = [p.gid] ∧ s'.cred.effective = configured p.capabilities ∧
      s'.cred.inheritable = configured p.capabilities ∧
      s'.cred.ambient = configured p.capabilities ∧
      s'.cred.bounding = s.cred.bounding ∧ s'.cred.noRoot = s.cred.noRoot := by
  unfold setUserAndCaps at h
  rw [bind_ok] at h
  obtain ⟨actual, s0, h0, h⟩ := h
  obtain ⟨l, w, hk, hl⟩ := knownCaps_eq p.capabilities [] s
  rw [hk] at h0
  injection h0 with h01 h02
  subst h01
  have hs0 : After s s0 [] := by rw [← h02]; exact ⟨rfl, rfl, rfl, rfl, rfl⟩
  have hc0 : s0.cred = s.cred := by rw [← h02]
  have hact : ∀ c, c ∈ l ↔ Configured p.capabilities c := fun c => by rw [hl]; simp
  have htemp : ∀ c, c ∈ insertCap capSetfcap (insertCap capSetpcap (insertCap capSetgid
      (insertCap capSetuid l))) ↔ c ∈ l ∨ c ∈ [capSetuid, capSetgid, capSetpcap, capSetfcap] := by
    intro c
    simp only [mem_insertCap, List.mem_cons, List.not_mem_nil, or_false, or_assoc]
  generalize insertCap capSetfcap (insertCap capSetpcap (insertCap capSetgid
      (insertCap capSetuid l))) = temp at h htemp
  simp only [bind_ok, mapToErrno_ok] at h
  obtain ⟨_, s1, h1, _, s2, h2, _, s3, h3, _, s4, h4, _, s5, h5, _, s6, h6, _, s7, h7, _, s8, h8,
    _, s9, h9, _, s10, h10, _, s11, h11, _, s12, h12, h13⟩ := h
  obtain ⟨e1, a1⟩ := applyInheritable_after h1
  obtain ⟨e2, a2⟩ := applyEffective_after h2
  obtain ⟨e3, a3⟩ := sysCred_after h3
  obtain ⟨e4, a4⟩ := sysCred_after h4
  obtain ⟨e5, a5⟩ := sysCred_after h5
  obtain ⟨e6, a6⟩ := sysCred_after h6
  obtain ⟨e7, a7⟩ := sysCred_after h7
  obtain ⟨e8, a8⟩ := applyInheritable_after h8
  obtain ⟨e9, a9⟩ := applyEffective_after h9
  obtain ⟨e10, a10⟩ := sysCred_after h10
  unfold applyAmbient at h11
  rw [bind_ok] at h11
  obtain ⟨_, s11', h11a, h11b⟩ := h11
  obtain ⟨e11a, a11a⟩ := sysCred_after h11a
  obtain ⟨e11, a11⟩ := raiseAll_after h11b
  obtain ⟨e12, a12⟩ := applyInheritable_after h12
  obtain ⟨e13, a13⟩ := applyEffective_after h13
  refine ⟨temp, l, ord.apply l, hact, htemp, ord.perm l, ?_, ?_⟩
  · have := hs0.trans (a1.trans (a2.trans (a3.trans (a4.trans (a5.trans (a6.trans (a7.trans (a8.trans
      (a9.trans (a10.trans (a11a.trans (a11.trans (a12.trans a13)))))))))))))
    simpa [expected] using this
  have hA : Caps.ofList l = configured p.capabilities := by
    funext c
    rw [Bool.eq_iff_iff]
    simp [Caps.ofList, configured, hact]
  have hT : ∀ c, c ∈ [capSetuid, capSetgid, capSetpcap, capSetfcap] →
      Caps.ofList temp c = true := by
    intro c hc
    simp only [Caps.ofList, List.contains_iff_mem]
    exact (htemp c).mpr (.inr hc)
  have hord : (fun c => (ord.apply l).contains c) = Caps.ofList l := by
    funext c
    rw [Bool.eq_iff_iff]
    simp only [Caps.ofList, List.contains_iff_mem]
    exact (ord.perm l).mem_iff
  have g11 : s11.cred = { s11'.cred with
      ambient := fun c => s11'.cred.ambient c || Caps.ofList l c } := by
    rw [e11, ← hord]
  rw [hc0] at e1
  rw [← hA]
  exact Cred.chain (hT _ (by simp)) (hT _ (by simp)) e1 e2 e3 e4 e5 e6 e7 e8 e9 e10 e11a g11 e12 e13

/-! ## The whole set-up -/

theorem dup2Go_ok {a b : Nat} {l : List (Option Nat)} {s s' : Proc}
    (h : dup2Go a b l s = .ok () s') :
    ∃ k t, s.files.dup2 a b = some t ∧ s'.files = t ∧ s'.cred = s.cred ∧ s'.mask = s.mask ∧
      s'.ignored = s.ignored ∧ s'.cwd = s.cwd ∧
      s'.calls = (.dup2 a b, true) :: (List.replicate k (.dup2 a b, false) ++ s.calls) := by
  induction l generalizing s with
  | nil => cases h
  | cons o l ih =>
    have again : dup2Go a b l { s with calls := (.dup2 a b, false) :: s.calls } = .ok () s' →
        ∃ k t, s.files.dup2 a b = some t ∧ s'.files = t ∧ s'.cred = s.cred ∧ s'.mask = s.mask ∧
          s'.ignored = s.ignored ∧ s'.cwd = s.cwd ∧
          s'.calls = (.dup2 a b, true) :: (List.replicate k (.dup2 a b, false) ++ s.calls) := by
      intro h
      obtain ⟨k, t, h1, h2, h3, h4, h5, h6, h7⟩ := ih h
      exact ⟨k + 1, t, h1, h2, h3, h4, h5, h6, by rw [h7, List.replicate_succ']; simp⟩
    cases o with
    | some e => exact again h
    | none =>
      unfold dup2Go at h
      cases hd : s.files.dup2 a b with
      | none => rw [hd] at h; obtain ⟨k, t, h1, -⟩ := again h; rw [hd] at h1; cases h1
      | some t =>
        rw [hd] at h
        injection h with _ h
        rw [← h]
        exact ⟨0, t, rfl, rfl, rfl, rfl, rfl, rfl, rfl⟩

/-- The program as it begins to run, in terms of what was configured and of the state of the
child. -/
theorem setupBody_ok {ord : HashOrder} {reason : Str} {disk : Disk} {p : Process}
    {stdout stderr : Nat} {s s' : Proc} {image : Image}
    (h : setupBody ord reason disk p stdout stderr s = .ok image s') :
    ∃ (t1 t2 : Files) (c : Cred) (k1 k2 : Nat) (temporary actual order : List Cap),
      s.files.dup2 stdout 1 = some t1 ∧ t1.dup2 stderr 2 = some t2 ∧
      image.files = ((t2.close stdout).close stderr).exec ∧
      PathSearch.execvpe disk.path (disk.attempt c p.workdir) p.path = .found image.path image.file ∧
      image.args = p.args ∧ image.env = p.env ∧ image.mask = [] ∧
      image.ignored = s.ignored ∧ image.cwd = p.workdir ∧ image.cred = c.exec image.file ∧
      (∀ c, c ∈ actual ↔ Configured p.capabilities c) ∧
      (∀ c, c ∈ temporary ↔ c ∈ actual ∨ c ∈ [capSetuid, capSetgid, capSetpcap, capSetfcap]) ∧
      order.Perm actual ∧
      s'.calls = (.execvpe p.path p.args p.env, true) ::
        ((expected p temporary actual order).reverse.map (·, true) ++
          (.chdir p.workdir, true) :: (.sigprocmask [], true) ::
          (.dup2 stderr 2, true) :: (List.replicate k2 (.dup2 stderr 2, false) ++
          (.dup2 stdout 1, true) :: (List.replicate k1 (.dup2 stdout 1, false) ++ s.calls))) ∧
      c.ruid = p.uid ∧ c.euid = p.uid ∧ c.suid = p.uid ∧
      c.rgid = p.gid ∧ c.egid = p.gid ∧ c.sgid = p.gid ∧
      c.groups = [p.gid] ∧ c.effective = configured p.capabilities ∧
      c.inheritable = configured p.capabilities ∧ c.ambient = configured p.capabilities ∧
      c.bounding = s.cred.bounding ∧ c.noRoot = s.cred.noRoot := by
  unfold setupBody at h
  simp only [bind_ok] at h
  obtain ⟨_, s1, h1, _, s2, h2, _, s3, h3, _, s4, h4, _, s5, h5, _, s6, h6, _, s7, h7, h8⟩ := h
  obtain ⟨k1, t1, d1, d2, d3, d4, d5, d6, d7⟩ := dup2Go_ok h1
  obtain ⟨k2, t2, e1, e2, e3, e4, e5, e6, e7⟩ := dup2Go_ok h2
  rw [sys_ok] at h3
  obtain ⟨r3, t3, -, h3, rfl⟩ := h3
  cases h3
  injection h4 with _ h4
  injection h5 with _ h5
  have h6' : s6.files = s5.files ∧ s6.cred = s5.cred ∧ s6.mask = s5.mask ∧
      s6.ignored = s5.ignored ∧ s6.cwd = p.workdir ∧
      s6.calls = (.chdir p.workdir, true) :: s5.calls := by
    unfold setCurrentDir at h6
    by_cases hz : '\x00' ∈ p.workdir
    · rw [if_pos hz] at h6; cases h6
    · rw [if_neg hz, sys_ok] at h6
      obtain ⟨r6, t6, -, h6, rfl⟩ := h6
      cases h6
      exact ⟨rfl, rfl, rfl, rfl, rfl, rfl⟩
  obtain ⟨i1, i2, i3, i4, i5, i6⟩ := h6'
  obtain ⟨temp, act, order, j1, j2, j3, ja, j4, j5, j6, j7, j8, j9, j10, j11, j12, j13, j14, j15⟩ :=
    setUserAndCaps_after h7
  unfold exec at h8
  by_cases hz : '\x00' ∈ p.path
  · rw [if_pos hz] at h8; cases h8
  rw [if_neg hz] at h8
  unfold findAndExec at h8
  have hcwd : s7.cwd = p.workdir := by rw [ja.cwd, i5]
  cases ha : s7.answers with
  | nil => rw [ha] at h8; cases h8
  | cons o rest =>
  rw [ha] at h8
  cases o with
  | some e => cases h8
  | none =>
  dsimp only at h8
  rw [hcwd] at h8
  cases hx : PathSearch.execvpe disk.path (disk.attempt s7.cred p.workdir) p.path with
  | failed e => rw [hx] at h8; cases h8
  | found q g =>
  rw [hx] at h8
  injection h8 with h9 h10
  rw [← h9, ← h10]
  refine ⟨t1, t2, s7.cred, k1, k2, temp, act, order, d1, d2 ▸ e1, ?_, hx, rfl, rfl, ?_, ?_, ?_, rfl,
    j1, j2, j3, ?_, j4, j5, j6, j7, j8, j9, j10, j11, j12, j13, ?_, ?_⟩
  · change s7.files.exec = _
    rw [ja.files, i1, ← h5, ← h4, ← e2]
  · change s7.mask = _
    rw [ja.mask, i3, ← h5, ← h4]
  · change s7.ignored = _
    rw [ja.ignored, i4, ← h5, ← h4]
    exact e5.trans d5
  · change s7.cwd = _
    rw [ja.cwd, i5]
  · change _ :: s7.calls = _
    rw [ja.calls, i6, ← h5, ← h4]
    simp only [e7, d7]
  · rw [j14, i2, ← h5, ← h4]
    exact congrArg Cred.bounding (e3.trans d3)
  · rw [j15, i2, ← h5, ← h4]
    exact congrArg Cred.noRoot (e3.trans d3)

/-! ## Failures -/

/-- Nothing has failed for good, no program has been executed. -/
def Clean (calls : List (Call × Bool)) : Prop := ∀ x ∈ calls, ¬ Failed x ∧ ¬ Execs x

/-- Ending with an error is the same as ending with a failed call. -/
def Post {α : Type} (calls : List (Call × Bool)) : Ret α → Prop
  | .ok _ s' => ∃ new, s'.calls = new ++ calls ∧ Clean new
  | .err _ s' => ∃ call new, s'.calls = (call, false) :: (new ++ calls) ∧ ¬ Retried call ∧ Clean new
  | .panic _ s' => ∃ new, s'.calls = new ++ calls ∧ Clean new
  | .stuck s' => ∃ new, s'.calls = new ++ calls ∧ Clean new

def Strict {α : Type} (x : C α) : Prop := ∀ s, Post s.calls (x s)

theorem clean_nil : Clean [] := fun _ h => nomatch h

theorem Clean.append {a b : List (Call × Bool)} (ha : Clean a) (hb : Clean b) : Clean (a ++ b) := by
  intro x hx
  rcases List.mem_append.mp hx with h | h
  · exact ha x h
  · exact hb x h

theorem strict_pure {α : Type} (a : α) : Strict (pure a : C α) := fun _ => ⟨[], rfl, clean_nil⟩

theorem Strict.bind {α β : Type} {x : C α} {f : α → C β} (hx : Strict x) (hf : ∀ a, Strict (f a)) :
    Strict (x >>= f) := by
  intro s
  change Post s.calls (C.bind x f s)
  have h1 := hx s
  unfold C.bind
  cases hs : x s with
  | err e s1 => rw [hs] at h1; exact h1
  | panic e s1 => rw [hs] at h1; exact h1
  | stuck s1 => rw [hs] at h1; exact h1
  | ok a s1 =>
    rw [hs] at h1
    obtain ⟨n1, h1, c1⟩ := h1
    have h2 := hf a s1
    simp only
    cases hf' : f a s1 with
    | err e s2 =>
      rw [hf'] at h2
      obtain ⟨call, n2, h2, hr, c2⟩ := h2
      exact ⟨call, n2 ++ n1, by rw [h2, h1]; simp, hr, c2.append c1⟩
    | ok b s2 =>
      rw [hf'] at h2
      obtain ⟨n2, h2, c2⟩ := h2
      exact ⟨n2 ++ n1, by rw [h2, h1]; simp, c2.append c1⟩
    | panic b s2 =>
      rw [hf'] at h2
      obtain ⟨n2, h2, c2⟩ := h2
      exact ⟨n2 ++ n1, by rw [h2, h1]; simp, c2.append c1⟩
    | stuck s2 =>
      rw [hf'] at h2
      obtain ⟨n2, h2, c2⟩ := h2
      exact ⟨n2 ++ n1, by rw [h2, h1]; simp, c2.append c1⟩

/-- Executing a program. -/
def IsExec : Call → Prop
  | .execvpe _ _ _ => True
  | _ => False

theorem clean_success {call : Call} (h : ¬ IsExec call) : Clean [(call, true)] := by
  intro x hx
  rw [List.mem_singleton] at hx
  subst hx
  refine ⟨fun hf => Bool.noConfusion hf.1, ?_⟩
  rintro ⟨p, a, e, he⟩
  injection he with he
  subst he
  exact h trivial

theorem strict_sys {call : Call} {act : Proc → Option Proc} (h : ¬ IsExec call)
    (hr : ¬ Retried call) : Strict (sys call act) := by
  intro s
  unfold sys
  cases s.answers with
  | nil => exact ⟨[], rfl, clean_nil⟩
  | cons o rest =>
    cases o with
    | some e => exact ⟨call, [], rfl, hr, clean_nil⟩
    | none =>
      cases act s with
      | none => exact ⟨call, [], rfl, hr, clean_nil⟩
      | some t => exact ⟨[(call, true)], rfl, clean_success h⟩

theorem strict_println (t : Str) : Strict (println t) := by
  intro s
  obtain ⟨w, h⟩ := println_eq t s
  rw [h]
  exact ⟨[], rfl, clean_nil⟩

theorem strict_mapToErrno {α : Type} {reason : Str} {x : C α} (hx : Strict x) :
    Strict (mapToErrno reason x) := by
  intro s
  have h := hx s
  unfold mapToErrno
  cases hs : x s with
  | err e s1 =>
    rw [hs] at h
    obtain ⟨w, hw⟩ := println_eq ("capability error: ".toList ++ reason) s1
    simp only
    rw [hw]
    exact h
  | ok a s1 => rw [hs] at h; exact h
  | panic a s1 => rw [hs] at h; exact h
  | stuck s1 => rw [hs] at h; exact h

theorem strict_dup2Loop (a b : Nat) : Strict (dup2Loop a b) := by
  intro s
  unfold dup2Loop
  generalize s.answers = l
  have hfail : Clean [(.dup2 a b, false)] := by
    intro x hx
    rw [List.mem_singleton] at hx
    subst hx
    exact ⟨fun h => h.2 trivial, by rintro ⟨_, _, _, h⟩; cases h⟩
  induction l generalizing s with
  | nil => exact ⟨[], rfl, clean_nil⟩
  | cons o l ih =>
    have again : Post s.calls (dup2Go a b l { s with calls := (.dup2 a b, false) :: s.calls }) := by
      have := ih { s with calls := (.dup2 a b, false) :: s.calls }
      cases hd : dup2Go a b l { s with calls := (.dup2 a b, false) :: s.calls } with
      | err e s2 =>
        rw [hd] at this
        obtain ⟨call, n, h, hr, c⟩ := this
        exact ⟨call, n ++ [(.dup2 a b, false)], by rw [h]; simp, hr, c.append hfail⟩
      | ok _ s2 =>
        rw [hd] at this
        obtain ⟨n, h, c⟩ := this
        exact ⟨n ++ [(.dup2 a b, false)], by rw [h]; simp, c.append hfail⟩
      | panic _ s2 =>
        rw [hd] at this
        obtain ⟨n, h, c⟩ := this
        exact ⟨n ++ [(.dup2 a b, false)], by rw [h]; simp, c.append hfail⟩
      | stuck s2 =>
        rw [hd] at this
        obtain ⟨n, h, c⟩ := this
        exact ⟨n ++ [(.dup2 a b, false)], by rw [h]; simp, c.append hfail⟩
    cases o with
    | some e => exact again
    | none =>
      unfold dup2Go
      cases s.files.dup2 a b with
      | none => exact again
      | some t => exact ⟨[(.dup2 a b, true)], rfl, clean_success id⟩

theorem strict_knownCaps (names : List Str) (acc : List Cap) : Strict (knownCaps names acc) := by
  intro s
  obtain ⟨l, w, h, -⟩ := knownCaps_eq names acc s
  rw [h]
  exact ⟨[], rfl, clean_nil⟩

theorem strict_sysCred {call : Call} {act : Cred → Option Cred} (h : ¬ IsExec call)
    (hr : ¬ Retried call) : Strict (sysCred call act) := strict_sys h hr

theorem strict_applyInheritable (caps : List Cap) : Strict (applyInheritable caps) :=
  (strict_sys id id).bind fun _ => strict_sysCred id id

theorem strict_applyEffective (caps : List Cap) : Strict (applyEffective caps) :=
  (strict_sys id id).bind fun _ => strict_sysCred id id

theorem strict_raiseAll (caps : List Cap) : Strict (raiseAll caps) := by
  induction caps with
  | nil => exact strict_pure ()
  | cons c caps ih => exact (strict_sysCred id id).bind fun _ => ih

theorem strict_setUserAndCaps (ord : HashOrder) (reason : Str) (p : Process) :
    Strict (setUserAndCaps ord reason p) :=
  (strict_knownCaps _ _).bind fun _ =>
  (strict_mapToErrno (strict_applyInheritable _)).bind fun _ =>
  (strict_mapToErrno (strict_applyEffective _)).bind fun _ =>
  (strict_sysCred id id).bind fun _ =>
  (strict_sysCred id id).bind fun _ =>
  (strict_sysCred id id).bind fun _ =>
  (strict_sysCred id id).bind fun _ =>
  (strict_sysCred id id).bind fun _ =>
  (strict_mapToErrno (strict_applyInheritable _)).bind fun _ =>
  (strict_mapToErrno (strict_applyEffective _)).bind fun _ =>
  (strict_mapToErrno (strict_sysCred id id)).bind fun _ =>
  (strict_mapToErrno ((strict_sysCred id id).bind fun _ => strict_raiseAll _)).bind fun _ =>
  (strict_mapToErrno (strict_applyInheritable _)).bind fun _ =>
  strict_mapToErrno (strict_applyEffective _)

theorem strict_setCurrentDir (path : Str) : Strict (setCurrentDir path) := by
  unfold setCurrentDir
  split
  · exact fun s => ⟨_, [], rfl, id, clean_nil⟩
  · exact strict_sys id id

theorem strict_drop (fd : Nat) : Strict (drop fd) := fun _ => ⟨[], rfl, clean_nil⟩

/-- All but the execution. -/
def prepare (ord : HashOrder) (reason : Str) (p : Process) (stdout stderr : Nat) : C Unit := do
  dup2Loop stdout 1
  dup2Loop stderr 2
  sys (.sigprocmask []) fun s => some { s with mask := [] }
  drop stdout
  drop stderr
  setCurrentDir p.workdir
  setUserAndCaps ord reason p

theorem strict_prepare (ord : HashOrder) (reason : Str) (p : Process) (stdout stderr : Nat) :
    Strict (prepare ord reason p stdout stderr) :=
  (strict_dup2Loop _ _).bind fun _ =>
  (strict_dup2Loop _ _).bind fun _ =>
  (strict_sys id id).bind fun _ =>
  (strict_drop _).bind fun _ =>
  (strict_drop _).bind fun _ =>
  (strict_setCurrentDir _).bind fun _ => strict_setUserAndCaps _ _ _

/-! ## No aborts before the execution -/

def Calm {α : Type} (x : C α) : Prop := ∀ s q s', x s ≠ .panic q s'

theorem calm_pure {α : Type} (a : α) : Calm (pure a : C α) := fun _ _ _ h => nomatch h

theorem Calm.bind {α β : Type} {x : C α} {f : α → C β} (hx : Calm x) (hf : ∀ a, Calm (f a)) :
    Calm (x >>= f) := by
  intro s q s' h
  change C.bind x f s = _ at h
  unfold C.bind at h
  cases hs : x s with
  | ok a s1 => rw [hs] at h; exact hf a s1 q s' h
  | err e s1 => rw [hs] at h; cases h
  | stuck s1 => rw [hs] at h; cases h
  | panic r s1 => exact hx s r s1 hs

theorem calm_sys (call : Call) (act : Proc → Option Proc) : Calm (sys call act) := by
  intro s q s' h
  unfold sys at h
  split at h
  · cases h
  · cases h
  · split at h <;> cases h

theorem calm_mapToErrno {α : Type} {reason : Str} {x : C α} (hx : Calm x) :
    Calm (mapToErrno reason x) := by
  intro s q s' h
  unfold mapToErrno at h
  cases hs : x s with
  | err e s1 =>
    rw [hs] at h
    obtain ⟨w, hw⟩ := println_eq ("capability error: ".toList ++ reason) s1
    simp only at h
    rw [hw] at h
    cases h
  | ok a s1 => rw [hs] at h; cases h
  | stuck s1 => rw [hs] at h; cases h
  | panic r s1 => exact hx s r s1 hs

theorem calm_dup2Loop (a b : Nat) : Calm (dup2Loop a b) := by
  intro s q s' h
  unfold dup2Loop at h
  generalize s.answers = l at h
  induction l generalizing s with
  | nil => cases h
  | cons o l ih =>
    cases o with
    | some e => exact ih _ h
    | none =>
      unfold dup2Go at h
      split at h
      · exact ih _ h
      · cases h

theorem calm_knownCaps (names : List Str) (acc : List Cap) : Calm (knownCaps names acc) := by
  intro s q s' h
  obtain ⟨l, w, h', -⟩ := knownCaps_eq names acc s
  rw [h'] at h
  cases h

theorem calm_raiseAll (caps : List Cap) : Calm (raiseAll caps) := by
  induction caps with
  | nil => exact calm_pure ()
  | cons c caps ih => exact (calm_sys _ _).bind fun _ => ih

theorem calm_setUserAndCaps (ord : HashOrder) (reason : Str) (p : Process) :
    Calm (setUserAndCaps ord reason p) :=
  have hi : ∀ l, Calm (applyInheritable l) := fun _ => (calm_sys _ _).bind fun _ => calm_sys _ _
  have he : ∀ l, Calm (applyEffective l) := fun _ => (calm_sys _ _).bind fun _ => calm_sys _ _
  have hc : Calm clearAmbient := by unfold clearAmbient sysCred; exact calm_sys _ _
  (calm_knownCaps _ _).bind fun _ =>
  (calm_mapToErrno (hi _)).bind fun _ =>
  (calm_mapToErrno (he _)).bind fun _ =>
  (calm_sys _ _).bind fun _ =>
  (calm_sys _ _).bind fun _ =>
  (calm_sys _ _).bind fun _ =>
  (calm_sys _ _).bind fun _ =>
  (calm_sys _ _).bind fun _ =>
  (calm_mapToErrno (hi _)).bind fun _ =>
  (calm_mapToErrno (he _)).bind fun _ =>
  (calm_mapToErrno hc).bind fun _ =>
  (calm_mapToErrno (hc.bind fun _ => calm_raiseAll _)).bind fun _ =>
  (calm_mapToErrno (hi _)).bind fun _ =>
  calm_mapToErrno (he _)

theorem calm_setCurrentDir (path : Str) : Calm (setCurrentDir path) := by
  unfold setCurrentDir
  split
  · exact fun _ _ _ h => nomatch h
  · exact calm_sys _ _

theorem prepare_no_panic (ord : HashOrder) (reason : Str) (p : Process) (stdout stderr : Nat) :
    Calm (prepare ord reason p stdout stderr) :=
  (calm_dup2Loop _ _).bind fun _ =>
  (calm_dup2Loop _ _).bind fun _ =>
  (calm_sys _ _).bind fun _ =>
  Calm.bind (fun _ _ _ h => nomatch h) fun _ =>
  Calm.bind (fun _ _ _ h => nomatch h) fun _ =>
  (calm_setCurrentDir _).bind fun _ => calm_setUserAndCaps _ _ _

theorem bind_assoc {α β γ : Type} (x : C α) (f : α → C β) (g : β → C γ) :
    (x >>= f) >>= g = x >>= fun a => f a >>= g := by
  funext s
  change C.bind (C.bind x f) g s = C.bind x (fun a => C.bind (f a) g) s
  unfold C.bind
  cases x s <;> rfl

theorem setupBody_eq (ord : HashOrder) (reason : Str) (disk : Disk) (p : Process)
    (stdout stderr : Nat) : setupBody ord reason disk p stdout stderr =
      prepare ord reason p stdout stderr >>= fun _ => exec disk p := by
  unfold setupBody prepare
  simp only [bind_assoc]

def PostExec (p : Process) (calls : List (Call × Bool)) : Ret Image → Prop
  | .ok _ s' => ∃ new, s'.calls = (.execvpe p.path p.args p.env, true) :: (new ++ calls) ∧ Clean new
  | .err _ s' => ∃ call new, s'.calls = (call, false) :: (new ++ calls) ∧ ¬ Retried call ∧ Clean new
  | .panic _ s' => '\x00' ∈ p.path ∧ ∃ new, s'.calls = new ++ calls ∧ Clean new
  | .stuck s' => ∃ new, s'.calls = new ++ calls ∧ Clean new

/-- What is known of the calls at the end. -/
theorem setupBody_calls (ord : HashOrder) (reason : Str) (disk : Disk) (p : Process)
    (stdout stderr : Nat) (s : Proc) :
    PostExec p s.calls (setupBody ord reason disk p stdout stderr s) := by
  rw [setupBody_eq]
  have h := strict_prepare ord reason p stdout stderr s
  have hp : ∀ q s', prepare ord reason p stdout stderr s ≠ .panic q s' := by
    intro q s' hq
    exact prepare_no_panic _ _ _ _ _ s q s' hq
  change PostExec p s.calls (C.bind _ _ s)
  unfold C.bind
  cases hs : prepare ord reason p stdout stderr s with
  | err e s1 => rw [hs] at h; exact h
  | panic e s1 => exact absurd hs (hp _ _)
  | stuck s1 => rw [hs] at h; exact h
  | ok a s1 =>
    rw [hs] at h
    obtain ⟨n1, h1, c1⟩ := h
    simp only
    unfold exec
    by_cases hz : '\x00' ∈ p.path
    · rw [if_pos hz]
      exact ⟨hz, n1, h1, c1⟩
    · rw [if_neg hz]
      unfold findAndExec
      cases s1.answers with
      | nil => exact ⟨n1, h1, c1⟩
      | cons o rest =>
        cases o with
        | some e => exact ⟨_, n1, by rw [h1], id, c1⟩
        | none =>
          dsimp only
          cases PathSearch.execvpe disk.path (disk.attempt s1.cred s1.cwd) p.path with
          | failed e => exact ⟨_, n1, by rw [h1], id, c1⟩
          | found q g => exact ⟨n1, by rw [← h1], c1⟩

end Child

end Cinit
