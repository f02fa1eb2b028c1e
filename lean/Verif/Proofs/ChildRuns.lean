import Verif.Proofs.Child
/-!
# When the set-up of a program succeeds
-/

namespace Cinit

namespace Cred

/-- What the credentials have to allow, `T` being the capabilities needed. -/
structure Fit (c : Cred) (T : Caps) : Prop where
  permitted : T.Subset c.permitted
  bounding : T.Subset (c.inheritable.union c.bounding)
  consistent : c.effective.Subset c.permitted
  unlocked : c.keepCapsLocked = false
  ambient : c.noAmbientRaise = false

/-- The ambient set after raising capabilities. -/
def raised (c : Cred) (l : List Cap) : Cred :=
  { c with ambient := fun d => c.ambient d || l.contains d }

theorem fixup_permitted {c d : Cred} (h : c.keepCaps = true) : (c.fixup d).permitted = d.permitted := by
  unfold fixup; simp only [h, if_true]; split_ifs <;> rfl

theorem fixup_keepCapsLocked (c d : Cred) : (c.fixup d).keepCapsLocked = d.keepCapsLocked := by
  unfold fixup; simp only; split_ifs <;> rfl

theorem fixup_noAmbientRaise (c d : Cred) : (c.fixup d).noAmbientRaise = d.noAmbientRaise := by
  unfold fixup; simp only; split_ifs <;> rfl

theorem fixup_effective {c d : Cred} (h : c.keepCaps = true) (hd : d.effective.Subset d.permitted) :
    (c.fixup d).effective.Subset (c.fixup d).permitted := by
  rw [fixup_permitted h]
  unfold fixup
  simp only [h, if_true]
  split_ifs <;> first
    | exact hd
    | exact fun _ hc => Bool.noConfusion hc
    | exact fun _ hc => hc

theorem capset_exists {c : Cred} {e p i : Caps}
    (h : (c.effective capSetpcap = true ∨ i.Subset (c.inheritable.union c.permitted)) ∧
      i.Subset (c.inheritable.union c.bounding) ∧ p.Subset c.permitted ∧ e.Subset p) :
    ∃ d, c.capset e p i = some d ∧ d.permitted = p ∧ d.effective = e ∧ d.inheritable = i ∧
      d.keepCapsLocked = c.keepCapsLocked ∧ d.noAmbientRaise = c.noAmbientRaise :=
  ⟨_, capset_some.mpr ⟨h, rfl⟩, rfl, rfl, rfl, rfl, rfl⟩

/-- The calls on credentials succeed one after the other. -/
theorem available {c0 : Cred} {T A : Caps} {uid gid : Nat} (hf : c0.Fit T) (hA : A.Subset T)
    (hu : T capSetuid = true) (hg : T capSetgid = true) :
    ∃ c1 c2 c3 c4 c5 c6 c7 c8 c9 c10 c11 : Cred,
      c0.capset c0.effective c0.permitted T = some c1 ∧
      c1.capset T c1.permitted c1.inheritable = some c2 ∧
      c2.setKeepCaps true = some c3 ∧ c3.setgid gid = some c4 ∧
      c4.setgroups [gid] = some c5 ∧ c5.setuid uid = some c6 ∧
      c6.setKeepCaps false = some c7 ∧
      c7.capset c7.effective c7.permitted T = some c8 ∧
      c8.capset T c8.permitted c8.inheritable = some c9 ∧
      c9.ambientClear = some c10 ∧ c10.ambientClear = some c11 ∧
      A.Subset c11.permitted ∧ A.Subset c11.inheritable ∧ c11.noAmbientRaise = false ∧
      (∀ l, ∃ c12 c13, (c11.raised l).capset (c11.raised l).effective (c11.raised l).permitted A = some c12 ∧
        c12.capset A c12.permitted c12.inheritable = some c13) := by
  have refl : ∀ X : Caps, X.Subset X := fun _ _ h => h
  have inl : ∀ X Y Z : Caps, X.Subset Y → X.Subset (Y.union Z) := by
    intro X Y Z h c hc
    simp only [Caps.union, h c hc, Bool.true_or]
  have inr : ∀ X Y Z : Caps, X.Subset Z → X.Subset (Y.union Z) := by
    intro X Y Z h c hc
    simp only [Caps.union, h c hc, Bool.or_true]
  obtain ⟨c1, e1, p1, f1, i1, k1, n1⟩ := capset_exists (c := c0) (e := c0.effective)
    (p := c0.permitted) (i := T)
    ⟨.inr (inr _ _ _ hf.permitted), hf.bounding, refl _, hf.consistent⟩
  obtain ⟨c2, e2, p2, f2, i2, k2, n2⟩ := capset_exists (c := c1) (e := T) (p := c1.permitted)
    (i := c1.inheritable)
    ⟨.inr (inl _ _ _ (refl _)), inl _ _ _ (refl _), refl _, by rw [p1]; exact hf.permitted⟩
  rw [p1] at p2
  rw [i1] at i2
  rw [k1, hf.unlocked] at k2
  rw [n1, hf.ambient] at n2
  have e3 : c2.setKeepCaps true = some { c2 with keepCaps := true } := by
    unfold setKeepCaps
    rw [k2]
    rfl
  have e4 : ({ c2 with keepCaps := true } : Cred).setgid gid =
      some { c2 with keepCaps := true, rgid := gid, egid := gid, sgid := gid } := by
    unfold setgid
    rw [if_pos (by change c2.effective _ = _; rw [f2]; exact hg)]
  have e5 : ({ c2 with keepCaps := true, rgid := gid, egid := gid, sgid := gid } : Cred).setgroups
      [gid] = some { c2 with
        keepCaps := true, rgid := gid, egid := gid, sgid := gid, groups := [gid] } := by
    unfold setgroups
    rw [if_pos (by change c2.effective _ = _; rw [f2]; exact hg)]
  generalize hc5 : ({ c2 with
    keepCaps := true, rgid := gid, egid := gid, sgid := gid, groups := [gid] } : Cred) = c5 at e5
  have f5 : c5.effective = T := by rw [← hc5]; exact f2
  have e6 : c5.setuid uid =
      some (c5.fixup { c5 with ruid := uid, euid := uid, suid := uid }) := by
    unfold setuid
    rw [if_pos (by rw [f5]; exact hu)]
  generalize hc6 : c5.fixup { c5 with ruid := uid, euid := uid, suid := uid } = c6 at e6
  have kc5 : c5.keepCaps = true := by rw [← hc5]
  have p6 : c6.permitted = c0.permitted := by
    rw [← hc6, fixup_permitted kc5, ← hc5]; exact p2
  have i6 : c6.inheritable = T := by
    rw [← hc6, fixup_inheritable, ← hc5]; exact i2
  have k6 : c6.keepCapsLocked = false := by
    rw [← hc6, fixup_keepCapsLocked, ← hc5]; exact k2
  have n6 : c6.noAmbientRaise = false := by
    rw [← hc6, fixup_noAmbientRaise, ← hc5]; exact n2
  have s6 : c6.effective.Subset c6.permitted := by
    rw [← hc6]
    apply fixup_effective kc5
    change c5.effective.Subset c5.permitted
    rw [f5, ← hc5]
    change T.Subset c2.permitted
    rw [p2]
    exact hf.permitted
  have e7 : c6.setKeepCaps false = some { c6 with keepCaps := false } := by
    unfold setKeepCaps
    rw [k6]
    rfl
  generalize hc7 : ({ c6 with keepCaps := false } : Cred) = c7 at e7
  have p7 : c7.permitted = c0.permitted := by rw [← hc7]; exact p6
  have i7 : c7.inheritable = T := by rw [← hc7]; exact i6
  have n7 : c7.noAmbientRaise = false := by rw [← hc7]; exact n6
  have s7 : c7.effective.Subset c7.permitted := by rw [← hc7]; exact s6
  obtain ⟨c8, e8, p8, f8, i8, k8, n8⟩ := capset_exists (c := c7) (e := c7.effective)
    (p := c7.permitted) (i := T)
    ⟨.inr (inl _ _ _ (by rw [i7]; exact refl _)), inl _ _ _ (by rw [i7]; exact refl _), refl _, s7⟩
  rw [p7] at p8
  rw [n7] at n8
  obtain ⟨c9, e9, p9, f9, i9, k9, n9⟩ := capset_exists (c := c8) (e := T) (p := c8.permitted)
    (i := c8.inheritable)
    ⟨.inr (inl _ _ _ (refl _)), inl _ _ _ (refl _), refl _, by rw [p8]; exact hf.permitted⟩
  rw [p8] at p9
  rw [i8] at i9
  rw [n8] at n9
  have hAp : A.Subset c9.permitted := by
    rw [p9]; exact fun c hc => hf.permitted c (hA c hc)
  refine ⟨c1, c2, _, _, c5, c6, c7, c8, c9, _, _, e1, e2, e3, e4, e5, e6, e7, e8, e9, rfl, rfl,
    hAp, by rw [show _ = c9.inheritable from rfl, i9]; exact hA, n9, fun l => ?_⟩
  refine ⟨_, _, capset_some.mpr ⟨⟨.inr (inr _ _ _ hAp), inl _ _ _ ?_, refl _, ?_⟩, rfl⟩,
    capset_some.mpr ⟨⟨.inr (inl _ _ _ (refl _)), inl _ _ _ (refl _), refl _, hAp⟩, rfl⟩⟩
  · change A.Subset c9.inheritable
    rw [i9]; exact hA
  · change c9.effective.Subset c9.permitted
    rw [f9, p9]; exact hf.permitted

end Cred

namespace Child

open Spec

/-- The kernel does not refuse anything on its own account. -/
def Willing (s : Proc) : Prop := ∀ a ∈ s.answers, a = none

/-- A computation that does not fail and needs at most `n` answers, given `len` of them. -/
def Fine {α : Type} (len n : Nat) (P : Proc → Prop) : Ret α → Prop
  | .ok _ s' => Willing s' ∧ len ≤ s'.answers.length + n ∧ P s'
  | .err _ _ => False
  | .panic _ _ => False
  | .stuck _ => len < n

theorem fine_bind {α β : Type} {x : C α} {f : α → C β} {s : Proc} {n m : Nat} {P Q : Proc → Prop}
    (hx : Fine s.answers.length n P (x s))
    (hf : ∀ a s', x s = .ok a s' → Willing s' → P s' → Fine s'.answers.length m Q (f a s')) :
    Fine s.answers.length (n + m) Q ((x >>= f) s) := by
  change Fine _ _ _ (C.bind x f s)
  unfold C.bind
  cases hs : x s with
  | err e s1 => rw [hs] at hx; exact hx
  | panic e s1 => rw [hs] at hx; exact hx
  | stuck s1 =>
    rw [hs] at hx
    simp only [Fine] at hx ⊢
    omega
  | ok a s1 =>
    rw [hs] at hx
    obtain ⟨w1, l1, p1⟩ := hx
    have h2 := hf a s1 hs w1 p1
    simp only
    cases hf' : f a s1 with
    | err e s2 => rw [hf'] at h2; exact h2
    | panic e s2 => rw [hf'] at h2; exact h2
    | stuck s2 =>
      rw [hf'] at h2
      simp only [Fine] at h2 ⊢
      omega
    | ok b s2 =>
      rw [hf'] at h2
      exact ⟨h2.1, by have := h2.2.1; omega, h2.2.2⟩

/-- The computation does not fail; how many answers it needs and what it makes of the
credentials. -/
def Runs {α : Type} (x : C α) (s : Proc) (n : Nat) (c : Cred) : Prop :=
  Willing s → Fine s.answers.length n (fun s' => s'.cred = c) (x s)

theorem Runs.bind {α β : Type} {x : C α} {f : α → C β} {s : Proc} {c d : Cred} {n m : Nat}
    (hx : Runs x s n c)
    (hf : ∀ a s', x s = .ok a s' → s'.cred = c → Runs (f a) s' m d) :
    Runs (x >>= f) s (n + m) d := fun hw =>
  fine_bind (hx hw) fun a s' h w hc => hf a s' h hc w

theorem fine_sys {call : Call} {act : Proc → Option Proc} {s t : Proc} (h : act s = some t)
    (hw : Willing s) : Fine s.answers.length 1
      (fun s' => s'.cred = t.cred ∧ s'.files = t.files) (sys call act s) := by
  unfold sys
  cases ha : s.answers with
  | nil => simp [Fine]
  | cons o rest =>
    have ho : o = none := hw o (by rw [ha]; simp)
    subst ho
    rw [h]
    exact ⟨fun a hm => hw a (by rw [ha]; exact List.mem_cons_of_mem _ hm), by simp, rfl, rfl⟩

theorem Fine.weaken {α : Type} {len n : Nat} {P Q : Proc → Prop} {r : Ret α}
    (h : Fine len n P r) (hq : ∀ s, P s → Q s) : Fine len n Q r := by
  cases r with
  | ok a s => exact ⟨h.1, h.2.1, hq _ h.2.2⟩
  | err e s => exact h
  | panic e s => exact h
  | stuck s => exact h

theorem runs_sys {call : Call} {act : Proc → Option Proc} {s t : Proc} (h : act s = some t) :
    Runs (sys call act) s 1 t.cred := fun hw => (fine_sys h hw).weaken fun _ h => h.1

theorem runs_sysCred {call : Call} {act : Cred → Option Cred} {s : Proc} {c : Cred}
    (h : act s.cred = some c) : Runs (sysCred call act) s 1 c :=
  runs_sys (t := { s with cred := c }) (by rw [h]; rfl)

theorem runs_mapToErrno {α : Type} {reason : Str} {x : C α} {s : Proc} {c : Cred} {n : Nat}
    (h : Runs x s n c) : Runs (mapToErrno reason x) s n c := by
  intro hw
  have := h hw
  unfold mapToErrno
  cases hs : x s <;> rw [hs] at this <;> first | exact this | exact this.elim

theorem runs_applyInheritable {l : List Cap} {s : Proc} {c : Cred}
    (h : s.cred.capset s.cred.effective s.cred.permitted (Caps.ofList l) = some c) :
    Runs (applyInheritable l) s 2 c :=
  Runs.bind (runs_sys (t := s) rfl) fun _ _ _ hc => runs_sysCred (by rw [hc]; exact h)

theorem runs_applyEffective {l : List Cap} {s : Proc} {c : Cred}
    (h : s.cred.capset (Caps.ofList l) s.cred.permitted s.cred.inheritable = some c) :
    Runs (applyEffective l) s 2 c :=
  Runs.bind (runs_sys (t := s) rfl) fun _ _ _ hc => runs_sysCred (by rw [hc]; exact h)

theorem runs_raiseAll {l : List Cap} {s : Proc} (hp : ∀ c ∈ l, s.cred.permitted c = true)
    (hi : ∀ c ∈ l, s.cred.inheritable c = true) (hn : s.cred.noAmbientRaise = false) :
    Runs (raiseAll l) s l.length (s.cred.raised l) := by
  induction l generalizing s with
  | nil =>
    intro hw
    refine ⟨hw, Nat.le_add_right _ _, ?_⟩
    unfold Cred.raised
    simp
  | cons c l ih =>
    have h1 : s.cred.ambientRaise c = some { s.cred with ambient := Caps.insert c s.cred.ambient } := by
      unfold Cred.ambientRaise
      rw [if_pos ⟨hp c (by simp), hi c (by simp), by simp [hn]⟩]
    rw [List.length_cons, Nat.add_comm]
    refine Runs.bind (runs_sysCred h1) fun _ s1 _ hc => ?_
    have := ih (s := s1) (fun d hd => by rw [hc]; exact hp d (by simp [hd]))
      (fun d hd => by rw [hc]; exact hi d (by simp [hd])) (by rw [hc]; exact hn)
    have he : s1.cred.raised l = s.cred.raised (c :: l) := by
      rw [hc]
      unfold Cred.raised
      simp only [Caps.insert, Cred.mk.injEq, true_and, and_true]
      funext d
      rw [Bool.eq_iff_iff]
      simp only [Bool.or_eq_true, beq_iff_eq, List.contains_iff_mem, List.mem_cons]
      exact ⟨by rintro ((h | h) | h) <;> simp [h], by rintro (h | h | h) <;> simp [h]⟩
    rw [he] at this
    exact this

/-- The capabilities needed for a program. -/
def needed (names : List Str) : Caps := fun c =>
  configured names c || [capSetuid, capSetgid, capSetpcap, capSetfcap].contains c

theorem knownCaps_length {names : List Str} {acc l : List Cap} {s s' : Proc}
    (h : knownCaps names acc s = .ok l s') : l.length ≤ acc.length + names.length := by
  induction names generalizing acc s with
  | nil => injection h with h; rw [← h]; exact Nat.le_add_right _ _
  | cons n names ih =>
    unfold knownCaps at h
    rw [List.length_cons]
    cases hc : capFromStr n with
    | some c =>
      rw [hc] at h
      have := ih h
      split at this
      · omega
      · rw [List.length_append, List.length_singleton] at this
        omega
    | none =>
      rw [hc] at h
      simp only [bind_ok] at h
      obtain ⟨_, s1, -, h⟩ := h
      have := ih h
      omega

theorem Runs.mono {α : Type} {x : C α} {s : Proc} {n m : Nat} {c : Cred} (h : Runs x s n c)
    (hn : n ≤ m) : Runs x s m c := by
  intro hw
  have := h hw
  cases hs : x s <;> rw [hs] at this <;> simp only [Fine] at this ⊢
  · exact ⟨this.1, by omega, this.2.2⟩
  · omega

theorem runs_setUserAndCaps {ord : HashOrder} {reason : Str} {p : Process} {s : Proc}
    (hf : s.cred.Fit (needed p.capabilities)) :
    ∃ c, Runs (setUserAndCaps ord reason p) s (19 + p.capabilities.length) c := by
  obtain ⟨l, w, hk, hl⟩ := knownCaps_eq p.capabilities [] s
  have hA : Caps.ofList l = configured p.capabilities := by
    funext c
    rw [Bool.eq_iff_iff]
    simp [Caps.ofList, configured, hl]
  let temp := insertCap capSetfcap (insertCap capSetpcap (insertCap capSetgid
      (insertCap capSetuid l)))
  have hT : Caps.ofList temp = needed p.capabilities := by
    funext c
    rw [Bool.eq_iff_iff]
    simp only [needed, ← hA, Caps.ofList, temp, List.contains_iff_mem, mem_insertCap, List.mem_cons,
      List.not_mem_nil, or_false, Bool.or_eq_true, or_assoc]
  obtain ⟨c1, c2, c3, c4, c5, c6, c7, c8, c9, c10, c11, e1, e2, e3, e4, e5, e6, e7, e8, e9, e10, e11,
    q1, q2, q3, q4⟩ := Cred.available (A := configured p.capabilities) (uid := p.uid) (gid := p.gid) hf
      (fun c hc => by simp [needed, hc]) (by simp [needed]) (by simp [needed])
  rw [← hA] at q1 q2 q4
  rw [← hT] at e1 e2 e8 e9
  obtain ⟨c12, c13, e12, e13⟩ := q4 (ord.apply l)
  refine ⟨c13, ?_⟩
  have hmem : ∀ c, c ∈ ord.apply l → Caps.ofList l c = true := by
    intro c hc
    simp only [Caps.ofList, List.contains_iff_mem]
    exact (ord.perm l).mem_iff.mp hc
  have hlen := knownCaps_length hk
  refine Runs.mono (n := 0 + (2 + (2 + (1 + (1 + (1 + (1 + (1 + (2 + (2 + (1 + ((1 +
    (ord.apply l).length) + (2 + 2))))))))))))) ?_ (by
      rw [(ord.perm l).length_eq]; simp only [List.length_nil] at hlen; omega)
  unfold setUserAndCaps
  refine Runs.bind (c := s.cred) ?_ fun a s0 h0 hc0 => ?_
  · intro hw
    rw [hk]
    exact ⟨hw, Nat.le_add_right _ _, rfl⟩
  rw [hk] at h0
  injection h0 with h0
  subst h0
  refine Runs.bind (runs_mapToErrno (runs_applyInheritable (l := temp) (by rw [hc0]; exact e1)))
    fun _ s1 _ h1 => ?_
  refine Runs.bind (runs_mapToErrno (runs_applyEffective (l := temp) (by rw [h1]; exact e2)))
    fun _ s2 _ h2 => ?_
  refine Runs.bind (runs_sysCred (by rw [h2]; exact e3)) fun _ s3 _ h3 => ?_
  refine Runs.bind (runs_sysCred (by rw [h3]; exact e4)) fun _ s4 _ h4 => ?_
  refine Runs.bind (runs_sysCred (by rw [h4]; exact e5)) fun _ s5 _ h5 => ?_
  refine Runs.bind (runs_sysCred (by rw [h5]; exact e6)) fun _ s6 _ h6 => ?_
  refine Runs.bind (runs_sysCred (by rw [h6]; exact e7)) fun _ s7 _ h7 => ?_
  refine Runs.bind (runs_mapToErrno (runs_applyInheritable (l := temp) (by rw [h7]; exact e8)))
    fun _ s8 _ h8 => ?_
  refine Runs.bind (runs_mapToErrno (runs_applyEffective (l := temp) (by rw [h8]; exact e9)))
    fun _ s9 _ h9 => ?_
  refine Runs.bind (runs_mapToErrno (runs_sysCred (by rw [h9]; exact e10))) fun _ s10 _ h10 => ?_
  refine Runs.bind (c := c11.raised (ord.apply l)) (runs_mapToErrno ?_) fun _ s11 _ h11 => ?_
  · refine Runs.bind (runs_sysCred (by rw [h10]; exact e11)) fun _ s11 _ h11 => ?_
    have := runs_raiseAll (l := ord.apply l) (s := s11)
      (fun c hc => by rw [h11]; exact q1 c (hmem c hc))
      (fun c hc => by rw [h11]; exact q2 c (hmem c hc)) (by rw [h11]; exact q3)
    rwa [h11] at this
  refine Runs.bind (runs_mapToErrno (runs_applyInheritable (l := l) (by rw [h11]; exact e12)))
    fun _ s12 _ h12 => ?_
  exact runs_mapToErrno (runs_applyEffective (l := l) (by rw [h12]; exact e13))

theorem setUserAndCaps_needs {ord : HashOrder} {reason : Str} {p : Process} {s s' : Proc}
    (h : setUserAndCaps ord reason p s = .ok () s') :
    (needed p.capabilities).Subset s.cred.permitted := by
  unfold setUserAndCaps at h
  rw [bind_ok] at h
  obtain ⟨actual, s0, h0, h⟩ := h
  obtain ⟨l, w, hk, hl⟩ := knownCaps_eq p.capabilities [] s
  rw [hk] at h0
  injection h0 with h01 h02
  subst h01
  have hc0 : s0.cred = s.cred := by rw [← h02]
  simp only [bind_ok, mapToErrno_ok] at h
  obtain ⟨_, s1, h1, _, s2, h2, -⟩ := h
  obtain ⟨e1, -⟩ := applyInheritable_after h1
  obtain ⟨e2, -⟩ := applyEffective_after h2
  rw [Cred.capset_some] at e1 e2
  have hp : s1.cred.permitted = s.cred.permitted := by rw [e1.2, hc0]
  intro c hc
  rw [← hp]
  apply e2.1.2.2.2
  simp only [Caps.ofList, List.contains_iff_mem, mem_insertCap]
  simp only [needed, configured, Bool.or_eq_true, decide_eq_true_eq, List.contains_iff_mem,
    List.mem_cons, List.not_mem_nil, or_false] at hc
  rcases hc with hc | hc | hc | hc | hc
  · simp [(hl c).mpr (.inr hc)]
  all_goals simp [hc]

theorem fine_dup2 {a b : Nat} {s : Proc} {t : Files} (h : s.files.dup2 a b = some t)
    (hw : Willing s) : Fine s.answers.length 1
      (fun s' => s'.cred = s.cred ∧ s'.files = t) (dup2Loop a b s) := by
  unfold dup2Loop
  cases ha : s.answers with
  | nil => exact Nat.one_pos
  | cons o rest =>
    have ho : o = none := hw o (by rw [ha]; simp)
    subst ho
    unfold dup2Go
    rw [h]
    exact ⟨fun a hm => hw a (by rw [ha]; exact List.mem_cons_of_mem _ hm), by simp, rfl, rfl⟩

theorem dup2_some {t : Files} {a b : Nat} (h : t a ≠ none) :
    ∃ t', t.dup2 a b = some t' ∧ ∀ n, n ≠ b → t' n = t n := by
  unfold Files.dup2
  cases ha : t a with
  | none => exact absurd ha h
  | some f =>
    simp only
    split
    · exact ⟨_, rfl, fun _ _ => rfl⟩
    · exact ⟨_, rfl, fun n hn => by simp [Files.set, hn]⟩

theorem setupBody_fine {ord : HashOrder} {reason : Str} {disk : Disk} {p : Process}
    {stdout stderr : Nat} {s : Proc} (hw : Willing s) (hf : s.cred.Fit (needed p.capabilities))
    (h1 : s.files stdout ≠ none) (h2 : s.files stderr ≠ none) (h3 : stderr ≠ 1)
    (hp : '\x00' ∉ p.path) (hd : '\x00' ∉ p.workdir)
    (hx : ∀ c, ActsAs p c → ∃ q g,
      PathSearch.execvpe disk.path (disk.attempt c p.workdir) p.path = .found q g) :
    Fine s.answers.length (24 + p.capabilities.length) (fun _ => True)
      (setupBody ord reason disk p stdout stderr s) := by
  obtain ⟨t1, e1, k1⟩ := dup2_some (b := 1) h1
  obtain ⟨t2, e2, -⟩ := dup2_some (t := t1) (a := stderr) (b := 2) (by rw [k1 _ h3]; exact h2)
  have hc : ∀ s3 : Proc, s3.cred = s.cred →
      ∃ c, Runs (setUserAndCaps ord reason p) s3 (19 + p.capabilities.length) c :=
    fun s3 h3 => runs_setUserAndCaps (by rw [h3]; exact hf)
  have hn : 24 + p.capabilities.length =
      1 + (1 + (1 + (0 + (0 + (1 + ((19 + p.capabilities.length) + (1 + 0))))))) := by omega
  rw [hn]
  unfold setupBody
  refine fine_bind (fine_dup2 e1 hw) fun _ s1 _ w1 ⟨c1, f1⟩ => ?_
  refine fine_bind (fine_dup2 (t := t2) (by rw [f1]; exact e2) w1) fun _ s2 _ w2 ⟨c2, f2⟩ => ?_
  refine fine_bind (fine_sys rfl w2) fun _ s3 _ w3 ⟨c3, f3⟩ => ?_
  refine fine_bind (P := fun s' => s'.cred = s.cred)
    ⟨w3, Nat.le_add_right _ _, c3.trans (c2.trans c1)⟩ fun _ s4 _ w4 c4 => ?_
  refine fine_bind (P := fun s' => s'.cred = s.cred)
    ⟨w4, Nat.le_add_right _ _, c4⟩ fun _ s5 _ w5 c5 => ?_
  refine fine_bind (P := fun s' => s'.cred = s.cred) ?_ fun _ s6 hs6 w6 c6 => ?_
  · unfold setCurrentDir
    rw [if_neg hd]
    have := fine_sys (call := .chdir p.workdir) (act := fun s => some { s with cwd := p.workdir })
      (t := { s5 with cwd := p.workdir }) rfl w5
    exact this.weaken fun _ h => h.1.trans c5
  obtain ⟨c, hc⟩ := hc s6 c6
  refine fine_bind (hc w6) fun _ s7 hs7 w7 c7 => ?_
  have hcwd : s6.cwd = p.workdir := by
    unfold setCurrentDir at hs6
    rw [if_neg hd, sys_ok] at hs6
    obtain ⟨_, _, -, h6, rfl⟩ := hs6
    cases h6
    rfl
  obtain ⟨temp, act, order, -, -, -, ja, j4, j5, j6, j7, j8, j9, j10, j11, -⟩ :=
    setUserAndCaps_after hs7
  obtain ⟨q, g, hq⟩ := hx s7.cred ⟨⟨j4, j5, j6⟩, ⟨j7, j8, j9, j10⟩, j11⟩
  unfold exec
  rw [if_neg hp]
  unfold findAndExec
  rw [ja.cwd, hcwd]
  cases ha : s7.answers with
  | nil => exact Nat.one_pos
  | cons o rest =>
    have ho : o = none := w7 o (by rw [ha]; simp)
    subst ho
    dsimp only
    rw [hq]
    exact ⟨fun a hm => w7 a (by rw [ha]; exact List.mem_cons_of_mem _ hm), by simp, trivial⟩

end Child

end Cinit
