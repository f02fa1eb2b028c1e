import Verif.Spec.Sockets
/-!
# C83: the sockets cinit offers
-/

namespace Cinit.Props

open Cinit Spec Sockets

/-! ## Rules for the calls -/

/-- What a step does if it succeeds, and what if it fails. -/
private def Does {α : Type} (x : S α) (s : State) (good : α → State → Prop)
    (bad : State → Prop) : Prop :=
  match x s with
  | .ok a s' => good a s'
  | .err _ s' => bad s'

private theorem does_sys {α : Type} {act : State → Except Nat (α × State)} {s : State}
    {good : α → State → Prop} {bad : State → Prop}
    (h1 : ∀ a s', act s = .ok (a, s') → good a { s' with answers := s.answers.tail })
    (h2 : (∃ e, act s = .error e) ∨ ¬ Willing s → bad { s with answers := s.answers.tail }) :
    Does (sys act) s good bad := by
  unfold Does sys
  cases ha : s.answers.headD none with
  | some e =>
    refine h2 (.inr fun hw => ?_)
    cases hs : s.answers with
    | nil => rw [hs] at ha; cases ha
    | cons a as =>
      have := hw a (by rw [hs]; simp)
      rw [hs, this] at ha
      cases ha
  | none =>
    cases hb : act s with
    | error e => exact h2 (.inl ⟨e, hb⟩)
    | ok r => exact h1 r.1 r.2 hb

private theorem does_bind {α β : Type} {x : S α} {f : α → S β} {s : State}
    {good : β → State → Prop} {bad : State → Prop}
    (h : Does x s (fun a s' => Does (f a) s' good bad) bad) : Does (x >>= f) s good bad := by
  show Does (S.bind x f) s good bad
  unfold Does S.bind at *
  cases hx : x s with
  | ok a s' => rw [hx] at h; exact h
  | err e s' => rw [hx] at h; exact h

private theorem does_mono {α : Type} {x : S α} {s : State} {good good' : α → State → Prop}
    {bad bad' : State → Prop} (h : Does x s good bad) (h1 : ∀ a s', good a s' → good' a s')
    (h2 : ∀ s', bad s' → bad' s') : Does x s good' bad' := by
  unfold Does at *
  cases hx : x s with
  | ok a s' => rw [hx] at h; exact h1 _ _ h
  | err e s' => rw [hx] at h; exact h2 _ h

private theorem does_ok {α : Type} {x : S α} {s s' : State} {a : α} {good : α → State → Prop}
    {bad : State → Prop} (h : x s = .ok a s') : Does x s good bad ↔ good a s' := by
  unfold Does; rw [h]

private theorem does_err {α : Type} {x : S α} {s s' : State} {e : Nat} {good : α → State → Prop}
    {bad : State → Prop} (h : x s = .err e s') : Does x s good bad ↔ bad s' := by
  unfold Does; rw [h]

private theorem willing_tail {s s' : State} (h : s'.answers = s.answers.tail) (hw : Willing s) :
    Willing s' := fun a ha => hw a (List.mem_of_mem_tail (h ▸ ha))

/-! ## One socket -/

/-- What is left alone, whatever happens to `path` and to the socket `id`. -/
private structure Frame (s s' : State) (path : Str) (id : Nat) : Prop where
  nodes : ∀ p, p ≠ path → s'.nodes p = s.nodes p
  socks : ∀ i, i ≠ id → s'.socks[i]? = s.socks[i]?
  length : s'.socks.length = s.socks.length
  held : s'.held = s.held
  mask : s'.mask = s.mask
  willing : Willing s → Willing s'

private theorem Frame.trans {s s' s'' : State} {path : Str} {id : Nat} (h : Frame s s' path id)
    (h' : Frame s' s'' path id) : Frame s s'' path id :=
  ⟨fun p hp => (h'.nodes p hp).trans (h.nodes p hp), fun i hi => (h'.socks i hi).trans (h.socks i hi),
    h'.length.trans h.length, h'.held.trans h.held, h'.mask.trans h.mask,
    fun hw => h'.willing (h.willing hw)⟩

private theorem frame_answers (s : State) (path : Str) (id : Nat) :
    Frame s { s with answers := s.answers.tail } path id :=
  ⟨fun _ _ => rfl, fun _ _ => rfl, rfl, rfl, rfl, willing_tail rfl⟩

private theorem frame_put (s : State) (path : Str) (id : Nat) (n : Option Node) :
    Frame s { s.put path n with answers := s.answers.tail } path id :=
  ⟨fun p hp => by simp [State.put, hp], fun _ _ => rfl, rfl, rfl, rfl, willing_tail rfl⟩

private theorem frame_change (s : State) (path : Str) (id : Nat) (f : Sock → Sock) :
    Frame s { s.change id f with answers := s.answers.tail } path id :=
  ⟨fun _ _ => rfl, fun i hi => by simp [State.change, List.getElem?_modify, Ne.symm hi],
    by simp [State.change], rfl, rfl, willing_tail rfl⟩

private theorem offer_does {s : State} {path : Str} {stream : Bool} {id : Nat}
    (hid : s.socks[id]? = some { stream := stream }) :
    Does (offer path stream id) s
      (fun _ s' => Frame s s' path id ∧ s.nodes path = none ∧
        s'.nodes path = some (.socket id 0o777) ∧
        s'.socks[id]? = some { stream := stream, passCred := true, listening := stream })
      (fun s' => Frame s s' path id ∧ (Willing s → s.nodes path ≠ none)) := by
  unfold offer
  refine does_bind (does_sys (fun a s1 h1 => ?_) (fun h1 => ?_))
  · have hn : s.nodes path = none := by
      cases hn : s.nodes path with
      | none => rfl
      | some n => rw [hn] at h1; cases h1
    rw [hn] at h1
    simp only [Except.ok.injEq, Prod.mk.injEq, true_and] at h1
    subst h1
    have f1 := frame_put s path id (some (.socket id (0o777 - (0o777 &&& s.umask))))
    generalize hs1 : ({ s.put path _ with answers := _ } : State) = s1 at f1 ⊢
    have hn1 : s1.nodes path = some (.socket id (0o777 - (0o777 &&& s.umask))) := by
      rw [← hs1]; simp [State.put]
    have hk1 : s1.socks = s.socks := by rw [← hs1]; rfl
    refine does_bind (does_sys (fun a s2 h2 => ?_) (fun h2 => ?_))
    · rw [hn1] at h2
      simp only [Except.ok.injEq, Prod.mk.injEq, true_and] at h2
      subst h2
      have f2 := frame_put s1 path id (some (.socket id 0o777))
      generalize hs2 : ({ s1.put path _ with answers := _ } : State) = s2 at f2 ⊢
      have hn2 : s2.nodes path = some (.socket id 0o777) := by rw [← hs2]; simp [State.put]
      have hk2 : s2.socks = s.socks := by rw [← hs2, ← hk1]; rfl
      refine does_bind (does_sys (fun a s3 h3 => ?_) (fun h3 => ?_))
      · simp only [Except.ok.injEq, Prod.mk.injEq, true_and] at h3
        subst h3
        have f3 := frame_change s2 path id (fun x => { x with passCred := true })
        generalize hs3 : ({ s2.change id _ with answers := _ } : State) = s3 at f3 ⊢
        have hn3 : s3.nodes path = some (.socket id 0o777) := by rw [← hs3]; exact hn2
        have hk3 : s3.socks[id]? = some { stream := stream, passCred := true } := by
          rw [← hs3]; simp [State.change, List.getElem?_modify, hk2, hid]
        cases stream with
        | false => exact ⟨(f1.trans f2).trans f3, hn, hn3, hk3⟩
        | true =>
          rw [if_pos rfl]
          refine does_sys (fun a s4 h4 => ?_) (fun h4 => ?_)
          · simp only [Except.ok.injEq, Prod.mk.injEq, true_and] at h4
            subst h4
            refine ⟨((f1.trans f2).trans f3).trans (frame_change s3 path id _), hn, hn3, ?_⟩
            simp [State.change, List.getElem?_modify, hk3]
          · refine ⟨((f1.trans f2).trans f3).trans (frame_answers s3 path id), fun hw => ?_⟩
            rcases h4 with ⟨e, h4⟩ | h4
            · cases h4
            · exact absurd (((f1.trans f2).trans f3).willing hw) h4
      · refine ⟨(f1.trans f2).trans (frame_answers s2 path id), fun hw => ?_⟩
        rcases h3 with ⟨e, h3⟩ | h3
        · cases h3
        · exact absurd ((f1.trans f2).willing hw) h3
    · refine ⟨f1.trans (frame_answers s1 path id), fun hw => ?_⟩
      rcases h2 with ⟨e, h2⟩ | h2
      · rw [hn1] at h2; cases h2
      · exact absurd (f1.willing hw) h2
  · refine ⟨frame_answers s path id, fun hw => ?_⟩
    rcases h1 with ⟨e, h1⟩ | h1
    · intro hn; rw [hn] at h1; cases h1
    · exact absurd hw h1

private theorem remove_does {s : State} {path : Str} :
    Does (removeFile path) s
      (fun _ s' => (∀ p, p ≠ path → s'.nodes p = s.nodes p) ∧ s'.socks = s.socks ∧
        s'.held = s.held ∧ s'.mask = s.mask ∧ (Willing s → Willing s') ∧
        (s'.nodes path = none → s.nodes path ≠ some .directory) ∧
        (Willing s → s'.nodes path = none))
      (fun s' => (∀ p, p ≠ path → s'.nodes p = s.nodes p) ∧ s'.socks = s.socks ∧
        s'.held = s.held ∧ s'.mask = s.mask ∧
        (Willing s → s.nodes path = some .directory)) := by
  have h : Does (unlink path) s
      (fun _ s' => (∀ p, p ≠ path → s'.nodes p = s.nodes p) ∧ s'.socks = s.socks ∧
        s'.held = s.held ∧ s'.mask = s.mask ∧ (Willing s → Willing s') ∧
        s.nodes path ≠ some .directory ∧ s'.nodes path = none)
      (fun s' => s' = { s with answers := s.answers.tail }) := by
    refine does_sys (fun a s1 h1 => ?_) (fun _ => rfl)
    cases hn : s.nodes path with
    | none => rw [hn] at h1; cases h1
    | some n =>
      rw [hn] at h1
      cases n with
      | directory => cases h1
      | other | socket =>
        simp only [Except.ok.injEq, Prod.mk.injEq, true_and] at h1
        subst h1
        exact ⟨fun p hp => by simp [State.put, hp], rfl, rfl, rfl, willing_tail rfl, by simp,
          by simp [State.put]⟩
  cases hu : unlink path s with
  | ok a s' =>
    rw [does_ok hu] at h
    rw [does_ok (a := ()) (s' := s') (by unfold removeFile; rw [hu])]
    obtain ⟨h1, h2, h3, h4, h5, h6, h7⟩ := h
    exact ⟨h1, h2, h3, h4, h5, fun _ => h6, fun _ => h7⟩
  | err e s' =>
    rw [does_err hu] at h
    subst h
    have hw : Willing s → (s.nodes path = none ∧ e = eNoEnt) ∨
        (s.nodes path = some .directory ∧ e = eIsDir) := by
      intro hw
      have ha : s.answers.headD none = none := by
        cases hs : s.answers with
        | nil => rfl
        | cons a as => exact hw a (by rw [hs]; simp)
      unfold unlink sys at hu
      rw [ha] at hu
      dsimp only at hu
      cases hn : s.nodes path with
      | none => rw [hn] at hu; cases hu; exact .inl ⟨rfl, rfl⟩
      | some n =>
        rw [hn] at hu
        cases n with
        | directory => cases hu; exact .inr ⟨rfl, rfl⟩
        | other | socket => cases hu
    by_cases he : e = eNoEnt
    · rw [does_ok (a := ()) (by unfold removeFile; rw [hu]; exact if_pos he)]
      refine ⟨fun _ _ => rfl, rfl, rfl, rfl, willing_tail rfl, fun h => ?_, fun h => ?_⟩
      · rw [show s.nodes path = none from h]; simp
      · rcases hw h with h | h
        · exact h.1
        · rw [he] at h; exact absurd h.2 (by decide)
    · rw [does_err (e := e) (by unfold removeFile; rw [hu]; exact if_neg he)]
      refine ⟨fun _ _ => rfl, rfl, rfl, rfl, fun h => ?_⟩
      rcases hw h with h | h
      · exact absurd h.2 he
      · exact h.1

/-- What setting up a socket does. -/
private theorem setup_does {s : State} {path : Str} {stream : Bool} :
    Does (setupUnixSocket path stream) s
      (fun id s' => id = s.socks.length ∧ Offered s' path id stream ∧
        (∀ p, p ≠ path → s'.nodes p = s.nodes p) ∧
        (∀ i, i < s.socks.length → s'.socks[i]? = s.socks[i]?) ∧
        s'.socks.length = s.socks.length + 1 ∧ s'.held = id :: s.held ∧ s'.mask = s.mask ∧
        (Willing s → Willing s') ∧ s.nodes path ≠ some .directory)
      (fun s' => (∀ p, p ≠ path → s'.nodes p = s.nodes p) ∧ s'.held = s.held ∧ s'.mask = s.mask ∧
        (∀ i, i < s.socks.length → s'.socks[i]? = s.socks[i]?) ∧
        (Willing s → s.nodes path = some .directory)) := by
  unfold setupUnixSocket
  refine does_bind (does_mono remove_does (fun _ s1 h1 => ?_) fun s' h => ?_)
  · obtain ⟨n1, k1, e1, m1, w1, d1, x1⟩ := h1
    refine does_bind (does_sys (fun id s2 h2 => ?_) fun h2 => ?_)
    · simp only [Except.ok.injEq, Prod.mk.injEq] at h2
      obtain ⟨rfl, rfl⟩ := h2
      generalize hs2 : ({ nodes := _, socks := _, held := _, mask := _, umask := _,
                           answers := _, messages := _ } : State) = s2
      have n2 : s2.nodes = s1.nodes := by rw [← hs2]
      have k2 : s2.socks = s.socks ++ [{ stream := stream }] := by rw [← hs2, ← k1]
      have e2 : s2.held = s.socks.length :: s.held := by rw [← hs2, ← k1, ← e1]
      have m2 : s2.mask = s.mask := by rw [← hs2, ← m1]
      have w2 : Willing s1 → Willing s2 := by rw [← hs2]; exact willing_tail rfl
      rw [k1]
      have := offer_does (s := s2) (path := path) (stream := stream) (id := s.socks.length)
        (by simp [k2])
      cases ho : offer path stream s.socks.length s2 with
      | ok a s3 =>
        rw [does_ok ho] at this
        refine (does_ok (a := s.socks.length) (by simp only [ho]; rfl)).mpr ?_
        obtain ⟨f, h5, h3, h4⟩ := this
        refine ⟨rfl, ⟨h3, h4, show _ ∈ s3.held by simp [f.held, e2]⟩, fun p hp => ?_,
          fun i hi => ?_, ?_, f.held.trans e2, f.mask.trans m2, fun hw => f.willing (w2 (w1 hw)), ?_⟩
        · exact (f.nodes p hp).trans ((congrFun n2 p).trans (n1 p hp))
        · exact (f.socks i (by omega)).trans (by rw [k2, List.getElem?_append_left hi])
        · exact f.length.trans (by rw [k2]; simp)
        · exact d1 (by rw [← n2]; exact h5)
      | err e s3 =>
        rw [does_err ho] at this
        refine (does_err (e := e) (s' := s3.drop s.socks.length) (by simp only [ho])).mpr ?_
        obtain ⟨f, h3⟩ := this
        refine ⟨fun p hp => ?_, ?_, f.mask.trans m2, fun i hi => ?_, fun hw => ?_⟩
        · exact (f.nodes p hp).trans ((congrFun n2 p).trans (n1 p hp))
        · show s3.held.erase _ = _
          rw [f.held, e2]; simp
        · show s3.socks[i]? = _
          rw [f.socks i (by omega), k2, List.getElem?_append_left hi]
        · exact absurd (by rw [n2]; exact x1 hw) (h3 (w2 (w1 hw)))
    · refine ⟨n1, e1, m1, fun i _ => by rw [← k1], fun hw => ?_⟩
      rcases h2 with ⟨e, h2⟩ | h2
      · cases h2
      · exact absurd (w1 hw) h2
  · obtain ⟨n1, k1, e1, m1, w1⟩ := h
    exact ⟨n1, e1, m1, fun i _ => by rw [k1], w1⟩

/-! ## All descriptors -/

private def status : Str := "/run/cinit.socket".toList
private def notify : Str := "/run/cinit-notify.socket".toList

private theorem signals_does {s : State} :
    Does setupSignalHandler s
      (fun l s' => l = [17, 2, 15, 3] ∧ s'.mask = s.mask ++ [17, 2, 15, 3] ∧ s'.nodes = s.nodes ∧
        s'.socks = s.socks ∧ s'.held = s.held ∧ (Willing s → Willing s'))
      (fun s' => s'.nodes = s.nodes ∧ s'.held = s.held ∧ ¬ Willing s) := by
  unfold setupSignalHandler
  refine does_bind (does_sys (fun a s1 h1 => ?_) fun h1 => ?_)
  · simp only [Except.ok.injEq, Prod.mk.injEq, true_and] at h1
    subst h1
    refine does_sys (fun a s2 h2 => ?_) fun h2 => ?_
    · simp only [Except.ok.injEq, Prod.mk.injEq] at h2
      obtain ⟨rfl, rfl⟩ := h2
      exact ⟨rfl, rfl, rfl, rfl, rfl, fun hw => willing_tail rfl (willing_tail rfl hw)⟩
    · refine ⟨rfl, rfl, fun hw => ?_⟩
      rcases h2 with ⟨e, h2⟩ | h2
      · cases h2
      · exact h2 (willing_tail rfl hw)
  · refine ⟨rfl, rfl, fun hw => ?_⟩
    rcases h1 with ⟨e, h1⟩ | h1
    · cases h1
    · exact h1 hw

private theorem all_does {s : State} :
    Does setupFileDescriptors s
      (fun r s' => Offered s' status r.2.1 true ∧ Offered s' notify r.2.2 false ∧
        r.1 = [17, 2, 15, 3] ∧ s'.mask = s.mask ++ [17, 2, 15, 3] ∧
        (∀ p, p ≠ status → p ≠ notify → s'.nodes p = s.nodes p) ∧
        s'.held = r.2.2 :: r.2.1 :: s.held ∧ r.2.1 = s.socks.length ∧ r.2.2 = s.socks.length + 1 ∧
        s.nodes status ≠ some .directory ∧ s.nodes notify ≠ some .directory)
      (fun s' => (∀ p, p ≠ status → p ≠ notify → s'.nodes p = s.nodes p) ∧ s'.held = s.held ∧
        (Willing s → s.nodes status = some .directory ∨ s.nodes notify = some .directory)) := by
  have hne : notify ≠ status := by decide
  unfold setupFileDescriptors
  refine does_bind (does_mono signals_does (fun l s1 h1 => ?_) fun s1 h1 => ?_)
  · obtain ⟨l1, m1, n1, k1, e1, w1⟩ := h1
    refine does_bind (does_mono setup_does (fun id s2 h2 => ?_) fun s2 h2 => ?_)
    · obtain ⟨i2, o2, n2, k2, c2, e2, m2, w2, d2⟩ := h2
      have h3 := setup_does (s := s2) (path := notifyPath) (stream := false)
      cases hr : setupUnixSocket notifyPath false s2 with
      | ok id' s3 =>
        rw [does_ok hr] at h3
        refine (does_ok (a := (l, id, id')) (s' := s3) (by simp only [hr])).mpr ?_
        obtain ⟨i3, o3, n3, k3, c3, e3, m3, w3, d3⟩ := h3
        have hid : id < s2.socks.length := by omega
        refine ⟨⟨(n3 _ hne.symm).trans o2.node, (k3 _ hid).trans o2.sock, ?_⟩, o3, l1, ?_,
          fun p hp hq => ?_, ?_, ?_, ?_, ?_, ?_⟩
        · show id ∈ s3.held
          rw [e3, e2]; simp
        · rw [m3, m2, m1]
        · rw [n3 p hq, n2 p hp, n1]
        · rw [e3, e2, e1]
        · rw [← k1]; exact i2
        · rw [← k1, ← c2]; exact i3
        · rw [← n1]; exact d2
        · rw [← n1, ← n2 _ hne]; exact d3
      | err e s3 =>
        rw [does_err hr] at h3
        refine (does_err (e := e) (s' := s3.drop id) (by simp only [hr])).mpr ?_
        obtain ⟨n3, e3, m3, k3, d3⟩ := h3
        refine ⟨fun p hp hq => ?_, ?_, fun hw => .inr ?_⟩
        · exact (n3 p hq).trans ((n2 p hp).trans (congrFun n1 p))
        · show s3.held.erase id = _
          rw [e3, e2, e1]; simp
        · rw [← n1, ← n2 _ hne]; exact d3 (w2 (w1 hw))
    · obtain ⟨n2, e2, m2, k2, d2⟩ := h2
      exact ⟨fun p hp hq => (n2 p hp).trans (congrFun n1 p), e2.trans e1,
        fun hw => .inl (by rw [← n1]; exact d2 (w1 hw))⟩
  · exact ⟨fun p _ _ => congrFun h1.1 p, h1.2.1, fun hw => absurd hw h1.2.2⟩

/-- C83: if the set-up succeeds, both sockets are usable by everybody and identify their senders,
the first one accepts connections, and exactly SIGCHLD (17), SIGINT (2), SIGTERM (15) and
SIGQUIT (3) are blocked in addition and announced by the signal descriptor. Whatever was at the two
paths before; all other files are left alone. -/
theorem C83_offered {s s' : State} {signals : List Nat} {i j : Nat}
    (h : setupFileDescriptors s = .ok (signals, i, j) s') :
    Offered s' "/run/cinit.socket".toList i true ∧
      Offered s' "/run/cinit-notify.socket".toList j false ∧ i ≠ j ∧
      i ∉ List.range s.socks.length ∧ j ∉ List.range s.socks.length ∧
      (∀ k, k ∈ signals ↔ k = 17 ∨ k = 2 ∨ k = 15 ∨ k = 3) ∧
      (∀ k, k ∈ s'.mask ↔ k ∈ s.mask ∨ k ∈ signals) ∧
      ∀ p, p ≠ "/run/cinit.socket".toList → p ≠ "/run/cinit-notify.socket".toList →
        s'.nodes p = s.nodes p := by
  have := all_does (s := s)
  unfold Does at this
  rw [h] at this
  obtain ⟨h1, h2, h3, h4, h5, h6, h7, h8, -, -⟩ := this
  simp only at h1 h2 h3 h4 h5 h6 h7 h8
  refine ⟨h1, h2, by omega, by simp [h7], by simp [h8], fun k => by simp [h3], fun k => ?_, h5⟩
  rw [h4, h3, List.mem_append]

/-- C83: unless the kernel objects, the set-up fails only because of a directory at one of the
paths. In particular sockets and files left over by an earlier run do no harm. -/
theorem C83_succeeds {s : State} (hw : Willing s) :
    (∃ r s', setupFileDescriptors s = .ok r s') ↔
      s.nodes "/run/cinit.socket".toList ≠ some .directory ∧
      s.nodes "/run/cinit-notify.socket".toList ≠ some .directory := by
  have := all_does (s := s)
  unfold Does at this
  constructor
  · rintro ⟨r, s', h⟩
    rw [h] at this
    exact this.2.2.2.2.2.2.2.2
  · rintro ⟨h1, h2⟩
    cases hr : setupFileDescriptors s with
    | ok r s' => exact ⟨r, s', rfl⟩
    | err e s' =>
      rw [hr] at this
      rcases this.2.2 hw with h | h
      · exact absurd h h1
      · exact absurd h h2

/-- C83: if the set-up fails, cinit holds no new socket, and files other than those at the two
paths are left alone. -/
theorem C83_fails {s s' : State} {e : Nat} (h : setupFileDescriptors s = .err e s') :
    s'.held = s.held ∧
      ∀ p, p ≠ "/run/cinit.socket".toList → p ≠ "/run/cinit-notify.socket".toList →
        s'.nodes p = s.nodes p := by
  have := all_does (s := s)
  unfold Does at this
  rw [h] at this
  exact ⟨this.2.1, this.1⟩

/-! ## Reasons of failures, and what is logged -/

/-- What a step does, and why it fails, the kernel objecting with the errors in `A`. -/
private def Goes {α : Type} (A : List (Option Nat)) (x : S α) (s : State)
    (good : α → State → Prop) (bad : Nat → State → Prop) : Prop :=
  s.answers ⊆ A →
    match x s with
    | .ok a s' => s'.answers ⊆ A ∧ good a s'
    | .err e s' => s'.answers ⊆ A ∧ bad e s'

private theorem tail_subset' {A : List (Option Nat)} {s : State} (h : s.answers ⊆ A) :
    s.answers.tail ⊆ A := fun _ ha => h (List.mem_of_mem_tail ha)

private theorem goes_sys {α : Type} {A : List (Option Nat)} {act : State → Except Nat (α × State)}
    {s : State} {good : α → State → Prop} {bad : Nat → State → Prop}
    (h1 : ∀ a s', act s = .ok (a, s') → good a { s' with answers := s.answers.tail })
    (h2 : ∀ e, act s = .error e ∨ some e ∈ A → bad e { s with answers := s.answers.tail }) :
    Goes A (sys act) s good bad := by
  intro hA
  unfold sys
  cases ha : s.answers.headD none with
  | some e =>
    refine ⟨tail_subset' hA, h2 e (.inr (hA ?_))⟩
    cases hs : s.answers with
    | nil => rw [hs] at ha; cases ha
    | cons a as =>
      rw [hs] at ha
      simp only [List.headD_cons] at ha
      simp [ha]
  | none =>
    cases hb : act s with
    | error e => exact ⟨tail_subset' hA, h2 e (.inl hb)⟩
    | ok r => exact ⟨tail_subset' hA, h1 r.1 r.2 hb⟩

private theorem goes_bind {α β : Type} {A : List (Option Nat)} {x : S α} {f : α → S β} {s : State}
    {good : β → State → Prop} {bad : Nat → State → Prop}
    (h : Goes A x s (fun a s' => Goes A (f a) s' good bad) bad) : Goes A (x >>= f) s good bad := by
  intro hA
  have h := h hA
  show match S.bind x f s with | .ok a s' => _ | .err e s' => _
  unfold S.bind
  cases hx : x s with
  | ok a s' => rw [hx] at h; exact h.2 h.1
  | err e s' => rw [hx] at h; exact h

private theorem goes_mono {α : Type} {A : List (Option Nat)} {x : S α} {s : State}
    {good good' : α → State → Prop} {bad bad' : Nat → State → Prop} (h : Goes A x s good bad)
    (h1 : ∀ a s', good a s' → good' a s') (h2 : ∀ e s', bad e s' → bad' e s') :
    Goes A x s good' bad' := by
  intro hA
  have h := h hA
  cases hx : x s with
  | ok a s' => rw [hx] at h; exact ⟨h.1, h1 _ _ h.2⟩
  | err e s' => rw [hx] at h; exact ⟨h.1, h2 _ _ h.2⟩

private theorem goes_remove {A : List (Option Nat)} {s : State} {path : Str} :
    Goes A (removeFile path) s
      (fun _ s' => (∀ p, p ≠ path → s'.nodes p = s.nodes p) ∧ s'.messages = s.messages ∧
        (s'.nodes path = none ∨ ∃ a ∈ A, a ≠ none))
      (fun e s' => s'.messages = s.messages ∧
        (some e ∈ A ∨ e = 21 ∧ s.nodes path = some .directory)) := by
  have h : Goes A (unlink path) s
      (fun _ s' => (∀ p, p ≠ path → s'.nodes p = s.nodes p) ∧ s'.messages = s.messages ∧
        s'.nodes path = none)
      (fun e s' => s'.nodes = s.nodes ∧ s'.messages = s.messages ∧ (some e ∈ A ∨
        e = 2 ∧ s.nodes path = none ∨ e = 21 ∧ s.nodes path = some .directory)) := by
    refine goes_sys (fun a s1 h1 => ?_) (fun e h => ⟨rfl, rfl, ?_⟩)
    · cases hn : s.nodes path with
      | none => rw [hn] at h1; cases h1
      | some n =>
        rw [hn] at h1
        cases n with
        | directory => cases h1
        | other | socket =>
          simp only [Except.ok.injEq, Prod.mk.injEq, true_and] at h1
          subst h1
          exact ⟨fun p hp => by simp [State.put, hp], rfl, by simp [State.put]⟩
    · rcases h with h | h
      · refine .inr ?_
        cases hn : s.nodes path with
        | none => rw [hn] at h; cases h; exact .inl ⟨rfl, rfl⟩
        | some n =>
          rw [hn] at h
          cases n with
          | directory => cases h; exact .inr ⟨rfl, rfl⟩
          | other | socket => cases h
      · exact .inl h
  intro hA
  have h := h hA
  unfold removeFile
  cases hu : unlink path s with
  | ok a s' =>
    rw [hu] at h
    exact ⟨h.1, h.2.1, h.2.2.1, .inl h.2.2.2⟩
  | err e s' =>
    rw [hu] at h
    obtain ⟨h0, h1, h2, h3⟩ := h
    by_cases he : e = eNoEnt
    · simp only [if_pos he]
      refine ⟨h0, fun p _ => congrFun h1 p, h2, ?_⟩
      rcases h3 with h3 | h3 | h3
      · exact .inr ⟨_, h3, by simp⟩
      · exact .inl ((congrFun h1 path).trans h3.2)
      · exact absurd (h3.1.symm.trans he) (by decide)
    · simp only [if_neg he]
      refine ⟨h0, h2, ?_⟩
      rcases h3 with h3 | h3 | h3
      · exact .inl h3
      · exact absurd h3.1 he
      · exact .inr h3

private theorem goes_offer {A : List (Option Nat)} {s : State} {path : Str} {stream : Bool}
    {id : Nat} :
    Goes A (offer path stream id) s
      (fun _ s' => (∀ p, p ≠ path → s'.nodes p = s.nodes p) ∧ s'.messages = s.messages)
      (fun e s' => s'.messages = s.messages ∧
        (some e ∈ A ∨ e = 98 ∧ s.nodes path ≠ none)) := by
  unfold offer
  refine goes_bind (goes_sys (fun a s1 h1 => ?_) fun e h1 => ⟨rfl, ?_⟩)
  · cases hn : s.nodes path with
    | some n => rw [hn] at h1; cases h1
    | none =>
    rw [hn] at h1
    simp only [Except.ok.injEq, Prod.mk.injEq, true_and] at h1
    subst h1
    refine goes_bind (goes_sys (fun a s2 h2 => ?_) fun e h2 => ⟨rfl, .inl ?_⟩)
    · simp only [State.put, if_pos, Except.ok.injEq, Prod.mk.injEq, true_and] at h2
      subst h2
      refine goes_bind (goes_sys (fun a s3 h3 => ?_) fun e h3 => ⟨rfl, .inl ?_⟩)
      · simp only [Except.ok.injEq, Prod.mk.injEq, true_and] at h3
        subst h3
        split
        · refine goes_sys (fun a s4 h4 => ?_) fun e h4 => ⟨rfl, .inl ?_⟩
          · simp only [Except.ok.injEq, Prod.mk.injEq, true_and] at h4
            subst h4
            exact ⟨fun p hp => by simp [State.change, hp], rfl⟩
          · rcases h4 with h4 | h4
            · cases h4
            · exact h4
        · intro hA
          exact ⟨hA, fun p hp => by simp [State.change, hp], rfl⟩
      · rcases h3 with h3 | h3
        · cases h3
        · exact h3
    · rcases h2 with h2 | h2
      · simp [State.put] at h2
      · exact h2
  · rcases h1 with h1 | h1
    · cases hn : s.nodes path with
      | none => rw [hn] at h1; cases h1
      | some n => rw [hn] at h1; cases h1; exact .inr ⟨rfl, by simp⟩
    · exact .inl h1

/-- What stands in the way of a socket. -/
private def Hindered (A : List (Option Nat)) (s : State) (path : Str) (e : Nat) : Prop :=
  some e ∈ A ∨ (e = 98 ∧ ∃ a ∈ A, a ≠ none) ∨ e = 21 ∧ s.nodes path = some .directory

private theorem goes_setup {A : List (Option Nat)} {s : State} {path : Str} {stream : Bool} :
    Goes A (setupUnixSocket path stream) s
      (fun _ s' => (∀ p, p ≠ path → s'.nodes p = s.nodes p) ∧
        s'.messages = s.messages ++ [path ++ " unix domain socket open".toList])
      (fun e s' => s'.messages = s.messages ∧ Hindered A s path e) := by
  unfold setupUnixSocket
  refine goes_bind (goes_mono goes_remove (fun _ s1 h1 => ?_) fun e s1 h1 => ⟨h1.1, ?_⟩)
  · obtain ⟨n1, m1, d1⟩ := h1
    refine goes_bind (goes_sys (fun id s2 h2 => ?_) fun e h2 => ⟨m1, ?_⟩)
    · simp only [Except.ok.injEq, Prod.mk.injEq] at h2
      obtain ⟨rfl, rfl⟩ := h2
      intro hA
      have := goes_offer (A := A) (path := path) (stream := stream) (id := s1.socks.length) hA
      cases ho : offer path stream s1.socks.length _ with
      | ok a s3 =>
        rw [ho] at this
        obtain ⟨h0, n3, m3⟩ := this
        simp only [ho]
        refine ⟨h0, fun p hp => (n3 p hp).trans (n1 p hp), ?_⟩
        rw [m3, m1]
      | err e s3 =>
        rw [ho] at this
        obtain ⟨h0, m3, h3⟩ := this
        simp only [ho]
        refine ⟨h0, m3.trans m1, ?_⟩
        rcases h3 with h3 | ⟨rfl, h3⟩
        · exact .inl h3
        · exact .inr (.inl ⟨rfl, d1.resolve_left h3⟩)
    · rcases h2 with h2 | h2
      · cases h2
      · exact .inl h2
  · exact h1.2.imp_right .inr

private theorem goes_signals {A : List (Option Nat)} {s : State} :
    Goes A setupSignalHandler s (fun _ s' => s'.nodes = s.nodes ∧ s'.messages = s.messages)
      (fun e s' => s'.messages = s.messages ∧ some e ∈ A) := by
  unfold setupSignalHandler
  refine goes_bind (goes_sys (fun a s1 h1 => ?_) fun e h1 => ⟨rfl, ?_⟩)
  · simp only [Except.ok.injEq, Prod.mk.injEq, true_and] at h1
    subst h1
    refine goes_sys (fun a s2 h2 => ?_) fun e h2 => ⟨rfl, ?_⟩
    · simp only [Except.ok.injEq, Prod.mk.injEq] at h2
      obtain ⟨rfl, rfl⟩ := h2
      exact ⟨rfl, rfl⟩
    · rcases h2 with h2 | h2
      · cases h2
      · exact h2
  · rcases h1 with h1 | h1
    · cases h1
    · exact h1

private theorem goes_all {A : List (Option Nat)} {s : State} :
    Goes A setupFileDescriptors s
      (fun _ s' => s'.messages = s.messages ++ [status ++ " unix domain socket open".toList,
        notify ++ " unix domain socket open".toList])
      (fun e s' => s'.messages = s.messages ∧ (some e ∈ A ∨ Hindered A s status e) ∨
        s'.messages = s.messages ++ [status ++ " unix domain socket open".toList] ∧
          Hindered A s notify e) := by
  have hne : notify ≠ status := by decide
  unfold setupFileDescriptors
  refine goes_bind (goes_mono goes_signals (fun l s1 h1 => ?_) fun e s1 h1 =>
    .inl ⟨h1.1, .inl h1.2⟩)
  obtain ⟨n1, m1⟩ := h1
  refine goes_bind (goes_mono goes_setup (fun id s2 h2 => ?_) fun e s2 h2 =>
    .inl ⟨h2.1.trans m1, .inr ?_⟩)
  · obtain ⟨n2, m2⟩ := h2
    intro hA
    have h3 := goes_setup (s := s2) (path := notifyPath) (stream := false) hA
    cases hr : setupUnixSocket notifyPath false s2 with
    | ok id' s3 =>
      rw [hr] at h3
      simp only [hr]
      refine ⟨h3.1, ?_⟩
      rw [h3.2.2, m2, m1, List.append_assoc]
      rfl
    | err e s3 =>
      rw [hr] at h3
      simp only [hr]
      refine ⟨h3.1, .inr ⟨h3.2.1.trans ?_, ?_⟩⟩
      · rw [m2, m1]; rfl
      · have := h3.2.2
        unfold Hindered at this ⊢
        rw [n2 notifyPath hne, n1] at this
        exact this
  · have := h2.2
    unfold Hindered at this ⊢
    rw [n1] at this
    exact this

/-- C83: the reason of a failure is the one given. -/
theorem C83_reason {s s' : State} {e : Nat} (h : setupFileDescriptors s = .err e s') :
    SocketTrouble s e := by
  have := goes_all (s := s) (List.Subset.refl _)
  rw [h] at this
  unfold SocketTrouble Willing
  have key : ∀ path, Hindered s.answers s path e →
      (e = 21 ∧ s.nodes path = some .directory) ∨
        (¬ ∀ a ∈ s.answers, a = none) ∧ (some e ∈ s.answers ∨ e = 98) := by
    rintro path (h | ⟨h1, a, h2, h3⟩ | h)
    · exact .inr ⟨(fun hw => nomatch hw _ h), .inl h⟩
    · exact .inr ⟨fun hw => h3 (hw a h2), .inr h1⟩
    · exact .inl h
  rcases this.2 with ⟨-, h | h⟩ | ⟨-, h⟩
  · exact .inr ⟨(fun hw => nomatch hw _ h), .inl h⟩
  · exact (key _ h).imp_left fun ⟨h1, h2⟩ => ⟨h1, .inl h2⟩
  · exact (key _ h).imp_left fun ⟨h1, h2⟩ => ⟨h1, .inr h2⟩

/-- C83: a message for every socket set up, and no other. -/
theorem C83_messages (s : State) :
    (∀ r s', setupFileDescriptors s = .ok r s' → s'.messages = s.messages ++
      ["/run/cinit.socket unix domain socket open".toList,
        "/run/cinit-notify.socket unix domain socket open".toList]) ∧
    ∀ e s', setupFileDescriptors s = .err e s' → s'.messages = s.messages ∨
      s'.messages = s.messages ++ ["/run/cinit.socket unix domain socket open".toList] := by
  have h1 : status ++ " unix domain socket open".toList =
    "/run/cinit.socket unix domain socket open".toList := by decide
  have h2 : notify ++ " unix domain socket open".toList =
    "/run/cinit-notify.socket unix domain socket open".toList := by decide
  have := goes_all (s := s) (List.Subset.refl _)
  rw [h1, h2] at this
  constructor
  · intro r s' h
    rw [h] at this
    exact this.2
  · intro e s' h
    rw [h] at this
    exact this.2.imp (·.1) (·.1)

/-- C83: if the kernel does not object on its own account and only the second socket cannot be set
up, the first one is announced. -/
theorem C83_first {s s' : State} {e : Nat} (h : setupFileDescriptors s = .err e s')
    (hw : Willing s) (hd : s.nodes "/run/cinit.socket".toList ≠ some .directory) :
    s'.messages = s.messages ++ ["/run/cinit.socket unix domain socket open".toList] := by
  have h1 : status ++ " unix domain socket open".toList =
    "/run/cinit.socket unix domain socket open".toList := by decide
  have := goes_all (s := s) (List.Subset.refl _)
  rw [h, h1] at this
  rcases this.2 with ⟨-, h | h | ⟨-, a, h2, h3⟩ | h⟩ | h
  · exact absurd (hw _ h) (by simp)
  · exact absurd (hw _ h) (by simp)
  · exact absurd (hw a h2) h3
  · exact absurd h.2 hd
  · exact h.1

/-- A system with a socket left over from an earlier run; the kernel refuses the `n`-th call. -/
private def leftOver (n : Nat) : State where
  nodes p := if p = "/run/cinit.socket".toList then some (.socket 7 0o755) else none
  answers := List.replicate n none ++ [some 13]

/-- The hypotheses of `C83_offered` and `C83_succeeds`. -/
example : Willing { leftOver 0 with answers := [] } ∧
    ∃ s', setupFileDescriptors { leftOver 0 with answers := [] } = .ok ([17, 2, 15, 3], 0, 1) s' :=
  ⟨fun _ ha => (List.not_mem_nil ha).elim, _, rfl⟩

/-- The hypothesis of `C83_reason`: a directory is in the way of the second socket. -/
example : ∃ s', setupFileDescriptors { leftOver 0 with
    nodes := fun _ => some .directory, answers := [] } = .err 21 s' := ⟨_, rfl⟩

/-- The hypothesis of `C83_fails`: the permissions of the second socket cannot be set. -/
example : ∃ s', setupFileDescriptors (leftOver 11) = .err 13 s' ∧ s'.held = [] ∧
    (s'.nodes "/run/cinit-notify.socket".toList).isSome := ⟨_, rfl, rfl, rfl⟩

end Cinit.Props
