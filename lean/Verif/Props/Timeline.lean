import Verif.Spec.Timeline
import Verif.Props.Service
import Verif.Props.Waiting
import Verif.Props.Runs
import Verif.Props.Notify
/-!
# C112: what a program announces before its end counts

Messages are read one per round, and after them all terminated children are reaped. A message that
is not read before its sender is reaped has no effect any more (C38).
-/

namespace Cinit.Props

open Cinit Spec

/-- C112 as stated: when cinit notices the end of a process, it has read everything the process
has sent. -/
def C112_statement : Prop :=
  ∀ (x : Machine) (config : Config) (m : Manager) (signals status notify : Int) (t : Timeline),
    x.manager config = .ok m → x.sockets = some (signals, status, notify) → Plausible notify t →
    history t = (x.loop m).log →
    ∀ later q code who t0 b, t = later ++ .cinit (.waited q code who) :: t0 → (q, b) ∉ unread t0

/-! ## Timelines -/

theorem history_append (t t' : Timeline) : history (t ++ t') = history t ++ history t' := by
  induction t with
  | nil => rfl
  | cons h t ih => cases h <;> simp [history, ih]

theorem mem_history {t : Timeline} {e : Event} : e ∈ history t ↔ .cinit e ∈ t := by
  induction t with
  | nil => simp [history]
  | cons h t ih => cases h <;> simp [history, ih]

theorem plausible_suffix {n : Int} {t t' : Timeline} (h : Plausible n (t ++ t')) :
    Plausible n t' := by
  induction t with
  | nil => exact h
  | cons _ _ ih => exact ih h.2

/-- The number of messages read. -/
def reads (l : Log) : Nat := l.countP fun e => match e with
  | .received _ => true
  | _ => false

theorem reads_cons_received (b : List Nat) (l : Log) : reads (.received b :: l) = reads l + 1 := by
  simp [reads]

/-- What is not read stays unread. -/
theorem unread_prefix (t t' : Timeline) :
    (unread t').drop (reads (history t)) <+: unread (t ++ t') := by
  induction t with
  | nil => exact List.prefix_rfl
  | cons h t ih =>
    cases h with
    | sends q b => exact ih.trans (List.prefix_append _ _)
    | ends q => exact ih
    | cinit e =>
      cases e with
      | received b =>
        change (unread t').drop (reads (.received b :: history t)) <+: (unread (t ++ t')).tail
        rw [reads_cons_received, ← List.drop_drop]
        rw [← List.drop_one]
        obtain ⟨more, hm⟩ := ih
        cases hd : (unread t').drop (reads (history t)) with
        | nil => simp
        | cons a r =>
          rw [hd] at hm
          rw [← hm]
          exact ⟨more, rfl⟩
      | _ => exact ih

/-- Messages are read in order. -/
theorem first_read {n : Int} {t t' : Timeline} {q : Int} {b : List Nat}
    {rest : List (Int × List Nat)} (hc : Plausible n (t ++ t')) (hu : unread t' = (q, b) :: rest)
    (hr : ∃ b', .received b' ∈ history t) : .received (b.take 4096) ∈ history t := by
  induction t with
  | nil => obtain ⟨b', hb⟩ := hr; cases hb
  | cons h t ih =>
    by_cases hr' : ∃ b', .received b' ∈ history t
    · have := ih hc.2 hr'
      cases h with
      | cinit e => exact List.mem_cons_of_mem _ this
      | sends _ _ => exact this
      | ends _ => exact this
    · obtain ⟨b', hb⟩ := hr
      cases h with
      | sends _ _ => exact absurd ⟨b', hb⟩ hr'
      | ends _ => exact absurd ⟨b', hb⟩ hr'
      | cinit e =>
        rcases List.mem_cons.mp hb with rfl | hb
        · obtain ⟨q', b'', rest', h1, rfl⟩ := hc.1
          have h0 : reads (history t) = 0 := by
            unfold reads
            rw [List.countP_eq_zero]
            intro e he
            cases e <;> simp
            exact hr' ⟨_, he⟩
          have hp := unread_prefix t t'
          have h1 : unread (t ++ t') = (q', b'') :: rest' := h1
          rw [h0, hu, h1] at hp
          obtain ⟨more, hm⟩ := hp
          cases hm
          exact List.mem_cons_self
        · exact absurd ⟨b', hb⟩ hr'

/-- Messages are only read when the kernel has said so, once for each time. -/
theorem reads_le {d : Inlets} {evs : List Ready} {mid past : Log}
    (hs : Always (Serves d) (mid ++ .polled evs :: past)) :
    reads mid ≤ (turns mid).countP (fun ev => ev.fd = d.notifyFd) ∧
    ∀ ev, hand (mid ++ .polled evs :: past) = some ev → ev.fd = d.notifyFd →
      reads mid < (turns mid).countP (fun ev => ev.fd = d.notifyFd) := by
  induction mid with
  | nil => exact ⟨Nat.zero_le _, fun ev h => by cases h⟩
  | cons e mid ih =>
    obtain ⟨i1, i2⟩ := ih hs.2
    have hse := hs.1
    have key : turns (e :: mid) = turns mid ++ turns [e] := by
      unfold turns
      rw [List.reverse_cons, List.filterMap_append]
      rfl
    rw [key, List.countP_append]
    cases e with
    | ready ev =>
      have h1 : reads (.ready ev :: mid) = reads mid := by simp [reads]
      rw [h1]
      refine ⟨i1.trans (Nat.le_add_right _ _), fun ev' h he => ?_⟩
      simp only [List.cons_append, hand] at h
      split_ifs at h
      cases h
      have h2 : (turns [Event.ready ev]).countP (fun ev => ev.fd = d.notifyFd) = 1 := by
        simp [turns, he]
      rw [h2]
      omega
    | received b =>
      obtain ⟨ev, h1, -, h2, -⟩ := hse
      rw [reads_cons_received]
      exact ⟨(i2 ev h1 h2).trans_le (Nat.le_add_right _ _), fun ev h => by cases h⟩
    | _ => exact ⟨i1.trans (Nat.le_add_right _ _), fun ev h => by cases h⟩

/-- A process that is reaped has been waited for. -/
theorem ended_reaped {q : Int} {t t' : Timeline} (h1 : ended q t') (h2 : ¬ ended q (t ++ t'))
    (hl : ∀ p sig, .cinit (.lost p sig) ∉ t) :
    ∃ t2 t1 code who, t = t2 ++ .cinit (.waited q code who) :: t1 := by
  induction t with
  | nil => exact absurd h1 h2
  | cons h t ih =>
    by_cases h3 : ended q (t ++ t')
    · cases h with
      | sends _ _ => exact absurd h3 h2
      | ends p => exact absurd (.inr h3) h2
      | cinit e =>
        cases e with
        | waited p code who =>
          by_cases hp : p = q
          · subst hp
            exact ⟨[], t, code, who, rfl⟩
          · exact absurd ⟨hp, h3⟩ h2
        | lost p sig => exact absurd List.mem_cons_self (hl p sig)
        | _ => exact absurd h3 h2
    · obtain ⟨t2, t1, code, who, rfl⟩ := ih h3 fun p sig h => hl p sig (List.mem_cons_of_mem _ h)
      exact ⟨h :: t2, t1, code, who, rfl⟩

/-- The kernel reports on different descriptors. -/
theorem loop_told {x : Machine} {config : Config} {m : Manager} (h : x.manager config = .ok m) :
    Always (Told m.inlets (x.opened m)) (x.loop m).log := by
  rcases Machine.loop_tables (x := x) (manager_fdDict h) with hc | ⟨-, -, -, hn⟩
  · have := hc.told
    cases hl : x.loop m <;> rw [hl] at this <;> exact this
  · exact hn

/-! ## C112 -/

/-- C112, what holds: the oldest message waiting when the kernel last told cinit about events has
been read when cinit notices the end of any process (or reading has failed), unless there was too
much to tell. -/
theorem C112_oldest_partial {x : Machine} {config : Config} {m : Manager}
    {signals status notify : Int} {t later mid t0 : Timeline} {evs : List Ready} {p q code : Int}
    {who : Option Nat} {b : List Nat} {rest : List (Int × List Nat)}
    (h : x.manager config = .ok m) (hf : x.sockets = some (signals, status, notify))
    (hd : notify ≠ signals ∧ notify ≠ status) (hc : Plausible notify t) (hh : history t = (x.loop m).log)
    (ht : t = later ++ .cinit (.waited p code who) :: (mid ++ .cinit (.polled evs) :: t0))
    (hp : .cinit .polling ∉ mid) (he : evs.length < 10) (hu : unread t0 = (q, b) :: rest) :
    .cinit (.received (b.take 4096)) ∈ mid ∨ .cinit .failed ∈ mid := by
  rw [Machine.manager_sockets h] at hf
  cases hf
  have hs := Machine.loop_serves x m
  subst ht
  have hl : (x.loop m).log = history later ++ .waited p code who ::
      (history mid ++ .polled evs :: history t0) := by
    rw [← hh, history_append]
    simp only [history, history_append]
  have hc' := plausible_suffix hc
  obtain ⟨-, hc'⟩ := hc'
  obtain ⟨ev, hev, h1, h2⟩ := (plausible_suffix hc').1 (by rw [hu]; simp) he
  rw [hl] at hs
  obtain ⟨⟨w1, w2, -⟩, hs⟩ := always_of_suffix hs rfl
  have htu := turns_pending hs.2 (fun h => hp (mem_history.mp h))
  rw [w2, List.append_nil] at htu
  rw [← htu] at hev
  have hmem : .ready ev ∈ history mid := by
    unfold turns at hev
    obtain ⟨e, h3, h4⟩ := List.mem_filterMap.mp hev
    cases e <;> cases h4
    exact List.mem_reverse.mp h3
  obtain ⟨a, c, hm⟩ := List.append_of_mem hmem
  rcases List.eq_nil_or_concat a with rfl | ⟨a', e, rfl⟩
  · rw [hm] at w1
    simp [hand, h2] at w1
  · have hn : (x.loop m).log = (history later ++ .waited p code who :: a') ++ e :: .ready ev ::
        (c ++ .polled evs :: history t0) := by
      rw [hl, hm]
      simp
    have hin : e ∈ history mid := by rw [hm]; simp
    rcases (next_event hn).2.2.1 h2 (by rw [h1]; exact hd.1) (by rw [h1]; exact hd.2) h1 with
      ⟨b', rfl⟩ | rfl
    · exact .inl (mem_history.mp (first_read (t' := .cinit (.polled evs) :: t0) hc' hu ⟨b', hin⟩))
    · exact .inr (mem_history.mp hin)

/-- C112, what is missing: if the process has ended before the kernel tells cinit about events, a
message of it behind another one (of whomever) is not read before the end of the process is
noticed. -/
theorem C112_unread_partial {x : Machine} {config : Config} {m : Manager}
    {signals status notify : Int} {t later mid t0 : Timeline} {e : Event} {evs : List Ready}
    {q : Int} {b : List Nat} {first : Int × List Nat} {rest : List (Int × List Nat)}
    (h : x.manager config = .ok m) (hf : x.sockets = some (signals, status, notify))
    (hc : Plausible notify t) (hh : history t = (x.loop m).log)
    (ht : t = later ++ .cinit e :: (mid ++ .cinit (.polled evs) :: t0)) (he : newRound e)
    (hp : .cinit .polling ∉ mid) (hr : ∀ p sig, .cinit (.lost p sig) ∉ mid) (hq : ended q t0)
    (hu : unread t0 = first :: rest) (hb : (q, b) ∈ rest) :
    ∃ mid2 mid1 code who, mid = mid2 ++ .cinit (.waited q code who) :: mid1 ∧
      (q, b) ∈ unread (mid1 ++ .cinit (.polled evs) :: t0) := by
  rw [Machine.manager_sockets h] at hf
  cases hf
  have hs := Machine.loop_serves x m
  subst ht
  have hl : (x.loop m).log = history later ++ e :: (history mid ++ .polled evs :: history t0) := by
    rw [← hh, history_append]
    simp only [history, history_append]
  obtain ⟨-, hc'⟩ := plausible_suffix hc
  rw [hl] at hs
  obtain ⟨hs1, -, hs⟩ := always_of_suffix hs rfl
  have hsw : Swept (history mid ++ .polled evs :: history t0) := by
    cases e <;> first
      | exact hs1.2.2
      | exact he.elim
  have hpm : .polling ∉ history mid := fun h => hp (mem_history.mp h)
  have hreap : .reaped ∈ history mid := by
    obtain ⟨l, h0⟩ := (always_of_suffix (post := history mid) hs rfl).1
    rw [h0] at hsw
    have := swept_mem (mid := history mid ++ [.polled evs]) (past := l) (by simpa using hsw)
      (by simpa using hpm)
    rcases this with h1 | ⟨p, sig, h1⟩
    · simpa using h1
    · exact absurd (mem_history.mp (by simpa using h1)) (hr p sig)
  obtain ⟨m2, m1, rfl⟩ := List.append_of_mem (mem_history.mp hreap)
  have hnot : ¬ ended q (m1 ++ .cinit (.polled evs) :: t0) := by
    have := (plausible_suffix (t := m2) (t' := .cinit .reaped :: (m1 ++ .cinit (.polled evs) :: t0))
      (by simpa using hc')).1
    exact this q
  obtain ⟨t2, t1, code, who, rfl⟩ := ended_reaped (t' := .cinit (.polled evs) :: t0) hq hnot
    fun p sig h => hr p sig (by simp [h])
  refine ⟨m2 ++ .cinit .reaped :: t2, t1, code, who, by simp, ?_⟩
  have hs' : Always (Serves m.inlets) (history t1 ++ .polled evs :: history t0) := by
    rw [show history (m2 ++ .cinit .reaped :: (t2 ++ .cinit (.waited q code who) :: t1)) ++
      .polled evs :: history t0 = (history m2 ++ .reaped :: history t2) ++ .waited q code who ::
        (history t1 ++ .polled evs :: history t0) by simp [history_append, history]] at hs
    exact (always_of_suffix hs rfl).2.2
  have hcount := (reads_le hs').1
  have htu := turns_pending hs' (fun h => hpm (by simp [history_append, history, h]))
  have hone : reads (history t1) ≤ 1 := by
    refine hcount.trans ?_
    have hnd : (evs.map (·.fd)).Nodup := by
      have ht := loop_told h
      rw [hl, ← List.cons_append, ← List.append_assoc] at ht
      exact (always_of_suffix (e := .polled evs) ht rfl).1.2.1
    have h1 := List.nodup_iff_count_le_one.mp hnd m.notifyFd
    rw [List.count, List.countP_map] at h1
    refine le_trans ?_ h1
    rw [← htu, List.countP_append]
    refine le_trans (Nat.le_of_eq ?_) (Nat.le_add_right _ _)
    rfl
  have hpre := unread_prefix t1 (.cinit (.polled evs) :: t0)
  refine hpre.subset ?_
  change (q, b) ∈ (unread t0).drop _
  rw [hu]
  rcases Nat.le_one_iff_eq_zero_or_eq_one.mp hone with h0 | h0 <;> rw [h0]
  · exact List.mem_cons_of_mem _ hb
  · exact hb

/-- C112, what becomes of such a message: unless a new program has got the same process id, or
another program has announced it as its main process, it does not change the states, status texts
and main processes of programs, what has completed, and whether cinit is shutting down. -/
theorem C112_late_partial {ps : List ProcessConfig} {q code : Int} {who : Option Nat}
    {mid past : Log} {text : Str} (h1 : ∀ i o r, .spawned i q o r ∉ mid)
    (h2 : ∀ p s, .datagram p s ∈ mid → newMainPid s ≠ some q) (i : Nat) :
    state ps (.datagram q text :: (mid ++ .waited q code who :: past)) i =
      state ps (mid ++ .waited q code who :: past) i ∧
    status ps (.datagram q text :: (mid ++ .waited q code who :: past)) i =
      status ps (mid ++ .waited q code who :: past) i ∧
    mainPid ps (.datagram q text :: (mid ++ .waited q code who :: past)) i =
      mainPid ps (mid ++ .waited q code who :: past) i ∧
    (Completed ps i (.datagram q text :: (mid ++ .waited q code who :: past)) ↔
      Completed ps i (mid ++ .waited q code who :: past)) ∧
    (ShuttingDown ps (.datagram q text :: (mid ++ .waited q code who :: past)) ↔
      ShuttingDown ps (mid ++ .waited q code who :: past)) := by
  have ho : owner ps (mid ++ .waited q code who :: past) q = none := by
    induction mid with
    | nil => simp [owner]
    | cons e mid ih =>
      have ih := ih (fun i o r h => h1 i o r (List.mem_cons_of_mem _ h))
        (fun p s h => h2 p s (List.mem_cons_of_mem _ h))
      cases e with
      | spawned j p o r =>
        have : q ≠ p := by
          rintro rfl
          exact h1 j o r List.mem_cons_self
        simp [owner, this, ih]
      | waited p c w =>
        by_cases hp : q = p <;> simp [owner, hp]
        exact ih
      | datagram p s =>
        have hn := h2 p s List.mem_cons_self
        simp only [List.cons_append, owner]
        split
        · next j r h3 h4 =>
          have : q ≠ r := by
            rintro rfl
            exact hn h4
          rw [if_neg this]
          split_ifs <;> first | rfl | exact ih
        · exact ih
      | _ => exact ih
  have := C38_history (ps := ps) (q := q) (text := text)
    (past := mid ++ .waited q code who :: past) (fun j hj => by rw [ho] at hj; cases hj) i 0
  exact ⟨this.1, this.2.1, this.2.2.1, this.2.2.2.2.2.1, this.2.2.2.2.2.2⟩

/-! ## A run -/

/-- A daemon. -/
def daemon : Config := ⟨[prog 'a' .notify]⟩

def daemonAnswers : List Answer :=
  [.setup true, .fork (some (10, 20, 21)), .epollAdd true, .epollAdd true, .now 1,
   .epoll (some [⟨5, true, false⟩]), .recv (some (bytes "READY=1", some 10)),
   .wait (.exited 10 0), .wait .alive, .now 2,
   .epoll (some [⟨5, true, false⟩, ⟨20, false, true⟩, ⟨21, false, true⟩]),
   .recv (some (bytes "MAINPID=77", some 10)), .wait .alive]

/-- It says that it is ready and that process 77 is its main process from now on, and ends. -/
def daemonStory : Timeline :=
  [.cinit (.exit 0), .cinit .reaped, .cinit (.hangup 21), .cinit (.ready ⟨21, false, true⟩),
   .cinit (.hangup 20), .cinit (.ready ⟨20, false, true⟩),
   .cinit (.datagram 10 "MAINPID=77".toList), .cinit (.received (bytes "MAINPID=77")),
   .cinit (.ready ⟨5, true, false⟩),
   .cinit (.polled [⟨5, true, false⟩, ⟨20, false, true⟩, ⟨21, false, true⟩]), .cinit .polling,
   .cinit (.clock 2), .cinit .reaped, .cinit (.waited 10 0 (some 0)),
   .cinit (.datagram 10 "READY=1".toList), .cinit (.received (bytes "READY=1")),
   .cinit (.ready ⟨5, true, false⟩), .cinit (.polled [⟨5, true, false⟩]),
   .ends 10, .sends 10 (bytes "MAINPID=77"), .sends 10 (bytes "READY=1"),
   .cinit .polling, .cinit (.clock 1), .cinit (.watched 21 true), .cinit (.watched 20 true),
   .cinit (.spawned 0 10 20 21)]

/-- cinit ends with code 0 while process 77 is running. -/
theorem daemon_ends : Ends (machine daemonAnswers) daemon (.exited 0 (history daemonStory)) :=
  Res.of_check (by decide +kernel)

theorem daemon_plausible : Plausible 5 daemonStory := by
  simp [daemonStory, Plausible, Possible, ended, unread, bytes]

/-- C112 is false: of two messages sent before the end, the second comes too late. -/
theorem C112_violated : ¬ C112_statement := by
  intro h
  obtain ⟨m, h1, h2⟩ := daemon_ends.log
  exact h _ _ m 3 4 5 daemonStory h1 rfl daemon_plausible h2.symm
    (daemonStory.take 13) 10 0 (some 0) (daemonStory.drop 14) (bytes "MAINPID=77") rfl
    (by decide +kernel)

/-- The hypotheses of `C112_oldest_partial` and `C112_unread_partial` are met there. -/
example : daemonStory = daemonStory.take 13 ++ .cinit (.waited 10 0 (some 0)) ::
      ((daemonStory.drop 14).take 3 ++ .cinit (.polled [⟨5, true, false⟩]) ::
        daemonStory.drop 18) ∧
    daemonStory = daemonStory.take 11 ++ .cinit (.clock 2) ::
      ((daemonStory.drop 12).take 5 ++ .cinit (.polled [⟨5, true, false⟩]) ::
        daemonStory.drop 18) ∧
    unread (daemonStory.drop 18) = [(10, bytes "READY=1"), (10, bytes "MAINPID=77")] ∧
    ended 10 (daemonStory.drop 18) := by
  refine ⟨rfl, rfl, by decide +kernel, ?_⟩
  simp [daemonStory, ended]

end Cinit.Props
