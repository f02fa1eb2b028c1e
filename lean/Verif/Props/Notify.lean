import Verif.Proofs.Utf8
import Verif.Props.Supervision
import Verif.Proofs.Notify
import Verif.Proofs.Numbers
/-!
# C38 – C41, C46, C47: notification messages, aborts
-/

namespace Cinit.Props

open Cinit Spec

/-! ## Effect on the process manager -/

/-- C38: in any state of the process manager, a message whose sender is not the main process of
a program of type notify changes nothing. -/
theorem C38_no_effect (ord : HashOrder) (m : Manager) (text : Str) (peer : Int)
    (h : ∀ i, m.pidDict.get? peer = some i → ∃ p, m.procs[i]? = some p ∧ p.ptype ≠ .notify) :
    m.process ord text peer = .ok m :=
  process_rejected ord h

/-- C39: the effect of an accepted message, in any state of the process manager and for every
order of applying the variables. -/
theorem C39_meaning (ord : HashOrder) {m m' : Manager} {text : Str} {peer : Int} {i : Nat}
    {p : Process} (h1 : m.pidDict.get? peer = some i) (h2 : m.procs[i]? = some p)
    (h3 : p.ptype = .notify) (h : m.process ord text peer = .ok m') :
    (∃ p', m'.procs = m.procs.set i p' ∧
      p'.state = (if assigned text "STOPPING".toList = some ['1'] then .stopping
        else if assigned text "READY".toList = some ['1'] ∧ p.state = .starting then .running
        else p.state) ∧
      p'.status = (assigned text "STATUS".toList).getD p.status ∧
      p'.pid = ((assigned text "MAINPID".toList).bind parseI32).getD p.pid ∧
      p' = { p with state := p'.state, status := p'.status, pid := p'.pid }) ∧
    (assigned text "READY".toList = some ['1'] → m.deps.notifyProcessFinished i = .ok m'.deps) ∧
    (assigned text "READY".toList ≠ some ['1'] → m'.deps = m.deps) ∧
    (∀ q, m'.pidDict.get? q = match (assigned text "MAINPID".toList).bind parseI32 with
      | some r => if q = r then some i else if q = p.pid then none else m.pidDict.get? q
      | none => m.pidDict.get? q) ∧
    m' = { m with procs := m'.procs, deps := m'.deps, pidDict := m'.pidDict } := by
  rw [process_accepted ord h1 h2 h3] at h
  obtain ⟨d, hd, h⟩ := Res.bind_eq_ok.mp h
  cases h
  refine ⟨⟨_, rfl, rfl, rfl, rfl, rfl⟩, ?_, ?_, ?_, rfl⟩
  · intro hr
    rw [if_pos (show saysReady text from hr)] at hd
    exact hd
  · intro hr
    rw [if_neg (show ¬ saysReady text from hr)] at hd
    cases hd; rfl
  · intro q
    simp only
    change AMap.get? (match newMainPid text with | some r => _ | none => _) q =
      match newMainPid text with | some r => _ | none => _
    cases newMainPid text with
    | none => rfl
    | some r => simp only [AMap.get?_insert, AMap.get?_erase, eq_comm]

/-- C39: the order in which the variables of a message are applied does not matter, and messages
with the same assignments have the same effect. -/
theorem C39_same_assignments (ord ord' : HashOrder) (m : Manager) (peer : Int) {text text' : Str}
    (h : ∀ key ∈ ["READY".toList, "STOPPING".toList, "STATUS".toList, "MAINPID".toList],
      assigned text key = assigned text' key) :
    m.process ord text peer = m.process ord' text' peer := by
  cases h1 : m.processIdForPid peer with
  | none =>
    rw [process_rejected ord (by rw [h1]; simp), process_rejected ord' (by rw [h1]; simp)]
  | some i =>
    cases h2 : m.procs[i]? with
    | none => simp [Manager.process, h1, h2]
    | some p =>
      by_cases h3 : p.ptype = .notify
      · rw [process_accepted ord h1 h2 h3, process_accepted ord' h1 h2 h3]
        have e1 := h "READY".toList (by simp)
        have e2 := h "STOPPING".toList (by simp)
        have e3 := h "STATUS".toList (by simp)
        have e4 := h "MAINPID".toList (by simp)
        have f : ∀ b, newMainPid b = (assigned b "MAINPID".toList).bind parseI32 := fun _ => rfl
        have g : newMainPid text = newMainPid text' := by rw [f, f, e4]
        have g1 : saysReady text ↔ saysReady text' := by unfold saysReady; rw [e1]
        have g2 : saysStopping text ↔ saysStopping text' := by unfold saysStopping; rw [e2]
        have g3 : applyText text p = applyText text' p := by
          unfold applyText; simp only [g, g1, g2, e3]
        rw [g, g3]
        simp only [g1]
      · have hr : ∀ j, m.processIdForPid peer = some j →
            ∃ p, m.procs[j]? = some p ∧ p.ptype ≠ .notify := by
          intro j hj
          rw [h1] at hj
          cases hj
          exact ⟨p, h2, h3⟩
        rw [process_rejected ord hr, process_rejected ord' hr]

/-- C39: the value a message gives to a variable is that of its last line of the form
`key=value`. -/
theorem C39_last {text key v : Str} :
    assigned text key = some v ↔ ∃ before after, lines text = before ++ (key ++ '=' :: v) :: after ∧
      ∀ line ∈ after, ∀ v', line ≠ key ++ '=' :: v' := by
  unfold assigned
  constructor
  · intro h
    generalize lines text = ls at h
    induction ls with
    | nil => simp at h
    | cons l ls ih =>
      cases hl : valueIn key l with
      | none =>
        rw [List.filterMap_cons_none hl] at h
        obtain ⟨b, a, h1, h2⟩ := ih h
        exact ⟨l :: b, a, by rw [h1]; rfl, h2⟩
      | some u =>
        rw [List.filterMap_cons_some hl] at h
        cases hf : ls.filterMap (valueIn key) with
        | nil =>
          rw [hf] at h
          simp only [List.getLast?_singleton, Option.some.injEq] at h
          subst h
          refine ⟨[], ls, by rw [(valueIn_some).mp hl]; rfl, fun line hm v' e => ?_⟩
          have := List.filterMap_eq_nil_iff.mp hf line hm
          rw [(valueIn_some).mpr e] at this
          cases this
        | cons y ys =>
          rw [hf, List.getLast?_cons_cons, ← hf] at h
          obtain ⟨b, a, h1, h2⟩ := ih h
          exact ⟨l :: b, a, by rw [h1]; rfl, h2⟩
  · rintro ⟨b, a, h1, h2⟩
    have ha : a.filterMap (valueIn key) = [] := by
      rw [List.filterMap_eq_nil_iff]
      intro line hm
      cases hv : valueIn key line with
      | none => rfl
      | some u => exact absurd ((valueIn_some).mp hv) (h2 line hm u)
    rw [h1, List.filterMap_append, List.filterMap_cons_some ((valueIn_some).mpr rfl), ha]
    simp

/-! ## Effect on the history -/

variable {x : Machine} {config : Config} {m : Manager} (h : x.manager config = .ok m)

include h

/-- C39: the text of a message is the one whose UTF-8 encoding was received, up to the first
NUL byte. -/
theorem C39_text {q : Int} {text : Str} {past : Log}
    (he : Happened (x.loop m).log (.datagram q text) past) :
    ∃ bytes past', past = .received bytes :: past' ∧
      bytes.takeWhile (· ≠ 0) = encode text := by
  obtain ⟨bytes, past', h1, h2⟩ := rule h he
  exact ⟨bytes, past', h1, fromUtf8_iff.mp h2⟩

omit h in
/-- C38: a message from anybody else does not change which programs are alive, their states,
status texts and main processes, what has completed and whether cinit is shutting down, hence
nothing that `Legal` allows or requires cinit to do afterwards. -/
theorem C38_history {ps : List ProcessConfig} {q : Int} {text : Str} {past : Log}
    (hr : ∀ i, owner ps past q = some i → ¬ isNotify ps i) (i : Nat) (p : Int) :
    state ps (.datagram q text :: past) i = state ps past i ∧
    status ps (.datagram q text :: past) i = status ps past i ∧
    mainPid ps (.datagram q text :: past) i = mainPid ps past i ∧
    owner ps (.datagram q text :: past) p = owner ps past p ∧
    (Alive ps i (.datagram q text :: past) ↔ Alive ps i past) ∧
    (Completed ps i (.datagram q text :: past) ↔ Completed ps i past) ∧
    (ShuttingDown ps (.datagram q text :: past) ↔ ShuttingDown ps past) := by
  have hs : Same ps past (.datagram q text :: past) :=
    same_rejected fun i hi => hr i hi.1 hi.2
  exact ⟨hs.state i, hs.status i, hs.mainPid i, hs.owner p, Iff.rfl, hs.completed i,
    hs.shuttingDown⟩

/-- C40: once a program has announced `READY=1`, starting each dependant that has nothing else
to wait for has been tried before cinit waits for something to happen again. -/
theorem C40_released {i j : Nat} {q : Int} {text : Str} {past past' : Log}
    (hp : Happened (x.loop m).log .polling past) (hs : ¬ ShuttingDown config.programs past)
    (hd : Happened past (.datagram q text) past') (ho : owner config.programs past' q = some i)
    (hn : isNotify config.programs i) (hr : assigned text "READY".toList = some ['1'])
    (hj : j < config.programs.length) (hc : ¬ isCronjob config.programs j)
    (hrest : ∀ k, DependsOn config.programs k j → k ≠ i → Completed config.programs k past) :
    (∃ p o r, .spawned j p o r ∈ past) ∨ .spawnFailed j ∈ past := by
  refine C58_prompt h hp hs hj hc fun k hk => ?_
  by_cases hki : k = i
  · subst hki
    exact .inr (sometime_happened.mpr ⟨_, _, hd, q, text, rfl, ⟨ho, hn⟩, hr⟩)
  · exact hrest k hk hki

omit h in
/-- C40: a message without `READY=1` completes nothing. -/
theorem C40_other_value {ps : List ProcessConfig} {q : Int} {text : Str} {past : Log}
    (hr : assigned text "READY".toList ≠ some ['1']) (i : Nat) :
    Completed ps i (.datagram q text :: past) ↔ Completed ps i past := by
  unfold Completed
  rw [terminated_cons, announced_cons]
  constructor
  · rintro ((⟨_, _, _, e, -⟩ | e) | (⟨_, _, e, -, e'⟩ | e))
    · cases e
    · exact .inl e
    · cases e; exact absurd e' hr
    · exact .inr e
  · rintro (e | e)
    · exact .inl (.inr e)
    · exact .inr (.inr e)

/-- C40: a dependant is not started a second time, neither by another `READY=1` nor by the
termination of the program that announced it. -/
theorem C40_once {j : Nat} {p o r : Int} {past : Log}
    (he : Happened (x.loop m).log (.spawned j p o r) past)
    (hc : ¬ isCronjob config.programs j) :
    ∀ p' o' r', .spawned j p' o' r' ∉ past :=
  (C31_once h he hc).1

/-! ## Main process hand-over -/

/-- The event may change which program process `p` belongs to. -/
def Touches (p : Int) : Event → Prop
  | .spawned _ q _ _ => q = p
  | .waited q _ _ => q = p
  | .datagram q text => (q = p ∧ ∃ r, newMainPid text = some r) ∨ newMainPid text = some p
  | _ => False

omit h in
theorem owner_untouched {ps : List ProcessConfig} {p : Int} {mid past : Log}
    (hm : ∀ e ∈ mid, ¬ Touches p e) : owner ps (mid ++ past) p = owner ps past p := by
  induction mid with
  | nil => rfl
  | cons e mid ih =>
    have ih := ih fun e' he' => hm e' (by simp [he'])
    have he := hm e (by simp)
    rw [← ih]
    cases e with
    | spawned i q a b => simp only [List.cons_append, owner]; rw [if_neg (fun e => he e.symm)]
    | waited q rc who => simp only [List.cons_append, owner]; rw [if_neg (fun e => he e.symm)]
    | datagram q text =>
      simp only [List.cons_append, owner]
      cases owner ps (mid ++ past) q with
      | none => rfl
      | some i =>
        cases hn : newMainPid text with
        | none => rfl
        | some r =>
          simp only
          split
          · rw [if_neg, if_neg]
            · rintro rfl; exact he (.inl ⟨rfl, r, hn⟩)
            · rintro rfl; exact he (.inr hn)
          · rfl
    | _ => rfl

/-- C41: after program `i` has announced `r` as its main process, the termination of `r` is
attributed to `i`, unless `r` announces yet another main process or is claimed by somebody
else, or terminates more than once. -/
theorem C41_new_main_partial {i : Nat} {q r rc : Int} {who : Option Nat} {text : Str}
    {later mid past : Log}
    (hl : (x.loop m).log = later ++ .waited r rc who :: (mid ++ .datagram q text :: past))
    (ho : owner config.programs past q = some i) (hn : isNotify config.programs i)
    (hr : newMainPid text = some r) (hm : ∀ e ∈ mid, ¬ Touches r e) : who = some i := by
  have hw : 0 < r ∧ who = owner config.programs (mid ++ .datagram q text :: past) r :=
    rule h ⟨later, hl⟩
  rw [owner_untouched hm] at hw
  rw [hw.2]
  simp only [owner, ho, hr, if_pos hn, if_true]

/-- C41: the termination of the former main process is not attributed to any program, unless
its process id is announced again or given to a new process. -/
theorem C41_former_main_partial {i : Nat} {q r rc : Int} {who : Option Nat} {text : Str}
    {later mid past : Log}
    (hl : (x.loop m).log = later ++ .waited q rc who :: (mid ++ .datagram q text :: past))
    (ho : owner config.programs past q = some i) (hn : isNotify config.programs i)
    (hr : newMainPid text = some r) (hne : r ≠ q) (hm : ∀ e ∈ mid, ¬ Touches q e) :
    who = none := by
  have hw : 0 < q ∧ who = owner config.programs (mid ++ .datagram q text :: past) q :=
    rule h ⟨later, hl⟩
  rw [owner_untouched hm] at hw
  rw [hw.2]
  simp only [owner, ho, hr, if_pos hn]
  rw [if_neg hne.symm, if_pos trivial]

/-- C41: the termination of a process that cinit has started for program `j` is attributed to
`j`, unless the process has announced another main process or is claimed by another program, or
a death by a real-time signal has gone unnoticed. -/
theorem C41_others_partial {j : Nat} {p o e rc : Int} {who : Option Nat} {later mid past : Log}
    (hl : (x.loop m).log = later ++ .waited p rc who :: (mid ++ .spawned j p o e :: past))
    (hw : ∀ rc' who', .waited p rc' who' ∉ mid) (hlost : ∀ sig, .lost p sig ∉ mid)
    (hown : ∀ text, .datagram p text ∈ mid → newMainPid text = none)
    (hclaim : ∀ q text, .datagram q text ∈ mid → newMainPid text ≠ some p) : who = some j := by
  have hr : 0 < p ∧ who = owner config.programs (mid ++ .spawned j p o e :: past) p :=
    rule h ⟨later, hl⟩
  have hleg := before h (e := .waited p rc who) ⟨later, hl⟩
  have hmid : ∀ e ∈ mid, ¬ Touches p e := by
    clear hl hr
    have hun : ∀ mid' : Log, (∀ rc' who', .waited p rc' who' ∉ mid') → (∀ sig, .lost p sig ∉ mid') →
        Unreaped (mid' ++ .spawned j p o e :: past) p := by
      intro mid'
      induction mid' with
      | nil => exact fun _ _ => .inl rfl
      | cons e mid' ih =>
        intro h1 h2
        have ih := ih (fun a b hm => h1 a b (by simp [hm])) (fun a hm => h2 a (by simp [hm]))
        cases e with
        | spawned k q a b => exact .inr ih
        | waited q a b => exact ⟨fun e => h1 a b (by simp [e]), ih⟩
        | lost q a => exact ⟨fun e => h2 a (by simp [e]), ih⟩
        | _ => exact ih
    intro e' he'
    cases e' with
    | spawned k q a b =>
      rintro rfl
      obtain ⟨l1, l2, rfl⟩ := List.append_of_mem he'
      have hap : Happened ((l1 ++ .spawned k q a b :: l2) ++ .spawned j q o e :: past)
          (.spawned k q a b) (l2 ++ .spawned j q o e :: past) := ⟨l1, by simp⟩
      have := (hap.always hleg).1.2
      exact this.2.2.1 (hun l2 (fun a b hm => hw a b (by simp [hm]))
        (fun a hm => hlost a (by simp [hm])))
    | waited q a b => rintro rfl; exact hw a b he'
    | datagram q text =>
      rintro (⟨rfl, r, hr⟩ | hr)
      · rw [hown text he'] at hr; cases hr
      · exact hclaim q text he' hr
    | _ => exact id
  rw [owner_untouched hmid] at hr
  rw [hr.2]
  simp [owner]

/-! ## Aborts -/

omit h in
/-- Planning the next execution of a cronjob fails only at the end of the calendar or in a zone
without valid times. -/
theorem next_panics {src : Str} {s : Timer} {z : Zone} {t : Int} {q : Panic}
    (hp : Timer.parse src = .ok s) (hn : s.next z t = .panic q) :
    q = .dateOverflow ∨ q = .gapTooLong := by
  have hs := ((parse_total src).1 s hp).1
  obtain ⟨p, hpl, hps⟩ := plan_ok hs (z.wall t)
  have b1 := hs.hour.2.2 _ hps.hour_mem
  have b2 := hs.minute.2.2 _ hps.min_mem
  unfold Timer.next at hn
  rw [hpl, Res.bind_ok] at hn
  have key : ∀ d, Timer.planDays z s t p = .ok d → q = .dateOverflow ∨ q = .gapTooLong := by
    intro d hd
    rw [hd, Res.bind_ok] at hn
    rcases addDays_cases t d with ⟨-, ha⟩ | ⟨-, ha⟩
    · rw [ha, Res.bind_ok, if_pos ⟨b1, b2⟩] at hn
      rcases (findValid_spec _ _ _ _).2 _ hn with ⟨h, -⟩ | ⟨h, -⟩
      · exact .inr h
      · exact .inl h
    · rw [ha, Res.bind_panic] at hn; cases hn; exact .inl rfl
  rcases planDays_total (z := z) (s := s) (t := t) (p := p) with
    ⟨-, q2⟩ | ⟨-, ⟨r, -, -, -, -, q6⟩ | ⟨q2, -⟩⟩
  · exact key _ q2
  · exact key _ q6
  · rw [q2, Res.bind_panic] at hn; cases hn; exact .inl rfl

/-- C46: the ways the event loop can abort, with what happened immediately before. -/
theorem C46_causes {p : Panic} {w : World} (ho : x.loop m = .panic p w) :
    (p = .killFailed ∧ ∃ pid sig rest, obligations config.programs w.log = .sent pid sig :: rest ∧
      ¬ Unreaped w.log pid) ∨
    (p = .invalidUtf8 ∧ ∃ bytes past, w.log = .received bytes :: past ∧
      fromUtf8 (bytes.takeWhile (· ≠ 0)) = none) ∨
    (p = .emptyDatagram ∧ ∃ past, w.log = .received [] :: past) ∨
    (p = .undefinedBehaviour ∧ ∃ bytes past, w.log = .received bytes :: past ∧
      4096 ≤ bytes.length ∧ 0 ∉ bytes) ∨
    ((p = .dateOverflow ∨ p = .gapTooLong) ∧ ∃ t past c, w.log = .clock t :: past ∧
      schedule x.env.zone m.cron past = some c ∧ c.popRunnable x.env.zone t = .panic p) := by
  have hg := Machine.loop_good h
  rw [ho] at hg
  rcases hg.1 with hg | hg | hg | hg | ⟨t, past, c, h1, h2, -, h4⟩
  · exact .inl hg
  · exact .inr (.inl hg)
  · exact .inr (.inr (.inl hg))
  · exact .inr (.inr (.inr (.inl hg)))
  · refine .inr (.inr (.inr (.inr ⟨?_, t, past, c, h1, h2, h4⟩)))
    obtain ⟨id, pc, desc, s, -, -, g3, g4⟩ :=
      C28_abort (Machine.manager_ok h).2.2.1 (schedule_polls h2) h4
    rcases g4 with g4 | ⟨g4, -⟩
    · exact next_panics g3 g4
    · exact .inl g4

/-- C46: no sequence of events makes the event loop abort on one of cinit's own consistency
checks. -/
theorem C46_consistent {p : Panic} {w : World} (ho : x.loop m = .panic p w) :
    p ∉ [Panic.invalidProcessId, .underflow, .nameMissing, .duplicateName, .indexOutOfBounds,
      .checkedAbove, .invalidFd, .cronUnknownId, .invalidProcessType, .emptySet, .invalidTime,
      .badSignal] := by
  rcases C46_causes h ho with ⟨rfl, -⟩ | ⟨rfl, -⟩ | ⟨rfl, -⟩ | ⟨rfl, -⟩ | ⟨rfl | rfl, -⟩ <;> decide

/-- C46: as long as no program of type notify announces another main process and none dies by a
real-time signal, sending signals does not fail. -/
theorem C46_kill_succeeds {p : Panic} {w : World} (ho : x.loop m = .panic p w)
    (hp : Plain config.programs w.log) : p ≠ .killFailed := by
  rintro rfl
  rcases C46_causes h ho with ⟨-, pid, sig, rest, h1, h2⟩ | ⟨e, -⟩ | ⟨e, -⟩ | ⟨e, -⟩ | ⟨e | e, -⟩
  rotate_left
  all_goals first | cases e | skip
  have hl : Always (Legal (x.setting config m)) w.log := by
    have := Machine.loop_legal h
    rwa [ho] at this
  rcases obligations_origin hl with h0 | ⟨es, e, past, g1, g2, g3, g4⟩
  · change obligations config.programs w.log = [] at h0
    rw [h0] at h1; cases h1
  · change reaction config.programs (e :: past) = es.reverse ++ obligations config.programs w.log at g4
    rw [h1] at g4
    have hmem : .sent pid sig ∈ reaction config.programs (e :: past) := by rw [g4]; simp
    have hes : ∀ e' ∈ es, isReaction e' := by
      intro e' he'
      refine reaction_isReaction (ps := config.programs) (l := e :: past) e' ?_
      rw [g4]; simp [he']
    have hp' : Plain config.programs (e :: past) := by rw [g1] at hp; exact hp.suffix
    have hl' : Always (Legal (x.setting config m)) (e :: past) := (always_of_suffix hl g1).2
    apply h2
    have hun : ∀ es : Log, (∀ e' ∈ es, isReaction e') → Unreaped (e :: past) pid →
        Unreaped (es ++ e :: past) pid := by
      intro es
      induction es with
      | nil => exact fun _ h => h
      | cons e' es ih =>
        intro h1 h2
        have := ih (fun e'' hm => h1 e'' (by simp [hm])) h2
        have h3 := h1 e' (by simp)
        cases e' <;> first | exact this | exact h3.elim
    rw [g1]
    apply hun es hes
    have hrun : ∀ i, i ∈ runningPrograms config.programs (e :: past) →
        Unreaped (e :: past) (mainPid config.programs (e :: past) i) := by
      intro i hi
      have hact : Active (state config.programs (e :: past) i) := by
        simp only [runningPrograms, List.mem_filter, List.mem_range, decide_eq_true_eq] at hi
        rw [hi.2]; simp [Active]
      exact plain_owner hp' (alive_owner hl' (plain_undisturbed hl' hp')
        ((alive_iff hl' i).mpr hact))
    cases e with
    | signal n =>
      simp only [reaction] at hmem
      split at hmem
      · simp only [List.mem_map, Event.sent.injEq] at hmem
        obtain ⟨i, hi, rfl, -⟩ := hmem
        exact hrun i hi
      · split at hmem
        · simp only [List.mem_map, Event.sent.injEq] at hmem
          obtain ⟨i, hi, rfl, -⟩ := hmem
          exact hrun i hi
        · simp at hmem
    | waited p rc who =>
      simp only [reaction] at hmem
      split at hmem
      · simp only [List.mem_map, Event.sent.injEq] at hmem
        obtain ⟨i, hi, rfl, -⟩ := hmem
        exact hrun i hi
      · simp at hmem
    | chunk fd bytes =>
      simp only [reaction] at hmem
      split at hmem
      · simp at hmem
      · simp at hmem
    | _ => simp [reaction] at hmem

/-- C47: a message on whose receipt cinit aborts is empty, not UTF-8 up to the first NUL byte, or
4096 bytes long without a NUL byte. -/
theorem C47_malformed_partial {p : Panic} {w : World} {bytes : List Nat} {past : Log}
    (ho : x.loop m = .panic p w) (hl : w.log = .received bytes :: past) :
    bytes = [] ∨ fromUtf8 (bytes.takeWhile (· ≠ 0)) = none ∨ (4096 ≤ bytes.length ∧ 0 ∉ bytes) := by
  rcases C46_causes h ho with ⟨-, pid, sig, rest, h1, -⟩ | ⟨-, b, past', h1, h2⟩ |
    ⟨-, past', h1⟩ | ⟨-, b, past', h1, h2⟩ | ⟨-, t, past', c, h1, -⟩
  · have h0 := calm_before h (e := .received bytes) (past := past)
      ⟨[], by rw [ho]; exact hl⟩ id
    rw [hl] at h1
    simp [obligations, h0, reaction] at h1
  · rw [hl] at h1; cases h1; exact .inr (.inl h2)
  · rw [hl] at h1; cases h1; exact .inl rfl
  · rw [hl] at h1; cases h1; exact .inr (.inr h2)
  · rw [hl] at h1; cases h1

omit h

/-- C41: which texts announce a main process: those that give an integer of 32 bits under the key
`MAINPID` last. -/
theorem C41_announces (text : Str) (r : Int) : newMainPid text = some r ↔
    ∃ v, assigned text "MAINPID".toList = some v ∧ IntText v r ∧ -2 ^ 31 ≤ r ∧ r < 2 ^ 31 := by
  unfold newMainPid
  rw [Option.bind_eq_some_iff]
  refine exists_congr fun v => and_congr_right fun _ => ?_
  rw [parseI32_iff]
  refine and_congr_right fun _ => ⟨?_, ?_⟩ <;> rintro ⟨h1, h2⟩ <;> constructor <;> omega

/-- Witness. -/
example : newMainPid "READY=1\nMAINPID=12\n".toList = some 12 := by decide +kernel

end Cinit.Props
