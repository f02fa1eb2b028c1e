import Verif.Proofs.Main
import Verif.Proofs.History
import Verif.Props.CronSched
/-!
# C30 – C37, C42, C45: supervision

Each theorem is about every machine `x` and every configuration it has accepted: `m` is the
process manager built for it, `(x.loop m).log` the history of the event loop, complete or cut
off anywhere (the answers of the kernel in `x.answers` may end at any point).
-/

namespace Cinit.Props

open Cinit Spec

variable {x : Machine} {config : Config} {m : Manager} (h : x.manager config = .ok m)

include h in
theorem rule {e : Event} {past : Log} (he : Happened (x.loop m).log e past) :
    Rule (x.setting config m) past e :=
  (he.always (Machine.loop_legal h)).1.2

include h in
theorem before {e : Event} {past : Log} (he : Happened (x.loop m).log e past) :
    Always (Legal (x.setting config m)) past :=
  (he.always (Machine.loop_legal h)).2

include h

/-! ## Starting -/

/-- C30: when a program is started, each program it depends on has terminated with code 0 or,
being of type notify, announced `READY=1`. -/
theorem C30_dependencies_first {i j : Nat} {p o r : Int} {past : Log}
    (he : Happened (x.loop m).log (.spawned i p o r) past)
    (hd : DependsOn config.programs j i) :
    ∃ e past', Happened past e past' ∧
      ((∃ q who, e = .waited q 0 who ∧ owner config.programs past' q = some j) ∨
       (∃ q text, e = .datagram q text ∧ owner config.programs past' q = some j ∧
          isNotify config.programs j ∧ saysReady text)) := by
  have hr := (rule h he).1.unblocked j hd
  rcases hr with hr | hr
  · obtain ⟨e, past', h1, q, rc, who, h2, h3, h4⟩ := sometime_happened.mp hr
    exact ⟨e, past', h1, .inl ⟨q, who, by rw [h2, h4.mpr rfl], h3⟩⟩
  · obtain ⟨e, past', h1, q, text, h2, h3, h4⟩ := sometime_happened.mp hr
    exact ⟨e, past', h1, .inr ⟨q, text, h2, h3.1, h3.2, h4⟩⟩

/-- C31: a program that is not a cronjob is started at most once, and not again after a
failure to start it. -/
theorem C31_once {i : Nat} {p o r : Int} {past : Log}
    (he : Happened (x.loop m).log (.spawned i p o r) past)
    (hc : ¬ isCronjob config.programs i) :
    (∀ p' o' r', .spawned i p' o' r' ∉ past) ∧ .spawnFailed i ∉ past := by
  have := (rule h he).1.once hc
  exact ⟨fun p' o' r' hm => this (.inl ⟨p', o', r', hm⟩), fun hm => this (.inr hm)⟩

/-- C32: between two starts of a program its earlier run has terminated with code 0, and this
was noticed. -/
theorem C32_not_reentrant {i : Nat} {p o r p' o' r' : Int} {past mid first : Log}
    (he : Happened (x.loop m).log (.spawned i p o r) past)
    (hp : past = mid ++ .spawned i p' o' r' :: first) :
    ∃ later q before, mid = later ++ .waited q 0 (some i) :: before ∧
      owner config.programs (before ++ .spawned i p' o' r' :: first) q = some i := by
  have hidle := (rule h he).1.idle
  have hopen := (rule h he).1.open_
  have hlegal := before h he
  have hna : ¬ Alive config.programs i past := by
    intro ha
    have := (alive_iff hlegal i).mp ha
    rcases hidle with hi | hi <;> rw [hi] at this <;> simp [Active] at this
  subst hp
  suffices hs : Alive config.programs i (mid ++ .spawned i p' o' r' :: first) ∨
      ∃ later q rc who before, mid = later ++ .waited q rc who :: before ∧
        owner config.programs (before ++ .spawned i p' o' r' :: first) q = some i by
    rcases hs with hs | ⟨later, q, rc, who, before, h1, h2⟩
    · exact absurd hs hna
    · have hap : Happened (mid ++ .spawned i p' o' r' :: first) (.waited q rc who)
          (before ++ .spawned i p' o' r' :: first) := ⟨later, by rw [h1]; simp⟩
      have hrc : rc = 0 := by
        by_contra hne
        exact hopen (.inr ⟨i, sometime_happened.mpr
          ⟨_, _, hap, q, rc, who, rfl, h2, by simp [hne]⟩⟩)
      have hw : 0 < q ∧ who = owner config.programs (before ++ .spawned i p' o' r' :: first) q :=
        (hap.always hlegal).1.2
      rw [h2] at hw
      rw [hrc, hw.2] at h1
      exact ⟨later, q, before, h1, h2⟩
  clear hidle hopen hlegal hna he
  induction mid with
  | nil => exact .inl (.inl rfl)
  | cons e mid ih =>
    rcases ih with ih | ⟨later, q, rc, who, before, h1, h2⟩
    · cases e with
      | spawned j q a b => exact .inl (.inr ih)
      | waited q rc who =>
        by_cases ho : owner config.programs (mid ++ .spawned i p' o' r' :: first) q = some i
        · exact .inr ⟨[], q, rc, who, mid, rfl, ho⟩
        · exact .inl ⟨ho, ih⟩
      | _ => exact .inl ih
    · exact .inr ⟨e :: later, q, rc, who, before, by rw [h1]; rfl, h2⟩

/-- C33: nothing is started once a termination signal has been received or a program has
terminated unsuccessfully. -/
theorem C33_no_start_partial {i : Nat} {p o r : Int} {past : Log}
    (he : Happened (x.loop m).log (.spawned i p o r) past) :
    (.signal Signal.int ∉ past ∧ .signal Signal.quit ∉ past ∧ .signal Signal.term ∉ past) ∧
    ∀ q rc who past', Happened past (.waited q rc who) past' → rc ≠ 0 →
      owner config.programs past' q = none := by
  have hopen := (rule h he).1.open_
  refine ⟨⟨fun hm => hopen (.inl (.inl hm)), fun hm => hopen (.inl (.inr (.inl hm))),
    fun hm => hopen (.inl (.inr (.inr hm)))⟩, ?_⟩
  intro q rc who past' hp hrc
  cases ho : owner config.programs past' q with
  | none => rfl
  | some j =>
    exact absurd (.inr ⟨j, sometime_happened.mpr ⟨_, _, hp, q, rc, who, rfl, ho, by simp [hrc]⟩⟩)
      hopen

/-- C58: whenever cinit waits for something to happen and is not shutting down, starting each
program that is not a cronjob and whose dependencies have completed has been tried. -/
theorem C58_prompt {past : Log} (he : Happened (x.loop m).log .polling past)
    (hs : ¬ ShuttingDown config.programs past) {i : Nat} (hi : i < config.programs.length)
    (hc : ¬ isCronjob config.programs i)
    (hd : ∀ j, DependsOn config.programs j i → Completed config.programs j past) :
    (∃ p o r, .spawned i p o r ∈ past) ∨ .spawnFailed i ∈ past :=
  ((rule h he).2 hs).1 i hi hc hd

omit h in
/-- The schedule after a history is reached by polls. -/
theorem schedule_polls {z : Zone} {c0 c : Cron} {l : Log}
    (hs : schedule z c0 l = some c) : Polls z c0 c := by
  induction l generalizing c with
  | nil => cases hs; exact .refl _
  | cons e l ih =>
    cases e with
    | clock u =>
      simp only [schedule] at hs
      cases hs' : schedule z c0 l with
      | none => rw [hs'] at hs; cases hs
      | some c1 =>
        rw [hs'] at hs
        simp only at hs
        cases hp : c1.popRunnable z u with
        | ok r => rw [hp] at hs; cases hs; exact .step (ih hs') hp
        | err e => exact nomatch e
        | panic q => rw [hp] at hs; cases hs
    | _ => exact ih hs

/-- C59: a cronjob is started right after a reading `t` of the clock for which the scheduler
has it planned at or before `t`. -/
theorem C59_only_when_due {i : Nat} {p o r : Int} {past : Log}
    (he : Happened (x.loop m).log (.spawned i p o r) past)
    (hc : isCronjob config.programs i) :
    ∃ t past' c t0, past = .clock t :: past' ∧ schedule x.env.zone m.cron past' = some c ∧
      c.nextExecution i = .ok t0 ∧ t0 ≤ t := by
  obtain ⟨t, past', c, c', h1, h2, h3⟩ := (rule h he).1.due hc
  obtain ⟨t0, g1, g2, -⟩ := C28_due (Machine.manager_ok h).2.2.1 (schedule_polls h2) h3
  exact ⟨t, past', c, t0, h1, h2, g1, g2⟩

/-- C60: if a cronjob is planned at or before a reading `t` of the clock, the next event is an
attempt to start a cronjob planned at least as early, or a statement why this one is not
started now. -/
theorem C60_attended {t t0 : Int} {j : Nat} {c : Cron} {later past : Log} {e : Event}
    (hl : (x.loop m).log = later ++ e :: .clock t :: past)
    (hs : schedule x.env.zone m.cron past = some c)
    (hj : c.nextExecution j = .ok t0) (ht : t0 ≤ t) :
    ∃ i ti, c.nextExecution i = .ok ti ∧ ti ≤ t0 ∧
      ((∃ p o r, e = .spawned i p o r) ∨ e = .spawnFailed i ∨
       (e = .refused i .running ∧ Alive config.programs i past) ∨
       (e = .postponed i ∧ ∃ k, DependsOn config.programs k i ∧
          ¬ Completed config.programs k past)) := by
  have hb := (Machine.manager_ok h).2.2.1
  have hp := schedule_polls hs
  have hap : Happened (x.loop m).log e (.clock t :: past) := ⟨later, hl⟩
  have hleg := (hap.always (Machine.loop_legal h)).1
  have hlp : Always (Legal (x.setting config m)) past := (before h hap).2
  have hsch : schedule x.env.zone m.cron (.clock t :: past) ≠ none := hleg.1.2.1
  cases hq : c.popRunnable x.env.zone t with
  | err e => exact nomatch e
  | panic q => simp [schedule, hs, hq] at hsch
  | ok r =>
    obtain ⟨o, c'⟩ := r
    cases o with
    | none => exact absurd ((C28_none hb hp hq).2 j t0 hj) (by omega)
    | some i =>
      obtain ⟨ti, g1, g2, g3, -⟩ := C28_due hb hp hq
      refine ⟨i, ti, g1, ?_, ?_⟩
      · by_cases hij : j = i
        · subst hij
          rw [g1] at hj; cases hj; exact le_refl _
        · have hm : (t0, j) ∈ c.timer := by
            unfold Cron.nextExecution at hj
            split at hj
            · rename_i e he
              cases hj
              have := List.find?_some he
              simp only [beq_iff_eq, decide_eq_true_eq] at this
              rw [this]
              exact List.mem_of_find?_eq_some he
            · cases hj
          rcases g3 t0 j hm with e | e
          · exact absurd e hij
          · omega
      · have hat : attends i e := hleg.1.2.2 i ⟨t, past, c, c', rfl, hs, hq⟩
        cases e with
        | spawned k p o r => cases hat; exact .inl ⟨p, o, r, rfl⟩
        | spawnFailed k => cases hat; exact .inr (.inl rfl)
        | refused k s =>
          cases hat
          have hr : isCronjob config.programs i ∧ _ ∧ _ ∧ _ ∧ s = .running := hleg.2
          obtain ⟨-, -, -, e1, rfl⟩ := hr
          refine .inr (.inr (.inl ⟨rfl, (alive_iff hlp i).mpr ?_⟩))
          have : state config.programs past i = .running := e1.symm
          show Active (state config.programs past i)
          rw [this]; simp [Active]
        | postponed k =>
          cases hat
          have hr : _ ∧ _ ∧ ¬ Unblocked config.programs i (.clock t :: past) := hleg.2
          obtain ⟨-, -, e1⟩ := hr
          unfold Unblocked at e1
          push_neg at e1
          obtain ⟨k, e2, e3⟩ := e1
          refine .inr (.inr (.inr ⟨rfl, k, e2, ?_⟩))
          rintro (e4 | e4)
          · exact e3 (.inl ((terminated_cons past k).mpr (.inr e4)))
          · exact e3 (.inr ((announced_cons past k).mpr (.inr e4)))
        | _ => exact absurd hat id

/-- C60: when cinit waits for something to happen and is not shutting down, it has just read the
clock and every cronjob is planned for later. -/
theorem C60_none_overlooked {past : Log} (he : Happened (x.loop m).log .polling past)
    (hs : ¬ ShuttingDown config.programs past) :
    ∃ t past' c, past = .clock t :: past' ∧ schedule x.env.zone m.cron past = some c ∧
      ∀ i, isCronjob config.programs i → ∃ t0, c.nextExecution i = .ok t0 ∧ t < t0 := by
  obtain ⟨t, past', c, c', h1, h2, h3⟩ := ((rule h he).2 hs).2
  have hb := (Machine.manager_ok h).2.2.1
  have hp := schedule_polls h2
  obtain ⟨rfl, h4⟩ := C28_none hb hp h3
  refine ⟨t, past', c', h1, ?_, ?_⟩
  · rw [h1]
    change schedule x.env.zone m.cron past' = some c' at h2
    change c'.popRunnable x.env.zone t = _ at h3
    simp only [schedule, h2, h3]
  · rintro i ⟨pc, g1, d, g2⟩
    obtain ⟨-, t0, -, g3⟩ := (C27_exactly_one hb hp).1 i pc g1 (by rw [g2]; rfl)
    exact ⟨t0, g3, h4 i t0 g3⟩

/-! ## Ending -/

/-- The event loop returns by an exit event. -/
theorem exit_event {code : Int} {w : World} (ho : x.loop m = .ok code w) :
    ∃ past, w.log = .exit code :: past ∧ Happened (x.loop m).log (.exit code) past := by
  have := Machine.loop_good h
  rw [ho] at this
  obtain ⟨-, past, hp⟩ := this
  exact ⟨past, hp, [], by rw [ho]; exact hp⟩

/-- C34: the exit status is 3 if setting up failed, when nothing has happened; otherwise 6 if
some main process terminated with a non-zero status or by a signal, as far as `waitpid`
reports it, and 0 if none did. -/
theorem C34_exit_status_partial {code : Int} {w : World} (ho : x.loop m = .ok code w) :
    (code = 3 ∧ w.log = [.exit 3]) ∨
    (code = 6 ∧ SomeCrash config.programs w.log) ∨
    (code = 0 ∧ ¬ SomeCrash config.programs w.log) := by
  obtain ⟨past, h1, h2⟩ := exit_event h ho
  have hcons : SomeCrash config.programs w.log ↔ SomeCrash config.programs past := by
    rw [h1]
    constructor
    · rintro ⟨i, hi⟩
      rcases (terminated_cons past i).mp hi with ⟨p, rc, who, he, -⟩ | hi
      · cases he
      · exact ⟨i, hi⟩
    · rintro ⟨i, hi⟩
      exact ⟨i, (terminated_cons past i).mpr (.inr hi)⟩
  rcases rule h h2 with ⟨e1, e2⟩ | ⟨-, -, e1, e2, -⟩
  · left; rw [h1, e1, e2]; exact ⟨rfl, rfl⟩
  · right
    by_cases hc : SomeCrash config.programs past
    · exact .inl ⟨e1 hc, hcons.mpr hc⟩
    · exact .inr ⟨e2 hc, fun hn => hc (hcons.mp hn)⟩

/-- C34: if no main process dies unnoticed, the exit status is 6 exactly if some died
unsuccessfully. -/
theorem C34_exit_status_noticed_partial {code : Int} {w : World} (ho : x.loop m = .ok code w)
    (hl : ∀ p sig past, Happened w.log (.lost p sig) past → owner config.programs past p = none)
    (h3 : code ≠ 3) :
    (code = 6 ↔ ∃ i, Died config.programs i w.log) ∧
    (code = 0 ↔ ¬ ∃ i, Died config.programs i w.log) := by
  have hiff : (∃ i, Died config.programs i w.log) ↔ SomeCrash config.programs w.log := by
    constructor
    · rintro ⟨i, hi | hi⟩
      · exact ⟨i, hi⟩
      · obtain ⟨e, past, g1, p, sig, rfl, g2⟩ := sometime_happened.mp hi
        rw [hl p sig past g1] at g2; cases g2
    · rintro ⟨i, hi⟩; exact ⟨i, .inl hi⟩
  rw [hiff]
  rcases C34_exit_status_partial h ho with ⟨e1, -⟩ | ⟨rfl, e2⟩ | ⟨rfl, e2⟩
  · exact absurd e1 h3
  · exact ⟨⟨fun _ => e2, fun _ => rfl⟩, ⟨fun e => (by cases e), fun e => absurd e2 e⟩⟩
  · exact ⟨⟨fun e => (by cases e), fun e => absurd e e2⟩, ⟨fun _ => e2, fun _ => rfl⟩⟩

/-- C36: when the event loop ends, no process is main process of any program and no output
stream is open. -/
theorem C36_outlives {code : Int} {w : World} (ho : x.loop m = .ok code w) :
    (∀ p, owner config.programs w.log p = none) ∧ ∀ fd, stream w.log fd = none := by
  obtain ⟨past, h1, h2⟩ := exit_event h ho
  rw [h1]
  rcases rule h h2 with ⟨-, e2⟩ | ⟨e1, e2, -⟩
  · rw [e2]; exact ⟨fun _ => rfl, fun _ => rfl⟩
  · exact ⟨e1, e2⟩

/-- C36: unless messages or recycled process ids confuse which process belongs to which program,
every program that was started has terminated. -/
theorem C36_all_terminated {code : Int} {w : World} (ho : x.loop m = .ok code w)
    (hu : Undisturbed config.programs w.log) (i : Nat) : ¬ Alive config.programs i w.log := by
  intro ha
  have hl : Always (Legal (x.setting config m)) w.log := by
    have := Machine.loop_legal h
    rwa [ho] at this
  have := alive_owner hl hu ha
  change owner config.programs w.log _ = some i at this
  rw [(C36_outlives h ho).1] at this
  cases this

/-- C36: if no program of type notify announces another main process and none dies by a real-time
signal, all processes started by cinit have been reaped. -/
theorem C36_all_reaped {code : Int} {w : World} (ho : x.loop m = .ok code w)
    (hp : Plain config.programs w.log) (p : Int) : ¬ Unreaped w.log p := by
  have hno := (C36_outlives h ho).1 p
  intro hun
  obtain ⟨i, hi⟩ := plain_unreaped hp hun
  rw [hno] at hi; cases hi

/-- C45, C79: if the event loop ends without a termination signal or a crash, and nothing confuses
which process belongs to which program, every program other than a cronjob has been started and
has terminated with code 0, unless it waits for one that could not be started. -/
theorem C45_completion_partial {code : Int} {w : World} (ho : x.loop m = .ok code w)
    (h3 : code ≠ 3) (hs : ¬ ShuttingDown config.programs w.log)
    (hu : Undisturbed config.programs w.log)
    {i : Nat} (hi : i < config.programs.length) (hc : ¬ isCronjob config.programs i) :
    (Started i w.log ∧ Terminated config.programs true i w.log) ∨
      ∃ j, .spawnFailed j ∈ w.log ∧ Relation.ReflTransGen (DependsOn config.programs) j i := by
  obtain ⟨past, h1, h2⟩ := exit_event h ho
  have hl := before h h2
  obtain ⟨-, -, hn, hac, -⟩ := buildDependencyManager_ok (Machine.manager_ok h).2.1
  have hup : Undisturbed config.programs past := by rw [h1] at hu; exact hu.2
  have hna : ∀ k, ¬ Alive config.programs k past := fun k ha =>
    C36_all_terminated h ho hu k (by rw [h1]; exact ha)
  have hsp : ¬ ShuttingDown config.programs past := by
    intro hsp
    apply hs
    rw [h1]
    rcases hsp with hsp | ⟨k, hk⟩
    · left
      rcases hsp with hsp | hsp | hsp
      · exact .inl (by simp [hsp])
      · exact .inr (.inl (by simp [hsp]))
      · exact .inr (.inr (by simp [hsp]))
    · exact .inr ⟨k, (terminated_cons past k).mpr (.inr hk)⟩
  have hatt : ∀ k, k < config.programs.length → ¬ isCronjob config.programs k →
      Unblocked config.programs k past → Attempted k past := by
    rcases rule h h2 with ⟨e1, -⟩ | ⟨-, -, -, -, e⟩
    · exact absurd e1 h3
    · exact e hsp
  have hterm : ∀ k, Started k past → Terminated config.programs true k past := by
    intro k hk
    have hor : ∀ l, Started k l → Alive config.programs k l ∨
        Terminated config.programs true k l ∨ Terminated config.programs false k l := by
      intro l
      induction l with
      | nil => rintro ⟨p, o, r, hm⟩; cases hm
      | cons e l ih =>
        intro hst
        have lift : Terminated config.programs true k l ∨ Terminated config.programs false k l →
            Terminated config.programs true k (e :: l) ∨
              Terminated config.programs false k (e :: l) := by
          rintro (a | a)
          · exact .inl ((terminated_cons l k).mpr (.inr a))
          · exact .inr ((terminated_cons l k).mpr (.inr a))
        rcases (started_cons l k).mp hst with ⟨p, o, r, rfl⟩ | hst
        · exact .inl (.inl rfl)
        · rcases ih hst with ha | ht
          · cases e with
            | spawned j q a b => exact .inl (.inr ha)
            | waited q rc who =>
              by_cases hq : owner config.programs l q = some k
              · right
                by_cases hrc : rc = 0
                · exact .inl ((terminated_cons l k).mpr
                    (.inl ⟨q, rc, who, rfl, hq, by simp [hrc]⟩))
                · exact .inr ((terminated_cons l k).mpr
                    (.inl ⟨q, rc, who, rfl, hq, by simp [hrc]⟩))
              · exact .inl ⟨hq, ha⟩
            | _ => exact .inl ha
          · exact .inr (lift ht)
    rcases hor past hk with ha | ht | ht
    · exact absurd ha (hna k)
    · exact ht
    · exact absurd (.inr ⟨k, ht⟩) hsp
  have hdc : ∀ i j, DependsOn config.programs i j → ¬ isCronjob config.programs i :=
    (Machine.initial h).nocron
  have hall : ∀ k, k < config.programs.length → ¬ isCronjob config.programs k →
      Started k past ∨ ∃ j, .spawnFailed j ∈ past ∧
        Relation.ReflTransGen (DependsOn config.programs) j k := by
    intro k
    induction k using (DepMgr.wellFounded_of_acyclic hac).induction with
    | _ k ih =>
      intro hk1 hk2
      by_cases hdep : ∀ j, DependsOn config.programs j k → Started j past
      · rcases hatt k hk1 hk2 fun j hj => .inl (hterm j (hdep j hj)) with hk | hk
        · exact .inl hk
        · exact .inr ⟨k, hk, .refl⟩
      · push Not at hdep
        obtain ⟨j, hj, hns⟩ := hdep
        rcases ih j hj (DepMgr.dependsOn_lt hj).1 (hdc j k hj) with hst | ⟨j', h1, h2⟩
        · exact absurd hst hns
        · exact .inr ⟨j', h1, h2.tail hj⟩
  rcases hall i hi hc with hst | ⟨j, hj, hr⟩
  · refine .inl ⟨?_, ?_⟩
    · rw [h1]; exact (started_cons past i).mpr (.inr hst)
    · rw [h1]; exact (terminated_cons past i).mpr (.inr (hterm i hst))
  · exact .inr ⟨j, by rw [h1]; simp [hj], hr⟩

/-- C45: if the event loop ends without a termination signal, a crash or a failure to start
something, and nothing confuses which process belongs to which program, every program other
than a cronjob has been started and has terminated with code 0. -/
theorem C45_clean_completion_partial {code : Int} {w : World} (ho : x.loop m = .ok code w)
    (h3 : code ≠ 3) (hs : ¬ ShuttingDown config.programs w.log)
    (hf : ∀ i, .spawnFailed i ∉ w.log) (hu : Undisturbed config.programs w.log)
    {i : Nat} (hi : i < config.programs.length) (hc : ¬ isCronjob config.programs i) :
    Started i w.log ∧ Terminated config.programs true i w.log := by
  rcases C45_completion_partial h ho h3 hs hu hi hc with h1 | ⟨j, h1, -⟩
  · exact h1
  · exact absurd h1 (hf j)

/-! ## Signals -/

omit h in
theorem reaction_isReaction {ps : List ProcessConfig} {l : Log} :
    ∀ e ∈ reaction ps l, isReaction e := by
  intro e he
  unfold reaction at he
  split at he
  · split at he
    · obtain ⟨i, -, rfl⟩ := List.mem_map.mp he; trivial
    · split at he
      · obtain ⟨i, -, rfl⟩ := List.mem_map.mp he; trivial
      · cases he
  · split at he
    · obtain ⟨i, -, rfl⟩ := List.mem_map.mp he; trivial
    · cases he
  · split at he
    · cases he
    · obtain ⟨i, -, rfl⟩ := List.mem_map.mp he; trivial
  · cases he

omit h in
theorem obligations_isReaction {ps : List ProcessConfig} {l : Log} :
    ∀ e ∈ obligations ps l, isReaction e := by
  induction l with
  | nil => intro e he; cases he
  | cons e l ih =>
    intro e' he'
    unfold obligations at he'
    split at he'
    · rename_i y rest hr
      exact ih e' (by rw [hr]; exact List.mem_cons_of_mem _ he')
    · exact reaction_isReaction e' he'

/-- Events that are not reactions happen only when nothing is pending. -/
theorem calm_before {e : Event} {past : Log} (he : Happened (x.loop m).log e past)
    (hr : ¬ isReaction e) : obligations config.programs past = [] := by
  have := (he.always (Machine.loop_legal h)).1.1.1
  change (match obligations config.programs past with
    | y :: _ => e = y
    | [] => ¬ isReaction e) at this
  cases ho : obligations config.programs past with
  | nil => rfl
  | cons y rest =>
    rw [ho] at this
    simp only at this
    exact absurd (obligations_isReaction e (by rw [ho, this]; simp)) hr

/-- C35: after a termination signal the next events are one signal for each program in state
running, to its main process, in the order of the configuration, as far as the history goes;
SIGTERM is passed on as SIGINT. -/
theorem C35_signal_partial {n : Nat} {later past : Log}
    (hl : (x.loop m).log = later ++ .signal n :: past)
    (hn : n = Signal.int ∨ n = Signal.quit ∨ n = Signal.term) :
    let es := ((List.range config.programs.length).filter
        (fun i => state config.programs past i = .running)).map
      (fun i => Event.sent (mainPid config.programs past i) (if n = Signal.term then Signal.int else n))
    later.reverse <+: es ∨ es <+: later.reverse := by
  intro es
  have hcalm := calm_before h (e := .signal n) (past := past) ⟨later, hl⟩ (fun hf => hf)
  have hlegal := Machine.loop_legal h
  rw [hl] at hlegal
  have hes : obligations config.programs (.signal n :: past) = es := by
    simp only [obligations, hcalm, reaction]
    rcases hn with rfl | rfl | rfl
    · rw [if_pos (.inl rfl)]; rfl
    · rw [if_pos (.inr rfl)]; rfl
    · rw [if_neg (by decide), if_pos rfl]; rfl
  have := follow hlegal
  change _ ∨ obligations config.programs (.signal n :: past) <+: _ at this
  rw [hes] at this
  rcases this with ht | ht
  · left
    change _ <+: obligations config.programs (.signal n :: past) at ht
    rwa [hes] at ht
  · exact .inr ht

/-- C35: the same after a crash, with SIGINT. The crashed program is not among the running ones
any more. -/
theorem C35_crash_partial {p rc : Int} {who : Option Nat} {k : Nat} {later past : Log}
    (hl : (x.loop m).log = later ++ .waited p rc who :: past) (hrc : rc ≠ 0)
    (ho : owner config.programs past p = some k) :
    let es := ((List.range config.programs.length).filter
        (fun i => i ≠ k ∧ state config.programs past i = .running)).map
      (fun i => Event.sent (mainPid config.programs past i) Signal.int)
    later.reverse <+: es ∨ es <+: later.reverse := by
  intro es
  have hcalm := calm_before h (e := .waited p rc who) (past := past) ⟨later, hl⟩ (fun hf => hf)
  have hlegal := Machine.loop_legal h
  rw [hl] at hlegal
  have hes : obligations config.programs (.waited p rc who :: past) = es := by
    simp only [obligations, hcalm, reaction]
    rw [if_pos ⟨hrc, by rw [ho]; rfl⟩]
    simp only [es, runningPrograms]
    congr 1
    apply List.filter_congr
    intro i _
    simp only [state, ho, Option.some.injEq]
    by_cases hik : k = i
    · rw [if_pos hik, if_pos hrc]
      simp [hik]
    · rw [if_neg hik]
      simp [Ne.symm hik]
  have := follow hlegal
  change _ ∨ obligations config.programs (.waited p rc who :: past) <+: _ at this
  rw [hes] at this
  rcases this with ht | ht
  · left
    change _ <+: obligations config.programs (.waited p rc who :: past) at ht
    rwa [hes] at ht
  · exact .inr ht

/-- C35: nobody else is sent a signal: each signal sent goes to the main process of a program
that was running when, with only signals of the same kind in between, a termination signal was
received or a program crashed. -/
theorem C35_nobody_else_partial {p : Int} {n : Nat} {past : Log}
    (he : Happened (x.loop m).log (.sent p n) past) :
    ∃ es e past' i, past = es ++ e :: past' ∧ (∀ e' ∈ es, ∃ p', e' = .sent p' n) ∧
      i < config.programs.length ∧ state config.programs past' i = .running ∧
      p = mainPid config.programs past' i ∧
      ((e = .signal n ∧ (n = Signal.int ∨ n = Signal.quit)) ∨ (e = .signal Signal.term ∧ n = Signal.int) ∨
        (∃ q rc who j, e = .waited q rc who ∧ rc ≠ 0 ∧ owner config.programs past' q = some j ∧
          n = Signal.int ∧ i ≠ j)) := by
  obtain ⟨rest, hob⟩ := reaction_due (Machine.loop_legal h) he trivial
  rcases obligations_origin (before h he) with h0 | ⟨es, e, past', h1, h2, h3, h4⟩
  · rw [h0] at hob; cases hob
  · rw [hob] at h4
    change reaction config.programs (e :: past') = _ at h4
    have hmem : ∀ e' ∈ es, e' ∈ reaction config.programs (e :: past') := by
      intro e' he'
      rw [h4]; simp [he']
    have hp : Event.sent p n ∈ reaction config.programs (e :: past') := by rw [h4]; simp
    cases e with
    | signal k =>
      simp only [reaction] at hmem hp
      by_cases hk : k = Signal.int ∨ k = Signal.quit
      · rw [if_pos hk] at hmem hp
        obtain ⟨i, hi, heq⟩ := List.mem_map.mp hp
        cases heq
        simp only [runningPrograms, List.mem_filter, List.mem_range, decide_eq_true_eq] at hi
        refine ⟨es, _, past', i, h1, ?_, hi.1, hi.2, rfl, .inl ⟨rfl, hk⟩⟩
        intro e' he'
        obtain ⟨i', -, rfl⟩ := List.mem_map.mp (hmem e' he')
        exact ⟨_, rfl⟩
      · rw [if_neg hk] at hmem hp
        by_cases ht : k = Signal.term
        · rw [if_pos ht] at hmem hp
          obtain ⟨i, hi, heq⟩ := List.mem_map.mp hp
          cases heq
          simp only [runningPrograms, List.mem_filter, List.mem_range, decide_eq_true_eq] at hi
          refine ⟨es, _, past', i, h1, ?_, hi.1, hi.2, rfl, .inr (.inl ⟨by rw [ht], rfl⟩)⟩
          intro e' he'
          obtain ⟨i', -, rfl⟩ := List.mem_map.mp (hmem e' he')
          exact ⟨_, rfl⟩
        · rw [if_neg ht] at hp; cases hp
    | waited q rc who =>
      simp only [reaction] at hmem hp
      by_cases hk : rc ≠ 0 ∧ (owner config.programs past' q).isSome
      · rw [if_pos hk] at hmem hp
        obtain ⟨i, hi, heq⟩ := List.mem_map.mp hp
        cases heq
        simp only [runningPrograms, List.mem_filter, List.mem_range, decide_eq_true_eq] at hi
        obtain ⟨j, hj⟩ := Option.isSome_iff_exists.mp hk.2
        have hst := hi.2
        simp only [state, hj, Option.some.injEq] at hst
        have hij : j ≠ i := by
          rintro rfl
          rw [if_pos rfl, if_pos hk.1] at hst; cases hst
        rw [if_neg hij] at hst
        refine ⟨es, _, past', i, h1, ?_, hi.1, hst, rfl,
          .inr (.inr ⟨q, rc, who, j, rfl, hk.1, hj, rfl, hij.symm⟩)⟩
        intro e' he'
        obtain ⟨i', -, rfl⟩ := List.mem_map.mp (hmem e' he')
        exact ⟨_, rfl⟩
      · rw [if_neg hk] at hp; cases hp
    | chunk fd bytes =>
      simp only [reaction] at hp
      cases hs : stream past' fd with
      | none => rw [hs] at hp; cases hp
      | some y =>
        rw [hs] at hp
        obtain ⟨t, -, heq⟩ := List.mem_map.mp hp
        cases heq
    | _ => simp [reaction] at hp

/-! ## Reaping -/

/-- C37, C57: `who` is the program cinit attributes a termination to. It is the one whose main
process terminated, if any. -/
theorem C57_attribution_partial {p rc : Int} {who : Option Nat} {past : Log}
    (he : Happened (x.loop m).log (.waited p rc who) past) :
    who = owner config.programs past p :=
  (rule h he).2

/-- C57: a termination seen by cinit ends the life of the program it belongs to. -/
theorem C57_noticed_partial {p rc : Int} {who : Option Nat} {past : Log} {i : Nat}
    (he : Happened (x.loop m).log (.waited p rc who) past)
    (ho : owner config.programs past p = some i) :
    who = some i ∧ ¬ Alive config.programs i (.waited p rc who :: past) ∧
      state config.programs (.waited p rc who :: past) i =
        (if rc ≠ 0 then .crashed rc else if isCronjob config.programs i then .sleeping
          else .done) := by
  refine ⟨by rw [C57_attribution_partial h he, ho], fun ha => ha.1 ho, ?_⟩
  simp only [state]
  rw [if_pos ho]

/-- C37: the termination of a process that is not the main process of a program is reaped
without consequences: no signal follows, and all that determines what cinit does later and
reports is as before. -/
theorem C37_foreign {p rc : Int} {who : Option Nat} {later past : Log}
    (hl : (x.loop m).log = later ++ .waited p rc who :: past)
    (ho : owner config.programs past p = none) :
    who = none ∧ (∀ q n, later.getLast? ≠ some (.sent q n)) ∧
    (∀ i, state config.programs (.waited p rc who :: past) i = state config.programs past i) ∧
    (∀ q, owner config.programs (.waited p rc who :: past) q = owner config.programs past q) ∧
    (∀ i, Completed config.programs i (.waited p rc who :: past) ↔
      Completed config.programs i past) ∧
    (SomeCrash config.programs (.waited p rc who :: past) ↔ SomeCrash config.programs past) ∧
    (ShuttingDown config.programs (.waited p rc who :: past) ↔
      ShuttingDown config.programs past) := by
  have he : Happened (x.loop m).log (.waited p rc who) past := ⟨later, hl⟩
  have hterm : ∀ ok i, Terminated config.programs ok i (.waited p rc who :: past) ↔
      Terminated config.programs ok i past := by
    intro ok i
    rw [terminated_cons]
    constructor
    · rintro (⟨p', rc', who', heq, ho', -⟩ | ht)
      · cases heq
        rw [ho] at ho'; cases ho'
      · exact ht
    · exact .inr
  have hann : ∀ i, Announced config.programs i (.waited p rc who :: past) ↔
      Announced config.programs i past := by
    intro i
    rw [announced_cons]
    constructor
    · rintro (⟨q, t, heq, -⟩ | ht)
      · cases heq
      · exact ht
    · exact .inr
  have hsc : SomeCrash config.programs (.waited p rc who :: past) ↔
      SomeCrash config.programs past := by
    simp only [SomeCrash, hterm]
  refine ⟨by rw [C57_attribution_partial h he, ho], ?_, ?_, ?_, ?_, hsc, ?_⟩
  · intro q n hq
    have hcalm := calm_before h he (fun hf => hf)
    obtain ⟨later', rfl⟩ := List.getLast?_eq_some_iff.mp hq
    have hs : Happened (x.loop m).log (.sent q n) (.waited p rc who :: past) :=
      ⟨later', by rw [hl]; simp⟩
    obtain ⟨rest, hob⟩ := reaction_due (Machine.loop_legal h) hs trivial
    change obligations config.programs _ = _ at hob
    simp only [obligations, hcalm, reaction, ho] at hob
    simp at hob
  · intro i
    simp only [state]
    rw [if_neg (by rw [ho]; simp)]
  · intro q
    simp only [owner]
    by_cases hq : q = p
    · rw [if_pos hq, hq, ho]
    · rw [if_neg hq]
  · intro i
    unfold Completed
    rw [hterm, hann]
  · unfold ShuttingDown Asked
    rw [hsc]
    simp

/-! ## Life cycle -/

/-- C42: with each event the state of a program stays or makes one step of the life cycle. -/
theorem C42_life_cycle {e : Event} {past : Log} (he : Happened (x.loop m).log e past) (i : Nat) :
    state config.programs (e :: past) i = state config.programs past i ∨
    Step (isNotify config.programs i) (isCronjob config.programs i)
      (state config.programs past i) (state config.programs (e :: past) i) := by
  have hl := before h he
  have hr := rule h he
  obtain ⟨f1, f2, f3, f4, -, -⟩ := @state_facts config.programs past i
  cases e with
  | spawned j q o r =>
    simp only [state]
    by_cases hij : i = j
    · subst hij
      rw [if_pos rfl]
      right
      rcases hr.1.idle with hi | hi
      · change state config.programs past i = _ at hi
        rw [hi]
        by_cases hn : isNotify config.programs i
        · rw [if_pos hn]; exact .startNotify hn
        · rw [if_neg hn]; exact .start hn (f4 hi)
      · change state config.programs past i = _ at hi
        have hc := f3 hi
        rw [hi, if_neg (isCronjob_not_isNotify hc)]
        exact .wake hc
    · rw [if_neg hij]; exact .inl rfl
  | waited q rc who =>
    simp only [state]
    by_cases ho : owner config.programs past q = some i
    · rw [if_pos ho]
      have ha : Active (state config.programs past i) := (owner_facts hl ho).2.2.1
      right
      by_cases hrc : rc ≠ 0
      · rw [if_pos hrc]; exact .crash _ rc ha hrc
      · rw [if_neg hrc]
        by_cases hc : isCronjob config.programs i
        · rw [if_pos hc]
          rcases ha with ha | ha | ha
          · exact absurd (f1 ha) (isCronjob_not_isNotify hc)
          · rw [ha]; exact .sleep hc
          · exact absurd (f2 ha) (isCronjob_not_isNotify hc)
        · rw [if_neg hc]; exact .finish _ ha hc
    · rw [if_neg ho]; exact .inl rfl
  | datagram q text =>
    simp only [state]
    by_cases ha : Accepts config.programs past q i
    · rw [if_pos ha]
      have hact : Active (state config.programs past i) := (owner_facts hl ha.1).2.2.1
      by_cases hs : saysStopping text
      · rw [if_pos hs]
        rcases hact with hact | hact | hact
        · rw [hact]; exact .inr (.stopStarting ha.2)
        · rw [hact]; exact .inr (.stopRunning ha.2)
        · exact .inl hact.symm
      · rw [if_neg hs]
        by_cases hy : saysReady text ∧ state config.programs past i = .starting
        · rw [if_pos hy, hy.2]; exact .inr (.ready ha.2)
        · rw [if_neg hy]; exact .inl rfl
    · rw [if_neg ha]; exact .inl rfl
  | _ => exact .inl rfl

/-- C42: done and crashed are final. -/
theorem C42_final {later past : Log} (hl : (x.loop m).log = later ++ past) {i : Nat}
    {s : PState} (hs : s = .done ∨ ∃ rc, s = .crashed rc)
    (hp : state config.programs past i = s) : state config.programs (later ++ past) i = s := by
  suffices hsuf : ∀ mid l', (x.loop m).log = l' ++ (mid ++ past) →
      state config.programs (mid ++ past) i = s from hsuf later [] hl
  intro mid
  induction mid with
  | nil => intro _ _; exact hp
  | cons e mid ih =>
    intro l' hl'
    have hi := ih (l' ++ [e]) (by rw [hl']; simp)
    rcases C42_life_cycle h (e := e) (past := mid ++ past) ⟨l', hl'⟩ i with hc | hc
    · exact hc.trans hi
    · rw [hi] at hc
      show state config.programs (e :: (mid ++ past)) i = s
      generalize state config.programs (e :: (mid ++ past)) i = s' at hc ⊢
      rcases hs with rfl | ⟨rc, rfl⟩
      · cases hc with
        | finish _ ha => rcases ha with ha | ha | ha <;> cases ha
        | crash _ _ ha => rcases ha with ha | ha | ha <;> cases ha
      · cases hc with
        | finish _ ha => rcases ha with ha | ha | ha <;> cases ha
        | crash _ _ ha => rcases ha with ha | ha | ha <;> cases ha

end Cinit.Props
