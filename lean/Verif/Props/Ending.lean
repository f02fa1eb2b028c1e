import Verif.Props.Service
import Verif.Proofs.Watch
/-!
# C69, C70: when cinit goes on and when it ends
-/

namespace Cinit.Props

open Cinit Spec

theorem lastWait_happened {l l' : Log} (h : lastWait l = some l') : Happened l .polling l' := by
  induction l with
  | nil => cases h
  | cons e l ih =>
    by_cases he : e = .polling
    · subst he
      cases h
      exact ⟨[], rfl⟩
    · have : lastWait l = some l' := by
        rw [← h]
        cases e <;> first
          | rfl
          | exact absurd rfl he
      obtain ⟨later, hl⟩ := ih this
      exact ⟨e :: later, by rw [hl]; rfl⟩

/-- C69: cinit waits for something to happen only as long as some program is alive, some output
stream is open, or, unless it is shutting down, some program can be considered for starting
whose dependencies have completed only since it last waited. -/
theorem C69_waits {x : Machine} {config : Config} {m : Manager} (h : x.manager config = .ok m)
    {past : Log} (he : Happened (x.loop m).log .polling past) :
    (∃ i, Alive config.programs i past) ∨ (∃ fd y, stream past fd = some y) ∨
    (¬ ShuttingDown config.programs past ∧ ∃ i, Released config.programs i past) := by
  rcases (rule h he).1 with (⟨p, i, ho⟩ | hs) | hr
  · exact .inl ⟨i, owner_alive (before h he) ho⟩
  · exact .inr (.inl hs)
  · exact .inr (.inr hr)

/-- C69: once all terminated children have been reaped, no process belongs to any program, no
output stream is open and, unless cinit is shutting down, no program has had its dependencies
completed since cinit last waited, the next thing that happens is that cinit ends. -/
theorem C69_ends {x : Machine} {config : Config} {m : Manager} (h : x.manager config = .ok m)
    {later past : Log} {e r : Event} (hl : (x.loop m).log = later ++ e :: r :: past)
    (hr : r = .reaped ∨ ∃ p sig, r = .lost p sig)
    (hown : ∀ p, owner config.programs (r :: past) p = none)
    (hstr : ∀ fd, stream (r :: past) fd = none)
    (hrel : ShuttingDown config.programs (r :: past) ∨
      ∀ i, ¬ Released config.programs i (r :: past)) :
    ∃ code, e = .exit code := by
  have he : Happened (x.loop m).log e (r :: past) := ⟨later, hl⟩
  have hocc : ¬ Occupied config.programs (r :: past) := by
    rintro ((⟨p, i, ho⟩ | ⟨fd, y, hf⟩) | ⟨hsd, i, hi⟩)
    · rw [hown] at ho; cases ho
    · rw [hstr] at hf; cases hf
    · rcases hrel with hrel | hrel
      · exact hsd hrel
      · exact hrel i hi
  have hserve := Machine.loop_serves x m
  rw [hl] at hserve
  have hs := (always_of_suffix hserve rfl).1
  have hs' := (always_of_suffix hserve rfl).2.2.1
  have hand0 : hand (r :: past) = none := by
    rcases hr with rfl | ⟨p, sig, rfl⟩ <;> rfl
  have hpend : pending (r :: past) = [] := by
    rcases hr with rfl | ⟨p, sig, rfl⟩ <;> exact hs'.2.1
  have hswept : Swept (r :: past) := by
    rcases hr with rfl | ⟨p, sig, rfl⟩ <;> trivial
  have hlegal := (he.always (Machine.loop_legal h))
  have hrc : ∀ t l, r :: past ≠ .clock t :: l := by
    rcases hr with rfl | ⟨p, sig, rfl⟩ <;> intro t l hh <;> cases hh
  have hnodue : ∀ i, ¬ Due (x.setting config m).zone (x.setting config m).cron i (r :: past) := by
    rintro i ⟨t, l, c, c', hh, -⟩
    exact hrc t l hh
  have hob : obligations config.programs (r :: past) = [] := by
    have h1 := hlegal.2.1.1.1
    rw [obligations]
    cases ho : obligations config.programs past with
    | nil => rcases hr with rfl | ⟨p, sig, rfl⟩ <;> rfl
    | cons y rest =>
      have hmem : isReaction y := obligations_isReaction y (by rw [ho]; simp)
      change (match obligations config.programs past with
        | x :: _ => r = x
        | [] => ¬ isReaction r) at h1
      rw [ho] at h1
      simp only at h1
      subst h1
      rcases hr with rfl | ⟨p, sig, rfl⟩ <;> exact hmem.elim
  have hnr : ¬ isReaction e := by
    have h1 := hlegal.1.1.1
    change (match obligations config.programs (r :: past) with
        | x :: _ => e = x
        | [] => ¬ isReaction e) at h1
    rw [hob] at h1
    exact h1
  have hstart : ∀ i, ¬ MayStart (x.setting config m) i (r :: past) := by
    intro i hm
    have hc : ¬ isCronjob config.programs i := fun hc => hnodue i (hm.due hc)
    refine hocc (.inr ⟨hm.open_, i, hm.known, hm.unblocked, ?_⟩)
    intro l' hw hu
    obtain ⟨mid, hmid⟩ := lastWait_happened hw
    have hpoll : Happened (x.loop m).log .polling l' :=
      ⟨later ++ e :: mid, by rw [hl, hmid]; simp⟩
    have hsd : ¬ ShuttingDown config.programs l' := by
      intro hsd
      apply hm.open_
      rw [hmid]
      have := shuttingDown_append (mid ++ [.polling]) hsd
      rw [List.append_assoc] at this
      exact this
    apply hm.once hc
    rw [hmid]
    rcases C58_prompt h hpoll hsd hm.known hc hu with ⟨p, o, r', hin⟩ | hin
    · exact .inl ⟨p, o, r', by simp [hin]⟩
    · exact .inr (by simp [hin])
  have hrule := rule h he
  cases e with
  | exit code => exact ⟨code, rfl⟩
  | clock t => exact absurd hrule hocc
  | polling => exact absurd hrule.1 hocc
  | spawned i p o r' => exact absurd hrule.1 (hstart i)
  | spawnFailed i => exact absurd hrule (hstart i)
  | watched fd ok =>
    have hw := Machine.loop_watches x m
    rw [hl] at hw
    have hw := (always_of_suffix hw rfl).1
    have : unwatched (r :: past) = none := by
      rcases hr with rfl | ⟨p, sig, rfl⟩ <;> rfl
    unfold Watches at hw
    rw [this] at hw
    exact absurd rfl (hw fd ok)
  | refused i s => exact absurd hrule.2.2.1 (hnodue i)
  | postponed i => exact absurd hrule.2.1 (hnodue i)
  | waited p rc who => exact absurd hswept hs.2.2
  | lost p sig => exact absurd hswept hs.2.2
  | reaped => exact absurd hswept hs.2.2
  | signal n => obtain ⟨ev, h1, -⟩ := hs; rw [hand0] at h1; cases h1
  | sent p n => exact (hnr trivial).elim
  | line b n t => exact (hnr trivial).elim
  | received b => obtain ⟨ev, h1, -⟩ := hs; rw [hand0] at h1; cases h1
  | datagram q t =>
    obtain ⟨b, l, hh, -⟩ := hrule
    rcases hr with rfl | ⟨p, sig, rfl⟩ <;> cases hh
  | chunk fd b => obtain ⟨ev, h1, -⟩ := hs; rw [hand0] at h1; cases h1
  | hangup fd => have h1 : hand (r :: past) = _ := hs; rw [hand0] at h1; cases h1
  | polled evs =>
    obtain ⟨l, hh⟩ := hs
    rcases hr with rfl | ⟨p, sig, rfl⟩ <;> cases hh
  | unpolled =>
    obtain ⟨l, hh⟩ := hs
    rcases hr with rfl | ⟨p, sig, rfl⟩ <;> cases hh
  | unsigned =>
    obtain ⟨b, l, hh⟩ := hs
    rcases hr with rfl | ⟨p, sig, rfl⟩ <;> cases hh
  | ready ev => have h1 := hs.2; rw [hpend] at h1; cases h1
  | failed => obtain ⟨ev, h1, -⟩ := hs; rw [hand0] at h1; cases h1
  | report t => obtain ⟨ev, h1, -⟩ := hs; rw [hand0] at h1; cases h1

/-- Witness for `C69_ends`: the end of the run `three_ends`, after a termination signal. The
same run is a witness for `C69_waits`. -/
example : threeLog = [] ++ .exit 0 :: .reaped :: threeLog.drop 2 ∧
    (∀ p, owner three.programs (threeLog.drop 1) p = none) ∧
    (∀ fd, stream (threeLog.drop 1) fd = none) ∧
    ShuttingDown three.programs (threeLog.drop 1) := by
  obtain ⟨m, w, h1, h2, h3⟩ := three_ends.exited
  have := C36_outlives h1 h2
  rw [h3] at this
  exact ⟨by decide +kernel, this.1, this.2, .inl (.inr (.inr (by simp [threeLog, Signal.term])))⟩

/-- Another witness for `C69_ends`: the end of the run `two_ends`, by itself. -/
example : twoLog = [] ++ .exit 0 :: .reaped :: twoLog.drop 2 ∧
    (∀ p, owner two.programs (twoLog.drop 1) p = none) ∧
    (∀ fd, stream (twoLog.drop 1) fd = none) ∧
    ∀ i, ¬ Released two.programs i (twoLog.drop 1) := by
  obtain ⟨m, w, h1, h2, h3⟩ := two_ends.exited
  have := C36_outlives h1 h2
  rw [h3] at this
  refine ⟨by decide +kernel, this.1, this.2, ?_⟩
  rintro i ⟨hi, -, hn⟩
  refine hn (twoLog.drop 9) (by decide +kernel) ?_
  have hlog : ((machine twoAnswers).loop m).log = twoLog := by rw [h2]; exact h3
  have hi : i = 0 ∨ i = 1 := by
    have : i < 2 := hi
    omega
  rcases hi with rfl | rfl
  · exact unblocked_append (twoLog.drop 9) (rule h1 (e := .spawned 0 10 20 21) (past := [])
      ⟨twoLog.take 24, by rw [hlog]; decide +kernel⟩).1.unblocked
  · exact unblocked_append [.clock 2, .watched 23 true, .watched 22 true, .spawned 1 11 22 23] (rule h1 (e := .spawned 1 11 22 23)
      (past := twoLog.drop 13)
      ⟨twoLog.take 12, by rw [hlog]; decide +kernel⟩).1.unblocked

/-! ## C70: cronjobs do not keep cinit alive -/

/-- C70 in full: if some cronjob is configured, cinit does not end by itself. -/
def C70_statement : Prop :=
  ∀ (x : Machine) (config : Config) (m : Manager) (code : Int) (w : World),
    x.manager config = .ok m → x.loop m = .ok code w → code ≠ 3 →
    ¬ ShuttingDown config.programs w.log → ∀ i, ¬ isCronjob config.programs i

/-- One cronjob, to be executed every minute. -/
def cronOnly : Config := ⟨[prog 'c' (.cronJob "* * * * *".toList)]⟩

def cronOnlyLog : Log := [.exit 0, .reaped, .polled [], .polling, .clock 30]

theorem cronOnly_ends : Ends
    (machine [.setup true, .now 30, .epoll (some []), .wait .error]) cronOnly
    (.exited 0 cronOnlyLog) :=
  Res.of_check (by decide +kernel)

/-- C70 is false: if nothing else is running, cinit ends before the cronjob is executed for the
first time. -/
theorem C70_violated : ¬ C70_statement := by
  intro h
  obtain ⟨m, w, h1, h2, h3⟩ := cronOnly_ends.exited
  refine h _ _ m 0 w h1 h2 (by decide) ?_ 0 (by decide)
  rintro (hs | hs)
  · rw [h3] at hs; simp [Asked, cronOnlyLog] at hs
  · rcases C34_exit_status_partial h1 h2 with ⟨e, -⟩ | ⟨e, -⟩ | ⟨-, e⟩
    · cases e
    · cases e
    · exact e hs

/-- C70 as far as it holds: as long as some program has a main process or some output stream is
open, cinit does not end, and while it is not shutting down it does not wait for anything
without having read the clock just before and having found no cronjob due. What is missing is
cinit staying alive when there are only cronjobs waiting for their time. -/
theorem C70_kept_partial {x : Machine} {config : Config} {m : Manager}
    (h : x.manager config = .ok m) {later past : Log} {e : Event}
    (hl : (x.loop m).log = later ++ e :: past)
    (hb : (∃ p i, owner config.programs past p = some i) ∨ ∃ fd y, stream past fd = some y) :
    (∀ code, e ≠ .exit code) ∧
    (e = .polling → ¬ ShuttingDown config.programs past →
      ∃ t past', past = .clock t :: past' ∧
        ∀ i, ¬ Due (x.setting config m).zone (x.setting config m).cron i past) := by
  have he : Happened (x.loop m).log e past := ⟨later, hl⟩
  constructor
  · rintro code rfl
    rcases rule h he with ⟨-, e2⟩ | ⟨e1, e2, -⟩
    · subst e2
      rcases hb with ⟨p, i, ho⟩ | ⟨fd, y, hf⟩
      · cases ho
      · cases hf
    · rcases hb with ⟨p, i, ho⟩ | ⟨fd, y, hf⟩
      · have := e1 p
        change owner config.programs past p = none at this
        rw [this] at ho; cases ho
      · rw [e2] at hf; cases hf
  · rintro rfl hs
    obtain ⟨t, past', c, c', h1, h2, h3⟩ := ((rule h he).2 hs).2
    refine ⟨t, past', h1, ?_⟩
    rintro i ⟨t', past'', d, d', g1, g2, g3⟩
    rw [h1] at g1
    cases g1
    rw [h2] at g2
    cases g2
    rw [h3] at g3
    cases g3

/-- Witness for `C70_kept_partial`. -/
example : twoLog = twoLog.take 20 ++ .polling :: twoLog.drop 21 ∧
    owner two.programs (twoLog.drop 21) 10 = some 0 := by decide +kernel

end Cinit.Props
