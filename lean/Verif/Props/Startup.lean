import Verif.Props.Main
import Verif.Props.Child
/-!
# C79: programs that cannot be started
-/

namespace Cinit.Props

open Cinit Spec

section

variable {x : Machine} {config : Config} {m : Manager} (h : x.manager config = .ok m)

include h

/-- Only programs that were started complete. -/
theorem completed_started {e : Event} {past : Log} (he : Happened (x.loop m).log e past) {i : Nat}
    (hc : Completed config.programs i past) : Started i past := by
  have hl := before h he
  have key : ∀ e' past', Happened past e' past' → ∀ q, owner config.programs past' q = some i →
      Started i past := by
    rintro e' past' ⟨l, rfl⟩ q ho
    have hl' : Always (Legal (x.setting config m)) past' :=
      (Happened.always ⟨l, rfl⟩ hl).2
    obtain ⟨p, o, r, hm⟩ := (owner_facts hl' ho).2.2.2
    exact ⟨p, o, r, by simp [hm]⟩
  rcases hc with hc | hc
  · obtain ⟨e', past', h1, q, rc, who, -, ho, -⟩ := sometime_happened.mp hc
    exact key e' past' h1 q ho
  · obtain ⟨e', past', h1, q, text, -, ha, -⟩ := sometime_happened.mp hc
    exact key e' past' h1 q ha.1

/-- C79: a program other than a cronjob that could not be started is never started, and neither are
programs that depend on it, directly or not. -/
theorem C79_stranded_partial {i j : Nat} (hf : .spawnFailed j ∈ (x.loop m).log)
    (hc : ¬ isCronjob config.programs j)
    (hd : Relation.ReflTransGen (DependsOn config.programs) j i) :
    ¬ Started i (x.loop m).log := by
  induction hd with
  | refl =>
    rintro ⟨p, o, r, hm⟩
    obtain ⟨l1, l2, h1⟩ := List.append_of_mem hf
    rw [h1, List.mem_append, List.mem_cons] at hm
    rcases hm with hm | hm | hm
    · obtain ⟨l3, l4, h2⟩ := List.append_of_mem hm
      refine (C31_once h (p := p) (o := o) (r := r) (past := l4 ++ .spawnFailed j :: l2) ⟨l3, ?_⟩ hc).2 (by simp)
      rw [h1, h2]; simp
    · cases hm
    · exact (rule h (past := l2) ⟨l1, h1⟩).once hc (.inl ⟨p, o, r, hm⟩)
  | @tail a b _ hab ih =>
    rintro ⟨p, o, r, hm⟩
    obtain ⟨l1, l2, h1⟩ := List.append_of_mem hm
    have he : Happened (x.loop m).log (.spawned b p o r) l2 := ⟨l1, h1⟩
    obtain ⟨p', o', r', hm'⟩ := completed_started h he ((rule h he).1.unblocked a hab)
    exact ih ⟨p', o', r', by rw [h1]; simp [hm']⟩

/-- C79: which programs are left out when cinit ends with code 0: exactly those that could not be
started and those that depend on them. -/
theorem C79_left_out_partial {w : World} (ho : x.loop m = .ok 0 w)
    (hs : ¬ ShuttingDown config.programs w.log) (hu : Undisturbed config.programs w.log)
    {i : Nat} (hi : i < config.programs.length) (hc : ¬ isCronjob config.programs i) :
    ¬ Started i w.log ↔ ∃ j, .spawnFailed j ∈ w.log ∧ ¬ isCronjob config.programs j ∧
      Relation.ReflTransGen (DependsOn config.programs) j i := by
  have hlog : (x.loop m).log = w.log := by rw [ho]; rfl
  constructor
  · intro hn
    rcases C45_completion_partial h ho (by decide) hs hu hi hc with ⟨h1, -⟩ | ⟨j, h1, h2⟩
    · exact absurd h1 hn
    · refine ⟨j, h1, ?_, h2⟩
      rcases Relation.ReflTransGen.cases_head h2 with rfl | ⟨k, hk, -⟩
      · exact hc
      · exact (Machine.initial h).nocron j k hk
  · rintro ⟨j, h1, h2, h3⟩
    rw [← hlog] at h1 ⊢
    exact C79_stranded_partial h h1 h2 h3

end

/-- C79: cinit never ends with code 4. -/
theorem C79_code_partial {x : Machine} {code : Int} {log : Log} (h : run x = .exited code log) :
    code ≠ 4 := by
  rintro rfl
  rcases C51_codes_partial h with ⟨e, -⟩ | ⟨-, ⟨e, -⟩ | ⟨config, -, ⟨e, -⟩ |
    ⟨-, -, -, ⟨e, -⟩ | ⟨e, -⟩ | ⟨e, -⟩⟩⟩⟩ <;> cases e

/-- C79 in full: if some program could not be started, the exit code is 4. -/
def C79_statement : Prop :=
  ∀ (x : Machine) (config : Config) (m : Manager) (code : Int) (w : World),
    x.manager config = .ok m → x.loop m = .ok code w → ∀ i, .spawnFailed i ∈ w.log → code = 4

/-- The first of two programs cannot be started. -/
def noForkAnswers : List Answer :=
  [.setup true, .fork none, .now 1, .epoll (some []), .wait .error]

def noForkLog : Log :=
  [.exit 0, .reaped, .polled [], .polling, .clock 1, .spawnFailed 0]

theorem noFork_ends : Ends (machine noForkAnswers) two (.exited 0 noForkLog) :=
  Res.of_check (by decide +kernel)

/-- C79 is false: nothing at all is started, and cinit ends with code 0. -/
theorem C79_violated : ¬ C79_statement := by
  intro h
  obtain ⟨m, w, h1, h2, h3⟩ := noFork_ends.exited
  have := h _ _ m 0 w h1 h2 0 (by rw [h3]; decide)
  cases this

/-- C79 for the child: what fails between `fork` and `execve` ends the child with code 4, so that
cinit ends with code 6 when it notices. -/
theorem C79_child_partial {x : Machine} {config : Config} {m : Manager}
    (h : x.manager config = .ok m) {code : Int} {w : World} (ho : x.loop m = .ok code w)
    {p : Int} {who : Option Nat} {past : Log} (he : Happened w.log (.waited p 4 who) past) {i : Nat}
    (hi : owner config.programs past p = some i) : code = 6 := by
  have hcr : SomeCrash config.programs w.log :=
    ⟨i, sometime_happened.mpr ⟨_, _, he, p, 4, who, rfl, hi, by simp⟩⟩
  rcases C34_exit_status_partial h ho with ⟨-, h1⟩ | ⟨h1, -⟩ | ⟨-, h1⟩
  · rw [h1] at he
    obtain ⟨l, hl⟩ := he
    cases l with
    | nil => cases hl
    | cons e l => simp at hl
  · exact h1
  · exact absurd hcr h1

/-- Witness for `C79_stranded_partial` and `C79_left_out_partial`: program 1 depends on program 0,
which cannot be started. -/
example : .spawnFailed 0 ∈ noForkLog ∧ DependsOn two.programs 0 1 ∧
    ¬ ShuttingDown two.programs noForkLog ∧ Undisturbed two.programs noForkLog := by
  refine ⟨by decide, ⟨_, _, rfl, rfl, .inl (by decide)⟩, ?_, ?_⟩
  · rintro (h | ⟨i, h⟩)
    · simp [Asked, noForkLog] at h
    · obtain ⟨e, past, ⟨l, hl⟩, q, rc, who, rfl, -⟩ := sometime_happened.mp h
      have : Event.waited q rc who ∈ noForkLog := by rw [hl]; simp
      simp [noForkLog] at this
  · simp [Undisturbed, noForkLog, Always]

end Cinit.Props
