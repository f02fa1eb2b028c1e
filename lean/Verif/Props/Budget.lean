import Mathlib.Data.Finset.Prod
import Verif.Spec.Budget
import Verif.Props.Punctuality
import Verif.Props.Arrivals
/-!
# How many descriptors cinit needs (C120)

Two output streams are opened for each start of a program and closed when they have ended.
-/

namespace Cinit.Props

open Cinit Spec

variable {x : Machine} {config : Config} {m : Manager}

/-- The streams of programs that are open, by name. -/
private def present (n : Nat) (l : Log) : Finset (Nat × Bool) :=
  {y ∈ Finset.range n ×ˢ Finset.univ | ∃ fd ∈ openStreams l, stream l fd = some y}

private theorem mem_present {n : Nat} {l : Log} {y : Nat × Bool} :
    y ∈ present n l ↔ y.1 < n ∧ ∃ fd, stream l fd = some y := by
  simp only [present, Finset.mem_filter, Finset.mem_product, Finset.mem_range, Finset.mem_univ,
    and_true]
  exact and_congr_right fun _ =>
    ⟨fun ⟨fd, _, h⟩ => ⟨fd, h⟩, fun ⟨fd, h⟩ => ⟨fd, mem_openStreams.mpr ⟨y, h⟩, h⟩⟩

private theorem present_le (n : Nat) (l : Log) : (present n l).card ≤ 2 * n := by
  refine (Finset.card_filter_le _ _).trans ?_
  rw [Finset.card_product, Finset.card_range]
  simp [Nat.mul_comm]

private theorem streaming_iff {i : Nat} {l : Log} :
    (∃ fd ∈ openStreams l, ∃ out, stream l fd = some (i, out)) ↔ Streaming i l :=
  ⟨fun ⟨fd, _, out, h⟩ => ⟨fd, out, h⟩,
    fun ⟨fd, out, h⟩ => ⟨fd, mem_openStreams.mpr ⟨_, h⟩, out, h⟩⟩

private theorem length_present {d : Inlets} {n : Nat} {l : Log} (hr : Always (StreamRules d) l)
    (hn : ∀ i p o r, .spawned i p o r ∈ l → i < n) :
    (openStreams l).Nodup ∧ (openStreams l).length ≤ (present n l).card + 2 * overlaps l := by
  induction l with
  | nil => exact ⟨List.nodup_nil, by simp [openStreams]⟩
  | cons e l ih =>
    obtain ⟨hd, ih⟩ := ih hr.2 fun i p o r hm => hn i p o r (List.mem_cons_of_mem _ hm)
    cases e with
    | spawned i p o r =>
      obtain ⟨h1, h2, h3⟩ := hr.1.fresh i p o r rfl
      have hi := hn i p o r List.mem_cons_self
      have n1 : o ∉ openStreams l := fun hm => by
        obtain ⟨y, hy⟩ := mem_openStreams.mp hm; rw [h1] at hy; cases hy
      have n2 : r ∉ openStreams l := fun hm => by
        obtain ⟨y, hy⟩ := mem_openStreams.mp hm; rw [h2] at hy; cases hy
      have hold : present n l ⊆ present n (.spawned i p o r :: l) := by
        intro y hy
        obtain ⟨hy1, fd, hy2⟩ := mem_present.mp hy
        refine mem_present.mpr ⟨hy1, fd, ?_⟩
        have e1 : fd ≠ o := by rintro rfl; rw [h1] at hy2; cases hy2
        have e2 : fd ≠ r := by rintro rfl; rw [h2] at hy2; cases hy2
        simp only [stream, if_neg e1, if_neg e2, hy2]
      refine ⟨?_, ?_⟩
      · simp only [openStreams, List.nodup_cons, List.mem_cons, not_or]
        exact ⟨⟨h3, n1⟩, n2, hd⟩
      · simp only [openStreams, List.length_cons, overlaps]
        split
        · have := Finset.card_le_card hold
          omega
        · rename_i hs
          have a1 : (i, true) ∉ present n l := fun hm =>
            hs (streaming_iff.mpr ⟨_, _, (mem_present.mp hm).2.choose_spec⟩)
          have a2 : (i, false) ∉ present n l := fun hm =>
            hs (streaming_iff.mpr ⟨_, _, (mem_present.mp hm).2.choose_spec⟩)
          have hsub : insert (i, true) (insert (i, false) (present n l)) ⊆
              present n (.spawned i p o r :: l) := by
            intro y hy
            rcases Finset.mem_insert.mp hy with rfl | hy
            · exact mem_present.mpr ⟨hi, o, by simp [stream]⟩
            · rcases Finset.mem_insert.mp hy with rfl | hy
              · exact mem_present.mpr ⟨hi, r, by simp [stream, Ne.symm h3]⟩
              · exact hold hy
          have := Finset.card_le_card hsub
          rw [Finset.card_insert_of_notMem (by simp [a1]), Finset.card_insert_of_notMem a2] at this
          omega
    | hangup g =>
      refine ⟨hd.filter _, ?_⟩
      simp only [openStreams, overlaps]
      by_cases hg : g ∈ openStreams l
      · obtain ⟨y, hy⟩ := mem_openStreams.mp hg
        have hsub : present n l ⊆ insert y (present n (.hangup g :: l)) := by
          intro z hz
          obtain ⟨hz1, fd, hz2⟩ := mem_present.mp hz
          by_cases hf : fd = g
          · subst hf
            rw [hy] at hz2
            cases hz2
            exact Finset.mem_insert_self _ _
          · exact Finset.mem_insert_of_mem (mem_present.mpr ⟨hz1, fd, by simp [stream, hf, hz2]⟩)
        have h1 := (Finset.card_le_card hsub).trans (Finset.card_insert_le _ _)
        have h2 : ((openStreams l).filter (· ≠ g)).length < (openStreams l).length := by
          refine List.length_filter_lt_length_iff_exists.mpr ⟨g, hg, by simp⟩
        omega
      · have hsub : present n l ⊆ present n (.hangup g :: l) := by
          intro z hz
          obtain ⟨hz1, fd, hz2⟩ := mem_present.mp hz
          have hf : fd ≠ g := by
            rintro rfl; exact hg (mem_openStreams.mpr ⟨_, hz2⟩)
          exact mem_present.mpr ⟨hz1, fd, by simp [stream, hf, hz2]⟩
        have h1 := Finset.card_le_card hsub
        have h2 := List.length_filter_le (fun z => decide (z ≠ g)) (openStreams l)
        omega
    | _ => exact ⟨hd, ih⟩

/-- C120 as stated: cinit has at most two output streams open for each program. -/
def C120_statement : Prop :=
  ∀ (x : Machine) (config : Config) (m : Manager) (later t0 : Play), x.manager config = .ok m →
    Play.log (later ++ t0) = (x.loop m).log → Orderly (later ++ t0) →
    (openStreams t0.log).length ≤ 2 * config.programs.length

section

variable (h : x.manager config = .ok m)
include h

/-- C120: at any time at most two output streams are open for each program, and two more for each
time a program was started though something of its earlier execution was still around to write. -/
theorem C120_general {later l : Log} (hl : (x.loop m).log = later ++ l) :
    (openStreams l).length ≤ 2 * config.programs.length + 2 * overlaps l := by
  have hr := stream_rules h
  rw [hl] at hr
  have hr : Always (StreamRules m.inlets) l := by
    clear hl
    induction later with
    | nil => exact hr
    | cons _ _ ih => exact ih hr.2
  have := (length_present (n := config.programs.length) hr
    fun i p o r hm => by
      obtain ⟨l1, l2, rfl⟩ := List.append_of_mem hm
      exact (rule h (e := .spawned i p o r) (past := l2) ⟨later ++ l1, by rw [hl]; simp⟩).1.known).2
  have := present_le config.programs.length l
  omega

/-- C120 in case the output streams of cronjobs end before the next execution: at most two
output streams are open for each program. -/
theorem C120_partial {later l : Log} (hl : (x.loop m).log = later ++ l)
    (hc : ∀ i p o r past, isCronjob config.programs i → Happened l (.spawned i p o r) past →
      ¬ Streaming i past) :
    (openStreams l).length ≤ 2 * config.programs.length := by
  have hz : ∀ l', (∃ l1, l = l1 ++ l') → overlaps l' = 0 := by
    intro l'
    induction l' with
    | nil => intro _; rfl
    | cons e l' ih =>
      rintro ⟨l1, hl1⟩
      have ih := ih ⟨l1 ++ [e], by rw [hl1]; simp⟩
      cases e with
      | spawned i p o r =>
        simp only [overlaps]
        rw [if_neg, ih]
        rw [streaming_iff]
        by_cases hi : isCronjob config.programs i
        · exact hc i p o r l' hi ⟨l1, hl1⟩
        · rintro ⟨fd, out, hs⟩
          have hw := (C31_once h (i := i) (p := p) (o := o) (r := r) (past := l')
            ⟨later ++ l1, by rw [hl, hl1]; simp⟩ hi).1
          have : ∀ l2 : Log, stream l2 fd = some (i, out) → ∃ p o r, .spawned i p o r ∈ l2 := by
            intro l2
            induction l2 with
            | nil => intro h; cases h
            | cons e l2 ih2 =>
              intro hs
              cases e with
              | spawned j p' o' r' =>
                simp only [stream] at hs
                split at hs
                · cases hs; exact ⟨_, _, _, List.mem_cons_self⟩
                · split at hs
                  · cases hs; exact ⟨_, _, _, List.mem_cons_self⟩
                  · obtain ⟨a, b, c, hm⟩ := ih2 hs
                    exact ⟨a, b, c, List.mem_cons_of_mem _ hm⟩
              | hangup g =>
                simp only [stream] at hs
                split at hs
                · cases hs
                · obtain ⟨a, b, c, hm⟩ := ih2 hs
                  exact ⟨a, b, c, List.mem_cons_of_mem _ hm⟩
              | _ =>
                obtain ⟨a, b, c, hm⟩ := ih2 hs
                exact ⟨a, b, c, List.mem_cons_of_mem _ hm⟩
          obtain ⟨a, b, c, hm⟩ := this l' hs
          exact hw a b c hm
      | _ => exact ih
  have := C120_general h hl
  rw [hz l ⟨[], rfl⟩] at this
  exact this

end

/-! ## Concrete cases -/

/-- Each execution of the cronjob leaves a process behind that keeps its output streams. -/
def pilingAnswers : List Answer :=
  [.setup true, .fork (some (10, 20, 21)), .epollAdd true, .epollAdd true, .now 59_500_000_000,
   .epoll (some []), .wait .alive, .now 60_500_000_000,
   .fork (some (11, 22, 23)), .epollAdd true, .epollAdd true, .now 60_600_000_000,
   .epoll (some []), .wait (.exited 11 0), .wait .alive,
   .now 119_700_000_000, .epoll (some []), .wait .alive, .now 120_700_000_000,
   .fork (some (13, 24, 25)), .epollAdd true, .epollAdd true, .now 120_800_000_000,
   .epoll (some []), .wait (.exited 13 0), .wait .alive,
   .now 121_000_000_000]

def pilingPlay : Play :=
  [.cinit .polling, .cinit (.clock 121_000_000_000), .cinit .reaped, .cinit (.waited 13 0 (some 1)),
   .ends 13, .cinit (.polled []), .forks 13 14, .cinit .polling, .cinit (.clock 120_800_000_000),
   .cinit (.watched 25 true), .cinit (.watched 24 true), .cinit (.spawned 1 13 24 25),
   .cinit (.clock 120_700_000_000), .cinit .reaped, .cinit (.polled []), .cinit .polling,
   .cinit (.clock 119_700_000_000), .cinit .reaped, .cinit (.waited 11 0 (some 1)), .ends 11,
   .cinit (.polled []), .forks 11 12, .cinit .polling, .cinit (.clock 60_600_000_000),
   .cinit (.watched 23 true), .cinit (.watched 22 true), .cinit (.spawned 1 11 22 23),
   .cinit (.clock 60_500_000_000), .cinit .reaped, .cinit (.polled []), .cinit .polling,
   .cinit (.clock 59_500_000_000), .cinit (.watched 21 true), .cinit (.watched 20 true),
   .cinit (.spawned 0 10 20 21)]

theorem piling_ends : Ends (machine pilingAnswers) minutely (.unfinished pilingPlay.log) :=
  Res.of_check (by decide +kernel)

theorem piling_orderly : Orderly pilingPlay := by
  simp [pilingPlay, Orderly, Honest, Play.log, stream]

/-- C120 is false: two programs, six output streams. -/
theorem C120_violated : ¬ C120_statement := by
  intro hc
  obtain ⟨m, h1, h2⟩ := piling_ends.log
  have h2 : ((machine pilingAnswers).loop m).log = pilingPlay.log := h2
  have := hc (machine pilingAnswers) minutely m [] pilingPlay h1 h2.symm piling_orderly
  revert this
  decide +kernel

/-- Witness for `C120_general`: the bound is reached. -/
example : (openStreams pilingPlay.log).length = 6 ∧ overlaps pilingPlay.log = 1 := by
  decide +kernel

/-- Witness for `C120_partial`: until the second execution. -/
example : minutelyLog = [] ++ minutelyLog ∧ (openStreams minutelyLog).length = 4 ∧
    ∀ i p o r past, isCronjob minutely.programs i → Happened minutelyLog (.spawned i p o r) past →
      ¬ Streaming i past := by
  refine ⟨rfl, by decide +kernel, ?_⟩
  rintro i p o r past hi ⟨later, hl⟩ ⟨fd, out, hs⟩
  rcases later with _ | ⟨_, _ | ⟨_, _ | ⟨_, _ | ⟨_, _ | ⟨_, _ | ⟨_, _ | ⟨_, _ | ⟨_, _ | ⟨_, _ |
    ⟨_, _ | ⟨_, _ | ⟨_, _ | ⟨_, later⟩⟩⟩⟩⟩⟩⟩⟩⟩⟩⟩⟩⟩ <;> simp [minutelyLog] at hl
  · obtain ⟨-, -, -, -, ⟨rfl, -⟩, rfl⟩ := hl
    simp only [stream] at hs
    split at hs
    · cases hs
    · split at hs <;> cases hs
  · obtain ⟨-, -, -, -, -, -, -, -, -, -, -, -, ⟨rfl, -⟩, rfl⟩ := hl
    cases hs

end Cinit.Props
