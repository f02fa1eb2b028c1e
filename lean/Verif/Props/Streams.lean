import Verif.Spec.Streams
import Verif.Props.Ending
import Verif.Props.Output
import Verif.Props.Runs
/-!
# C114, C115: output streams that are held by other processes, and what is written to them
-/

namespace Cinit.Props

open Cinit Spec

/-! ## Plays -/

theorem play_append (t t' : Play) : Play.log (t ++ t') = t.log ++ t'.log := by
  induction t with
  | nil => rfl
  | cons h t ih => cases h <;> simp [Play.log, ih]

theorem orderly_suffix {t t' : Play} (h : Orderly (t ++ t')) : Orderly t' := by
  induction t with
  | nil => exact h
  | cons _ _ ih => exact ih h.2

/-- A play in which cinit does something new. -/
theorem play_happened {t later t0 : Play} {e : Event} (ht : t = later ++ .cinit e :: t0) :
    Happened t.log e t0.log :=
  ⟨Play.log later, by rw [ht, play_append]; rfl⟩

/-- What the two sets of rules of the event loop say about streams. -/
structure StreamRules (d : Inlets) (e : Event) (past : Log) : Prop where
  serves : Serves d e past
  fresh : ∀ i p o r, e = .spawned i p o r → stream past o = none ∧ stream past r = none ∧ o ≠ r

theorem stream_rules {x : Machine} {config : Config} {m : Manager} (h : x.manager config = .ok m) :
    Always (StreamRules m.inlets) (x.loop m).log := by
  have h1 := Machine.loop_serves x m
  have h2 := Machine.loop_legal h
  generalize (x.loop m).log = l at h1 h2
  induction l with
  | nil => trivial
  | cons e l ih =>
    refine ⟨⟨h1.1, ?_⟩, ih h1.2 h2.2⟩
    rintro i p o r rfl
    exact h2.1.2.2.2.2

/-- What holds of streams all along. -/
structure StreamInv (t : Play) : Prop where
  open_ : ∀ q fd, holds q fd t → ∃ y, stream t.log fd = some y
  drained : ∀ fd, stream t.log fd = none → buffer fd t = []
  over : ∀ ev, ev ∈ pending t.log ∨ hand t.log = some ev → ev.inp = false → ev.hup = true →
    ∀ y, stream t.log ev.fd = some y → (∀ q, ¬ holds q ev.fd t) ∧ buffer ev.fd t = []

theorem StreamInv.gone {t : Play} (h : StreamInv t) {fd : Int}
    (hh : hand t.log = some ⟨fd, false, true⟩ ∨ stream t.log fd = none) :
    (∀ q, ¬ holds q fd t) ∧ buffer fd t = [] := by
  cases hs : stream t.log fd with
  | none =>
    refine ⟨fun q hq => ?_, h.drained fd hs⟩
    obtain ⟨y, hy⟩ := h.open_ q fd hq
    rw [hs] at hy; cases hy
  | some y =>
    rcases hh with hh | hh
    · exact h.over _ (.inr hh) rfl rfl y hs
    · rw [hs] at hh; cases hh

theorem stream_inv {d : Inlets} {t : Play} (ho : Orderly t) (hr : Always (StreamRules d) (Play.log t)) :
    StreamInv t := by
  induction t with
  | nil => exact ⟨fun _ _ h => h.elim, fun _ _ => rfl, fun ev h => by simp [Play.log, pending, hand] at h⟩
  | cons a t ih =>
    cases a with
    | forks p c =>
      obtain ⟨h1, h2, h3⟩ := ih ho.2 hr
      refine ⟨?_, h2, ?_⟩
      · rintro q fd (⟨-, hq⟩ | ⟨-, hq⟩) <;> exact h1 _ fd hq
      · intro ev he hi hu y hs
        obtain ⟨h4, h5⟩ := h3 ev he hi hu y hs
        refine ⟨?_, h5⟩
        rintro q (⟨-, hq⟩ | ⟨-, hq⟩) <;> exact h4 _ hq
    | passes p q' g =>
      obtain ⟨h1, h2, h3⟩ := ih ho.2 hr
      have hp : holds p g t := ho.1
      refine ⟨?_, h2, ?_⟩
      · rintro q fd (⟨-, rfl⟩ | hq)
        · exact h1 _ _ hp
        · exact h1 _ _ hq
      · intro ev he hi hu y hs
        obtain ⟨h4, h5⟩ := h3 ev he hi hu y hs
        refine ⟨?_, h5⟩
        rintro q (⟨-, hq⟩ | hq)
        · exact h4 p (hq ▸ hp)
        · exact h4 _ hq
    | closes q' g =>
      obtain ⟨h1, h2, h3⟩ := ih ho.2 hr
      refine ⟨fun q fd hq => h1 q fd hq.2, h2, ?_⟩
      intro ev he hi hu y hs
      obtain ⟨h4, h5⟩ := h3 ev he hi hu y hs
      exact ⟨fun q hq => h4 q hq.2, h5⟩
    | ends q' =>
      obtain ⟨h1, h2, h3⟩ := ih ho.2 hr
      refine ⟨fun q fd hq => h1 q fd hq.2, h2, ?_⟩
      intro ev he hi hu y hs
      obtain ⟨h4, h5⟩ := h3 ev he hi hu y hs
      exact ⟨fun q hq => h4 q hq.2, h5⟩
    | arrives k =>
      obtain ⟨h1, h2, h3⟩ := ih ho.2 hr
      exact ⟨h1, h2, h3⟩
    | writes q' g b =>
      obtain ⟨h1, h2, h3⟩ := ih ho.2 hr
      have hp : holds q' g t := ho.1
      refine ⟨h1, ?_, ?_⟩
      · intro fd hs
        simp only [buffer]
        rw [if_neg, h2 fd hs]
        rintro rfl
        obtain ⟨y, hy⟩ := h1 _ _ hp
        rw [show stream (Play.log (.writes q' g b :: t)) g = stream (Play.log t) g from rfl, hy] at hs
        cases hs
      · intro ev he hi hu y hs
        obtain ⟨h4, h5⟩ := h3 ev he hi hu y hs
        refine ⟨h4, ?_⟩
        simp only [buffer]
        rw [if_neg, h5]
        rintro rfl
        exact h4 _ hp
    | cinit e =>
      have ih := ih ho.2 hr.2
      obtain ⟨h1, h2, h3⟩ := id ih
      have hserve : Serves d e (Play.log t) := hr.1.serves
      cases e with
      | spawned i p o r =>
        obtain ⟨-, hp, -⟩ := hserve
        refine ⟨?_, ?_, ?_⟩
        · intro q fd hq
          simp only [Play.log, stream]
          split
          · exact ⟨_, rfl⟩
          · split
            · exact ⟨_, rfl⟩
            · rename_i ho hr
              rcases hq with ⟨-, h | h⟩ | ⟨-, h⟩
              · exact absurd h ho
              · exact absurd h hr
              · exact h1 q fd h
        · intro fd hs
          simp only [Play.log, stream] at hs
          split at hs
          · cases hs
          · split at hs
            · cases hs
            · exact h2 fd hs
        · intro ev he
          rcases he with he | he
          · rw [show pending (Play.log (.cinit (.spawned i p o r) :: t)) = pending (Play.log t) from rfl,
              hp] at he
            cases he
          · exact nomatch he
      | hangup g =>
        obtain ⟨h4, h5⟩ := ih.gone (fd := g) (.inl hserve)
        refine ⟨?_, ?_, ?_⟩
        · intro q fd hq
          have hq : holds q fd t := hq
          obtain ⟨y, hy⟩ := h1 q fd hq
          refine ⟨y, ?_⟩
          simp only [Play.log, stream]
          rw [if_neg, hy]
          rintro rfl
          exact h4 q hq
        · intro fd hs
          simp only [Play.log, stream] at hs
          split at hs
          · rename_i he; exact he ▸ h5
          · exact h2 fd hs
        · intro ev he hi hu y hs
          simp only [Play.log, stream] at hs
          split at hs
          · cases hs
          · refine h3 ev (.inl ?_) hi hu y hs
            rcases he with he | he
            · exact he
            · exact nomatch he
      | chunk g b =>
        refine ⟨h1, ?_, ?_⟩
        · intro fd hs
          simp only [buffer]
          rw [h2 fd hs]
          simp
        · intro ev he hi hu y hs
          obtain ⟨h4, h5⟩ := h3 ev (.inl (he.resolve_right (fun h => nomatch h))) hi hu y hs
          refine ⟨h4, ?_⟩
          simp only [buffer]
          rw [h5]
          simp
      | polled evs =>
        refine ⟨h1, h2, ?_⟩
        intro ev he hi hu y hs
        have hm : ev ∈ evs := he.resolve_right (fun h => nomatch h)
        obtain ⟨h4, h5⟩ := ho.1 ev hm y hs
        refine ⟨h5 hu, ?_⟩
        by_contra hb
        rw [h4 hb] at hi
        cases hi
      | ready ev =>
        refine ⟨h1, h2, ?_⟩
        intro ev' he
        refine h3 ev' (.inl ?_)
        rcases he with he | he
        · exact List.mem_of_mem_tail he
        · simp only [Play.log, hand] at he
          split at he
          · exact Option.some.inj he ▸ List.mem_of_mem_head? hserve.2
          · exact nomatch he
      | _ =>
        refine ⟨h1, h2, fun ev he => h3 ev (.inl ?_)⟩
        exact he.resolve_right (fun h => nomatch h)

/-- What has been written and not been read is what is left in the stream. -/
theorem writtenTo_buffer {t : Play} (ho : Orderly t) (fd : Int) :
    writtenTo fd t = readFrom fd (Play.log t) ++ buffer fd t := by
  induction t with
  | nil => rfl
  | cons a t ih =>
    have ih := ih ho.2
    cases a with
    | writes q g b =>
      simp only [writtenTo, buffer, Play.log]
      split
      · rw [ih, List.append_assoc]
      · exact ih
    | cinit e =>
      cases e with
      | chunk g b =>
        simp only [writtenTo, buffer, Play.log, readFrom]
        split
        · rename_i he
          subst he
          obtain ⟨rest, hr⟩ : b <+: buffer g t := ho.1
          rw [ih, ← hr]
          simp
        · exact ih
      | _ => exact ih
    | _ => exact ih

/-- Whenever program `i` is started, its earlier output stream, if any, has been closed. -/
def Alone (i : Nat) (out : Bool) (l : Log) : Prop :=
  ∀ p o r past, Happened l (.spawned i p o r) past → ∀ fd, stream past fd ≠ some (i, out)

/-- What holds of the output of a program with one stream at a time. -/
private structure Account (i : Nat) (out : Bool) (t : Play) : Prop where
  open_ : ∀ fd, stream (Play.log t) fd = some (i, out) →
    outputOf i out t = (bytesRead i out (Play.log t)).flatten ++ buffer fd t
  closed : (∀ fd, stream (Play.log t) fd ≠ some (i, out)) →
    outputOf i out t = (bytesRead i out (Play.log t)).flatten
  single : ∀ fd fd', stream (Play.log t) fd = some (i, out) → stream (Play.log t) fd' = some (i, out) → fd = fd'

private theorem account {d : Inlets} {t : Play} {i : Nat} {out : Bool} (ho : Orderly t)
    (hr : Always (StreamRules d) (Play.log t)) (ha : Alone i out (Play.log t)) : Account i out t := by
  induction t with
  | nil => exact ⟨fun fd h => by simp [Play.log, stream] at h, fun _ => rfl,
      fun fd fd' h => by simp [Play.log, stream] at h⟩
  | cons a t ih =>
    cases a with
    | writes q g b =>
      obtain ⟨h1, h2, h3⟩ := ih ho.2 hr ha
      obtain ⟨y, hy⟩ := (stream_inv ho.2 hr).open_ q g ho.1
      refine ⟨fun fd hs => ?_, fun hn => ?_, h3⟩
      · have hs : stream (Play.log t) fd = some (i, out) := hs
        simp only [outputOf, buffer, Play.log]
        by_cases hg : g = fd
        · subst hg
          rw [if_pos hs, if_pos rfl, h1 _ hs, List.append_assoc]
        · rw [if_neg hg, if_neg (fun h => hg (h3 _ _ h hs)), h1 _ hs]
      · simp only [outputOf]
        rw [if_neg (show ¬ stream (Play.log t) g = some (i, out) from hn g)]
        exact h2 hn
    | cinit e =>
      have hsuf : Alone i out (Play.log t) := fun p o r past ⟨l, hl⟩ =>
        ha p o r past ⟨e :: l, by simp only [Play.log]; rw [hl]; rfl⟩
      obtain ⟨h1, h2, h3⟩ := ih ho.2 hr.2 hsuf
      have hinv := stream_inv ho.2 hr.2
      cases e with
      | spawned j p o r =>
        obtain ⟨f1, f2, f3⟩ := hr.1.fresh j p o r rfl
        by_cases hj : j = i
        · subst hj
          have hno := ha p o r (Play.log t) ⟨[], rfl⟩
          have hw := h2 hno
          have hone : ∀ fd, stream (Play.log (.cinit (.spawned j p o r) :: t)) fd = some (j, out) →
              fd = if out then o else r := by
            intro fd hs
            simp only [Play.log, stream] at hs
            split at hs
            · cases hs; rename_i h; simpa using h
            · split at hs
              · cases hs; rename_i h; simpa using h
              · exact absurd hs (hno fd)
          refine ⟨fun fd hs => ?_, fun hn => ?_, fun fd fd' hs hs' => ?_⟩
          · have hb : buffer fd t = [] := by
              rw [hone fd hs]
              cases out
              · exact hinv.drained _ f2
              · exact hinv.drained _ f1
            change outputOf j out t = (bytesRead j out (Play.log t)).flatten ++ buffer fd t
            rw [hb, hw, List.append_nil]
          · exact hw
          · rw [hone fd hs, hone fd' hs']
        · have hsame : ∀ fd, stream (Play.log (.cinit (.spawned j p o r) :: t)) fd = some (i, out) →
              stream (Play.log t) fd = some (i, out) := by
            intro fd hs
            simp only [Play.log, stream] at hs
            split at hs
            · cases hs; exact absurd rfl hj
            · split at hs
              · cases hs; exact absurd rfl hj
              · exact hs
          refine ⟨fun fd hs => h1 fd (hsame fd hs), fun hn => h2 fun fd hs => hn fd ?_,
            fun fd fd' hs hs' => h3 fd fd' (hsame fd hs) (hsame fd' hs')⟩
          simp only [Play.log, stream]
          rw [if_neg, if_neg, hs]
          · rintro rfl; rw [hs] at f2; cases f2
          · rintro rfl; rw [hs] at f1; cases f1
      | hangup g =>
        obtain ⟨-, hb⟩ := hinv.gone (fd := g) (.inl hr.1.serves)
        have hsame : ∀ fd, stream (Play.log (.cinit (.hangup g) :: t)) fd = some (i, out) →
            stream (Play.log t) fd = some (i, out) := by
          intro fd hs
          simp only [Play.log, stream] at hs
          split at hs
          · cases hs
          · exact hs
        refine ⟨fun fd hs => h1 fd (hsame fd hs), fun hn => ?_,
          fun fd fd' hs hs' => h3 fd fd' (hsame fd hs) (hsame fd' hs')⟩
        change outputOf i out t = (bytesRead i out (Play.log t)).flatten
        by_cases hg : stream (Play.log t) g = some (i, out)
        · rw [h1 g hg, hb, List.append_nil]
        · refine h2 fun fd hs => hn fd ?_
          simp only [Play.log, stream]
          rw [if_neg, hs]
          rintro rfl
          exact hg hs
      | chunk g b =>
        refine ⟨fun fd hs => ?_, fun hn => ?_, h3⟩
        · have hs : stream (Play.log t) fd = some (i, out) := hs
          simp only [outputOf, buffer, Play.log, bytesRead]
          by_cases hg : g = fd
          · subst hg
            obtain ⟨rest, hrest⟩ : b <+: buffer g t := ho.1
            rw [if_pos hs, if_pos rfl, h1 _ hs, ← hrest]
            simp
          · rw [if_neg hg, if_neg (fun h => hg (h3 _ _ h hs)), h1 _ hs]
        · simp only [outputOf, Play.log, bytesRead]
          rw [if_neg (show ¬ stream (Play.log t) g = some (i, out) from hn g)]
          exact h2 hn
      | _ => exact ⟨h1, h2, h3⟩
    | _ =>
      obtain ⟨h1, h2, h3⟩ := ih ho.2 hr ha
      exact ⟨h1, h2, h3⟩

section

variable {x : Machine} {config : Config} {m : Manager} (h : x.manager config = .ok m)
include h

private theorem exit_closed {t : Play} {code : Int} {w : World} (hr : x.loop m = .ok code w)
    (hc : code ≠ 3) (hl : t.log = w.log) : ∀ fd, stream t.log fd = none := by
  have hg := Machine.loop_good h
  rw [hr] at hg
  obtain ⟨hleg, past', he⟩ := hg
  rw [he] at hleg
  have hex : Rule (x.setting config m) past' (.exit code) := hleg.1.2
  rcases hex with ⟨e, -⟩ | ⟨-, hst, -⟩
  · exact absurd e hc
  · intro fd
    rw [hl, he]
    exact hst fd

private theorem ended_log {t : Play} {code : Int} {w : World} (hr : x.loop m = .ok code w)
    (hl : t.log = w.log) : Always (StreamRules m.inlets) t.log := by
  have := stream_rules h
  rw [hr] at this
  rw [hl]
  exact this

/-! ## C114 -/

omit h in
/-- C114 as stated: once cinit has been told to stop or some program has crashed, it waits only
for programs. -/
def C114_statement : Prop :=
  ∀ (x : Machine) (config : Config) (m : Manager) (past : Log),
    x.manager config = .ok m → Happened (x.loop m).log .polling past →
    ShuttingDown config.programs past → ∃ i, Alive config.programs i past

/-- C114, exactly what cinit waits for when it shuts down: the end of programs, and the end of
output streams. -/
theorem C114_waits_partial {past : Log} (he : Happened (x.loop m).log .polling past)
    (hs : ShuttingDown config.programs past) :
    (∃ i, Alive config.programs i past) ∨ ∃ fd y, stream past fd = some y := by
  rcases C69_waits h he with h1 | h1 | ⟨h1, -⟩
  · exact .inl h1
  · exact .inr h1
  · exact absurd hs h1

/-- C114: as long as any process at all, of whatever program and however old, holds an output
stream of a program, cinit does not end. -/
theorem C114_held {t : Play} {code : Int} {w : World} (ho : Orderly t)
    (hr : x.loop m = .ok code w) (hc : code ≠ 3) (hl : t.log = w.log) (q fd : Int) :
    ¬ holds q fd t :=
  ((stream_inv ho (ended_log h hr hl)).gone (.inr (exit_closed h hr hc hl fd))).1 q

/-- C114: nor does it close the stream before. -/
theorem C114_kept {t later t0 : Play} {fd : Int} (ho : Orderly t) (hl : t.log = (x.loop m).log)
    (ht : t = later ++ .cinit (.hangup fd) :: t0) (q : Int) : ¬ holds q fd t0 := by
  have hr := stream_rules h
  rw [← hl, ht, play_append] at hr
  have hr : Always (StreamRules m.inlets) (.hangup fd :: t0.log) := (always_of_suffix hr rfl).2
  have ho := orderly_suffix (ht ▸ ho)
  exact ((stream_inv ho.2 hr.2).gone (.inl hr.1.serves)).1 q

/-! ## C115 -/

/-- C115: when cinit stops reading from an output stream, everything any process has written to it
has been read, and nothing else. -/
theorem C115_closed {t later t0 : Play} {fd : Int} (ho : Orderly t) (hl : t.log = (x.loop m).log)
    (ht : t = later ++ .cinit (.hangup fd) :: t0) : writtenTo fd t0 = readFrom fd t0.log := by
  have hr := stream_rules h
  rw [← hl, ht, play_append] at hr
  have hr : Always (StreamRules m.inlets) (.hangup fd :: t0.log) := (always_of_suffix hr rfl).2
  have ho := orderly_suffix (ht ▸ ho)
  rw [writtenTo_buffer ho.2, ((stream_inv ho.2 hr.2).gone (.inl hr.1.serves)).2, List.append_nil]

/-- C115: when cinit ends, everything any process has written to any output stream has been
read, and nothing else. -/
theorem C115_read {t : Play} {code : Int} {w : World} (ho : Orderly t)
    (hr : x.loop m = .ok code w) (hc : code ≠ 3) (hl : t.log = w.log) (fd : Int) :
    writtenTo fd t = readFrom fd t.log := by
  rw [writtenTo_buffer ho,
    ((stream_inv ho (ended_log h hr hl)).gone (.inr (exit_closed h hr hc hl fd))).2, List.append_nil]

/-- C115: when cinit ends, what was read as output of a program is what has been written to its
output stream, if the streams of earlier executions of the program were closed when it was started
again. -/
theorem C115_program {t : Play} {code : Int} {w : World} (ho : Orderly t)
    (hr : x.loop m = .ok code w) (hc : code ≠ 3) (hl : t.log = w.log) {i : Nat} {out : Bool}
    (ha : Alone i out w.log) : outputOf i out t = (bytesRead i out w.log).flatten := by
  have hst := exit_closed h hr hc hl
  have := (account (i := i) (out := out) ho (ended_log h hr hl) (hl.symm ▸ ha)).closed
    (fun fd hs => by rw [hst fd] at hs; cases hs)
  rw [this, hl]

/-- This is so for programs that are no cronjobs. -/
theorem alone_once {i : Nat} (hi : ¬ isCronjob config.programs i) (out : Bool) :
    Alone i out (x.loop m).log := by
  intro p o r past he fd hs
  have hno := (C31_once h he hi).1
  clear he
  induction past with
  | nil => cases hs
  | cons e l ih =>
    have hno' : ∀ p' o' r', .spawned i p' o' r' ∉ l := fun p' o' r' hm =>
      hno p' o' r' (List.mem_cons_of_mem _ hm)
    cases e with
    | spawned j p' o' r' =>
      have hj : j ≠ i := by
        rintro rfl
        exact hno p' o' r' List.mem_cons_self
      simp only [stream] at hs
      split at hs
      · cases hs; exact hj rfl
      · split at hs
        · cases hs; exact hj rfl
        · exact ih hs hno'
    | hangup g =>
      simp only [stream] at hs
      split at hs
      · cases hs
      · exact ih hs hno'
    | _ => exact ih hs hno'

/-- C115, from one end to the other: when cinit ends, the ASCII characters logged under the name of
a program and for one of its output streams are those any process has written to it, each once and
in order, line terminators aside. -/
theorem C115_logged {t : Play} {code : Int} {w : World} (ho : Orderly t)
    (hr : x.loop m = .ok code w) (hc : code ≠ 3) (hl : t.log = w.log) {i : Nat}
    {c : ProcessConfig} (hi : config.programs[i]? = some c) {out : Bool} (ha : Alone i out w.log) :
    ((linesLogged c.name out w.log).flatten.filter (· ≠ '\r')).filter (fun c => c.toNat < 128) =
      (((outputOf i out t).filter (· < 128)).map Char.ofNat).filter
        (fun c => c ≠ '\r' ∧ c ≠ '\n') := by
  rw [C115_program h ho hr hc hl ha]
  have hg := Machine.loop_good h
  rw [hr] at hg
  obtain ⟨-, past', he⟩ := hg
  rw [he]
  exact C43_ascii (e := .exit code) (past := past') h ⟨[], by rw [hr]; exact he⟩ (fun hn => hn) hi
    out

/-- C115: for programs that are no cronjobs this is so without further ado. -/
theorem C115_once {t : Play} {code : Int} {w : World} (ho : Orderly t)
    (hr : x.loop m = .ok code w) (hc : code ≠ 3) (hl : t.log = w.log) {i : Nat}
    {c : ProcessConfig} (hi : config.programs[i]? = some c) (hn : ¬ isCronjob config.programs i)
    (out : Bool) :
    ((linesLogged c.name out w.log).flatten.filter (· ≠ '\r')).filter (fun c => c.toNat < 128) =
      (((outputOf i out t).filter (· < 128)).map Char.ofNat).filter
        (fun c => c ≠ '\r' ∧ c ≠ '\n') := by
  refine C115_logged h ho hr hc hl hi ?_
  have := alone_once h hn out
  rw [hr] at this
  exact this

end

/-! ## A process left behind -/

/-- cinit is told to stop and the only program ends, but the process it has created goes on. -/
def leftoverAnswers : List Answer :=
  [.setup true, .fork (some (10, 20, 21)), .epollAdd true, .epollAdd true, .now 1,
   .epoll (some [⟨3, true, false⟩]), .signal (some 15), .kill true, .wait (.exited 10 0),
   .wait .alive, .epoll (some [⟨20, true, false⟩]), .read (some (bytes "by")),
   .wait .alive, .epoll (some [⟨20, true, true⟩, ⟨21, false, true⟩]),
   .read (some (bytes "e\n")), .wait (.exited 11 0), .wait .error,
   .epoll (some [⟨20, false, true⟩]), .wait .error]

/-- The same, with what the processes do. -/
def leftoverPlay : Play :=
  [.cinit (.exit 0), .cinit .reaped, .cinit (.hangup 20), .cinit (.ready ⟨20, false, true⟩),
   .cinit (.polled [⟨20, false, true⟩]), .cinit .polling, .cinit .reaped,
   .cinit (.waited 11 0 none), .cinit (.hangup 21), .cinit (.ready ⟨21, false, true⟩),
   .cinit (.line true ['a'] ['e']), .cinit (.chunk 20 (bytes "e\n")),
   .cinit (.ready ⟨20, true, true⟩),
   .cinit (.polled [⟨20, true, true⟩, ⟨21, false, true⟩]), .ends 11,
   .cinit .polling, .cinit .reaped,
   .cinit (.line true ['a'] ['b', 'y']), .cinit (.chunk 20 (bytes "by")),
   .cinit (.ready ⟨20, true, false⟩), .cinit (.polled [⟨20, true, false⟩]),
   .closes 11 21, .writes 11 20 (bytes "bye\n"),
   .cinit .polling, .cinit .reaped, .cinit (.waited 10 0 (some 0)), .ends 10,
   .cinit (.sent 10 2), .cinit (.signal 15), .cinit (.ready ⟨3, true, false⟩),
   .cinit (.polled [⟨3, true, false⟩]), .arrives .signals, .forks 10 11, .cinit .polling, .cinit (.clock 1),
   .cinit (.watched 21 true), .cinit (.watched 20 true), .cinit (.spawned 0 10 20 21)]

theorem leftover_ends : Ends (machine leftoverAnswers) ⟨[prog 'a' .oneshot]⟩
    (.exited 0 leftoverPlay.log) :=
  Res.of_check (by decide +kernel)

/-- The kernel keeps its guarantees in this play. -/
theorem leftover_orderly : Orderly leftoverPlay := by
  simp [leftoverPlay, Orderly, Honest, holds, buffer, Play.log, stream, bytes]
  tauto

/-- C114 is false: cinit waits for a process left behind by a program that has ended. -/
theorem C114_violated : ¬ C114_statement := by
  intro h
  obtain ⟨m, w, h1, h2, h3⟩ := leftover_ends.exited
  have he : Happened ((machine leftoverAnswers).loop m).log .polling
      (Play.log (leftoverPlay.drop 24)) := by
    refine ⟨Play.log (leftoverPlay.take 23), ?_⟩
    rw [h2]
    exact h3
  obtain ⟨i, hi⟩ := h _ _ m _ h1 he (.inl (.inr (.inr (by decide +kernel))))
  simp [leftoverPlay, Play.log, Alive, owner] at hi
  exact hi.1 hi.2.symm

/-- The process left behind holds the streams at that time, and nobody does in the end
(`C114_held`). What it writes is logged completely under the name of the program
(`C115_once`). -/
example : holds 11 20 (leftoverPlay.drop 24) ∧
    (outputOf 0 true leftoverPlay).map Char.ofNat = "bye\n".toList ∧
    (linesLogged ['a'] true leftoverPlay.log).flatten = "bye".toList := by
  refine ⟨?_, by decide +kernel, by decide +kernel⟩
  simp [leftoverPlay, holds]

end Cinit.Props
