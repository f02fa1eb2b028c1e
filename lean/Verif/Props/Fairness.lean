import Verif.Spec.Fairness
import Verif.Props.Arrivals
import Verif.Props.Service
/-!
# C118: nobody can keep cinit from serving others
-/

namespace Cinit.Props

open Cinit Spec

private structure Order (d : Inlets) (e : Event) (past : Log) : Prop where
  watches : Watches e past
  distinct : ∀ evs, e = .polled evs → (evs.map (·.fd)).Nodup
  heard : ∀ evs, e = .polled evs → ∀ ev ∈ evs, listening d past ev.fd

private theorem order {x : Machine} {config : Config} {m : Manager} (h : x.manager config = .ok m) :
    Always (Order m.inlets) (x.loop m).log := by
  have h1 := Machine.loop_watches x m
  have h3 := loop_told h
  generalize (x.loop m).log = l at h1 h3
  induction l with
  | nil => trivial
  | cons e l ih =>
    refine ⟨⟨h1.1, ?_, ?_⟩, ih h1.2 h3.2⟩
    · rintro evs rfl
      exact h3.1.2.1
    · rintro evs rfl
      exact h3.1.2.2

private theorem watched_open {l : Log} {fd : Int} (h : unwatched l = some fd) :
    ∃ y, stream l fd = some y := by
  unfold unwatched at h
  split at h
  · cases h
    exact ⟨(_, true), by simp only [stream, if_true]; rfl⟩
  · cases h
    simp only [stream]
    split
    · exact ⟨_, rfl⟩
    · exact ⟨(_, false), by simp only [if_true]; rfl⟩
  · cases h

private def Inlet (d : Inlets) (fd : Int) : Prop :=
  fd = d.signalFd ∨ fd = d.statusFd ∨ fd = d.notifyFd

private theorem watched_stream {d : Inlets} {l : Log} {fd : Int} {ok : Bool}
    (h : Order d (.watched fd ok) l) : ∃ y, stream l fd = some y := by
  have hw := h.watches
  unfold Watches at hw
  cases hu : unwatched l with
  | none => rw [hu] at hw; exact absurd rfl (hw _ _)
  | some g => rw [hu] at hw; obtain ⟨ok', he⟩ := hw; cases he; exact watched_open hu

private theorem listening_known {d : Inlets} {l : Log} {fd : Int} (ho : Always (Order d) l)
    (h : listening d l fd) : Inlet d fd ∨ ∃ y, stream l fd = some y := by
  induction l with
  | nil => exact .inl h
  | cons e l ih =>
    have ih := ih ho.2
    cases e with
    | watched g ok =>
      rcases h with ⟨rfl, -⟩ | h
      · exact .inr (watched_stream (l := l) ho.1)
      · exact ih h
    | hangup g =>
      rcases ih h.2 with h1 | ⟨y, hy⟩
      · exact .inl h1
      · exact .inr ⟨y, by simp only [stream]; rw [if_neg h.1]; exact hy⟩
    | spawned i p o r =>
      rcases ih h with h1 | ⟨y, hy⟩
      · exact .inl h1
      · simp only [stream]
        right
        split
        · exact ⟨_, rfl⟩
        · split
          · exact ⟨_, rfl⟩
          · exact ⟨y, hy⟩
    | _ => exact ih h

/-- The descriptors that may be reported before those reported already. -/
private def unseen (d : Inlets) (t0 : Log) : Log → List Int
  | [] => d.signalFd :: d.statusFd :: d.notifyFd :: openStreams t0
  | .spawned _ _ o r :: l => o :: r :: unseen d t0 l
  | .polled evs :: l => (unseen d t0 l).filter (· ∉ evs.map (·.fd))
  | _ :: l => unseen d t0 l

private theorem mem_unseen {d : Inlets} {t0 later : Log} {g : Int}
    (ho : Always (Order d) (later ++ t0))
    (h : (Inlet d g ∧ listening d (later ++ t0) g) ∨ ∃ y, stream (later ++ t0) g = some y)
    (hr : ¬ hadTurn g later) : g ∈ unseen d t0 later := by
  induction later with
  | nil =>
    simp only [unseen, List.mem_cons]
    rcases h with ⟨h | h | h, -⟩ | h
    · exact .inl h
    · exact .inr (.inl h)
    · exact .inr (.inr (.inl h))
    · exact .inr (.inr (.inr (mem_openStreams.mpr h)))
  | cons e later ih =>
    have ih := ih ho.2
    cases e with
    | spawned i p o r =>
      simp only [unseen, List.mem_cons]
      rcases h with h | ⟨y, h⟩
      · exact .inr (.inr (ih (.inl h) hr))
      · simp only [List.cons_append, stream] at h
        split at h
        · exact .inl ‹_›
        · split at h
          · exact .inr (.inl ‹_›)
          · exact .inr (.inr (ih (.inr ⟨y, h⟩) hr))
    | polled evs =>
      simp only [unseen, List.mem_filter, decide_eq_true_eq]
      exact ⟨ih h fun h' => hr (.inr h'), fun h' => hr (.inl h')⟩
    | hangup g' =>
      have hne : g ≠ g' := by
        rintro rfl
        rcases h with ⟨-, h⟩ | ⟨y, h⟩
        · exact h.1 rfl
        · simp [stream] at h
      refine ih ?_ fun h' => hr ⟨hne, h'⟩
      rcases h with ⟨h1, h2⟩ | ⟨y, h⟩
      · exact .inl ⟨h1, h2.2⟩
      · simp only [List.cons_append, stream, if_neg hne] at h
        exact .inr ⟨y, h⟩
    | watched g' ok =>
      refine ih ?_ hr
      rcases h with ⟨h1, ⟨rfl, -⟩ | h2⟩ | h
      · exact .inr (watched_stream ho.1)
      · exact .inl ⟨h1, h2⟩
      · exact .inr h
    | _ => exact ih h hr

private theorem filter_length {S L : List Int} (hn : S.Nodup) (hs : S ⊆ L) :
    (L.filter (· ∉ S)).length + S.length ≤ L.length := by
  have h1 : S.length ≤ (L.filter (· ∈ S)).length := by
    refine (hn.subperm ?_).length_le
    intro a ha
    simpa using ⟨hs ha, ha⟩
  have h2 : ∀ L : List Int, (L.filter (· ∈ S)).length + (L.filter (· ∉ S)).length = L.length := by
    intro L
    induction L with
    | nil => rfl
    | cons a L ih =>
      by_cases ha : a ∈ S <;> simp [ha] at ih ⊢ <;> omega
  have := h2 L
  omega

private theorem always_rest {φ : Event → Log → Prop} {a b : Log} (h : Always φ (a ++ b)) :
    Always φ b := by
  induction a with
  | nil => exact h
  | cons _ _ ih => exact ih h.2

/-- C118: cinit turns to everything in time. As long as a descriptor it listens to has something to
tell and is passed over, because of others having something to tell as well, ten times the number
of rounds is less than the number of descriptors there have been, of cinit itself and of
programs. -/
theorem C118_turns {x : Machine} {config : Config} {m : Manager} (h : x.manager config = .ok m)
    {newer later t0 : Log} {fd : Int} (hl : (x.loop m).log = newer ++ (later ++ t0))
    (hlis : listening m.inlets t0 fd) (hk : TakesTurns Sys.eventBuffer fd later)
    (hn : ∀ evs, .polled evs ∈ later → fd ∉ evs.map (·.fd)) :
    10 * rounds later < 3 + (openStreams t0).length + 2 * starts later := by
  have ho := order h
  rw [hl] at ho
  replace ho : Always (Order m.inlets) (later ++ t0) := always_rest ho
  have hmem : fd ∈ unseen m.inlets t0 [] := by
    have ho0 : Always (Order m.inlets) t0 := always_rest ho
    refine mem_unseen (later := []) ho0 ?_ (fun h => h)
    rcases listening_known ho0 hlis with h1 | h1
    · exact .inl ⟨h1, hlis⟩
    · exact .inr h1
  clear hl hlis
  have key : fd ∈ unseen m.inlets t0 later ∧ (unseen m.inlets t0 later).length + 10 * rounds later ≤
      3 + (openStreams t0).length + 2 * starts later := by
    induction later with
    | nil =>
      refine ⟨hmem, ?_⟩
      simp only [unseen, rounds, starts, List.length_cons]
      omega
    | cons e later ih =>
      have ho' : Always (Order m.inlets) (later ++ t0) := ho.2
      have hn' : ∀ evs, .polled evs ∈ later → fd ∉ evs.map (·.fd) :=
        fun evs he => hn evs (List.mem_cons_of_mem _ he)
      cases e with
      | polled evs =>
        obtain ⟨h1, h2⟩ := ih hk.2 hn' ho'
        have hno := hn evs List.mem_cons_self
        obtain ⟨h3, h4⟩ := hk.1 hno
        have hnd := ho.1.distinct evs rfl
        have hsub : evs.map (·.fd) ⊆ unseen m.inlets t0 later := by
          intro g hg
          obtain ⟨ev, hev, rfl⟩ := List.mem_map.mp hg
          have hli := ho.1.heard evs rfl ev hev
          refine mem_unseen ho' ?_ (h4 ev hev)
          rcases listening_known ho' hli with h5 | h5
          · exact .inl ⟨h5, hli⟩
          · exact .inr h5
        have := filter_length hnd hsub
        rw [List.length_map, h3] at this
        refine ⟨?_, ?_⟩
        · simp only [unseen, List.mem_filter, decide_eq_true_eq]
          exact ⟨h1, hno⟩
        · simp only [unseen, rounds, starts]
          have he : Sys.eventBuffer = 10 := rfl
          omega
      | spawned i p o r =>
        obtain ⟨h1, h2⟩ := ih hk hn' ho'
        refine ⟨List.mem_cons_of_mem _ (List.mem_cons_of_mem _ h1), ?_⟩
        simp only [unseen, rounds, starts, List.length_cons]
        omega
      | _ => exact ih hk hn' ho'
  have := List.length_pos_of_mem key.1
  omega

/-- C118: what has been reported is dealt with in the same round. -/
theorem C118_served {x : Machine} {m : Manager} {e : Event} {evs : List Ready} {ev : Ready}
    {later mid past : Log} (hl : (x.loop m).log = later ++ e :: (mid ++ .polled evs :: past))
    (he : newRound e) (hp : .polling ∉ mid) (hev : ev ∈ evs) : .ready ev ∈ mid := by
  rw [← C61_all hl he hp] at hev
  obtain ⟨e', h1, h2⟩ := List.mem_filterMap.mp hev
  cases e' with
  | ready ev' => cases h2; exact List.mem_reverse.mp h1
  | _ => cases h2

/-! ## A concrete case -/

/-- All output streams of five programs have something to tell. -/
def throng : List Ready :=
  [⟨20, true, false⟩, ⟨21, true, false⟩, ⟨22, true, false⟩, ⟨23, true, false⟩, ⟨24, true, false⟩,
   ⟨25, true, false⟩, ⟨26, true, false⟩, ⟨27, true, false⟩, ⟨28, true, false⟩, ⟨29, true, false⟩]

/-- Five programs write without pause; cinit is told to stop at the same time. -/
def busyAnswers : List Answer :=
  [.setup true, .fork (some (10, 20, 21)), .epollAdd true, .epollAdd true,
   .fork (some (11, 22, 23)), .epollAdd true, .epollAdd true, .fork (some (12, 24, 25)),
   .epollAdd true, .epollAdd true, .fork (some (13, 26, 27)), .epollAdd true, .epollAdd true,
   .fork (some (14, 28, 29)), .epollAdd true, .epollAdd true, .now 1, .epoll (some throng)] ++
  List.replicate 10 (.read (some (bytes "y\n"))) ++
  [.wait .alive, .now 1, .epoll (some [⟨3, true, false⟩]), .signal (some 15)]

def busyStart : Log :=
  [.polling, .clock 1, .watched 29 true, .watched 28 true, .spawned 4 14 28 29, .watched 27 true,
   .watched 26 true, .spawned 3 13 26 27, .watched 25 true, .watched 24 true,
   .spawned 2 12 24 25, .watched 23 true, .watched 22 true, .spawned 1 11 22 23,
   .watched 21 true, .watched 20 true, .spawned 0 10 20 21]

def busyRound : Log :=
  [.polling, .clock 1, .reaped, .line false ['e'] ['y'], .chunk 29 (bytes "y\n"),
   .ready ⟨29, true, false⟩, .line true ['e'] ['y'], .chunk 28 (bytes "y\n"),
   .ready ⟨28, true, false⟩, .line false ['d'] ['y'], .chunk 27 (bytes "y\n"),
   .ready ⟨27, true, false⟩, .line true ['d'] ['y'], .chunk 26 (bytes "y\n"),
   .ready ⟨26, true, false⟩, .line false ['c'] ['y'], .chunk 25 (bytes "y\n"),
   .ready ⟨25, true, false⟩, .line true ['c'] ['y'], .chunk 24 (bytes "y\n"),
   .ready ⟨24, true, false⟩, .line false ['b'] ['y'], .chunk 23 (bytes "y\n"),
   .ready ⟨23, true, false⟩, .line true ['b'] ['y'], .chunk 22 (bytes "y\n"),
   .ready ⟨22, true, false⟩, .line false ['a'] ['y'], .chunk 21 (bytes "y\n"),
   .ready ⟨21, true, false⟩, .line true ['a'] ['y'], .chunk 20 (bytes "y\n"),
   .ready ⟨20, true, false⟩, .polled throng]

theorem busy_ends : Ends (machine busyAnswers)
    ⟨['a', 'b', 'c', 'd', 'e'].map fun c => prog c .oneshot⟩
    (.unfinished ([.signal 15, .ready ⟨3, true, false⟩, .polled [⟨3, true, false⟩]] ++
      (busyRound ++ busyStart))) :=
  Res.of_check (by decide +kernel)

/-- Witness for `C118_turns`: the signal is passed over once, and turned to in the next round. With
13 descriptors this cannot happen twice. -/
example : listening ⟨3, 4, 5⟩ busyStart 3 ∧ TakesTurns 10 3 busyRound ∧
    (∀ evs, .polled evs ∈ busyRound → 3 ∉ evs.map (·.fd)) ∧
    rounds busyRound = 1 ∧ (openStreams busyStart).length = 10 ∧ starts busyRound = 0 := by
  refine ⟨?_, ?_, ?_, by decide +kernel, by decide +kernel, by decide +kernel⟩
  · simp [busyStart, listening]
  · simp [busyRound, TakesTurns, throng, hadTurn]
  · simp [busyRound, throng]

/-- Witness for `C118_served`. -/
example : busyRound = .polling :: ((busyRound.drop 1).take 32 ++ .polled throng :: []) ∧
    .polling ∉ (busyRound.drop 1).take 32 := by decide +kernel

end Cinit.Props
