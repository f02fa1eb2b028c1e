import Verif.Spec.Leaks
import Verif.Props.Child
import Verif.Props.Timeline
import Verif.Props.Output
/-!
# C64, C68, C73: the descriptors of cinit and of programs in the course of a run
-/

namespace Cinit.Props

open Cinit Spec Descr Child

section

variable {d0 : State}

/-- What cinit may do with descriptors in the course of a run keeps it in the reach of what C64 and
C68 are about. -/
theorem follows_reachable {t0 : Files} (h0 : Reachable t0 d0) {l : Log} {d : State}
    (h : Follows d0 l d) : Reachable t0 d := by
  induction h with
  | begin => exact h0
  | spawned _ hs _ ih => exact ih.step hs
  | spawnFailed _ hs _ ih => exact ih.step hs
  | hangup _ hs ih => exact ih.step hs
  | ignored _ _ ih => exact ih
  | report _ hs ih => exact ih.step hs
  | broken _ hs ih => exact ih.step hs
  | failed _ ih => exact ih
  | other _ _ ih => exact ih

private theorem stream_other {e : Event} {l : Log} {fd : Int} (h : handsOff e = true) :
    stream (e :: l) fd = stream l fd := by
  cases e <;> first
    | rfl
    | cases h

/-- The descriptors of cinit are the ones at the beginning and the open streams. -/
private structure Books (d0 : State) (l : Log) (d : State) : Prop where
  streams : ∀ n : Nat, n ∈ d.streams ↔ ∃ y, stream l n = some y
  same : ∀ n : Nat, stream l n = none → d.files n = d0.files n
  more : ∀ (n : Nat) y, stream l n = some y → d.files n ≠ none ∧ d0.files n = none
  nat : ∀ (fd : Int) y, stream l fd = some y → ∃ n : Nat, fd = n

private theorem report_same {d d' : State} {fd object : Nat} (hs : Step d (.report fd object) d') :
    d'.files = d.files ∧ d'.streams = d.streams ∧ d'.writeEnds = d.writeEnds := by
  cases hs with
  | report hn =>
    refine ⟨?_, rfl, rfl⟩
    funext n
    simp only [Files.close, Files.set]
    split_ifs with hc
    · subst hc; exact hn.1.symm
    · rfl

private theorem books (hb : d0.streams = []) {l : Log} {d : State} (h : Follows d0 l d) :
    Books d0 l d := by
  induction h with
  | begin => exact ⟨fun n => by simp [hb, stream], fun _ _ => rfl, nofun, nofun⟩
  | @spawned l d d' a c o e i p h hs hr ih =>
    cases hs with
    | @start _ t r hf hst =>
      rw [hst] at hr
      simp only at hr
      subst hr
      obtain ⟨e1, e2, ht, -⟩ := start_some hf hst
      obtain ⟨⟨a1, -, -⟩, -⟩ := hf.1 o e1
      obtain ⟨⟨b1, -, -⟩, -⟩ := hf.2.1 e e2
      have hne := (hf.2.2 o e e1 e2).1
      have fresh : ∀ n : Nat, d.files n = none → stream l n = none := by
        intro n hn
        cases hs : stream l n with
        | none => rfl
        | some y => exact absurd hn (ih.more n y hs).1
      have ho := fresh _ a1
      have hee := fresh _ b1
      refine ⟨fun n => ?_, fun n hn => ?_, fun n y hn => ?_, fun fd y hn => ?_⟩
      · simp only [streamsOf, List.mem_append, List.mem_cons, List.not_mem_nil, or_false, stream,
          Nat.cast_inj]
        split_ifs with h1 h2
        · simp [h1]
        · simp [h2]
        · rw [← ih.streams n]; simp [h1, h2]
      · simp only [stream, Nat.cast_inj] at hn
        split_ifs at hn with h1 h2
        simp only
        rw [ht, if_neg h1, if_neg h2]
        exact ih.same n hn
      · simp only [stream, Nat.cast_inj] at hn
        simp only
        rw [ht]
        split_ifs at hn ⊢ with h1 h2
        · subst h1; exact ⟨by simp, by rw [← ih.same _ ho, a1]⟩
        · subst h2; exact ⟨by simp, by rw [← ih.same _ hee, b1]⟩
        · exact ih.more n y hn
      · simp only [stream] at hn
        split_ifs at hn with h1 h2
        · exact ⟨_, h1⟩
        · exact ⟨_, h2⟩
        · exact ih.nat fd y hn
  | @spawnFailed l d d' a i h hs hr ih =>
    cases hs with
    | @start _ t r hf hst =>
      rw [hst] at hr
      simp only at hr
      subst hr
      have := start_none hf hst
      subst this
      exact ⟨fun n => by
        simp only [streamsOf, List.append_nil]; exact ih.streams n, ih.same, ih.more, ih.nat⟩
  | @hangup l d d' n h hs ih =>
    cases hs with
    | hangup hn =>
      obtain ⟨y, hy⟩ := (ih.streams n).mp hn
      refine ⟨fun k => ?_, fun k hk => ?_, fun k y hk => ?_, fun fd y hk => ?_⟩
      · simp only [List.mem_filter, stream, Nat.cast_inj, ih.streams k]
        split_ifs with h1 <;> simp [h1]
      · simp only [stream, Nat.cast_inj] at hk
        simp only [Files.close, Files.set]
        split_ifs at hk ⊢ with h1
        · subst h1; exact (ih.more _ y hy).2.symm
        · exact ih.same k hk
      · simp only [stream, Nat.cast_inj] at hk
        simp only [Files.close, Files.set]
        split_ifs at hk ⊢ with h1
        exact ih.more k y hk
      · simp only [stream] at hk
        split_ifs at hk with h1
        exact ih.nat fd y hk
  | @ignored l d fd h hn ih =>
    have hno : ∀ k : Int, stream (.hangup fd :: l) k = stream l k := by
      intro k
      simp only [stream]
      split_ifs with h1
      · subst h1
        cases hs : stream l k with
        | none => rfl
        | some y =>
          obtain ⟨n, rfl⟩ := ih.nat k y hs
          exact absurd ((ih.streams n).mpr ⟨y, hs⟩) (hn n rfl)
      · rfl
    exact ⟨fun n => by rw [hno]; exact ih.streams n, fun n => by rw [hno]; exact ih.same n,
      fun n => by rw [hno]; exact ih.more n, fun n => by rw [hno]; exact ih.nat n⟩
  | report h hs ih =>
    obtain ⟨h1, h2, -⟩ := report_same hs
    exact ⟨fun n => by rw [h2]; exact ih.streams n, fun n => by rw [h1]; exact ih.same n,
      fun n => by rw [h1]; exact ih.more n, ih.nat⟩
  | broken h hs ih =>
    obtain ⟨h1, h2, -⟩ := report_same hs
    exact ⟨fun n => by rw [h2]; exact ih.streams n, fun n => by rw [h1]; exact ih.same n,
      fun n => by rw [h1]; exact ih.more n, ih.nat⟩
  | failed h ih => exact ⟨ih.streams, ih.same, ih.more, ih.nat⟩
  | other h he ih =>
    exact ⟨fun n => by rw [stream_other he]; exact ih.streams n,
      fun n => by rw [stream_other he]; exact ih.same n,
      fun n => by rw [stream_other he]; exact ih.more n,
      fun n => by rw [stream_other he]; exact ih.nat n⟩

/-- C73: at any time the descriptors of cinit are those it had when it began to supervise and
the output streams of programs that have not ended yet. -/
theorem C73_tables (hb : d0.streams = []) {l : Log} {d : State} (h : Follows d0 l d) (n : Nat) :
    (stream l n = none → d.files n = d0.files n) ∧
    (stream l n ≠ none → d0.files n = none ∧ d.files n ≠ none) := by
  have hk := books hb h
  refine ⟨hk.same n, fun hs => ?_⟩
  obtain ⟨y, hy⟩ := Option.ne_none_iff_exists'.mp hs
  exact ⟨(hk.more n y hy).2, (hk.more n y hy).1⟩

/-- C73: whenever all output streams have ended, nothing is left of whatever has happened. -/
theorem C73_tables_restored (hb : d0.streams = []) {l : Log} {d : State} (h : Follows d0 l d)
    (hs : ∀ fd, stream l fd = none) : d.files = d0.files :=
  funext fun n => (C73_tables hb h n).1 (hs n)

/-! ## Runs -/

/-- All numbers in use are smaller than `b`. -/
private structure Below (b : Nat) (d : State) : Prop where
  files : ∀ n f, d.files n = some f → n < b ∧ f.object < b
  ends : ∀ e ∈ d.writeEnds, e < b

private theorem Below.new {b : Nat} {d : State} (h : Below b d) {n e : Nat} (hn : d.files n = none)
    (he : b ≤ e) : New d n e :=
  ⟨hn, fun hm => by have := h.ends e hm; omega, fun k f hf heq => by
    have := (h.files k f hf).2; omega⟩

private theorem Below.none {b : Nat} {d : State} (h : Below b d) {n : Nat} (hn : b ≤ n) :
    d.files n = none := by
  cases hf : d.files n with
  | none => rfl
  | some f => have := (h.files n f hf).1; omega

private theorem Below.mono {b b' : Nat} {d : State} (h : Below b d) (hb : b ≤ b') : Below b' d :=
  ⟨fun n f hf => by have := h.files n f hf; omega, fun e he => by have := h.ends e he; omega⟩

/-- A successful start. -/
private theorem can_start {b : Nat} {d : State} (h : Below b d) {o e : Nat}
    (ho : d.files o = none) (he : d.files e = none) (hne : o ≠ e) (hob : o < b) (heb : e < b) :
    ∃ (a : StartAnswer) (d' : State) (c : Files) (p q : Pipe),
      Step d (.start a) d' ∧ (Descr.start d.files a).2 = some (c, p, q) ∧ p.readFd = o ∧
      q.readFd = e ∧ Below (b + 4) d' := by
  let p : Pipe := ⟨o, b, b, b + 1⟩
  let q : Pipe := ⟨e, b + 1, b + 2, b + 3⟩
  let a : StartAnswer := { pipe1 := some p, pipe2 := some q }
  have hf : Descr.Fresh d a := by
    refine ⟨?_, ?_, ?_⟩
    · rintro _ ⟨rfl⟩
      refine ⟨h.new ho (by simp [p]), h.new (h.none (by simp [p])) (by simp [p]), ?_, ?_⟩ <;>
        simp only [p] <;> omega
    · rintro _ ⟨rfl⟩
      refine ⟨h.new he (by simp [q]), h.new (h.none (by simp [q])) (by simp [q]), ?_, ?_⟩ <;>
        simp only [q] <;> omega
    · rintro _ _ ⟨rfl⟩ ⟨rfl⟩
      simp only [p, q]
      omega
  obtain ⟨t, c, hs⟩ : ∃ t c, Descr.start d.files a = (t, some (c, p, q)) := by
    simp [Descr.start, createStdFds, a]
  obtain ⟨-, -, ht, -⟩ := start_some hf hs
  refine ⟨a, _, c, p, q, .start hf hs, by rw [hs], rfl, rfl, ?_, ?_⟩
  · intro n f hn
    simp only at hn
    rw [ht] at hn
    split_ifs at hn with h1 h2
    · cases hn; simp only [p] at h1 ⊢; omega
    · cases hn; simp only [q] at h2 ⊢; omega
    · have := h.files n f hn; omega
  · intro x hx
    simp only [List.mem_append, List.mem_map] at hx
    rcases hx with hx | ⟨y, hy, rfl⟩
    · have := h.ends x hx; omega
    · simp only [a, Option.toList_some, List.mem_cons, List.not_mem_nil, or_false] at hy
      rcases hy with rfl | rfl
      · simp only [p]; omega
      · simp only [q]; omega

private theorem can_fail (d : State) : ∃ a, Step d (.start a) d ∧ (Descr.start d.files a).2 = none := by
  refine ⟨{ pipe1 := none, pipe2 := none }, ?_, rfl⟩
  have := Step.start (s := d) (a := { pipe1 := none, pipe2 := none }) (t := d.files) (r := none)
    ⟨nofun, nofun, nofun⟩ rfl
  simpa [streamsOf] using this

private theorem can_report {b : Nat} {d : State} (h : Below b d) :
    ∃ fd object, Step d (.report fd object) d := by
  refine ⟨b, b, ?_⟩
  have hn := h.new (h.none (le_refl b)) (le_refl b)
  have hs := Step.report hn
  obtain ⟨h1, h2, h3⟩ := report_same hs
  have : { d with files := (d.files.set b (some ⟨b, false⟩)).close b } = d := by
    rw [show (d.files.set b (some ⟨b, false⟩)).close b = d.files from h1]
  rw [this] at hs
  exact hs

end

/-- C73: the descriptors of cinit can be followed all the way through every run in which the
kernel gives natural numbers to new streams, beginning with any finite set of descriptors none of
which the kernel gives to a stream. -/
theorem C73_follows {x : Machine} {config : Config} {m : Manager} (h : x.manager config = .ok m)
    {d0 : State} (hb : d0.streams = []) {b : Nat}
    (hfin : ∀ n f, d0.files n = some f → n < b ∧ f.object < b) (hends : ∀ e ∈ d0.writeEnds, e < b)
    (hopen : ∀ n f, d0.files n = some f → (n : Int) ∈ x.opened m ∨
      ∀ i p o r, .spawned i p o r ∈ (x.loop m).log → (n : Int) ≠ o ∧ (n : Int) ≠ r)
    (hnat : ∀ i p o r, .spawned i p o r ∈ (x.loop m).log → 0 ≤ o ∧ 0 ≤ r) :
    ∃ d, Follows d0 (x.loop m).log d := by
  have ht := loop_told h
  have hl := Machine.loop_legal h
  generalize (x.loop m).log = l at ht hl hnat hopen
  suffices ∃ d b, Follows d0 l d ∧ Below b d by
    obtain ⟨d, -, hd, -⟩ := this
    exact ⟨d, hd⟩
  induction l with
  | nil => exact ⟨d0, b, .begin, hfin, hends⟩
  | cons e l ih =>
    obtain ⟨d, b', hd, hbel⟩ := ih ht.2 hl.2
      (fun i p o r hm => hnat i p o r (List.mem_cons_of_mem _ hm))
      (fun n f hf => (hopen n f hf).imp_right fun hn i p o r hm =>
        hn i p o r (List.mem_cons_of_mem _ hm))
    have hk := books hb hd
    cases e with
    | spawned i p o r =>
      obtain ⟨-, -, -, so, sr, hne⟩ := hl.1.2
      obtain ⟨t1, t2⟩ := ht.1
      obtain ⟨no, nr⟩ := hnat i p o r List.mem_cons_self
      obtain ⟨o', rfl⟩ := Int.eq_ofNat_of_zero_le no
      obtain ⟨r', rfl⟩ := Int.eq_ofNat_of_zero_le nr
      have free : ∀ n : Nat, stream l n = none → (n : Int) ∉ x.opened m → n = o' ∨ n = r' →
          d.files n = none := by
        intro n hn hm he
        rw [hk.same n hn]
        cases hf : d0.files n with
        | none => rfl
        | some f =>
          rcases hopen n f hf with h1 | h1
          · exact absurd h1 hm
          · have := h1 i p _ _ List.mem_cons_self
            omega
      have hbel' := hbel.mono (b' := max b' (max o' r' + 1)) (by omega)
      obtain ⟨a, d', c, p1, q1, hs, hr, rfl, rfl, hbl⟩ :=
        can_start hbel' (free o' so t1 (.inl rfl)) (free r' sr t2 (.inr rfl)) (by omega) (by omega) (by omega)
      exact ⟨d', _, .spawned hd hs hr, hbl⟩
    | spawnFailed i =>
      obtain ⟨a, hs, hr⟩ := can_fail d
      exact ⟨d, b', .spawnFailed hd hs hr, hbel⟩
    | hangup fd =>
      by_cases hn : ∃ n : Nat, fd = n ∧ n ∈ d.streams
      · obtain ⟨n, rfl, hn⟩ := hn
        refine ⟨_, b', .hangup hd (.hangup hn), ?_, hbel.ends⟩
        intro k f hf
        simp only [Files.close, Files.set] at hf
        split_ifs at hf
        exact hbel.files k f hf
      · exact ⟨d, b', .ignored hd fun n h1 h2 => hn ⟨n, h1, h2⟩, hbel⟩
    | report text =>
      obtain ⟨fd, object, hs⟩ := can_report hbel
      exact ⟨d, b', .report hd hs, hbel⟩
    | failed => exact ⟨d, b', .failed hd, hbel⟩
    | _ => exact ⟨d, b', .other hd rfl, hbel⟩

/-- C73: when a run has ended, cinit has the descriptors it had when it began to supervise. -/
theorem C73_tables_ended {x : Machine} {config : Config} {m : Manager} (h : x.manager config = .ok m)
    {code : Int} {w : World} (hr : x.loop m = .ok code w) (hc : code ≠ 3) {d0 d : State}
    (hb : d0.streams = []) (hd : Follows d0 w.log d) : d.files = d0.files := by
  refine C73_tables_restored hb hd ?_
  have hg := Machine.loop_good h
  rw [hr] at hg
  obtain ⟨hleg, past', he⟩ := hg
  rw [he] at hleg
  have hex : Rule (x.setting config m) past' (.exit code) := hleg.1.2
  rcases hex with ⟨e, -⟩ | ⟨-, hst, -⟩
  · exact absurd e hc
  · intro fd
    rw [he]
    exact hst fd

/-- What has been followed to the end has been followed all the way. -/
theorem follows_before {d0 d : State} {later past : Log} (h : Follows d0 (later ++ past) d) :
    ∃ d1, Follows d0 past d1 := by
  induction later generalizing d with
  | nil => exact ⟨d, h⟩
  | cons e later ih =>
    cases h with
    | spawned h _ _ => exact ih h
    | spawnFailed h _ _ => exact ih h
    | hangup h _ => exact ih h
    | ignored h _ => exact ih h
    | report h _ => exact ih h
    | broken h _ => exact ih h
    | failed h => exact ih h
    | other h _ => exact ih h

/-- C64 and C68 for runs: a program that is started in the course of a run begins with the
descriptors cinit was started with, as far as they are inherited, and with the writing ends of its
two streams in place of its standard output and error; and none of these ends is held by
cinit afterwards, at any time. -/
theorem C64_run {t0 : Files} {d0 d : State} (h0 : ∀ n ≤ 2, t0 n ≠ none) (hr : Reachable t0 d0)
    {i : Nat} {pid fo fe : Int} {l later : Log}
    (hd : Follows d0 (later ++ .spawned i pid fo fe :: l) d) :
    ∃ (c : Files) (o e : Pipe), fo = o.readFd ∧ fe = e.readFd ∧
      (∀ n f, d.files n = some f → f.object ≠ o.writeEnd ∧ f.object ≠ e.writeEnd) ∧
      ∀ (ord : HashOrder) (reason : Str) (desc : Nat → Str) (disk : Disk) (p : Process)
        (s s' : Proc) (image : Image), s.files = c →
        Child.run ord reason desc disk p o.writeFd e.writeFd s = .executed image s' →
        ∀ n, image.files n = if n = 1 then some ⟨o.writeEnd, false⟩
          else if n = 2 then some ⟨e.writeEnd, false⟩ else t0.exec n := by
  have grow : ∀ {later l : Log} {d : State}, Follows d0 (later ++ l) d →
      ∃ d1, Follows d0 l d1 ∧ ∀ x ∈ d1.writeEnds, x ∈ d.writeEnds := by
    intro later l
    induction later with
    | nil => intro d h; exact ⟨d, h, fun _ h => h⟩
    | cons e later ih =>
      intro d h
      have keep : ∀ {d1 d2 : State} {op : Op}, Step d1 op d2 →
          ∀ x ∈ d1.writeEnds, x ∈ d2.writeEnds := by
        intro d1 d2 op hs x hx
        cases hs with
        | start => exact List.mem_append_left _ hx
        | _ => exact hx
      have via : ∀ {d1 : State}, Follows d0 (later ++ l) d1 → (∀ x ∈ d1.writeEnds, x ∈ d.writeEnds) →
          ∃ d1, Follows d0 l d1 ∧ ∀ x ∈ d1.writeEnds, x ∈ d.writeEnds := by
        intro d1 h1 h2
        obtain ⟨d3, h3, h4⟩ := ih h1
        exact ⟨d3, h3, fun x hx => h2 x (h4 x hx)⟩
      cases h with
      | spawned h hs _ => exact via h (keep hs)
      | spawnFailed h hs _ => exact via h (keep hs)
      | hangup h hs => exact via h (keep hs)
      | ignored h _ => exact via h fun _ h => h
      | report h hs => exact via h (keep hs)
      | broken h hs => exact via h (keep hs)
      | failed h => exact via h fun _ h => h
      | other h _ => exact via h fun _ h => h
  obtain ⟨d1, h1, h2⟩ := grow hd
  have hreach := follows_reachable hr hd
  cases h1 with
  | @spawned _ d2 _ a c o e _ _ h3 hs hst =>
    have hrd := follows_reachable hr h3
    cases hs with
    | @start _ t r hf hstart =>
      rw [hstart] at hst
      simp only at hst
      subst hst
      obtain ⟨p1, p2, -⟩ := start_some hf hstart
      refine ⟨c, o, e, rfl, rfl, ?_, ?_⟩
      · intro n f hn
        have := C68_cinit hreach hn
        constructor <;> intro he <;> apply this <;> apply h2 <;> simp [p1, p2, he]
      · intro ord reason desc disk p s s' image hc h n
        exact C64_descriptors h0 hrd hf hstart hc h n
  | other _ he => cases he

/-! ## A run -/

/-- The descriptors of cinit on the concrete machine, before and after it has opened its own. -/
def tableAt (k : Nat) : State :=
  { files := fun n => if n < k then some ⟨n, decide (3 ≤ n)⟩ else none }

theorem tableAt_open {k : Nat} (hk : 3 ≤ k) : Step (tableAt k) (.open k k) (tableAt (k + 1)) := by
  have h : New (tableAt k) k k := by
    refine ⟨by simp [tableAt], by simp [tableAt], ?_⟩
    intro n f hf he
    simp only [tableAt] at hf
    split_ifs at hf
    cases hf
    simp only at he
    omega
  have hs := Step.open h
  have : { tableAt k with files := (tableAt k).files.set k (some ⟨k, true⟩) } = tableAt (k + 1) := by
    simp only [tableAt, State.mk.injEq, and_true]
    funext n
    simp only [Files.set]
    split_ifs with h1 h2 h3
    · subst h1; simp [hk]
    · omega
    · rfl
    · omega
    · omega
    · rfl
  rw [this] at hs
  exact hs

/-- The hypotheses of the theorems are met in the run `cut_ends`. -/
example : Reachable (tableAt 3).files (tableAt 6) ∧ (∀ n ≤ 2, (tableAt 3).files n ≠ none) ∧
    ∃ m w d, (machine cutAnswers).manager ⟨[prog 'a' .oneshot]⟩ = .ok m ∧
      (machine cutAnswers).loop m = .ok 0 w ∧ Follows (tableAt 6) w.log d ∧
      d.files = (tableAt 6).files := by
  refine ⟨(((Reachable.init (t0 := (tableAt 3).files)).step (tableAt_open (le_refl 3))).step
    (tableAt_open (by omega))).step (tableAt_open (by omega)), ?_, ?_⟩
  · intro n hn
    simp only [tableAt]
    rw [if_pos (by omega)]
    simp
  obtain ⟨m, w, h1, h2, h3⟩ := cut_ends.exited
  have hlog : ((machine cutAnswers).loop m).log = w.log := by rw [h2]; rfl
  obtain ⟨d, hd⟩ := C73_follows (d0 := tableAt 6) (b := 6) h1 rfl
    (by
      intro n f hf
      simp only [tableAt] at hf
      split_ifs at hf
      cases hf
      simp only
      omega)
    (by simp [tableAt])
    (by
      intro n f hf
      refine .inr ?_
      simp only [tableAt] at hf
      split_ifs at hf with hn
      intro i p o r hm
      rw [hlog, h3] at hm
      simp at hm
      omega)
    (by
      intro i p o r hm
      rw [hlog, h3] at hm
      simp at hm
      omega)
  rw [hlog] at hd
  exact ⟨m, w, d, h1, h2, hd, C73_tables_ended h1 h2 (by decide) rfl hd⟩

end Cinit.Props
