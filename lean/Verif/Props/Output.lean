import Verif.Props.Runs
import Verif.Proofs.Service
import Verif.Proofs.Lines
import Verif.Proofs.Utf8
/-!
# C43: the output of programs
-/

namespace Cinit.Props

open Cinit Spec

/-- The lines among some events that belong to a name and stream. -/
def dueLines (name : Str) (out : Bool) (es : List Event) : List Str :=
  es.filterMap fun e => match e with
    | .line o n t => if o = out ∧ n = name then some t else none
    | _ => none

theorem dueLines_sent {name : Str} {out : Bool} {α : Type} (l : List α) (f : α → Int × Nat) :
    dueLines name out (l.map fun a => .sent (f a).1 (f a).2) = [] := by
  unfold dueLines
  rw [List.filterMap_map]
  exact List.filterMap_eq_nil_iff.mpr fun a _ => rfl

theorem dueLines_lines (name : Str) (out : Bool) (o : Bool) (n : Str) (ts : List Str) :
    dueLines name out (ts.map fun t => .line o n t) = if o = out ∧ n = name then ts else [] := by
  unfold dueLines
  rw [List.filterMap_map]
  split
  · rename_i h
    induction ts with
    | nil => rfl
    | cons t ts ih =>
      rw [List.filterMap_cons_some (b := t) (by simp [h]), ih]
  · rename_i h
    refine List.filterMap_eq_nil_iff.mpr fun a _ => ?_
    simp only [Function.comp_apply]
    rw [if_neg h]

/-- What cinit makes of one read. -/
def linesOfChunk (b : List Nat) : List Str :=
  (lines (fromUtf8Lossy b)).filter (fun t => !t.isEmpty)

/-- What has been logged and what is still to be logged is what has been read. -/
theorem logged_and_due {X : Setting} (hu : UniqueNames X.programs) {i : Nat} {c : ProcessConfig}
    (hc : X.programs[i]? = some c) (out : Bool) {l : Log} (hl : Always (Legal X) l) :
    linesLogged c.name out l ++ dueLines c.name out (obligations X.programs l) =
      (bytesRead i out l).flatMap linesOfChunk := by
  induction l with
  | nil => rfl
  | cons e l ih =>
    specialize ih hl.2
    obtain ⟨⟨⟨hd, -⟩, hr⟩, hl'⟩ := hl
    unfold obligations
    cases ho : obligations X.programs l with
    | cons x rest =>
      rw [ho] at hd ih
      simp only at hd
      subst hd
      have hre : isReaction e := obligations_isReaction e (by rw [ho]; simp)
      cases e with
      | sent p n =>
        rw [show dueLines c.name out (.sent p n :: rest) = dueLines c.name out rest from rfl] at ih
        exact ih
      | line o n t =>
        simp only [linesLogged, bytesRead]
        rw [← ih]
        unfold dueLines
        rw [List.filterMap_cons]
        split
        · rename_i h
          simp [h]
        · rename_i h
          simp [h]
      | _ => exact hre.elim
    | nil =>
      rw [ho] at hd ih
      simp only at hd
      rw [show dueLines c.name out [] = [] from rfl, List.append_nil] at ih
      cases e with
      | sent p n => exact absurd trivial hd
      | line o n t => exact absurd trivial hd
      | signal n =>
        simp only [linesLogged, bytesRead, ih, reaction]
        split
        · rw [dueLines_sent _ (fun i => (mainPid X.programs l i, n)), List.append_nil]
        · split
          · rw [dueLines_sent _ (fun i => (mainPid X.programs l i, Signal.int)), List.append_nil]
          · simp [dueLines]
      | waited p rc who =>
        simp only [linesLogged, bytesRead, ih, reaction]
        split
        · rw [dueLines_sent _ (fun i => (mainPid X.programs l i, Signal.int)), List.append_nil]
        · simp [dueLines]
      | chunk fd b =>
        obtain ⟨⟨j, o⟩, hs⟩ := hr
        have hj := stream_lt hl' hs
        have hcj : X.programs[j]? = some X.programs[j] := List.getElem?_eq_getElem hj
        simp only [linesLogged, bytesRead, ih, reaction, hs, hcj, Option.map_some,
          Option.getD_some]
        rw [dueLines_lines]
        have hiff : (o = out ∧ X.programs[j].name = c.name) ↔ (j, o) = (i, out) := by
          rw [Prod.mk.injEq]
          constructor
          · rintro ⟨h1, h2⟩
            refine ⟨?_, h1⟩
            have hi := (List.getElem?_eq_some_iff.mp hc)
            obtain ⟨hi, rfl⟩ := hi
            have := (List.nodup_iff_injective_getElem.mp hu)
            have := @this ⟨j, by simpa using hj⟩ ⟨i, by simpa using hi⟩ (by simpa using h2)
            simpa using this
          · rintro ⟨rfl, rfl⟩
            rw [hcj] at hc
            cases hc
            exact ⟨rfl, rfl⟩
        simp only [Option.some.injEq, hiff]
        split
        · rw [List.flatMap_append]
          simp [linesOfChunk]
        · rw [List.append_nil]
      | _ => simpa [linesLogged, bytesRead, reaction, dueLines] using ih

variable {x : Machine} {config : Config} {m : Manager} (h : x.manager config = .ok m)

include h

theorem unique_names : UniqueNames (x.setting config m).programs :=
  (buildDependencyManager_ok (Machine.manager_ok h).2.1).1

/-- C43: whenever cinit does anything else than logging output or sending signals, the lines
logged under the name of a program for one of its streams are exactly the nonempty lines of
what has been read from this stream, in the order of reading. -/
theorem C43_lines {e : Event} {past : Log} (he : Happened (x.loop m).log e past)
    (hn : ¬ isReaction e) {i : Nat} {c : ProcessConfig} (hc : config.programs[i]? = some c)
    (out : Bool) :
    linesLogged c.name out past =
      (bytesRead i out past).flatMap fun b => (lines (fromUtf8Lossy b)).filter (!·.isEmpty) := by
  have hb := before h he
  have hcalm := calm_before h he hn
  have := logged_and_due (unique_names h) hc out hb
  rw [show (x.setting config m).programs = config.programs from rfl, hcalm] at this
  rw [show dueLines c.name out [] = [] from rfl, List.append_nil] at this
  exact this

/-- No line is empty or contains a line feed. -/
theorem C43_single_lines {e : Event} {past : Log} (he : Happened (x.loop m).log e past)
    (hn : ¬ isReaction e) {i : Nat} {c : ProcessConfig} (hc : config.programs[i]? = some c)
    (out : Bool) : ∀ t ∈ linesLogged c.name out past, t ≠ [] ∧ '\n' ∉ t := by
  intro t ht
  rw [C43_lines h he hn hc, List.mem_flatMap] at ht
  obtain ⟨b, -, ht⟩ := ht
  rw [List.mem_filter] at ht
  refine ⟨?_, not_mem_lines ht.1⟩
  rintro rfl
  simp at ht

/-- C43 for output that is UTF-8 with no character cut by the boundaries of the reads: the
text written, without its line ends, is what is logged. Missing: characters cut by the
boundary of a read (`C43_violated`). -/
theorem C43_text_partial {e : Event} {past : Log} (he : Happened (x.loop m).log e past)
    (hn : ¬ isReaction e) {i : Nat} {c : ProcessConfig} (hc : config.programs[i]? = some c)
    (out : Bool) {texts : List Str} (ht : bytesRead i out past = texts.map encode) :
    (linesLogged c.name out past).flatten = texts.flatMap unterminated := by
  rw [C43_lines h he hn hc, ht]
  clear ht
  induction texts with
  | nil => rfl
  | cons t texts ih =>
    rw [List.map_cons, List.flatMap_cons, List.flatten_append, ih, List.flatMap_cons,
      fromUtf8Lossy_encode, flatten_filter_nonempty, flatten_lines]

/-- C43 for arbitrary bytes: each read is decoded on its own, and what it is shown as (`ShownAs`:
each longest part that is no character is shown as one U+FFFD), without its line ends, is what is
logged. -/
theorem C43_decoded {e : Event} {past : Log} (he : Happened (x.loop m).log e past)
    (hn : ¬ isReaction e) {i : Nat} {c : ProcessConfig} (hc : config.programs[i]? = some c)
    (out : Bool) {texts : List Str} (ht : List.Forall₂ ShownAs (bytesRead i out past) texts) :
    (linesLogged c.name out past).flatten = texts.flatMap unterminated := by
  rw [C43_lines h he hn hc]
  generalize bytesRead i out past = bs at ht ⊢
  induction ht with
  | nil => rfl
  | cons h1 _ ih =>
    rw [List.flatMap_cons, List.flatten_append, ih, List.flatMap_cons, shownAs_iff.mp h1,
      flatten_filter_nonempty, flatten_lines]

/-- C43 for the ASCII characters of arbitrary bytes, however they are cut into reads: apart from
carriage returns and line feeds they are logged, each once and in order, and no others are. -/
theorem C43_ascii {e : Event} {past : Log} (he : Happened (x.loop m).log e past)
    (hn : ¬ isReaction e) {i : Nat} {c : ProcessConfig} (hc : config.programs[i]? = some c)
    (out : Bool) :
    ((linesLogged c.name out past).flatten.filter (· ≠ '\r')).filter (fun c => c.toNat < 128) =
      (((bytesRead i out past).flatten.filter (· < 128)).map Char.ofNat).filter
        (fun c => c ≠ '\r' ∧ c ≠ '\n') := by
  rw [C43_lines h he hn hc]
  generalize bytesRead i out past = bs
  induction bs with
  | nil => rfl
  | cons b bs ih =>
    rw [List.flatMap_cons, List.flatten_append, List.filter_append, List.filter_append, ih,
      flatten_filter_nonempty, flatten_lines, filter_unterminated, List.flatten_cons,
      List.filter_append, List.map_append, List.filter_append, List.filter_comm]
    congr 2
    exact decoded_ascii (decoded_utf8 b)

omit h in
theorem encode_ascii {b : List Nat} (hb : ∀ n ∈ b, n < 128) : b = encode (b.map Char.ofNat) := by
  induction b with
  | nil => rfl
  | cons n b ih =>
    rw [List.map_cons]
    show _ = encodeChar _ ++ encode _
    rw [← ih fun k hk => hb k (by simp [hk])]
    have hn := hb n (by simp)
    unfold encodeChar
    rw [toNat_ofNat' (by omega), if_pos hn]
    rfl

/-- C43 for ASCII output, however it is cut into reads: the characters of the output, apart
from carriage returns and line feeds, are the characters logged, in the same order. -/
theorem C43_ascii_partial {e : Event} {past : Log} (he : Happened (x.loop m).log e past)
    (hn : ¬ isReaction e) {i : Nat} {c : ProcessConfig} (hc : config.programs[i]? = some c)
    (out : Bool) (ha : ∀ n ∈ (bytesRead i out past).flatten, n < 128) :
    (linesLogged c.name out past).flatten.filter (· ≠ '\r') =
      ((bytesRead i out past).flatten.map Char.ofNat).filter (fun c => c ≠ '\r' ∧ c ≠ '\n') := by
  have ht : bytesRead i out past = ((bytesRead i out past).map (·.map Char.ofNat)).map encode := by
    rw [List.map_map]
    conv_lhs => rw [← List.map_id (bytesRead i out past)]
    refine List.map_congr_left fun b hb => ?_
    exact encode_ascii fun n hn => ha n (List.mem_flatten.mpr ⟨b, hb, hn⟩)
  rw [C43_text_partial h he hn hc out ht]
  generalize bytesRead i out past = bs
  clear ht ha
  induction bs with
  | nil => rfl
  | cons b bs ih =>
    rw [List.map_cons, List.flatMap_cons, List.filter_append, ih, filter_unterminated,
      List.flatten_cons, List.map_append, List.filter_append]

omit h in
private theorem none_mem_utf8 {b : List Nat} (hb : ∀ t, b ≠ encode t) : none ∈ utf8 b := by
  have key : ∀ l : List (Option Char), sequence l = none → none ∈ l := by
    intro l hl
    induction l with
    | nil => cases hl
    | cons o l ih =>
      cases o with
      | none => exact List.mem_cons_self ..
      | some a =>
        simp only [sequence, Option.map_eq_none_iff] at hl
        exact List.mem_cons_of_mem _ (ih hl)
  exact key _ (fromUtf8_none.mpr hb)

omit h in
private theorem encode_inj {t t' : Str} (he : encode t = encode t') : t = t' := by
  rw [← fromUtf8Lossy_encode t, he, fromUtf8Lossy_encode]

/-- When C43 holds: for a text without U+FFFD, the characters logged, apart from carriage returns,
are those of the text without its carriage returns and line feeds exactly if no character is cut by
the boundary of a read. -/
theorem C43_exactly {e : Event} {past : Log} (he : Happened (x.loop m).log e past)
    (hn : ¬ isReaction e) {i : Nat} {c : ProcessConfig} (hc : config.programs[i]? = some c)
    (out : Bool) {text : Str} (ht : (bytesRead i out past).flatten = encode text)
    (hu : '\uFFFD' ∉ text) :
    (linesLogged c.name out past).flatten.filter (· ≠ '\r') =
        text.filter (fun c => c ≠ '\r' ∧ c ≠ '\n') ↔
      ∀ b ∈ bytesRead i out past, ∃ t, b = encode t := by
  constructor
  · intro hl b hb
    by_contra hno
    have hno : ∀ t, b ≠ encode t := fun t h' => hno ⟨t, h'⟩
    have h1 : '\uFFFD' ∈ fromUtf8Lossy b :=
      List.mem_map.mpr ⟨none, none_mem_utf8 hno, rfl⟩
    have h2 : '\uFFFD' ∈ (unterminated (fromUtf8Lossy b)).filter (· ≠ '\r') := by
      rw [filter_unterminated, List.mem_filter]
      exact ⟨h1, by decide⟩
    have h3 : '\uFFFD' ∈ (linesLogged c.name out past).flatten.filter (· ≠ '\r') := by
      rw [List.mem_filter] at h2 ⊢
      refine ⟨?_, h2.2⟩
      have h4 := h2.1
      rw [← flatten_lines, ← flatten_filter_nonempty, List.mem_flatten] at h4
      obtain ⟨w, hw, h4⟩ := h4
      rw [C43_lines h he hn hc]
      exact List.mem_flatten.mpr ⟨w, List.mem_flatMap.mpr ⟨b, hb, hw⟩, h4⟩
    rw [hl] at h3
    exact hu (List.mem_filter.mp h3).1
  · intro hall
    obtain ⟨texts, hts⟩ : ∃ texts : List Str, bytesRead i out past = texts.map encode := by
      clear ht
      generalize bytesRead i out past = bs at hall
      induction bs with
      | nil => exact ⟨[], rfl⟩
      | cons b bs ih =>
        obtain ⟨t, rfl⟩ := hall b (List.mem_cons_self ..)
        obtain ⟨ts, rfl⟩ := ih fun b hb => hall b (List.mem_cons_of_mem _ hb)
        exact ⟨t :: ts, rfl⟩
    have hflat : text = texts.flatten := by
      refine encode_inj ?_
      rw [← ht, hts]
      clear hts
      induction texts with
      | nil => rfl
      | cons t ts ih =>
        rw [List.map_cons, List.flatten_cons, ih, List.flatten_cons]
        simp [encode]
    rw [C43_text_partial h he hn hc out hts, hflat]
    clear hts hflat
    induction texts with
    | nil => rfl
    | cons t ts ih =>
      rw [List.flatMap_cons, List.filter_append, ih, filter_unterminated, List.flatten_cons,
        List.filter_append]

omit h in
/-- A stream that is not open any more has been closed after the kernel had said that it has
ended and there is nothing more to read. -/
theorem closed_properly {d : Inlets} {l : Log} (hs : Always (Serves d) l) {later past : Log}
    {i : Nat} {p o r : Int} (hl : l = later ++ .spawned i p o r :: past) {fd : Int}
    (hfd : fd = o ∨ fd = r) (hend : stream l fd = none) :
    ∃ a b, later = a ++ .hangup fd :: .ready ⟨fd, false, true⟩ :: b ∧ .hangup fd ∉ b := by
  subst hl
  -- the first hang-up after the start
  have key : ∀ later : Log, Always (Serves d) (later ++ .spawned i p o r :: past) →
      (.hangup fd ∉ later ∧ ∃ y, stream (later ++ .spawned i p o r :: past) fd = some y) ∨
      ∃ a b, later = a ++ .hangup fd :: .ready ⟨fd, false, true⟩ :: b ∧ .hangup fd ∉ b := by
    intro later
    induction later with
    | nil =>
      intro _
      refine .inl ⟨by simp, ?_⟩
      simp only [List.nil_append, stream]
      rcases hfd with rfl | rfl
      · exact ⟨_, if_pos rfl⟩
      · split
        · exact ⟨_, rfl⟩
        · exact ⟨_, if_pos rfl⟩
    | cons e later ih =>
      intro hs
      rcases ih hs.2 with ⟨h1, y, h2⟩ | ⟨a, b, h1, h2⟩
      · by_cases he : e = .hangup fd
        · subst he
          have hh : hand (later ++ .spawned i p o r :: past) = some ⟨fd, false, true⟩ := hs.1
          cases later with
          | nil => simp [hand] at hh
          | cons e' later =>
            refine .inr ⟨[], later, ?_, fun hm => h1 (by simp [hm])⟩
            cases e' with
            | ready ev =>
              simp only [List.cons_append, hand] at hh
              split at hh
              · cases hh; rfl
              · cases hh
            | _ => simp [hand] at hh
        · refine .inl ⟨by simp [h1, Ne.symm he], ?_⟩
          cases e with
          | spawned j q o' r' =>
            simp only [List.cons_append, stream]
            split
            · exact ⟨_, rfl⟩
            · split
              · exact ⟨_, rfl⟩
              · exact ⟨y, h2⟩
          | hangup g =>
            refine ⟨y, ?_⟩
            simp only [List.cons_append, stream]
            rw [if_neg (fun e => he (by rw [e])), h2]
          | _ => exact ⟨y, h2⟩
      · exact .inr ⟨e :: a, b, by rw [h1]; rfl, h2⟩
  rcases key later hs with ⟨-, y, h2⟩ | h2
  · rw [h2] at hend; cases hend
  · exact h2

/-- C43: a line is logged only right after, apart from other lines, output of a program was
read from this stream, under the name of this program, and it is one of the lines of what was
read. -/
theorem C43_nothing_else {out : Bool} {name t : Str} {past : Log}
    (he : Happened (x.loop m).log (.line out name t) past) :
    ∃ es fd b past' i c, past = es ++ .chunk fd b :: past' ∧
      (∀ e ∈ es, ∃ t', e = .line out name t') ∧ stream past' fd = some (i, out) ∧
      config.programs[i]? = some c ∧ c.name = name ∧ t ∈ lines (fromUtf8Lossy b) := by
  have hb := before h he
  obtain ⟨rest, hd⟩ := reaction_due (Machine.loop_legal h) he trivial
  rcases obligations_origin hb with h0 | ⟨es, e, past', h1, h2, -, h4⟩
  · rw [h0] at hd; cases hd
  · rw [hd] at h4
    have hno : ∀ {α : Type} (L : List α) (f : α → Int × Nat), L.map (fun a => Event.sent (f a).1 (f a).2) ≠
        es.reverse ++ .line out name t :: rest := by
      intro α L f hf
      have : Event.line out name t ∈ L.map (fun a => Event.sent (f a).1 (f a).2) := by
        rw [hf]; simp
      simp at this
    cases e with
    | signal n =>
      exfalso
      simp only [reaction] at h4
      split at h4
      · exact hno _ (fun i => (_, n)) h4
      · split at h4
        · exact hno _ (fun i => (_, Signal.int)) h4
        · simp at h4
    | waited p rc who =>
      exfalso
      simp only [reaction] at h4
      split at h4
      · exact hno _ (fun i => (_, Signal.int)) h4
      · simp at h4
    | chunk fd b =>
      subst h1
      have hb' := (always_of_suffix hb rfl)
      obtain ⟨⟨j, o⟩, hs⟩ := hb'.1.2
      have hj := stream_lt hb'.2 hs
      simp only [reaction, hs] at h4
      have hall : ∀ e ∈ es.reverse ++ .line out name t :: rest,
          ∃ t' ∈ lines (fromUtf8Lossy b), e =
            .line o (((x.setting config m).programs[j]?.map (·.name)).getD []) t' := by
        intro e hm
        rw [← h4, List.mem_map] at hm
        obtain ⟨t', h5, rfl⟩ := hm
        exact ⟨t', (List.mem_filter.mp h5).1, rfl⟩
      obtain ⟨t', h5, h6⟩ := hall (.line out name t) (by simp)
      simp only [Event.line.injEq] at h6
      obtain ⟨rfl, rfl, rfl⟩ := h6
      refine ⟨es, fd, b, past', j, (x.setting config m).programs[j], rfl, ?_, hs,
        List.getElem?_eq_getElem hj, ?_, h5⟩
      · intro e hm
        obtain ⟨t', -, h7⟩ := hall e (by simp [hm])
        exact ⟨t', h7⟩
      · rw [List.getElem?_eq_getElem hj]; rfl
    | _ => simp [reaction] at h4

/-- C43: both streams of each program started have been closed when cinit ends, and each has
been closed right after the kernel had said that it has ended and that there is nothing more to
read: reading has precedence. -/
theorem C43_until_end {code : Int} {w : World} (hr : x.loop m = .ok code w) (hc : code ≠ 3)
    {later past : Log} {i : Nat} {p o r fd : Int}
    (hl : w.log = later ++ .spawned i p o r :: past) (hfd : fd = o ∨ fd = r) :
    ∃ a b, later = a ++ .hangup fd :: .ready ⟨fd, false, true⟩ :: b ∧ .hangup fd ∉ b := by
  have hs := Machine.loop_serves x m
  rw [hr] at hs
  change Always _ w.log at hs
  have hg := Machine.loop_good h
  rw [hr] at hg
  obtain ⟨hleg, past', he⟩ := hg
  rw [he] at hleg
  have hex : Rule (x.setting config m) past' (.exit code) := hleg.1.2
  rcases hex with ⟨e, -⟩ | ⟨-, hst, -⟩
  · exact absurd e hc
  · refine closed_properly hs hl hfd ?_
    rw [he]
    exact hst fd

omit h

/-- C43 in full: however the output is cut into reads, its characters apart from carriage
returns and line feeds are logged, each once and in order. -/
def C43_statement : Prop :=
  ∀ (x : Machine) (config : Config) (m : Manager) (code : Int) (w : World),
    x.manager config = .ok m → x.loop m = .ok code w → code ≠ 3 →
    ∀ i c out text, config.programs[i]? = some c →
      (bytesRead i out w.log).flatten = encode text →
      (linesLogged c.name out w.log).flatten.filter (· ≠ '\r') =
        text.filter (fun c => c ≠ '\r' ∧ c ≠ '\n')

/-- A program writes `hé`, which is cut into two reads. -/
def cutAnswers : List Answer :=
  [.setup true, .fork (some (10, 20, 21)), .epollAdd true, .epollAdd true, .now 1,
   .epoll (some [⟨20, true, false⟩]), .read (some [0x68, 0xC3]), .wait .alive, .now 2,
   .epoll (some [⟨20, true, true⟩]), .read (some [0xA9]), .wait (.exited 10 0), .wait .error,
   .now 3, .epoll (some [⟨20, false, true⟩, ⟨21, false, true⟩]), .wait .error]

theorem cut_ends : Ends (machine cutAnswers) ⟨[prog 'a' .oneshot]⟩
    (.exited 0 [.exit 0, .reaped, .hangup 21, .ready ⟨21, false, true⟩,
      .hangup 20, .ready ⟨20, false, true⟩, .polled [⟨20, false, true⟩, ⟨21, false, true⟩],
      .polling, .clock 3, .reaped, .waited 10 0 (some 0),
      .line true ['a'] ['\uFFFD'], .chunk 20 [0xA9], .ready ⟨20, true, true⟩,
      .polled [⟨20, true, true⟩], .polling, .clock 2, .reaped,
      .line true ['a'] ['h', '\uFFFD'], .chunk 20 [0x68, 0xC3], .ready ⟨20, true, false⟩,
      .polled [⟨20, true, false⟩], .polling, .clock 1,
      .watched 21 true, .watched 20 true, .spawned 0 10 20 21]) :=
  Res.of_check (by decide +kernel)

/-- C43 is false: a character whose bytes are read in two parts is lost. -/
theorem C43_violated : ¬ C43_statement := by
  intro h
  obtain ⟨m, w, h1, h2, h3⟩ := cut_ends.exited
  have := h _ _ m 0 w h1 h2 (by decide) 0 _ true ['h', 'é'] rfl
    (by rw [h3]; decide +kernel)
  rw [h3] at this
  revert this
  decide +kernel

/-- Witness for `C43_decoded`, `C43_ascii` and `C43_exactly`: the two reads of `cut_ends`. -/
example : List.Forall₂ ShownAs [[0x68, 0xC3], [0xA9]] [['h', '\uFFFD'], ['\uFFFD']] :=
  .cons (shownAs_iff.mpr (by decide +kernel)) (.cons (shownAs_iff.mpr (by decide +kernel)) .nil)

/-- Witness for `C43_lines`, `C43_text_partial`, `C43_ascii_partial` and `C43_until_end`: in the
run `three_ends` program 1 writes two lines. -/
example : bytesRead 1 true threeLog = ["hello\nwor".toList].map encode ∧
    linesLogged ['b'] true threeLog = ["hello".toList, "wor".toList] ∧
    (["hello\nwor".toList].flatMap unterminated) = "hellowor".toList := by decide +kernel

end Cinit.Props
