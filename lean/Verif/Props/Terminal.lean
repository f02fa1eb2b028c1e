import Verif.Props.Output
import Verif.Spec.Terminal
/-!
# C80, C81: terminals of programs
-/

namespace Cinit.Props

open Cinit Spec Tty

theorem bits_of_check {n : Nat} {l : List Nat} (hn : n < 2 ^ 16) (hl : ∀ k ∈ l, k < 16)
    (h : ∀ k < 16, n.testBit k = true ↔ k ∈ l) : Bits n l := by
  intro k
  by_cases hk : k < 16
  · exact h k hk
  · constructor
    · intro ht
      have : n < 2 ^ k := Nat.lt_of_lt_of_le hn (Nat.pow_le_pow_right (by decide) (by omega))
      rw [Nat.testBit_lt_two_pow this] at ht
      cases ht
    · intro hm
      exact absurd (hl k hm) hk

theorem set_settings (std : Termios) (own : Option Termios) :
    Set std own ((own.map settings).getD std) := by
  cases own with
  | none => rfl
  | some o =>
    have h1 : Bits (BRKINT ||| ICRNL ||| INPCK ||| ISTRIP ||| IXON) [1, 4, 5, 8, 10] :=
      bits_of_check (by decide) (by decide) (by decide)
    have h2 : Bits OPOST [0] := bits_of_check (by decide) (by decide) (by decide)
    have h3 : Bits (ECHO ||| ICANON ||| IEXTEN ||| ISIG) [0, 1, 3, 15] :=
      bits_of_check (by decide) (by decide) (by decide)
    exact ⟨h1, h2, h3, rfl, rfl⟩

section

variable {std : Termios} {uid gid : Nat} {a : Answers} {k k' : List Pty}

theorem map_id' {f : Pty → Pty} {k : List Pty} (h : ∀ t ∈ k, f t = t) : k.map f = k := by
  conv_rhs => rw [← List.map_id k]
  exact List.map_congr_left h

theorem chown_new {k : List Pty} {name : Str} (h : ∀ t ∈ k, t.name ≠ name) :
    chown k name uid gid = k := map_id' fun t ht => if_neg (h t ht)

theorem fchmod_new {k : List Pty} {fd mode : Nat} (h : ∀ t ∈ k, t.slave ≠ fd) :
    fchmod k fd mode = k := map_id' fun t ht => if_neg (h t ht)

theorem drop_new {k : List Pty} {t : Pty} (h : ∀ t' ∈ k, t'.master ≠ t.master) : drop k t = k :=
  List.filter_eq_self.mpr fun t' ht => by simpa using h t' ht

/-- What `createPtys` does, on one line each. -/
theorem createPtys_cases (hf : NewPtys k a) :
    (createPtys std uid gid a k = (k, none) ∧
      ¬ (a.pty1.isSome ∧ a.pty2.isSome ∧ a.name1 ∧ a.name2 ∧ a.chown1 ∧ a.chown2 ∧ a.chmod1 ∧
        a.chmod2)) ∨
    ∃ n1 n2, a.pty1 = some n1 ∧ a.pty2 = some n2 ∧
      createPtys std uid gid a k =
        ({ openpty std n2 (a.size.getD defaultSize) (a.attr.map settings) with
             uid := uid, gid := gid, mode := Tty.mode } ::
         { openpty std n1 (a.size.getD defaultSize) (a.attr.map settings) with
             uid := uid, gid := gid, mode := Tty.mode } :: k,
         some ((n1.master, n1.slave), (n2.master, n2.slave))) := by
  obtain ⟨hf1, hf2, hf3⟩ := hf
  unfold createPtys
  cases hp1 : a.pty1 with
  | none => exact .inl ⟨rfl, by simp⟩
  | some n1 =>
    have hf1 := hf1 n1 hp1
    cases hp2 : a.pty2 with
    | none =>
      refine .inl ⟨?_, by simp⟩
      simp only
      rw [show drop (openpty std n1 (a.size.getD defaultSize) (a.attr.map settings) :: k)
        (openpty std n1 (a.size.getD defaultSize) (a.attr.map settings)) = drop k
        (openpty std n1 (a.size.getD defaultSize) (a.attr.map settings)) by simp [drop]]
      rw [drop_new fun t ht => (hf1 t ht).2.2]
    | some n2 =>
      have hf2 := hf2 n2 hp2
      have hf3 := hf3 n1 n2 hp1 hp2
      simp only
      generalize hs : a.size.getD defaultSize = size
      generalize ht : a.attr.map settings = termios
      have hdrop : ∀ u v : Pty, u.master = n2.master → v.master = n1.master →
          drop (drop (u :: v :: k) (openpty std n2 size termios))
            (openpty std n1 size termios) = k := by
        intro u v hu hv
        have e1 : drop (u :: v :: k) (openpty std n2 size termios) = v :: k := by
          unfold drop
          rw [List.filter_cons_of_neg (by simp [openpty, hu]),
            List.filter_cons_of_pos (by simp [openpty, hv, hf3.2.2])]
          rw [List.filter_eq_self.mpr fun t ht => by simpa [openpty] using (hf2 t ht).2.2]
        have e2 : drop (v :: k) (openpty std n1 size termios) = k := by
          unfold drop
          rw [List.filter_cons_of_neg (by simp [openpty, hv])]
          exact List.filter_eq_self.mpr fun t ht => by simpa [openpty] using (hf1 t ht).2.2
        rw [e1, e2]
      have hname1 : ttyname (openpty std n2 size termios :: openpty std n1 size termios :: k)
          n1.slave = some n1.name := by
        unfold ttyname
        rw [List.find?_cons_of_neg (by simp [openpty, Ne.symm hf3.2.1]),
          List.find?_cons_of_pos (by simp [openpty])]
        rfl
      have hname2 : ttyname (openpty std n2 size termios :: openpty std n1 size termios :: k)
          n2.slave = some n2.name := by
        unfold ttyname
        rw [List.find?_cons_of_pos (by simp [openpty])]
        rfl
      by_cases h1 : a.name1 = true
      swap
      · refine .inl ⟨?_, by simp [h1]⟩
        rw [if_neg h1]
        simp only
        rw [hdrop _ _ rfl rfl]
      by_cases h2 : a.name2 = true
      swap
      · refine .inl ⟨?_, by simp [h2]⟩
        rw [if_pos h1, if_neg h2, show (openpty std n1 size termios).slave = n1.slave from rfl,
          hname1]
        simp only
        rw [hdrop _ _ rfl rfl]
      rw [if_pos h1, if_pos h2, show (openpty std n1 size termios).slave = n1.slave from rfl,
        show (openpty std n2 size termios).slave = n2.slave from rfl, hname1, hname2]
      simp only
      by_cases h3 : a.chown1 = true
      swap
      · refine .inl ⟨?_, by simp [h3]⟩
        rw [if_pos h3, hdrop _ _ rfl rfl]
      rw [if_neg (by simpa using h3)]
      have hc1 : chown (openpty std n2 size termios :: openpty std n1 size termios :: k) n1.name
          uid gid = openpty std n2 size termios ::
            { openpty std n1 size termios with uid := uid, gid := gid } :: k := by
        have := chown_new (uid := uid) (gid := gid) fun t ht => (hf1 t ht).1
        unfold chown at this ⊢
        simp [this, openpty, Ne.symm hf3.1]
      rw [hc1]
      by_cases h4 : a.chown2 = true
      swap
      · refine .inl ⟨?_, by simp [h4]⟩
        rw [if_pos h4, hdrop _ _ rfl rfl]
      rw [if_neg (by simpa using h4)]
      have hc2 : chown (openpty std n2 size termios ::
          { openpty std n1 size termios with uid := uid, gid := gid } :: k) n2.name
          uid gid = { openpty std n2 size termios with uid := uid, gid := gid } ::
            { openpty std n1 size termios with uid := uid, gid := gid } :: k := by
        have := chown_new (uid := uid) (gid := gid) fun t ht => (hf2 t ht).1
        unfold chown at this ⊢
        simp [this, openpty, hf3.1]
      rw [hc2]
      by_cases h5 : a.chmod1 = true
      swap
      · refine .inl ⟨?_, by simp [h5]⟩
        rw [if_pos h5, hdrop _ _ rfl rfl]
      rw [if_neg (by simpa using h5)]
      have hm1 : fchmod ({ openpty std n2 size termios with uid := uid, gid := gid } ::
            { openpty std n1 size termios with uid := uid, gid := gid } :: k) n1.slave Tty.mode =
          { openpty std n2 size termios with uid := uid, gid := gid } ::
            { openpty std n1 size termios with uid := uid, gid := gid, mode := Tty.mode } :: k := by
        have := fchmod_new (mode := Tty.mode) fun t ht => (hf1 t ht).2.1
        unfold fchmod at this ⊢
        simp [this, openpty, Ne.symm hf3.2.1]
      rw [hm1]
      by_cases h6 : a.chmod2 = true
      swap
      · refine .inl ⟨?_, by simp [h6]⟩
        rw [if_pos h6, hdrop _ _ rfl rfl]
      rw [if_neg (by simpa using h6)]
      refine .inr ⟨n1, n2, rfl, rfl, ?_⟩
      have hm2 : fchmod ({ openpty std n2 size termios with uid := uid, gid := gid } ::
            { openpty std n1 size termios with uid := uid, gid := gid, mode := Tty.mode } :: k)
            n2.slave Tty.mode =
          { openpty std n2 size termios with uid := uid, gid := gid, mode := Tty.mode } ::
            { openpty std n1 size termios with uid := uid, gid := gid, mode := Tty.mode } :: k := by
        have := fchmod_new (mode := Tty.mode) fun t ht => (hf2 t ht).2.1
        unfold fchmod at this ⊢
        simp [this, openpty, hf3.2.1]
      rw [hm2]
      rfl

/-- C80: a program with `pty` gets two new terminals, which belong to its user and group and are
set up as promised. Nothing else changes. -/
theorem C80_terminals (hf : NewPtys k a) {o e : Nat × Nat}
    (h : createPtys std uid gid a k = (k', some (o, e))) :
    ∃ out err, k' = err :: out :: k ∧ o = (out.master, out.slave) ∧ e = (err.master, err.slave) ∧
      (∃ n1 n2, a.pty1 = some n1 ∧ a.pty2 = some n2 ∧ out.name = n1.name ∧ o = (n1.master, n1.slave)
        ∧ err.name = n2.name ∧ e = (n2.master, n2.slave)) ∧
      Proper std uid gid a.attr a.size out ∧ Proper std uid gid a.attr a.size err := by
  have hmode : Bits Tty.mode [4, 7, 8] := bits_of_check (by decide) (by decide) (by decide)
  have hsize : a.size.getD defaultSize = (match a.size with
      | some s => s
      | none => ⟨24, 80, 0, 0⟩) := by cases a.size <;> rfl
  rcases createPtys_cases (std := std) (uid := uid) (gid := gid) hf with
    ⟨h1, -⟩ | ⟨n1, n2, h1, h2, h3⟩
  · rw [h1] at h; cases h
  · rw [h3] at h
    cases h
    exact ⟨_, _, rfl, rfl, rfl, ⟨n1, n2, h1, h2, rfl, rfl, rfl, rfl⟩,
      ⟨rfl, rfl, hmode, hsize, set_settings std a.attr⟩,
      ⟨rfl, rfl, hmode, hsize, set_settings std a.attr⟩⟩

/-- C80: if something fails, no terminal is left over. -/
theorem C80_failed (hf : NewPtys k a) (h : createPtys std uid gid a k = (k', none)) : k' = k := by
  rcases createPtys_cases (std := std) (uid := uid) (gid := gid) hf with
    ⟨h1, -⟩ | ⟨n1, n2, -, -, h3⟩
  · rw [h1] at h; cases h; rfl
  · rw [h3] at h; cases h

/-- C80: if nothing fails, the terminals are created, whether cinit has got a terminal or not. -/
theorem C80_succeeds (hf : NewPtys k a) (h1 : a.pty1.isSome) (h2 : a.pty2.isSome) (h3 : a.name1)
    (h4 : a.name2) (h5 : a.chown1) (h6 : a.chown2) (h7 : a.chmod1) (h8 : a.chmod2) :
    ∃ k' o e, createPtys std uid gid a k = (k', some (o, e)) := by
  rcases createPtys_cases (std := std) (uid := uid) (gid := gid) hf with
    ⟨-, h⟩ | ⟨n1, n2, -, -, h⟩
  · exact absurd ⟨h1, h2, h3, h4, h5, h6, h7, h8⟩ h
  · exact ⟨_, _, _, h⟩

/-- Witness for C80. -/
example : let a : Answers := { attr := none, size := none, pty1 := some ⟨['0'], 7, 8, 0, 5, 0⟩,
                               pty2 := some ⟨['1'], 9, 10, 0, 5, 0⟩ }
    NewPtys [] a ∧ ∃ k' o e, createPtys linux 33 34 a [] = (k', some (o, e)) := by
  intro a
  have hf : NewPtys [] a := by
    refine ⟨by simp, by simp, ?_⟩
    rintro n n' ⟨⟩ ⟨⟩
    exact ⟨by decide, by decide, by decide⟩
  exact ⟨hf, C80_succeeds hf rfl rfl rfl rfl rfl rfl rfl rfl⟩

end

/-! ## C81: output through terminals -/

/-- What a terminal makes of a text. -/
def throughTty (t : Termios) (text : Str) : Str :=
  if t.output.testBit 0 ∧ t.output.testBit 2 then
    text.flatMap fun c => if c = '\n' then ['\r', '\n'] else [c]
  else text

theorem output_encode (t : Termios) (text : Str) :
    output t (encode text) = encode (throughTty t text) := by
  unfold output throughTty
  split
  · induction text with
    | nil => rfl
    | cons c text ih =>
      rw [List.flatMap_cons]
      have e1 : ∀ (c : Char) (t : Str), encode (c :: t) = encodeChar c ++ encode t := fun _ _ => rfl
      have e2 : ∀ (s t : Str), encode (s ++ t) = encode s ++ encode t := fun s t => by
        simp [encode]
      rw [e1, e2, List.flatMap_append, ih]
      congr 1
      by_cases hc : c = '\n'
      · subst hc; rfl
      · rw [if_neg hc]
        have e3 : encode [c] = encodeChar c := by simp [encode]
        rw [e3]
        conv_rhs => rw [← List.flatMap_singleton' (encodeChar c)]
        refine List.flatMap_congr fun b hb => ?_
        rw [if_neg]
        rintro rfl
        have hm : 10 ∈ (encodeChar c).filter (· < 128) := List.mem_filter.mpr ⟨hb, by decide⟩
        rw [encodeChar_ascii] at hm
        split at hm
        · rw [List.mem_singleton] at hm
          exact hc (Char.toNat_inj.mp (by rw [← hm]; rfl))
        · cases hm
  · rfl

/-- No line ends with a carriage return. -/
def NoCr (text : Str) : Prop := ∀ w t, text ≠ w ++ '\r' :: '\n' :: t

/-- A terminal does not change the lines of a text. -/
theorem lines_throughTty (t : Termios) {text : Str} (h : NoCr text) :
    lines (throughTty t text) = lines text := by
  unfold throughTty
  split
  · have key : ∀ {ws : List Str} {text : Str}, LinesOf ws text → NoCr text →
        LinesOf ws (text.flatMap fun c => if c = '\n' then ['\r', '\n'] else [c]) := by
      intro ws text hl
      have plain : ∀ w : Str, '\n' ∉ w →
          (w.flatMap fun c => if c = '\n' then ['\r', '\n'] else [c]) = w := by
        intro w hw
        conv_rhs => rw [← List.flatMap_singleton' w]
        exact List.flatMap_congr fun c hc => if_neg (fun e : c = '\n' => hw (e ▸ hc))
      induction hl with
      | nil => intro _; exact .nil
      | last w h1 h2 => intro _; rw [plain w h2]; exact .last w h1 h2
      | lf w t ws h1 h2 _ ih =>
        intro hno
        rw [List.flatMap_append, plain w h1, List.flatMap_cons, if_pos rfl]
        refine .crlf w _ ws h1 (ih fun w' t' e => hno (w ++ '\n' :: w') t' ?_)
        rw [e]
        simp
      | crlf w t ws h1 _ _ =>
        intro hno
        exact absurd rfl (hno w t)
    exact (linesOf_iff.mp (key (lines_linesOf text) h)).symm
  · rfl

section

variable {x : Machine} {config : Config} {m : Manager} (h : x.manager config = .ok m)

include h

/-- C81: what a program writes to its terminal is logged as if it had written it to a pipe, read by
read. Missing: lines of the program that end with a carriage return, and reads that end between a
carriage return and a line feed (`C81_violated`). -/
theorem C81_lines_partial {e : Event} {past : Log} (he : Happened (x.loop m).log e past)
    (hn : ¬ isReaction e) {i : Nat} {c : ProcessConfig} (hc : config.programs[i]? = some c)
    (out : Bool) (t : Termios) {texts : List Str} (hno : ∀ s ∈ texts, NoCr s)
    (ht : bytesRead i out past = texts.map fun s => output t (encode s)) :
    linesLogged c.name out past = texts.flatMap fun s => (lines s).filter (!·.isEmpty) := by
  rw [C43_lines h he hn hc, ht, List.flatMap_map]
  refine List.flatMap_congr fun s hs => ?_
  rw [output_encode, fromUtf8Lossy_encode, lines_throughTty t (hno s hs)]

end

/-- C81: if cinit itself has got a terminal, the bytes are not changed at all. -/
theorem C81_unchanged (o : Termios) (bytes : List Nat) : output (settings o) bytes = bytes := by
  unfold output
  rw [if_neg]
  rintro ⟨-, h⟩
  exact absurd h (show ¬ OPOST.testBit 2 = true by decide)

/-- C81 in full: for texts without carriage returns it does not matter how the output is cut into
reads either. -/
def C81_statement : Prop :=
  ∀ (x : Machine) (config : Config) (m : Manager) (code : Int) (w : World),
    x.manager config = .ok m → x.loop m = .ok code w → code ≠ 3 →
    ∀ i c out text, config.programs[i]? = some c → '\r' ∉ text →
      (bytesRead i out w.log).flatten = output linux (encode text) →
      '\r' ∉ (linesLogged c.name out w.log).flatten

/-- A program writes a line to its terminal, which is cut into two reads. -/
def crAnswers : List Answer :=
  [.setup true, .fork (some (10, 20, 21)), .epollAdd true, .epollAdd true, .now 1,
   .epoll (some [⟨20, true, false⟩]), .read (some [0x68, 0x0D]), .wait .alive, .now 2,
   .epoll (some [⟨20, true, true⟩]), .read (some [0x0A]), .wait (.exited 10 0), .wait .error,
   .now 3, .epoll (some [⟨20, false, true⟩, ⟨21, false, true⟩]), .wait .error]

theorem cr_ends : Ends (machine crAnswers) ⟨[prog 'a' .oneshot]⟩
    (.exited 0 [.exit 0, .reaped, .hangup 21, .ready ⟨21, false, true⟩,
      .hangup 20, .ready ⟨20, false, true⟩, .polled [⟨20, false, true⟩, ⟨21, false, true⟩],
      .polling, .clock 3, .reaped, .waited 10 0 (some 0),
      .chunk 20 [0x0A], .ready ⟨20, true, true⟩,
      .polled [⟨20, true, true⟩], .polling, .clock 2, .reaped,
      .line true ['a'] ['h', '\r'], .chunk 20 [0x68, 0x0D], .ready ⟨20, true, false⟩,
      .polled [⟨20, true, false⟩], .polling, .clock 1,
      .watched 21 true, .watched 20 true, .spawned 0 10 20 21]) :=
  Res.of_check (by decide +kernel)

/-- C81 is false: the carriage return a terminal adds may get into the log. -/
theorem C81_violated : ¬ C81_statement := by
  intro h
  obtain ⟨m, w, h1, h2, h3⟩ := cr_ends.exited
  have := h _ _ m 0 w h1 h2 (by decide) 0 _ true ['h', '\n'] rfl (by decide)
    (by rw [h3]; decide +kernel)
  rw [h3] at this
  revert this
  decide +kernel

/-- Witness for `C81_lines_partial`. -/
example : NoCr "hello\nworld\n".toList ∧
    output linux (encode "hi\n".toList) = [104, 105, 13, 10] := by
  refine ⟨fun w t e => ?_, by decide +kernel⟩
  have : '\r' ∈ "hello\nworld\n".toList := by rw [e]; simp
  revert this
  decide

end Cinit.Props
