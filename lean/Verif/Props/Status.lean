import Verif.Spec.Status
import Verif.Props.Report
import Verif.Props.Main
/-!
# C97: clients of the status socket cannot hold up cinit
-/

namespace Cinit.Props

open Cinit Spec Status

/-! ## Connections -/

private def Outcome.conn : Outcome → Conn
  | .sent c | .broken c | .blocked c => c

private theorem take_flatten (n : Nat) (q : List (List Nat)) :
    (Conn.take n q).1 ++ (Conn.take n q).2.flatten = q.flatten := by
  induction q generalizing n with
  | nil => rfl
  | cons b bs ih =>
    unfold Conn.take
    split
    · rfl
    split
    · simp [ih]
    · simp [← List.append_assoc]

private theorem take_memory (k n : Nat) (q : List (List Nat)) :
    memory k (Conn.take n q).2 ≤ memory k q := by
  unfold memory
  induction q generalizing n with
  | nil => exact Nat.le_refl _
  | cons b bs ih =>
    unfold Conn.take
    split
    · exact Nat.le_refl _
    split
    · have := ih (n - b.length)
      simp only [List.map_cons, List.sum_cons]
      omega
    · simp only [List.map_cons, List.sum_cons, List.length_drop]
      omega

private theorem take_all (n : Nat) (q : List (List Nat)) (h : q.flatten.length ≤ n)
    (hne : ∀ b ∈ q, b ≠ []) : (Conn.take n q).2 = [] := by
  induction q generalizing n with
  | nil => rfl
  | cons b bs ih =>
    have hb : 0 < b.length := List.length_pos_iff.mpr (hne b (by simp))
    simp only [List.flatten_cons, List.length_append] at h
    unfold Conn.take
    rw [if_neg (by omega), if_pos (by omega)]
    exact ih _ (by omega) fun x hx => hne x (by simp [hx])

private theorem take_ne (n : Nat) (q : List (List Nat)) (hne : ∀ b ∈ q, b ≠ []) :
    ∀ b ∈ (Conn.take n q).2, b ≠ [] := by
  induction q generalizing n with
  | nil => intro b hb; cases hb
  | cons b bs ih =>
    unfold Conn.take
    split
    · exact hne
    split
    · exact ih _ fun x hx => hne x (by simp [hx])
    · rename_i h1 h2
      intro x hx
      rcases List.mem_cons.mp hx with rfl | hx
      · intro he
        have := congrArg List.length he
        simp at this
        omega
      · exact hne x (by simp [hx])

private theorem push_used (c : Conn) (b : List Nat) :
    (c.push b).used = c.used + (b.length + c.overhead) := by
  simp [Conn.push, Conn.used]

private theorem read_used (c : Conn) (n : Nat) : (c.read n).used ≤ c.used :=
  take_memory c.overhead n c.queue

/-! ## Whole reports -/

/-- What is received and what is on the way is a part of what is to be sent. -/
private theorem serve_prefix (bs : List (List Nat)) (ms : List Move) (c : Conn) :
    ∃ rest, (Outcome.conn (serve bs ms c)).received ++
        (Outcome.conn (serve bs ms c)).queue.flatten ++ rest =
        c.received ++ c.queue.flatten ++ bs.flatten ∧
      ∀ c', serve bs ms c = .sent c' → rest = [] := by
  fun_induction serve bs ms c with
  | case1 ms c => exact ⟨[], by simp [Outcome.conn], fun _ _ => rfl⟩
  | case2 b bs c h => exact ⟨_, rfl, fun c' h => nomatch h⟩
  | case3 b bs c h1 h2 ih =>
    obtain ⟨rest, h3, h4⟩ := ih
    exact ⟨rest, by rw [h3]; simp [Conn.push], h4⟩
  | case4 b bs c h1 h2 => exact ⟨_, rfl, fun c' h => nomatch h⟩
  | case5 b bs n ms c ih =>
    simp only [dite_eq_ite] at ih
    obtain ⟨rest, h3, h4⟩ := ih
    refine ⟨rest, ?_, h4⟩
    rw [h3]
    split
    · rfl
    · simp only [Conn.read]
      rw [List.append_assoc c.received, take_flatten]
  | case6 b bs ms c ih => exact ih
  | case7 b bs ms c h => exact ⟨_, rfl, fun c' h => nomatch h⟩
  | case8 b bs ms c h1 h2 ih =>
    obtain ⟨rest, h3, h4⟩ := ih
    exact ⟨rest, by rw [h3]; simp [Conn.push], h4⟩
  | case9 b bs ms c h1 h2 ih => exact ih

/-- Writes fail only because of clients that leave. -/
private theorem serve_broken (bs : List (List Nat)) (ms : List Move) (c : Conn)
    (hc : c.closed = false) {c' : Conn} (h : serve bs ms c = .broken c') : Move.close ∈ ms := by
  fun_induction serve bs ms c with
  | case1 ms c => cases h
  | case2 b bs c h1 => rw [hc] at h1; cases h1
  | case3 b bs c h1 h2 ih => exact absurd (ih hc h) (by simp)
  | case4 b bs c h1 h2 => cases h
  | case5 b bs n ms c ih =>
    refine List.mem_cons_of_mem _ (ih ?_ h)
    split <;> exact hc
  | case6 b bs ms c ih => simp
  | case7 b bs ms c h1 => rw [hc] at h1; cases h1
  | case8 b bs ms c h1 h2 ih => exact List.mem_cons_of_mem _ (ih hc h)
  | case9 b bs ms c h1 h2 ih => exact List.mem_cons_of_mem _ (ih hc h)

private theorem memory_cons (k : Nat) (b : List Nat) (bs : List (List Nat)) :
    memory k (b :: bs) = b.length + k + memory k bs := rfl

/-- There is room for everything. -/
private theorem serve_fits (bs : List (List Nat)) (ms : List Move) (c : Conn)
    (h : bs ≠ [] → c.used + memory c.overhead bs.dropLast < c.capacity) :
    Outcome.Over (serve bs ms c) := by
  have key : ∀ (b : List Nat) (bs : List (List Nat)) (c : Conn),
      (c.used + memory c.overhead (b :: bs).dropLast < c.capacity) →
      (bs ≠ [] → (c.push b).used + memory (c.push b).overhead bs.dropLast < (c.push b).capacity) := by
    intro b bs c h hb
    rw [push_used]
    show c.used + _ + memory c.overhead _ < c.capacity
    cases bs with
    | nil => exact absurd rfl hb
    | cons b' bs =>
      rw [List.dropLast_cons_cons, memory_cons] at h
      omega
  fun_induction serve bs ms c with
  | case1 ms c => trivial
  | case2 b bs c h1 => trivial
  | case3 b bs c h1 h2 ih => exact ih (key b bs c (h (by simp)))
  | case4 b bs c h1 h2 =>
    have := h (by simp)
    omega
  | case5 b bs n ms c ih =>
    refine ih fun _ => ?_
    have := h (by simp)
    split
    · exact this
    · have h1 := read_used c n
      show (c.read n).used + memory c.overhead _ < c.capacity
      omega
  | case6 b bs ms c ih => exact ih h
  | case7 b bs ms c h1 => trivial
  | case8 b bs ms c h1 h2 ih => exact ih (key b bs c (h (by simp)))
  | case9 b bs ms c h1 h2 ih => exact ih h

/-- A client that neither reads nor leaves. -/
private theorem serve_idle (bs : List (List Nat)) (c : Conn) (hc : c.closed = false) :
    (∃ c', serve bs [] c = .blocked c') ↔
      bs ≠ [] ∧ c.capacity ≤ c.used + memory c.overhead bs.dropLast := by
  induction bs generalizing c with
  | nil => simp [serve]
  | cons b bs ih =>
    rw [serve]
    simp only [hc, Bool.false_eq_true, if_false, ne_eq, List.cons_ne_nil, not_false_eq_true,
      true_and]
    by_cases hu : c.used < c.capacity
    · rw [if_pos hu, ih (c.push b) hc, push_used]
      show bs ≠ [] ∧ c.capacity ≤ c.used + (b.length + c.overhead) + memory c.overhead _ ↔ _
      cases bs with
      | nil => simp [memory]; omega
      | cons b' bs =>
        rw [List.dropLast_cons_cons, memory_cons]
        simp only [ne_eq, List.cons_ne_nil, not_false_eq_true, true_and]
        omega
    · rw [if_neg hu]
      simp
      omega

/-- Clients that leave in the end. -/
private theorem serve_leaves (bs : List (List Nat)) (ms : List Move) (c : Conn) :
    Outcome.Over (serve bs (ms ++ [.close]) c) := by
  generalize hms : ms ++ [Move.close] = ms'
  have hne : ms' ≠ [] ∨ c.closed = true := .inl (by rw [← hms]; simp)
  have hl : ms' = [] ∨ ms'.getLast? = some .close := .inr (by rw [← hms]; simp)
  clear hms
  have tail : ∀ {m : Move} {ms : List Move}, m ≠ .close →
      (m :: ms = [] ∨ (m :: ms).getLast? = some .close) →
      ms ≠ [] ∧ ms.getLast? = some .close := by
    intro m ms hm h
    rcases h with h | h
    · cases h
    · cases ms with
      | nil => simp at h; exact absurd h hm
      | cons m' ms => exact ⟨by simp, by rw [List.getLast?_cons_cons] at h; exact h⟩
  fun_induction serve bs ms' c with
  | case1 ms c => trivial
  | case2 b bs c h1 => trivial
  | case3 b bs c h1 h2 ih => exact absurd (hne.resolve_left (by simp)) h1
  | case4 b bs c h1 h2 => exact absurd (hne.resolve_left (by simp)) h1
  | case5 b bs n ms c ih =>
    obtain ⟨h1, h2⟩ := tail (by simp) hl
    exact ih (.inl h1) (.inr h2)
  | case6 b bs ms c ih =>
    refine ih (.inr rfl) ?_
    cases ms with
    | nil => exact .inl rfl
    | cons m ms => exact .inr (by rw [List.getLast?_cons_cons] at hl; exact hl.resolve_left (by simp))
  | case7 b bs ms c h1 => trivial
  | case8 b bs ms c h1 h2 ih =>
    obtain ⟨h1, h2⟩ := tail (by simp) hl
    exact ih (.inl h1) (.inr h2)
  | case9 b bs ms c h1 h2 ih =>
    obtain ⟨h1, h2⟩ := tail (by simp) hl
    exact ih (.inl h1) (.inr h2)

private theorem serve_patient (n : Nat) : ∀ (k : Nat) (bs : List (List Nat)) (c : Conn),
    bs.length ≤ k → 0 < c.capacity → (∀ b ∈ c.queue, b ≠ []) → (∀ b ∈ bs, b ≠ []) →
    c.queue.flatten.length + bs.flatten.length ≤ n → Outcome.Over (serve bs (patient k n) c) := by
  intro k
  induction k with
  | zero =>
    intro bs c hk
    cases bs with
    | nil => intros; rw [serve]; trivial
    | cons b bs => simp at hk
  | succ k ih =>
    intro bs c hk hcap hq hb hn
    cases bs with
    | nil => rw [serve]; trivial
    | cons b bs =>
      rw [patient, serve]
      cases hc : c.closed with
      | true =>
        rw [if_pos rfl, serve, if_pos hc]
        trivial
      | false =>
        simp only [Bool.false_eq_true, if_false]
        have he : (c.read n).queue = [] := take_all n c.queue (by omega) hq
        rw [serve, if_neg (by show ¬ c.closed = true; simp [hc]), if_pos (by
          show (c.read n).used < c.capacity
          unfold Conn.used
          rw [he]
          exact hcap)]
        refine ih bs _ (by simpa using hk) hcap ?_ (fun x hx => hb x (by simp [hx])) ?_
        · intro x hx
          simp only [Conn.push, he, List.nil_append, List.mem_singleton] at hx
          subst hx
          exact hb _ (by simp)
        · simp only [Conn.push, he]
          simp only [List.flatten_cons, List.length_append] at hn
          simp only [List.nil_append, List.flatten_cons, List.flatten_nil, List.append_nil]
          omega

private theorem serve_reads (k n : Nat) (bs : List (List Nat)) (ms : List Move) (c : Conn)
    (hk : bs.length ≤ k) (hcap : 0 < c.capacity) (hq : ∀ b ∈ c.queue, b ≠ [])
    (hb : ∀ b ∈ bs, b ≠ []) (hn : c.queue.flatten.length + bs.flatten.length ≤ n) :
    Outcome.Over (serve bs (ms ++ patient k n) c) := by
  have hpush : ∀ {b : List Nat} {bs : List (List Nat)} {c : Conn},
      (∀ b ∈ c.queue, b ≠ []) → (∀ x ∈ b :: bs, x ≠ []) →
      c.queue.flatten.length + (b :: bs).flatten.length ≤ n →
      (∀ x ∈ (c.push b).queue, x ≠ []) ∧ (∀ x ∈ bs, x ≠ []) ∧
      (c.push b).queue.flatten.length + bs.flatten.length ≤ n := by
    intro b bs c hq hb hn
    refine ⟨fun x hx => ?_, fun x hx => hb x (by simp [hx]), ?_⟩
    · rcases List.mem_append.mp hx with hx | hx
      · exact hq x hx
      · rw [List.mem_singleton] at hx
        subst hx
        exact hb _ (by simp)
    · simp only [Conn.push, List.flatten_append, List.flatten_cons, List.length_append] at hn ⊢
      simp only [List.flatten_nil, List.length_nil]
      omega
  induction ms generalizing bs c with
  | nil => exact serve_patient n k bs c hk hcap hq hb hn
  | cons m ms ih =>
    cases bs with
    | nil => rw [serve]; trivial
    | cons b bs =>
      cases m with
      | read j =>
        rw [List.cons_append, serve]
        split
        · exact ih _ _ hk hcap hq hb hn
        · refine ih _ _ hk hcap (take_ne j c.queue hq) hb ?_
          have := congrArg List.length (take_flatten j c.queue)
          simp only [List.length_append] at this
          show (Conn.take j c.queue).2.flatten.length + _ ≤ n
          omega
      | close => rw [List.cons_append, serve]; exact ih _ _ hk hcap hq hb hn
      | cinit =>
        rw [List.cons_append, serve]
        split
        · trivial
        split
        · obtain ⟨h1, h2, h3⟩ := hpush hq hb hn
          exact ih _ _ (by simp at hk; omega) hcap h1 h2 h3
        · exact ih _ _ hk hcap hq hb hn

/-! ## The writes of a report -/

private theorem writes_flatten (l : List Str) : (writes l).flatten = l.flatten := by
  unfold writes
  induction l with
  | nil => rfl
  | cons s l ih =>
    by_cases hs : s = []
    · rw [List.filter_cons_of_neg (by simp [hs]), ih, hs]; rfl
    · rw [List.filter_cons_of_pos (by simp [hs]), List.flatten_cons, ih]; rfl

private theorem number_flatten (z : Int) : (numberPieces z).flatten = showInt z := by
  cases z <;> simp [showInt, numberPieces]

private theorem programPieces_flatten (env : Env) (m : Manager) (id : Nat) (p : Process) :
    (programPieces env m id p >>= fun l => .ok l.flatten) = m.formatProgram env id p := by
  have h1 : (headPieces p).flatten = "  - name: '".toList ++ p.name ++ "'\n    state: '".toList ++
      p.state.show ++ "'\n".toList := by
    unfold headPieces
    generalize "  - name: '".toList = a, "'\n    state: '".toList = b, "'\n".toList = c
    simp
  have h2 : (statusPieces p).flatten = if p.status.isEmpty then [] else
      "    status: ".toList ++ p.status ++ ['\n'] := by
    unfold statusPieces
    generalize "    status: ".toList = a
    split <;> simp
  have h3 : (codePieces p).flatten = match p.state with
      | .done => "    exit_code: 0\n".toList
      | .crashed rc => "    exit_code: ".toList ++ showInt rc ++ ['\n']
      | _ => [] := by
    unfold codePieces
    generalize "    exit_code: ".toList = a, "    exit_code: 0\n".toList = b
    cases p.state <;> simp [number_flatten]
  have h4 : (pidPieces m p).flatten = match m.processIdForPid p.pid with
      | some _ => "    pid: ".toList ++ showInt p.pid ++ ['\n']
      | none => [] := by
    unfold pidPieces
    generalize "    pid: ".toList = a
    cases m.processIdForPid p.pid <;> simp [number_flatten]
  unfold programPieces Manager.formatProgram
  dsimp only
  split
  · cases m.cron.nextExecution id with
    | ok t =>
      simp only [Res.bind_ok, writes_flatten, List.flatten_append, h1, h2, h3, h4]
      generalize "    scheduled_at: '".toList = a
      simp only [List.flatten_cons, List.flatten_nil, List.append_nil, ← List.append_assoc]
      rfl
    | panic q => rfl
    | err e => exact e.elim
  · simp only [Res.bind_ok, writes_flatten, List.flatten_append, h1, h2, h3, h4]
    rfl

private theorem programsPieces_flatten (env : Env) (m : Manager) (id : Nat) (ps : List Process) :
    (programsPieces env m id ps >>= fun l => .ok l.flatten) = m.formatPrograms env id ps := by
  induction ps generalizing id with
  | nil => rfl
  | cons p ps ih =>
    unfold programsPieces Manager.formatPrograms
    rw [← programPieces_flatten, ← ih]
    cases programPieces env m id p with
    | ok l =>
      cases programsPieces env m (id + 1) ps with
      | ok l' => simp [Res.bind_ok]
      | panic q => rfl
      | err e => exact e.elim
    | panic q => rfl
    | err e => exact e.elim

/-- The writes make up the report. -/
theorem reportPieces_flatten (env : Env) (m : Manager) :
    (reportPieces env m >>= fun l => .ok l.flatten) = m.formatReport env := by
  unfold reportPieces Manager.formatReport
  rw [← programsPieces_flatten]
  cases programsPieces env m 0 m.procs with
  | ok l => rfl
  | panic q => rfl
  | err e => exact e.elim

private theorem writes_ne (l : List Str) : ∀ s ∈ writes l, s ≠ [] := by
  intro s hs
  have := (List.mem_filter.mp hs).2
  simpa using this

private theorem show_ne (s : PState) : s.show ≠ [] := by
  cases s <;> exact List.cons_ne_nil _ _

private theorem programPieces_five {env : Env} {m : Manager} {id : Nat} {p : Process}
    {l : List Str} (h : programPieces env m id p = .ok l) :
    (∀ s ∈ l, s ≠ []) ∧ 4 ≤ l.length := by
  have key : ∀ rest : List Str, 4 ≤ (writes (headPieces p ++ rest)).length := by
    intro rest
    unfold writes headPieces
    have hs : (decide (p.state.show ≠ [])) = true := by simp [show_ne]
    rw [List.filter_append, List.length_append]
    refine Nat.le_trans ?_ (Nat.le_add_right _ _)
    rw [List.filter_cons_of_pos (by decide), List.filter_cons]
    rw [List.filter_cons_of_pos (by decide),
      List.filter_cons_of_pos (p := fun x => decide (x ≠ [])) hs,
      List.filter_cons_of_pos (by decide)]
    split <;> simp only [List.length_cons] <;> omega
  unfold programPieces at h
  dsimp only at h
  split at h
  · obtain ⟨t, -, h⟩ := Res.bind_eq_ok.mp h
    cases h
    refine ⟨writes_ne _, ?_⟩
    simp only [List.append_assoc]
    exact key _
  · cases h
    refine ⟨writes_ne _, ?_⟩
    simp only [List.append_assoc]
    exact key _

private theorem programsPieces_five {env : Env} {m : Manager} {id : Nat} {ps : List Process}
    {l : List Str} (h : programsPieces env m id ps = .ok l) :
    (∀ s ∈ l, s ≠ []) ∧ 4 * ps.length ≤ l.length := by
  induction ps generalizing id l with
  | nil => cases h; simp
  | cons p ps ih =>
    unfold programsPieces at h
    obtain ⟨a, h1, h⟩ := Res.bind_eq_ok.mp h
    obtain ⟨b, h2, h⟩ := Res.bind_eq_ok.mp h
    cases h
    obtain ⟨i1, i2⟩ := programPieces_five h1
    obtain ⟨j1, j2⟩ := ih h2
    refine ⟨fun s hs => ?_, ?_⟩
    · rcases List.mem_append.mp hs with hs | hs
      · exact i1 s hs
      · exact j1 s hs
    · simp only [List.length_append, List.length_cons]
      omega

private theorem reportPieces_five {env : Env} {m : Manager} {l : List Str}
    (h : reportPieces env m = .ok l) : (∀ s ∈ l, s ≠ []) ∧ 4 * m.procs.length + 1 ≤ l.length := by
  unfold reportPieces at h
  obtain ⟨a, h1, h⟩ := Res.bind_eq_ok.mp h
  cases h
  obtain ⟨i1, i2⟩ := programsPieces_five h1
  refine ⟨fun s hs => ?_, by simpa using i2⟩
  rcases List.mem_cons.mp hs with rfl | hs
  · exact List.cons_ne_nil _ _
  · exact i1 s hs

private theorem encode_flatten (l : List Str) : (l.map encode).flatten = encode l.flatten := by
  unfold encode
  induction l with
  | nil => rfl
  | cons s l ih => simp [ih]

private theorem encode_ne {s : Str} (h : s ≠ []) : encode s ≠ [] := by
  cases s with
  | nil => exact absurd rfl h
  | cons c s =>
    intro he
    have h1 : encodeChar c = [] := (List.append_eq_nil_iff.mp he).1
    unfold encodeChar at h1
    dsimp only at h1
    split at h1
    · cases h1
    split at h1
    · cases h1
    split at h1 <;> cases h1

/-! ## C97 -/

/-- The writes of the report on a manager. -/
def Writes (env : Env) (m : Manager) (ws : List (List Nat)) : Prop :=
  ∃ pieces, reportPieces env m = .ok pieces ∧ ws = pieces.map encode

/-- What is written in the course of a report, one after the other, is the report; nothing empty
is written. -/
theorem C97_writes {env : Env} {m : Manager} {ws : List (List Nat)} (h : Writes env m ws) :
    (∃ text, m.formatReport env = .ok text ∧ ws.flatten = encode text) ∧
    (∀ b ∈ ws, b ≠ []) ∧ 4 * m.procs.length + 1 ≤ ws.length := by
  obtain ⟨pieces, h1, rfl⟩ := h
  obtain ⟨h2, h3⟩ := reportPieces_five h1
  refine ⟨⟨pieces.flatten, ?_, encode_flatten _⟩, ?_, by simpa using h3⟩
  · rw [← reportPieces_flatten, h1]; rfl
  · intro b hb
    obtain ⟨s, hs, rfl⟩ := List.mem_map.mp hb
    exact encode_ne (h2 s hs)

/-- Sending a report write by write is what the model of the event loop takes for one step,
whatever the client does: if it comes to an end, the loop goes on as it does for the answer of the
kernel that tells whether everything has been written, and if not, as it does for none. -/
theorem C97_refines (env : Env) (moves : List Move) (c : Conn) (w : World) :
    match Status.reportStatus env encode moves c w with
    | .ok _ w' => ∃ ws wrote, Writes env w.mgr ws ∧
        (wrote = true ↔ ∃ c', serve ws moves c = .sent c') ∧ ∀ rest,
        Cinit.reportStatus env { w with answers := .accept (some wrote) :: rest } =
          .ok () { w' with answers := rest }
    | .panic p w' => ∀ wrote rest,
        Cinit.reportStatus env { w with answers := .accept (some wrote) :: rest } =
          .panic p { w' with answers := rest }
    | .stuck w' => w' = w ∧ Cinit.reportStatus env { w with answers := [] } =
        .stuck { w with answers := [] } := by
  have hf := reportPieces_flatten env w.mgr
  have step : ∀ wrote rest,
      Cinit.reportStatus env { w with answers := .accept (some wrote) :: rest } =
      (M.lift (w.mgr.formatReport env) >>= fun text =>
        M.emit (if wrote then .report text else .failed)) { w with answers := rest } :=
    fun _ _ => rfl
  cases hp : reportPieces env w.mgr with
  | err e => exact e.elim
  | panic p =>
    rw [hp] at hf
    have hf' : w.mgr.formatReport env = .panic p := hf.symm
    have : Status.reportStatus env encode moves c w = .panic p w := by
      unfold Status.reportStatus; rw [hp]
    rw [this]
    intro wrote rest
    rw [step, hf']
    rfl
  | ok pieces =>
    rw [hp] at hf
    have hf' : w.mgr.formatReport env = .ok pieces.flatten := hf.symm
    have : Status.reportStatus env encode moves c w =
        match serve (pieces.map encode) moves c with
        | .sent _ => .ok () { w with log := .report pieces.flatten :: w.log }
        | .broken _ => .ok () { w with log := .failed :: w.log }
        | .blocked _ => .stuck w := by
      unfold Status.reportStatus; rw [hp]; rfl
    rw [this]
    cases hs : serve (pieces.map encode) moves c with
    | sent c' => exact ⟨_, true, ⟨pieces, hp, rfl⟩, by simp [hs], fun rest => by rw [step, hf']; rfl⟩
    | broken c' =>
      exact ⟨_, false, ⟨pieces, hp, rfl⟩, by simp [hs], fun rest => by rw [step, hf']; rfl⟩
    | blocked c' => exact ⟨rfl, rfl⟩

private theorem stuck_iff {env : Env} {moves : List Move} {c : Conn} {w : World}
    {ws : List (List Nat)} (h : Writes env w.mgr ws) :
    Status.reportStatus env encode moves c w = .stuck w ↔ ∃ c', serve ws moves c = .blocked c' := by
  obtain ⟨pieces, h1, rfl⟩ := h
  unfold Status.reportStatus
  rw [h1]
  dsimp only
  cases serve (pieces.map encode) moves c <;> simp

private theorem over_stuck {env : Env} {moves : List Move} {c : Conn} {w : World}
    (h : ∀ ws, Writes env w.mgr ws → Outcome.Over (serve ws moves c)) (w' : World) :
    Status.reportStatus env encode moves c w ≠ .stuck w' := by
  intro hs
  unfold Status.reportStatus at hs
  cases hp : reportPieces env w.mgr with
  | err e => exact e.elim
  | panic p => rw [hp] at hs; cases hs
  | ok pieces =>
    rw [hp] at hs
    dsimp only at hs
    have := h _ ⟨pieces, hp, rfl⟩
    revert hs this
    cases serve (pieces.map encode) moves c <;> intro hs this
    · cases hs
    · cases hs
    · exact this

/-- C97: what a client receives is a part of the report, from its beginning on; if all of the
report is sent, the rest of it is on its way. -/
theorem C97_text {env : Env} {m : Manager} {ws : List (List Nat)} (h : Writes env m ws)
    (moves : List Move) (capacity overhead : Nat) :
    ∃ text, m.formatReport env = .ok text ∧
      match serve ws moves (fresh capacity overhead) with
      | .sent c => c.received ++ c.queue.flatten = encode text
      | .broken c | .blocked c => c.received ++ c.queue.flatten <+: encode text := by
  obtain ⟨⟨text, h1, h2⟩, -⟩ := C97_writes h
  refine ⟨text, h1, ?_⟩
  obtain ⟨rest, h3, h4⟩ := serve_prefix ws moves (fresh capacity overhead)
  have h3' : (Outcome.conn (serve ws moves (fresh capacity overhead))).received ++
      (Outcome.conn (serve ws moves (fresh capacity overhead))).queue.flatten ++ rest =
      encode text := by rw [h3, h2]; rfl
  clear h3
  revert h3' h4
  cases serve ws moves (fresh capacity overhead) with
  | sent c =>
    intro h4 h3
    rw [h4 c rfl, List.append_nil] at h3
    exact h3
  | broken c => exact fun _ h3 => ⟨rest, h3⟩
  | blocked c => exact fun _ h3 => ⟨rest, h3⟩

/-- C97: a report fails only if the client closes the connection. -/
theorem C97_broken {ws : List (List Nat)} {moves : List Move} {capacity overhead : Nat} {c : Conn}
    (h : serve ws moves (fresh capacity overhead) = .broken c) : Move.close ∈ moves :=
  serve_broken ws moves _ rfl h

/-- C97, in full: whatever a client of the status socket does, and whenever it connects, cinit
goes on. -/
def C97_statement (capacity overhead : Nat) : Prop :=
  ∀ (x : Machine) (config : Config) (m : Manager) (moves : List Move) (w w' : World),
    x.manager config = .ok m → w.mgr = m →
    Status.reportStatus x.env encode moves (fresh capacity overhead) w ≠ .stuck w'

/-- C97, as far as it holds: clients that close the connection in the end. -/
theorem C97_leaves_partial (env : Env) (moves : List Move) (c : Conn) (w w' : World) :
    Status.reportStatus env encode (moves ++ [.close]) c w ≠ .stuck w' :=
  over_stuck (fun _ _ => serve_leaves _ _ _) w'

/-- C97, as far as it holds: clients that, whatever they do first, read all there is, again and
again. -/
theorem C97_reads_partial {env : Env} {m : Manager} {ws : List (List Nat)} (h : Writes env m ws)
    (moves : List Move) {capacity : Nat} (overhead : Nat) {k n : Nat} (hcap : 0 < capacity)
    (hk : ws.length ≤ k) (hn : ws.flatten.length ≤ n) {w : World} (hw : w.mgr = m) (w' : World) :
    Status.reportStatus env encode (moves ++ patient k n) (fresh capacity overhead) w ≠
      .stuck w' := by
  refine over_stuck (fun ws' h' => ?_) w'
  have : ws' = ws := by
    obtain ⟨p, h1, rfl⟩ := h
    obtain ⟨p', h2, rfl⟩ := h'
    rw [hw, h1] at h2
    cases h2
    rfl
  subst this
  refine serve_reads k n ws' moves _ hk hcap (fun _ h => by cases h) (C97_writes h).2.1 ?_
  simpa [fresh] using hn

/-- C97, as far as it holds: if the kernel has room for the report but its last write, there is
nothing a client can do. -/
theorem C97_small_partial {env : Env} {m : Manager} {ws : List (List Nat)} (h : Writes env m ws)
    (moves : List Move) {capacity overhead : Nat} (hroom : memory overhead ws.dropLast < capacity)
    {w : World} (hw : w.mgr = m) (w' : World) :
    Status.reportStatus env encode moves (fresh capacity overhead) w ≠ .stuck w' := by
  refine over_stuck (fun ws' h' => ?_) w'
  have : ws' = ws := by
    obtain ⟨p, h1, rfl⟩ := h
    obtain ⟨p', h2, rfl⟩ := h'
    rw [hw, h1] at h2
    cases h2
    rfl
  subst this
  refine serve_fits ws' moves _ fun _ => ?_
  simpa [fresh, Conn.used] using hroom

/-- C97, exactly: there is a client that holds up cinit forever iff the report but its last write
does not fit into what the kernel keeps; a client that connects and does nothing is one. -/
theorem C97_exact_partial {env : Env} {m : Manager} {ws : List (List Nat)} (h : Writes env m ws)
    (capacity overhead : Nat) {w : World} (hw : w.mgr = m) :
    ((∃ moves, Status.reportStatus env encode moves (fresh capacity overhead) w = .stuck w) ↔
      capacity ≤ memory overhead ws.dropLast) ∧
    (Status.reportStatus env encode [] (fresh capacity overhead) w = .stuck w ↔
      capacity ≤ memory overhead ws.dropLast) := by
  have idle : Status.reportStatus env encode [] (fresh capacity overhead) w = .stuck w ↔
      capacity ≤ memory overhead ws.dropLast := by
    rw [stuck_iff (hw ▸ h), serve_idle ws _ rfl]
    have hne : ws ≠ [] := by
      intro he
      have := (C97_writes h).2.2
      rw [he] at this
      simp at this
    simp [hne, fresh, Conn.used]
  refine ⟨⟨fun ⟨moves, hm⟩ => ?_, fun hle => ⟨[], idle.mpr hle⟩⟩, idle⟩
  by_cases hlt : memory overhead ws.dropLast < capacity
  · exact absurd hm (C97_small_partial h moves hlt hw w)
  · omega

private theorem memory_ge (overhead : Nat) (ws : List (List Nat)) (h : ∀ b ∈ ws, b ≠ []) :
    ws.length * (overhead + 1) ≤ memory overhead ws := by
  induction ws with
  | nil => simp
  | cons b bs ih =>
    have h1 := ih fun x hx => h x (by simp [hx])
    have h2 : 0 < b.length := List.length_pos_iff.mpr (h b (by simp))
    rw [memory_cons, List.length_cons, Nat.succ_mul]
    omega

/-- C97: with many programs, a client that connects and does nothing holds up cinit forever. -/
theorem C97_many {env : Env} {m : Manager} {ws : List (List Nat)} (h : Writes env m ws)
    {capacity overhead : Nat} (hmany : capacity ≤ 4 * m.procs.length * (overhead + 1))
    {w : World} (hw : w.mgr = m) :
    Status.reportStatus env encode [] (fresh capacity overhead) w = .stuck w := by
  refine (C97_exact_partial h capacity overhead hw).2.mpr ?_
  obtain ⟨-, h1, h2⟩ := C97_writes h
  have h3 := memory_ge overhead ws.dropLast fun b hb => h1 b (List.dropLast_subset _ hb)
  rw [List.length_dropLast] at h3
  have h4 : 4 * m.procs.length * (overhead + 1) ≤ (ws.length - 1) * (overhead + 1) :=
    Nat.mul_le_mul_right _ (by omega)
  omega

/-! ## Many programs -/

/-- Programs with names `a`, `aa`, … that have nothing to do with each other. -/
def crowd (n : Nat) : List ProcessConfig :=
  (List.range n).map fun i =>
    { name := List.replicate (i + 1) 'a', path := some ['/', 'a'], ptype := .oneshot,
      user := some ['u'], group := some ['g'] }

private theorem crowd_processes (ps : List ProcessConfig) (h : ∀ c ∈ ps, ∃ name,
      c = { name := name, path := some ['/', 'a'], ptype := .oneshot, user := some ['u'],
            group := some ['g'] }) :
    ∃ procs, (machine []).processes ps = .ok procs ∧ procs.length = ps.length ∧
      ∀ p ∈ procs, p.ptype ≠ .cronjob := by
  induction ps with
  | nil => exact ⟨[], rfl, rfl, by simp⟩
  | cons c ps ih =>
    obtain ⟨procs, h1, h2, h3⟩ := ih fun c hc => h c (by simp [hc])
    obtain ⟨name, rfl⟩ := h c (by simp)
    have hp : ∃ p, ProcessBuilder.processFrom (machine []).surroundings
        { name := name, path := some ['/', 'a'], ptype := .oneshot, user := some ['u'],
          group := some ['g'] } = .ok p ∧ p.ptype ≠ .cronjob :=
      ⟨_, rfl, fun h => nomatch h⟩
    obtain ⟨p, hp, hc⟩ := hp
    refine ⟨p :: procs, ?_, by simp [h2], ?_⟩
    · unfold Machine.processes
      rw [hp]
      dsimp only
      rw [h1]
      rfl
    · intro q hq
      rcases List.mem_cons.mp hq with rfl | hq
      · exact hc
      · exact h3 q hq

private theorem crowd_mem {n : Nat} {c : ProcessConfig} (h : c ∈ crowd n) : ∃ name,
    c = { name := name, path := some ['/', 'a'], ptype := .oneshot, user := some ['u'],
          group := some ['g'] } := by
  obtain ⟨i, -, rfl⟩ := List.mem_map.mp h
  exact ⟨_, rfl⟩

private theorem crowd_cron (ps : List ProcessConfig) (h : ∀ c ∈ ps, ∃ name,
      c = { name := name, path := some ['/', 'a'], ptype := .oneshot, user := some ['u'],
            group := some ['g'] }) (i : Nat) : cronPrograms i ps = [] := by
  induction ps generalizing i with
  | nil => rfl
  | cons c ps ih =>
    obtain ⟨name, rfl⟩ := h c (by simp)
    exact ih (fun c hc => h c (by simp [hc])) (i + 1)

/-- Any number of programs can be configured. -/
theorem crowd_starts (n : Nat) : ∃ m, (machine []).manager ⟨crowd n⟩ = .ok m ∧
    m.procs.length = n ∧ ∀ p ∈ m.procs, p.ptype ≠ .cronjob := by
  obtain ⟨procs, h1, h2, h3⟩ := crowd_processes (crowd n) fun c hc => crowd_mem hc
  have hu : UniqueNames (crowd n) := by
    unfold UniqueNames crowd
    rw [List.map_map]
    refine List.Nodup.map ?_ List.nodup_range
    intro i j hij
    have := congrArg List.length hij
    simpa using this
  have hd : ∃ d, DepMgr.withNodes (machine []).topo (machine []).graphOrder
      (enumerate (crowd n)) = .ok d := by
    refine (C13_accept_iff _ _ hu).1.mpr ⟨?_, ?_, ?_⟩
    · intro c hc k hk
      obtain ⟨name, rfl⟩ := crowd_mem hc
      rcases hk with hk | hk <;> cases hk
    · intro c hc k hk
      obtain ⟨name, rfl⟩ := crowd_mem hc
      cases hk
    · intro i hi
      have none : ∀ i j, ¬ DependsOn (crowd n) i j := by
        rintro i j ⟨ci, cj, hi, hj, h⟩
        obtain ⟨_, rfl⟩ := crowd_mem (List.mem_of_getElem? hi)
        obtain ⟨_, rfl⟩ := crowd_mem (List.mem_of_getElem? hj)
        rcases h with h | h <;> cases h
      cases hi with
      | single h => exact none _ _ h
      | tail _ h => exact none _ _ h
  obtain ⟨d, hd⟩ := hd
  have hd' : buildDependencyManager (machine []).topo (machine []).graphOrder ⟨crowd n⟩ =
      .ok d := by
    unfold buildDependencyManager
    rw [hd]
  have hc : buildCron (machine []).env.zone ⟨crowd n⟩ (machine []).clock = .ok {} := by
    unfold buildCron
    rw [crowd_cron (crowd n) fun c hc => crowd_mem hc]
    rfl
  refine ⟨{ procs := procs, deps := d, cron := {}, signalFd := 3, statusFd := 4, notifyFd := 5 },
    ?_, ?_, h3⟩
  · unfold Machine.manager
    rw [h1, Res.bind_ok, hd', hc]
    rfl
  · rw [h2]; simp [crowd]

private theorem pieces_plain (env : Env) (m : Manager) (ps : List Process)
    (h : ∀ p ∈ ps, p.ptype ≠ .cronjob) (i : Nat) : ∃ l, programsPieces env m i ps = .ok l := by
  induction ps generalizing i with
  | nil => exact ⟨_, rfl⟩
  | cons p ps ih =>
    obtain ⟨l, hl⟩ := ih (fun p hp => h p (by simp [hp])) (i + 1)
    unfold programsPieces programPieces
    dsimp only
    rw [if_neg (h p (by simp)), Res.bind_ok, hl]
    exact ⟨_, rfl⟩

/-- Without cronjobs there always is a report. -/
theorem Writes.plain (env : Env) {m : Manager} (h : ∀ p ∈ m.procs, p.ptype ≠ .cronjob) :
    ∃ ws, Writes env m ws := by
  obtain ⟨l, hl⟩ := pieces_plain env m m.procs h 0
  exact ⟨_, _, by unfold reportPieces; rw [hl]; rfl, rfl⟩

/-- C97 is violated: however much the kernel keeps. -/
theorem C97_violated (capacity overhead : Nat) : ¬ C97_statement capacity overhead := by
  intro h
  obtain ⟨m, h1, h2, h3⟩ := crowd_starts capacity
  obtain ⟨ws, hw⟩ := Writes.plain (machine []).env h3
  refine h (machine []) ⟨crowd capacity⟩ m [] ((machine []).world m) _ h1 rfl
    (C97_many hw ?_ rfl)
  rw [h2]
  calc capacity ≤ 4 * capacity * 1 := by omega
    _ ≤ _ := Nat.mul_le_mul_left _ (by omega)

/-- With the figures of Linux (212992 bytes and at least 768 bytes for every write), 70 programs
will do. -/
example : ∃ m, (machine []).manager ⟨crowd 70⟩ = .ok m ∧
    Status.reportStatus (machine []).env encode [] (fresh 212992 768) ((machine []).world m) =
      .stuck ((machine []).world m) := by
  obtain ⟨m, h1, h2, h3⟩ := crowd_starts 70
  obtain ⟨ws, hw⟩ := Writes.plain (machine []).env h3
  exact ⟨m, h1, C97_many hw (by rw [h2]; decide) rfl⟩

/-- Whereas a single program is reported whatever the client does. -/
example : ∃ m ws, (machine []).manager ⟨crowd 1⟩ = .ok m ∧ Writes (machine []).env m ws ∧
    memory 768 ws.dropLast < 212992 ∧ ws.length = 6 ∧
    (match serve ws [] (fresh 2000 768) with
      | .blocked c => c.queue.length
      | _ => 0) = 3 ∧
    serve ws [.cinit, .read 4, .cinit, .close] (fresh 2000 768) =
      .broken { fresh 2000 768 with
                queue := [bytes "rams:\n", bytes "  - name: '"]
                received := bytes "prog"
                closed := true } ∧
    (match serve ws (.cinit :: patient 6 100) (fresh 2000 768) with
      | .sent c => c.received.length
      | _ => 0) = 43 := by
  refine ⟨_, _, rfl, ⟨_, rfl, rfl⟩, ?_, ?_, ?_, ?_, ?_⟩ <;> decide +kernel

end Cinit.Props
