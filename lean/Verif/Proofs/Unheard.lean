import Mathlib.Data.List.Forall2
import Verif.Spec.Unheard
import Verif.Model.Main
import Verif.Proofs.Utf8
/-!
# What programs write and what becomes of clients is the same to the event loop
-/

namespace Cinit

open M Manager Spec

variable {α β : Type}

/-- The order in which hash maps are iterated only depends on what remains of the history. -/
def Indifferent (view : Event → Option Event) (env : Env) : Prop :=
  ∀ l l' : Log, l.filterMap view = l'.filterMap view → env.order l = env.order l'

/-- What two runs may differ in: the answers of the kernel, and what of the events remains the
same. -/
structure Veil where
  same : Answer → Answer → Prop
  view : Event → Option Event
  /-- there are no cronjobs -/
  still : Prop
  /-- there are no programs of type notify -/
  plain : Prop
  /-- the number of programs, in this case -/
  count : Nat

/-- There are `n` programs, none of type notify, and processes are only attributed to them. -/
structure Mute (n : Nat) (m : Manager) : Prop where
  types : ∀ p ∈ m.procs, p.ptype ≠ .notify
  length : m.procs.length = n
  pids : ∀ q i, m.pidDict.get? q = some i → i < n

/-- Only answers to reading output and to accepting clients differ, and if there are no cronjobs
also the clock, and if there are no programs of type notify also messages and their
senders. -/
class Veil.Mild (V : Veil) : Prop where
  mild : ∀ a b, V.same a b → a = b ∨ (∃ r s, a = .read r ∧ b = .read s) ∨
    (∃ r s, a = .accept r ∧ b = .accept s) ∨
    (V.still ∧ ∃ t u, t ≤ chronoMax ∧ u ≤ chronoMax ∧ a = .now t ∧ b = .now u) ∨
    V.plain ∧ ∃ c d q r, Intelligible c ∧ Intelligible d ∧
      a = .recv (some (c, some q)) ∧ b = .recv (some (d, some r))

section Veiled

variable {V : Veil}

/-- The worlds only differ in what is behind the veil. -/
structure Alike (V : Veil) (w w' : World) : Prop where
  mgr : w.mgr = w'.mgr
  kernel : w.kernel = w'.kernel
  answers : List.Forall₂ V.same w.answers w'.answers
  log : w.log.filterMap V.view = w'.log.filterMap V.view
  cron : V.still → w'.mgr.cron.timer = []
  plain : V.plain → Mute V.count w'.mgr

theorem Alike.length {w w' : World} (h : Alike V w w') : w.answers.length = w'.answers.length :=
  h.answers.length_eq

/-- The same outcome, in worlds that only differ in what is behind the veil. -/
inductive AlikeOut (V : Veil) : Out α → Out α → Prop
  | ok {a : α} {w w' : World} : Alike V w w' → AlikeOut V (.ok a w) (.ok a w')
  | panic {p : Panic} {w w' : World} : Alike V w w' → AlikeOut V (.panic p w) (.panic p w')
  | stuck {w w' : World} : Alike V w w' → AlikeOut V (.stuck w) (.stuck w')

/-- `x` does the same whatever is behind the veil. -/
def Deaf (V : Veil) (x : M α) : Prop := ∀ w w' : World, Alike V w w' → AlikeOut V (x w) (x w')

namespace Deaf

theorem pure {a : α} : Deaf V (M.pure a) := fun _ _ h => .ok h

theorem bind {x : M α} {f : α → M β} (hx : Deaf V x) (hf : ∀ a, Deaf V (f a)) :
    Deaf V (x >>= f) := by
  intro w w' h
  show AlikeOut V (M.bind x f w) (M.bind x f w')
  unfold M.bind
  have := hx w w' h
  revert this
  cases x w <;> cases x w' <;> intro this <;> cases this
  · exact hf _ _ _ ‹_›
  · exact .panic ‹_›
  · exact .stuck ‹_›

theorem emit {e : Event} : Deaf V (M.emit e) := fun _ _ h =>
  .ok ⟨h.mgr, h.kernel, h.answers, by
    simp only [List.filterMap_cons, h.log], h.cron, h.plain⟩

theorem fail {p : Panic} : Deaf V (M.fail p : M α) := fun _ _ h => .panic h

theorem stop : Deaf V (M.stop : M α) := fun _ _ h => .stuck h

theorem modify {f : Manager → Manager} (hf : ∀ m, (f m).cron = m.cron := by intro m; rfl)
    (hp : ∀ m : Manager, V.plain → Mute V.count m → Mute V.count (f m) := by
      intro m _ h; exact ⟨h.types, h.length, h.pids⟩) :
    Deaf V (modifyMgr f) := fun _ w' h =>
  .ok ⟨congrArg f h.mgr, h.kernel, h.answers, h.log, fun hs => by
    show (f w'.mgr).cron.timer = []
    rw [hf]
    exact h.cron hs, fun hs => hp _ hs (h.plain hs)⟩

/-- With cronjobs, the clock is in front of the veil. -/
theorem schedule {f : Manager → Manager} (hs : ¬ V.still)
    (hp : ∀ m : Manager, (f m).procs = m.procs ∧ (f m).pidDict = m.pidDict := by
      intro m; exact ⟨rfl, rfl⟩) : Deaf V (modifyMgr f) :=
  fun _ _ h => .ok ⟨congrArg f h.mgr, h.kernel, h.answers, h.log, fun h => absurd h hs,
    fun hs => ⟨by rw [(hp _).1]; exact (h.plain hs).types, by rw [(hp _).1]; exact (h.plain hs).length,
      by rw [(hp _).2]; exact (h.plain hs).pids⟩⟩

/-- A program is replaced by one that is of type notify only if the former is. -/
theorem set {i : Nat} {p : Process} (h : V.plain → p.ptype ≠ .notify) :
    Deaf V (modifyMgr (setProc i p)) :=
  .modify (hp := fun m hs hm => ⟨fun q hq => by
    rcases List.mem_or_eq_of_mem_set hq with hq | rfl
    · exact hm.types q hq
    · exact h hs, by
    show (m.procs.set i p).length = _
    rw [List.length_set]
    exact hm.length, hm.pids⟩)

/-- A process is attributed to a program. -/
theorem register {i : Nat} {pid : Int} (h : V.plain → i < V.count) :
    Deaf V (modifyMgr (registerPid i pid)) :=
  .modify (hp := fun m hs hm => ⟨hm.types, hm.length, fun q j hj => by
    have hj : (m.pidDict.insert pid i).get? q = some j := hj
    rw [AMap.get?_insert] at hj
    split at hj
    · cases hj; exact h hs
    · exact hm.pids q j hj⟩)

/-- A process is attributed to nobody any more. -/
theorem deregister {pid : Int} : Deaf V (modifyMgr (deregisterPid pid)) :=
  .modify (hp := fun m hs hm => ⟨hm.types, hm.length, fun q j hj => by
    have hj : (m.pidDict.erase pid).get? q = some j := hj
    rw [AMap.get?_erase] at hj
    split at hj
    · cases hj
    · exact hm.pids q j hj⟩)

theorem lift {r : Res Empty α} : Deaf V (M.lift r) := by
  cases r with
  | ok a => exact pure
  | err e => exact nomatch e
  | panic p => exact fail

theorem get {f : World → M β} (h : ∀ w w' : World, Alike V w w' → f w = f w')
    (hf : ∀ w, Deaf V (f w)) : Deaf V (M.get >>= f) := by
  intro w w' hw
  show AlikeOut V (f w w) (f w' w')
  rw [h w w' hw]
  exact hf w' _ _ hw

/-- As `get`, with what is known of the programs. -/
theorem get' {f : World → M β} (h : ∀ w w' : World, Alike V w w' → f w = f w')
    (hf : ∀ w, (V.plain → Mute V.count w.mgr) → Deaf V (f w)) :
    Deaf V (M.get >>= f) := by
  intro w w' hw
  show AlikeOut V (f w w) (f w' w')
  rw [h w w' hw]
  exact hf w' hw.plain _ _ hw

theorem when {c : Prop} [Decidable c] {x : M Unit} (h : Deaf V x) : Deaf V (M.when c x) := by
  unfold M.when
  split
  · exact h
  · exact pure

theorem forEach {f : α → M Unit} {l : List α} (h : ∀ a, Deaf V (f a)) :
    Deaf V (M.forEach f l) := by
  induction l with
  | nil => exact pure
  | cons a l ih => exact bind (h a) fun _ => ih

/-- A system call to which the answers only differ behind the veil. -/
theorem call {f : Kernel → Answer → Option (α × Kernel)}
    (h : ∀ k a b, V.same a b → f k a = f k b) : Deaf V (Sys.call f) := by
  intro w w' hw
  unfold Sys.call
  have ha := hw.answers
  revert ha
  cases e : w.answers with
  | nil =>
    intro ha
    cases e' : w'.answers with
    | nil => exact .stuck hw
    | cons a' rest' => rw [e'] at ha; cases ha
  | cons a rest =>
    intro ha
    cases e' : w'.answers with
    | nil => rw [e'] at ha; cases ha
    | cons a' rest' =>
    rw [e'] at ha
    obtain ⟨h1, h2⟩ := List.forall₂_cons.mp ha
    have hf : f w.kernel a = f w'.kernel a' := by
      rw [hw.kernel]
      exact h _ _ _ h1
    simp only [hf]
    cases f w'.kernel a' with
    | none => exact .stuck hw
    | some r => exact .ok ⟨hw.mgr, rfl, h2, hw.log, hw.cron, hw.plain⟩

/-- A system call other than `read`, `accept`, `recv` and reading the clock. -/
theorem other [V.Mild] {f : Kernel → Answer → Option (α × Kernel)}
    (hr : ∀ k r s, f k (.read r) = f k (.read s))
    (ha : ∀ k r s, f k (.accept r) = f k (.accept s))
    (hn : ∀ k t u, f k (.now t) = f k (.now u))
    (hm : ∀ k r s, f k (.recv r) = f k (.recv s)) : Deaf V (Sys.call f) := by
  refine call fun k a b h => ?_
  rcases Veil.Mild.mild a b h with rfl | ⟨r, s, rfl, rfl⟩ | ⟨r, s, rfl, rfl⟩ |
    ⟨-, t, u, -, -, rfl, rfl⟩ | ⟨-, c, d, q, r, -, -, rfl, rfl⟩
  · rfl
  · exact hr _ _ _
  · exact ha _ _ _
  · exact hn _ _ _
  · exact hm _ _ _

end Deaf

/-- What is behind the veil has no influence on reading output and accepting clients. -/
class Veil.Fits (V : Veil) : Prop extends V.Mild where
  read : ∀ fd, Deaf V (printChildOutput fd)
  accept : ∀ env, Deaf V (reportStatus env)
  clock : V.still → ∀ t u, V.view (.clock t) = V.view (.clock u)
  received : V.plain → ∀ b c, V.view (.received b) = V.view (.received c)
  datagram : V.plain → ∀ q r t u, V.view (.datagram q t) = V.view (.datagram r u)

variable [V.Fits]

theorem now_deaf (hs : ¬ V.still) : Deaf V Sys.now := by
  refine .call fun k a b h => ?_
  rcases Veil.Mild.mild a b h with rfl | ⟨r, s, rfl, rfl⟩ | ⟨r, s, rfl, rfl⟩ | ⟨h, -⟩ |
    ⟨-, c, d, q, r, -, -, rfl, rfl⟩
  · rfl
  · rfl
  · rfl
  · exact absurd h hs
  · rfl

theorem fork_deaf : Deaf V Sys.fork :=
  .other (fun _ _ _ => rfl) (fun _ _ _ => rfl) (fun _ _ _ => rfl) fun _ _ _ => rfl
theorem epollAdd_deaf (fd : Int) : Deaf V (Sys.epollAdd fd) :=
  .other (fun _ _ _ => rfl) (fun _ _ _ => rfl) (fun _ _ _ => rfl) fun _ _ _ => rfl
theorem epollWait_deaf : Deaf V Sys.epollWait :=
  .other (fun _ _ _ => rfl) (fun _ _ _ => rfl) (fun _ _ _ => rfl) fun _ _ _ => rfl
theorem signal_deaf : Deaf V Sys.signal :=
  .other (fun _ _ _ => rfl) (fun _ _ _ => rfl) (fun _ _ _ => rfl) fun _ _ _ => rfl
theorem wait_deaf : Deaf V Sys.wait :=
  .other (fun _ _ _ => rfl) (fun _ _ _ => rfl) (fun _ _ _ => rfl) fun _ _ _ => rfl
theorem kill_deaf (pid : Int) : Deaf V (Sys.kill pid) :=
  .other (fun _ _ _ => rfl) (fun _ _ _ => rfl) (fun _ _ _ => rfl) fun _ _ _ => rfl
theorem setup_deaf (fds : List Int) : Deaf V (Sys.setup fds) :=
  .other (fun _ _ _ => rfl) (fun _ _ _ => rfl) (fun _ _ _ => rfl) fun _ _ _ => rfl

theorem initiateShutdown_deaf (sig : Nat) : Deaf V (initiateShutdown sig) := by
  refine .bind .modify fun _ => .get (fun w w' h => by simp only [h.mgr]) fun w => .forEach fun p =>
    .bind (kill_deaf _) fun b => ?_
  cases b with
  | true => exact .emit
  | false => exact .fail

theorem handleSignal_deaf : Deaf V handleSignal := by
  refine .bind signal_deaf fun r => ?_
  cases r with
  | none => exact .emit
  | some n =>
    refine .bind .emit fun _ => ?_
    split
    · exact initiateShutdown_deaf _
    · exact .when (initiateShutdown_deaf _)

omit [V.Fits] in
theorem process_cron {ord : HashOrder} {m m' : Manager} {text : Str} {q : Int}
    (h : m.process ord text q = .ok m') : m'.cron = m.cron := by
  have hn : ∀ {m m' : Manager} {i : Nat} {p : Int} {k v : Str},
      m.handleNotification i p k v = .ok m' → m'.cron = m.cron := by
    intro m m' i p k v h
    unfold Manager.handleNotification at h
    split at h
    · split at h
      · cases h; rfl
      · revert h
        cases m.deps.notifyProcessFinished i with
        | ok d => intro h; cases h; rfl
        | err e => exact nomatch e
        | panic p => intro h; cases h
    · split at h
      · split at h <;> (cases h; rfl)
      · cases h; rfl
  have hf : ∀ (vs : List (Str × Str)) (i : Nat) (p : Int) {m m' : Manager},
      Res.foldlM (fun (m : Manager) kv => m.handleNotification i p kv.1 kv.2) m vs = .ok m' →
      m'.cron = m.cron := by
    intro vs i p
    induction vs with
    | nil => intro m m' h; cases h; rfl
    | cons kv vs ih =>
      intro m m' h
      rw [Res.foldlM_cons] at h
      revert h
      cases e : m.handleNotification i p kv.1 kv.2 with
      | ok m2 => intro h; exact (ih h).trans (hn e)
      | err e => exact nomatch e
      | panic p => intro h; cases h
  unfold Manager.process at h
  split at h
  · cases h; rfl
  · split at h
    · cases h
    · split at h
      · cases h; rfl
      · have := hf _ _ _ h
        exact this

omit [V.Fits] in
theorem process_plain {ord : HashOrder} {m m' : Manager} {text : Str} {q : Int} {n : Nat}
    (hp : Mute n m) (h : m.process ord text q = .ok m') : m' = m := by
  unfold Manager.process at h
  split at h
  · cases h; rfl
  · split at h
    · cases h
    · rename_i hi
      rw [if_pos (hp.types _ (List.mem_of_getElem? hi))] at h
      cases h; rfl

/-- `readNotification` once the message is received. -/
def noticed (env : Env) (r : Option (List Nat × Option Int)) : M Unit := do
  match ← (match r with
    | none => do
      M.emit .failed
      M.pure none
    | some (bytes, cred) => do
      M.emit (.received bytes)
      if bytes.isEmpty then M.fail .emptyDatagram
      else
        let message ← M.lift (sliceToString bytes)
        match cred with
        | none => do
          M.emit .unsigned
          M.pure none
        | some pid => do
          M.emit (.datagram pid message)
          M.pure (some (message, pid)) : M (Option (Str × Int))) with
  | none => M.pure ()
  | some (message, peer) =>
    let w ← M.get
    let m ← M.lift (w.mgr.process (env.order w.log) message peer)
    modifyMgr fun _ => m

omit [V.Fits] in
theorem readNotification_noticed (env : Env) :
    readNotification env = Sys.recv >>= noticed env := by
  funext w
  show M.bind (M.bind Sys.recv _) _ w = M.bind Sys.recv _ w
  unfold M.bind
  cases Sys.recv w <;> rfl

omit [V.Fits] in
theorem noticed_deaf {env : Env} (ho : Indifferent V.view env)
    (r : Option (List Nat × Option Int)) : Deaf V (noticed env r) := by
  refine .bind ?_ fun r => ?_
  · cases r with
    | none => exact .bind .emit fun _ => .pure
    | some bc =>
      obtain ⟨bytes, cred⟩ := bc
      refine .bind .emit fun _ => ?_
      split
      · exact .fail
      · refine .bind .lift fun t => ?_
        cases cred with
        | none => exact .bind .emit fun _ => .pure
        | some q => exact .bind .emit fun _ => .pure
  · cases r with
    | none => exact .pure
    | some tq =>
      intro w w' h
      show AlikeOut V (M.bind M.get _ w) (M.bind M.get _ w')
      simp only [M.bind, M.get]
      show AlikeOut V (M.bind (M.lift _) _ w) (M.bind (M.lift _) _ w')
      rw [h.mgr, ho _ _ h.log]
      cases e : w'.mgr.process (env.order w'.log) tq.1 tq.2 with
      | err e => exact nomatch e
      | panic p => exact .panic h
      | ok m => exact .ok ⟨rfl, h.kernel, h.answers, h.log, fun hs => by
          show m.cron.timer = []
          rw [process_cron e]
          exact h.cron hs, fun hs => by
          show Mute V.count m
          rw [process_plain (h.plain hs) e]
          exact h.plain hs⟩

omit [V.Fits] in
theorem noticed_disregarded {env : Env} {w : World} {b : List Nat} {q : Int} {n : Nat}
    (hb : Intelligible b) (hp : Mute n w.mgr) :
    ∃ t, noticed env (some (b, some q)) w =
      .ok () { w with log := .datagram q t :: .received b :: w.log } := by
  obtain ⟨-, h1, h2, t, h3⟩ := hb
  obtain ⟨t, ht⟩ : ∃ t, sliceToString b = .ok t := by
    unfold sliceToString
    rw [if_neg h2]
    cases e : fromUtf8 (b.takeWhile (· ≠ 0)) with
    | none => exact absurd h3 (fromUtf8_none.mp e t)
    | some t => exact ⟨t, rfl⟩
  refine ⟨t, ?_⟩
  have he : b.isEmpty = false := by
    cases b with
    | nil => exact absurd rfl h1
    | cons _ _ => rfl
  have hl : ∀ {β : Type} (k : Str → M β), (M.lift (sliceToString b) >>= k) = k t := by
    intro β k
    rw [ht]
    rfl
  unfold noticed
  simp only [he, Bool.false_eq_true, if_false, hl]
  show M.bind (M.lift (w.mgr.process (env.order (.datagram q t :: .received b :: w.log)) t q))
    (fun m => modifyMgr fun _ => m)
    { w with log := .datagram q t :: .received b :: w.log } = _
  unfold Manager.process
  cases hq : w.mgr.processIdForPid q with
  | none => rfl
  | some i =>
    simp only
    cases hi : w.mgr.procs[i]? with
    | none =>
      have := hp.pids q i hq
      rw [← hp.length] at this
      exact absurd (List.getElem?_eq_none_iff.mp hi) (by omega)
    | some p =>
      simp only [hp.types p (List.mem_of_getElem? hi), ne_eq, not_false_eq_true, if_true]
      rfl

theorem readNotification_deaf {env : Env} (ho : Indifferent V.view env) :
    Deaf V (readNotification env) := by
  rw [readNotification_noticed]
  intro w w' h
  show AlikeOut V (M.bind Sys.recv _ w) (M.bind Sys.recv _ w')
  unfold M.bind Sys.recv Sys.call
  have ha := h.answers
  revert ha
  cases e : w.answers with
  | nil =>
    intro ha
    cases e' : w'.answers with
    | nil => exact .stuck h
    | cons a' rest' => rw [e'] at ha; cases ha
  | cons a rest =>
    intro ha
    cases e' : w'.answers with
    | nil => rw [e'] at ha; cases ha
    | cons a' rest' =>
    rw [e'] at ha
    obtain ⟨h1, h2⟩ := List.forall₂_cons.mp ha
    have hk : ∀ k, Alike V { w with kernel := k, answers := rest }
        { w' with kernel := k, answers := rest' } :=
      fun k => ⟨h.mgr, rfl, h2, h.log, h.cron, h.plain⟩
    rcases Veil.Mild.mild a a' h1 with rfl | ⟨r, s, rfl, rfl⟩ | ⟨r, s, rfl, rfl⟩ |
      ⟨-, t, u, -, -, rfl, rfl⟩ | ⟨hs, c, d, q, r, hc, hd, rfl, rfl⟩
    · cases a with
      | recv r =>
        cases r with
        | none =>
          simp only [h.kernel]
          exact noticed_deaf ho none _ _ (hk _)
        | some bc =>
          obtain ⟨b, cred⟩ := bc
          by_cases hb : b.length ≤ 4096 ∧ ∀ x ∈ b, x < 256
          · simp only [if_pos hb, h.kernel]
            exact noticed_deaf ho (some (b, cred)) _ _ (hk _)
          · simp only [if_neg hb]
            exact .stuck h
      | _ => exact .stuck h
    · exact .stuck h
    · exact .stuck h
    · exact .stuck h
    · have hc' : c.length ≤ 4096 ∧ ∀ x ∈ c, x < 256 := hc.1
      have hd' : d.length ≤ 4096 ∧ ∀ x ∈ d, x < 256 := hd.1
      simp only [if_pos hc', if_pos hd', h.kernel]
      obtain ⟨t, ht⟩ := noticed_disregarded (env := env)
        (w := { w with kernel := w'.kernel, answers := rest }) (q := q) hc
        (by rw [h.mgr]; exact h.plain hs)
      obtain ⟨u, hu⟩ := noticed_disregarded (env := env)
        (w := { w' with kernel := w'.kernel, answers := rest' }) (q := r) hd (h.plain hs)
      refine (congrArg₂ (AlikeOut V) ht hu).mpr ?_
      have hA : Alike V
          { w with kernel := w'.kernel, answers := rest,
                   log := .datagram q t :: .received c :: w.log }
          { w' with kernel := w'.kernel, answers := rest',
                    log := .datagram r u :: .received d :: w'.log } := by
        refine ⟨h.mgr, rfl, h2, ?_, h.cron, h.plain⟩
        show (_ :: _ :: w.log).filterMap V.view = (_ :: _ :: w'.log).filterMap V.view
        simp only [List.filterMap_cons, h.log, Veil.Fits.received hs c d,
          Veil.Fits.datagram hs q r t u]
      exact .ok hA

theorem handleEvent_deaf {env : Env} (ho : Indifferent V.view env) (ev : Ready) : Deaf V (handleEvent env ev) := by
  refine .bind .emit fun _ => .get (fun w w' h => by
    obtain ⟨m, k, a, l⟩ := w
    obtain rfl : m = w'.mgr := h.mgr
    rfl) fun w => ?_
  split
  · split
    · exact handleSignal_deaf
    · split
      · exact Veil.Fits.accept env
      · split
        · exact readNotification_deaf ho
        · exact Veil.Fits.read _
  · split
    · have hdel : Deaf V (Sys.epollDel ev.fd) := fun _ _ h =>
        .ok ⟨h.mgr, by simp only [h.kernel], h.answers, h.log, h.cron, h.plain⟩
      have hclose : Deaf V (Sys.close ev.fd) := fun _ _ h =>
        .ok ⟨h.mgr, by simp only [h.kernel], h.answers, h.log, h.cron, h.plain⟩
      exact .bind .emit fun _ => .bind hdel fun _ => .bind (.when hclose) fun _ => .modify
    · exact .pure

theorem dispatchEpoll_deaf {env : Env} (ho : Indifferent V.view env) : Deaf V (dispatchEpoll env) := by
  refine .bind .emit fun _ => .bind epollWait_deaf fun r => ?_
  cases r with
  | none => exact .emit
  | some evs => exact .bind .emit fun _ => .forEach (handleEvent_deaf ho)

theorem handleFinishedChild_deaf (pid rc : Int) : Deaf V (handleFinishedChild pid rc) := by
  refine .get' (fun w w' h => by simp only [h.mgr]) fun w hw => ?_
  split
  · exact .emit
  · split
    · exact .fail
    · rename_i child hc
      refine .bind .emit fun _ => .bind (.set fun hs => (hw hs).types child (List.mem_of_getElem? hc))
        fun _ => .bind (.when ?_) fun _ => ?_
      · exact .bind .modify fun _ => initiateShutdown_deaf _
      · exact .bind .deregister fun _ =>
          .when (.get (fun w w' h => by simp only [h.mgr]) fun w => .bind .lift fun _ => .modify)

theorem lookForFinishedChildren_deaf (fuel : Nat) : Deaf V (lookForFinishedChildren fuel) := by
  induction fuel with
  | zero => exact .stop
  | succ fuel ih =>
    refine .bind wait_deaf fun r => ?_
    cases r with
    | exited pid code => exact .bind (handleFinishedChild_deaf pid code) fun _ => ih
    | killed pid sig =>
      simp only
      split
      · exact .bind (handleFinishedChild_deaf pid sig) fun _ => ih
      · exact .emit
    | alive => exact .emit
    | other => exact ih
    | error => exact .emit

theorem spawnChild_deaf (i : Nat) : Deaf V (spawnChild i) := by
  refine .get' (fun w w' h => by simp only [h.mgr]) fun w hw => ?_
  split
  · exact .fail
  · rename_i child hc
    split
    · exact .emit
    · refine .bind fork_deaf fun r => ?_
      cases r with
      | none => exact .emit
      | some t =>
        obtain ⟨pid, out, err⟩ := t
        exact .bind .emit fun _ =>
          .bind (.set fun hs => (hw hs).types child (List.mem_of_getElem? hc)) fun _ =>
          .bind (epollAdd_deaf _) fun b => .bind .emit fun _ =>
          .bind (epollAdd_deaf _) fun b => .bind .emit fun _ =>
          .bind (.register fun hs => by
            rw [← (hw hs).length]
            exact (List.getElem?_eq_some_iff.mp hc).1) fun _ => .bind .modify fun _ => .modify

theorem spawnRunnables_deaf (fuel : Nat) : Deaf V (spawnRunnables fuel) := by
  induction fuel with
  | zero => exact .pure
  | succ fuel ih =>
    refine .get (fun w w' h => by simp only [h.mgr]) fun w => ?_
    split
    · exact .pure
    · refine .bind .modify fun _ => ?_
      split
      · exact .fail
      · exact .bind (.when (spawnChild_deaf _)) fun _ => ih

/-- `spawnCronjobs` once the clock is read. -/
def ticked (env : Env) (fuel : Nat) (t : Int) : M Unit := do
  M.emit (.clock t)
  let w ← M.get
  match ← M.lift (w.mgr.cron.popRunnable env.zone t) with
  | (none, c) => modifyMgr fun m => { m with cron := c }
  | (some i, c) =>
    modifyMgr fun m => { m with cron := c }
    match w.mgr.procs[i]? with
    | none => M.fail .indexOutOfBounds
    | some _ =>
      cond (w.mgr.deps.isRunnable i) (spawnChild i) (M.emit (.postponed i))
      spawnCronjobs env fuel

theorem ticked_deaf (hs : V.still) (env : Env) (fuel : Nat) (t u : Int) {w w' : World}
    (h : Alike V w w') : AlikeOut V (ticked env fuel t w) (ticked env fuel u w') := by
  have hp : ∀ t, w'.mgr.cron.popRunnable env.zone t = .ok (none, w'.mgr.cron) := by
    intro t
    unfold Cron.popRunnable
    rw [h.cron hs]
  have hl := h.log
  unfold ticked
  show AlikeOut V (M.bind (M.emit _) _ w) (M.bind (M.emit _) _ w')
  simp only [M.bind, M.emit]
  show AlikeOut V (M.bind M.get _ _) (M.bind M.get _ _)
  simp only [M.bind, M.get]
  show AlikeOut V (M.bind (M.lift _) _ _) (M.bind (M.lift _) _ _)
  simp only [h.mgr, hp, M.bind, M.lift, M.pure]
  refine .ok ⟨rfl, h.kernel, h.answers, ?_, fun _ => h.cron hs, h.plain⟩
  show (_ :: w.log).filterMap V.view = (_ :: w'.log).filterMap V.view
  simp only [List.filterMap_cons, h.log, Veil.Fits.clock hs t u]

theorem spawnCronjobs_deaf (env : Env) (fuel : Nat) : Deaf V (spawnCronjobs env fuel) := by
  by_cases hs : V.still
  · cases fuel with
    | zero => exact .stop
    | succ fuel =>
      have e : spawnCronjobs env (fuel + 1) = Sys.now >>= ticked env fuel := rfl
      rw [e]
      intro w w' h
      show AlikeOut V (M.bind Sys.now _ w) (M.bind Sys.now _ w')
      unfold M.bind Sys.now Sys.call
      have ha := h.answers
      revert ha
      cases e : w.answers with
      | nil =>
        intro ha
        cases e' : w'.answers with
        | nil => exact .stuck h
        | cons a' rest' => rw [e'] at ha; cases ha
      | cons a rest =>
        intro ha
        cases e' : w'.answers with
        | nil => rw [e'] at ha; cases ha
        | cons a' rest' =>
        rw [e'] at ha
        obtain ⟨h1, h2⟩ := List.forall₂_cons.mp ha
        have hk : ∀ k, Alike V { w with kernel := k, answers := rest }
            { w' with kernel := k, answers := rest' } :=
          fun k => ⟨h.mgr, rfl, h2, h.log, h.cron, h.plain⟩
        rcases Veil.Mild.mild a a' h1 with rfl | ⟨r, s, rfl, rfl⟩ | ⟨r, s, rfl, rfl⟩ |
          ⟨-, t, u, ht, hu, rfl, rfl⟩ | ⟨-, c, d, q, r, -, -, rfl, rfl⟩
        · cases a with
          | now t =>
            by_cases ht : t ≤ chronoMax
            · simp only [if_pos ht, h.kernel]
              exact ticked_deaf hs env fuel t t (hk _)
            · simp only [if_neg ht]
              exact .stuck h
          | _ => exact .stuck h
        · exact .stuck h
        · exact .stuck h
        · simp only [if_pos ht, if_pos hu, h.kernel]
          exact ticked_deaf hs env fuel t u (hk _)
        · exact .stuck h
  · induction fuel with
    | zero => exact .stop
    | succ fuel ih =>
      refine .bind (now_deaf hs) fun t => .bind .emit fun _ => ?_
      refine .get (fun w w' h => by simp only [h.mgr]) fun w => .bind .lift fun r => ?_
      split
      · exact .schedule hs
      · refine .bind (.schedule hs) fun _ => ?_
        split
        · exact .fail
        · refine .bind ?_ fun _ => ih
          cases w.mgr.deps.isRunnable _ with
          | true => exact spawnChild_deaf _
          | false => exact .emit

theorem spawnChildren_deaf (env : Env) : Deaf V (spawnChildren env) :=
  .get (fun w w' h => by simp only [h.mgr]) fun _ => .bind (spawnRunnables_deaf _) fun _ =>
    .get (fun w w' h => by simp only [h.length]) fun _ => spawnCronjobs_deaf env _

theorem mainLoop_deaf {env : Env} (ho : Indifferent V.view env) (fuel : Nat) : Deaf V (mainLoop env fuel) := by
  induction fuel with
  | zero => exact .stop
  | succ fuel ih =>
    refine .get (fun w w' h => by simp only [h.mgr]) fun w => ?_
    split
    · exact .bind (spawnChildren_deaf env) fun _ => .bind (dispatchEpoll_deaf ho) fun _ =>
        .get (fun w w' h => by simp only [h.length]) fun w =>
        .bind (lookForFinishedChildren_deaf _) fun _ => ih
    · exact .pure

theorem shutdownLoop_deaf {env : Env} (ho : Indifferent V.view env) (fuel : Nat) : Deaf V (shutdownLoop env fuel) := by
  induction fuel with
  | zero => exact .stop
  | succ fuel ih =>
    refine .get (fun w w' h => by simp only [h.mgr]) fun w => ?_
    split
    · exact .bind (dispatchEpoll_deaf ho) fun _ =>
        .get (fun w w' h => by simp only [h.length]) fun w =>
        .bind (lookForFinishedChildren_deaf _) fun _ => ih
    · exact .pure

theorem start_deaf {env : Env} (ho : Indifferent V.view env) : Deaf V (start env) := by
  refine .get (fun w w' h => by simp only [h.mgr]) fun w => .bind (setup_deaf _) fun ok => ?_
  split
  · exact .get (fun w w' h => by simp only [h.length]) fun w =>
      .bind (mainLoop_deaf ho _) fun _ =>
      .get (fun w w' h => by simp only [h.length]) fun w =>
      .bind (shutdownLoop_deaf ho _) fun _ => .get (fun w w' h => by simp only [h.mgr]) fun w => .bind .emit
      fun _ => .pure
  · exact .bind .emit fun _ => .pure

end Veiled

/-! ## What programs write -/

/-- What programs write is behind the veil. -/
def outputVeil : Veil := ⟨SameButOutput, heardless, False, False, 0⟩

/-- `printChildOutput` once the bytes are read. -/
def printed (fd : Int) (bytes : List Nat) : M Unit := do
  M.emit (.chunk fd bytes)
  let w ← M.get
  let child ← M.lift (w.mgr.processForFd fd)
  M.forEach (fun line => M.when (¬ line.isEmpty) (M.emit (.line (w.mgr.isStdout fd) child.name line)))
    (lines (fromUtf8Lossy bytes))

theorem lines_unheard {o : Bool} {n : Str} {ls : List Str} {w : World} :
    ∃ l, M.forEach (fun line => M.when (¬ line.isEmpty) (M.emit (.line o n line))) ls w =
      .ok () { w with log := l } ∧ unheard l = unheard w.log := by
  induction ls generalizing w with
  | nil => exact ⟨w.log, rfl, rfl⟩
  | cons a ls ih =>
    simp only [M.forEach]
    show ∃ l, M.bind _ _ w = _ ∧ _
    unfold M.bind M.when
    by_cases ha : a.isEmpty
    · simp only [ha, not_true_eq_false, if_false, M.pure]
      exact ih
    · simp only [ha, Bool.false_eq_true, not_false_eq_true, if_true, M.emit]
      obtain ⟨l, h1, h2⟩ := ih (w := { w with log := .line o n a :: w.log })
      exact ⟨l, h1, h2⟩

theorem printed_deaf (fd : Int) (b c : List Nat) {w w' : World} (h : Alike outputVeil w w') :
    AlikeOut outputVeil (printed fd b w) (printed fd c w') := by
  unfold printed
  have hl : w.log.filterMap heardless = w'.log.filterMap heardless := h.log
  show AlikeOut outputVeil (M.bind (M.emit _) _ w) (M.bind (M.emit _) _ w')
  simp only [M.bind, M.emit]
  show AlikeOut outputVeil (M.bind M.get _ _) (M.bind M.get _ _)
  simp only [M.bind, M.get]
  show AlikeOut outputVeil (M.bind (M.lift _) _ _) (M.bind (M.lift _) _ _)
  simp only [h.mgr]
  cases w'.mgr.processForFd fd with
  | err e => exact nomatch e
  | panic p => exact .panic ⟨rfl, h.kernel, h.answers, by simp [outputVeil, heardless, hl], h.cron, h.plain⟩
  | ok child =>
    simp only [M.bind, M.lift, M.pure]
    obtain ⟨l, h1, h2⟩ := lines_unheard (o := w'.mgr.isStdout fd) (n := child.name)
      (ls := lines (fromUtf8Lossy b)) (w := { w with mgr := w'.mgr, log := .chunk fd b :: w.log })
    obtain ⟨l', h3, h4⟩ := lines_unheard (o := w'.mgr.isStdout fd) (n := child.name)
      (ls := lines (fromUtf8Lossy c)) (w := { w' with log := .chunk fd c :: w'.log })
    refine (congrArg₂ (AlikeOut outputVeil) h1 h3).mpr ?_
    exact .ok ⟨rfl, h.kernel, h.answers, by
      show unheard l = unheard l'
      rw [h2, h4]; simp [unheard, heardless, hl], h.cron, h.plain⟩

theorem printChildOutput_deaf (fd : Int) : Deaf outputVeil (printChildOutput fd) := by
  intro w w' h
  have e : printChildOutput fd = Sys.read >>= fun r => match r with
    | none => M.emit .failed
    | some bytes => printed fd bytes := rfl
  rw [e]
  show AlikeOut outputVeil (M.bind Sys.read _ w) (M.bind Sys.read _ w')
  unfold M.bind Sys.read Sys.call
  have ha := h.answers
  revert ha
  cases hw : w.answers with
  | nil =>
    intro ha
    cases hw' : w'.answers with
    | nil => exact .stuck h
    | cons a' rest' => rw [hw'] at ha; cases ha
  | cons a rest =>
    intro ha
    cases hw' : w'.answers with
    | nil => rw [hw'] at ha; cases ha
    | cons a' rest' =>
    rw [hw'] at ha
    obtain ⟨h1, h2⟩ := List.forall₂_cons.mp ha
    have hk : ∀ k, Alike outputVeil { w with kernel := k, answers := rest }
        { w' with kernel := k, answers := rest' } := fun k => ⟨h.mgr, rfl, h2, h.log, h.cron, h.plain⟩
    cases h1 with
    | output b c hb hc =>
      have hb' : b.length ≤ 4096 ∧ ∀ x ∈ b, x < 256 := hb
      have hc' : c.length ≤ 4096 ∧ ∀ x ∈ c, x < 256 := hc
      simp only [if_pos hb', if_pos hc', h.kernel]
      exact printed_deaf fd b c (hk _)
    | same =>
      cases a with
      | read r =>
        cases r with
        | none => 
          simp only [h.kernel]
          exact Deaf.emit (V := outputVeil) _ _ (hk _)
        | some b =>
          by_cases hb : b.length ≤ 4096 ∧ ∀ x ∈ b, x < 256
          · simp only [if_pos hb, h.kernel]
            exact printed_deaf fd b b (hk _)
          · simp only [if_neg hb]
            exact .stuck h
      | _ => exact .stuck h

instance outputVeil_fits : outputVeil.Fits where
  clock h := h.elim
  received h := h.elim
  datagram h := h.elim
  mild a b h := by
    cases h with
    | same => exact .inl rfl
    | output b c => exact .inr (.inl ⟨_, _, rfl, rfl⟩)
  read := printChildOutput_deaf
  accept env := by
    refine .bind (.call fun k a b h => ?_) fun r => ?_
    · cases h <;> rfl
    · cases r with
      | none => exact .emit
      | some wrote =>
        exact .get (fun w w' h => by simp only [h.mgr]) fun w => .bind .lift fun text => .emit

/-! ## What becomes of clients -/

/-- Whether clients wait for their reports is behind the veil. -/
def clientVeil : Veil := ⟨SameButClients, clientless, False, False, 0⟩

/-- `reportStatus` once the client is accepted. -/
def answered (env : Env) (wrote : Bool) : M Unit := do
  let w ← M.get
  let text ← M.lift (w.mgr.formatReport env)
  M.emit (if wrote then .report text else .failed)

theorem answered_deaf (env : Env) (b c : Bool) {w w' : World} (h : Alike clientVeil w w') :
    AlikeOut clientVeil (answered env b w) (answered env c w') := by
  unfold answered
  show AlikeOut clientVeil (M.bind M.get _ w) (M.bind M.get _ w')
  simp only [M.bind, M.get]
  show AlikeOut clientVeil (M.bind (M.lift _) _ w) (M.bind (M.lift _) _ w')
  rw [h.mgr]
  cases w'.mgr.formatReport env with
  | err e => exact nomatch e
  | panic p => exact .panic h
  | ok text =>
    have hv : ∀ b : Bool, clientless (if b then .report text else .failed) =
        some .failed := by
      intro b
      cases b <;> rfl
    refine .ok ⟨h.mgr, h.kernel, h.answers, ?_, h.cron, h.plain⟩
    show (_ :: w.log).filterMap clientless = (_ :: w'.log).filterMap clientless
    simp only [List.filterMap_cons, hv]
    exact congrArg _ h.log

instance clientVeil_fits : clientVeil.Fits where
  clock h := h.elim
  received h := h.elim
  datagram h := h.elim
  mild a b h := by
    cases h with
    | same => exact .inl rfl
    | client b c => exact .inr (.inr (.inl ⟨_, _, rfl, rfl⟩))
  read fd := by
    refine .bind (.call fun k a b h => ?_) fun r => ?_
    · cases h <;> rfl
    · cases r with
      | none => exact .emit
      | some bytes =>
        exact .bind .emit fun _ => .get (fun w w' h => by simp only [h.mgr]) fun w =>
          .bind .lift fun child => .forEach fun line => .when .emit
  accept env := by
    intro w w' h
    show AlikeOut clientVeil (M.bind Sys.accept _ w) (M.bind Sys.accept _ w')
    unfold M.bind Sys.accept Sys.call
    have ha := h.answers
    have hl : w.log.filterMap clientless = w'.log.filterMap clientless := h.log
    revert ha
    cases e : w.answers with
    | nil =>
      intro ha
      cases e' : w'.answers with
      | nil => exact .stuck h
      | cons a' rest' => rw [e'] at ha; cases ha
    | cons a rest =>
      intro ha
      cases e' : w'.answers with
      | nil => rw [e'] at ha; cases ha
      | cons a' rest' =>
      rw [e'] at ha
      obtain ⟨h1, h2⟩ := List.forall₂_cons.mp ha
      have hk : ∀ k, Alike clientVeil { w with kernel := k, answers := rest }
          { w' with kernel := k, answers := rest' } := fun k => ⟨h.mgr, rfl, h2, h.log, h.cron, h.plain⟩
      have hs : ∀ b c : Bool, AlikeOut clientVeil
          (answered env b { w with kernel := w'.kernel, answers := rest })
          (answered env c { w' with kernel := w'.kernel, answers := rest' }) :=
        fun b c => answered_deaf env b c (hk _)
      cases h1 with
      | client b c =>
        simp only [h.kernel]
        exact hs b c
      | same =>
        cases a with
        | accept r =>
          cases r with
          | none =>
            simp only [h.kernel]
            exact Deaf.emit (V := clientVeil) _ _ (hk _)
          | some b =>
            simp only [h.kernel]
            exact hs b b
        | _ => exact .stuck h

/-! ## The clock -/

/-- The clock is behind the veil, without cronjobs. -/
def clockVeil : Veil := ⟨SameButTime, timeless, True, False, 0⟩

instance clockVeil_fits : clockVeil.Fits where
  clock _ _ _ := rfl
  received h := h.elim
  datagram h := h.elim
  mild a b h := by
    cases h with
    | same => exact .inl rfl
    | time t u ht hu => exact .inr (.inr (.inr (.inl ⟨trivial, _, _, ht, hu, rfl, rfl⟩)))
  read fd := by
    refine .bind (.call fun k a b h => ?_) fun r => ?_
    · cases h <;> rfl
    · cases r with
      | none => exact .emit
      | some bytes =>
        exact .bind .emit fun _ => .get (fun w w' h => by simp only [h.mgr]) fun w =>
          .bind .lift fun child => .forEach fun line => .when .emit
  accept env := by
    refine .bind (.call fun k a b h => ?_) fun r => ?_
    · cases h <;> rfl
    · cases r with
      | none => exact .emit
      | some wrote =>
        exact .get (fun w w' h => by simp only [h.mgr]) fun w => .bind .lift fun text => .emit

/-! ## What messages say -/

/-- What messages say and who sends them is behind the veil, without programs of type notify. -/
def messageVeil (n : Nat) : Veil := ⟨SameButMessages, wordless, False, True, n⟩

instance messageVeil_fits (n : Nat) : (messageVeil n).Fits where
  clock h := h.elim
  received _ _ _ := rfl
  datagram _ _ _ _ _ := rfl
  mild a b h := by
    cases h with
    | same => exact .inl rfl
    | message b c q r hb hc =>
      exact .inr (.inr (.inr (.inr ⟨trivial, _, _, _, _, hb, hc, rfl, rfl⟩)))
  read fd := by
    refine .bind (.call fun k a b h => ?_) fun r => ?_
    · cases h <;> rfl
    · cases r with
      | none => exact .emit
      | some bytes =>
        exact .bind .emit fun _ => .get (fun w w' h => by simp only [h.mgr]) fun w =>
          .bind .lift fun child => .forEach fun line => .when .emit
  accept env := by
    refine .bind (.call fun k a b h => ?_) fun r => ?_
    · cases h <;> rfl
    · cases r with
      | none => exact .emit
      | some wrote =>
        exact .get (fun w w' h => by simp only [h.mgr]) fun w => .bind .lift fun text => .emit

end Cinit
