import Verif.Spec.Tale
import Verif.Proofs.Narration
/-!
# The log tells what happens, in order
-/

namespace Cinit

open M Manager Logging Spec

variable {α β : Type} {ps : List ProcessConfig}

def Out.isStuck : Out α → Prop
  | .stuck _ => True
  | _ => False

/-- What is fixed about programs. -/
def Static (ps : List ProcessConfig) (m : Manager) : Prop :=
  ∀ i p, m.procs[i]? = some p → ∃ c, ps[i]? = some c ∧ c.name = p.name ∧
    (p.ptype = .cronjob ↔ isCronjob ps i) ∧ (p.ptype = .notify ↔ isNotify ps i)

/-- The entries of a part of a run tell what happens in it. -/
structure Told (ps : List ProcessConfig) (w : World) (r : Out α × List Entry) : Prop where
  items : ∃ es rest, r.2 = es ++ rest ∧ tale ps r.1.log = tale ps w.log ++ es.filterMap itemOf ∧
    (rest = [] ∨ r.1.isStuck ∧ ∃ c ∈ ps, rest = Narrated.entries Narrated.inProcess [.starting c.name])
  own : ∀ target msg, .own target msg ∈ r.2 → target ∈ ownTargets ∧
    Possible (ps.map (·.name)) (textsReceived r.1.log) msg
  texts : ∀ t ∈ textsReceived w.log, t ∈ textsReceived r.1.log
  static : Static ps r.1.world.mgr

/-- Wherever it begins. -/
def Speaks (ps : List ProcessConfig) (n : N α) : Prop := ∀ w, Static ps w.mgr → Told ps w (n w)

theorem possible_mono {names texts texts' : List Str} {msg : Msg} (h : Possible names texts msg)
    (ht : ∀ t ∈ texts, t ∈ texts') : Possible names texts' msg := by
  cases msg with
  | unexpected k v => obtain ⟨t, h1, h2⟩ := h; exact ⟨t, ht t h1, h2⟩
  | status n v => obtain ⟨h0, t, h1, h2⟩ := h; exact ⟨h0, t, ht t h1, h2⟩
  | badMainpid v e => obtain ⟨⟨t, h1, h2⟩, h3⟩ := h; exact ⟨⟨t, ht t h1, h2⟩, h3⟩
  | received m p => exact ht m h
  | ignored k v => obtain ⟨t, h1, h2⟩ := h; exact ⟨t, ht t h1, h2⟩
  | unparsed l => obtain ⟨t, h1, h2⟩ := h; exact ⟨t, ht t h1, h2⟩
  | _ => exact h

namespace Told

theorem bind {n : N α} {f : α → N β} {w : World} (h : Told ps w (n w))
    (hf : ∀ a w', (n w).1 = .ok a w' → Told ps w' (f a w')) : Told ps w ((n >>= f) w) := by
  show Told ps w (N.bind n f w)
  unfold N.bind
  revert h hf
  rcases n w with ⟨o, es⟩
  intro h hf
  cases o with
  | panic p w' => exact ⟨h.items, h.own, h.texts, h.static⟩
  | stuck w' => exact ⟨h.items, h.own, h.texts, h.static⟩
  | ok a w' =>
    have h2 := hf a w' rfl
    dsimp only
    obtain ⟨e1, r1, g1, g2, g3⟩ := h.items
    have hr : r1 = [] := by
      rcases g3 with g | ⟨g, -⟩
      · exact g
      · exact g.elim
    subst hr
    obtain ⟨e2, r2, k1, k2, k3⟩ := h2.items
    refine ⟨⟨e1 ++ e2, r2, ?_, ?_, k3⟩, ?_, fun t ht => h2.texts t (h.texts t ht), h2.static⟩
    · have g1 : es = e1 ++ [] := g1
      rw [g1, k1]; simp
    · have g2 : tale ps w'.log = _ := g2
      rw [k2, g2, List.filterMap_append, List.append_assoc]
    · intro target msg hm
      rcases List.mem_append.mp hm with hm | hm
      · exact ⟨(h.own _ _ hm).1, possible_mono (h.own _ _ hm).2 h2.texts⟩
      · exact h2.own _ _ hm

/-- Nothing is told by what writes nothing and does nothing of interest. -/
theorem quiet {w : World} {o : Out α} (h1 : tale ps o.log = tale ps w.log)
    (h2 : textsReceived o.log = textsReceived w.log) (h3 : Static ps o.world.mgr) :
    Told ps w (o, []) :=
  ⟨⟨[], [], rfl, by simp [h1], .inl rfl⟩, (fun _ _ h => nomatch h), (fun t ht => h2 ▸ ht), h3⟩

end Told

namespace Speaks

theorem ret {a : α} : Speaks ps (N.pure a) := fun _ hs => .quiet rfl rfl hs

theorem fail {p : Panic} : Speaks ps (liftM (M.fail p : M α) : N α) := fun _ hs => .quiet rfl rfl hs

theorem stop : Speaks ps (liftM (M.stop : M α) : N α) := fun _ hs => .quiet rfl rfl hs

theorem seq {n : N α} {f : α → N β} (h : Speaks ps n) (hf : ∀ a, Speaks ps (f a)) :
    Speaks ps (n >>= f) := by
  intro w hs
  refine (h w hs).bind fun a w' e => hf a w' ?_
  have := (h w hs).static
  rw [e] at this
  exact this

theorem get {f : World → N β} (hf : ∀ w, Static ps w.mgr → Told ps w (f w w)) :
    Speaks ps ((liftM M.get : N World) >>= f) := by
  intro w hs
  exact Told.bind (n := (liftM M.get : N World)) (.quiet rfl rfl hs) fun a w' e => by cases e; exact hf w hs

theorem get' {f : World → N β} (hf : ∀ w, Static ps w.mgr → Speaks ps (f w)) :
    Speaks ps ((liftM M.get : N World) >>= f) := get fun w hs => hf w hs w hs

theorem call {f : Kernel → Answer → Option (α × Kernel)} :
    Speaks ps (liftM (Sys.call f) : N α) := by
  intro w hs
  show Told ps w (Sys.call f w, [])
  unfold Sys.call
  split
  · exact .quiet rfl rfl hs
  · split
    · exact .quiet rfl rfl hs
    · exact .quiet rfl rfl hs

theorem lift {r : Res Empty α} : Speaks ps (liftM (M.lift r) : N α) := by
  cases r with
  | ok a => exact ret
  | err e => exact nomatch e
  | panic p => exact fail

/-- Events of no interest. -/
theorem emit {e : Event} (h1 : ∀ past, Spec.items ps past e = []) (h2 : ∀ q t, e ≠ .datagram q t) :
    Speaks ps (liftM (M.emit e) : N Unit) := by
  intro w hs
  refine .quiet ?_ ?_ hs
  · show tale ps (e :: w.log) = _
    rw [tale, h1, List.append_nil]
  · show textsReceived (e :: w.log) = _
    cases e <;> first | rfl | exact absurd rfl (h2 _ _)

theorem modify {f : Manager → Manager} (h : ∀ m, (f m).procs = m.procs) :
    Speaks ps (liftM (modifyMgr f) : N Unit) := by
  intro w hs
  refine .quiet rfl rfl ?_
  intro i p hp
  exact hs i p (by rw [← h]; exact hp)

theorem when {c : Prop} [Decidable c] {n : N Unit} (h : Speaks ps n) : Speaks ps (N.when c n) := by
  unfold N.when
  split
  · exact h
  · exact ret

theorem forEach {f : α → N Unit} {l : List α} (h : ∀ a, Speaks ps (f a)) :
    Speaks ps (N.forEach f l) := by
  induction l with
  | nil => exact ret
  | cons a l ih => exact seq (h a) fun _ => ih

/-- Messages of no interest. -/
theorem write {es : List Entry} (h1 : es.filterMap itemOf = [])
    (h2 : ∀ target msg, .own target msg ∈ es → target ∈ ownTargets ∧
      ∀ texts, Possible (ps.map (·.name)) texts msg) : Speaks ps (N.write es) := by
  intro w hs
  exact ⟨⟨es, [], by simp [N.write], by rw [h1]; simp [N.write, Out.log], .inl rfl⟩,
    fun t m hm => ⟨(h2 t m hm).1, (h2 t m hm).2 _⟩, fun _ h => h, hs⟩

theorem say {module : List Str} {msg : Msg} (h1 : itemOf (.own [] msg) = none)
    (h2 : "cinit".toList :: "runtime".toList :: module ∈ ownTargets)
    (h3 : ∀ texts, Possible (ps.map (·.name)) texts msg) : Speaks ps (N.say module msg) := by
  refine write ?_ ?_
  · have : itemOf (.own ("cinit".toList :: "runtime".toList :: module) msg) = none := by
      rw [← h1]; cases msg <;> rfl
    rw [List.filterMap_cons, this]; rfl
  · intro t m hm
    simp only [List.mem_singleton, Entry.own.injEq] at hm
    obtain ⟨rfl, rfl⟩ := hm
    exact ⟨h2, h3⟩

/-- An event of interest, and the entries about it. -/
theorem event {e : Event} {es : List Entry} {w : World} (hs : Static ps w.mgr)
    (h1 : Spec.items ps w.log e = es.filterMap itemOf) (h0 : ∀ q t, e ≠ .datagram q t)
    (h2 : ∀ target msg, .own target msg ∈ es → target ∈ ownTargets ∧
      ∀ texts, Possible (ps.map (·.name)) texts msg) :
    Told ps w (((liftM (M.emit e) : N Unit) >>= fun _ => N.write es) w) := by
  show Told ps w (.ok () { w with log := e :: w.log }, [] ++ es)
  refine ⟨⟨es, [], by simp, ?_, .inl rfl⟩, ?_, ?_, hs⟩
  · show tale ps (e :: w.log) = _
    rw [tale, h1]
  · intro t m hm
    exact ⟨(h2 t m hm).1, (h2 t m hm).2 _⟩
  · intro t ht
    show t ∈ textsReceived (e :: w.log)
    cases e <;> first | exact ht | exact absurd rfl (h0 _ _)

end Speaks

theorem N.assoc {γ : Type} (x : N α) (f : α → N β) (g : β → N γ) :
    (x >>= f) >>= g = x >>= fun a => f a >>= g := by
  funext w
  show N.bind (N.bind x f) g w = N.bind x (fun a => N.bind (f a) g) w
  unfold N.bind
  rcases x w with ⟨o, es⟩
  cases o with
  | ok a w' =>
    dsimp only
    rcases f a w' with ⟨o', es'⟩
    cases o' <;> simp
  | panic p w' => rfl
  | stuck w' => rfl


theorem Speaks.mseq {x : M α} {f : α → M β} (h : Speaks ps (liftM x : N α))
    (hf : ∀ a, Speaks ps (liftM (f a) : N β)) : Speaks ps (liftM (x >>= f) : N β) := by
  have : (liftM (x >>= f) : N β) = (liftM x : N α) >>= fun a => (liftM (f a) : N β) := by
    funext w
    show (M.bind x f w, []) = N.bind (N.lift x) (fun a => N.lift (f a)) w
    unfold M.bind N.bind N.lift
    cases x w <;> rfl
  rw [this]
  exact seq h hf

theorem Speaks.mforEach {f : α → M Unit} {l : List α} (h : ∀ a, Speaks ps (liftM (f a) : N Unit)) :
    Speaks ps (liftM (M.forEach f l) : N Unit) := by
  induction l with
  | nil => exact ret
  | cons a l ih => exact mseq (h a) fun _ => ih

theorem Speaks.set {i : Nat} {p : Process} (h : ∃ c, ps[i]? = some c ∧ c.name = p.name ∧
    (p.ptype = .cronjob ↔ isCronjob ps i) ∧ (p.ptype = .notify ↔ isNotify ps i)) :
    Speaks ps (liftM (modifyMgr (setProc i p)) : N Unit) := by
  intro w hs
  refine .quiet rfl rfl ?_
  intro j q hq
  have hq' : (w.mgr.procs.set i p)[j]? = some q := hq
  rw [List.getElem?_set] at hq'
  split at hq'
  · rename_i hij
    subst hij
    split at hq'
    · cases hq'; exact h
    · cases hq'
  · exact hs j q hq'

theorem call_cases {f : Kernel → Answer → Option (α × Kernel)} (w : World) :
    Sys.call f w = .stuck w ∨
      ∃ r k rest, Sys.call f w = .ok r { w with kernel := k, answers := rest } := by
  unfold Sys.call
  split
  · exact .inl rfl
  · split
    · exact .inl rfl
    · exact .inr ⟨_, _, _, rfl⟩

/-- What was announced happens. -/
theorem Told.paid {r : Out α × List Entry} {w w' : World} {e : Event} {es : List Entry}
    (h : Told ps { w' with log := e :: w'.log } r) (hl : w'.log = w.log)
    (h1 : Spec.items ps w.log e = es.filterMap itemOf) (h0 : ∀ q t, e ≠ .datagram q t)
    (h2 : ∀ target msg, .own target msg ∈ es → target ∈ ownTargets ∧
      ∀ texts, Possible (ps.map (·.name)) texts msg) : Told ps w (r.1, es ++ r.2) := by
  obtain ⟨e1, r1, g1, g2, g3⟩ := h.items
  refine ⟨⟨es ++ e1, r1, by simp [g1], ?_, g3⟩, ?_, ?_, h.static⟩
  · dsimp only at g2 ⊢
    rw [g2, tale, hl, h1, List.filterMap_append, List.append_assoc]
  · intro t m hm
    rcases List.mem_append.mp hm with hm | hm
    · exact ⟨(h2 t m hm).1, (h2 t m hm).2 _⟩
    · exact h.own t m hm
  · intro t ht
    refine h.texts t ?_
    show t ∈ textsReceived (e :: w'.log)
    rw [hl]
    cases e <;> first | exact ht | exact absurd rfl (h0 _ _)

namespace Narrated

open Speaks

variable (v : Voice) (env : Env)

theorem mem_entries {module : List Str} {msgs : List Msg} {target : List Str} {msg : Msg}
    (h : Entry.own target msg ∈ entries module msgs) :
    target = "cinit".toList :: "runtime".toList :: module ∧ msg ∈ msgs := by
  simp only [entries, List.mem_map, Entry.own.injEq] at h
  obtain ⟨a, h1, rfl, rfl⟩ := h
  exact ⟨rfl, h1⟩

theorem placed_process : "cinit".toList :: "runtime".toList :: inProcess ∈ ownTargets := by decide
theorem placed_graph : "cinit".toList :: "runtime".toList :: inGraph ∈ ownTargets := by decide
theorem placed_cron : "cinit".toList :: "runtime".toList :: inCron ∈ ownTargets := by decide
theorem placed_manager : "cinit".toList :: "runtime".toList :: inManager ∈ ownTargets := by decide
theorem placed_notify : "cinit".toList :: "runtime".toList :: inNotify ∈ ownTargets := by decide
theorem placed_status : "cinit".toList :: "runtime".toList :: inStatus ∈ ownTargets := by decide

theorem fixed_speaks {module : List Str} {l : Level} {s : Str}
    (h2 : "cinit".toList :: "runtime".toList :: module ∈ ownTargets) (h : (l, s) ∈ fixedMessages) :
    Speaks ps (N.say module (.fixed l s)) := say rfl h2 fun _ => h

theorem failure_speaks {module : List Str} {l : Level} {s : Str} {log : Log}
    (h2 : "cinit".toList :: "runtime".toList :: module ∈ ownTargets) (h : s ∈ failureTexts) :
    Speaks ps (N.say module (.failure l s (v.error log))) :=
  say rfl h2 fun _ => ⟨h, v.error_line _⟩

theorem reportStatus_speaks : Speaks ps (reportStatus v env) := by
  refine seq call fun r => ?_
  cases r with
  | none =>
    refine get' fun w _ => seq (emit (fun _ => rfl) (fun _ _ h => by cases h)) fun _ => ?_
    exact failure_speaks v placed_status (by decide)
  | some wrote =>
    refine get' fun w _ => seq lift fun text => seq ?_ fun _ => when ?_
    · cases wrote
      · exact emit (fun _ => rfl) (fun _ _ h => by cases h)
      · exact emit (fun _ => rfl) (fun _ _ h => by cases h)
    · exact failure_speaks v placed_status (by decide)

theorem signalChildren_speaks (sig : Nat) : Speaks ps (signalChildren sig) := by
  refine seq (fixed_speaks placed_manager (by decide)) fun _ => ?_
  refine mseq (x := M.get) (fun w hs => .quiet rfl rfl hs) fun w => mforEach fun child => ?_
  refine mseq call fun b => ?_
  cases b with
  | true => exact emit (fun _ => rfl) (fun _ _ h => by cases h)
  | false => exact fail

theorem initiateShutdown_speaks (sig : Nat) : Speaks ps (initiateShutdown sig) :=
  seq (fixed_speaks placed_manager (by decide)) fun _ => seq (modify fun _ => rfl) fun _ =>
    signalChildren_speaks sig

theorem handleSignal_speaks : Speaks ps (handleSignal v) := by
  refine seq call fun r => ?_
  cases r with
  | none =>
    refine get' fun w _ => seq (emit (fun _ => rfl) (fun _ _ h => by cases h)) fun _ => ?_
    split
    · exact fixed_speaks placed_manager (by decide)
    · exact failure_speaks v placed_manager (by decide)
  | some n =>
    refine get' fun w _ => seq (emit (fun _ => rfl) (fun _ _ h => by cases h)) fun _ => ?_
    split
    · exact initiateShutdown_speaks n
    · exact seq (when (initiateShutdown_speaks _)) fun _ => when (say rfl placed_manager fun _ => trivial)

theorem printChildOutput_speaks (fd : Int) : Speaks ps (printChildOutput fd) := by
  refine seq call fun r => ?_
  cases r with
  | none => exact emit (fun _ => rfl) (fun _ _ h => by cases h)
  | some bytes =>
    refine seq (emit (fun _ => rfl) (fun _ _ h => by cases h)) fun _ => get' fun w _ => seq lift
      fun child => forEach fun line => when fun w' hs => event hs rfl (fun _ _ h => by cases h) ?_
    intro target msg hm
    simp at hm

theorem name_mem {i : Nat} {c : ProcessConfig} (h : ps[i]? = some c) : c.name ∈ ps.map (·.name) :=
  List.mem_map.mpr ⟨c, List.mem_of_getElem? h, rfl⟩

theorem graph_speaks {d : DepMgr} {i : Nat} : Speaks ps (N.write (entries inGraph (finishedMessages d i))) := by
  unfold finishedMessages
  cases d.nodes.get? i with
  | none => exact write rfl fun _ _ h => by cases h
  | some n =>
    dsimp only
    split
    · refine write rfl fun t m h => ?_
      obtain ⟨rfl, h'⟩ := mem_entries h
      simp only [List.mem_singleton] at h'
      subst h'
      exact ⟨placed_graph, fun _ => trivial⟩
    · exact write rfl fun _ _ h => by cases h

theorem handleFinishedChild_speaks (pid rc : Int) : Speaks ps (handleFinishedChild pid rc) := by
  refine get fun w hs => ?_
  cases w.mgr.processIdForPid pid with
  | none =>
    refine event hs rfl (fun _ _ h => by cases h) fun t m h => ?_
    obtain ⟨rfl, h'⟩ := mem_entries h
    simp only [List.mem_cons, List.not_mem_nil, or_false] at h'
    rcases h' with rfl | rfl <;> exact ⟨placed_manager, fun _ => trivial⟩
  | some i =>
    dsimp only
    cases hc : w.mgr.procs[i]? with
    | none => exact fail w hs
    | some child =>
      obtain ⟨c, hc1, hc2, hc3, hc4⟩ := hs i child hc
      dsimp only
      rw [← N.assoc]
      have hev : Told ps w (((liftM (M.emit (.waited pid rc (some i))) : N Unit) >>= fun _ =>
          N.write (entries inManager (endMessages child rc))) w) := by
        refine event hs ?_ (fun _ _ h => by cases h) fun t m h => ?_
        · simp only [Spec.items, lifeMessages, hc1, Option.toList_some, List.flatMap_cons,
            List.flatMap_nil, List.append_nil]
          unfold Logging.endMessages endMessages
          split
          · have hcron : isCronjob ps i ↔ ∃ t, c.ptype = .cronJob t := by simp [isCronjob, hc1]
            by_cases ht : child.ptype = .cronjob
            · obtain ⟨t, ht'⟩ := hcron.mp (hc3.mp ht)
              rw [if_pos ht, ht', hc2]
              rfl
            · rw [if_neg ht]
              cases hp : c.ptype with
              | cronJob t => exact absurd (hc3.mpr (hcron.mpr ⟨t, hp⟩)) ht
              | oneshot => rw [hc2]; rfl
              | notify => rw [hc2]; rfl
          · rw [hc2]; rfl
        · obtain ⟨rfl, h'⟩ := mem_entries h
          refine ⟨placed_manager, fun _ => ?_⟩
          have hn := name_mem hc1
          rw [hc2] at hn
          unfold endMessages at h'
          split at h'
          · split at h' <;> simp only [List.mem_cons, List.not_mem_nil, or_false] at h' <;>
              rcases h' with rfl | rfl <;> exact hn
          · simp only [List.mem_cons, List.not_mem_nil, or_false] at h'
            rcases h' with rfl | rfl <;> exact hn
      refine hev.bind fun a w' e => ?_
      have hs' : Static ps w'.mgr := by
        have := hev.static
        rw [e] at this
        exact this
      refine seq (set ?_) (fun _ => seq (when (c := rc ≠ 0) ?_) fun _ =>
        seq (f := fun _ => N.when (child.ptype ≠ .cronjob) _) (modify (f := deregisterPid pid) fun _ => rfl)
          fun _ => when ?_) w' hs'
      · exact ⟨c, hc1, hc2, hc3, hc4⟩
      · exact seq (modify fun _ => rfl) fun _ => initiateShutdown_speaks _
      · exact get' fun w _ => seq graph_speaks fun _ => seq lift fun d => modify fun _ => rfl

theorem lookForFinishedChildren_speaks (fuel : Nat) :
    Speaks ps (lookForFinishedChildren v fuel) := by
  induction fuel with
  | zero => exact stop
  | succ fuel ih =>
    refine seq call fun r => ?_
    cases r with
    | exited pid code =>
      exact get' fun w _ => seq (say rfl placed_manager fun _ => trivial) fun _ =>
        seq (handleFinishedChild_speaks pid code) fun _ => ih
    | killed pid sig =>
      dsimp only
      split
      · exact get' fun w _ => seq (say rfl placed_manager fun _ => trivial) fun _ =>
          seq (handleFinishedChild_speaks pid sig) fun _ => ih
      · exact emit (fun _ => rfl) (fun _ _ h => by cases h)
    | alive => exact emit (fun _ => rfl) (fun _ _ h => by cases h)
    | other => exact get' fun w _ => seq (say rfl placed_manager fun _ => trivial) fun _ => ih
    | error => exact emit (fun _ => rfl) (fun _ _ h => by cases h)

theorem registerFd_speaks (fd : Int) : Speaks ps (registerFd fd) :=
  seq (say rfl placed_manager fun _ => trivial) fun _ => seq call fun b =>
    seq (emit (fun _ => rfl) (fun _ _ h => by cases h)) fun _ => when
      (fixed_speaks placed_manager (by decide))

/-- Messages of no interest under `cinit::runtime`. -/
theorem entries_speaks {module : List Str} {msgs : List Msg}
    (h : "cinit".toList :: "runtime".toList :: module ∈ ownTargets)
    (h1 : ∀ m ∈ msgs, itemOf (.own [] m) = none)
    (h2 : ∀ m ∈ msgs, ∀ texts, Possible (ps.map (·.name)) texts m) :
    Speaks ps (N.write (entries module msgs)) := by
  refine write ?_ fun t m hm => ?_
  · rw [List.filterMap_eq_nil_iff]
    intro e he
    simp only [entries, List.mem_map] at he
    obtain ⟨m, hm, rfl⟩ := he
    rw [← h1 m hm]
    cases m <;> rfl
  · obtain ⟨rfl, hm'⟩ := mem_entries hm
    exact ⟨h, h2 m hm'⟩

theorem mem_ptyMessages {l : Log} {p : Process} {m : Msg}
    (h : m ∈ ptyMessages v l p ∨ m ∈ ptysCreated p) : ∃ lv s, m = .fixed lv s ∧ (lv, s) ∈ fixedMessages := by
  rcases h with h | h
  · unfold ptyMessages at h
    split at h
    · rcases List.mem_append.mp h with h | h
      · split at h
        · simp only [List.mem_singleton] at h
          exact ⟨_, _, h, by decide⟩
        · cases h
      · split at h
        · simp only [List.mem_singleton] at h
          exact ⟨_, _, h, by decide⟩
        · cases h
    · cases h
  · unfold ptysCreated at h
    split at h
    · simp only [List.mem_singleton] at h
      exact ⟨_, _, h, by decide⟩
    · cases h

theorem spawnChild_speaks (i : Nat) : Speaks ps (spawnChild v i) := by
  refine get fun w hs => ?_
  cases hc : w.mgr.procs[i]? with
  | none => exact fail w hs
  | some child =>
    obtain ⟨c, hc1, hc2, hc3, hc4⟩ := hs i child hc
    have hn := name_mem hc1
    dsimp only
    split
    · refine event hs ?_ (fun _ _ h => by cases h) fun t m h => ?_
      · simp only [Spec.items, lifeMessages, hc1, Option.toList_some, List.flatMap_cons,
            List.flatMap_nil, List.append_nil, hc2]
        rfl
      · obtain ⟨rfl, h'⟩ := mem_entries h
        rw [hc2] at hn
        simp only [List.mem_cons, List.not_mem_nil, or_false] at h'
        rcases h' with rfl | rfl <;> exact ⟨placed_manager, fun _ => hn⟩
    · have hposs : ∀ target msg, Entry.own target msg ∈ entries inProcess [.starting child.name] →
          target ∈ ownTargets ∧ ∀ texts, Possible (ps.map (·.name)) texts msg := by
        intro t m h
        obtain ⟨rfl, h'⟩ := mem_entries h
        simp only [List.mem_singleton] at h'
        subst h'
        rw [hc2] at hn
        exact ⟨placed_process, fun _ => hn⟩
      show Told ps w (_, _)
      dsimp only
      rcases call_cases (f := fun k a => match a with
        | .fork none => some (none, k)
        | .fork (some (pid, out, err)) =>
          if 0 < pid ∧ pid ∉ k.children ∧ out ∉ k.fds ∧ err ∉ k.fds ∧ out ≠ err then
            some (some (pid, out, err),
              { k with children := pid :: k.children, fds := out :: err :: k.fds })
          else none
        | _ => none) w with hf | ⟨r, k, rest, hf⟩
      · have hf : Sys.fork w = .stuck w := hf
        have : ∀ g : Option (Int × Int × Int) → N Unit,
            ((liftM Sys.fork : N _) >>= g) w = (.stuck w, []) := by
          intro g
          show N.bind (N.lift Sys.fork) g w = _
          unfold N.bind N.lift
          rw [hf]
        rw [this]
        refine ⟨⟨[], _, rfl, by simp [Out.log], .inr ⟨trivial, c, List.mem_of_getElem? hc1, by rw [hc2]; rfl⟩⟩,
          fun t m hm => ?_, fun _ h => h, hs⟩
        have := hposs t m (by simpa using hm)
        exact ⟨this.1, this.2 _⟩
      · have hf : Sys.fork w = .ok r { w with kernel := k, answers := rest } := hf
        have : ∀ g : Option (Int × Int × Int) → N Unit,
            ((liftM Sys.fork : N _) >>= g) w = g r { w with kernel := k, answers := rest } := by
          intro g
          show N.bind (N.lift Sys.fork) g w = _
          unfold N.bind N.lift
          rw [hf]
          simp
        rw [this]
        cases r with
        | none =>
          have hrest : Speaks ps (do
              N.write (entries inProcess (ptyMessages v w.log child ++
                if v.noFork w.log then ptysCreated child ++ [.fixed .error "Forking failed".toList]
                else if v.ptysCreated w.log then ptysCreated child else []))
              N.say inManager (.failure .error "Failed to spawn child".toList (v.error w.log)) : N Unit) := by
            refine seq ?_ fun _ => failure_speaks v placed_manager (by decide)
            have hall : ∀ m ∈ ptyMessages v w.log child ++
                (if v.noFork w.log then ptysCreated child ++ [.fixed .error "Forking failed".toList]
                else if v.ptysCreated w.log then ptysCreated child else []),
                ∃ lv s, m = .fixed lv s ∧ (lv, s) ∈ fixedMessages := by
              intro m hm
              rcases List.mem_append.mp hm with hm | hm
              · exact mem_ptyMessages v (.inl hm)
              · split at hm
                · rcases List.mem_append.mp hm with hm | hm
                  · exact mem_ptyMessages v (l := []) (.inr hm)
                  · simp only [List.mem_singleton] at hm
                    exact ⟨_, _, hm, by decide⟩
                · split at hm
                  · exact mem_ptyMessages v (l := []) (.inr hm)
                  · cases hm
            refine entries_speaks placed_process ?_ ?_
            · intro m hm
              obtain ⟨_, _, rfl, -⟩ := hall m hm
              rfl
            · intro m hm texts
              obtain ⟨_, _, rfl, h⟩ := hall m hm
              exact h
          refine Told.paid (w' := { w with kernel := k, answers := rest }) (e := .spawnFailed i)
            (hrest _ hs) rfl ?_ (fun _ _ h => by cases h) hposs
          simp only [Spec.items, lifeMessages, hc1, Option.toList_some, List.map_cons, List.map_nil, hc2]
          rfl
        | some t =>
          obtain ⟨pid, out, err⟩ := t
          have hrest : Speaks ps (do
              N.write (entries inProcess (ptyMessages v w.log child ++ ptysCreated child ++
                [.startedName child.name, .startedPid pid]))
              M.modifyMgr (setProc i (child.started pid))
              registerFd out
              registerFd err
              M.modifyMgr (registerPid i pid)
              M.modifyMgr (registerStdout i out)
              M.modifyMgr (registerStderr i err) : N Unit) := by
            refine seq ?_ fun _ => seq (set ⟨c, hc1, hc2, hc3, hc4⟩) fun _ => seq (registerFd_speaks out)
              fun _ => seq (registerFd_speaks err) fun _ => seq (modify fun _ => rfl) fun _ =>
                seq (modify fun _ => rfl) fun _ => modify fun _ => rfl
            refine entries_speaks placed_process ?_ ?_
            · intro m hm
              rcases List.mem_append.mp hm with hm | hm
              · obtain ⟨_, _, rfl, -⟩ := mem_ptyMessages v (List.mem_append.mp hm)
                rfl
              · simp only [List.mem_cons, List.not_mem_nil, or_false] at hm
                rcases hm with rfl | rfl <;> rfl
            · intro m hm texts
              rcases List.mem_append.mp hm with hm | hm
              · obtain ⟨_, _, rfl, h⟩ := mem_ptyMessages v (List.mem_append.mp hm)
                exact h
              · simp only [List.mem_cons, List.not_mem_nil, or_false] at hm
                rw [hc2] at hn
                rcases hm with rfl | rfl
                · exact hn
                · trivial
          refine Told.paid (w' := { w with kernel := k, answers := rest }) (e := .spawned i pid out err)
            (hrest _ hs) rfl ?_ (fun _ _ h => by cases h) hposs
          simp only [Spec.items, lifeMessages, hc1, Option.toList_some, List.map_cons, List.map_nil, hc2]
          rfl

theorem spawnRunnables_speaks (fuel : Nat) : Speaks ps (spawnRunnables v fuel) := by
  induction fuel with
  | zero => exact ret
  | succ fuel ih =>
    refine get' fun w _ => ?_
    rcases w.mgr.deps.popRunnable with ⟨_ | i, d⟩
    · exact ret
    · refine seq (modify fun _ => rfl) fun _ => ?_
      cases w.mgr.procs[i]? with
      | none => exact fail
      | some p => exact seq (when (spawnChild_speaks v i)) fun _ => ih

theorem spawnCronjobs_speaks (fuel : Nat) : Speaks ps (spawnCronjobs v env fuel) := by
  induction fuel with
  | zero => exact stop
  | succ fuel ih =>
    refine seq call fun t => seq (emit (fun _ => rfl) (fun _ _ h => by cases h)) fun _ =>
      get' fun w hs => seq ?_ fun _ => seq lift fun r => ?_
    · have hall : ∀ m ∈ cronMessages env w.mgr.cron t, ∃ s, m = .scheduled s := by
        intro m hm
        unfold cronMessages at hm
        split at hm
        · cases hm
        · split at hm
          · split at hm
            · split at hm
              · simp only [List.mem_singleton] at hm
                exact ⟨_, hm⟩
              · cases hm
            · cases hm
          · cases hm
      refine entries_speaks placed_cron ?_ ?_
      · intro m hm
        obtain ⟨_, rfl⟩ := hall m hm
        rfl
      · intro m hm texts
        obtain ⟨_, rfl⟩ := hall m hm
        trivial
    · rcases r with ⟨_ | i, c⟩
      · exact modify fun _ => rfl
      · refine seq (modify fun _ => rfl) fun _ => ?_
        cases hc : w.mgr.procs[i]? with
        | none => exact fail
        | some p =>
          refine seq ?_ fun _ => ih
          cases w.mgr.deps.isRunnable i with
          | true => exact spawnChild_speaks v i
          | false =>
            obtain ⟨c, hc1, hc2, -, -⟩ := hs i p hc
            have hn := name_mem hc1
            intro w' hs'
            refine event hs' ?_ (fun _ _ h => by cases h) fun t m h => ?_
            · simp only [Spec.items, lifeMessages, hc1, Option.toList_some, List.flatMap_cons,
                List.flatMap_nil, List.append_nil, hc2]
              rfl
            · obtain ⟨rfl, h'⟩ := mem_entries h
              rw [hc2] at hn
              simp only [List.mem_cons, List.not_mem_nil, or_false] at h'
              rcases h' with rfl | rfl <;> exact ⟨placed_manager, fun _ => hn⟩

theorem spawnChildren_speaks : Speaks ps (spawnChildren v env) :=
  get' fun _ _ => seq (spawnRunnables_speaks v _) fun _ => get' fun _ _ => spawnCronjobs_speaks v env _

end Narrated

end Cinit
