import Verif.Proofs.DepGraph
import Verif.Proofs.Toposort
import Mathlib.Logic.Relation
/-!
# C13 – C19: the dependency graph
-/

namespace Cinit.Props

open Cinit Spec DepMgr

/-! ## C13, C14: acceptance and errors -/

/-- C13: with unique names, validation succeeds iff all references are known, no `after`
names a cronjob, and there is no cycle. It never panics. -/
theorem C13_accept_iff (topo : Toposort) (ord : HashOrder) {ps : List ProcessConfig}
    (hu : UniqueNames ps) :
    ((∃ d, withNodes topo ord (enumerate ps) = .ok d) ↔
      RefsKnown ps ∧ NoAfterCron ps ∧ Acyclic ps) ∧
    ∀ q, withNodes topo ord (enumerate ps) ≠ .panic q := by
  rcases withNodes_cases topo ord hu with ⟨d, h, -, h1, h2, h3⟩ | ⟨e, h, hc⟩
  · exact ⟨⟨fun _ => ⟨h1, h2, h3⟩, fun _ => ⟨d, h⟩⟩, fun q hq => by rw [h] at hq; cases hq⟩
  · refine ⟨⟨?_, ?_⟩, fun q hq => by rw [h] at hq; cases hq⟩
    · rintro ⟨d, hd⟩; rw [h] at hd; cases hd
    · rintro ⟨h1, h2, h3⟩
      exfalso
      cases e with
      | cycle i => exact h3 i hc.2
      | unknownAfterReference i k =>
        obtain ⟨c, n, hc1, hc2, hc3⟩ := hc
        obtain ⟨c', hc', hn⟩ := h1 c (List.mem_iff_getElem?.mpr ⟨i, hc1⟩) n
          (.inr (List.mem_iff_getElem?.mpr ⟨k, hc2⟩))
        exact hc3 c' hc' hn
      | unknownBeforeReference i k =>
        obtain ⟨c, n, hc1, hc2, hc3⟩ := hc
        obtain ⟨c', hc', hn⟩ := h1 c (List.mem_iff_getElem?.mpr ⟨i, hc1⟩) n
          (.inl (List.mem_iff_getElem?.mpr ⟨k, hc2⟩))
        exact hc3 c' hc' hn
      | cronjobDependency i =>
        obtain ⟨c, n, hc1, hn, c', hc', hn', t, ht⟩ := hc
        exact h2 c (List.mem_iff_getElem?.mpr ⟨i, hc1⟩) n hn c' hc' hn' t ht

private theorem unique_index {ps : List ProcessConfig} (hu : UniqueNames ps) {i j : Nat}
    {ci cj : ProcessConfig} (hi : ps[i]? = some ci) (hj : ps[j]? = some cj)
    (h : ci.name = cj.name) : i = j := by
  have hi' : (ps.map (·.name))[i]? = some ci.name := by simp [hi]
  have hj' : (ps.map (·.name))[j]? = some ci.name := by simp [hj, h]
  have hlt : i < (ps.map (·.name)).length := by
    rcases Nat.lt_or_ge i (ps.map (·.name)).length with h | h
    · exact h
    · rw [List.getElem?_eq_none h] at hi'; cases hi'
  exact (List.getElem?_inj hlt hu).mp (hi'.trans hj'.symm)

theorem cycle_names {ps : List ProcessConfig} {i : Nat} {c : ProcessConfig}
    (hi : ps[i]? = some c) (h : Relation.TransGen (DependsOn ps) i i) :
    Relation.TransGen (NameDependsOn ps) c.name c.name := by
  have := Relation.TransGen.lift (fun i => ((ps[i]?).map (·.name)).getD [])
    (p := NameDependsOn ps) ?_ _ _ h
  · simpa [Function.onFun, hi] using this
  · rintro x y ⟨cx, cy, hx, hy, hr⟩
    refine ⟨cx, List.mem_iff_getElem?.mpr ⟨x, hx⟩, cy, List.mem_iff_getElem?.mpr ⟨y, hy⟩, ?_, ?_, ?_⟩
    · simp [hx]
    · simp [hy]
    · simpa [hx, hy] using hr

theorem acyclic_names {ps : List ProcessConfig} (hu : UniqueNames ps) :
    Acyclic ps ↔ ∀ a, ¬ Relation.TransGen (NameDependsOn ps) a a := by
  let nm : Nat → Str := fun i => ((ps[i]?).map (·.name)).getD []
  let ix : Str → Nat := fun a => ps.findIdx (fun c => c.name = a)
  have hix : ∀ c ∈ ps, ps[ix c.name]? = some c := by
    intro c hc
    obtain ⟨i, hi⟩ := List.mem_iff_getElem?.mp hc
    have hlt : ix c.name < ps.length := by
      apply List.findIdx_lt_length_of_exists
      exact ⟨c, hc, by simp⟩
    have hget := List.findIdx_getElem (xs := ps) (p := fun c' => decide (c'.name = c.name)) (w := hlt)
    have hname : (ps[ix c.name]).name = c.name := by simpa using hget
    have h1 : ps[ix c.name]? = some (ps[ix c.name]) := by simp [hlt]
    have := unique_index hu h1 hi hname
    rw [this]; exact hi
  constructor
  · intro h a ha
    refine h (ix a) (Relation.TransGen.lift ix ?_ _ _ ha)
    rintro x y ⟨cx, hcx, cy, hcy, rfl, rfl, hr⟩
    exact ⟨cx, cy, hix cx hcx, hix cy hcy, hr⟩
  · intro h i hi
    refine h (nm i) (Relation.TransGen.lift nm ?_ _ _ hi)
    rintro x y ⟨cx, cy, hx, hy, hr⟩
    refine ⟨cx, List.mem_iff_getElem?.mpr ⟨x, hx⟩, cy, List.mem_iff_getElem?.mpr ⟨y, hy⟩, ?_, ?_, ?_⟩
    · simp [nm, hx]
    · simp [nm, hy]
    · simpa [nm, hx, hy] using hr

/-- C13: the verdict does not depend on the order of the programs, nor on hash iteration
order, nor on which topological sort is used. -/
theorem C13_order_independent (topo topo' : Toposort) (ord ord' : HashOrder)
    {ps ps' : List ProcessConfig} (hu : UniqueNames ps) (hp : ps.Perm ps') :
    (∃ d, withNodes topo ord (enumerate ps) = .ok d) ↔
    (∃ d, withNodes topo' ord' (enumerate ps') = .ok d) := by
  have hu' : UniqueNames ps' := (hp.map _).nodup_iff.mp hu
  have hmem : ∀ c, c ∈ ps ↔ c ∈ ps' := fun c => hp.mem_iff
  rw [(C13_accept_iff topo ord hu).1, (C13_accept_iff topo' ord' hu').1, acyclic_names hu,
    acyclic_names hu']
  have hrel : NameDependsOn ps = NameDependsOn ps' := by
    funext a b
    simp only [NameDependsOn, hmem]
  rw [hrel]
  simp only [RefsKnown, NoAfterCron, hmem]

/-- C14: the reported error identifies a real culprit. -/
theorem C14_culprit (topo : Toposort) (ord : HashOrder) {ps : List ProcessConfig}
    (hu : UniqueNames ps) {e : DepError} (h : withNodes topo ord (enumerate ps) = .err e) :
    match e with
    | .unknownAfterReference i k =>
      ∃ c n, ps[i]? = some c ∧ c.after[k]? = some n ∧ ∀ c' ∈ ps, c'.name ≠ n
    | .unknownBeforeReference i k =>
      ∃ c n, ps[i]? = some c ∧ c.before[k]? = some n ∧ ∀ c' ∈ ps, c'.name ≠ n
    | .cronjobDependency i =>
      ∃ c n, ps[i]? = some c ∧ n ∈ c.after ∧
        ∃ c' ∈ ps, c'.name = n ∧ ∃ t, c'.ptype = .cronJob t
    | .cycle i => i < ps.length ∧ Relation.TransGen (DependsOn ps) i i := by
  rcases withNodes_cases topo ord hu with ⟨d, h', -⟩ | ⟨e', h', hc⟩
  · rw [h'] at h; cases h
  · rw [h'] at h; cases h
    cases e <;> exact hc

/-- C14: producing the error message never fails; the phase ends with exit code 2. -/
theorem C14_report (topo : Toposort) (ord : HashOrder) {cfg : Config}
    (hu : UniqueNames cfg.programs) :
    (∀ q, buildDependencyManager topo ord cfg ≠ .panic q) ∧
    (∀ c, buildDependencyManager topo ord cfg = .err c → c = 2) := by
  unfold buildDependencyManager
  rcases withNodes_cases topo ord hu with ⟨d, h', -⟩ | ⟨e', h', hc⟩
  · rw [h']; exact ⟨fun q h => (by cases h), fun c h => (by cases h)⟩
  · rw [h']
    have hrep : reportDepError cfg.programs e' = .err 2 := by
      cases e' with
      | cycle i =>
        have hlt : i < cfg.programs.length := hc.1
        simp [reportDepError, hlt, builderExitCode]
      | unknownAfterReference i k =>
        obtain ⟨c, n, h1, h2, -⟩ := hc
        simp [reportDepError, h1, h2, builderExitCode]
      | unknownBeforeReference i k =>
        obtain ⟨c, n, h1, h2, -⟩ := hc
        simp [reportDepError, h1, h2, builderExitCode]
      | cronjobDependency i =>
        obtain ⟨c, n, h1, -⟩ := hc
        simp [reportDepError, h1, builderExitCode]
    simp only [hrep, Res.bind_err]
    exact ⟨fun q h => (by cases h), fun c h => by cases h; rfl⟩

/-! Concrete configurations: a diamond, a cycle, an unknown reference, a cronjob. -/

def dA : ProcessConfig := { name := ['a'], before := [['b'], ['c']] }
def dB : ProcessConfig := { name := ['b'], before := [['d']] }
def dC : ProcessConfig := { name := ['c'] }
def dD : ProcessConfig := { name := ['d'], after := [['c'], ['a']] }
def diamond : List ProcessConfig := [dA, dB, dC, dD]

theorem diamond_unique : UniqueNames diamond := by unfold UniqueNames; decide

example : (∃ d, withNodes .warshall .rev (enumerate diamond) = .ok d) ∧
    withNodes .warshall .id (enumerate [dA, { dB with before := [['a']] }, dC]) = .err (.cycle 0) ∧
    withNodes .warshall .id (enumerate [dC, dA]) = .err (.unknownBeforeReference 1 0) ∧
    withNodes .warshall .id (enumerate [dD, { dC with ptype := .cronJob [] }, dA, dB])
      = .err (.cronjobDependency 0) := by
  refine ⟨⟨_, rfl⟩, ?_, ?_, ?_⟩ <;> decide

/-! ## C15 – C19: histories -/

/-- One operation on the manager; the second component collects what was handed out. -/
def stepOp (s : DepMgr × List Nat) : DepOp → Res Empty (DepMgr × List Nat)
  | .finish i => notifyProcessFinished s.1 i >>= fun d => .ok (d, s.2)
  | .pop => match popRunnable s.1 with
    | (some j, d) => .ok (d, j :: s.2)
    | (none, d) => .ok (d, s.2)

/-- A history on a freshly built manager. -/
def runOps (d : DepMgr) (ops : List DepOp) : Res Empty (DepMgr × List Nat) :=
  Res.foldlM stepOp (d, []) ops

/-- The history reports only configured programs. -/
def OpsOf (ps : List ProcessConfig) (ops : List DepOp) : Prop :=
  ∀ i, DepOp.finish i ∈ ops → i < ps.length

private theorem run_inv {ps : List ProcessConfig} (ops : List DepOp) (hops : OpsOf ps ops)
    {F P : List Nat} {d : DepMgr} (h : DepInv ps F P d) :
    ∃ d' P' F', Res.foldlM stepOp (d, P) ops = .ok (d', P') ∧ DepInv ps F' P' d' ∧
      ∀ i, i ∈ F' ↔ i ∈ F ∨ DepOp.finish i ∈ ops := by
  induction ops generalizing F P d with
  | nil => exact ⟨d, P, F, rfl, h, by simp⟩
  | cons o os ih =>
    have hos : OpsOf ps os := fun i hi => hops i (by simp [hi])
    cases o with
    | finish i =>
      obtain ⟨d1, h1, h2, -⟩ := notify_ok h (hops i (by simp))
      obtain ⟨d2, P2, F2, g1, g2, g3⟩ := ih hos h2
      refine ⟨d2, P2, F2, by simp [stepOp, h1, g1], g2, ?_⟩
      intro k
      rw [g3 k]
      simp only [List.mem_cons, DepOp.finish.injEq]
      grind
    | pop =>
      have hp := pop_ok h
      cases hpop : popRunnable d with
      | mk r d1 =>
        rw [hpop] at hp
        cases r with
        | none =>
          obtain ⟨d2, P2, F2, g1, g2, g3⟩ := ih hos (hp.2 ▸ h)
          refine ⟨d2, P2, F2, by simp [stepOp, hpop, g1], g2, ?_⟩
          intro k; rw [g3 k]; simp
        | some j =>
          obtain ⟨d2, P2, F2, g1, g2, g3⟩ := ih hos hp.2.1
          refine ⟨d2, P2, F2, by simp [stepOp, hpop, g1], g2, ?_⟩
          intro k; rw [g3 k]; simp

/-- Every state reached by a history satisfies the invariant. -/
private theorem reached {topo : Toposort} {ord : HashOrder} {ps : List ProcessConfig}
    (hu : UniqueNames ps) {d₀ d : DepMgr} {P : List Nat} {ops : List DepOp}
    (h0 : withNodes topo ord (enumerate ps) = .ok d₀) (hops : OpsOf ps ops)
    (hr : runOps d₀ ops = .ok (d, P)) :
    Acyclic ps ∧ ∃ F, DepInv ps F P d ∧ ∀ i, i ∈ F ↔ DepOp.finish i ∈ ops := by
  rcases withNodes_cases topo ord hu with ⟨d', h', hinv, -, -, hac⟩ | ⟨e', h', hc⟩
  · rw [h'] at h0; cases h0
    obtain ⟨d1, P1, F1, g1, g2, g3⟩ := run_inv ops hops hinv
    rw [runOps, g1] at hr
    cases hr
    exact ⟨hac, F1, g2, by simpa using g3⟩
  · rw [h'] at h0; cases h0

/-- C15: whatever the history, a program that is runnable, waiting in the queue or already
handed out has all its dependencies reported finished. -/
theorem C15_dependants_wait {topo : Toposort} {ord : HashOrder} {ps : List ProcessConfig}
    (hu : UniqueNames ps) {d₀ d : DepMgr} {P : List Nat} {ops : List DepOp}
    (h0 : withNodes topo ord (enumerate ps) = .ok d₀) (hops : OpsOf ps ops)
    (hr : runOps d₀ ops = .ok (d, P)) {j : Nat}
    (hj : isRunnable d j = true ∨ j ∈ d.runnable ∨ j ∈ P) :
    ∀ i, DependsOn ps i j → DepOp.finish i ∈ ops := by
  obtain ⟨-, F, hinv, hF⟩ := reached hu h0 hops hr
  have harch : j ∈ d.archive := by
    rcases hj with h | h | h
    · simpa [isRunnable] using h
    · exact (hinv.queue j).mp (by simp [h])
    · exact (hinv.queue j).mp (by simp [h])
  intro i hi
  exact (hF i).mp ((hinv.archive_iff (hinv.archive_lt harch)).mp harch i hi)

/-- C16: a configured program all of whose dependencies have been reported finished is
runnable: it is in the queue or has been handed out. -/
theorem C16_dependants_released {topo : Toposort} {ord : HashOrder} {ps : List ProcessConfig}
    (hu : UniqueNames ps) {d₀ d : DepMgr} {P : List Nat} {ops : List DepOp}
    (h0 : withNodes topo ord (enumerate ps) = .ok d₀) (hops : OpsOf ps ops)
    (hr : runOps d₀ ops = .ok (d, P)) {j : Nat} (hj : j < ps.length)
    (hdeps : ∀ i, DependsOn ps i j → DepOp.finish i ∈ ops) :
    isRunnable d j = true ∧ (j ∈ d.runnable ∨ j ∈ P) := by
  obtain ⟨-, F, hinv, hF⟩ := reached hu h0 hops hr
  have harch : j ∈ d.archive :=
    (hinv.archive_iff hj).mpr fun i hi => (hF i).mpr (hdeps i hi)
  exact ⟨by simpa [isRunnable] using harch, by simpa using (hinv.queue j).mpr harch⟩

/-- C16: whatever is waiting is served: each request takes exactly one program out of the
queue, and none is handed out only if the queue is empty. -/
theorem C16_queue_served (d : DepMgr) :
    match popRunnable d with
    | (some k, d') => hasRunnables d = true ∧ d.runnable.Perm (k :: d'.runnable) ∧
        d'.nodes = d.nodes ∧ d'.archive = d.archive
    | (none, d') => hasRunnables d = false ∧ d.runnable = [] ∧ d' = d := by
  unfold popRunnable hasRunnables
  obtain ⟨ns, r, a⟩ := d
  rcases List.eq_nil_or_concat r with rfl | ⟨l, x, rfl⟩
  · simp
  · simp only [List.concat_eq_append, List.getLast?_append, List.getLast?_singleton, List.dropLast_concat]
    simp only [Option.some_or, and_true]
    refine ⟨by simp, List.perm_append_comm⟩

/-- C17: no program is handed out twice, nor queued again after being handed out, and a
repeated finish report changes nothing. -/
theorem C17_released_once {topo : Toposort} {ord : HashOrder} {ps : List ProcessConfig}
    (hu : UniqueNames ps) {d₀ d : DepMgr} {P : List Nat} {ops : List DepOp}
    (h0 : withNodes topo ord (enumerate ps) = .ok d₀) (hops : OpsOf ps ops)
    (hr : runOps d₀ ops = .ok (d, P)) :
    (P ++ d.runnable).Nodup ∧
    ∀ i, DepOp.finish i ∈ ops → notifyProcessFinished d i = .ok d := by
  obtain ⟨-, F, hinv, hF⟩ := reached hu h0 hops hr
  refine ⟨(List.perm_append_comm.nodup_iff).mp hinv.queueNodup, ?_⟩
  intro i hi
  obtain ⟨d', h1, -, h3, -⟩ := notify_ok hinv (hops i hi)
  rw [h1, h3 ((hF i).mpr hi)]

/-- C18: no history makes the bookkeeping fail. -/
theorem C18_never_fails {topo : Toposort} {ord : HashOrder} {ps : List ProcessConfig}
    (hu : UniqueNames ps) {d₀ : DepMgr} {ops : List DepOp}
    (h0 : withNodes topo ord (enumerate ps) = .ok d₀) (hops : OpsOf ps ops) :
    ∃ d P, runOps d₀ ops = .ok (d, P) := by
  rcases withNodes_cases topo ord hu with ⟨d', h', hinv, -⟩ | ⟨e', h', hc⟩
  · rw [h'] at h0; cases h0
    obtain ⟨d1, P1, F1, g1, -⟩ := run_inv ops hops hinv
    exact ⟨d1, P1, g1⟩
  · rw [h'] at h0; cases h0

/-- C19: as long as some program has not been handed out, there is one waiting to be handed
out, or one handed out whose finish has not been reported. -/
theorem C19_no_deadlock {topo : Toposort} {ord : HashOrder} {ps : List ProcessConfig}
    (hu : UniqueNames ps) {d₀ d : DepMgr} {P : List Nat} {ops : List DepOp}
    (h0 : withNodes topo ord (enumerate ps) = .ok d₀) (hops : OpsOf ps ops)
    (hr : runOps d₀ ops = .ok (d, P)) {j : Nat} (hj : j < ps.length) (hjP : j ∉ P) :
    hasRunnables d = true ∨ ∃ k ∈ P, DepOp.finish k ∉ ops := by
  obtain ⟨hac, F, hinv, hF⟩ := reached hu h0 hops hr
  have fromArch : ∀ k, k ∈ d.archive → k ∉ F ∨ k ∉ P →
      hasRunnables d = true ∨ ∃ k ∈ P, DepOp.finish k ∉ ops := by
    intro k hk hkF
    have := (hinv.queue k).mpr hk
    rw [List.mem_append] at this
    rcases this with h | h
    · left
      unfold hasRunnables
      cases hd : d.runnable with
      | nil => rw [hd] at h; cases h
      | cons => rfl
    · rcases hkF with hkF | hkF
      · exact .inr ⟨k, h, fun hm => hkF ((hF k).mpr hm)⟩
      · exact absurd h hkF
  by_cases ha : j ∈ d.archive
  · exact fromArch j ha (.inr hjP)
  · rw [hinv.archive_iff hj] at ha
    obtain ⟨i, hi⟩ := Classical.not_forall.mp ha
    obtain ⟨hd, hiF⟩ := Classical.not_imp.mp hi
    obtain ⟨k, hk, hkF⟩ := hinv.progress hac (dependsOn_lt hd).1 hiF
    exact fromArch k hk (.inl hkF)

/-- Non-vacuity of C15–C19: the diamond, with `a` finished (twice) and `b`, `c` handed out;
`d` still waits. -/
example : ∃ d₀ d P, withNodes .warshall .id (enumerate diamond) = .ok d₀ ∧
    runOps d₀ [.pop, .finish 0, .pop, .finish 0, .pop, .pop] = .ok (d, P) ∧
    P = [1, 2, 0] ∧ isRunnable d 3 = false ∧ d.runnable = [] ∧
    OpsOf diamond [.pop, .finish 0, .pop, .finish 0, .pop, .pop] ∧
    DependsOn diamond 2 3 := by
  refine ⟨_, _, _, rfl, rfl, ?_, ?_, ?_, ?_, ?_⟩
  · decide
  · decide
  · decide
  · intro i hi
    have : i = 0 := by simpa using hi
    subst this
    decide
  · exact ⟨dC, dD, rfl, rfl, by decide⟩

end Cinit.Props
