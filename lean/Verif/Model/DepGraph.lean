import Verif.Model.Config
/-!
# Model of `src/runtime/dependency_graph.rs` and of `build_dependency_manager`
-/

namespace Cinit

/-- dependency_graph.rs:38-44 `ProcessNode` (with its derived `Default`). -/
structure ProcessNode where
  afterSelf : List Nat := []
  predecessorCount : Nat := 0
  finished : Bool := false
  deriving DecidableEq, Repr

/-- dependency_graph.rs:48-63 `Error`. -/
inductive DepError where
  | cycle (i : Nat)
  | unknownAfterReference (i k : Nat)
  | unknownBeforeReference (i k : Nat)
  | cronjobDependency (i : Nat)
  deriving DecidableEq, Repr

/-- dependency_graph.rs:67-73 `DependencyManager`. `runnable` is the `VecDeque` front first;
`archive` is the `HashSet` (only membership is ever observed). -/
structure DepMgr where
  nodes : AMap Nat ProcessNode := []
  runnable : List Nat := []
  archive : List Nat := []
  deriving DecidableEq, Repr

/-- The precedence relation given by an edge list. -/
def EdgeRel (edges : List (Nat × Nat)) (a b : Nat) : Prop := (a, b) ∈ edges

/-- `petgraph::algo::toposort` as used at dependency_graph.rs:207: `none` is `Ok`, `some i`
is `Err(Cycle)` naming node `i`. petgraph is not part of the repository: any function with
the documented behaviour (error iff there is a cycle; the node reported lies on one) is
allowed. An instance is constructed in `Verif.Proofs.Toposort`. -/
structure Toposort where
  run : List Nat → List (Nat × Nat) → Option Nat
  none_of_acyclic : ∀ nodes edges, (∀ e ∈ edges, e.1 ∈ nodes ∧ e.2 ∈ nodes) →
    (∀ i, ¬ Relation.TransGen (EdgeRel edges) i i) → run nodes edges = none
  some_of_cyclic : ∀ nodes edges, (∀ e ∈ edges, e.1 ∈ nodes ∧ e.2 ∈ nodes) →
    (∃ i, Relation.TransGen (EdgeRel edges) i i) →
    ∃ i, run nodes edges = some i ∧ i ∈ nodes ∧ Relation.TransGen (EdgeRel edges) i i

namespace DepMgr

/-- dependency_graph.rs:216-231 `build_name_dict`. -/
def buildNameDict (config : List (Nat × ProcessConfig)) : Res DepError (AMap Str Nat) :=
  Res.foldlM (fun result d =>
    if result.contains d.2.name then .panic .duplicateName
    else .ok (result.insert d.2.name d.1)) [] config

/-- dependency_graph.rs:246-259: the loop over `after`, starting at index `k`. -/
def validateAfter (config : List (Nat × ProcessConfig)) (nameDict : AMap Str Nat)
    (progIndex : Nat) : Nat → List Str → Res DepError Unit
  | _, [] => .ok ()
  | k, dependency :: rest =>
    match nameDict.get? dependency with
    | none => .err (.unknownAfterReference progIndex k)
    | some afterProgIndex =>
      match config[afterProgIndex]? with
      | none => .panic .indexOutOfBounds
      | some c =>
        if c.2.ptype.isCron then .err (.cronjobDependency progIndex)
        else validateAfter config nameDict progIndex (k + 1) rest

/-- dependency_graph.rs:260-264: the loop over `before`, starting at index `k`. -/
def validateBefore (nameDict : AMap Str Nat) (progIndex : Nat) :
    Nat → List Str → Res DepError Unit
  | _, [] => .ok ()
  | k, dependency :: rest =>
    match nameDict.get? dependency with
    | none => .err (.unknownBeforeReference progIndex k)
    | some _ => validateBefore nameDict progIndex (k + 1) rest

/-- dependency_graph.rs:241-267 `validate_references`. -/
def validateReferences (config : List (Nat × ProcessConfig)) (nameDict : AMap Str Nat) :
    Res DepError Unit :=
  Res.foldlM (fun _ d =>
    validateAfter config nameDict d.1 0 d.2.after >>= fun _ =>
    validateBefore nameDict d.1 0 d.2.before) () config

/-- `result.get_mut(index).expect("Invalid index in name_dict")` followed by an update. -/
def modifyNode (nodes : AMap Nat ProcessNode) (i : Nat) (f : ProcessNode → ProcessNode) :
    Res DepError (AMap Nat ProcessNode) :=
  match nodes.get? i with
  | none => .panic .nameMissing
  | some n => .ok (nodes.insert i (f n))

/-- `name_dict.get(name).expect("Invalid index in name_dict")`. -/
def lookupName (nameDict : AMap Str Nat) (n : Str) : Res DepError Nat :=
  match nameDict.get? n with
  | none => .panic .nameMissing
  | some i => .ok i

/-- dependency_graph.rs:155-187: one round of the loop of `build_dependencies`. -/
def buildStep (nameDict : AMap Str Nat) (nodes : AMap Nat ProcessNode)
    (d : Nat × ProcessConfig) : Res DepError (AMap Nat ProcessNode) :=
  -- lines 159-164
  Res.foldlM (fun nodes name =>
    lookupName nameDict name >>= fun s =>
    modifyNode nodes d.1 fun n => { n with afterSelf := n.afterSelf ++ [s] }) nodes d.2.before
  >>= fun nodes =>
  -- line 166
  modifyNode nodes d.1 (fun n =>
    { n with predecessorCount := n.predecessorCount + d.2.after.length }) >>= fun nodes =>
  -- lines 168-176
  Res.foldlM (fun nodes name =>
    lookupName nameDict name >>= fun s =>
    modifyNode nodes s fun n => { n with predecessorCount := n.predecessorCount + 1 })
    nodes d.2.before >>= fun nodes =>
  -- lines 178-186
  Res.foldlM (fun nodes name =>
    lookupName nameDict name >>= fun p =>
    modifyNode nodes p fun n => { n with afterSelf := n.afterSelf ++ [d.1] })
    nodes d.2.after

/-- dependency_graph.rs:145-189 `build_dependencies`. -/
def buildDependencies (config : List (Nat × ProcessConfig)) (nameDict : AMap Str Nat) :
    Res DepError (AMap Nat ProcessNode) :=
  Res.foldlM (buildStep nameDict)
    (config.foldl (fun m d => m.insert d.1 {}) []) config

/-- dependency_graph.rs:134-142 `find_initial_runnables`. -/
def findInitialRunnables (ord : HashOrder) (nodes : AMap Nat ProcessNode) : List Nat :=
  ((ord.apply nodes).filter (fun x => x.2.predecessorCount == 0)).map (·.1)

/-- Edges added to the graph at dependency_graph.rs:201-205. -/
def edgesOf (nodes : AMap Nat ProcessNode) : List (Nat × Nat) :=
  nodes.flatMap (fun x => x.2.afterSelf.map (fun s => (x.1, s)))

/-- dependency_graph.rs:192-213 `check_for_cycles`; `node_dict[&successor]` panics for an
unknown successor. -/
def checkForCycles (topo : Toposort) (ord : HashOrder) (nodes : AMap Nat ProcessNode) :
    Res DepError Unit :=
  let ns := ord.apply nodes
  let es := edgesOf ns
  if es.all (fun e => nodes.contains e.2) then
    match topo.run (ns.map (·.1)) es with
    | some i => .err (.cycle i)
    | none => .ok ()
  else .panic .indexOutOfBounds

/-- dependency_graph.rs:82-95 `with_nodes`. -/
def withNodes (topo : Toposort) (ord : HashOrder) (config : List (Nat × ProcessConfig)) :
    Res DepError DepMgr :=
  buildNameDict config >>= fun nameDict =>
  validateReferences config nameDict >>= fun _ =>
  buildDependencies config nameDict >>= fun nodes =>
  let initial := findInitialRunnables ord nodes
  checkForCycles topo ord nodes >>= fun _ =>
  .ok { runnable := initial, nodes := nodes, archive := initial }

/-- dependency_graph.rs:98-100 `has_runnables`. -/
def hasRunnables (d : DepMgr) : Bool := !d.runnable.isEmpty

/-- dependency_graph.rs:103-105 `pop_runnable` (`VecDeque::pop_back`). -/
def popRunnable (d : DepMgr) : Option Nat × DepMgr :=
  (d.runnable.getLast?, { d with runnable := d.runnable.dropLast })

/-- dependency_graph.rs:109-111 `is_runnable`. -/
def isRunnable (d : DepMgr) (i : Nat) : Bool := d.archive.contains i

/-- dependency_graph.rs:122-130: one round of the loop of `notify_process_finished`. The
subtraction panics on underflow (overflow checks; without them it would wrap). -/
def releaseStep (d : DepMgr) (s : Nat) : Res Empty DepMgr :=
  match d.nodes.get? s with
  | none => .panic .invalidProcessId
  | some n =>
    if n.predecessorCount = 0 then .panic .underflow
    else
      let c := n.predecessorCount - 1
      let d := { d with nodes := d.nodes.insert s { n with predecessorCount := c } }
      if c = 0 then
        .ok { d with
          runnable := d.runnable ++ [s]
          archive := if d.archive.contains s then d.archive else s :: d.archive }
      else .ok d

/-- dependency_graph.rs:115-131 `notify_process_finished`. -/
def notifyProcessFinished (d : DepMgr) (i : Nat) : Res Empty DepMgr :=
  match d.nodes.get? i with
  | none => .panic .invalidProcessId
  | some n =>
    if n.finished then .ok d
    else
      let d := { d with nodes := d.nodes.insert i { n with finished := true } }
      Res.foldlM releaseStep d n.afterSelf

end DepMgr

/-- `iter().map(Clone::clone).enumerate().collect()`,
process_manager_builder.rs:181-186 and 250-256. -/
def enumerate {α : Type} (l : List α) : List (Nat × α) :=
  l.zipIdx.map (fun x => (x.2, x.1))

/-- process_manager_builder.rs:62 -/
def builderExitCode : Int := 2

/-- process_manager_builder.rs:191-236: the error message; indexing panics if out of range. -/
def reportDepError (programs : List ProcessConfig) : DepError → Res Int Unit
  | .cycle i =>
    match programs[i]? with
    | some _ => .err builderExitCode
    | none => .panic .indexOutOfBounds
  | .unknownAfterReference i k =>
    match programs[i]? with
    | some p => (match p.after[k]? with
      | some _ => .err builderExitCode
      | none => .panic .indexOutOfBounds)
    | none => .panic .indexOutOfBounds
  | .unknownBeforeReference i k =>
    match programs[i]? with
    | some p => (match p.before[k]? with
      | some _ => .err builderExitCode
      | none => .panic .indexOutOfBounds)
    | none => .panic .indexOutOfBounds
  | .cronjobDependency i =>
    match programs[i]? with
    | some _ => .err builderExitCode
    | none => .panic .indexOutOfBounds

/-- process_manager_builder.rs:180-241 `build_dependency_manager`. -/
def buildDependencyManager (topo : Toposort) (ord : HashOrder) (config : Config) :
    Res Int DepMgr :=
  match DepMgr.withNodes topo ord (enumerate config.programs) with
  | .ok d => .ok d
  | .err e => reportDepError config.programs e >>= fun _ => .err builderExitCode
  | .panic p => .panic p

end Cinit
