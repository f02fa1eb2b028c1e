import Verif.Model.ProcessBuilder
import Verif.Model.Manager
import Verif.Model.Sockets
/-!
# Model of the program as a whole

`src/main.rs`, `src/startup_checks.rs`, the level chosen in `src/logging/mod.rs`, and
`ProcessManager::from` in `src/analyse/process_manager_builder.rs`.
-/

namespace Cinit

/-! ## startup_checks.rs -/

/-- startup_checks.rs:25 -/
def startupExitCode : Int := 5

/-- startup_checks.rs:34-73 `check_kernel_version`. `release` is the text of `uname`, `none`
if `uname` fails. `split` yields at least one part. -/
def checkKernelVersion (release : Option Str) : Res Int Unit :=
  match release with
  | none => .ok ()
  | some text =>
    match splitOn '.' text with
    | major :: minor :: _ =>
      match parseU32 major, parseU32 minor with
      | some major, some minor =>
        if major < 4 ∨ (major = 4 ∧ minor < 3) then .err startupExitCode else .ok ()
      | _, _ => .ok ()
    | _ => .ok ()

/-- startup_checks.rs:76-86 `check_user` -/
def checkUser (uid : Nat) : Res Int Unit :=
  if uid ≠ 0 then .err startupExitCode else .ok ()

/-- startup_checks.rs:28-31 `do_startup_checks` -/
def doStartupChecks (release : Option Str) (uid : Nat) : Res Int Unit :=
  checkKernelVersion release >>= fun _ => checkUser uid

/-! ## logging/mod.rs -/

/-- `log::LevelFilter`, in ascending order -/
inductive LevelFilter where
  | off | error | warn | info | debug | trace
  deriving DecidableEq, Repr

/-- logging/mod.rs:49-53 -/
def levelFor (verbosity : Nat) : LevelFilter :=
  match verbosity with
  | 2 => .trace
  | 1 => .debug
  | _ => .info

/-! ## main.rs -/

/-- Everything a run of cinit depends on. -/
structure Machine where
  /-- `uname`, startup_checks.rs:35 -/
  release : Option Str
  /-- `getuid` -/
  uid : Nat
  /-- the configuration directory -/
  tree : FileTree
  /-- `serde_yaml` -/
  yaml : Str → Option Config
  /-- hash order in `merge_dropins` -/
  mergeOrder : HashOrder
  surroundings : Surroundings
  /-- `petgraph::algo::toposort` -/
  topo : Toposort
  /-- hash order in the dependency manager -/
  graphOrder : HashOrder
  /-- readings of the clock in `build_cron` -/
  clock : List Int
  /-- signals and sockets before cinit sets up its own -/
  system : Sockets.State
  /-- the numbers of the signal, status and notify descriptors -/
  numbers : Int × Int × Int
  /-- `epoll_create` succeeds -/
  epoll : Bool
  /-- other open descriptors -/
  openFds : List Int
  env : Env
  answers : List Answer

namespace Machine

/-- process_manager_builder.rs:110-115 `setup_file_descriptors`: the signal, status and notify
descriptors, `none` if setting them up fails -/
def sockets (x : Machine) : Option (Int × Int × Int) :=
  match Sockets.setupFileDescriptors x.system with
  | .ok _ _ => some x.numbers
  | .err _ _ => none

/-- process_manager_builder.rs:73-84: the loop over the programs -/
def processes (x : Machine) : List ProcessConfig → Res Int (List Process)
  | [] => .ok []
  | c :: cs =>
    match ProcessBuilder.processFrom x.surroundings c with
    | .err _ => .err builderExitCode
    | .panic p => .panic p
    | .ok p => processes x cs >>= fun ps => .ok (p :: ps)

/-- process_manager_builder.rs:72-108 `ProcessManager::from`. Errors of the dependency manager
and the schedule are only looked at once the sockets exist. -/
def manager (x : Machine) (config : Config) : Res Int Manager :=
  x.processes config.programs >>= fun procs =>
  match buildDependencyManager x.topo x.graphOrder config,
      buildCron x.env.zone config x.clock with
  | .panic p, _ => .panic p
  | _, .panic p => .panic p
  | deps, cron =>
    match x.sockets with
    | none => .err builderExitCode
    | some (signalFd, statusFd, notifyFd) =>
      deps >>= fun deps =>
      cron >>= fun cron =>
      if x.epoll then
        .ok { procs := procs, deps := deps, cron := cron,
              signalFd := signalFd, statusFd := statusFd, notifyFd := notifyFd }
      else .panic .epollFailed

/-- The world the event loop starts in. -/
def world (x : Machine) (m : Manager) : World :=
  { mgr := m
    kernel := { fds := m.signalFd :: m.statusFd :: m.notifyFd :: x.openFds }
    answers := x.answers }

/-- `manager.start()`, main.rs:109 -/
def loop (x : Machine) (m : Manager) : Out Int := start x.env (x.world m)

end Machine

/-- How a run ends: with an exit code, by an abort, or (as far as the answers go) not at all;
with the history. -/
inductive Ending where
  | exited (code : Int) (log : Log)
  | aborted (p : Panic) (log : Log)
  | unfinished (log : Log)
  deriving DecidableEq, Repr

def Ending.log : Ending → Log
  | .exited _ l => l
  | .aborted _ l => l
  | .unfinished l => l

/-- The history of a run of the event loop. -/
def Out.log {α : Type} : Out α → Log
  | .ok _ w => w.log
  | .panic _ w => w.log
  | .stuck w => w.log

/-- What a run of the event loop has led to so far. -/
def Out.world {α : Type} : Out α → World
  | .ok _ w => w
  | .panic _ w => w
  | .stuck w => w

def Out.ending : Out Int → Ending
  | .ok code w => .exited code w.log
  | .panic p w => .aborted p w.log
  | .stuck w => .unfinished w.log

/-- An early `return exit_code`. -/
def orExit {α : Type} (r : Res Int α) (f : α → Ending) : Ending :=
  match r with
  | .ok a => f a
  | .err code => .exited code []
  | .panic p => .aborted p []

/-- main.rs:78-110 `run`, after the command line -/
def run (x : Machine) : Ending :=
  orExit (doStartupChecks x.release x.uid) fun _ =>
  orExit (parseConfig x.yaml x.mergeOrder x.tree) fun config =>
  orExit (x.manager config) fun m =>
  (x.loop m).ending

end Cinit
