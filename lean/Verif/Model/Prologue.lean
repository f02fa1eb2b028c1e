import Verif.Model.Narration
/-!
# What cinit logs before the event loop

The functions of `Verif.Model.{Config,ProcessBuilder,DepGraph,CronSched,Main}` that run before the
event loop once more, with every call of a logging macro at its place.
`Verif/Proofs/Prologue.lean` proves that they do the same apart from the records
(`prologue_erases`).

Texts that come from libraries are taken from a `Herald`.
-/

namespace Cinit

open Logging

/-- Which of the calls of `read_config` fails, config_parser.rs:56-90 -/
inductive ReadFailure where
  | metadata | listing | entry | content
  deriving DecidableEq, Repr

/-- What the log depends on besides the machine. Files are denoted by their positions: the indices
of the directory entries passed on the way to them, the last one first. -/
structure Herald where
  /-- `--config` -/
  configPath : Str
  /-- `Display` of the error of `uname` -/
  unameError : Str
  /-- paths of files -/
  path : List Nat → Str
  /-- why a file cannot be read -/
  failure : List Nat → ReadFailure
  ioError : List Nat → Str
  /-- `Debug` of the error of `serde_yaml`, by the text it is about -/
  yamlError : Str → Str
  /-- `render_tera_error`, process_builder.rs:394-403 -/
  teraError : Str → (Str → Option Str) → Str → Str
  /-- `Display` of the error of `setup_file_descriptors` -/
  socketError : Nat → Str

/-- A result together with what was logged on the way. -/
abbrev W (ε α : Type) := Res ε α × List Record

namespace W

variable {ε α β : Type}

def ret (a : α) : W ε α := (.ok a, [])

/-- Rust's `?` together with unwinding. -/
def bind (x : W ε α) (f : α → W ε β) : W ε β :=
  match x.1 with
  | .ok a => ((f a).1, x.2 ++ (f a).2)
  | .err e => (.err e, x.2)
  | .panic p => (.panic p, x.2)

/-- Something that logs nothing. -/
def silent (r : Res ε α) : W ε α := (r, [])

/-- Some records before. -/
def after (rs : List Record) (x : W ε α) : W ε α := (x.1, rs ++ x.2)

end W

namespace Heralded

/-- Modules, by the files in `src`. -/
def inMain : List Str := ["cinit".toList]
def inChecks : List Str := ["cinit".toList, "startup_checks".toList]
def inParser : List Str := ["cinit".toList, "config".toList, "config_parser".toList]
def inProgram : List Str := ["cinit".toList, "analyse".toList, "process_builder".toList]
def inBuilder : List Str := ["cinit".toList, "analyse".toList, "process_manager_builder".toList]
def inSchedule : List Str := ["cinit".toList, "runtime".toList, "cronjob".toList]

/-! ## startup_checks.rs -/

/-- startup_checks.rs:50, 66, 70 -/
def unknownKernel (text : Str) : List Record :=
  [⟨inChecks, .warn, "Could not determine kernel version from input '".toList ++ text ++ "'".toList⟩]

/-- startup_checks.rs:34-73 `check_kernel_version` -/
def checkKernelVersion (h : Herald) (release : Option Str) : W Int Unit :=
  match release with
  | none => (.ok (), [⟨inChecks, .warn, "Could not read kernel version: ".toList ++ h.unameError⟩])
  | some text =>
    match splitOn '.' text with
    | major :: minor :: _ =>
      match parseU32 major, parseU32 minor with
      | some major, some minor =>
        if major < 4 ∨ (major = 4 ∧ minor < 3) then
          (.err startupExitCode,
            [⟨inChecks, .error, "Your kernel is older than 4.3. Ambient capabilities".toList⟩,
             ⟨inChecks, .error, "are not supported on your kernel but are needed for".toList⟩,
             ⟨inChecks, .error, "cinit to work properly. Aborting".toList⟩])
        else (.ok (), [⟨inChecks, .debug, "Running on kernel version ".toList ++ text⟩])
      | _, _ => (.ok (), unknownKernel text)
    | _ => (.ok (), unknownKernel text)

/-- startup_checks.rs:76-86 `check_user` -/
def checkUser (uid : Nat) : W Int Unit :=
  if uid ≠ 0 then
    (.err startupExitCode,
      [⟨inChecks, .error, "cinit is not running as root. This is".toList⟩,
       ⟨inChecks, .error, "needed to switch users and capabilities".toList⟩,
       ⟨inChecks, .error, "Aborting".toList⟩])
  else .ret ()

/-- startup_checks.rs:28-31 `do_startup_checks` -/
def doStartupChecks (h : Herald) (release : Option Str) (uid : Nat) : W Int Unit :=
  (checkKernelVersion h release).bind fun _ => checkUser uid

/-! ## config_parser.rs -/

/-- config_parser.rs:57, 67, 75, 87. A directory entry that cannot be read is reported with the
path of the directory. -/
def unreadable (h : Herald) (pos : List Nat) : Str :=
  match h.failure pos with
  | .metadata => "Failed to read metadata of ".toList ++ h.path pos ++ ": ".toList ++ h.ioError pos
  | .listing =>
    "Failed to get directory content of ".toList ++ h.path pos ++ ": ".toList ++ h.ioError pos
  | .entry => "Failed to read ".toList ++ h.path pos.tail ++ ": ".toList ++ h.ioError pos
  | .content => "Failed to read file ".toList ++ h.path pos ++ ": ".toList ++ h.ioError pos

mutual
/-- config_parser.rs:53-100 `read_config` -/
def readConfig (h : Herald) (pos : List Nat) : FileTree → W Int (List Str)
  | .file content => (.ok [content], [])
  | .dir entries => readEntries h pos 0 entries
  | .other => (.ok [], [⟨inParser, .warn, "Ignoring file ".toList ++ h.path pos⟩])
  | .unreadable => (.err configExitCode, [⟨inParser, .error, unreadable h pos⟩])
  | .badName => (.panic .invalidUtf8, [])
/-- config_parser.rs:73-83: the loop over directory entries, from the `i`th on. -/
def readEntries (h : Herald) (pos : List Nat) (i : Nat) : List FileTree → W Int (List Str)
  | [] => .ret []
  | t :: ts =>
    (readConfig h (i :: pos) t).bind fun c =>
    (readEntries h pos (i + 1) ts).bind fun cs => .ret (c ++ cs)
end

/-- config_parser.rs:103-121 `parse_raw_config` -/
def parseRawConfig (h : Herald) (yaml : Str → Option Config) (raw : List Str) : W Int Config :=
  if (raw.map yaml).any Option.isNone then
    (.err configExitCode,
      ⟨inParser, .error, "Could not parse config: ".toList⟩ ::
      (raw.filter (fun t => (yaml t).isNone)).map (fun t => ⟨inParser, .error, h.yamlError t⟩) ++
      [⟨inParser, .trace, "Error in configuration file".toList⟩])
  else .ret ((raw.filterMap yaml).foldl Config.merge {})

/-- config/mod.rs:160-190 -/
def fieldName : MergeField → Str
  | .workdir => "workdir".toList
  | .uid => "uid".toList
  | .gid => "gid".toList
  | .user => "user".toList
  | .group => "group".toList

/-- config/mod.rs:43-56 `Display for MergeError` -/
def mergeText : MergeError → Str
  | .pathSpecified n => "Duplicate program found for name ".toList ++ n
  | .invalidFieldSpecified n f => "Configuration drop-in for ".toList ++ n ++
      " contains duplicate field ".toList ++ fieldName f
  | .cronjobSpecified n =>
    "Configuration drop-in for ".toList ++ n ++ " changes type to cronjob".toList

/-- config_parser.rs:131-149: one round of the loop of `merge_dropins` -/
def mergeDropinsStep (dict : AMap Str ProcessConfig) (pc : ProcessConfig) :
    W Int (AMap Str ProcessConfig) :=
  match dict.get? pc.name with
  | some process =>
    let dict := dict.erase pc.name
    match process.merge pc with
    | .ok merged => .ret (dict.insert merged.name merged)
    | .err e => (.err configExitCode,
        [⟨inParser, .error, mergeText e⟩, ⟨inParser, .trace, mergeText e⟩])
    | .panic p => (.panic p, [])
  | none => .ret (dict.insert pc.name pc)

/-- The loop of `merge_dropins` -/
def mergeLoop : AMap Str ProcessConfig → List ProcessConfig → W Int (AMap Str ProcessConfig)
  | dict, [] => .ret dict
  | dict, pc :: pcs => (mergeDropinsStep dict pc).bind fun dict => mergeLoop dict pcs

/-- config_parser.rs:128-154 `merge_dropins` -/
def mergeDropins (ord : HashOrder) (config : Config) : W Int Config :=
  (mergeLoop [] config.programs).bind fun dict => .ret ⟨(ord.apply dict).map (·.2)⟩

/-- config_parser.rs:36-48 `parse_config` -/
def parseConfig (h : Herald) (yaml : Str → Option Config) (ord : HashOrder) (root : FileTree) :
    W Int Config :=
  (readConfig h [] root).bind fun raw =>
  .after [⟨inParser, .debug, "Complete configuration:\n".toList ++ raw.flatten⟩]
    ((parseRawConfig h yaml raw).bind fun c => mergeDropins ord c)

/-! ## process_builder.rs -/

/-- A warning, repeated for tracing. -/
def warning (text : Str) : List Record := [⟨inProgram, .warn, text⟩, ⟨inProgram, .trace, text⟩]

/-- process_builder.rs:389-391 `looks_like_tera_template` -/
def looksLikeTemplate (value : Str) : Bool := value.contains '{' || value.contains '}'

/-- process_builder.rs:300-309 -/
def envFailure (h : Herald) (key : Str) (context : Str → Option Str) (raw : Str) : Str :=
  "Templating of environment variable ".toList ++ key ++
    " failed. cinit will use raw value\n".toList ++ h.teraError key context raw

/-- process_builder.rs:314-315 -/
def envSuspicious (key value : Str) : Str :=
  "Environment variable ".toList ++ key ++ " looks like a tera template but has value '".toList ++
    value ++ "' after instantiation. cinit will use raw value".toList

/-- process_builder.rs:290-322: one round of the inner loop of `copy_from_config` -/
def copyMessages (h : Herald) (s : Surroundings) (result : AMap Str Str) (kv : Str × Option Str) :
    List Record :=
  match kv.2 with
  | none => []
  | some raw =>
    match s.render kv.1 result.get? raw with
    | none => warning (envFailure h kv.1 result.get? raw)
    | some v => if looksLikeTemplate v then warning (envSuspicious kv.1 v) else []

/-- process_builder.rs:284-326 `copy_from_config`, with the nested loops made one -/
def copyLoop (h : Herald) (s : Surroundings) (result : AMap Str Str) :
    List (Str × Option Str) → AMap Str Str × List Record
  | [] => (result, [])
  | kv :: kvs =>
    ((copyLoop h s (ProcessBuilder.copyStep s result kv) kvs).1,
      copyMessages h s result kv ++ (copyLoop h s (ProcessBuilder.copyStep s result kv) kvs).2)

/-- process_builder.rs:240-244 `convert_env` -/
def convertEnv (h : Herald) (s : Surroundings) (env : List (List (Str × Option Str))) (user : User) :
    AMap Str Str × List Record :=
  copyLoop h s (ProcessBuilder.sanitiseEnv (ProcessBuilder.getDefaultEnv s) user) env.flatten

/-- process_builder.rs:364-384 -/
def argFailure (h : Herald) (i : Nat) (context : Str → Option Str) (raw : Str) : Str :=
  "Templating of argument ".toList ++ showNat i ++ " failed. cinit will use raw value\n".toList ++
    h.teraError (ProcessBuilder.argName i) context raw

def argSuspicious (i : Nat) (value : Str) : Str :=
  "Argument ".toList ++ showNat i ++ " looks like a tera template but has value '".toList ++
    value ++ "' after instantiation. cinit will use raw value".toList

/-- process_builder.rs:359-386 `treat_template_error_in_argument` -/
def argMessages (h : Herald) (i : Nat) (context : Str → Option Str) (raw : Str) :
    Option Str → List Record
  | none => warning (argFailure h i context raw)
  | some v => if looksLikeTemplate v then warning (argSuspicious i v) else []

/-- process_builder.rs:158-167, from argument `i` on -/
def convertArgs (h : Herald) (s : Surroundings) (env : AMap Str Str) :
    Nat → List Str → W BuildError (List Str)
  | _, [] => .ret []
  | i, x :: xs =>
    .after (argMessages h i env.get? x (s.render (ProcessBuilder.argName i) env.get? x)) <|
    (W.silent (ProcessBuilder.cstring (ProcessBuilder.treatArgument x
      (s.render (ProcessBuilder.argName i) env.get? x)))).bind fun a =>
    (convertArgs h s env (i + 1) xs).bind fun as => .ret (a :: as)

/-- process_builder.rs:112-121 -/
def notifyMessages (config : ProcessConfig) (env : AMap Str Str) : List Record :=
  if config.ptype = .notify ∧ (env.get? ProcessBuilder.sNOTIFY).isSome then
    [⟨inProgram, .warn, "program '".toList ++ config.name ++
      "' must not have NOTIFY_SOCKET because it's type notify".toList⟩,
     ⟨inProgram, .warn, "The value from the configuration file is ignored".toList⟩]
  else []

/-- process_builder.rs:100-170 `Process::from` -/
def processFrom (h : Herald) (s : Surroundings) (config : ProcessConfig) : W BuildError Process :=
  if config.ptype.isCron && !config.before.isEmpty then (.err .cronjobDependency, [])
  else
    (W.silent (ProcessBuilder.mapId config.uid config.user s.userById s.userByName)).bind fun user =>
    (W.silent (ProcessBuilder.mapId config.gid config.group s.groupById s.groupByName)).bind fun group =>
    let env := convertEnv h s config.env user
    .after (env.2 ++ notifyMessages config env.1) <|
    let env := if config.ptype = .notify then
      env.1.insert ProcessBuilder.sNOTIFY ProcessBuilder.notifySocketPath else env.1
    match config.path with
    | none => (.err .pathMissing, [])
    | some path =>
      (W.silent (ProcessBuilder.flattenToStrings s.order env)).bind fun flat =>
      (W.silent (ProcessBuilder.cstring path)).bind fun arg0 =>
      (convertArgs h s env 0 config.args).bind fun args =>
      .ret {
        name := config.name
        path := path
        args := arg0 :: args
        workdir := config.workdir.getD ['.']
        uid := user.uid
        gid := group.gid
        emulatePty := config.emulatePty
        capabilities := config.capabilities
        env := flat
        state := ProcessBuilder.initialState config.ptype
        ptype := ProcessBuilder.runtimeType config.ptype
        pid := 0
        status := [] }

/-! ## process_manager_builder.rs -/

/-- An error, repeated for tracing. -/
def complaint (text : Str) : List Record := [⟨inBuilder, .error, text⟩, ⟨inBuilder, .trace, text⟩]

/-- process_builder.rs:86-97 `Display for Error` -/
def buildText : BuildError → Str
  | .cronjobDependency => "Cronjobs may not have dependencies".toList
  | .userGroupInvalid => "User/Group config invalid".toList
  | .pathMissing => "Missing 'path' attribute".toList

/-- process_manager_builder.rs:73-84: the loop over the programs -/
def processes (h : Herald) (s : Surroundings) : List ProcessConfig → W Int (List Process)
  | [] => .ret []
  | c :: cs =>
    match (processFrom h s c).1 with
    | .err e => (.err builderExitCode, (processFrom h s c).2 ++
        complaint ("Program ".toList ++ c.name ++ " contains error: ".toList ++ buildText e))
    | .panic p => (.panic p, (processFrom h s c).2)
    | .ok p => .after (processFrom h s c).2 ((processes h s cs).bind fun ps => .ret (p :: ps))

/-- process_manager_builder.rs:191-236 -/
def reportDepError (programs : List ProcessConfig) : DepError → W Int Unit
  | .cycle i =>
    match programs[i]? with
    | some c => (.err builderExitCode,
        complaint ("Found cycle involving process '".toList ++ c.name ++ "'".toList))
    | none => (.panic .indexOutOfBounds, [])
  | .unknownAfterReference i k =>
    match programs[i]? with
    | some c => (match c.after[k]? with
      | some d => (.err builderExitCode, complaint ("Unknown 'after' dependency '".toList ++ d ++
          "' of program ".toList ++ c.name))
      | none => (.panic .indexOutOfBounds, []))
    | none => (.panic .indexOutOfBounds, [])
  | .unknownBeforeReference i k =>
    match programs[i]? with
    | some c => (match c.before[k]? with
      | some d => (.err builderExitCode, complaint ("Unknown 'before' dependency '".toList ++ d ++
          "' of program ".toList ++ c.name))
      | none => (.panic .indexOutOfBounds, []))
    | none => (.panic .indexOutOfBounds, [])
  | .cronjobDependency i =>
    match programs[i]? with
    | some c => (.err builderExitCode, complaint ("Program ".toList ++ c.name ++
        " contains error: Depending on cronjobs is not allowed".toList))
    | none => (.panic .indexOutOfBounds, [])

/-- process_manager_builder.rs:180-241 `build_dependency_manager` -/
def buildDependencyManager (topo : Toposort) (ord : HashOrder) (config : Config) : W Int DepMgr :=
  match DepMgr.withNodes topo ord (enumerate config.programs) with
  | .ok d => .ret d
  | .err e => (reportDepError config.programs e).bind fun _ => (.err builderExitCode, [])
  | .panic p => (.panic p, [])

/-- cronjob.rs:54-65, 211-262 -/
def timerText : CronParseErr → Str
  | .invalidBounds => "Invalid range given".toList
  | .incomplete => "Incomplete timer spec".toList
  | .tooMany => "Too many timer specs".toList
  | .invalidTimespec => "Invalid timespec".toList
  | .invalidStep => "Invalid step number".toList
  | .invalidNumber => "Invalid number".toList
  | .invalidEnd => "Invalid number in end of interval".toList
  | .outOfRange => "Invalid range in timer spec".toList
  | .reversed => "Interval end < begin".toList

/-- cronjob.rs:307-332 `with_jobs` -/
def withJobs (env : Env) (c : Cron) : List (Nat × ProcessConfig) → List Int → W CronError Cron
  | [], _ => .ret c
  | (id, pc) :: jobs, clock =>
    match pc.ptype with
    | .cronJob desc =>
      (W.silent ((Timer.parse desc).mapErr (fun s => CronError.timeParse s id))).bind fun td =>
      (W.silent (Cron.lift (td.next env.zone (clock.headD 0)))).bind fun t =>
      .after [⟨inSchedule, .debug, "Scheduled execution of '".toList ++ pc.name ++ "' at ".toList ++
        env.rfc3339 t⟩] <|
      (W.silent (Cron.lift (c.insertJob t id))).bind fun c' =>
      withJobs env { c' with timers := c'.timers.insert id td } jobs clock.tail
    | _ => (.panic .invalidProcessType, [])

/-- process_manager_builder.rs:249-278 `build_cron` -/
def buildCron (env : Env) (config : Config) (clock : List Int) : W Int Cron :=
  let r := withJobs env {} (cronPrograms 0 config.programs) clock
  match r.1 with
  | .ok c => (.ok c, r.2)
  | .panic p => (.panic p, r.2)
  | .err (.timeParse msg id) =>
    match config.programs[id]? with
    | some c => (.err builderExitCode, r.2 ++ complaint ("Timer parse error for program '".toList ++
        c.name ++ "': ".toList ++ timerText msg))
    | none => (.panic .indexOutOfBounds, r.2)

/-- process_manager_builder.rs:169 -/
def socketMessages (before after : Sockets.State) : List Record :=
  (after.messages.drop before.messages.length).map fun t => ⟨inBuilder, .debug, t⟩

/-- process_manager_builder.rs:72-108 `ProcessManager::from` -/
def manager (h : Herald) (x : Machine) (config : Config) : W Int Manager :=
  (processes h x.surroundings config.programs).bind fun procs =>
  let deps := buildDependencyManager x.topo x.graphOrder config
  .after deps.2 <|
  match deps.1 with
  | .panic p => (.panic p, [])
  | _ =>
    let cron := buildCron x.env config x.clock
    .after cron.2 <|
    match cron.1 with
    | .panic p => (.panic p, [])
    | _ =>
      match Sockets.setupFileDescriptors x.system with
      | .err e s => (.err builderExitCode, socketMessages x.system s ++
          [⟨inBuilder, .error, "Could not setup sockets: ".toList ++ h.socketError e⟩])
      | .ok _ s =>
        .after (socketMessages x.system s) <|
        (W.silent deps.1).bind fun deps =>
        (W.silent cron.1).bind fun cron =>
        if x.epoll then
          .ret { procs := procs, deps := deps, cron := cron,
                 signalFd := x.numbers.1, statusFd := x.numbers.2.1, notifyFd := x.numbers.2.2 }
        else (.panic .epollFailed, [])

/-! ## main.rs -/

def info (text : String) : Record := ⟨inMain, .info, text.toList⟩

/-- main.rs:78-108, up to the event loop -/
def prologue (h : Herald) (x : Machine) : W Int Manager :=
  .after [info "Starting up"] <|
  (doStartupChecks h x.release x.uid).bind fun _ =>
  .after [⟨inMain, .info, "Config is at ".toList ++ h.configPath⟩, info "Parsing config"] <|
  (parseConfig h x.yaml x.mergeOrder x.tree).bind fun config =>
  .after [info "Perform analysis on programs"] <|
  (manager h x config).bind fun m =>
  .after [info "Spawning processes"] (.ret m)

end Heralded

/-- All calls of logging macros in a run. -/
def Machine.records (x : Machine) (h : Herald) (v : Voice) : List Record :=
  (Heralded.prologue h x).2 ++
  match (Heralded.prologue h x).1 with
  | .ok m => (x.entries v m).map Entry.record
  | _ => []

/-- All that is written to one of the streams. -/
def Logging.consoleOf (verbosity : Nat) (stream : Stream) (rs : List (Time × Record)) : Str :=
  rs.flatMap fun r => ((initialise verbosity).log r.1 r.2).flatMap fun w =>
    if w.1 = stream then w.2 else []

end Cinit
