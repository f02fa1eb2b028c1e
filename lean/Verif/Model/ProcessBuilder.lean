import Verif.Model.Process
import Verif.Model.Config
/-!
# Model of `src/analyse/process_builder.rs`
-/

namespace Cinit

/-- The parts of `nix::unistd::User` that are used. -/
structure User where
  name : Str
  uid : Nat
  dir : Str
  deriving DecidableEq, Repr

/-- The parts of `nix::unistd::Group` that are used. -/
structure Group where
  gid : Nat
  deriving DecidableEq, Repr

/-- What `Process::from` reads from its surroundings.

* `getenv`: `std::env::var`; `none` stands for unset or not unicode.
* the user and group databases; `none` stands for `Ok(None)` as well as for `Err(_)`, which
  process_builder.rs:225-235 treats alike.
* `render name context raw`: the tera engine, process_builder.rs:341-353; `none` stands for
  an error. Templates drawing random numbers or reading the clock are thereby excluded.
* `order`: the iteration order of the hash map flattened in lines 331-338. -/
structure Surroundings where
  getenv : Str → Option Str
  userById : Nat → Option User
  userByName : Str → Option User
  groupById : Nat → Option Group
  groupByName : Str → Option Group
  render : Str → (Str → Option Str) → Str → Option Str
  order : HashOrder

/-- process_builder.rs:75-84 `Error` -/
inductive BuildError where
  | cronjobDependency
  | userGroupInvalid
  | pathMissing
  deriving DecidableEq, Repr

namespace ProcessBuilder

/-- process_builder.rs:262 -/
def sHOME : Str := ['H', 'O', 'M', 'E']
def sLANG : Str := ['L', 'A', 'N', 'G']
def sLANGUAGE : Str := ['L', 'A', 'N', 'G', 'U', 'A', 'G', 'E']
def sLOGNAME : Str := ['L', 'O', 'G', 'N', 'A', 'M', 'E']
def sPATH : Str := ['P', 'A', 'T', 'H']
def sPWD : Str := ['P', 'W', 'D']
def sSHELL : Str := ['S', 'H', 'E', 'L', 'L']
def sTERM : Str := ['T', 'E', 'R', 'M']
def sUSER : Str := ['U', 'S', 'E', 'R']

/-- process_builder.rs:113 -/
def sNOTIFY : Str :=
  ['N', 'O', 'T', 'I', 'F', 'Y', '_', 'S', 'O', 'C', 'K', 'E', 'T']

/-- process_builder.rs:185 -/
def binSh : Str := ['/', 'b', 'i', 'n', '/', 's', 'h']

/-- process_manager_builder.rs:68 `NOTIFY_SOCKET_PATH` -/
def notifySocketPath : Str :=
  ['/', 'r', 'u', 'n', '/', 'c', 'i', 'n', 'i', 't', '-', 'n', 'o', 't', 'i', 'f', 'y', '.',
    's', 'o', 'c', 'k', 'e', 't']

/-- process_builder.rs:261-263 `default_env` -/
def defaultEnv : List Str :=
  [sHOME, sLANG, sLANGUAGE, sLOGNAME, sPATH, sPWD, sSHELL, sTERM, sUSER]

/-- process_builder.rs:259-275 `get_default_env` -/
def getDefaultEnv (s : Surroundings) : AMap Str Str :=
  defaultEnv.foldl (fun result key =>
    match s.getenv key with
    | none => result.insert key []
    | some v => result.insert key v) []

/-- process_builder.rs:180-186 `sanitise_env`. `to_string_lossy` is the identity on the
valid texts of the model. -/
def sanitiseEnv (env : AMap Str Str) (user : User) : AMap Str Str :=
  ((((env.insert sHOME user.dir).insert sPWD user.dir).insert sUSER user.name).insert
    sLOGNAME user.name).insert sSHELL binSh

/-- process_builder.rs:290-322: one round of the inner loop of `copy_from_config`. The
warnings (lines 300-316) only go to the log. -/
def copyStep (s : Surroundings) (result : AMap Str Str) (kv : Str × Option Str) :
    AMap Str Str :=
  match kv.2 with
  | none =>
    match s.getenv kv.1 with
    | none => result
    | some v => result.insert kv.1 v
  | some raw =>
    match s.render kv.1 result.get? raw with
    | none => result.insert kv.1 raw
    | some v => result.insert kv.1 v

/-- process_builder.rs:284-326 `copy_from_config`: two nested loops. -/
def copyFromConfig (s : Surroundings) (env : List (List (Str × Option Str)))
    (result : AMap Str Str) : AMap Str Str :=
  env.foldl (fun result entry => entry.foldl (copyStep s) result) result

/-- process_builder.rs:240-244 `convert_env` -/
def convertEnv (s : Surroundings) (env : List (List (Str × Option Str))) (user : User) :
    AMap Str Str :=
  copyFromConfig s env (sanitiseEnv (getDefaultEnv s) user)

/-- `CString::new(..).expect(..)` -/
def cstring {ε : Type} (t : Str) : Res ε Str :=
  if '\x00' ∈ t then .panic .nulByte else .ok t

/-- process_builder.rs:331-338 `flatten_to_strings` -/
def flattenToStrings {ε : Type} (ord : HashOrder) (env : AMap Str Str) : Res ε (List Str) :=
  Res.mapM' (fun kv => cstring (kv.1 ++ '=' :: kv.2)) (ord.apply env)

/-- process_builder.rs:209-237 `map_id` -/
def mapId {α : Type} (id : Option Nat) (name : Option Str) (fromId : Nat → Option α)
    (fromName : Str → Option α) : Res BuildError α :=
  match id, name with
  | some _, some _ => .err .userGroupInvalid
  | _, _ =>
    let id := if id.isNone && name.isNone then some 0 else id
    match (id.bind fromId).or (name.bind fromName) with
    | some a => .ok a
    | none => .err .userGroupInvalid

/-- process_builder.rs:163 `format!("Argument {i}")` -/
def argName (i : Nat) : Str := ['A', 'r', 'g', 'u', 'm', 'e', 'n', 't', ' '] ++ showNat i

/-- process_builder.rs:359-386 `treat_template_error_in_argument` -/
def treatArgument (raw : Str) : Option Str → Str
  | none => raw
  | some v => v

/-- process_builder.rs:158-167, from argument `i` on. -/
def convertArgs (s : Surroundings) (env : AMap Str Str) : Nat → List Str → Res BuildError (List Str)
  | _, [] => .ok []
  | i, x :: xs =>
    cstring (treatArgument x (s.render (argName i) env.get? x)) >>= fun a =>
    convertArgs s env (i + 1) xs >>= fun as =>
    .ok (a :: as)

/-- process_builder.rs:145-149 -/
def runtimeType : CfgType → PType
  | .oneshot => .oneshot
  | .notify => .notify
  | .cronJob _ => .cronjob

/-- process_builder.rs:140-144 -/
def initialState : CfgType → PState
  | .oneshot => .blocked
  | .notify => .blocked
  | .cronJob _ => .sleeping

/-- process_builder.rs:100-170 `Process::from` -/
def processFrom (s : Surroundings) (config : ProcessConfig) : Res BuildError Process :=
  if config.ptype.isCron && !config.before.isEmpty then .err .cronjobDependency
  else
    mapId config.uid config.user s.userById s.userByName >>= fun user =>
    mapId config.gid config.group s.groupById s.groupByName >>= fun group =>
    let env := convertEnv s config.env user
    let env := if config.ptype = .notify then env.insert sNOTIFY notifySocketPath else env
    match config.path with
    | none => .err .pathMissing
    | some path =>
      flattenToStrings s.order env >>= fun flat =>
      cstring path >>= fun arg0 =>
      convertArgs s env 0 config.args >>= fun args =>
      .ok {
        name := config.name
        path := path
        args := arg0 :: args
        workdir := config.workdir.getD ['.']
        uid := user.uid
        gid := group.gid
        emulatePty := config.emulatePty
        capabilities := config.capabilities
        env := flat
        state := initialState config.ptype
        ptype := runtimeType config.ptype
        pid := 0
        status := [] }

end ProcessBuilder

end Cinit
