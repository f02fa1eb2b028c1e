import Verif.Base.Text
import Verif.Base.AMap
/-!
# Model of `src/config`
-/

namespace Cinit

/-- config/mod.rs:60-75 `config::ProcessType`. -/
inductive CfgType where
  | oneshot
  | notify
  | cronJob (timer : Str)
  deriving DecidableEq, Repr

/-- Pattern `ProcessType::CronJob { .. }`. -/
def CfgType.isCron : CfgType → Bool
  | .cronJob _ => true
  | _ => false

/-- config/mod.rs:89-129 `ProcessConfig`. `uid`/`gid` are `u32` in Rust. Each element of
`env` is a Rust `HashMap`; it is represented by its entries in iteration order, so
quantifying over configurations covers every hash order. -/
structure ProcessConfig where
  name : Str
  path : Option Str := none
  args : List Str := []
  workdir : Option Str := none
  ptype : CfgType := .oneshot
  uid : Option Nat := none
  gid : Option Nat := none
  user : Option Str := none
  group : Option Str := none
  before : List Str := []
  after : List Str := []
  emulatePty : Bool := false
  capabilities : List Str := []
  env : List (List (Str × Option Str)) := []
  deriving DecidableEq, Repr

/-- config/mod.rs:31-40 `MergeError`; the field name is kept as an enumeration. -/
inductive MergeField where
  | workdir | uid | gid | user | group
  deriving DecidableEq, Repr

inductive MergeError where
  | pathSpecified (name : Str)
  | invalidFieldSpecified (name : Str) (field : MergeField)
  | cronjobSpecified (name : Str)
  deriving DecidableEq, Repr

/-- config/mod.rs:213-216 `prune_duplicates`. -/
def pruneDuplicates (l : List Str) : List Str := dedupAdj (sortStr l)

namespace ProcessConfig

/-- config/mod.rs:194-210: the field-wise combination once all checks have passed. -/
def combine (primary dropin : ProcessConfig) : ProcessConfig :=
  { primary with
    env := primary.env ++ dropin.env
    before := pruneDuplicates (primary.before ++ dropin.before)
    after := pruneDuplicates (primary.after ++ dropin.after)
    capabilities := pruneDuplicates (primary.capabilities ++ dropin.capabilities)
    args := primary.args ++ dropin.args
    emulatePty := primary.emulatePty || dropin.emulatePty
    workdir := primary.workdir.or dropin.workdir
    uid := primary.uid.or dropin.uid
    gid := primary.gid.or dropin.gid
    user := primary.user.or dropin.user
    group := primary.group.or dropin.group }

/-- config/mod.rs:155-210: `merge` after primary and dropin have been identified. -/
def mergeInto (primary dropin : ProcessConfig) : Res MergeError ProcessConfig :=
  if dropin.path.isSome then .err (.pathSpecified primary.name)
  else if dropin.workdir.isSome && primary.workdir.isSome then
    .err (.invalidFieldSpecified primary.name .workdir)
  else if dropin.uid.isSome && primary.uid.isSome then
    .err (.invalidFieldSpecified primary.name .uid)
  else if dropin.gid.isSome && primary.gid.isSome then
    .err (.invalidFieldSpecified primary.name .gid)
  else if dropin.user.isSome && primary.user.isSome then
    .err (.invalidFieldSpecified primary.name .user)
  else if dropin.group.isSome && primary.group.isSome then
    .err (.invalidFieldSpecified primary.name .group)
  else if dropin.ptype.isCron then .err (.cronjobSpecified primary.name)
  else .ok (combine primary dropin)

/-- config/mod.rs:143-211 `ProcessConfig::merge`. -/
def merge (self other : ProcessConfig) : Res MergeError ProcessConfig :=
  if self.name ≠ other.name then .panic .nameMismatch
  else if self.path.isNone then mergeInto other self
  else mergeInto self other

end ProcessConfig

/-- config/mod.rs:223-233 `Config` and `Config::merge`. -/
structure Config where
  programs : List ProcessConfig := []
  deriving DecidableEq, Repr

def Config.merge (self other : Config) : Config := ⟨self.programs ++ other.programs⟩

/-- config_parser.rs:33 -/
def configExitCode : Int := 1

/-- config_parser.rs:131-149: one round of the loop of `merge_dropins`.
The `MergeError` is only logged; the function returns the exit code. -/
def mergeDropinsStep (dict : AMap Str ProcessConfig) (pc : ProcessConfig) :
    Res Int (AMap Str ProcessConfig) :=
  match dict.get? pc.name with
  | some process =>
    let dict := dict.erase pc.name
    match process.merge pc with
    | .ok merged => .ok (dict.insert merged.name merged)
    | .err _ => .err configExitCode
    | .panic p => .panic p
  | none => .ok (dict.insert pc.name pc)

/-- config_parser.rs:128-154 `merge_dropins`; `ord` is the iteration order of `dict.drain()`. -/
def mergeDropins (ord : HashOrder) (config : Config) : Res Int Config :=
  Res.foldlM mergeDropinsStep [] config.programs >>= fun dict =>
    .ok ⟨(ord.apply dict).map (·.2)⟩

/-- What `fs::metadata`, `fs::read_dir` and `read_file` see below the configuration root.
`unreadable` stands for any I/O error (metadata, directory listing, directory entry, file
content not UTF-8, ...). Symbolic links are resolved by `fs::metadata`; the tree is the
resolved view (cyclic links end in an I/O error, hence `unreadable`). `badName` is a
directory entry whose path is not UTF-8: `to_str().unwrap()` at config_parser.rs:79 panics. -/
inductive FileTree where
  | file (content : Str)
  | dir (entries : List FileTree)
  | other
  | unreadable
  | badName
  deriving Repr

mutual
/-- config_parser.rs:53-100 `read_config`. -/
def readConfig : FileTree → Res Int (List Str)
  | .file content => .ok [content]
  | .dir entries => readEntries entries
  | .other => .ok []
  | .unreadable => .err configExitCode
  | .badName => .panic .invalidUtf8
/-- config_parser.rs:73-83: the loop over directory entries. -/
def readEntries : List FileTree → Res Int (List Str)
  | [] => .ok []
  | t :: ts => readConfig t >>= fun c => readEntries ts >>= fun cs => .ok (c ++ cs)
end

/-- config_parser.rs:103-121 `parse_raw_config`; `yaml` is `serde_yaml::from_str::<Config>`
(`none` for a parse error). All files are parsed before any result is used. -/
def parseRawConfig (yaml : Str → Option Config) (raw : List Str) : Res Int Config :=
  if (raw.map yaml).any Option.isNone then .err configExitCode
  else .ok ((raw.filterMap yaml).foldl Config.merge {})

/-- config_parser.rs:36-48 `parse_config`. -/
def parseConfig (yaml : Str → Option Config) (ord : HashOrder) (root : FileTree) :
    Res Int Config :=
  readConfig root >>= fun raw => parseRawConfig yaml raw >>= fun c => mergeDropins ord c

end Cinit
