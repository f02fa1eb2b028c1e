import Verif.Model.Config
/-!
# Model of the deserialisation derived in `src/config/mod.rs`

`#[derive(Deserialize)]` and the field attributes determine which documents are read as which
configuration. The YAML library is represented by a tree (aliases are resolved, tags are not
modelled) and by the way it reads plain scalars, which is left open in `Reading`. Errors are not
told apart, as `parse_raw_config` only prints them.
-/

namespace Cinit

/-- A YAML scalar: its text, and whether it is written plainly, that is without quotes. -/
structure Scalar where
  text : Str
  plain : Bool
  deriving DecidableEq, Repr

/-- A YAML document. -/
inductive Node where
  | scalar (s : Scalar)
  | seq (l : List Node)
  | map (l : List (Node × Node))

/-- How `serde_yaml` reads plain scalars that are not empty, and what it makes of structures that
are given as a list of their fields. -/
structure Reading where
  /-- `~`, `null` and variants -/
  null : Str → Bool
  /-- `true`, `false` and variants -/
  bool : Str → Option Bool
  /-- unsigned integers of 32 bits in the notations of YAML -/
  int : Str → Option Nat
  int_lt : ∀ s n, int s = some n → n < 2 ^ 32
  /-- `visit_seq` of `ProcessConfig` -/
  listedProgram : List Node → Option ProcessConfig
  /-- `visit_seq` of `Config` -/
  listedConfig : List Node → Option Config

namespace Decode

/-- Nothing is given as value. -/
def isVoid : Node → Bool
  | .scalar s => s.plain && s.text.isEmpty
  | _ => false

def isNull (r : Reading) : Node → Bool
  | .scalar s => s.plain && (s.text.isEmpty || r.null s.text)
  | _ => false

/-- `String`: the text of any scalar -/
def text : Node → Option Str
  | .scalar s => some s.text
  | _ => none

/-- `bool` -/
def bool (r : Reading) : Node → Option Bool
  | .scalar s => if s.plain then r.bool s.text else none
  | _ => none

/-- `u32` -/
def int (r : Reading) : Node → Option Nat
  | .scalar s => if s.plain then r.int s.text else none
  | _ => none

/-- `Option<T>` -/
def optional (r : Reading) {α : Type} (f : Node → Option α) (n : Node) : Option (Option α) :=
  if isNull r n then some none else (f n).map some

def all {α β : Type} (f : α → Option β) : List α → Option (List β)
  | [] => some []
  | a :: l => (f a).bind fun b => (all f l).map (b :: ·)

/-- `Vec<T>` -/
def list {α : Type} (f : Node → Option α) (n : Node) : Option (List α) :=
  match n with
  | .seq l => all f l
  | n => if isVoid n then some [] else none

/-- The entries of a mapping. -/
def entries (n : Node) : Option (List (Node × Node)) :=
  match n with
  | .map l => some l
  | n => if isVoid n then some [] else none

/-- `HashMap<String, Option<String>>`: later entries replace earlier ones -/
def insertAll (r : Reading) (m : AMap Str (Option Str)) :
    List (Node × Node) → Option (AMap Str (Option Str))
  | [] => some m
  | (k, v) :: l => (text k).bind fun k => (optional r text v).bind fun v =>
    insertAll r (m.insert k v) l

/-- An element of `env`, mod.rs:128; `ord` is the order the map is iterated in. -/
def envEntry (r : Reading) (ord : HashOrder) (n : Node) : Option (List (Str × Option Str)) :=
  (entries n).bind fun l => (insertAll r [] l).map ord.apply

/-- A field is set; it must not have been set before. -/
def once {α : Type} (old : Option α) (new : Option α) : Option (Option α) :=
  if old.isSome then none else new.map some

/-- The fields of `CronJob`, mod.rs:74 -/
def timer (t : Option Str) : List (Node × Node) → Option (Option Str)
  | [] => some t
  | (k, v) :: l => (text k).bind fun k =>
    if k = "timer".toList then (once t (text v)).bind fun t => timer t l else timer t l

/-- mod.rs:60-75 `ProcessType`, read by `singleton_map` (mod.rs:102): the name of the variant, or
a mapping from its name to its fields -/
def type (r : Reading) (n : Node) : Option CfgType :=
  match n with
  | .scalar s =>
    if s.text = "oneshot".toList then some .oneshot
    else if s.text = "notify".toList then some .notify
    else none
  | .map [(k, v)] => (text k).bind fun k =>
    if k = "oneshot".toList then if isNull r v then some .oneshot else none
    else if k = "notify".toList then if isNull r v then some .notify else none
    else if k = "cronjob".toList then
      (entries v).bind fun l => (timer none l).bind fun t => t.map .cronJob
    else none
  | _ => none

/-- The keys of a program, mod.rs:90-128 -/
inductive Field where
  | name | path | args | workdir | type | uid | gid | user | group | before | after | pty
  | capabilities | env | unknown
  deriving DecidableEq, Repr

/-- Names of the fields, `rename`d at mod.rs:100 and 121; other keys are ignored as
`deny_unknown_fields` is not given. -/
def Field.of (k : Str) : Field :=
  if k = "name".toList then .name
  else if k = "path".toList then .path
  else if k = "args".toList then .args
  else if k = "workdir".toList then .workdir
  else if k = "type".toList then .type
  else if k = "uid".toList then .uid
  else if k = "gid".toList then .gid
  else if k = "user".toList then .user
  else if k = "group".toList then .group
  else if k = "before".toList then .before
  else if k = "after".toList then .after
  else if k = "pty".toList then .pty
  else if k = "capabilities".toList then .capabilities
  else if k = "env".toList then .env
  else .unknown

/-- The fields read so far. -/
structure Slots where
  name : Option Str := none
  path : Option (Option Str) := none
  args : Option (List Str) := none
  workdir : Option (Option Str) := none
  type : Option CfgType := none
  uid : Option (Option Nat) := none
  gid : Option (Option Nat) := none
  user : Option (Option Str) := none
  group : Option (Option Str) := none
  before : Option (List Str) := none
  after : Option (List Str) := none
  pty : Option Bool := none
  capabilities : Option (List Str) := none
  env : Option (List (List (Str × Option Str))) := none

/-- mod.rs:90-128: one entry of a program; types and `with` as given there -/
def slot (r : Reading) (ord : HashOrder) (s : Slots) (f : Field) (n : Node) : Option Slots :=
  match f with
  | .name => (once s.name (text n)).map fun v => { s with name := v }
  | .path => (once s.path (optional r text n)).map fun v => { s with path := v }
  | .args => (once s.args (list text n)).map fun v => { s with args := v }
  | .workdir => (once s.workdir (optional r text n)).map fun v => { s with workdir := v }
  | .type => (once s.type (type r n)).map fun v => { s with type := v }
  | .uid => (once s.uid (optional r (int r) n)).map fun v => { s with uid := v }
  | .gid => (once s.gid (optional r (int r) n)).map fun v => { s with gid := v }
  | .user => (once s.user (optional r text n)).map fun v => { s with user := v }
  | .group => (once s.group (optional r text n)).map fun v => { s with group := v }
  | .before => (once s.before (list text n)).map fun v => { s with before := v }
  | .after => (once s.after (list text n)).map fun v => { s with after := v }
  | .pty => (once s.pty (bool r n)).map fun v => { s with pty := v }
  | .capabilities => (once s.capabilities (list text n)).map fun v => { s with capabilities := v }
  | .env => (once s.env (list (envEntry r ord) n)).map fun v => { s with env := v }
  | .unknown => some s

def slots (r : Reading) (ord : HashOrder) (s : Slots) : List (Node × Node) → Option Slots
  | [] => some s
  | (k, v) :: l => (text k).bind fun k => (slot r ord s (Field.of k) v).bind fun s =>
    slots r ord s l

/-- Defaults of the fields not given, mod.rs:93-127 and 77-79; `name` has none. -/
def finish (s : Slots) : Option ProcessConfig :=
  s.name.map fun name =>
    { name := name
      path := s.path.getD none
      args := s.args.getD []
      workdir := s.workdir.getD none
      ptype := s.type.getD .oneshot
      uid := s.uid.getD none
      gid := s.gid.getD none
      user := s.user.getD none
      group := s.group.getD none
      before := s.before.getD []
      after := s.after.getD []
      emulatePty := s.pty.getD false
      capabilities := s.capabilities.getD []
      env := s.env.getD [] }

/-- mod.rs:89-129 `ProcessConfig` -/
def program (r : Reading) (ord : HashOrder) (n : Node) : Option ProcessConfig :=
  match n with
  | .seq l => r.listedProgram l
  | n => (entries n).bind fun l => (slots r ord {} l).bind finish

/-- The fields of `Config`, mod.rs:224 -/
def programs (r : Reading) (ord : HashOrder) (ps : Option (List ProcessConfig)) :
    List (Node × Node) → Option (Option (List ProcessConfig))
  | [] => some ps
  | (k, v) :: l => (text k).bind fun k =>
    if k = "programs".toList then
      (once ps (list (program r ord) v)).bind fun ps => programs r ord ps l
    else programs r ord ps l

/-- mod.rs:222-225 `Config` -/
def config (r : Reading) (ord : HashOrder) (n : Node) : Option Config :=
  match n with
  | .seq l => r.listedConfig l
  | n => (entries n).bind fun l => (programs r ord none l).bind fun ps => ps.map (⟨·⟩)

/-- `serde_yaml::from_str::<Config>`, config_parser.rs:104, where `parse` is the parser of YAML -/
def yaml (parse : Str → Option Node) (r : Reading) (ord : HashOrder) (s : Str) :
    Option Config :=
  (parse s).bind (config r ord)

end Decode

end Cinit
