import Verif.Model.Document
import Verif.Model.Prologue
import Verif.Model.Child
import Verif.Props.Startlog
/-!
# The system tests of cinit, carried out on the model

These are tests of the model, not properties of cinit: the use cases in
`/repo/system-tests/usecases`, with the configurations given there and the expectations as
expressed there with `/repo/system-tests/driver.py`, in the order of their names. Each run starts
from the documents of the configuration. What the kernel and the programs do is written down as
answers, one of the ways the test may go; the expected traces, the exit code and what the started
programs find are those of the authors. Pseudo terminals (`assert_pty`) are not looked at.
-/

namespace Cinit.Checks.System

open Cinit Logging Props

/-! ## driver.py: traces -/

/-- driver.py:99-215: what a test waits for. Lists of `Sequential`, `Parallel` and `AnyOf` are
made of pairs; `done` has been seen. -/
inductive Matcher where
  | done
  /-- a message -/
  | line (text : Str)
  /-- a message beginning with this -/
  | begins (text : Str)
  | sequential (a b : Matcher)
  | parallel (a b : Matcher)
  | anyOf (a b : Matcher)
  deriving DecidableEq

namespace Matcher

/-- `matches`: what is left to be waited for after a message -/
def step : Matcher → Str → Matcher
  | done, _ => done
  | line t, l => if t = l then done else line t
  | begins t, l => if t.isPrefixOf l then done else begins t
  | sequential a b, l => if a.step l = done then b else sequential (a.step l) b
  | parallel a b, l =>
    if a.step l = done then b.step l
    else if b.step l = done then a.step l
    else parallel (a.step l) (b.step l)
  | anyOf a b, l => if a.step l = done ∨ b.step l = done then done else anyOf (a.step l) (b.step l)

/-- `Trace.that` -/
def accepts (m : Matcher) (trace : List Str) : Bool := trace.foldl step m = done

end Matcher

def inOrder : List Matcher → Matcher
  | [] => .done
  | [m] => m
  | m :: ms => .sequential m (inOrder ms)

def inParallel : List Matcher → Matcher
  | [] => .done
  | [m] => m
  | m :: ms => .parallel m (inParallel ms)

def oneOf : List Matcher → Matcher
  | [] => .done
  | [m] => m
  | m :: ms => .anyOf m (oneOf ms)

/-! driver.py:217-440: the messages, all at level `TRACE` -/

def said (parts : List String) : Matcher := .line (parts.flatMap String.toList)
def saidFirst (parts : List String) : Matcher := .begins (parts.flatMap String.toList)

def duplicateProgramName (n : String) := said ["Duplicate program found for name ", n]
def cycleDetected (n : String) := said ["Found cycle involving process '", n, "'"]
def cronjobDependency (n : String) :=
  said ["Program ", n, " contains error: Cronjobs may not have dependencies"]
def dependencyOnCronjob (n : String) :=
  said ["Program ", n, " contains error: Depending on cronjobs is not allowed"]
def spawned (n : String) := said ["Started child ", n]
def hasStarted (n : String) := said ["child ", n, " has started successfully"]
def pidChanged (n : String) := saidFirst ["child ", n, " main pid is changed from "]
def hasStatus (n status : String) := said ["child ", n, ": ", status]
def exited (n : String) := said ["Child ", n, " exited successfully"]
def sleeping (n : String) := said ["Child ", n, " has finished and is going to sleep"]
def cronjobSkipped (n : String) :=
  said ["Refusing to start cronjob child '", n, "' because of uncompleted dependencies"]
def skipped (n : String) := said ["Refusing to start child '", n, "' which is currently running"]
def exiting := said ["Exiting"]
def zombieReaped := saidFirst ["Reaped zombie process"]
def configError := said ["Error in configuration file"]
def programConfigError (n : String) := saidFirst ["Program ", n, " contains error"]
def unknownAfter (n d : String) := said ["Unknown 'after' dependency '", d, "' of program ", n]
def unknownBefore (n d : String) := said ["Unknown 'before' dependency '", d, "' of program ", n]
def crashed (n rc : String) := said ["Child ", n, " crashed with ", rc]
def envFailed (n : String) := saidFirst ["Templating of environment variable ", n, " failed"]
def envLooksLike (n : String) :=
  saidFirst ["Environment variable ", n, " looks like a tera template"]
def argFailed (i : String) := saidFirst ["Templating of argument ", i, " failed"]
def argLooksLike (i : String) := saidFirst ["Argument ", i, " looks like a tera template"]

/-! ## The container the tests run in -/

/-- Nodes of documents: plain and quoted scalars, sequences and mappings. -/
def p (t : String) : Node := .scalar ⟨t.toList, true⟩
def q (t : String) : Node := .scalar ⟨t.toList, false⟩
def s (l : List Node) : Node := .seq l
def m (l : List (String × Node)) : Node := .map (l.map fun e => (p e.1, e.2))

/-- A variable between double braces, and the text behind. -/
def closing : Str → Str → Option (Str × Str)
  | _, [] => none
  | acc, '}' :: '}' :: rest => some (acc.reverse, rest)
  | acc, c :: rest => if c = '{' ∨ c = '}' then none else closing (c :: acc) rest

/-- As much of tera as the tests need: variables between double braces are replaced. -/
def template (context : Str → Option Str) : Nat → Str → Option Str
  | 0, _ => none
  | _, [] => some []
  | n + 1, '{' :: '{' :: rest =>
    match closing [] rest with
    | some (name, rest) =>
      (context (name.filter (· != ' '))).bind fun v => (template context n rest).map (v ++ ·)
    | none => none
  | n + 1, c :: rest => (template context n rest).map (c :: ·)

/-- The users, the groups and the environment; `1409` is the user of the tests. -/
def container : Surroundings where
  getenv k := if k = "PATH".toList then some "/usr/bin:/bin".toList else none
  userById i :=
    if i = 0 then some ⟨"root".toList, 0, "/root".toList⟩
    else if i = 1409 then some ⟨"testuser".toList, 1409, "/home/testuser".toList⟩ else none
  userByName n :=
    if n = "root".toList then some ⟨"root".toList, 0, "/root".toList⟩
    else if n = "testuser".toList then some ⟨"testuser".toList, 1409, "/home/testuser".toList⟩
    else none
  groupById i := if i = 0 then some ⟨0⟩ else if i = 1409 then some ⟨1409⟩ else none
  groupByName n := if n = "testgroup".toList then some ⟨1409⟩ else none
  render _ context raw := template context (raw.length + 1) raw
  order := .id

def reading : Reading where
  null t := t = "null".toList || t = "~".toList
  bool t := if t = "true".toList then some true else if t = "false".toList then some false else none
  int t := if (parseU32 t).isSome ∧ ((parseU32 t).getD 0) < 2 ^ 32 then parseU32 t else none
  int_lt t n h := by
    split at h
    · rename_i hc; rw [h] at hc; exact hc.2
    · cases h
  listedProgram _ := none
  listedConfig _ := none

/-- The documents, by the files they are in; `none` is not a document. -/
abbrev Files := List (String × Option Node)

/-- The machine: cinit in the container, with these files of configuration. -/
def machine (files : Files) (answers : List Answer) : Machine where
  release := some "5.10.0".toList
  uid := 0
  tree := .dir (files.map fun f => .file f.1.toList)
  yaml := Decode.yaml (fun t => ((files.find? (fun f => f.1.toList = t)).bind (·.2))) reading .id
  mergeOrder := .id
  surroundings := container
  topo := .warshall
  graphOrder := .id
  clock := List.replicate 9 (30 * 1_000_000_000)
  system := { nodes := fun _ => none }
  numbers := (3, 4, 5)
  epoll := true
  openFds := [0, 1, 2]
  env := { zone := .fixed 0, order := fun _ => .id, rfc3339 := showInt }
  answers := answers

/-- The messages the tests look at: cinit runs with `--verbose --verbose`. -/
def trace (x : Machine) : List Str :=
  ((x.records plainHerald plainVoice).filter (fun r => r.level = .trace)).map (·.message)

/-- `assert_exit_code` and `assert_on_trace` -/
def passes (x : Machine) (code : Int) (expected : Matcher) : Bool :=
  (match run x with
    | .exited c _ => c = code
    | _ => false) && expected.accepts (trace x)

/-- The programs, as far as the configuration is analysed. -/
def programs (x : Machine) : List Process :=
  match parseConfig x.yaml x.mergeOrder x.tree with
  | .ok config => (match x.manager config with
    | .ok m => m.procs
    | _ => [])
  | _ => []

/-- `NoChildProcess` -/
def notRun (x : Machine) (name : String) : Bool :=
  (run x).log.all fun e => match e with
    | .spawned i _ _ _ => ((programs x)[i]?.map (·.name)) != some name.toList
    | _ => true

/-- A process of root with all capabilities, and the files the programs are found in. -/
def parent : Child.Proc where
  cred := { ruid := 0, euid := 0, suid := 0, rgid := 0, egid := 0, sgid := 0, groups := [0]
            permitted := fun _ => true, effective := fun _ => true
            inheritable := Caps.empty, ambient := Caps.empty, bounding := fun _ => true }
  files n := if n ≤ 2 then some ⟨n, false⟩ else if n = 6 ∨ n = 7 then some ⟨n, false⟩ else none
  mask := []
  ignored := [13]
  cwd := "/usr/src/cinit".toList
  answers := List.replicate 40 none

def disk : Child.Disk where
  path := some "/usr/bin:/bin".toList
  attempt _ _ _ := .runs .plain

/-- `ChildProcess`: what a program that is started finds -/
def child (x : Machine) (name : String) : Option Child.Image :=
  if notRun x name then none
  else ((programs x).find? (fun p => p.name = name.toList)).bind fun p =>
    match Child.run .id [] showNat disk p 6 7 parent with
    | .executed i _ => some i
    | _ => none

def dump (x : Machine) (name : String) (test : Child.Image → Bool) : Bool :=
  match child x name with
  | some i => test i
  | none => false

def hasArg (t : String) (i : Child.Image) : Bool := i.args.contains t.toList
def hasUid (n : Nat) (i : Child.Image) : Bool := i.cred.ruid = n ∧ i.cred.euid = n
def hasGid (n : Nat) (i : Child.Image) : Bool := i.cred.rgid = n ∧ i.cred.egid = n
def hasGroups (gs : List Nat) (i : Child.Image) : Bool := i.cred.groups = gs
def hasWorkdir (t : String) (i : Child.Image) : Bool := i.cwd = t.toList
def hasEnv (k v : String) (i : Child.Image) : Bool := i.env.contains (k.toList ++ '=' :: v.toList)
def lacksEnv (k : String) (i : Child.Image) : Bool :=
  i.env.all fun e => !(k.toList ++ ['=']).isPrefixOf e
def envKeys (i : Child.Image) : List Str := i.env.map (·.takeWhile (· != '='))

/-- `assert_default_env` -/
def hasDefaultEnv (i : Child.Image) : Bool :=
  let keys := ["HOME", "LANG", "LANGUAGE", "LOGNAME", "PATH", "PWD", "SHELL", "TERM", "USER"].map
    String.toList
  keys.all (envKeys i).contains && (envKeys i).all keys.contains

/-- `epia` -/
def hasCap (i : Child.Image) (c : String) : Bool :=
  match Child.capFromStr c.toList with
  | some c => i.cred.effective c && i.cred.permitted c && i.cred.inheritable c && i.cred.ambient c
  | none => false

/-- `ep` -/
def mayCap (i : Child.Image) (c : String) : Bool :=
  match Child.capFromStr c.toList with
  | some c => i.cred.effective c && i.cred.permitted c
  | none => false

/-- `assert_capabilities`: exactly these, in all four sets -/
def hasCaps (cs : List String) (i : Child.Image) : Bool :=
  cs.all (hasCap i) && (List.finRange 64).all fun c =>
    cs.any (fun t => Child.capFromStr t.toList = some c) ||
      !(i.cred.effective c || i.cred.permitted c || i.cred.inheritable c || i.cred.ambient c)

/-! ## What happens -/

/-- A program is started; its streams have the numbers behind ten times the process number. -/
def starts (pid : Int) : List Answer :=
  [.fork (some (pid, 10 * pid, 10 * pid + 1)), .epollAdd true, .epollAdd true]

/-- The streams of a process end. -/
def closes (pid : Int) : List Ready := [⟨10 * pid, false, true⟩, ⟨10 * pid + 1, false, true⟩]

/-- A datagram of process `pid`. -/
def sends (pid : Int) (text : String) : List Answer :=
  [.epoll (some [⟨5, true, false⟩]), .recv (some (bytes text, some pid))]

/-- Cinit is told of the end of a process and of its streams. -/
def over (pid : Int) (rc : Nat) : List Answer := [.epoll (some (closes pid)), .wait (.exited pid rc)]

/-- The clock, in seconds. -/
def at_ (t : Int) : Answer := .now (t * 1_000_000_000)

/-- The run of one program that ends well. -/
def alone : List Answer := [.setup true] ++ starts 10 ++ [at_ 31] ++ over 10 0 ++ [.wait .error]

/-! ### arg-template-warn-template -/

def argTemplateWarnTemplate : Machine := machine
  ([("example.yml", some <| m [("programs", s [m [("name", p "program"), ("path",
    p "target/path/harness"), ("args", s [p "-o", p "system-tests/child-dump/program.yml",
    q "{{ ENV_VAR }} plus appendix", q "{{ ENV_VAR } plus appendix",
    q "{ ENV_VAR } plus appendix"]), ("env", s [m [("ENV_VAR", q "hello world")], m [("VAR_1",
    q "{{ ENV_VAR } plus appendix")], m [("VAR_2", q "{ ENV_VAR } plus appendix")]])]])])])
  (alone)

example : passes argTemplateWarnTemplate 0
    (inOrder [envFailed "VAR_1", envLooksLike "VAR_2", argFailed "3", argLooksLike "4",
      spawned "program", exited "program", exiting]) = true := by
  decide +kernel

example : (dump argTemplateWarnTemplate "program" fun i =>
      hasArg "hello world plus appendix" i && hasArg "{{ ENV_VAR } plus appendix" i) = true := by
  decide +kernel


/-! ### arg-templates -/

def argTemplates : Machine := machine
  ([("example.yml", some <| m [("programs", s [m [("name", p "program"), ("path",
    p "target/path/harness"), ("args", s [p "-o", p "system-tests/child-dump/program.yml",
    q "{{ ENV_VAR }} plus appendix", q "{{ ENV_VAR } plus appendix"]), ("env", s [m [("ENV_VAR",
    q "hello world")]])]])])])
  (alone)

example : passes argTemplates 0
    (inOrder [spawned "program", exited "program", exiting]) = true := by
  decide +kernel

example : (dump argTemplates "program" fun i =>
      hasArg "hello world plus appendix" i && hasArg "{{ ENV_VAR } plus appendix" i) = true := by
  decide +kernel


/-! ### capabilities -/

def capabilities : Machine := machine
  ([("example.yml", some <| m [("programs", s [m [("name", p "some-caps"), ("path",
    p "target/path/harness"), ("args", s [p "-o", p "system-tests/child-dump/some-caps.yml"]),
    ("uid", p "1409"), ("gid", p "1409"), ("capabilities", s [p "CAP_KILL", p "CAP_NET_RAW"])],
    m [("name", p "root-gets-all-caps"), ("path", p "target/path/harness"), ("args", s [p "-o",
    p "system-tests/child-dump/root-gets-all-caps.yml"]), ("capabilities", s [p "CAP_KILL",
    p "CAP_NET_RAW"])], m [("name", p "no-caps"), ("path", p "target/path/harness"), ("args",
    s [p "-o", p "system-tests/child-dump/no-caps.yml"]), ("uid", p "1409"), ("gid",
    p "1409")]])])])
  ([.setup true] ++ starts 10 ++ starts 11 ++ starts 12 ++ [at_ 31] ++
  over 11 0 ++ [.wait .alive, at_ 32] ++ over 12 0 ++ [.wait .alive, at_ 33] ++
  over 10 0 ++ [.wait .error])

example : passes capabilities 0
    (inOrder [inParallel [inOrder [spawned "some-caps", exited "some-caps"],
      inOrder [spawned "no-caps", exited "no-caps"]], exiting]) = true := by
  decide +kernel

example : (dump capabilities "some-caps" fun i =>
      hasArg "-o" i && hasArg "system-tests/child-dump/some-caps.yml" i && hasUid 1409 i &&
      hasGid 1409 i && hasDefaultEnv i && hasCaps ["CAP_NET_RAW", "CAP_KILL"] i) = true := by
  decide +kernel

example : (dump capabilities "no-caps" fun i =>
      hasArg "-o" i && hasArg "system-tests/child-dump/no-caps.yml" i && hasUid 1409 i &&
      hasGid 1409 i && hasDefaultEnv i && hasCaps [] i) = true := by
  decide +kernel

example : (dump capabilities "root-gets-all-caps" fun i =>
      hasArg "-o" i && hasArg "system-tests/child-dump/root-gets-all-caps.yml" i && hasUid 0 i &&
      hasGid 0 i && hasDefaultEnv i && ["CAP_NET_RAW", "CAP_KILL"].all (hasCap i) &&
      ["CAP_CHOWN", "CAP_DAC_OVERRIDE", "CAP_FOWNER", "CAP_FSETID", "CAP_SETGID", "CAP_SETUID",
       "CAP_SETPCAP", "CAP_NET_BIND_SERVICE", "CAP_MKNOD", "CAP_AUDIT_WRITE", "CAP_SETFCAP",
       "CAP_SYS_CHROOT"].all (mayCap i)) = true := by
  decide +kernel


/-! ### children-can-handle-sigchld -/

def childrenCanHandleSigchld : Machine := machine
  ([("cinit.yml", some <| m [("programs", s [m [("name", p "child"), ("path",
    p "target/path/forker")]])])])
  (alone)

example : passes childrenCanHandleSigchld 0
    (inOrder [spawned "child", exited "child"]) = true := by
  decide +kernel


/-! ### conf-directory -/

def confDirectory : Machine := machine
  ([("first.yml", some <| m [("programs", s [m [("name", p "first"), ("path",
    p "target/path/harness"), ("args", s [p "-o", p "system-tests/child-dump/first.yml"])]])]),
    ("second.yml", some <| m [("programs", s [m [("name", p "second"), ("path",
    p "target/path/harness"), ("args", s [p "-o", p "system-tests/child-dump/second.yml"]),
    ("after", s [p "first"])]])])])
  ([.setup true] ++ starts 10 ++ [at_ 31] ++ over 10 0 ++ [.wait .error] ++
  starts 11 ++ [at_ 32] ++ over 11 0 ++ [.wait .error])

example : passes confDirectory 0
    (inOrder [spawned "first", exited "first", spawned "second", exited "second", exiting]) = true := by
  decide +kernel


/-! ### cronjob -/

def cronjob : Machine := machine
  ([("example.yml", some <| m [("programs", s [m [("name", p "echo"), ("path", p "echo"), ("args",
    s [p "Hello World"]), ("type", m [("cronjob", m [("timer", q "* * * * *")])])], m [("name",
    p "waiter"), ("path", p "target/path/harness"), ("workdir", q "."), ("args", s [p "-o",
    p "system-tests/child-dump/waiter.yml", p "-s", p "125"]), ("type", p "oneshot")], m [("name",
    p "non-reentrant"), ("path", p "target/path/harness"), ("workdir", q "."), ("args", s [p "-o",
    p "system-tests/child-dump/non-reentrant.yml", p "-s", p "62"]), ("type", m [("cronjob",
    m [("timer", q "* * * * *")])])], m [("name", p "dependency"), ("path",
    p "target/path/harness"), ("workdir", q "."), ("args", s [p "-o",
    p "system-tests/child-dump/dependency.yml", p "-s", p "65"]), ("type", p "oneshot")],
    m [("name", p "dependent-cronjob"), ("path", p "echo"), ("after", s [p "dependency"]),
    ("type", m [("cronjob", m [("timer", q "* * * * *")])])], m [("name",
    p "independent-cronjob"), ("path", p "echo"), ("type", m [("cronjob", m [("timer",
    q "* * * * *")])])]])])])
  ([.setup true] ++ starts 10 ++ starts 11 ++ [at_ 31, .epoll (some []), .wait .alive, at_ 61] ++
  starts 12 ++ [at_ 61, at_ 61] ++ starts 13 ++ [at_ 61] ++ starts 14 ++ [at_ 61] ++
  over 12 0 ++ [.wait .alive, at_ 62] ++ over 14 0 ++ [.wait .alive, at_ 63] ++
  over 10 0 ++ [.wait .alive, at_ 121] ++
  starts 15 ++ [at_ 121] ++ starts 16 ++ [at_ 121, at_ 121] ++ starts 17 ++ [at_ 121] ++
  over 15 0 ++ [.wait (.exited 16 0), .wait (.exited 17 0), .wait .alive, at_ 122,
   .epoll (some (closes 16 ++ closes 17)), .wait .alive, at_ 123] ++
  over 13 0 ++ [.wait .alive, at_ 124] ++ over 11 0 ++ [.wait .error])

example : passes cronjob 0
    (inOrder [inParallel [spawned "waiter", spawned "dependency"],
      inParallel [
        inOrder [spawned "echo", sleeping "echo", spawned "echo", sleeping "echo"],
        inOrder [spawned "non-reentrant", skipped "non-reentrant", sleeping "non-reentrant"],
        inOrder [
          inParallel [inOrder [spawned "independent-cronjob", sleeping "independent-cronjob"],
            cronjobSkipped "dependent-cronjob"],
          inParallel [inOrder [spawned "independent-cronjob", sleeping "independent-cronjob"],
            inOrder [exited "dependency", spawned "dependent-cronjob",
              sleeping "dependent-cronjob"]]]],
      exited "waiter", exiting]) = true := by
  decide +kernel


/-! ### cronjob-with-after-dependency -/

def cronjobWithAfterDependency : Machine := machine
  ([("example.yml", some <| m [("programs", s [m [("name", p "dummy"), ("path", p "echo"),
    ("after", s [p "cronjob"])], m [("name", p "cronjob"), ("path", p "echo"), ("args",
    s [p "Hello World"]), ("type", m [("cronjob", m [("timer", q "* * * * *")])])]])])])
  ([])

example : passes cronjobWithAfterDependency 2
    (dependencyOnCronjob "dummy") = true := by
  decide +kernel

example : notRun cronjobWithAfterDependency "dummy" = true := by
  decide +kernel

example : notRun cronjobWithAfterDependency "cronjob" = true := by
  decide +kernel


/-! ### cronjob-with-before-dependency -/

def cronjobWithBeforeDependency : Machine := machine
  ([("example.yml", some <| m [("programs", s [m [("name", p "dummy"), ("path", p "echo")],
    m [("name", p "cronjob"), ("path", p "echo"), ("args", s [p "Hello World"]), ("type",
    m [("cronjob", m [("timer", q "* * * * *")])]), ("before", s [p "dummy"])]])])])
  ([])

example : passes cronjobWithBeforeDependency 2
    (cronjobDependency "cronjob") = true := by
  decide +kernel

example : notRun cronjobWithBeforeDependency "dummy" = true := by
  decide +kernel

example : notRun cronjobWithBeforeDependency "cronjob" = true := by
  decide +kernel


/-! ### cronjobs-between-regular-programs -/

def cronjobsBetweenRegularPrograms : Machine := machine
  ([("config.yml", some <| m [("programs", s [m [("name", p "first"), ("path", p "echo")],
    m [("name", p "cronjob"), ("path", p "echo"), ("type", m [("cronjob", m [("timer",
    q "0 0 * * *")])])], m [("name", p "second"), ("after", s [p "first"]), ("path",
    p "echo")]])])])
  ([.setup true] ++ starts 10 ++ [at_ 31] ++ over 10 0 ++ [.wait .error] ++
  starts 11 ++ [at_ 32] ++ over 11 0 ++ [.wait .error])

example : passes cronjobsBetweenRegularPrograms 0
    (inOrder [spawned "first", exited "first", spawned "second", exited "second"]) = true := by
  decide +kernel


/-! ### cyclic-dependency -/

def cyclicDependency : Machine := machine
  ([("cycle.yml", some <| m [("programs", s [m [("name", p "first"), ("path", p "/dummy"),
    ("after", s [p "second"])], m [("name", p "second"), ("path", p "/dummy"), ("after",
    s [p "first"])]])])])
  ([])

example : passes cyclicDependency 2
    (oneOf [cycleDetected "first", cycleDetected "second"]) = true := by
  decide +kernel


/-! ### cyclic-dependency-in-middle -/

def cyclicDependencyInMiddle : Machine := machine
  ([("cycle.yml", some <| m [("programs", s [m [("name", p "first"), ("path",
    p "target/path/harness"), ("args", s [p "-o", p "system-tests/child-dump/first.yml"]), ("uid",
    p "1409"), ("gid", p "1409")], m [("name", p "second"), ("path", p "target/path/harness"),
    ("args", s [p "-o", p "system-tests/child-dump/second.yml"]), ("after", s [p "first",
    p "fourth"]), ("uid", p "1409"), ("gid", p "1409")], m [("name", p "third"), ("path",
    p "target/path/harness"), ("args", s [p "-o", p "system-tests/child-dump/third.yml"]),
    ("after", s [p "first", p "second"]), ("uid", p "1409"), ("gid", p "1409")], m [("name",
    p "fourth"), ("path", p "target/path/harness"), ("args", s [p "-o",
    p "system-tests/child-dump/fourth.yml"]), ("after", s [p "first", p "third"]), ("uid",
    p "1409"), ("gid", p "1409")]])])])
  ([])

example : passes cyclicDependencyInMiddle 2
    (oneOf [cycleDetected "second", cycleDetected "third", cycleDetected "fourth"]) = true := by
  decide +kernel


/-! ### different-workdir -/

def differentWorkdir : Machine := machine
  ([("config.yml", some <| m [("programs", s [m [("name", p "first"), ("path",
    p "/usr/src/cinit/target/path/harness"), ("workdir", p "/tmp"), ("args", s [p "-o",
    p "/usr/src/cinit/system-tests/child-dump/first.yml"])]])])])
  (alone)

example : passes differentWorkdir 0
    (inOrder [spawned "first", exited "first", exiting]) = true := by
  decide +kernel

example : (dump differentWorkdir "first" fun i =>
      hasWorkdir "/tmp" i) = true := by
  decide +kernel


/-! ### drop-in-configuration -/

def dropInConfiguration : Machine := machine
  ([("dropin.yml", some <| m [("programs", s [m [("name", p "program"), ("args",
    s [q "{{ ONETWO }}", q "{{ THREEFOUR }}"]), ("before", s [p "echo-before-1",
    p "echo-before-2"]), ("after", s [p "echo-after-2", p "echo-after-1"]), ("capabilities",
    s [p "CAP_DAC_OVERRIDE", p "CAP_CHOWN"]), ("env", s [m [("THREE", p "three")], m [("FOUR",
    p "four")], m [("THREEFOUR", q "{{ THREE }}-{{ FOUR }}")]])]])]), ("main.yml",
    some <| m [("programs", s [m [("name", p "program"), ("path", p "target/path/harness"),
    ("args", s [p "-o", p "system-tests/child-dump/program.yml"]), ("uid", p "1409"), ("gid",
    p "1409"), ("capabilities", s [p "CAP_NET_BIND_SERVICE", p "CAP_CHOWN"]), ("before",
    s [p "echo-before-1"]), ("after", s [p "echo-after-1"]), ("env", s [m [("ONE", p "one")],
    m [("TWO", p "two")], m [("ONETWO", q "{{ ONE }}-{{ TWO }}")]])], m [("name",
    p "echo-before-1"), ("path", p "echo")], m [("name", p "echo-before-2"), ("path", p "echo")],
    m [("name", p "echo-after-1"), ("path", p "echo")], m [("name", p "echo-after-2"), ("path",
    p "echo")]])])])
  ([.setup true] ++ starts 10 ++ starts 11 ++ [at_ 31] ++ over 11 0 ++ [.wait .alive, at_ 32] ++
  over 10 0 ++ [.wait .error] ++ starts 12 ++ [at_ 33] ++ over 12 0 ++ [.wait .error] ++
  starts 13 ++ starts 14 ++ [at_ 34] ++ over 13 0 ++ [.wait .alive, at_ 35] ++
  over 14 0 ++ [.wait .error])

example : passes dropInConfiguration 0
    (inOrder [
      inParallel [inOrder [spawned "echo-after-1", exited "echo-after-1"],
        inOrder [spawned "echo-after-2", exited "echo-after-2"]],
      spawned "program", exited "program",
      inParallel [inOrder [spawned "echo-before-1", exited "echo-before-1"],
        inOrder [spawned "echo-before-2", exited "echo-before-2"]]]) = true := by
  decide +kernel

example : (dump dropInConfiguration "program" fun i =>
      hasArg "-o" i && hasArg "system-tests/child-dump/program.yml" i && hasArg "one-two" i &&
      hasArg "three-four" i && hasUid 1409 i && hasGid 1409 i && hasEnv "ONE" "one" i &&
      hasEnv "TWO" "two" i && hasEnv "THREE" "three" i && hasEnv "FOUR" "four" i &&
      hasEnv "ONETWO" "one-two" i && hasEnv "THREEFOUR" "three-four" i &&
      hasCaps ["CAP_CHOWN", "CAP_NET_BIND_SERVICE", "CAP_DAC_OVERRIDE"] i) = true := by
  decide +kernel


/-! ### duplicate-program-name -/

def duplicateName : Machine := machine
  ([("config.yml", some <| m [("programs", s [m [("name", p "first"), ("path", p "/dummy")],
    m [("name", p "first"), ("path", p "/dummy")]])])])
  ([])

example : passes duplicateName 1
    (duplicateProgramName "first") = true := by
  decide +kernel


/-! ### env-sanitisation -/

def envSanitisation : Machine := machine
  ([("example.yml", some <| m [("programs", s [m [("name", p "first"), ("path",
    p "target/path/harness"), ("args", s [p "-o", p "system-tests/child-dump/first.yml"]),
    ("user", p "testuser"), ("group", p "testgroup")]])])])
  (alone)

example : passes envSanitisation 0
    (inOrder [spawned "first", exited "first", exiting]) = true := by
  decide +kernel

example : (dump envSanitisation "first" fun i =>
      hasUid 1409 i && hasGid 1409 i && hasEnv "USER" "testuser" i &&
      hasEnv "LOGNAME" "testuser" i && hasEnv "SHELL" "/bin/sh" i &&
      hasEnv "PWD" "/home/testuser" i && hasEnv "HOME" "/home/testuser" i) = true := by
  decide +kernel


/-! ### exit-on-crash -/

def exitOnCrash : Machine := machine
  ([("example.yml", some <| m [("programs", s [m [("name", p "first"), ("path",
    p "target/path/harness"), ("args", s [p "-o", p "system-tests/child-dump/first.yml", p "-r",
    p "42"])], m [("name", p "second"), ("path", p "target/path/harness"), ("uid", p "1409"),
    ("gid", p "1409"), ("args", s [p "-o", p "system-tests/child-dump/second.yml"]), ("after",
    s [p "first"])]])])])
  ([.setup true] ++ starts 10 ++ [at_ 31] ++ over 10 42 ++ [.wait .error])

example : passes exitOnCrash 6
    (inOrder [spawned "first", crashed "first" "42", exiting]) = true := by
  decide +kernel

example : (dump exitOnCrash "first" fun i =>
      hasUid 0 i && hasGid 0 i && hasDefaultEnv i) = true := by
  decide +kernel

example : notRun exitOnCrash "second" = true := by
  decide +kernel


/-! ### full-test -/

def fullTest : Machine := machine
  ([("example.yml", some <| m [("programs", s [m [("name", p "first"), ("path",
    p "target/path/harness"), ("args", s [p "-o", p "system-tests/child-dump/first.yml"]), ("uid",
    p "0"), ("gid", p "0"), ("pty", p "true")], m [("name", p "second"), ("path",
    p "target/path/harness"), ("args", s [p "-o", p "system-tests/child-dump/second.yml"]),
    ("after", s [p "first"]), ("uid", p "1409"), ("gid", p "1409")], m [("name", p "third"),
    ("path", p "target/path/harness"), ("args", s [p "-o",
    p "system-tests/child-dump/third.yml"]), ("after", s [p "first"]), ("uid", p "1409"), ("gid",
    p "1409"), ("pty", p "true")], m [("name", p "fourth"), ("path", p "target/path/harness"),
    ("args", s [p "-o", p "system-tests/child-dump/fourth.yml"]), ("after", s [p "second",
    p "third"]), ("uid", p "1409"), ("gid", p "1409"), ("pty", p "true")]])])])
  ([.setup true] ++ starts 10 ++ [at_ 31] ++ over 10 0 ++ [.wait .error] ++
  starts 11 ++ starts 12 ++ [at_ 32] ++ over 12 0 ++ [.wait .alive, at_ 33] ++
  over 11 0 ++ [.wait .error] ++ starts 13 ++ [at_ 34] ++ over 13 0 ++ [.wait .error])

example : passes fullTest 0
    (inOrder [spawned "first", exited "first",
      inParallel [inOrder [spawned "second", exited "second"],
        inOrder [spawned "third", exited "third"]],
      spawned "fourth", exited "fourth"]) = true := by
  decide +kernel

example : (dump fullTest "first" fun i =>
      hasArg "-o" i && hasArg "system-tests/child-dump/first.yml" i && hasUid 0 i && hasGid 0 i) = true := by
  decide +kernel

example : (dump fullTest "second" fun i =>
      hasUid 1409 i && hasGid 1409 i) = true := by
  decide +kernel

example : (dump fullTest "third" fun i =>
      hasUid 1409 i && hasGid 1409 i) = true := by
  decide +kernel

example : (dump fullTest "fourth" fun i =>
      hasUid 1409 i && hasGid 1409 i) = true := by
  decide +kernel


/-! ### invalid-config -/

def invalidConfig : Machine := machine
  ([("example.yml", none)])
  ([])

example : passes invalidConfig 1
    (configError) = true := by
  decide +kernel


/-! ### invalid-user-group-as-string -/

def invalidUserGroupAsString : Machine := machine
  ([("example.yml", some <| m [("programs", s [m [("name", p "first"), ("path",
    p "target/path/harness"), ("args", s [p "-o", p "system-tests/child-dump/first.yml"]),
    ("type", p "oneshot"), ("user", p "invaliduser"), ("group", p "invalidgroup")]])])])
  ([])

example : passes invalidUserGroupAsString 2
    (programConfigError "first") = true := by
  decide +kernel

example : notRun invalidUserGroupAsString "first" = true := by
  decide +kernel


/-! ### missing-env-forwarding -/

def missingEnvForwarding : Machine := machine
  ([("config.yml", some <| m [("programs", s [m [("name", p "program"), ("path",
    p "target/path/harness"), ("args", s [p "-o", p "system-tests/child-dump/program.yml"]),
    ("env", s [m [("MISSING_VALUE", p "")]])]])])])
  (alone)

example : passes missingEnvForwarding 0
    (inOrder [spawned "program", exited "program", exiting]) = true := by
  decide +kernel

example : (dump missingEnvForwarding "program" fun i =>
      lacksEnv "MISSING_VALUE" i) = true := by
  decide +kernel


/-! ### notify-changed-mainpid -/

def notifyChangedMainpid : Machine := machine
  ([("example.yml", some <| m [("programs", s [m [("name", p "program"), ("path", p "bash"),
    ("type", p "notify"), ("user", p "testuser"), ("group", p "testgroup"), ("args", s [p "-c",
    q "bash -c 'sleep 2' &\nexec python3 -c 'from systemd import daemon; import time; daemon.notify(\"READY=1\\nMAINPID='$!'\"); time.sleep(1)'\n"])],
    m [("name", p "program2"), ("path", p "bash"), ("type", p "notify"), ("user", p "testuser"),
    ("group", p "testgroup"), ("args", s [p "-c",
    q "bash -c 'sleep 2' &\nexec python3 -c 'from systemd import daemon; import time; daemon.notify(\"MAINPID='$!'\\nREADY=1\"); time.sleep(1)'\n"])]])])])
  ([.setup true] ++ starts 10 ++ starts 11 ++ [at_ 31] ++
  sends 10 "READY=1\nMAINPID=20" ++ [.wait .alive, at_ 31] ++
  sends 11 "MAINPID=21\nREADY=1" ++ [.wait .alive, at_ 31] ++
  [.epoll (some []), .wait (.exited 10 0), .wait (.exited 11 0), .wait .alive, at_ 32,
   .epoll (some (closes 10)), .wait (.exited 20 0), .wait .alive, at_ 33,
   .epoll (some (closes 11)), .wait (.exited 21 0), .wait .error])

example : passes notifyChangedMainpid 0
    (inOrder [
      inParallel [
        inOrder [spawned "program", inParallel [hasStarted "program", pidChanged "program"],
          exited "program"],
        inOrder [spawned "program2", inParallel [hasStarted "program2", pidChanged "program2"],
          exited "program2"]],
      exiting]) = true := by
  decide +kernel


/-! ### notify-processes -/

def notifyProcesses : Machine := machine
  ([("example.yml", some <| m [("programs", s [m [("name", p "first"), ("path",
    p "target/path/harness"), ("type", p "notify"), ("user", p "testuser"), ("group",
    p "testgroup"), ("before", s [p "second"]), ("args", s [p "-o",
    p "system-tests/child-dump/first.yml", p "-n", p "-s", p "1"])], m [("name", p "second"),
    ("path", p "target/path/harness"), ("args", s [p "-o",
    p "system-tests/child-dump/second.yml"]), ("user", p "testuser"), ("group", p "testgroup")],
    m [("name", p "harness"), ("path", p "target/path/harness"), ("type", p "notify"), ("args",
    s [p "-o", p "system-tests/child-dump/harness.yml"]), ("user", p "testuser"), ("group",
    p "testgroup")], m [("name", p "status-publisher"), ("path", p "target/path/harness"),
    ("type", p "notify"), ("args", s [p "-S", p "test status", p "-n", p "-s", p "1", p "-o",
    p "system-tests/child-dump/status-publisher.yml"]), ("user", p "testuser"), ("group",
    p "testgroup")]])])])
  ([.setup true] ++ starts 10 ++ starts 11 ++ starts 12 ++ [at_ 31] ++
  sends 12 "READY=1" ++ [.wait .alive] ++ starts 13 ++ [at_ 31] ++
  sends 10 "READY=1" ++ [.wait .alive, at_ 31] ++
  sends 10 "STATUS=test status" ++ [.wait .alive, at_ 31] ++
  over 11 0 ++ [.wait .alive, at_ 31] ++ over 13 0 ++ [.wait .alive, at_ 32] ++
  over 12 0 ++ [.wait .alive, at_ 32] ++ over 10 0 ++ [.wait .error])

example : passes notifyProcesses 0
    (inOrder [
      inParallel [
        inOrder [spawned "first", hasStarted "first", spawned "second",
          inParallel [exited "first", exited "second"]],
        inOrder [spawned "status-publisher",
          inParallel [hasStatus "status-publisher" "test status", hasStarted "status-publisher"],
          exited "status-publisher"],
        inOrder [spawned "harness", exited "harness"]],
      exiting]) = true := by
  decide +kernel

example : (dump notifyProcesses "second" fun i =>
      hasUid 1409 i) = true := by
  decide +kernel

example : (dump notifyProcesses "harness" fun i =>
      hasEnv "NOTIFY_SOCKET" "/run/cinit-notify.socket" i) = true := by
  decide +kernel


/-! ### path-lookup -/

def pathLookup : Machine := machine
  ([("example.yml", some <| m [("programs", s [m [("name", p "sh"), ("path", p "sh"), ("args",
    s [p "-c", p "echo"]), ("type", p "oneshot")]])])])
  (alone)

example : passes pathLookup 0
    (inOrder [spawned "sh", exited "sh", exiting]) = true := by
  decide +kernel


/-! ### single-dependency -/

def singleDependency : Machine := machine
  ([("example.yml", some <| m [("programs", s [m [("name", p "ping"), ("path",
    p "target/path/harness"), ("args", s [p "-o", p "system-tests/child-dump/ping.yml", p "--",
    p "-c 4", p "google.ch"]), ("type", p "oneshot"), ("before", s [p "failping"])], m [("name",
    p "failping"), ("path", p "target/path/harness"), ("uid", p "1409"), ("gid", p "1409"),
    ("args", s [p "-o", p "system-tests/child-dump/failping.yml", p "--", p "-c 4",
    p "google.ch"]), ("type", p "oneshot"), ("after", s [p "ping"])]])])])
  ([.setup true] ++ starts 10 ++ [at_ 31] ++ over 10 0 ++ [.wait .error] ++
  starts 11 ++ [at_ 32] ++ over 11 0 ++ [.wait .error])

example : passes singleDependency 0
    (inOrder [spawned "ping", exited "ping", spawned "failping", exited "failping", exiting]) = true := by
  decide +kernel

example : (dump singleDependency "ping" fun i =>
      hasArg "-c 4" i && hasArg "google.ch" i && hasDefaultEnv i) = true := by
  decide +kernel

example : (dump singleDependency "failping" fun i =>
      hasArg "-c 4" i && hasArg "google.ch" i && hasUid 1409 i && hasGid 1409 i && hasDefaultEnv i) = true := by
  decide +kernel


/-! ### supplementary-groups-are-empty -/

def supplementaryGroupsAreEmpty : Machine := machine
  ([("example.yml", some <| m [("programs", s [m [("name", p "first"), ("path",
    p "target/path/harness"), ("args", s [p "-o", p "system-tests/child-dump/first.yml"]), ("uid",
    p "1409"), ("gid", p "1409")]])])])
  (alone)

example : passes supplementaryGroupsAreEmpty 0
    (inOrder [spawned "first", exited "first"]) = true := by
  decide +kernel

example : (dump supplementaryGroupsAreEmpty "first" fun i =>
      hasArg "-o" i && hasArg "system-tests/child-dump/first.yml" i && hasUid 1409 i &&
      hasGid 1409 i && hasGroups [1409] i) = true := by
  decide +kernel


/-! ### template-env-var -/

def templateEnvVar : Machine := machine
  ([("first.yml", some <| m [("programs", s [m [("name", p "first"), ("path",
    p "target/path/harness"), ("args", s [p "-o", p "system-tests/child-dump/first.yml"]), ("env",
    s [m [("FOO", p "bar")], m [("BAR", q "{{ USER }}-{{ FOO }}")]])]])])])
  (alone)

example : passes templateEnvVar 0
    (inOrder [spawned "first", exited "first", exiting]) = true := by
  decide +kernel

example : (dump templateEnvVar "first" fun i =>
      hasEnv "FOO" "bar" i && hasEnv "USER" "root" i && hasEnv "BAR" "root-bar" i) = true := by
  decide +kernel


/-! ### template-env-var-invalid -/

def templateEnvVarInvalid : Machine := machine
  ([("first.yml", some <| m [("programs", s [m [("name", p "first"), ("path",
    p "target/path/harness"), ("args", s [p "-o", p "system-tests/child-dump/first.yml"]), ("env",
    s [m [("FOO", p "bar")], m [("BAR", q "{{ USER -{{ FOO }}")]])]])])])
  (alone)

example : passes templateEnvVarInvalid 0
    (inOrder [spawned "first", exited "first", exiting]) = true := by
  decide +kernel

example : (dump templateEnvVarInvalid "first" fun i =>
      hasEnv "FOO" "bar" i && hasEnv "USER" "root" i && hasEnv "BAR" "{{ USER -{{ FOO }}" i) = true := by
  decide +kernel


/-! ### unknown-after-dependency -/

def unknownAfterDependency : Machine := machine
  ([("example.yml", some <| m [("programs", s [m [("name", p "echo"), ("path", p "echo"),
    ("after", s [p "doesnotexist"])]])])])
  ([])

example : passes unknownAfterDependency 2
    (unknownAfter "echo" "doesnotexist") = true := by
  decide +kernel

example : notRun unknownAfterDependency "echo" = true := by
  decide +kernel


/-! ### unknown-before-dependency -/

def unknownBeforeDependency : Machine := machine
  ([("example.yml", some <| m [("programs", s [m [("name", p "echo"), ("path", p "echo"),
    ("before", s [p "doesnotexist"])]])])])
  ([])

example : passes unknownBeforeDependency 2
    (unknownBefore "echo" "doesnotexist") = true := by
  decide +kernel

example : notRun unknownBeforeDependency "echo" = true := by
  decide +kernel


/-! ### user-group-as-string -/

def userGroupAsString : Machine := machine
  ([("example.yml", some <| m [("programs", s [m [("name", p "first"), ("path",
    p "target/path/harness"), ("args", s [p "-o", p "system-tests/child-dump/first.yml"]),
    ("type", p "oneshot"), ("user", p "testuser"), ("group", p "testgroup")]])])])
  (alone)

example : passes userGroupAsString 0
    (inOrder [spawned "first", exited "first", exiting]) = true := by
  decide +kernel

example : (dump userGroupAsString "first" fun i =>
      hasUid 1409 i && hasGid 1409 i) = true := by
  decide +kernel


/-! ### zombies-are-reaped -/

def zombiesAreReaped : Machine := machine
  ([("cinit.yml", some <| m [("programs", s [m [("name", p "bash1"), ("path", p "bash"), ("args",
    s [p "-c", p "sleep 1 &"])], m [("name", p "bash2"), ("path", p "bash"), ("args", s [p "-c",
    p "sleep 2 &"])]])])])
  ([.setup true] ++ starts 10 ++ starts 11 ++ [at_ 31, .epoll (some []), .wait (.exited 10 0),
   .wait (.exited 11 0), .wait .alive, at_ 32] ++
  [.epoll (some (closes 10)), .wait (.exited 20 0), .wait .alive, at_ 33,
   .epoll (some (closes 11)), .wait (.exited 21 0), .wait .error])

example : passes zombiesAreReaped 0
    (inParallel [inOrder [spawned "bash1", exited "bash1", zombieReaped],
      inOrder [spawned "bash2", exited "bash2", zombieReaped]]) = true := by
  decide +kernel


end Cinit.Checks.System
