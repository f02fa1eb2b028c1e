import Verif.Proofs.Execution
import Verif.Props.Child
import Verif.Props.Config
import Verif.Props.Runs
/-!
# C109: every execution of a program is the configured one

From the files to the program as it begins to run: loading (C01–C06), building (C07–C12, C56), the
event loop at any moment of any run, and the child (C48, C67).
-/

namespace Cinit.Props

open Cinit.Spec Cinit.ProcessBuilder

/-- The program `image` that begins to run is what the entry `c` of the configuration says. -/
structure AsConfigured (s : Surroundings) (c : ProcessConfig) (image : Child.Image) : Prop where
  /-- the path comes first, followed by as many arguments as configured -/
  args : ∃ path args, c.path = some path ∧ image.args = path :: args ∧
    args.length = c.args.length
  /-- each argument is rendered in the environment the program gets, or taken as it is -/
  rendered : ProperNames c → ∃ context : Str → Option Str,
    (∀ x, ProperName x → ∀ v, context x = some v ↔ EnvHas image.env x v) ∧
    ∀ i raw, c.args[i]? = some raw →
      image.args[i + 1]? = some ((s.render (argName i) context raw).getD raw)
  /-- the file at the configured path, unless it has to be searched for -/
  file : ∀ path, c.path = some path → '/' ∈ path → image.path = path
  directory : image.cwd = c.workdir.getD ['.']
  /-- the configured user and group, unless the file is privileged itself -/
  ids : image.file = .plain → ∃ user group,
    Resolved s.userById s.userByName c.uid c.user user ∧
    Resolved s.groupById s.groupByName c.gid c.group group ∧
    image.cred.ruid = user.uid ∧ image.cred.euid = user.uid ∧ image.cred.suid = user.uid ∧
    image.cred.rgid = group.gid ∧ image.cred.egid = group.gid ∧ image.cred.sgid = group.gid ∧
    image.cred.groups = [group.gid] ∧
    (user.uid ≠ 0 → image.cred.permitted = configured c.capabilities ∧
      image.cred.effective = configured c.capabilities ∧
      image.cred.inheritable = configured c.capabilities ∧
      image.cred.ambient = configured c.capabilities)
  /-- the configured environment -/
  env : ProperNames c → ∃ user, Resolved s.userById s.userByName c.uid c.user user ∧
    ∀ k, ProperName k → ¬ (c.ptype = .notify ∧ k = notifyVar) → ∀ v, EnvHas image.env k v ↔
      valueAfter s.getenv s.render (defaultValue s.getenv user.dir user.name)
        c.env.flatten.reverse k = some v
  socket : c.ptype = .notify → EnvHas image.env notifyVar notifyPath
  signals : image.mask = []

/-- The program with index `i` as it is in the table after the answers given so far. A child made
by `fork` executes the program as it is in the table at this moment. -/
def Machine.entry (x : Machine) (m : Manager) (answers : List Answer) (i : Nat) : Option Process :=
  (({ x with answers := answers } : Machine).loop m).world.mgr.procs[i]?

/-- At any moment of any run a program has the attributes the builder gave it. -/
theorem entry_attributes {x : Machine} {m : Manager} {answers : List Answer} {i : Nat} {p : Process}
    (h : Machine.entry x m answers i = some p) :
    ∃ p0, m.procs[i]? = some p0 ∧ attributes p = attributes p0 := by
  have h1 := attributesOf_get (Machine.loop_fixed { x with answers := answers } m) h
  unfold attributesOf at h1
  rw [List.getElem?_map] at h1
  cases hp : m.procs[i]? with
  | none => rw [hp] at h1; cases h1
  | some p0 =>
    rw [hp] at h1
    exact ⟨p0, rfl, (Option.some.inj h1).symm⟩

private theorem processFor {x : Machine} {config : Config} {m : Manager}
    (hm : x.manager config = .ok m) {i : Nat} {p : Process} (hp : m.procs[i]? = some p) :
    ∃ c, config.programs[i]? = some c ∧ processFrom x.surroundings c = .ok p := by
  have hf := Machine.processes_ok (Machine.manager_ok hm).1
  have hi : i < m.procs.length := (List.getElem?_eq_some_iff.mp hp).1
  have hi' : i < config.programs.length := by rw [hf.length_eq]; exact hi
  refine ⟨config.programs[i], List.getElem?_eq_getElem hi', ?_⟩
  have := hf.get hi' hi
  simp only [List.get_eq_getElem] at this
  rw [this, (List.getElem?_eq_some_iff.mp hp).2]

/-- What is executed depends on the attributes alone. -/
private theorem configured_image {s : Surroundings} {c : ProcessConfig} {p0 p : Process}
    (hb : processFrom s c = .ok p0) (ha : attributes p = attributes p0)
    {ord : HashOrder} {reason : Str} {desc : Nat → Str} {disk : Child.Disk} {stdout stderr : Nat}
    {k k' : Child.Proc} {image : Child.Image}
    (hr : Child.run ord reason desc disk p stdout stderr k = .executed image k') :
    AsConfigured s c image := by
  have f : ∀ {α : Type} (g : Attributes → α), g (attributes p) = g (attributes p0) :=
    fun g => congrArg g ha
  have e1 : p.args = p0.args := f Attributes.args
  have e2 : p.env = p0.env := f Attributes.env
  have e3 : p.workdir = p0.workdir := f Attributes.workdir
  have e4 : p.path = p0.path := f Attributes.path
  have e5 : p.uid = p0.uid := f Attributes.uid
  have e6 : p.gid = p0.gid := f Attributes.gid
  have e7 : p.capabilities = p0.capabilities := f Attributes.capabilities
  obtain ⟨r1, r2, r3, r4⟩ := C67_as_configured hr
  obtain ⟨-, a2, a3, a4, -, a6, -⟩ := C56_attributes hb
  rw [e1] at r1
  rw [e2] at r2
  rw [e3] at r3
  rw [e4] at r4
  refine ⟨?_, ?_, ?_, ?_, ?_, ?_, ?_, ?_⟩
  · obtain ⟨user, group, path, -, -, h1, -, -, ⟨args, h2, h3⟩, -⟩ := processFrom_ok hb
    exact ⟨path, args, h1, r1.trans h2, (convertArgs_ok h3).1⟩
  · intro hn
    obtain ⟨path, args, context, -, -, h2, -, h3, -, h4⟩ := C11_arguments hb hn
    refine ⟨context, fun x hx v => by rw [r2]; exact h3 x hx v, fun i raw hi => ?_⟩
    rw [r1, h2, List.getElem?_cons_succ]
    exact h4 i raw hi
  · intro path hpath hs
    rw [hpath] at a2
    cases a2
    exact r4 hs
  · rw [r3]
    cases hw : c.workdir with
    | none => exact a4 hw
    | some d => exact a3 d hw
  · intro hf
    obtain ⟨user, group, h1, h2, h3, h4⟩ := C12_ids hb
    obtain ⟨u1, u2, u3, g1, g2, g3, gs⟩ := C48_user hr hf
    rw [e5, h3] at u1 u2 u3
    rw [e6, h4] at g1 g2 g3 gs
    refine ⟨user, group, h1, h2, u1, u2, u3, g1, g2, g3, gs, fun hu => ?_⟩
    obtain ⟨-, -, -, -, -, -, -, c1, c2, c3, c4⟩ := C48_credentials hr hf (by rw [e5, h3]; exact hu)
    rw [e7, a6] at c1 c2 c3 c4
    exact ⟨c1, c2, c3, c4⟩
  · intro hn
    obtain ⟨user, h1, h2⟩ := C09_meaning hb hn
    exact ⟨user, h1, fun k hk hc v => by rw [r2]; exact h2 k hk hc v⟩
  · intro hc
    rw [r2]
    exact C10_always hb hc
  · exact (C66_exact_partial hr).1

/-- C109: whatever has happened before, a program that begins to run is what its entry in the
configuration says. -/
theorem C109_configured {x : Machine} {config : Config} {m : Manager}
    (hm : x.manager config = .ok m) {answers : List Answer} {i : Nat} {p : Process}
    (hp : Machine.entry x m answers i = some p)
    {ord : HashOrder} {reason : Str} {desc : Nat → Str} {disk : Child.Disk} {stdout stderr : Nat}
    {k k' : Child.Proc} {image : Child.Image}
    (hr : Child.run ord reason desc disk p stdout stderr k = .executed image k') :
    ∃ c, config.programs[i]? = some c ∧ c.name = p.name ∧ AsConfigured x.surroundings c image := by
  obtain ⟨p0, h1, h2⟩ := entry_attributes hp
  obtain ⟨c, hc, hb⟩ := processFor hm h1
  refine ⟨c, hc, ?_, configured_image hb h2 hr⟩
  rw [← (C56_attributes hb).1]
  exact (congrArg Attributes.name h2).symm

/-- C109 from the files on: the entry is the merger of the entries of this name in all files, as
C01 and C03 describe it. -/
theorem C109_from_files {x : Machine} {config : Config} {m : Manager}
    (hc : parseConfig x.yaml x.mergeOrder x.tree = .ok config) (hm : x.manager config = .ok m)
    {answers : List Answer} {i : Nat} {p : Process} (hp : Machine.entry x m answers i = some p)
    {ord : HashOrder} {reason : Str} {desc : Nat → Str} {disk : Child.Disk} {stdout stderr : Nat}
    {k k' : Child.Proc} {image : Child.Image}
    (hr : Child.run ord reason desc disk p stdout stderr k = .executed image k') :
    ∃ (fs : List (List Nat × Str)) (c : ProcessConfig), fs.Nodup ∧
      (∀ pos text, (pos, text) ∈ fs ↔ FileAt x.tree pos text) ∧
      c.name = p.name ∧ AsConfigured x.surroundings c image ∧
      ∃ es, es = entriesOf (fs.flatMap fun f => ((x.yaml f.2).map (·.programs)).getD []) p.name ∧
      ∃ pre q post, PathHolder es pre q post ∧
        c.args = q.args ++ (pre.reverse.map (·.args)).flatten ++ (post.map (·.args)).flatten ∧
        c.env = q.env ++ (pre.reverse.map (·.env)).flatten ++ (post.map (·.env)).flatten ∧
        (∀ s, s ∈ c.capabilities ↔ ∃ e ∈ es, s ∈ e.capabilities) ∧
        FieldIs es (·.path) c.path ∧ FieldIs es (·.workdir) c.workdir ∧
        FieldIs es (·.uid) c.uid ∧ FieldIs es (·.gid) c.gid ∧
        FieldIs es (·.user) c.user ∧ FieldIs es (·.group) c.group := by
  obtain ⟨c, h1, h2, h3⟩ := C109_configured hm hp hr
  obtain ⟨-, -, fs, hd, hf, -, hmerge⟩ := C06_load_complete hc
  have hmem : c ∈ config.programs := List.mem_of_getElem? h1
  have hM := loaded_merged hmerge hmem
  obtain ⟨-, -, hcap, -, -, -, f1, f2, f3, f4, f5, f6⟩ := C01_merge_fields hmerge hmem
  obtain ⟨path, -, hpath, -⟩ := h3.args
  obtain ⟨pre, q, post, heq, hnone, -, -, -, ha, he⟩ := hM.primary
  have hq : q.path.isSome := by
    obtain ⟨e, hein, hep⟩ := (f1.1 path).mp hpath
    have hep : e.path = some path := hep
    rw [heq] at hein
    simp only [List.mem_append, List.mem_cons] at hein
    rcases hein with hein | rfl | hein
    · rw [hnone e (by simp [hein])] at hep; cases hep
    · rw [hep]; rfl
    · rw [hnone e (by simp [hein])] at hep; cases hep
  simp only [h2] at hcap f1 f2 f3 f4 f5 f6 heq
  exact ⟨fs, c, hd, hf, h2, h3, _, rfl, pre, q, post, ⟨heq, hq, hnone⟩, ha, he, hcap, f1, f2, f3, f4,
    f5, f6⟩

/-- C109: all executions of a program, at whatever moments of whatever runs with the same
configuration, have the same arguments, environment, working directory, user and groups, and the
same capabilities unless it is a program of root. -/
theorem C109_always_same {x : Machine} {m : Manager}
    {answers answers' : List Answer} {i : Nat} {p p' : Process}
    (hp : Machine.entry x m answers i = some p) (hp' : Machine.entry x m answers' i = some p')
    {ord ord' : HashOrder} {reason reason' : Str} {desc desc' : Nat → Str}
    {disk disk' : Child.Disk} {stdout stderr stdout' stderr' : Nat} {k k1 k' k1' : Child.Proc}
    {image image' : Child.Image}
    (hr : Child.run ord reason desc disk p stdout stderr k = .executed image k1)
    (hr' : Child.run ord' reason' desc' disk' p' stdout' stderr' k' = .executed image' k1') :
    image.args = image'.args ∧ image.env = image'.env ∧ image.cwd = image'.cwd ∧
    image.mask = image'.mask ∧
    (image.file = .plain → image'.file = .plain →
      image.cred.euid = image'.cred.euid ∧ image.cred.egid = image'.cred.egid ∧
      image.cred.groups = image'.cred.groups ∧
      (image.cred.euid ≠ 0 → image.cred.permitted = image'.cred.permitted)) := by
  obtain ⟨p0, h1, h2⟩ := entry_attributes hp
  obtain ⟨p0', h1', h2'⟩ := entry_attributes hp'
  rw [h1] at h1'
  cases h1'
  have ha : attributes p = attributes p' := h2.trans h2'.symm
  have f : ∀ {α : Type} (g : Attributes → α), g (attributes p) = g (attributes p') :=
    fun g => congrArg g ha
  obtain ⟨r1, r2, r3, -⟩ := C67_as_configured hr
  obtain ⟨r1', r2', r3', -⟩ := C67_as_configured hr'
  refine ⟨?_, ?_, ?_, ?_, fun hf hf' => ?_⟩
  · rw [r1, r1']; exact f Attributes.args
  · rw [r2, r2']; exact f Attributes.env
  · rw [r3, r3']; exact f Attributes.workdir
  · rw [(C66_exact_partial hr).1, (C66_exact_partial hr').1]
  · obtain ⟨-, u, -, -, g, -, gs⟩ := C48_user hr hf
    obtain ⟨-, u', -, -, g', -, gs'⟩ := C48_user hr' hf'
    have eu : p.uid = p'.uid := f Attributes.uid
    have eg : p.gid = p'.gid := f Attributes.gid
    refine ⟨by rw [u, u', eu], by rw [g, g', eg], by rw [gs, gs', eg], fun hu => ?_⟩
    rw [u] at hu
    obtain ⟨-, -, -, -, -, -, -, c1, -⟩ := C48_credentials hr hf hu
    obtain ⟨-, -, -, -, -, -, -, c1', -⟩ := C48_credentials hr' hf' (eu ▸ hu)
    rw [c1, c1']
    exact congrArg configured (f Attributes.capabilities)

/-! ## Concrete cases -/

/-- The cronjob of `three` as it is forked for the first and for the second time. -/
theorem job_entries : ∃ m, (machine threeAnswers).manager three = .ok m ∧
    (∃ p, Machine.entry (machine threeAnswers) m (threeAnswers.take 12) 2 = some p ∧
      ('\x00' ∉ p.path ∧ '\x00' ∉ p.workdir ∧ '/' ∈ p.path ∧ p.capabilities = [] ∧ p.pid = 0)) ∧
    ∃ p, Machine.entry (machine threeAnswers) m (threeAnswers.take 24) 2 = some p ∧
      ('\x00' ∉ p.path ∧ '\x00' ∉ p.workdir ∧ '/' ∈ p.path ∧ p.capabilities = [] ∧ p.pid = 12) := by
  obtain ⟨m, h1, h2, h3⟩ : ∃ m, (machine threeAnswers).manager three = .ok m ∧
      ((Machine.entry (machine threeAnswers) m (threeAnswers.take 12) 2).any (fun p =>
        decide ('\x00' ∉ p.path ∧ '\x00' ∉ p.workdir ∧ '/' ∈ p.path ∧ p.capabilities = [] ∧
          p.pid = 0)) = true ∧
      (Machine.entry (machine threeAnswers) m (threeAnswers.take 24) 2).any (fun p =>
        decide ('\x00' ∉ p.path ∧ '\x00' ∉ p.workdir ∧ '/' ∈ p.path ∧ p.capabilities = [] ∧
          p.pid = 12)) = true) := Res.of_check (by decide +kernel)
  have get : ∀ {o : Option Process} {P : Process → Prop} [DecidablePred P],
      o.any (fun p => decide (P p)) = true → ∃ p, o = some p ∧ P p := by
    intro o P _ h
    cases o with
    | none => cases h
    | some p => exact ⟨p, rfl, of_decide_eq_true h⟩
  exact ⟨m, h1, get h2, get h3⟩

/-- The hypotheses of C109 are met: both executions succeed. -/
example : ∃ m p p' image image' k1 k1',
    (machine threeAnswers).manager three = .ok m ∧
    Machine.entry (machine threeAnswers) m (threeAnswers.take 12) 2 = some p ∧
    Machine.entry (machine threeAnswers) m (threeAnswers.take 24) 2 = some p' ∧ p ≠ p' ∧
    Child.run .id [] (fun _ => []) ⟨none, fun _ _ _ => .runs .plain⟩ p 6 8
      (child (List.replicate 26 none)) = .executed image k1 ∧
    Child.run .id [] (fun _ => []) ⟨none, fun _ _ _ => .runs .plain⟩ p' 6 8
      (child (List.replicate 26 none)) = .executed image' k1' := by
  obtain ⟨m, hm, ⟨p, hp, a1, a2, a3, a4, a5⟩, p', hp', b1, b2, b3, b4, b5⟩ := job_entries
  have run : ∀ q : Process, '\x00' ∉ q.path → '\x00' ∉ q.workdir → '/' ∈ q.path →
      q.capabilities = [] → ∃ image k1, Child.run .id [] (fun _ => [])
        ⟨none, fun _ _ _ => .runs .plain⟩ q 6 8 (child (List.replicate 26 none)) =
          .executed image k1 := by
    intro q q1 q2 q3 q4
    refine C48_available (fun a h => (List.mem_replicate.mp h).2) (by rw [q4]; decide)
      (rootCred_fit _) (by decide) (by decide) (by decide) q1 q2 fun c _ => ⟨q.path, .plain, ?_⟩
    rw [C82_slash q3]
    exact ⟨rfl, rfl⟩
  obtain ⟨image, k1, hr⟩ := run p a1 a2 a3 a4
  obtain ⟨image', k1', hr'⟩ := run p' b1 b2 b3 b4
  refine ⟨m, p, p', image, image', k1, k1', hm, hp, hp', ?_, hr, hr'⟩
  rintro rfl
  rw [a5] at b5
  cases b5

end Cinit.Props
