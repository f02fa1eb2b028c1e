import Verif.Proofs.CommandLine
import Verif.Props.Main
/-!
# C103, C104: the command line
-/

namespace Cinit.Props

open Spec CommandLine

/-! ## C103: the command line means what is documented -/

theorem stands_iff {os : List Opt} {args : List (List Nat)} : Stands os args ↔
    ∃ pre post, args = pre ++ post ∧ Open os pre ∧ (post = [] ∨ post = [word' "--"]) := by
  constructor
  · rintro (h | ⟨bs, rfl, h⟩)
    · exact ⟨args, [], by simp, h, .inl rfl⟩
    · exact ⟨bs, _, rfl, h, .inr rfl⟩
  · rintro ⟨pre, post, rfl, h, rfl | rfl⟩
    · exact .inl (by simpa using h)
    · exact .inr ⟨pre, rfl, h⟩

theorem applyAll_proper {os : List Opt} {m : Matches} :
    applyAll {} os = .ok m ↔ m.verbose = min (verbosityIn os) 255 ∧ Consistent os m.config := by
  rw [applyAll_iff (by simp)]
  simp

/-- C103: cinit goes on with configuration `path` and verbosity `n` exactly if the arguments are
spellings of the documented options, `--config` is given at most once and its value is a text;
`path` is that value or the documented default, `n` is how often `-v` or `--verbose` was given, up
to 255. -/
theorem C103_exact (name : List Nat) (args : List (List Nat)) (path : Str) (n : Nat) :
    parseArguments (name :: args) = .ok (path, n) ↔
      ∃ os given, Stands os args ∧ Consistent os given ∧
        path = given.getD "/etc/cinit.yml".toList ∧ n = min (verbosityIn os) 255 := by
  unfold parseArguments
  simp only [List.tail]
  constructor
  · intro h
    cases ha : arguments {} false args with
    | err e => rw [ha] at h; cases h
    | panic p => rw [ha] at h; cases h
    | ok m =>
      rw [ha] at h
      obtain ⟨os, pre, post, m', rfl, h1, h2, h3⟩ := explained le_rfl ha (by simp)
      rcases h3 with ⟨h3, h4⟩ | ⟨e, a, rest, -, h4, -⟩
      · cases h4
        cases h
        obtain ⟨h5, h6⟩ := applyAll_proper.mp h2
        exact ⟨os, m.config, stands_iff.mpr ⟨pre, post, rfl, h1, h3⟩, h6, rfl, h5⟩
      · cases h4
  · rintro ⟨os, given, h1, h2, rfl, rfl⟩
    obtain ⟨pre, post, rfl, h3, h4⟩ := stands_iff.mp h1
    have h5 : applyAll {} os = .ok ⟨given, min (verbosityIn os) 255⟩ :=
      applyAll_proper.mpr ⟨rfl, h2⟩
    rw [arguments_of h3, h5]
    rcases h4 with rfl | rfl <;> rfl

/-- What happens if the first thing that is not an option makes cinit print something. -/
theorem stops_iff {e : Stop} (he : e ≠ .usage) (name : List Nat) (args : List (List Nat)) :
    parseArguments (name :: args) = .err e ↔
      ∃ os given pre a post, args = pre ++ a :: post ∧ Open os pre ∧ Consistent os given ∧
        Asks e a := by
  unfold parseArguments
  simp only [List.tail]
  constructor
  · intro h
    cases ha : arguments {} false args with
    | ok m => rw [ha] at h; cases h
    | panic p => rw [ha] at h; cases h
    | err e' =>
      rw [ha] at h; cases h
      obtain ⟨os, pre, post, m', rfl, h1, h2, h3⟩ := explained le_rfl ha (by simpa using he)
      rcases h3 with ⟨-, h4⟩ | ⟨e', a, rest, rfl, h4, h5⟩
      · cases h4
      · cases h4
        exact ⟨os, m'.config, pre, a, rest, rfl, h1, (applyAll_proper.mp h2).2, h5⟩
  · rintro ⟨os, given, pre, a, post, rfl, h1, h2, h3⟩
    have h5 : applyAll {} os = .ok ⟨given, min (verbosityIn os) 255⟩ :=
      applyAll_proper.mpr ⟨rfl, h2⟩
    rw [arguments_of h1, h5]
    change arguments _ false (a :: post) >>= _ = _
    rw [arguments_asks h3]
    rfl

/-- C103: help is printed exactly if it is asked for after options that are in order. -/
theorem C103_help (name : List Nat) (args : List (List Nat)) :
    parseArguments (name :: args) = .err .help ↔
      ∃ os given pre a post, args = pre ++ a :: post ∧ Open os pre ∧ Consistent os given ∧
        Prints "--help" 'h' a := by
  rw [stops_iff (by simp)]
  simp [Asks]

/-- C103: the version is printed exactly if it is asked for after options that are in order. -/
theorem C103_version (name : List Nat) (args : List (List Nat)) :
    parseArguments (name :: args) = .err .version ↔
      ∃ os given pre a post, args = pre ++ a :: post ∧ Open os pre ∧ Consistent os given ∧
        Prints "--version" 'V' a := by
  rw [stops_iff (by simp)]
  simp [Asks]

/-- C103: reading the command line never aborts. -/
theorem C103_total (argv : List (List Nat)) (p : Panic) : parseArguments argv ≠ .panic p := by
  intro h
  unfold parseArguments at h
  cases ha : arguments {} false argv.tail with
  | ok m => rw [ha] at h; cases h
  | err e => rw [ha] at h; cases h
  | panic p =>
    obtain ⟨os, pre, post, m', -, -, -, h3⟩ := explained le_rfl ha (by simp)
    rcases h3 with ⟨-, h4⟩ | ⟨e, a, rest, -, h4, -⟩ <;> cases h4

theorem perm_paths {os os' : List Opt} (h : os.Perm os') : (pathsIn os).Perm (pathsIn os') := by
  induction h with
  | nil => exact .nil
  | cons o _ ih =>
    cases o with
    | verbose => exact ih
    | config p => exact .cons p ih
  | swap o o' os => cases o <;> cases o' <;> simp [pathsIn, List.Perm.swap]
  | trans _ _ ih ih' => exact ih.trans ih'

theorem perm_verbosity {os os' : List Opt} (h : os.Perm os') :
    verbosityIn os = verbosityIn os' := by
  induction h with
  | nil => rfl
  | cons o _ ih => cases o <;> simp [verbosityIn, ih]
  | swap o o' os => cases o <;> cases o' <;> simp [verbosityIn]
  | trans _ _ ih ih' => exact ih.trans ih'

theorem proper_perm {os os' : List Opt} {given : Option Str} (h : os.Perm os')
    (hp : Consistent os given) : Consistent os' given := by
  have := perm_paths h
  rcases hp with ⟨h1, h2⟩ | ⟨p, text, h1, h2, h3⟩
  · rw [h1] at this
    exact .inl ⟨List.nil_perm.mp this, h2⟩
  · rw [h1] at this
    exact .inr ⟨p, text, (List.singleton_perm.mp this).symm, h2, h3⟩

/-- C103: neither the order of the options nor their spelling matters. -/
theorem C103_order {os os' : List Opt} {args args' : List (List Nat)} (hs : Stands os args)
    (hs' : Stands os' args') (hp : os.Perm os') (name name' : List Nat) (path : Str) (n : Nat)
    (h : parseArguments (name :: args) = .ok (path, n)) :
    parseArguments (name' :: args') = .ok (path, n) := by
  have : ∃ given, Consistent os given := by
    unfold parseArguments at h
    simp only [List.tail] at h
    obtain ⟨pre, post, rfl, h3, h4⟩ := stands_iff.mp hs
    rw [arguments_of h3] at h
    cases ha : applyAll {} os with
    | ok m => exact ⟨_, (applyAll_proper.mp ha).2⟩
    | err e => rw [ha] at h; cases h
    | panic p => rw [ha] at h; cases h
  obtain ⟨given, hg⟩ := this
  have h1 := (C103_exact name args _ _).mpr ⟨os, given, hs, hg, rfl, rfl⟩
  rw [h] at h1
  cases h1
  exact (C103_exact name' args' _ _).mpr ⟨os', given, hs', proper_perm hp hg, rfl,
    by rw [perm_verbosity hp]⟩

/-! ## C104: exit codes of a whole run -/

/-- C104 in full: exit code 2 means that the configuration was read and is not valid, as
documented. -/
def C104_statement : Prop :=
  ∀ (argv : List (List Nat)) (machine : Str → Machine) (log : Log),
    runWith argv machine = .exited 2 log →
      ∃ path n config, parseArguments argv = .ok (path, n) ∧ Loaded (machine path) config

/-- The command line asks for nothing documented. -/
def Misspelt (args : List (List Nat)) : Prop :=
  (¬ ∃ os given, Stands os args ∧ Consistent os given) ∧
  ¬ ∃ os given pre a post, args = pre ++ a :: post ∧ Open os pre ∧ Consistent os given ∧
    (Prints "--help" 'h' a ∨ Prints "--version" 'V' a)

theorem usage_iff (name : List Nat) (args : List (List Nat)) :
    parseArguments (name :: args) = .err .usage ↔ Misspelt args := by
  constructor
  · intro h
    refine ⟨?_, ?_⟩
    · rintro ⟨os, given, h1, h2⟩
      rw [(C103_exact name args _ _).mpr ⟨os, given, h1, h2, rfl, rfl⟩] at h
      cases h
    · rintro ⟨os, given, pre, a, post, h1, h2, h3, h4 | h4⟩
      · rw [(C103_help name args).mpr ⟨os, given, pre, a, post, h1, h2, h3, h4⟩] at h; cases h
      · rw [(C103_version name args).mpr ⟨os, given, pre, a, post, h1, h2, h3, h4⟩] at h; cases h
  · rintro ⟨h1, h2⟩
    cases h : parseArguments (name :: args) with
    | panic p => exact absurd h (C103_total _ _)
    | ok r =>
      obtain ⟨os, given, h3, h4, -⟩ := (C103_exact name args r.1 r.2).mp h
      exact absurd ⟨os, given, h3, h4⟩ h1
    | err e =>
      cases e with
      | usage => rfl
      | help =>
        obtain ⟨os, given, pre, a, post, h3, h4, h5, h6⟩ := (C103_help name args).mp h
        exact absurd ⟨os, given, pre, a, post, h3, h4, h5, .inl h6⟩ h2
      | version =>
        obtain ⟨os, given, pre, a, post, h3, h4, h5, h6⟩ := (C103_version name args).mp h
        exact absurd ⟨os, given, pre, a, post, h3, h4, h5, .inr h6⟩ h2

/-- C104: a command line that asks for nothing documented ends cinit with exit code 2 and nothing
happens. -/
theorem C104_misspelt {args : List (List Nat)} (h : Misspelt args) (name : List Nat)
    (machine : Str → Machine) : runWith (name :: args) machine = .exited 2 [] := by
  unfold runWith
  rw [(usage_iff name args).mpr h]
  rfl

/-- C104: what exit code 2 does mean: the command line asks for nothing documented, or the
configuration was read but it is not valid or the sockets could not be set up. -/
theorem C104_codes_partial {name : List Nat} {args : List (List Nat)} {machine : Str → Machine}
    {log : Log} (h : runWith (name :: args) machine = .exited 2 log) :
    log = [] ∧ (Misspelt args ∨ ∃ os given config, Stands os args ∧ Consistent os given ∧
      Loaded (machine (given.getD "/etc/cinit.yml".toList)) config ∧
      (Invalid (machine (given.getD "/etc/cinit.yml".toList)).surroundings config.programs ∨
        (machine (given.getD "/etc/cinit.yml".toList)).sockets = none)) := by
  unfold runWith at h
  cases hp : parseArguments (name :: args) with
  | panic p => rw [hp] at h; cases h
  | err e =>
    rw [hp] at h
    simp only [Ending.exited.injEq] at h
    refine ⟨h.2.symm, .inl ?_⟩
    rw [← usage_iff name args, hp]
    cases e with
    | usage => rfl
    | help => exact absurd h.1 (by decide)
    | version => exact absurd h.1 (by decide)
  | ok r =>
    rw [hp] at h
    obtain ⟨os, given, h1, h2, h3, -⟩ := (C103_exact name args r.1 r.2).mp hp
    have h : run (machine r.1) = .exited 2 log := h
    rw [h3] at h
    rcases C51_codes_partial h with ⟨h4, -⟩ | ⟨-, ⟨h4, -⟩ | ⟨config, h4, h5⟩⟩
    · exact absurd h4 (by decide)
    · exact absurd h4 (by decide)
    · rcases h5 with ⟨-, h5, h6⟩ | ⟨-, -, -, ⟨h5, -⟩ | ⟨h5, -⟩ | ⟨h5, -⟩⟩
      · exact ⟨h5, .inr ⟨os, given, config, h1, h2, h4, h6⟩⟩
      all_goals exact absurd h5 (by decide)

/-- C104: asked for help or its version, cinit exits with code 0 and nothing happens. -/
theorem C104_printing {args pre post : List (List Nat)} {a : List Nat} {os : List Opt}
    {given : Option Str} (he : args = pre ++ a :: post) (ho : Open os pre) (hg : Consistent os given)
    (ha : Prints "--help" 'h' a ∨ Prints "--version" 'V' a) (name : List Nat)
    (machine : Str → Machine) : runWith (name :: args) machine = .exited 0 [] := by
  unfold runWith
  rcases ha with ha | ha
  · rw [(C103_help name args).mpr ⟨os, given, pre, a, post, he, ho, hg, ha⟩]; rfl
  · rw [(C103_version name args).mpr ⟨os, given, pre, a, post, he, ho, hg, ha⟩]; rfl

/-- C104: with options in order cinit does what it does for the configuration given. -/
theorem C104_run {args : List (List Nat)} {os : List Opt} {given : Option Str}
    (ho : Stands os args) (hg : Consistent os given) (name : List Nat) (machine : Str → Machine) :
    runWith (name :: args) machine = run (machine (given.getD "/etc/cinit.yml".toList)) := by
  unfold runWith
  rw [(C103_exact name args _ _).mpr ⟨os, given, ho, hg, rfl, rfl⟩]

/-- C104 is false: a misspelt option gives exit code 2, that of an invalid configuration. -/
theorem C104_violated : ¬ C104_statement := by
  intro h
  obtain ⟨path, n, config, h1, -⟩ :=
    h [ascii "cinit", ascii "--verbos"] (fun _ => machine []) [] (by decide +kernel)
  have h2 : parseArguments [ascii "cinit", ascii "--verbos"] = .err .usage := by decide +kernel
  rw [h2] at h1
  cases h1

/-! ## Examples -/

/-- `cinit -vvc /etc/cinit.d` -/
example : Stands [.verbose, .verbose, .config (ascii "/etc/cinit.d")]
    [ascii "-vvc", ascii "/etc/cinit.d"] :=
  .inl (.value (os := [.verbose, .verbose]) (.verbose (.verbose .config))
    (by rintro ⟨b, rest, h⟩; simp [ascii] at h) .nil)

example : parseArguments [ascii "cinit", ascii "-vvc", ascii "/etc/cinit.d"] =
    .ok ("/etc/cinit.d".toList, 2) := by decide +kernel

/-- `cinit --config=/etc/cinit.d --verbose -v --` -/
example : Stands [.config (ascii "/etc/cinit.d"), .verbose, .verbose]
    [ascii "--config=/etc/cinit.d", ascii "--verbose", ascii "-v", ascii "--"] :=
  .inr ⟨[ascii "--config=/etc/cinit.d", ascii "--verbose", ascii "-v"], rfl,
    .equals (path := ascii "/etc/cinit.d")
      (.verbose (.letters (os := [.verbose]) (by simp) (.verbose .none) .nil))⟩

example : Consistent [.config (ascii "/etc/cinit.d"), .verbose] (some "/etc/cinit.d".toList) :=
  .inr ⟨_, _, rfl, by decide +kernel, rfl⟩

example : parseArguments [ascii "cinit"] = .ok ("/etc/cinit.yml".toList, 0) := by decide +kernel

example : parseArguments [ascii "cinit", ascii "-vh"] = .err .help ∧
    parseArguments [ascii "cinit", ascii "--config", ascii "--help"] = .err .usage ∧
    parseArguments [ascii "cinit", ascii "-c", ascii "-"] = .ok (['-'], 0) ∧
    parseArguments [ascii "cinit", ascii "-ca", ascii "-cb"] = .err .usage := by decide +kernel

end Cinit.Props
