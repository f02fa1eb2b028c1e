import Verif.Proofs.ChildRuns
import Verif.Proofs.ChildOutput
import Verif.Proofs.Descriptors
import Verif.Props.PathSearch
import Mathlib.Tactic.SplitIfs
/-!
# C48, C49, C63-C68: how programs are executed
-/

namespace Cinit.Props

open Cinit Spec Child

variable {ord : HashOrder} {reason : Str} {desc : Nat → Str} {disk : Disk} {p : Process}
  {stdout stderr : Nat} {s : Proc}

/-! ## The outcomes -/

theorem run_executed {image : Image} {s' : Proc} :
    run ord reason desc disk p stdout stderr s = .executed image s' ↔
      setupBody ord reason disk p stdout stderr s = .ok image s' := by
  unfold run setupChild
  cases setupBody ord reason disk p stdout stderr s with
  | ok a s1 =>
    simp only [End.executed.injEq, Ret.ok.injEq]
  | err e s1 =>
    simp only
    unfold println
    split <;> simp_all
  | panic q s1 => simp
  | stuck s1 => simp

/-- The message about the reason is lost: the standard output has been closed. -/
theorem run_of_err {e : Nat} {s1 : Proc}
    (h : setupBody ord reason disk p stdout stderr s = .err e s1) :
    run ord reason desc disk p stdout stderr s = .exited 4 { s1 with
      files := (((s1.files.close 2).close 1).close stderr).close stdout } := by
  have hz : ((((s1.files.close 2).close 1).close stderr).close stdout) 1 = none := by
    simp [Files.close, Files.set]
  unfold run setupChild
  rw [h]
  simp only [println, hz]
  rfl

theorem run_exited {code : Int} {s' : Proc}
    (h : run ord reason desc disk p stdout stderr s = .exited code s') :
    code = 4 ∧ ∃ e s1, setupBody ord reason disk p stdout stderr s = .err e s1 ∧
      s'.calls = s1.calls ∧ s'.written = s1.written := by
  cases hb : setupBody ord reason disk p stdout stderr s with
  | ok a s1 => rw [run_executed.mpr hb] at h; cases h
  | panic q s1 => unfold run setupChild at h; rw [hb] at h; cases h
  | stuck s1 => unfold run setupChild at h; rw [hb] at h; cases h
  | err e s1 =>
    rw [run_of_err hb] at h
    cases h
    exact ⟨rfl, e, s1, rfl, rfl, rfl⟩

/-- The state in which the child ends. -/
def state : End → Proc
  | .executed _ s => s
  | .exited _ s => s
  | .panicked _ s => s
  | .unfinished s => s

/-! ## C48: credentials -/

theorem empty_union (a : Caps) : Caps.empty.union a = a := by
  funext c
  simp [Caps.empty, Caps.union]

/-- C48: a program of a user other than root is executed with exactly the configured user and
group, no supplementary groups but this one, and exactly the configured capabilities in all four
sets (unless its file is privileged itself). -/
theorem C48_credentials {image : Image} {s' : Proc}
    (h : run ord reason desc disk p stdout stderr s = .executed image s')
    (hf : image.file = .plain) (hu : p.uid ≠ 0) :
    image.cred.ruid = p.uid ∧ image.cred.euid = p.uid ∧ image.cred.suid = p.uid ∧
    image.cred.rgid = p.gid ∧ image.cred.egid = p.gid ∧ image.cred.sgid = p.gid ∧
    image.cred.groups = [p.gid] ∧
    image.cred.permitted = configured p.capabilities ∧
    image.cred.effective = configured p.capabilities ∧
    image.cred.inheritable = configured p.capabilities ∧
    image.cred.ambient = configured p.capabilities := by
  rw [run_executed] at h
  obtain ⟨t1, t2, c, k1, k2, temp, act, order, -, -, -, -, -, -, -, -, -, hc, -, -, -, -, r1, r2, r3,
    g1, g2, g3, gr, e1, e2, e3, -, -⟩ := setupBody_ok h
  rw [hc, hf]
  unfold Cred.exec ExeFile.plain
  simp [r1, r2, g1, g2, gr, e2, e3, hu, empty_union]

/-- C48: user and group are as configured for root, too. -/
theorem C48_user {image : Image} {s' : Proc}
    (h : run ord reason desc disk p stdout stderr s = .executed image s')
    (hf : image.file = .plain) :
    image.cred.ruid = p.uid ∧ image.cred.euid = p.uid ∧ image.cred.suid = p.uid ∧
    image.cred.rgid = p.gid ∧ image.cred.egid = p.gid ∧ image.cred.sgid = p.gid ∧
    image.cred.groups = [p.gid] := by
  rw [run_executed] at h
  obtain ⟨t1, t2, c, k1, k2, temp, act, order, -, -, -, -, -, -, -, -, -, hc, -, -, -, -, r1, r2, r3,
    g1, g2, g3, gr, e1, e2, e3, -, -⟩ := setupBody_ok h
  rw [hc, hf]
  unfold Cred.exec ExeFile.plain
  simp [r1, r2, g1, g2, gr]

/-- C48: the kernel grants nothing that was not asked for, so the set-up needs the permission
for the configured capabilities and four more: without them no program is executed. -/
theorem C48_required {image : Image} {s' : Proc}
    (h : run ord reason desc disk p stdout stderr s = .executed image s') :
    (needed p.capabilities).Subset s.cred.permitted := by
  rw [run_executed, setupBody_eq, bind_ok] at h
  obtain ⟨_, s1, h, -⟩ := h
  unfold prepare at h
  simp only [bind_ok] at h
  obtain ⟨_, s2, h2, _, s3, h3, _, s4, h4, _, s5, h5, _, s6, h6, _, s7, h7, h8⟩ := h
  have c2 := (dup2Go_ok h2).choose_spec.choose_spec.2.2.1
  have c3 := (dup2Go_ok h3).choose_spec.choose_spec.2.2.1
  have c4 : s4.cred = s3.cred := by
    rw [sys_ok] at h4
    obtain ⟨_, _, -, h4, rfl⟩ := h4
    cases h4
    rfl
  have c5 : s5.cred = s4.cred := by injection h5 with _ h5; rw [← h5]
  have c6 : s6.cred = s5.cred := by injection h6 with _ h6; rw [← h6]
  have c7 : s7.cred = s6.cred := by
    unfold setCurrentDir at h7
    by_cases hz : '\x00' ∈ p.workdir
    · rw [if_pos hz] at h7; cases h7
    · rw [if_neg hz, sys_ok] at h7
      obtain ⟨_, _, -, h7, rfl⟩ := h7
      cases h7
      rfl
  have := setUserAndCaps_needs h8
  rwa [c7, c6, c5, c4, c3, c2] at this

/-- C48: with them, and if the kernel has no objections of its own, the program is executed,
after a bounded number of calls, provided that its file is found with its own credentials in its
own directory. -/
theorem C48_available (hw : Willing s) (hl : 24 + p.capabilities.length ≤ s.answers.length)
    (hf : s.cred.Fit (needed p.capabilities))
    (h1 : s.files stdout ≠ none) (h2 : s.files stderr ≠ none) (h3 : stderr ≠ 1)
    (hp : '\x00' ∉ p.path) (hd : '\x00' ∉ p.workdir)
    (hx : ∀ c, ActsAs p c → ∃ q g,
      PathSearch.execvpe disk.path (disk.attempt c p.workdir) p.path = .found q g) :
    ∃ image s', run ord reason desc disk p stdout stderr s = .executed image s' := by
  have := setupBody_fine (ord := ord) (reason := reason) (disk := disk) hw hf h1 h2 h3 hp hd hx
  cases hb : setupBody ord reason disk p stdout stderr s with
  | ok a s1 => exact ⟨a, s1, run_executed.mpr hb⟩
  | panic q s1 => rw [hb] at this; exact this.elim
  | err q s1 => rw [hb] at this; exact this.elim
  | stuck s1 => rw [hb] at this; exact absurd hl (Nat.not_le.mpr this)

/-! ## C49: fail closed -/

/-- C49: the child ends with code 4 exactly if one of the calls has failed (those repeated until
they succeed aside). -/
theorem C49_fail_closed (hs : s.calls = []) :
    (∃ x ∈ (state (run ord reason desc disk p stdout stderr s)).calls, Failed x) ↔
      ∃ s', run ord reason desc disk p stdout stderr s = .exited 4 s' := by
  have hc := setupBody_calls ord reason disk p stdout stderr s
  rw [hs] at hc
  cases hb : setupBody ord reason disk p stdout stderr s with
  | err e s1 =>
    rw [hb] at hc
    obtain ⟨call, new, h1, h2, h3⟩ := hc
    rw [run_of_err hb]
    constructor
    · exact fun _ => ⟨_, rfl⟩
    · exact fun _ => ⟨(call, false), by change _ ∈ s1.calls; rw [h1]; simp, rfl, h2⟩
  | ok a s1 =>
    rw [hb] at hc
    obtain ⟨new, h1, h3⟩ := hc
    rw [run_executed.mpr hb]
    constructor
    · rintro ⟨x, hx, hfail⟩
      change x ∈ s1.calls at hx
      rw [h1, List.append_nil, List.mem_cons] at hx
      rcases hx with rfl | hx
      · cases hfail.1
      · exact absurd hfail (h3 x hx).1
    · rintro ⟨_, h⟩; cases h
  | panic q s1 =>
    rw [hb] at hc
    obtain ⟨-, new, h1, h3⟩ := hc
    have hr : run ord reason desc disk p stdout stderr s = .panicked q s1 := by
      unfold run setupChild; rw [hb]
    rw [hr]
    constructor
    · rintro ⟨x, hx, hfail⟩
      change x ∈ s1.calls at hx
      rw [h1, List.append_nil] at hx
      exact absurd hfail (h3 x hx).1
    · rintro ⟨_, h⟩; cases h
  | stuck s1 =>
    rw [hb] at hc
    obtain ⟨new, h1, h3⟩ := hc
    have hr : run ord reason desc disk p stdout stderr s = .unfinished s1 := by
      unfold run setupChild; rw [hb]
    rw [hr]
    constructor
    · rintro ⟨x, hx, hfail⟩
      change x ∈ s1.calls at hx
      rw [h1, List.append_nil] at hx
      exact absurd hfail (h3 x hx).1
    · rintro ⟨_, h⟩; cases h

/-- C49: if the child ends by itself it does so with code 4, and nothing has been executed. -/
theorem C49_not_executed (hs : s.calls = []) {code : Int} {s' : Proc}
    (h : run ord reason desc disk p stdout stderr s = .exited code s') :
    code = 4 ∧ ∀ x ∈ s'.calls, ¬ Execs x := by
  obtain ⟨hcode, e, s1, hb, h1, -⟩ := run_exited h
  refine ⟨hcode, ?_⟩
  have hc := setupBody_calls ord reason disk p stdout stderr s
  rw [hs, hb] at hc
  obtain ⟨call, new, h2, h3, h4⟩ := hc
  rw [h1, h2, List.append_nil]
  intro x hx hex
  rcases List.mem_cons.mp hx with rfl | hx
  · obtain ⟨_, _, _, he⟩ := hex; cases he
  · exact (h4 x hx).2 hex

/-- C49: a program that has been executed has had everything set up before: these calls
succeeded, in this order, and no other call failed. -/
theorem C49_complete (hs : s.calls = []) {image : Image} {s' : Proc}
    (h : run ord reason desc disk p stdout stderr s = .executed image s') :
    (∀ x ∈ s'.calls, ¬ Failed x) ∧
    [(.dup2 stdout 1, true), (.dup2 stderr 2, true), (.sigprocmask [], true),
     (.chdir p.workdir, true), (.setgid p.gid, true), (.setgroups [p.gid], true),
     (.setuid p.uid, true), (.ambientClear, true),
     (.execvpe p.path p.args p.env, true)].Sublist s'.calls.reverse := by
  have hc := setupBody_calls ord reason disk p stdout stderr s
  rw [run_executed] at h
  rw [h, hs] at hc
  obtain ⟨new, h1, h2⟩ := hc
  constructor
  · intro x hx hfail
    rw [h1, List.append_nil, List.mem_cons] at hx
    rcases hx with rfl | hx
    · cases hfail.1
    · exact (h2 x hx).1 hfail
  obtain ⟨t1, t2, c, k1, k2, temp, act, order, -, -, -, -, -, -, -, -, -, -, -, -, -, hcalls, -⟩ :=
    setupBody_ok h
  rw [hcalls, hs]
  simp only [expected, List.reverse_cons, List.reverse_append, List.reverse_nil, List.nil_append,
    List.append_assoc, List.reverse_replicate, List.map_reverse, List.reverse_reverse,
    List.map_append, List.map_cons, List.map_nil, List.cons_append]
  generalize List.replicate k1 (Call.dup2 stdout 1, false) = l1
  generalize List.replicate k2 (Call.dup2 stderr 2, false) = l2
  refine List.Sublist.trans ?_ (List.sublist_append_right l1 _)
  refine List.Sublist.cons₂ _ ?_
  refine List.Sublist.trans ?_ (List.sublist_append_right l2 _)
  refine .cons₂ _ (.cons₂ _ (.cons₂ _ (.cons _ (.cons _ (.cons _ (.cons _ (.cons _ (.cons₂ _
    (.cons₂ _ (.cons₂ _ (.cons _ (.cons _ (.cons _ (.cons _ (.cons _ (.cons₂ _ (.cons _ ?_))))))))))))))))) 
  refine List.Sublist.trans ?_ (List.sublist_append_right _ _)
  exact .cons _ (.cons _ (.cons _ (.cons _ (.refl _))))

/-- C49: the child does not abort, unless the path of the program contains a NUL character. -/
theorem C49_no_abort (hp : '\x00' ∉ p.path) {q : Panic} {s' : Proc} :
    run ord reason desc disk p stdout stderr s ≠ .panicked q s' := by
  intro h
  have hc := setupBody_calls ord reason disk p stdout stderr s
  cases hb : setupBody ord reason disk p stdout stderr s with
  | ok a s1 => rw [run_executed.mpr hb] at h; cases h
  | panic q s1 => rw [hb] at hc; exact hp hc.1
  | stuck s1 => unfold run setupChild at h; rw [hb] at h; cases h
  | err e s1 => rw [run_of_err hb] at h; cases h

/-! ## C63: reasons are reported -/

/-- C63: if a program cannot be executed, its output says something about it. -/
def C63_statement : Prop :=
  ∀ (ord : HashOrder) (reason : Str) (desc : Nat → Str) (disk : Disk) (p : Process)
    (stdout stderr : Nat) (s s' : Proc) (code : Int), stdout ≠ 1 → stderr ≠ 1 →
    s.files stdout ≠ none → s.files stderr ≠ none → s.written = [] →
    run ord reason desc disk p stdout stderr s = .exited code s' → s'.written ≠ []

/-- C63, what holds: exactly the failures of calls about capabilities and unknown capabilities are
reported, to the standard output of the program; the general message is never written. What is
missing: reports of all other failures (directory, user, group, the execution itself). -/
theorem C63_exact_partial {o : Nat} {b : Bool} (h1 : s.files stdout = some ⟨o, b⟩)
    (h2 : stdout ≠ 1) (h3 : stderr ≠ 1) (hw : s.written = []) {code : Int} {s' : Proc}
    (h : run ord reason desc disk p stdout stderr s = .exited code s') :
    ∃ c rest, s'.calls = (c, false) :: rest ∧
      s'.written = (if AboutCaps c then [(o, "capability error: ".toList ++ reason)] else []) ++
        (if Early c then []
         else ((unknown p.capabilities).map fun n => (o, "Failed to set ".toList ++ n)).reverse) := by
  obtain ⟨-, e, s1, hb, hc, hw'⟩ := run_exited h
  have ht := setupBody_told (ord := ord) (reason := reason) (disk := disk) (p := p) h1 h2 h3
  rw [hb] at ht
  obtain ⟨c, rest, hcalls, hwr⟩ := ht
  refine ⟨c, rest, hc.trans hcalls, ?_⟩
  rw [hw', hwr, hw, List.append_nil]
  rfl

/-- C63: for a program that is executed, its output has mentioned the configured capabilities
that do not exist, in their order, and nothing else. -/
theorem C63_unknown {o : Nat} {b : Bool} (h1 : s.files stdout = some ⟨o, b⟩)
    (h2 : stdout ≠ 1) (h3 : stderr ≠ 1) (hw : s.written = []) {image : Image} {s' : Proc}
    (h : run ord reason desc disk p stdout stderr s = .executed image s') :
    s'.written.reverse =
      (unknown p.capabilities).map fun n => (o, "Failed to set ".toList ++ n) := by
  rw [run_executed] at h
  have ht := setupBody_told (ord := ord) (reason := reason) (disk := disk) (p := p) h1 h2 h3
  rw [h] at ht
  change s'.written = _ at ht
  rw [ht, hw, List.append_nil]
  unfold complaints
  rw [List.reverse_reverse]

/-! ## C65: capabilities confine programs -/

/-- C65: a program has no capabilities but the configured ones. -/
def C65_statement : Prop :=
  ∀ (ord : HashOrder) (reason : Str) (desc : Nat → Str) (disk : Disk) (p : Process)
    (stdout stderr : Nat) (s s' : Proc) (image : Image),
    run ord reason desc disk p stdout stderr s = .executed image s' → image.file = .plain →
    image.cred.permitted.Subset (configured p.capabilities)

/-- C65, what holds: a program of root (unless root is not special) has the capabilities of the
bounding set, too, which cinit leaves as it is. What is missing: programs of root are not
confined. -/
theorem C65_exact_partial {image : Image} {s' : Proc}
    (h : run ord reason desc disk p stdout stderr s = .executed image s')
    (hf : image.file = .plain) (c : Cap) :
    image.cred.permitted c = (configured p.capabilities c ||
      (decide (p.uid = 0) && !s.cred.noRoot && s.cred.bounding c)) ∧
    image.cred.effective c = image.cred.permitted c := by
  rw [run_executed] at h
  obtain ⟨t1, t2, cr, k1, k2, temp, act, order, -, -, -, -, -, -, -, -, -, hc, -, -, -, -, r1, r2, r3,
    g1, g2, g3, gr, e1, e2, e3, hb, hr⟩ := setupBody_ok h
  rw [hc, hf]
  unfold Cred.exec ExeFile.plain
  by_cases hu : p.uid = 0 <;> cases hn : s.cred.noRoot <;>
    cases hb0 : s.cred.bounding c <;> cases hc0 : configured p.capabilities c <;>
    simp [r1, r2, g1, g2, e2, e3, hb, hr, hu, hn, Caps.union, Caps.empty, hb0, hc0]

/-! ## C66: signals -/

/-- C66: a program begins with all signals at their defaults: none blocked, none ignored. The
runtime of cinit ignores SIGPIPE (13). -/
def C66_statement : Prop :=
  ∀ (ord : HashOrder) (reason : Str) (desc : Nat → Str) (disk : Disk) (p : Process)
    (stdout stderr : Nat) (s s' : Proc) (image : Image), s.ignored = [13] →
    run ord reason desc disk p stdout stderr s = .executed image s' →
    image.mask = [] ∧ image.ignored = []

/-- C66, what holds: no signal is blocked; those ignored are the ones ignored by cinit. What is
missing: SIGPIPE should not be ignored. -/
theorem C66_exact_partial {image : Image} {s' : Proc}
    (h : run ord reason desc disk p stdout stderr s = .executed image s') :
    image.mask = [] ∧ image.ignored = s.ignored := by
  rw [run_executed] at h
  obtain ⟨t1, t2, c, k1, k2, temp, act, order, -, -, -, -, -, -, hm, hi, -⟩ := setupBody_ok h
  exact ⟨hm, hi⟩

/-! ## C67: program, arguments, environment and directory -/

/-- C67: what is executed has exactly the configured arguments and environment, in the configured
directory; if the path of the program contains a slash, it is the file at this path. -/
theorem C67_as_configured {image : Image} {s' : Proc}
    (h : run ord reason desc disk p stdout stderr s = .executed image s') :
    image.args = p.args ∧ image.env = p.env ∧ image.cwd = p.workdir ∧
      ('/' ∈ p.path → image.path = p.path) := by
  rw [run_executed] at h
  obtain ⟨t1, t2, c, k1, k2, temp, act, order, -, -, -, h1, h2, h3, -, -, h4, -⟩ := setupBody_ok h
  exact ⟨h2, h3, h4, fun hs => ((C82_slash hs).mp h1).1⟩

/-- C82 for the whole set-up: the file executed is the one at the configured path, or, for a name,
the first one of this name along the `PATH` of cinit. What must not be executed by the program's
user, group and capabilities is not executed, and the search is made in the program's working
directory. -/
theorem C82_executed {image : Image} {s' : Proc}
    (h : run ord reason desc disk p stdout stderr s = .executed image s') :
    ∃ c, ActsAs p c ∧ disk.attempt c p.workdir image.path = .runs image.file ∧
      ('/' ∈ p.path → image.path = p.path) ∧
      ('/' ∉ p.path → size p.path ≤ 255 ∧ p.path ≠ [] ∧
        (∀ path dirs, disk.path = some path → Directories dirs path →
          FirstAlong (disk.attempt c p.workdir) (usual dirs) p.path image.path image.file) ∧
        (disk.path = none →
          FirstAlong (disk.attempt c p.workdir) fallback p.path image.path image.file)) := by
  rw [run_executed] at h
  obtain ⟨t1, t2, c, k1, k2, temp, act, order, -, -, -, hx, -, -, -, -, -, -, -, -, -, -, r1, r2, r3,
    g1, g2, g3, gr, e1, -⟩ := setupBody_ok h
  refine ⟨c, ⟨⟨r1, r2, r3⟩, ⟨g1, g2, g3, gr⟩, e1⟩, ?_⟩
  by_cases hs : '/' ∈ p.path
  · obtain ⟨q1, q2⟩ := (C82_slash hs).mp hx
    exact ⟨q1 ▸ q2, fun _ => q1, fun hn => absurd hs hn⟩
  have hne : p.path ≠ [] := by
    intro h0
    unfold PathSearch.execvpe at hx
    rw [if_pos h0] at hx
    cases hx
  have hlen : size p.path ≤ 255 := by
    apply Nat.not_lt.mp
    intro hl
    rw [C82_long hs hl] at hx
    cases hx
  have first : ∀ {dirs}, FirstAlong (disk.attempt c p.workdir) dirs p.path image.path image.file →
      disk.attempt c p.workdir image.path = .runs image.file :=
    fun ⟨_, _, _, _, _, _, h4⟩ => h4
  cases hp : disk.path with
  | none =>
    rw [hp, C82_fallback hs hne hlen] at hx
    exact ⟨first hx, fun h => absurd h hs, fun _ => ⟨hlen, hne, (fun _ _ h _ => nomatch h), fun _ => hx⟩⟩
  | some path =>
    rw [hp, C82_search hs hne hlen (directories_iff.mpr rfl)] at hx
    refine ⟨first hx, fun h => absurd h hs, fun _ => ⟨hlen, hne, fun path' dirs he hd => ?_,
      fun h => nomatch h⟩⟩
    cases he
    rw [directories_iff.mp hd] at hx
    exact hx

/-- C82: a program whose file does not exist, or which its user, group and capabilities must not
execute, is not executed: the child exits with code 4 (once all calls have been answered). -/
theorem C82_not_found (hp : '\x00' ∉ p.path)
    (hx : ∀ c q g, ActsAs p c → (q = p.path ∨ ∃ dir, InDir dir p.path q) →
      disk.attempt c p.workdir q ≠ .runs g) :
    ∃ s', run ord reason desc disk p stdout stderr s = .exited 4 s' ∨
      run ord reason desc disk p stdout stderr s = .unfinished s' := by
  cases hr : run ord reason desc disk p stdout stderr s with
  | exited code s' =>
    obtain ⟨rfl, -⟩ := run_exited hr
    exact ⟨s', .inl rfl⟩
  | unfinished s' => exact ⟨s', .inr rfl⟩
  | panicked q s' => exact absurd hr (C49_no_abort hp)
  | executed image s' =>
    exfalso
    obtain ⟨c, h1, h2, h3, h4⟩ := C82_executed hr
    refine hx c _ _ h1 ?_ h2
    by_cases hs : '/' ∈ p.path
    · exact .inl (h3 hs)
    · obtain ⟨-, -, h5, h6⟩ := h4 hs
      cases hd : disk.path with
      | none =>
        obtain ⟨_, d, _, _, _, g, _⟩ := h6 hd
        exact .inr ⟨d, g⟩
      | some path =>
        obtain ⟨_, d, _, _, _, g, _⟩ := h5 path _ hd (directories_iff.mpr rfl)
        exact .inr ⟨d, g⟩

/-! ## C64, C68: descriptors -/

open Descr in
/-- C64: whatever cinit has done before, a program begins with the descriptors cinit was started
with (as far as they are inherited), its standard output and error replaced by its own pipes. -/
theorem C64_descriptors {t0 : Files} {d : State} {a : StartAnswer} {t c : Files} {o e : Pipe}
    (h0 : ∀ n ≤ 2, t0 n ≠ none) (hr : Reachable t0 d) (hf : Fresh d a)
    (hs : Descr.start d.files a = (t, some (c, o, e))) (hc : s.files = c)
    {image : Image} {s' : Proc}
    (h : run ord reason desc disk p o.writeFd e.writeFd s = .executed image s') (n : Nat) :
    image.files n = if n = 1 then some ⟨o.writeEnd, false⟩
      else if n = 2 then some ⟨e.writeEnd, false⟩ else t0.exec n := by
  obtain ⟨p1, p2, -, hch⟩ := start_some hf hs
  obtain ⟨⟨a1, -, -⟩, ⟨a2, -, -⟩, a3, -⟩ := hf.1 o p1
  obtain ⟨⟨b1, -, -⟩, ⟨b2, -, -⟩, b3, -⟩ := hf.2.1 e p2
  obtain ⟨c1, c2, c3, c4, -⟩ := hf.2.2 o e p1 p2
  have hi := hr.inv
  have low : ∀ fd, d.files fd = none → 2 < fd := by
    intro fd hn
    by_cases hle : fd ≤ 2
    · cases h1 : t0 fd with
      | none => exact absurd h1 (h0 fd hle)
      | some g => rw [hi.all fd g h1] at hn; cases hn
    · omega
  have la := low _ a2
  have lb := low _ b2
  rw [run_executed] at h
  obtain ⟨t1, t2, cr, k1, k2, temp, act, order, d1, d2, hfi, -⟩ := setupBody_ok h
  rw [hfi]
  have ho : s.files o.writeFd = some ⟨o.writeEnd, false⟩ := by
    rw [hc, hch]
    simp [Ne.symm a3, c3]
  have he : s.files e.writeFd = some ⟨e.writeEnd, false⟩ := by
    rw [hc, hch]
    simp [Ne.symm b3, Ne.symm c2, Ne.symm c4]
  unfold Files.dup2 at d1 d2
  rw [ho] at d1
  simp only [Option.some.injEq] at d1
  rw [if_neg (by omega)] at d1
  have he1 : t1 e.writeFd = some ⟨e.writeEnd, false⟩ := by
    rw [← d1]
    simp only [Files.set]
    rw [if_neg (by omega)]
    exact he
  rw [he1] at d2
  simp only [Option.some.injEq] at d2
  rw [if_neg (by omega)] at d2
  rw [← d2, ← d1]
  simp only [Files.exec, Files.close, Files.set]
  by_cases hn1 : n = 1
  · subst hn1
    rw [if_neg (by omega), if_neg (by omega), if_neg (by omega), if_pos rfl, if_pos rfl]
    rfl
  by_cases hn2 : n = 2
  · subst hn2
    rw [if_neg (by omega), if_neg (by omega), if_pos rfl, if_neg (by omega), if_pos rfl]
    rfl
  rw [if_neg hn1, if_neg hn2, if_neg hn2, if_neg hn1]
  have h0n : d.files n = none → t0 n = none := by
    intro hn
    cases h1 : t0 n with
    | none => rfl
    | some g => rw [hi.all n g h1] at hn; cases hn
  by_cases hx : n = e.writeFd
  · subst hx
    rw [if_pos rfl, h0n b2]
  rw [if_neg hx]
  by_cases hy : n = o.writeFd
  · subst hy
    rw [if_pos rfl, h0n a2]
  rw [if_neg hy, hc, hch]
  by_cases hz : n = o.readFd
  · subst hz
    rw [if_pos rfl, h0n a1]
    rfl
  rw [if_neg hz]
  by_cases hw : n = e.readFd
  · subst hw
    rw [if_pos rfl, h0n b1]
    rfl
  rw [if_neg hw, if_neg hy, if_neg hx]
  cases hd : d.files n with
  | none => rw [h0n hd]
  | some g =>
    rcases hi.only n g hd with ⟨hcl, hnone⟩ | hsome
    · rw [hnone]
      simp [hcl]
    · rw [hsome]

open Descr in
/-- C68: the end of a pipe a program writes to is held by nobody but the program: not by cinit
after the start, in any state whatsoever, so that the end of the output is noticed when the
program has closed it. -/
theorem C68_cinit {t0 : Files} {d : State} (hr : Reachable t0 d) {n : Nat} {g : File}
    (h : d.files n = some g) : g.object ∉ d.writeEnds :=
  hr.inv.ends n g h

open Descr in
/-- C68: and not by any program started earlier or later. -/
theorem C68_programs {t0 : Files} {d : State} {a : StartAnswer} {t c : Files} {o e : Pipe}
    (h0 : ∀ n ≤ 2, t0 n ≠ none) (hr : Reachable t0 d) (hf : Fresh d a)
    (hs : Descr.start d.files a = (t, some (c, o, e))) (hc : s.files = c)
    {image : Image} {s' : Proc}
    (h : run ord reason desc disk p o.writeFd e.writeFd s = .executed image s') {n : Nat} {g : File}
    (hg : image.files n = some g) :
    g.object ∉ d.writeEnds ∧ ((g.object = o.writeEnd ∨ g.object = e.writeEnd) → n = 1 ∨ n = 2) := by
  obtain ⟨p1, p2, -, hch⟩ := start_some hf hs
  rw [C64_descriptors h0 hr hf hs hc h] at hg
  obtain ⟨-, ⟨-, a2, a3⟩, -⟩ := hf.1 o p1
  obtain ⟨-, ⟨-, b2, b3⟩, -⟩ := hf.2.1 e p2
  have hi := hr.inv
  split_ifs at hg with h1 h2
  · cases hg; exact ⟨a2, fun _ => .inl h1⟩
  · cases hg; exact ⟨b2, fun _ => .inr h2⟩
  · have h3 : t0 n = some g := by
      unfold Files.exec at hg
      cases h3 : t0 n with
      | none => rw [h3] at hg; cases hg
      | some g' =>
        rw [h3] at hg
        simp only at hg
        split_ifs at hg
        exact hg
    have h4 := hi.all n g h3
    refine ⟨hi.ends n g h4, ?_⟩
    rintro (h5 | h5)
    · exact absurd h5 (a3 n g h4)
    · exact absurd h5 (b3 n g h4)

/-! ## Concrete cases -/

/-- A web server that may bind to privileged ports, and a name that is no capability. -/
def web : Process :=
  { name := "web".toList, path := "/bin/web".toList, args := ["web".toList, "-f".toList]
    workdir := "/srv".toList, uid := 33, gid := 34, emulatePty := false
    capabilities := ["CAP_NET_BIND_SERVICE".toList, "CAP_FLY".toList]
    env := ["A=1".toList], state := .blocked, ptype := .oneshot, pid := -1, status := [] }

/-- The only file is `/bin/web`, `f`, which may be executed by the user 33 and root only. -/
def webDisk (f : ExeFile) : Disk where
  path := some "/usr/bin:/bin".toList
  attempt c _ q :=
    if q = "/bin/web".toList then if c.euid = 33 ∨ c.euid = 0 then .runs f else .refused 13
    else .refused 2

theorem webDisk_runs {f : ExeFile} {c : Cred} {w q : Str} (hq : q = "/bin/web".toList)
    (hu : c.euid = 33 ∨ c.euid = 0) : (webDisk f).attempt c w q = .runs f :=
  (if_pos hq).trans (if_pos hu)

theorem webDisk_none {f : ExeFile} {c : Cred} {w q : Str} (hq : q ≠ "/bin/web".toList) :
    (webDisk f).attempt c w q = .refused 2 := if_neg hq

/-- Credentials of root in a container. -/
def rootCred : Cred :=
  { ruid := 0, euid := 0, suid := 0, rgid := 0, egid := 0, sgid := 0, groups := [0, 1]
    permitted := fun _ => true, effective := fun _ => true, inheritable := Caps.empty
    ambient := Caps.empty, bounding := fun _ => true, keepCaps := false, keepCapsLocked := false
    noSetuidFixup := false, noRoot := false, noAmbientRaise := false }

/-- Standard streams, an inherited descriptor, one that is not inherited. -/
def files0 : Files := fun n =>
  if n ≤ 2 then some ⟨n, false⟩ else if n = 3 then some ⟨9, false⟩
  else if n = 4 then some ⟨10, true⟩ else none

/-- A start with pipes 5, 6 and 7, 8. -/
def answer : Descr.StartAnswer := { pipe1 := some ⟨5, 6, 20, 21⟩, pipe2 := some ⟨7, 8, 22, 23⟩ }

/-- The child right after `fork`, all calls but those mentioned being answered favourably. -/
def child (answers : List (Option Nat)) : Proc :=
  { cred := rootCred, files := ((Descr.start files0 answer).2.map (·.1)).getD files0
    mask := [2, 15, 17], ignored := [13], cwd := "/".toList, answers := answers }

/-- The interesting parts of a program as it begins to run. -/
structure View where
  uid : Nat
  gid : Nat
  groups : List Nat
  caps : List Cap
  files : List (Option File)
  mask : List Nat
  ignored : List Nat
  cwd : Str
  deriving DecidableEq

/-- The interesting parts of the outcome: the program, the exit code, what was written. -/
def view : End → Option View × Option Int × List (Nat × Str)
  | .executed im s => (some ⟨im.cred.euid, im.cred.egid, im.cred.groups,
      (List.finRange 64).filter im.cred.permitted, (List.range 10).map im.files, im.mask,
      im.ignored, im.cwd⟩, none, s.written)
  | .exited code s => (none, some code, s.written)
  | .panicked _ s => (none, none, s.written)
  | .unfinished s => (none, none, s.written)

/-- The web server is executed as configured; the unknown name is mentioned in its output. -/
theorem web_executed : view (run .id [] (fun _ => []) (webDisk .plain) web 6 8
      (child (List.replicate 26 none))) =
    (some ⟨33, 34, [34], [10], [some ⟨0, false⟩, some ⟨21, false⟩, some ⟨23, false⟩,
      some ⟨9, false⟩, none, none, none, none, none, none], [], [13], "/srv".toList⟩, none,
      [(21, "Failed to set CAP_FLY".toList)]) := by
  decide +kernel

/-- The hypotheses of the theorems are met: there is an execution. -/
theorem web_runs : ∃ image s', run .id [] (fun _ => []) (webDisk .plain) web 6 8
    (child (List.replicate 26 none)) = .executed image s' := by
  have h := web_executed
  cases hr : run .id [] (fun _ => []) (webDisk .plain) web 6 8 (child (List.replicate 26 none)) with
  | executed im s => exact ⟨im, s, rfl⟩
  | exited code s => rw [hr] at h; cases h
  | panicked q s => rw [hr] at h; cases h
  | unfinished s => rw [hr] at h; cases h

/-- Root in a container is fit for every set of capabilities. -/
theorem rootCred_fit (names : List Str) : rootCred.Fit (needed names) :=
  ⟨fun _ _ => rfl, fun _ _ => by simp [Caps.union, rootCred], fun _ _ => rfl, rfl, rfl⟩

/-- `C48_available` applied. -/
theorem web_available (f : ExeFile) (ord : HashOrder) : ∃ image s', run ord [] (fun _ => []) (webDisk f) web 6 8
    (child (List.replicate 26 none)) = .executed image s' :=
  C48_available (fun a h => (List.mem_replicate.mp h).2) (by decide) (rootCred_fit _)
    (by decide) (by decide) (by decide) (by decide) (by decide) fun c hc => ⟨web.path, f, by
      rw [C82_slash (by decide)]
      exact ⟨rfl, webDisk_runs rfl (.inl hc.user.2.1)⟩⟩

/-- The file executed is the only one there is. -/
theorem webDisk_file {f : ExeFile} {image : Image} {s' : Proc}
    (h : run ord reason desc (webDisk f) p stdout stderr s = .executed image s') :
    image.path = "/bin/web".toList ∧ image.file = f := by
  obtain ⟨c, -, h2, -⟩ := C82_executed h
  simp only [webDisk] at h2
  split_ifs at h2 with h3 h4
  cases h2
  exact ⟨h3, rfl⟩

/-- `C82_executed` for a name: `web` is found on the `PATH` of cinit. -/
example : ∃ image s', run .id [] (fun _ => []) (webDisk .plain) { web with path := "web".toList } 6 8
      (child (List.replicate 26 none)) = .executed image s' ∧ image.path = "/bin/web".toList := by
  obtain ⟨image, s', h⟩ : ∃ image s', run .id [] (fun _ => []) (webDisk .plain)
      { web with path := "web".toList } 6 8 (child (List.replicate 26 none)) = .executed image s' :=
    C48_available (fun a h => (List.mem_replicate.mp h).2) (by decide) (rootCred_fit _)
      (by decide) (by decide) (by decide) (by decide) (by decide) fun c hc =>
      ⟨"/bin/web".toList, .plain, by
        have hd : Directories ["/usr/bin".toList, "/bin".toList] "/usr/bin:/bin".toList :=
          directories_iff.mpr (by decide +kernel)
        show PathSearch.execvpe (some "/usr/bin:/bin".toList) _ "web".toList = _
        rw [C82_search (by decide) (by decide) (by decide) hd]
        refine ⟨["/usr/bin".toList], "/bin".toList, [], by decide +kernel, fun d hd q hq => ?_,
          inDir_iff.mpr (by decide +kernel), webDisk_runs rfl (.inl hc.user.2.1)⟩
        rw [List.mem_singleton.mp hd] at hq
        rw [inDir_iff.mp hq]
        exact .inl (webDisk_none (by decide +kernel))⟩
  exact ⟨image, s', h, (webDisk_file h).1⟩

/-- The hypotheses of `C82_not_found`: another user. -/
example : '\x00' ∉ ({ web with uid := 34 } : Process).path ∧ ∀ c q g, ActsAs { web with uid := 34 } c →
    (webDisk .plain).attempt c web.workdir q ≠ .runs g := by
  refine ⟨by decide, fun c q g hc h => ?_⟩
  have hu : c.euid = 34 := hc.user.2.1
  simp only [webDisk] at h
  split_ifs at h with h3 h4
  omega

/-- The descriptors of the example are reachable and the pipes are new. -/
theorem answer_fresh : Descr.Fresh { files := files0 } answer := by
  have hnew : ∀ fd o, 4 < fd → 10 < o → Descr.New { files := files0 } fd o := by
    intro fd o hfd ho
    refine ⟨?_, List.not_mem_nil, fun n g hg => ?_⟩
    · simp only [files0]
      rw [if_neg (by omega), if_neg (by omega), if_neg (by omega)]
    · simp only [files0] at hg
      split_ifs at hg <;> cases hg <;> simp only <;> omega
  refine ⟨?_, ?_, ?_⟩
  · intro p hp
    cases hp
    exact ⟨hnew _ _ (by decide) (by decide), hnew _ _ (by decide) (by decide), by decide, by decide⟩
  · intro p hp
    cases hp
    exact ⟨hnew _ _ (by decide) (by decide), hnew _ _ (by decide) (by decide), by decide, by decide⟩
  · intro p q hp hq
    cases hp
    cases hq
    decide

theorem start_answer : Descr.start files0 answer = ((Descr.start files0 answer).1,
    some ((child []).files, ⟨5, 6, 20, 21⟩, ⟨7, 8, 22, 23⟩)) := rfl

theorem child_files (l : List (Option Nat)) : (child l).files = (child []).files := rfl

/-- `C64_descriptors` applied. -/
theorem web_descriptors (f : ExeFile) (ord : HashOrder) : ∃ image s', run ord [] (fun _ => []) (webDisk f) web 6 8
      (child (List.replicate 26 none)) = .executed image s' ∧
    image.files 1 = some ⟨21, false⟩ ∧ image.files 2 = some ⟨23, false⟩ ∧
    ∀ n, n ≠ 1 → n ≠ 2 → image.files n = files0.exec n := by
  obtain ⟨image, s', h⟩ := web_available f ord
  have h' := C64_descriptors (t0 := files0) (d := { files := files0 }) (a := answer)
    (fun n hn => by simp [files0, hn]) .init answer_fresh start_answer (child_files _) h
  refine ⟨image, s', h, h' 1, h' 2, fun n h1 h2 => ?_⟩
  rw [h', if_neg h1, if_neg h2]

/-- The program file does not exist (ENOENT): the child exits with code 4 and nothing has been
written. -/
theorem missing : view (run .id [] (fun _ => "No such file or directory".toList) (webDisk .plain)
      { web with capabilities := [] } 6 8
      (child (List.replicate 23 none ++ [some 2]))) = (none, some 4, []) := by
  decide +kernel

/-- C63 is false. -/
theorem C63_violated : ¬ C63_statement := by
  intro h
  have hm := missing
  cases hr : run .id [] (fun _ => "No such file or directory".toList) (webDisk .plain)
      { web with capabilities := [] } 6 8 (child (List.replicate 23 none ++ [some 2])) with
  | exited code s =>
    rw [hr] at hm
    exact h _ _ _ _ _ _ _ _ _ _ (by decide) (by decide) (by decide) (by decide) rfl hr
      (congrArg (fun x => x.2.2) hm)
  | executed im s => rw [hr] at hm; cases hm
  | panicked q s => rw [hr] at hm; cases hm
  | unfinished s => rw [hr] at hm; cases hm

/-- The kernel refuses the first `capset`: reported. -/
theorem refused : view (run .id "EPERM".toList (fun _ => []) (webDisk .plain) web 6 8
      (child (List.replicate 5 none ++ [some 1]))) = (none, some 4,
        [(21, "capability error: EPERM".toList), (21, "Failed to set CAP_FLY".toList)]) := by
  decide +kernel

/-- C65 is false: a program of root without any capabilities configured has all of them. -/
theorem C65_violated : ¬ C65_statement := by
  intro h
  obtain ⟨im, s', hr⟩ : ∃ image s', run .id [] (fun _ => []) (webDisk .plain)
      { web with uid := 0, capabilities := [] } 6 8 (child (List.replicate 26 none)) =
        .executed image s' :=
    C48_available (fun a h => (List.mem_replicate.mp h).2) (by decide) (rootCred_fit _)
      (by decide) (by decide) (by decide) (by decide) (by decide) fun c hc => ⟨web.path, .plain, by
        rw [C82_slash (by decide)]
        exact ⟨rfl, webDisk_runs rfl (.inr hc.user.2.1)⟩⟩
  have h1 := h _ _ _ _ _ _ _ _ _ _ hr (webDisk_file hr).2 21
  rw [(C65_exact_partial hr (webDisk_file hr).2 21).1] at h1
  revert h1
  decide

/-- C66 is false: SIGPIPE is ignored by every program. -/
theorem C66_violated : ¬ C66_statement := by
  intro h
  obtain ⟨im, s', hr⟩ := web_runs
  have h1 := (h _ _ _ _ _ _ _ _ _ _ rfl hr).2
  rw [(C66_exact_partial hr).2] at h1
  cases h1

end Cinit.Props
