import Verif.Proofs.Document
import Verif.Props.Main
/-!
# C74, C75, C76: what configuration files mean
-/

namespace Cinit.Props

open Cinit Spec

variable {r : Reading} {ord : HashOrder}

/-! ## C74 -/

/-- C74: whatever is loaded from a document is what the document means. -/
theorem C74_sound {n : Node} {c : Config} (h : Decode.config r ord n = some c) :
    IsConfig r n c := config_sound h

/-- C74: a document with a meaning is loaded, with this meaning; only the order of the variables
within one element of `env` is open. -/
theorem C74_complete {n : Node} {c : Config} (h : IsConfig r n c) :
    ∃ c', Decode.config r ord n = some c' ∧ List.Forall₂ SameProgram c'.programs c.programs :=
  config_complete h

theorem given_perm {l l' : List (Str × Node)} (h : l.Perm l') (key : String) :
    (valuesOf l key).Perm (valuesOf l' key) := (h.filter _).map _

theorem required_perm {l l' : List (Str × Node)} (h : l.Perm l') {key : String} {α : Type}
    {P : Node → α → Prop} {a : α} (hr : Required l key P a) : Required l' key P a := by
  obtain ⟨n, h1, h2⟩ := hr
  have := given_perm h key
  rw [h1] at this
  exact ⟨n, (List.singleton_perm.mp this).symm, h2⟩

theorem defaulted_perm {l l' : List (Str × Node)} (h : l.Perm l') {key : String} {α : Type}
    {P : Node → α → Prop} {d a : α} (hr : Defaulted l key P d a) : Defaulted l' key P d a := by
  rcases hr with ⟨h1, h2⟩ | hr
  · have := given_perm h key
    rw [h1] at this
    exact .inl ⟨this.nil_eq.symm, h2⟩
  · exact .inr (required_perm h hr)

theorem forall₂_perm {α β : Type} {R : α → β → Prop} {l l' : List α} (h : l.Perm l')
    {bs : List β} (hl : List.Forall₂ R l bs) : ∃ bs', bs.Perm bs' ∧ List.Forall₂ R l' bs' := by
  induction h generalizing bs with
  | nil => cases hl; exact ⟨[], .nil, .nil⟩
  | cons a _ ih =>
    cases hl with
    | cons h1 h2 =>
      obtain ⟨bs', h3, h4⟩ := ih h2
      exact ⟨_ :: bs', h3.cons _, .cons h1 h4⟩
  | swap a b l =>
    cases hl with
    | cons h1 h2 =>
      cases h2 with
      | cons h2 h3 => exact ⟨_, .swap .., .cons h2 (.cons h1 h3)⟩
  | trans _ _ ih1 ih2 =>
    obtain ⟨bs1, h1, h2⟩ := ih1 hl
    obtain ⟨bs2, h3, h4⟩ := ih2 h2
    exact ⟨bs2, h1.trans h3, h4⟩

/-- C74: the order of the keys of a program does not matter. -/
theorem C74_order {l l' : List (Node × Node)} (hp : l.Perm l') {c : ProcessConfig}
    (h : Decode.program r ord (.map l) = some c) :
    ∃ c', Decode.program r ord (.map l') = some c' ∧ SameProgram c' c := by
  rcases program_sound h with ⟨kl, hm, hf⟩ | ⟨ns, e, -⟩
  · rcases hm with ⟨ns, e, hm⟩ | ⟨e, -⟩
    · cases e
      obtain ⟨kl', h1, h2⟩ := forall₂_perm hp hm
      refine program_complete (.inl ⟨kl', .inl ⟨l', rfl, h2⟩, ?_⟩)
      exact ⟨required_perm h1 hf.name, defaulted_perm h1 hf.path, defaulted_perm h1 hf.args,
        defaulted_perm h1 hf.workdir, defaulted_perm h1 hf.type, defaulted_perm h1 hf.uid,
        defaulted_perm h1 hf.gid, defaulted_perm h1 hf.user, defaulted_perm h1 hf.group,
        defaulted_perm h1 hf.before, defaulted_perm h1 hf.after, defaulted_perm h1 hf.pty,
        defaulted_perm h1 hf.capabilities, defaulted_perm h1 hf.env⟩
    · cases e
  · cases e

/-- The notations for values every YAML library understands. -/
structure Usual (r : Reading) : Prop where
  int : ∀ n < 2 ^ 32, r.int (showNat n) = some n
  int_null : ∀ n, r.null (showNat n) = false
  true : r.bool "true".toList = some true
  false : r.bool "false".toList = some false

/-- A quoted text. -/
def quoted (s : Str) : Node := .scalar ⟨s, false⟩

def key (s : String) : Node := quoted s.toList

def none' : Node := .scalar ⟨[], true⟩

def orNone (o : Option Str) : Node := o.elim none' quoted

def number (o : Option Nat) : Node := o.elim none' fun n => .scalar ⟨showNat n, true⟩

def texts (l : List Str) : Node := .seq (l.map quoted)

def typeNode : CfgType → Node
  | .oneshot => key "oneshot"
  | .notify => key "notify"
  | .cronJob t => .map [(key "cronjob", .map [(key "timer", quoted t)])]

/-- A program written down in full. -/
def written (c : ProcessConfig) : Node :=
  .map [(key "name", quoted c.name), (key "path", orNone c.path), (key "args", texts c.args),
    (key "workdir", orNone c.workdir), (key "type", typeNode c.ptype), (key "uid", number c.uid),
    (key "gid", number c.gid), (key "user", orNone c.user), (key "group", orNone c.group),
    (key "before", texts c.before), (key "after", texts c.after),
    (key "pty", .scalar ⟨if c.emulatePty then "true".toList else "false".toList, true⟩),
    (key "capabilities", texts c.capabilities),
    (key "env", .seq (c.env.map fun vs => .map (vs.map fun v => (quoted v.1, orNone v.2))))]

theorem isText_quoted (s : Str) : IsText (quoted s) s := ⟨false, rfl⟩

theorem isOptional_orNone (o : Option Str) : IsOptional r IsText (orNone o) o := by
  cases o with
  | none => exact .inl ⟨⟨[], rfl, .inl rfl⟩, rfl⟩
  | some s => exact .inr ⟨(by rintro ⟨t, e, -⟩; cases e), s, rfl, isText_quoted s⟩

theorem showNat_ne_nil (n : Nat) : showNat n ≠ [] := by
  have : ∀ fuel n acc, acc ≠ [] → showNatAux fuel n acc ≠ [] := by
    intro fuel
    induction fuel with
    | zero => exact fun _ _ h => h
    | succ fuel ih =>
      intro n acc h
      unfold showNatAux
      simp only
      split
      · simp
      · exact ih _ _ (by simp)
  unfold showNat showNatAux
  simp only
  split
  · simp
  · exact this _ _ _ (by simp)

theorem isOptional_number (hr : Usual r) {o : Option Nat} (ho : ∀ n, o = some n → n < 2 ^ 32) :
    IsOptional r (IsNumber r) (number o) o := by
  cases o with
  | none => exact .inl ⟨⟨[], rfl, .inl rfl⟩, rfl⟩
  | some n =>
    refine .inr ⟨?_, n, rfl, _, rfl, hr.int n (ho n rfl)⟩
    rintro ⟨t, e, h⟩
    cases e
    rcases h with h | h
    · exact showNat_ne_nil n h
    · rw [hr.int_null] at h
      cases h

theorem forall₂_map {α : Type} {P : Node → α → Prop} {f : α → Node} (h : ∀ a, P (f a) a)
    (l : List α) : List.Forall₂ P (l.map f) l := by
  induction l with
  | nil => exact .nil
  | cons a l ih => exact .cons (h a) ih

theorem isList_texts (l : List Str) : IsList IsText (texts l) l :=
  .inl ⟨_, rfl, forall₂_map isText_quoted l⟩

theorem isVariables_written {vs : List (Str × Option Str)} (h : (vs.map (·.1)).Nodup) :
    IsVariables r (.map (vs.map fun v => (quoted v.1, orNone v.2))) vs := by
  refine ⟨vs.map fun v => (v.1, orNone v.2), .inl ⟨_, rfl, ?_⟩, ?_, h, fun k v => ?_⟩
  · clear h
    induction vs with
    | nil => exact .nil
    | cons v vs ih => exact .cons ⟨isText_quoted _, rfl⟩ ih
  · intro e he
    obtain ⟨v, -, rfl⟩ := List.mem_map.mp he
    exact ⟨v.2, isOptional_orNone v.2⟩
  · constructor
    · intro hm
      obtain ⟨front, back, rfl⟩ := List.append_of_mem hm
      refine ⟨front.map fun v => (v.1, orNone v.2), back.map fun v => (v.1, orNone v.2),
        orNone v, by simp, ?_, isOptional_orNone v⟩
      rw [List.map_append, List.map_cons] at h
      have := (List.nodup_cons.mp (List.nodup_append.mp h).2.1).1
      simpa [Function.comp_def] using this
    · rintro ⟨front, back, n, e, -, ho⟩
      have : (k, n) ∈ vs.map fun v => (v.1, orNone v.2) := by rw [e]; simp
      obtain ⟨⟨k', v'⟩, hm, e'⟩ := List.mem_map.mp this
      injection e' with e1 e2
      have hv : v = v' := by
        have := isOptional_orNone (r := r) v'
        rw [e2, ← optional_iff text_iff] at this
        rw [← optional_iff text_iff, this] at ho
        exact (Option.some.inj ho).symm
      rw [hv, ← e1]
      exact hm

/-- C74: everything that can be configured at all can be written down. -/
theorem C74_expressible (hr : Usual r) {c : ProcessConfig} (hu : ∀ n, c.uid = some n → n < 2 ^ 32)
    (hg : ∀ n, c.gid = some n → n < 2 ^ 32) (he : ∀ vs ∈ c.env, (vs.map (·.1)).Nodup) :
    ∃ c', Decode.program r ord (written c) = some c' ∧ SameProgram c' c := by
  refine program_complete (.inl ⟨[("name".toList, quoted c.name), ("path".toList, orNone c.path),
      ("args".toList, texts c.args), ("workdir".toList, orNone c.workdir),
      ("type".toList, typeNode c.ptype), ("uid".toList, number c.uid),
      ("gid".toList, number c.gid), ("user".toList, orNone c.user),
      ("group".toList, orNone c.group), ("before".toList, texts c.before),
      ("after".toList, texts c.after),
      ("pty".toList, .scalar ⟨if c.emulatePty then "true".toList else "false".toList, true⟩),
      ("capabilities".toList, texts c.capabilities),
      ("env".toList,
        .seq (c.env.map fun vs => .map (vs.map fun v => (quoted v.1, orNone v.2))))], .inl ⟨_, rfl, ?_⟩, ?_⟩)
  · repeat' constructor
  · have ht : IsType r (typeNode c.ptype) c.ptype := by
      cases c.ptype with
      | oneshot => exact .oneshot ⟨false, rfl⟩
      | notify => exact .notify ⟨false, rfl⟩
      | cronJob t =>
        exact .cronjob (l := [("timer".toList, quoted t)]) ⟨false, rfl⟩
          (.inl ⟨_, rfl, .cons ⟨⟨false, rfl⟩, rfl⟩ .nil⟩) ⟨quoted t, rfl, isText_quoted t⟩
    have hp : IsFlag r (.scalar ⟨if c.emulatePty then "true".toList else "false".toList, true⟩)
        c.emulatePty := by
      cases c.emulatePty with
      | true => exact ⟨_, rfl, hr.true⟩
      | false => exact ⟨_, rfl, hr.false⟩
    have hv : IsList (IsVariables r)
        (.seq (c.env.map fun vs => .map (vs.map fun v => (quoted v.1, orNone v.2)))) c.env := by
      refine .inl ⟨_, rfl, ?_⟩
      generalize c.env = env at he
      induction env with
      | nil => exact .nil
      | cons vs env ih =>
        refine .cons ?_ (ih fun vs h => he vs (List.mem_cons_of_mem _ h))
        exact isVariables_written (he vs (List.mem_cons_self ..))
    exact ⟨⟨_, rfl, isText_quoted _⟩, .inr ⟨_, rfl, isOptional_orNone _⟩,
      .inr ⟨_, rfl, isList_texts _⟩, .inr ⟨_, rfl, isOptional_orNone _⟩, .inr ⟨_, rfl, ht⟩,
      .inr ⟨_, rfl, isOptional_number hr hu⟩, .inr ⟨_, rfl, isOptional_number hr hg⟩,
      .inr ⟨_, rfl, isOptional_orNone _⟩, .inr ⟨_, rfl, isOptional_orNone _⟩,
      .inr ⟨_, rfl, isList_texts _⟩, .inr ⟨_, rfl, isList_texts _⟩, .inr ⟨_, rfl, hp⟩,
      .inr ⟨_, rfl, isList_texts _⟩, .inr ⟨_, rfl, hv⟩⟩

/-! ## C75 -/

/-- C75: a document without meaning is refused. -/
theorem C75_refused {n : Node} (h : ∀ c, ¬ IsConfig r n c) : Decode.config r ord n = none := by
  cases hc : Decode.config r ord n with
  | none => rfl
  | some c => exact absurd (C74_sound hc) (h c)

/-- C75: a configuration file without `programs`, or with several, is refused. -/
theorem C75_programs {l : List (Node × Node)} {kl : List (Str × Node)}
    (hm : IsMapping (.map l) kl) (h : (valuesOf kl "programs").length ≠ 1) :
    Decode.config r ord (.map l) = none := by
  refine C75_refused fun c hc => ?_
  rcases hc with ⟨kl', h1, n, h2, -⟩ | ⟨ns, e, -⟩
  · rw [← isMapping_iff] at h1 hm
    rw [hm] at h1
    cases h1
    rw [h2] at h
    exact h rfl
  · cases e

/-- The values allowed for a key of a program. -/
def Allowed (r : Reading) (key : String) (n : Node) : Prop :=
  (key ∈ ["name"] → ∃ t, IsText n t) ∧
  (key ∈ ["path", "workdir", "user", "group"] → ∃ t, IsOptional r IsText n t) ∧
  (key ∈ ["args", "before", "after", "capabilities"] → ∃ l, IsList IsText n l) ∧
  (key ∈ ["uid", "gid"] → ∃ v, IsOptional r (IsNumber r) n v) ∧
  (key = "type" → ∃ t, IsType r n t) ∧ (key = "pty" → ∃ b, IsFlag r n b) ∧
  (key = "env" → ∃ e, IsList (IsVariables r) n e)

theorem HasFields.allowed {l : List (Str × Node)} {c : ProcessConfig} (h : HasFields r l c)
    {k : String} {n : Node} (hn : (k.toList, n) ∈ l) : Allowed r k n := by
  have hg : n ∈ valuesOf l k := by
    simp only [valuesOf, List.mem_map, List.mem_filter, decide_eq_true_eq]
    exact ⟨_, ⟨hn, rfl⟩, rfl⟩
  have req : ∀ {k' : String} {α : Type} {P : Node → α → Prop} {a : α}, k = k' →
      Required l k' P a → ∃ a, P n a := by
    rintro k' α P a rfl ⟨n', h1, h2⟩
    rw [h1, List.mem_singleton] at hg
    exact ⟨a, hg ▸ h2⟩
  have dfl : ∀ {k' : String} {α : Type} {P : Node → α → Prop} {d a : α}, k = k' →
      Defaulted l k' P d a → ∃ a, P n a := by
    rintro k' α P d a rfl (⟨h1, -⟩ | h1)
    · rw [h1] at hg; cases hg
    · exact req rfl h1
  simp only [Allowed, List.mem_cons, List.not_mem_nil, or_false]
  refine ⟨fun e => req e h.name, ?_, ?_, ?_, fun e => dfl e h.type, fun e => dfl e h.pty,
    fun e => dfl e h.env⟩
  · rintro (e | e | e | e)
    · exact dfl e h.path
    · exact dfl e h.workdir
    · exact dfl e h.user
    · exact dfl e h.group
  · rintro (e | e | e | e)
    · exact dfl e h.args
    · exact dfl e h.before
    · exact dfl e h.after
    · exact dfl e h.capabilities
  · rintro (e | e)
    · exact dfl e h.uid
    · exact dfl e h.gid

theorem HasFields.once {l : List (Str × Node)} {c : ProcessConfig} (h : HasFields r l c)
    {k : String} (hk : k ∈ programKeys) : (valuesOf l k).length ≤ 1 := by
  have req : ∀ {k' : String} {α : Type} {P : Node → α → Prop} {a : α},
      Required l k' P a → (valuesOf l k').length ≤ 1 := by
    rintro k' α P a ⟨n', h1, h2⟩
    rw [h1]
    exact Nat.le_refl 1
  have dfl : ∀ {k' : String} {α : Type} {P : Node → α → Prop} {d a : α},
      Defaulted l k' P d a → (valuesOf l k').length ≤ 1 := by
    rintro k' α P d a (⟨h1, -⟩ | h1)
    · rw [h1]; exact Nat.zero_le 1
    · exact req h1
  simp only [programKeys, List.mem_cons, List.not_mem_nil, or_false] at hk
  rcases hk with rfl | rfl | rfl | rfl | rfl | rfl | rfl | rfl | rfl | rfl | rfl | rfl | rfl | rfl
  · exact req h.name
  · exact dfl h.path
  · exact dfl h.args
  · exact dfl h.workdir
  · exact dfl h.type
  · exact dfl h.uid
  · exact dfl h.gid
  · exact dfl h.user
  · exact dfl h.group
  · exact dfl h.before
  · exact dfl h.after
  · exact dfl h.pty
  · exact dfl h.capabilities
  · exact dfl h.env

/-- C75: a program without a name, with a key given twice, or with a value of the wrong kind is
refused. -/
theorem C75_program {l : List (Node × Node)} {kl : List (Str × Node)}
    (hm : IsMapping (.map l) kl)
    (h : valuesOf kl "name" = [] ∨ (∃ k ∈ programKeys, 2 ≤ (valuesOf kl k).length) ∨
      ∃ k n, (String.toList k, n) ∈ kl ∧ ¬ Allowed r k n) :
    Decode.program r ord (.map l) = none := by
  cases hc : Decode.program r ord (.map l) with
  | none => rfl
  | some c =>
    rcases program_sound hc with ⟨kl', h1, hf⟩ | ⟨ns, e, -⟩
    · rw [← isMapping_iff] at h1 hm
      rw [hm] at h1
      cases h1
      rcases h with h | ⟨k, hk, h⟩ | ⟨k, n, hn, h⟩
      · obtain ⟨n, h1, -⟩ := hf.name
        rw [h] at h1
        cases h1
      · have := HasFields.once hf hk
        omega
      · exact absurd (HasFields.allowed hf hn) h
    · cases e

/-- C75: one such program makes the whole document be refused. -/
theorem C75_whole {l : List (Node × Node)} {kl : List (Str × Node)}
    (hm : IsMapping (.map l) kl) {ns : List Node} (hp : valuesOf kl "programs" = [.seq ns])
    {n : Node} (hn : n ∈ ns) (h : Decode.program r ord n = none) :
    Decode.config r ord (.map l) = none := by
  refine C75_refused fun c hc => ?_
  rcases hc with ⟨kl', h1, n', h2, h3⟩ | ⟨ns, e, -⟩
  · rw [← isMapping_iff] at h1 hm
    rw [hm] at h1
    cases h1
    rw [hp] at h2
    cases h2
    rcases h3 with ⟨ns', e, h3⟩ | ⟨e, -⟩
    · cases e
      have mem : ∀ {l : List Node} {bs : List ProcessConfig}, List.Forall₂ (IsProgram r) l bs →
          n ∈ l → ∃ b, IsProgram r n b := by
        intro l bs hl
        induction hl with
        | nil => exact fun h => (by cases h)
        | cons h1 _ ih =>
          intro h
          rcases List.mem_cons.mp h with rfl | h
          · exact ⟨_, h1⟩
          · exact ih h
      obtain ⟨c, hcn⟩ := mem h3 hn
      obtain ⟨c', h4, -⟩ := program_complete (ord := ord) hcn
      rw [h] at h4
      cases h4
    · cases e
  · cases e

/-- C75: cinit ends with code 1 before doing anything if some file is refused. -/
theorem C75_run {x : Machine} {parse : Str → Option Node}
    (hy : x.yaml = Decode.yaml parse r ord) (hb : ¬ HasBadName x.tree)
    (hc : ¬ Refused x.release x.uid) {p : List Nat} {file : Str} (hf : FileAt x.tree p file)
    (h : ∀ n, parse file = some n → ∀ c, ¬ IsConfig r n c) : run x = .exited 1 [] := by
  have : x.yaml file = none := by
    rw [hy]
    unfold Decode.yaml
    cases hn : parse file with
    | none => rfl
    | some n => exact C75_refused (h n hn)
  have := (C06_failure_partial (yaml := x.yaml) (ord := x.mergeOrder) hb).1 (.inr ⟨p, file, hf, this⟩)
  unfold run orExit
  rcases C50_checks x.release x.uid with ⟨-, h2⟩ | ⟨h1, -⟩
  · exact absurd h2 hc
  · rw [h1]
    simp only
    rw [this]

/-- C75: whatever else is wrong, nothing happens if some file is refused. -/
theorem C75_nothing {x : Machine} {parse : Str → Option Node}
    (hy : x.yaml = Decode.yaml parse r ord) {p : List Nat} {file : Str} (hf : FileAt x.tree p file)
    (h : ∀ n, parse file = some n → ∀ c, ¬ IsConfig r n c) :
    run x = .exited 1 [] ∨ (run x = .exited 5 [] ∧ Refused x.release x.uid) ∨
      (run x = .aborted .invalidUtf8 [] ∧ HasBadName x.tree) := by
  by_cases hc : Refused x.release x.uid
  · refine .inr (.inl ⟨?_, hc⟩)
    unfold run orExit
    rcases C50_checks x.release x.uid with ⟨h1, -⟩ | ⟨-, h2⟩
    · rw [h1]
    · exact absurd hc h2
  by_cases hb : HasBadName x.tree
  · have : x.yaml file = none := by
      rw [hy]
      unfold Decode.yaml
      cases hn : parse file with
      | none => rfl
      | some n => exact C75_refused (h n hn)
    have := C06_refused (yaml := x.yaml) (ord := x.mergeOrder) (.inr ⟨p, file, hf, this⟩)
    unfold run orExit
    rcases C50_checks x.release x.uid with ⟨-, h2⟩ | ⟨h1, -⟩
    · exact absurd h2 hc
    · rw [h1]
      rcases this with e | e
      · exact .inl (by simp only [e])
      · exact .inr (.inr ⟨by simp only [e], hb⟩)
  · exact .inl (C75_run hy hb hc hf h)

/-! ## C76 -/

/-- C76: keys that mean nothing are refused. -/
def C76_statement : Prop :=
  ∀ (r : Reading) (ord : HashOrder) (l : List (Node × Node)) (kl : List (Str × Node)),
    IsMapping (.map l) kl → (∃ e ∈ kl, ∀ k ∈ programKeys, e.1 ≠ k.toList) →
    Decode.program r ord (.map l) = none

/-- C76: instead they are ignored, wherever they are and whatever their value is. -/
theorem C76_ignored_partial {front back : List (Node × Node)} {kn v : Node} {k : Str}
    (hk : IsText kn k) (hu : ∀ key ∈ programKeys, k ≠ key.toList) :
    Decode.program r ord (.map (front ++ (kn, v) :: back)) =
      Decode.program r ord (.map (front ++ back)) := by
  have hf : Decode.Field.of k = .unknown := by
    cases hf : Decode.Field.of k with
    | unknown => rfl
    | _ =>
      rw [Field.of_iff k (by simp)] at hf
      exact absurd hf (hu _ (by simp [programKeys, Field.key]))
  have key : ∀ s, Decode.slots r ord s (front ++ (kn, v) :: back) =
      Decode.slots r ord s (front ++ back) := by
    induction front with
    | nil =>
      intro s
      show (Decode.text kn).bind _ = Decode.slots r ord s back
      rw [text_iff.mpr hk]
      simp only [Option.bind_some, hf, Decode.slot]
    | cons e front ih =>
      intro s
      obtain ⟨k', v'⟩ := e
      show Decode.slots r ord s ((k', v') :: (front ++ (kn, v) :: back)) =
        Decode.slots r ord s ((k', v') :: (front ++ back))
      unfold Decode.slots
      simp only [ih]
  show (Decode.slots r ord {} _).bind _ = (Decode.slots r ord {} _).bind _
  rw [key]

/-- The value of decimal digits. -/
def digits (acc : Nat) (s : Str) : Nat := s.foldl (fun a c => a * 10 + (c.toNat - 48)) acc

theorem digits_showNat (n : Nat) : digits 0 (showNat n) = n := by
  have hd : ∀ d < 10, (Char.ofNat (48 + d)).toNat - 48 = d := by decide
  have key : ∀ fuel n acc, n < fuel → digits 0 (showNatAux fuel n acc) = digits n acc := by
    intro fuel
    induction fuel with
    | zero => exact fun _ _ h => absurd h (Nat.not_lt_zero _)
    | succ fuel ih =>
      intro n acc h
      have hm : n % 10 < 10 := Nat.mod_lt _ (by decide)
      unfold showNatAux
      simp only
      split
      · show digits (0 * 10 + ((Char.ofNat (48 + n % 10)).toNat - 48)) acc = _
        rw [hd _ hm]
        congr 1
        omega
      · rw [ih _ _ (by omega)]
        show digits (n / 10 * 10 + ((Char.ofNat (48 + n % 10)).toNat - 48)) acc = _
        rw [hd _ hm]
        congr 1
        omega
  exact key _ _ _ (Nat.lt_succ_self n)

/-- A reading of scalars as in YAML. -/
def sampleReading : Reading where
  null s := s = "~".toList ∨ s = "null".toList
  bool s := if s = "true".toList then some true else if s = "false".toList then some false else none
  int s := if showNat (digits 0 s) = s ∧ digits 0 s < 2 ^ 32 then some (digits 0 s) else none
  int_lt := by
    intro s n h
    split at h
    · cases h; exact And.right (by assumption)
    · cases h
  listedProgram _ := none
  listedConfig _ := none

/-- `Usual` is satisfiable. -/
theorem sampleReading_usual : Usual sampleReading where
  int n h := by
    show (if _ then some _ else none) = _
    rw [digits_showNat, if_pos ⟨rfl, h⟩]
  int_null n := by
    show decide (_ ∨ _) = false
    rw [decide_eq_false_iff_not]
    rintro (h | h)
    · have := congrArg (digits 0) h
      rw [digits_showNat] at this
      subst this
      exact absurd h (by decide +kernel)
    · have := congrArg (digits 0) h
      rw [digits_showNat] at this
      subst this
      exact absurd h (by decide +kernel)
  true := by decide
  false := by decide

def plain (s : String) : Node := .scalar ⟨s.toList, true⟩

/-- The user is misspelt. -/
def misspelt : List (Node × Node) :=
  [(plain "name", plain "web"), (plain "path", plain "/bin/web"), (plain "usr", plain "nobody")]

/-- C76: so a misspelt key goes unnoticed: this program is executed by root. -/
theorem misspelt_read : Decode.program sampleReading .id (.map misspelt) =
    some { name := "web".toList, path := some "/bin/web".toList } := by decide +kernel

theorem C76_violated : ¬ C76_statement := by
  intro h
  have := h sampleReading .id misspelt
    [("name".toList, plain "web"), ("path".toList, plain "/bin/web"),
     ("usr".toList, plain "nobody")]
    (.inl ⟨_, rfl, .cons ⟨⟨true, rfl⟩, rfl⟩ (.cons ⟨⟨true, rfl⟩, rfl⟩ (.cons ⟨⟨true, rfl⟩, rfl⟩ .nil))⟩)
    ⟨_, List.mem_cons_of_mem _ (List.mem_cons_of_mem _ (List.mem_cons_self ..)), by decide⟩
  rw [misspelt_read] at this
  cases this

/-! ## Witnesses -/

/-- The example of the documentation. -/
def documented : Node :=
  .map [(plain "programs", .seq [.map [
    (plain "name", plain "Some descriptive name"), (plain "path", plain "/the/path"),
    (plain "args", .seq [quoted "-e".toList, quoted "{{ NAME }}_arg".toList]),
    (plain "workdir", plain "/some/path"),
    (plain "type", .map [(plain "cronjob", .map [(plain "timer", plain "1 2 3 4 5")])]),
    (plain "uid", plain "0"), (plain "gid", plain "1000"), (plain "user", plain "root"),
    (plain "group", plain "~"), (plain "before", .seq [plain "other-program"]),
    (plain "after", plain ""), (plain "pty", plain "false"), (plain "capabilities", .seq []),
    (plain "env", .seq [.map [(plain "PWD", quoted "/home/user".toList)],
      .map [(plain "PASSWORD", plain "")],
      .map [(plain "A", plain "1"), (plain "B", plain "2"), (plain "A", plain "~")]])]])]

example : Decode.config sampleReading .id documented = some ⟨[
    { name := "Some descriptive name".toList, path := some "/the/path".toList,
      args := ["-e".toList, "{{ NAME }}_arg".toList], workdir := some "/some/path".toList,
      ptype := .cronJob "1 2 3 4 5".toList, uid := some 0, gid := some 1000,
      user := some "root".toList, group := none, before := ["other-program".toList], after := [],
      emulatePty := false, capabilities := [],
      env := [[("PWD".toList, some "/home/user".toList)], [("PASSWORD".toList, none)],
        [("A".toList, none), ("B".toList, some "2".toList)]] }]⟩ := by decide +kernel

/-- Refused: no name; a list for a path; a key given twice; a number that is none; a cronjob
without timer. -/
example : Decode.program sampleReading .id (.map [(plain "path", plain "/a")]) = none ∧
    Decode.program sampleReading .id
      (.map [(plain "name", plain "a"), (plain "path", .seq [plain "/a"])]) = none ∧
    Decode.program sampleReading .id
      (.map [(plain "name", plain "a"), (plain "path", plain "/a"), (plain "path", plain "/b")]) =
      none ∧
    Decode.program sampleReading .id
      (.map [(plain "name", plain "a"), (plain "uid", quoted "0".toList)]) = none ∧
    Decode.program sampleReading .id
      (.map [(plain "name", plain "a"), (plain "type", plain "cronjob")]) = none := by
  decide +kernel

/-- Witness for `C75_run`: a file that is an empty mapping. -/
example (x : Machine) (hx : x.tree = .file []) (hc : ¬ Refused x.release x.uid)
    (hy : x.yaml = Decode.yaml (fun _ => some (.map [])) sampleReading .id) :
    run x = .exited 1 [] := by
  refine C75_run hy ?_ hc (p := []) (file := []) ?_ ?_
  · rw [hx]; intro h; cases h
  · rw [hx]; constructor
  · intro n hn c hi
    cases hn
    rcases hi with ⟨l, ⟨ns, e, hm⟩ | ⟨e, -⟩, n, h, -⟩ | ⟨ns, e, -⟩
    · cases e
      cases hm
      cases h
    · cases e
    · cases e

end Cinit.Props
