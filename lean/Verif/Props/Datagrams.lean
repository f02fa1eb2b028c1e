import Verif.Model.Datagrams
import Verif.Props.Notify
import Verif.Props.Child
import Verif.Props.Runs
/-!
# C110, C111: what is attached to messages

`sd_pid_notify_with_fds` attaches descriptors and credentials to messages. C110: descriptors do
not change what a message means, and cinit does not keep them. C111: a message only counts as one
of the process that has sent it.
-/

namespace Cinit.Props
open Cinit Spec Datagrams

/-! ## C110 -/

/-- C110 as stated, first half: reading a message has the same outcome whatever is attached to
it. -/
def C110_statement : Prop :=
  ∀ (env : Env) (w : World) (rest : List Answer) (d : Datagram),
    readNotification env { w with answers := arrival d :: rest } =
      readNotification env { w with answers := arrival { d with fds := 0 } :: rest }

/-- C110, second half: no descriptor attached to a message is ever opened in cinit, however many
there are. -/
theorem C110_none_kept (d : Datagram) : (receive controlSpace d).opened = 0 := by
  unfold receive putCreds detachFds controlSpace
  norm_num [header, cmsgSpace, cmsgLen, ucredSize, align]
  split_ifs <;> rfl

private theorem arrival_plain {d : Datagram} (h : d.fds = 0) :
    arrival d = .recv (some (d.bytes.take 4096, some d.creds.pid)) := by
  unfold arrival receive putCreds controlSpace
  norm_num [h, header, cmsgSpace, cmsgLen, ucredSize, align, cmsgs, firstCreds]

private theorem arrival_attached {d : Datagram} (h : 0 < d.fds) :
    arrival d = .recv (some (d.bytes.take 4096, none)) := by
  unfold arrival receive putCreds detachFds controlSpace
  norm_num [h, header, cmsgSpace, cmsgLen, ucredSize, align, cmsgs]

/-- C110, what holds: a message without descriptors is taken from the process its credentials
name, whatever its text says. -/
theorem C110_plain_partial (env : Env) (w : World) (rest : List Answer) {d : Datagram} {text : Str}
    {m : Manager} (hd : d.fds = 0) (hl : d.bytes.length ≤ 4096) (hb : ∀ b ∈ d.bytes, b < 256)
    (hn : d.bytes ≠ []) (ht : sliceToString d.bytes = .ok text)
    (hm : w.mgr.process (env.order (.datagram d.creds.pid text :: .received d.bytes :: w.log)) text
      d.creds.pid = .ok m) :
    readNotification env { w with answers := arrival d :: rest } =
      .ok () { w with mgr := m, answers := rest,
                      log := .datagram d.creds.pid text :: .received d.bytes :: w.log } := by
  rw [arrival_plain hd, List.take_of_length_le hl]
  have hn' : d.bytes.isEmpty = false := by
    cases h : d.bytes with
    | nil => exact absurd h hn
    | cons => rfl
  simp only [readNotification, readSocket, Sys.recv, Sys.call, Bind.bind, M.bind, hl, true_and]
  rw [if_pos hb]
  simp [M.emit, hn', ht, M.lift, M.pure, M.get, M.bind, M.modifyMgr, hm]

/-- C110, what is missing: a message with descriptors is read and then ignored: nothing changes
but the history, in which its sender does not occur. -/
theorem C110_ignored_partial (env : Env) (w : World) (rest : List Answer) {d : Datagram}
    {text : Str} (hd : 0 < d.fds) (hl : d.bytes.length ≤ 4096) (hb : ∀ b ∈ d.bytes, b < 256)
    (hn : d.bytes ≠ []) (ht : sliceToString d.bytes = .ok text) :
    readNotification env { w with answers := arrival d :: rest } =
      .ok () { w with answers := rest, log := .unsigned :: .received d.bytes :: w.log } := by
  rw [arrival_attached hd, List.take_of_length_le hl]
  have hn' : d.bytes.isEmpty = false := by
    cases h : d.bytes with
    | nil => exact absurd h hn
    | cons => rfl
  simp only [readNotification, readSocket, Sys.recv, Sys.call, Bind.bind, M.bind, hl, true_and]
  rw [if_pos hb]
  simp [M.emit, hn', ht, M.lift, M.pure, M.bind]

/-- A notify program and one depending on it. -/
def heralds : Config := ⟨[prog 'a' .notify [['b']], prog 'b' .oneshot]⟩

/-- Program 0 says `READY=1` with a number of descriptors attached. -/
def herald (fds : Nat) : Datagram := ⟨bytes "READY=1", ⟨10, 33, 33⟩, fds⟩

def heraldAnswers (fds : Nat) : List Answer :=
  [.setup true, .fork (some (10, 20, 21)), .epollAdd true, .epollAdd true, .now 30,
   .epoll (some [⟨5, true, false⟩]), arrival (herald fds), .wait .alive,
   .fork (some (11, 22, 23)), .epollAdd true, .epollAdd true, .now 61]

private def heraldBefore : Log :=
  [.received (bytes "READY=1"), .ready ⟨5, true, false⟩, .polled [⟨5, true, false⟩], .polling,
   .clock 30, .watched 21 true, .watched 20 true, .spawned 0 10 20 21]

/-- Without descriptors the dependant is started. -/
theorem herald_plain : Ends (machine (heraldAnswers 0)) heralds
    (.unfinished (.polling :: .clock 61 :: .watched 23 true :: .watched 22 true ::
      .spawned 1 11 22 23 :: .reaped :: .datagram 10 "READY=1".toList :: heraldBefore)) :=
  Res.of_check (by decide +kernel)

/-- With one it is not: cinit does not ask for a fork. -/
theorem herald_attached : Ends (machine (heraldAnswers 1)) heralds
    (.unfinished (.reaped :: .unsigned :: heraldBefore)) :=
  Res.of_check (by decide +kernel)

/-- C110 is false: the dependants of a program that attaches a descriptor to `READY=1` are not
started (`herald_attached`). -/
theorem C110_violated : ¬ C110_statement := by
  intro h
  obtain ⟨m, -, -⟩ := herald_plain
  let w : World := { mgr := { m with pidDict := [] }, kernel := { fds := [] }, answers := [] }
  have h1 := h (machine []).env w [] (herald 1)
  rw [C110_ignored_partial (text := "READY=1".toList) (machine []).env w [] (by decide) (by decide)
    (by decide) (by decide) (by decide +kernel), C110_plain_partial (m := w.mgr)
    (text := "READY=1".toList) (machine []).env w [] (by decide) (by decide)
    (by decide) (by decide) (by decide +kernel) (C38_no_effect _ _ _ _ fun i hi => by cases hi)] at h1
  injection h1 with _ h1
  injection h1 with _ _ _ h1
  cases h1

/-! ## C111 -/

/-- C111 as stated: whatever an executed program sends, with whatever attached to it, cinit takes
it as a message of no other process. -/
def C111_statement : Prop :=
  ∀ (ord : HashOrder) (reason : Str) (desc : Nat → Str) (disk : Child.Disk) (p : Process)
    (stdout stderr : Nat) (s s' : Child.Proc) (image : Child.Image),
    Child.run ord reason desc disk p stdout stderr s = .executed image s' →
    image.file = .plain → ∀ (alive : Int → Bool) (pid : Int) (m : Sending) (d : Datagram)
      (bytes : List Nat) (q : Int), send alive ⟨pid, image.cred⟩ m = some d →
      arrival d = .recv (some (bytes, some q)) → q = pid

private theorem arrival_sender {d : Datagram} {bytes : List Nat} {q : Int}
    (h : arrival d = .recv (some (bytes, some q))) : q = d.creds.pid ∧ d.fds = 0 := by
  by_cases hd : d.fds = 0
  · rw [arrival_plain hd] at h
    cases h
    exact ⟨rfl, hd⟩
  · rw [arrival_attached (Nat.pos_of_ne_zero hd)] at h
    cases h

private theorem send_creds {alive : Int → Bool} {s : Sender} {m : Sending} {d : Datagram}
    (h : send alive s m = some d) :
    d.creds.pid = s.pid ∨ s.cred.effective 21 = true ∧ alive d.creds.pid = true := by
  unfold send at h
  split_ifs at h
  cases hc : m.claim with
  | none => rw [hc] at h; cases h; exact .inl rfl
  | some c =>
    rw [hc] at h
    simp only at h
    split_ifs at h with hk
    cases h
    rcases hk with ⟨⟨h1, -⟩, h2⟩
    rcases h1 with h1 | h1
    · exact .inl h1
    · rcases h2 with h2 | h2
      · exact .inl h2
      · exact .inr ⟨h1, h2⟩

/-- C111, exactly as whose messages those of a process can be taken: as its own, and as those of
every other process if it has CAP_SYS_ADMIN (21). -/
theorem C111_exact_partial (alive : Int → Bool) (s : Sender) (q : Int) :
    (∃ m d bytes, send alive s m = some d ∧ arrival d = .recv (some (bytes, some q))) ↔
      q = s.pid ∨ s.cred.effective 21 = true ∧ alive q = true := by
  constructor
  · rintro ⟨m, d, bytes, hs, ha⟩
    obtain ⟨rfl, -⟩ := arrival_sender ha
    exact send_creds hs
  · intro h
    refine ⟨⟨[], some ⟨q, s.cred.ruid, s.cred.rgid⟩, 0⟩, ⟨[], ⟨q, s.cred.ruid, s.cred.rgid⟩, 0⟩, [],
      ?_, arrival_plain rfl⟩
    unfold send
    simp only [Nat.not_lt_zero, if_false]
    rw [if_pos]
    unfold MayClaim
    rcases h with rfl | ⟨h1, h2⟩
    · simp
    · exact ⟨⟨.inr h1, .inl rfl, .inl rfl⟩, .inr h2⟩

/-- C111, what holds: a program of a user other than root, without CAP_SYS_ADMIN among its
capabilities, can only speak for itself. -/
theorem C111_ordinary_partial {ord : HashOrder} {reason : Str} {desc : Nat → Str} {disk : Child.Disk}
    {p : Process} {stdout stderr : Nat} {s s' : Child.Proc} {image : Child.Image}
    (h : Child.run ord reason desc disk p stdout stderr s = .executed image s')
    (hf : image.file = .plain) (hu : p.uid ≠ 0) (hc : configured p.capabilities 21 = false)
    {alive : Int → Bool} {pid : Int} {m : Sending} {d : Datagram} {bytes : List Nat} {q : Int}
    (hs : send alive ⟨pid, image.cred⟩ m = some d)
    (ha : arrival d = .recv (some (bytes, some q))) : q = pid := by
  obtain ⟨rfl, -⟩ := arrival_sender ha
  rcases send_creds hs with h1 | ⟨h1, -⟩
  · exact h1
  · have := (C48_credentials h hf hu).2.2.2.2.2.2.2.2.1
    simp only [this, hc] at h1
    cases h1

/-- C111: whatever a process without CAP_SYS_ADMIN sends that is not the main process of a
program of type notify, cinit remains as it is, unless it aborts (C47). -/
theorem C111_harmless {alive : Int → Bool} {s : Sender} {m : Sending} {d : Datagram} {env : Env}
    {w w' : World} {rest : List Answer} (hc : s.cred.effective 21 = false)
    (hs : send alive s m = some d)
    (hn : ∀ i, w.mgr.pidDict.get? s.pid = some i →
      ∃ p, w.mgr.procs[i]? = some p ∧ p.ptype ≠ .notify)
    (h : readNotification env { w with answers := arrival d :: rest } = .ok () w') :
    w'.mgr = w.mgr ∧ w'.kernel = w.kernel := by
  have hp : d.creds.pid = s.pid := by
    rcases send_creds hs with h1 | ⟨h1, -⟩
    · exact h1
    · rw [hc] at h1; cases h1
  by_cases hd : d.fds = 0
  · rw [arrival_plain hd, hp] at h
    simp only [readNotification, readSocket, Sys.recv, Sys.call, Bind.bind, M.bind] at h
    split_ifs at h with hb
    · cases he : (d.bytes.take 4096).isEmpty
      · cases ht : sliceToString (d.bytes.take 4096) with
        | ok t =>
          simp [M.emit, he, ht, M.lift, M.pure, M.get, M.bind, M.modifyMgr,
            C38_no_effect _ w.mgr t s.pid hn] at h
          cases h
          exact ⟨rfl, rfl⟩
        | err e => exact e.elim
        | panic q => simp [M.emit, he, ht, M.lift, M.fail, M.bind] at h
      · simp [M.emit, he, M.fail, M.bind] at h

  · rw [arrival_attached (Nat.pos_of_ne_zero hd)] at h
    simp only [readNotification, readSocket, Sys.recv, Sys.call, Bind.bind, M.bind] at h
    split_ifs at h with hb
    · cases he : (d.bytes.take 4096).isEmpty
      · cases ht : sliceToString (d.bytes.take 4096) with
        | ok t =>
          simp [M.emit, he, ht, M.lift, M.pure, M.bind] at h
          cases h
          exact ⟨rfl, rfl⟩
        | err e => exact e.elim
        | panic q => simp [M.emit, he, ht, M.lift, M.fail, M.bind] at h
      · simp [M.emit, he, M.fail, M.bind] at h


/-- C111 is false: programs are those of root unless a user is given, and root has
CAP_SYS_ADMIN. -/
theorem C111_violated : ¬ C111_statement := by
  intro h
  obtain ⟨im, s', hr⟩ : ∃ image s', Child.run .id [] (fun _ => []) (webDisk .plain)
      { web with uid := 0, capabilities := [] } 6 8 (child (List.replicate 26 none)) =
        .executed image s' :=
    C48_available (fun a h => (List.mem_replicate.mp h).2) (by decide) (rootCred_fit _)
      (by decide) (by decide) (by decide) (by decide) (by decide) fun c hc => ⟨web.path, .plain, by
        rw [C82_slash (by decide)]
        exact ⟨rfl, webDisk_runs rfl (.inr hc.user.2.1)⟩⟩
  have hf := (webDisk_file hr).2
  have hc := C65_exact_partial hr hf 21
  have hc' : im.cred.effective 21 = true := by
    rw [hc.2, hc.1]
    decide
  obtain ⟨m, d, b, h1, h2⟩ := (C111_exact_partial (fun _ => true) ⟨31, im.cred⟩ 10).mpr
    (.inr ⟨hc', rfl⟩)
  exact absurd (h _ _ _ _ _ _ _ _ _ _ hr hf _ _ _ _ _ _ h1 h2) (by decide)

/-- The hypotheses of `C111_ordinary_partial` are met by a web server of user 33 with the
capability to bind ports. -/
example : ∃ image s', Child.run .id [] (fun _ => []) (webDisk .plain) web 6 8
      (child (List.replicate 26 none)) = .executed image s' ∧ image.file = .plain ∧ web.uid ≠ 0 ∧
      configured web.capabilities 21 = false ∧
      send (fun _ => true) ⟨10, image.cred⟩ { bytes := bytes "READY=1" } =
        some ⟨bytes "READY=1", ⟨10, web.uid, web.gid⟩, 0⟩ ∧
      send (fun _ => true) ⟨10, image.cred⟩ ⟨bytes "READY=1", some ⟨11, 33, 33⟩, 0⟩ = none := by
  obtain ⟨im, s', hr⟩ := web_runs
  have hf := (webDisk_file hr).2
  have hc := C48_credentials hr hf (by decide)
  have h21 : configured web.capabilities 21 = false := by decide +kernel
  refine ⟨im, s', hr, hf, by decide, h21, ?_, ?_⟩
  · simp only [send, Nat.not_lt_zero, if_false, hc.1, hc.2.2.2.1]
  · simp only [send, Nat.not_lt_zero, if_false]
    rw [if_neg]
    rintro ⟨⟨h1 | h1, -⟩, -⟩
    · cases h1
    · rw [hc.2.2.2.2.2.2.2.2.1, capSysAdmin, h21] at h1
      cases h1

end Cinit.Props
