import Verif.Proofs.Toposort
import Verif.Props.ProcessBuilder
import Verif.Props.Document
import Verif.Model.CronSched
import Verif.Model.Prologue
import Verif.Model.Manager
import Verif.Spec.Clocks
/-!
# The unit tests of cinit, carried out on the model

These are tests of the model, not properties of cinit: what the authors of the code expect of it,
literally, in the order of their files. Only `rescuing_works`, which compares the addresses of two
buffers, is about the value instead.
-/

namespace Cinit.Checks

open Cinit DepMgr

/-! ## cronjob.rs:383-610: parsing -/

/-- `parse_element`, with the text of the error. -/
def element (input : Option String) (min max : Nat) : Res Str (List Nat) :=
  (parseElement (input.map String.toList) min max).mapErr Heralded.timerText

/-- `parse_star` -/
example : element (some "*") 5 8 = .ok [5, 6, 7, 8] := by decide +kernel

/-- `parse_single_number` -/
example : element (some "4") 0 99 = .ok [4] := by decide +kernel

/-- `parse_interval` -/
example : element (some "4-6") 0 99 = .ok [4, 5, 6] := by decide +kernel

/-- `parse_interval_with_stepping` -/
example : element (some "1-15/3") 0 99 = .ok [1, 4, 7, 10, 13] := by decide +kernel

/-- `parse_star_with_stepping` -/
example : element (some "*/3") 0 11 = .ok [0, 3, 6, 9] := by decide +kernel

/-- `parse_enum` -/
example : element (some "4,8,16,32,64") 0 99 = .ok [4, 8, 16, 32, 64] := by decide +kernel

/-- `parse_two_intervals` -/
example : element (some "4-6,44-46") 0 99 = .ok [4, 5, 6, 44, 45, 46] := by decide +kernel

/-- `parse_complex` -/
example : element (some "4,77,44-46,3,95-99") 0 99 = .ok [3, 4, 44, 45, 46, 77, 95, 96, 97, 98, 99] := by decide +kernel

/-- `parse_none` -/
example : element none 0 99 = .err "Incomplete timer spec".toList := by decide +kernel

/-- `parse_empty` -/
example : element (some "") 0 99 = .err "Incomplete timer spec".toList := by decide +kernel

/-- `parse_out_of_range` -/
example : element (some "4") 0 3 = .err "Invalid range in timer spec".toList := by decide +kernel

/-- `parse_invalid_interval` -/
example : element (some "4-3") 0 99 = .err "Interval end < begin".toList := by decide +kernel

/-- `parse_interval_out_of_range_right_overlap` -/
example : element (some "2-4") 0 3 = .err "Invalid range in timer spec".toList := by decide +kernel

/-- `parse_interval_out_of_range_complete_right` -/
example : element (some "4-5") 0 3 = .err "Invalid range in timer spec".toList := by decide +kernel

/-- `parse_interval_out_of_range_left_overlap` -/
example : element (some "4-6") 5 7 = .err "Invalid range in timer spec".toList := by decide +kernel

/-- `parse_interval_out_of_range_complete_left` -/
example : element (some "3-4") 5 7 = .err "Invalid range in timer spec".toList := by decide +kernel

/-- `parse_invalid_range` -/
example : element (some "*") 9 7 = .err "Invalid range given".toList := by decide +kernel

/-- `parse_invalid_digit` -/
example : element (some "a") 0 99 = .err "Invalid number".toList := by decide +kernel

/-- `parse_invalid_digit_in_interval` -/
example : element (some "5-a") 0 99 = .err "Invalid number in end of interval".toList := by decide +kernel

/-- `parse_invalid_interval_with_stepping` -/
example : element (some "1-15/x") 0 99 = .err "Invalid step number".toList := by decide +kernel

/-- `parse_invalid_digit_in_enum` -/
example : element (some "5,a") 0 99 = .err "Invalid number".toList := by decide +kernel

/-- `TimerDescription::parse`, with the text of the error. -/
def timer (input : String) : Res Str Timer :=
  (Timer.parse input.toList).mapErr Heralded.timerText

/-- `parse_entire_cron_expression` -/
example : timer "1 2 3 4 5" = .ok ⟨[1], [2], [3], [4], [5]⟩ := by decide +kernel

/-- `parse_entire_cron_expression_with_whitespace` -/
example : timer "1 \n2 \t3   4   5" = .ok ⟨[1], [2], [3], [4], [5]⟩ := by decide +kernel

/-- `parse_too_short_expr` -/
example : timer "1 2 3 4" = .err "Incomplete timer spec".toList := by decide +kernel

/-- `parse_too_long_expr` -/
example : timer "1 2 3 4 5 6" = .err "Too many timer specs".toList := by decide +kernel

/-! ## cronjob.rs:612-787: the next execution -/

/-- 1970-06-15T12:30:00, a Monday, in a zone that is ahead of UTC by `off`. -/
def mockTime (off : Int) : Int := 165 * nsDay + 12 * nsHour + 30 * nsMinute - off

/-- The next execution after `mock_time`, counted from it. -/
def advance (off : Int) (input : String) : Res Str Int :=
  timer input >>= fun s => Cron.lift (s.next (.fixed off) (mockTime off)) >>= fun t =>
    .ok (t - mockTime off)

/-- In UTC, in central Europe and in New York. -/
def everywhere (input : String) (d : Int) : Bool :=
  [0, nsHour, -5 * nsHour].all fun off => advance off input == .ok d

/-- `advance_by_one_minute` -/
example : everywhere "* * * * *" (nsMinute) = true := by decide +kernel

/-- `advance_by_two_minutes` -/
example : everywhere "32 * * * *" (2 * nsMinute) = true := by decide +kernel

/-- `advance_wrap_around_minutes` -/
example : everywhere "29 * * * *" (59 * nsMinute) = true := by decide +kernel

/-- `advance_by_one_hour` -/
example : everywhere "30 * * * *" (nsHour) = true := by decide +kernel

/-- `advance_by_two_hours` -/
example : everywhere "30 14 * * *" (2 * nsHour) = true := by decide +kernel

/-- `advance_wrap_around_hours` -/
example : everywhere "30 11 * * *" (23 * nsHour) = true := by decide +kernel

/-- `advance_by_one_day` -/
example : everywhere "30 12 * * *" (nsDay) = true := by decide +kernel

/-- `advance_by_two_days` -/
example : everywhere "30 12 17 * *" (2 * nsDay) = true := by decide +kernel

/-- `advance_wrap_around_days` -/
example : everywhere "30 12 14 * *" (29 * nsDay) = true := by decide +kernel

/-- `advance_by_one_month` -/
example : everywhere "30 12 15 * *" (30 * nsDay) = true := by decide +kernel

/-- `advance_by_two_months` -/
example : everywhere "30 12 15 8 *" ((30 + 31) * nsDay) = true := by decide +kernel

/-- `advance_wrap_around_months` -/
example : everywhere "30 12 15 6 *" (365 * nsDay) = true := by decide +kernel

/-- `advance_by_one_weekday` -/
example : everywhere "30 12 * * 2" (nsDay) = true := by decide +kernel

/-- `advance_by_two_weekdays` -/
example : everywhere "30 12 * * 3" (2 * nsDay) = true := by decide +kernel

/-- `advance_wrap_around_weekdays` -/
example : everywhere "30 12 * * 0" (6 * nsDay) = true := by decide +kernel

/-- `advance_with_weekday_taking_precedence` -/
example : everywhere "30 12 17 6 2" (nsDay) = true := by decide +kernel

/-- `advance_with_date_taking_precedence` -/
example : everywhere "30 12 16 6 3" (nsDay) = true := by decide +kernel

/-! ## cronjob.rs:789-879: changes of the clock -/

/-- Europe/Zurich around 2025-10-26, the 20387th day: the clock is set back at 1:00 UTC. -/
def zurichAutumn : Zone := .change (20387 * nsDay + nsHour) (2 * nsHour) nsHour

/-- Europe/Zurich around 2025-03-30, the 20177th day: the clock is put forward at 1:00 UTC. -/
def zurichSpring : Zone := .change (20177 * nsDay + nsHour) nsHour (2 * nsHour)

example : civil 20387 = ⟨2025, 10, 26⟩ ∧ civil 20177 = ⟨2025, 3, 30⟩ := by decide +kernel

/-- The next execution at the earliest at the instant `t`. -/
def after (z : Zone) (t : Int) (input : String) : Res Str Int :=
  timer input >>= fun s => Cron.lift (s.next z t)

/-- `fold_schedules_the_next_execution_to_the_earlier_option` -/
example : let t := 20387 * nsDay - 2 * nsHour
    after zurichAutumn t "30 2 * * *" = .ok (t + 2 * nsHour + 30 * nsMinute) := by decide +kernel

/-- `gap_schedules_the_next_execution_after_the_gap` -/
example : let t := 20177 * nsDay - nsHour
    after zurichSpring t "30 2 * * *" = .ok (t + 2 * nsHour) := by decide +kernel

/-- `gap_in_three_days_schedules_the_next_execution_after_the_gap` -/
example : let t := 20174 * nsDay - nsHour
    after zurichSpring t "30 2 30 * *" = .ok (t + 2 * nsHour + 3 * nsDay) := by decide +kernel

/-- `next_execution_after_gap_is_not_in_the_past` -/
example : after zurichSpring (20177 * nsDay + 13 * nsHour) "30 2,14 * * *" =
    .ok (20178 * nsDay + 30 * nsMinute) := by decide +kernel

/-! ## cronjob.rs:904-927 -/

/-- `cronjobs_at_same_time_are_both_executed` -/
example : (timer "* * * * *" >>= fun s =>
      Cron.lift (Cron.popRunnable (.fixed 0) ⟨[(1, s), (2, s)],
        [(mockTime 0 - 2 * nsMinute, 2), (mockTime 0 - nsMinute, 1)]⟩ (mockTime 0)) >>= fun r =>
      Cron.lift (Cron.popRunnable (.fixed 0) r.2 (mockTime 0)) >>= fun q =>
      .ok (r.1, q.1, q.2.timer.length)) = .ok (some 2, some 1, 2) := by decide +kernel

/-! ## config/mod.rs:235-451 -/

/-- `get_default_config` -/
def default' (name : String) : ProcessConfig := { name := name.toList, path := some "test".toList }

/-- A drop-in for it. -/
def dropin : ProcessConfig := { default' "test" with path := none }

/-- The text `forbidden`. -/
def forbidden : Option Str := some "forbidden".toList

/-- `merging_different_name_causes_panic` -/
example : ∃ p, (default' "test").merge (default' "test2") = .panic p := ⟨_, rfl⟩

/-- `merging_with_two_paths_gives_error` -/
example : (default' "test").merge { default' "test" with path := forbidden } =
    .err (.pathSpecified "test".toList) := by decide +kernel

/-- `merging_with_workdir_gives_error` -/
example : { default' "test" with workdir := forbidden }.merge { dropin with workdir := forbidden } =
    .err (.invalidFieldSpecified "test".toList .workdir) := by decide +kernel

/-- `merging_with_uid_gives_error` -/
example : { default' "test" with uid := some 1 }.merge { dropin with uid := some 1 } =
    .err (.invalidFieldSpecified "test".toList .uid) := by decide +kernel

/-- `merging_with_gid_gives_error` -/
example : { default' "test" with gid := some 1 }.merge { dropin with gid := some 1 } =
    .err (.invalidFieldSpecified "test".toList .gid) := by decide +kernel

/-- `merging_with_user_gives_error` -/
example : { default' "test" with user := forbidden }.merge { dropin with user := forbidden } =
    .err (.invalidFieldSpecified "test".toList .user) := by decide +kernel

/-- `merging_with_group_gives_error` -/
example : { default' "test" with group := forbidden }.merge { dropin with group := forbidden } =
    .err (.invalidFieldSpecified "test".toList .group) := by decide +kernel

/-- `merging_with_cronjob_gives_error` -/
example : (default' "test").merge { dropin with ptype := .cronJob [] } =
    .err (.cronjobSpecified "test".toList) := by decide +kernel

/-- `relevant_lists_are_merged_and_pruned` -/
example : let list : List Str := [['1'], ['2']]
    let add (c : ProcessConfig) : ProcessConfig :=
      { c with before := list, after := list, capabilities := list, args := list, env := [[]] }
    ∃ merged, (add (default' "test")).merge (add dropin) = .ok merged ∧
      merged.env.length = 2 ∧ merged.args = [['1'], ['2'], ['1'], ['2']] ∧ merged.before = list ∧
      merged.after = list ∧ merged.capabilities = list :=
  ⟨_, rfl, by decide +kernel⟩

/-- `args_of_primary_are_kept_first` -/
example : ∃ merged, { default' "test" with args := [['2']] }.merge { dropin with args := [['1']] } =
    .ok merged ∧ merged.args = [['2'], ['1']] := ⟨_, rfl, by decide +kernel⟩

/-- `args_of_primary_are_kept_first_with_reverse_arguments` -/
example : ∃ merged, { dropin with args := [['1']] }.merge { default' "test" with args := [['2']] } =
    .ok merged ∧ merged.args = [['2'], ['1']] := ⟨_, rfl, by decide +kernel⟩

/-! ## config_parser.rs:164-284, from the documents on -/

/-- A scalar without quotes. -/
def plain (s : String) : Node := .scalar ⟨s.toList, true⟩

/-- The entry of a mapping. -/
def entry (k : String) (v : Node) : Node × Node := (plain k, v)

/-- A document with one program. -/
def document (l : List (Node × Node)) : Node := .map [entry "programs" (.seq [.map l])]

/-- `parse_raw_config` for one document -/
def parsed (l : List (Node × Node)) : Res Int Config :=
  parseRawConfig (fun _ => Decode.config Props.sampleReading .id (document l)) [[]]

/-- `parse_single_program` -/
example : parsed [entry "name" (plain "test"), entry "path" (plain "/some/path"), entry "args" (.seq []),
      entry "workdir" (plain "/hello/path"), entry "type" (plain "oneshot"), entry "uid" (plain "3"),
      entry "gid" (plain "1"), entry "user" (plain "root"), entry "group" (plain "group"),
      entry "before" (.seq [plain "ever"]), entry "after" (.seq [plain "after"]),
      entry "emulate_pty" (plain "false"), entry "capabilities" (.seq [plain "some"]),
      entry "env" (.seq [.map [entry "key" (plain "value")], .map [entry "empty_key" (plain "")]])] =
    .ok ⟨[{
      name := "test".toList, path := some "/some/path".toList, args := [],
      workdir := some "/hello/path".toList, ptype := .oneshot, uid := some 3, gid := some 1,
      user := some "root".toList, group := some "group".toList, before := ["ever".toList],
      after := ["after".toList], emulatePty := false, capabilities := ["some".toList],
      env := [[("key".toList, some "value".toList)], [("empty_key".toList, none)]] }]⟩ := by
  decide +kernel

/-- `parse_omitting_all_optional_values` -/
example : parsed [entry "name" (plain "test"), entry "path" (plain "/path")] =
    .ok ⟨[{
      name := "test".toList, path := some "/path".toList, args := [], workdir := none,
      ptype := .oneshot, uid := none, gid := none, user := none, group := none, before := [],
      after := [], emulatePty := false, capabilities := [], env := [] }]⟩ := by
  decide +kernel

/-- `parse_cronjob` -/
example : parsed [entry "name" (plain "test"), entry "path" (plain "/path"),
      entry "type" (.map [entry "cronjob" (.map [entry "timer" (plain "1 2 3 4 5")])])] =
    .ok ⟨[{
      name := "test".toList, path := some "/path".toList,
      ptype := .cronJob "1 2 3 4 5".toList }]⟩ := by
  decide +kernel

/-! ## dependency_graph.rs:269-371, for two orders of the hash maps -/

/-- `ProcessConfig::new` -/
def node (name : String) (before after : List String) : ProcessConfig :=
  { name := name.toList, path := some [], before := before.map String.toList,
    after := after.map String.toList }

/-- `with_nodes`, followed by the steps of a test -/
def graph (ps : List ProcessConfig) (steps : DepMgr → Res DepError Bool) : Bool :=
  [HashOrder.id, .rev].all fun ord =>
    (withNodes .warshall ord (enumerate ps) >>= steps) == .ok true

/-- The next program that can be started. -/
def pop (d : DepMgr) (f : Option Nat → DepMgr → Res DepError Bool) : Res DepError Bool :=
  f d.popRunnable.1 d.popRunnable.2

/-- `single_runnable_process` -/
example : graph [node "first" [] []] (fun d => pop d fun i d' => pop d' fun j _ =>
    .ok (d.hasRunnables && i == some 0 && !d'.hasRunnables && j == none)) = true := by decide +kernel

/-- `cyclic_dependency` -/
example : [HashOrder.id, .rev].all (fun ord =>
    let uut := withNodes .warshall ord
      (enumerate [node "first" ["second"] [], node "second" ["first"] []])
    uut == .err (.cycle 0) || uut == .err (.cycle 1)) = true := by decide +kernel

/-- `duplicate_name` -/
example : ∃ p, withNodes .warshall .id (enumerate [node "first" [] [], node "first" [] []]) =
    .panic p := ⟨_, rfl⟩

/-- `dependants_are_marked_runnable` -/
example : graph [node "first" ["second"] [], node "second" [] []] (fun d => pop d fun i d =>
    Cron.lift (d.notifyProcessFinished 0) >>= fun d => pop d fun j d' => pop d' fun k _ =>
    .ok (i.isSome && d.hasRunnables && j == some 1 && !d'.hasRunnables && k == none)) = true := by
  decide +kernel

/-- `have_two_dependencies` -/
example : graph [node "first" [] [], node "second" ["third"] [], node "third" [] ["first"]]
    (fun d => pop d fun i d => pop d fun j d1 =>
      Cron.lift (d1.notifyProcessFinished 0) >>= fun d2 =>
      Cron.lift (d2.notifyProcessFinished 1) >>= fun d3 => pop d3 fun k d4 => pop d4 fun l _ =>
      .ok (i.isSome && j.isSome && !d1.hasRunnables && !d2.hasRunnables && d3.hasRunnables &&
        k == some 2 && !d4.hasRunnables && l == none)) = true := by decide +kernel

/-! ## process_builder.rs:408-448 -/

/-- The users of the machine on which the tests are run. -/
def users (i : Nat) : Option User :=
  if i = 0 then some ⟨"root".toList, 0, "/root".toList⟩ else none

/-- `map_uid`, process_builder.rs:180-190 -/
def mapUid (id : Option Nat) (name : Option Str) : Res BuildError User :=
  ProcessBuilder.mapId id name users fun _ => none

/-- `invalid_user_id_gives_error` -/
example : mapUid (some 1410) none = .err .userGroupInvalid := by decide +kernel

/-- `invalid_group_id_gives_error` -/
example : ProcessBuilder.mapId (some 1410) none (fun i => if i = 0 then some (Group.mk 0) else none)
    (fun _ => none) = .err .userGroupInvalid := by decide +kernel

/-- `no_user_config_gives_root` -/
example : ∃ u, mapUid none none = .ok u ∧ u.uid = 0 := ⟨_, rfl, by decide +kernel⟩

/-- `both_user_config_gives_error` -/
example : mapUid (some 1000) (some "builder".toList) = .err .userGroupInvalid := by decide +kernel

/-- `unknown_user_gives_error` -/
example : mapUid none (some "unknownuser".toList) = .err .userGroupInvalid := by decide +kernel

/-! ## libc_helpers.rs:104-124 -/

/-- `rescuing_works`; about the value -/
example : sliceToString ("teststring".toList.map Char.toNat) = .ok "teststring".toList := by
  decide +kernel

/-- `rescuing_empty_works` -/
example : sliceToString [0, 0, 61, 61, 61, 61, 61, 61] = .ok [] := by decide +kernel

end Cinit.Checks
