{
 "claims": [
  {
   "property": "C01",
   "status": "proved",
   "theorems": [
    "Cinit.Props.C01_merge_fields"
   ],
   "note": ""
  },
  {
   "property": "C02",
   "status": "proved",
   "theorems": [
    "Cinit.Props.C02_conflict_iff",
    "Cinit.Props.C02_duplicates_rejected",
    "Cinit.Props.C02_order_independent",
    "Cinit.Props.C02_no_path_order_matters"
   ],
   "note": ""
  },
  {
   "property": "C03",
   "status": "proved",
   "theorems": [
    "Cinit.Props.C03_args_order",
    "Cinit.Props.C03_args_complete"
   ],
   "note": ""
  },
  {
   "property": "C04",
   "status": "proved",
   "theorems": [
    "Cinit.Props.C04_names",
    "Cinit.Props.C04_locality"
   ],
   "note": ""
  },
  {
   "property": "C05",
   "status": "partial",
   "theorems": [
    "Cinit.Props.C05_type_partial",
    "Cinit.Props.C05_violated"
   ],
   "note": "the full statement is false of the code: drop-ins of type notify are silently accepted (C05_violated); proved part: type of the path holder, cronjob drop-ins rejected"
  },
  {
   "property": "C06",
   "status": "partial",
   "theorems": [
    "Cinit.Props.C06_violated",
    "Cinit.Props.C06_every_file_once_partial",
    "Cinit.Props.C06_load_complete",
    "Cinit.Props.C06_failure_partial",
    "Cinit.Props.C06_refused"
   ],
   "note": "a file whose name is not UTF-8 makes cinit abort instead (C06_violated); proved for all other trees; C06_refused holds for all"
  },
  {
   "property": "C13",
   "status": "proved",
   "theorems": [
    "Cinit.Props.C13_accept_iff",
    "Cinit.Props.C13_order_independent"
   ],
   "note": "petgraph's toposort is a parameter with its documented contract"
  },
  {
   "property": "C14",
   "status": "proved",
   "theorems": [
    "Cinit.Props.C14_culprit",
    "Cinit.Props.C14_report"
   ],
   "note": ""
  },
  {
   "property": "C15",
   "status": "proved",
   "theorems": [
    "Cinit.Props.C15_dependants_wait"
   ],
   "note": ""
  },
  {
   "property": "C16",
   "status": "proved",
   "theorems": [
    "Cinit.Props.C16_dependants_released",
    "Cinit.Props.C16_queue_served"
   ],
   "note": ""
  },
  {
   "property": "C17",
   "status": "proved",
   "theorems": [
    "Cinit.Props.C17_released_once"
   ],
   "note": ""
  },
  {
   "property": "C18",
   "status": "proved",
   "theorems": [
    "Cinit.Props.C18_never_fails"
   ],
   "note": ""
  },
  {
   "property": "C19",
   "status": "proved",
   "theorems": [
    "Cinit.Props.C19_no_deadlock"
   ],
   "note": ""
  },
  {
   "property": "C20",
   "status": "proved",
   "theorems": [
    "Cinit.Props.C20_field",
    "Cinit.Props.C20_expression",
    "Cinit.Props.C20_field_count"
   ],
   "note": ""
  },
  {
   "property": "C21",
   "status": "partial",
   "theorems": [
    "Cinit.Props.C21_total_partial",
    "Cinit.Props.C21_panic_partial",
    "Cinit.Props.C21_violated"
   ],
   "note": "the full statement is false of the code: a zero step panics (C21_violated); proved part: every expression without a zero step in a field position is parsed or rejected, and a zero step always panics"
  },
  {
   "property": "C22",
   "status": "partial",
   "theorems": [
    "Cinit.Props.C22_time_partial",
    "Cinit.Props.C22_match_partial",
    "Cinit.Props.C22_day_partial",
    "Cinit.Props.C22_exact_partial",
    "Cinit.Props.C22_computed_partial",
    "Cinit.Props.C22_violated"
   ],
   "note": "false of the code if both month and weekday are restricted (C22_violated); C22_exact_partial says exactly when it holds, C22_computed_partial what is computed in general; proved for all expressions with an unrestricted weekday or month, and the time of day for all expressions"
  },
  {
   "property": "C23",
   "status": "partial",
   "theorems": [
    "Cinit.Props.C23_future_partial",
    "Cinit.Props.C23_two_weekdays_partial",
    "Cinit.Props.C23_violated"
   ],
   "note": "false of the code on the only listed weekday after the last listed time (C23_violated); C23_future_partial is an exact characterisation"
  },
  {
   "property": "C24",
   "status": "partial",
   "theorems": [
    "Cinit.Props.C24_weekly_partial",
    "Cinit.Props.C24_weekly_exact_partial",
    "Cinit.Props.C24_one_time_partial",
    "Cinit.Props.C24_hourly_partial",
    "Cinit.Props.C24_date_partial",
    "Cinit.Props.C24_calendar_partial",
    "Cinit.Props.C24_yearly_partial",
    "Cinit.Props.C24_day_or_weekday_partial",
    "Cinit.Props.C24_days_partial",
    "Cinit.Props.C24_calendar_exact_partial",
    "Cinit.Props.C24_steady",
    "Cinit.Props.C24_violated",
    "Cinit.Props.C24_violated_december"
   ],
   "note": "false of the code (C24_violated, C24_violated_december); when it holds is said exactly: in terms of the days passed over for every expression (C24_days_partial), in terms of the starting point for expressions without restriction of day and month (C24_weekly_exact_partial) and for those without restriction of the weekday and listed days up to the 28th (C24_calendar_exact_partial); several sufficient conditions besides. All for zones of fixed offset, and by C24_steady for all others while the clock is not changed"
  },
  {
   "property": "C25",
   "status": "partial",
   "theorems": [
    "Cinit.Props.C25_exact_partial",
    "Cinit.Props.C25_computed_partial",
    "Cinit.Props.C25_succeeds_partial",
    "Cinit.Props.C25_impossible_partial",
    "Cinit.Props.C25_violated"
   ],
   "note": "C25_exact_partial says exactly when the computation succeeds, C25_computed_partial what it yields; false of the code for expressions naming days some listed month does not have (C25_violated)"
  },
  {
   "property": "C26",
   "status": "proved",
   "theorems": [
    "Cinit.Props.C26_gaps",
    "Cinit.Props.C26_no_time",
    "Cinit.Props.C26_exact",
    "Cinit.Props.C26_wanted_unique",
    "Cinit.Props.C26_shown",
    "Cinit.Props.C26_regular"
   ],
   "note": ""
  },
  {
   "property": "C27",
   "status": "proved",
   "theorems": [
    "Cinit.Props.C27_exactly_one",
    "Cinit.Props.C27_reportable"
   ],
   "note": ""
  },
  {
   "property": "C28",
   "status": "proved",
   "theorems": [
    "Cinit.Props.C28_due",
    "Cinit.Props.C28_none",
    "Cinit.Props.C28_not_due",
    "Cinit.Props.C28_abort"
   ],
   "note": ""
  },
  {
   "property": "C29",
   "status": "partial",
   "theorems": [
    "Cinit.Props.C29_terminates_partial",
    "Cinit.Props.C29_endless_partial",
    "Cinit.Props.C29_weekday_partial",
    "Cinit.Props.C29_violated"
   ],
   "note": "false of the code as a consequence of C23 (C29_violated): with a job on a single weekday cinit loops from the job's time to midnight"
  },
  {
   "property": "C07",
   "status": "proved",
   "theorems": [
    "Cinit.Props.C07_no_leak",
    "Cinit.Props.C07_once",
    "Cinit.Props.C07_exactly",
    "Cinit.Props.C07_improper_name"
   ],
   "note": "names containing = are excluded (C07_improper_name shows why)"
  },
  {
   "property": "C08",
   "status": "proved",
   "theorems": [
    "Cinit.Props.C08_present",
    "Cinit.Props.C08_values"
   ],
   "note": ""
  },
  {
   "property": "C09",
   "status": "proved",
   "theorems": [
    "Cinit.Props.C09_meaning",
    "Cinit.Props.C09_last_value",
    "Cinit.Props.C09_forwarded",
    "Cinit.Props.C09_unset"
   ],
   "note": ""
  },
  {
   "property": "C10",
   "status": "proved",
   "theorems": [
    "Cinit.Props.C10_always",
    "Cinit.Props.C10_announced",
    "Cinit.Props.C10_there"
   ],
   "note": "C10_announced (there is no other value) is for names of variables without ="
  },
  {
   "property": "C11",
   "status": "proved",
   "theorems": [
    "Cinit.Props.C11_arguments"
   ],
   "note": ""
  },
  {
   "property": "C12",
   "status": "proved",
   "theorems": [
    "Cinit.Props.C12_ids",
    "Cinit.Props.C12_error",
    "Cinit.Props.C12_error_iff",
    "Cinit.Props.C12_which_error",
    "Cinit.Props.mapId_spec"
   ],
   "note": ""
  },
  {
   "property": "C53",
   "status": "partial",
   "theorems": [
    "Cinit.Props.C53_violated",
    "Cinit.Props.C53_names_rejected",
    "Cinit.Props.C53_seven_rejected",
    "Cinit.Props.C53_numbers_partial"
   ],
   "note": "false of the code: weekday 7 and all names are rejected; numbers are accepted with the documented meaning"
  },
  {
   "property": "C54",
   "status": "partial",
   "theorems": [
    "Cinit.Props.C54_violated",
    "Cinit.Props.C54_five_fields",
    "Cinit.Props.C54_language_partial",
    "Cinit.Props.C54_expression_partial",
    "Cinit.Props.C54_refused_partial",
    "Cinit.Props.C54_strict_partial"
   ],
   "note": "false of the code: text behind a second dash or slash is ignored; the accepted language is characterised"
  },
  {
   "property": "C55",
   "status": "partial",
   "theorems": [
    "Cinit.Props.C55_violated",
    "Cinit.Props.C55_no_abort_partial"
   ],
   "note": "false of the code: a NUL character in path, arguments or environment aborts cinit; without NUL characters it never does"
  },
  {
   "property": "C56",
   "status": "proved",
   "theorems": [
    "Cinit.Props.C56_attributes"
   ],
   "note": ""
  },
  {
   "property": "C30",
   "status": "proved",
   "theorems": [
    "Cinit.Props.C30_dependencies_first"
   ],
   "note": ""
  },
  {
   "property": "C31",
   "status": "proved",
   "theorems": [
    "Cinit.Props.C31_once"
   ],
   "note": ""
  },
  {
   "property": "C32",
   "status": "proved",
   "theorems": [
    "Cinit.Props.C32_not_reentrant"
   ],
   "note": ""
  },
  {
   "property": "C33",
   "status": "partial",
   "theorems": [
    "Cinit.Props.C33_violated",
    "Cinit.Props.C33_no_start_partial",
    "Cinit.Props.C33_noticed_partial"
   ],
   "note": "a death by a real-time signal is not noticed, programs are started afterwards (C33_violated); proved for signals received and all deaths noticed; in full if no process dies by a real-time signal (C33_noticed_partial)"
  },
  {
   "property": "C34",
   "status": "partial",
   "theorems": [
    "Cinit.Props.C34_exit_status_partial",
    "Cinit.Props.C34_exit_status_noticed_partial",
    "Cinit.Props.C34_violated"
   ],
   "note": "false of the code if a main process dies by a real-time signal (C34_violated); proved for every run in which no main process dies unnoticed"
  },
  {
   "property": "C35",
   "status": "partial",
   "theorems": [
    "Cinit.Props.C35_signal_partial",
    "Cinit.Props.C35_crash_partial",
    "Cinit.Props.C35_nobody_else_partial",
    "Cinit.Props.C35_violated",
    "Cinit.Props.C35_others_partial",
    "Cinit.Props.C35_others_crash_partial"
   ],
   "note": "false of the code: notify programs that have not announced READY=1 are not signalled (C35_violated); proved: exactly the running programs are signalled, in order, at once, and nobody else; every program alive that is not of type notify is signalled (C35_others_partial, C35_others_crash_partial)"
  },
  {
   "property": "C36",
   "status": "proved",
   "theorems": [
    "Cinit.Props.C36_outlives",
    "Cinit.Props.C36_all_terminated",
    "Cinit.Props.C36_all_reaped",
    "Cinit.Props.C36_no_notify"
   ],
   "note": ""
  },
  {
   "property": "C37",
   "status": "proved",
   "theorems": [
    "Cinit.Props.C37_foreign"
   ],
   "note": ""
  },
  {
   "property": "C42",
   "status": "proved",
   "theorems": [
    "Cinit.Props.C42_life_cycle",
    "Cinit.Props.C42_final"
   ],
   "note": ""
  },
  {
   "property": "C45",
   "status": "partial",
   "theorems": [
    "Cinit.Props.C45_completion_partial",
    "Cinit.Props.C45_clean_completion_partial",
    "Cinit.Props.C45_violated",
    "Cinit.Props.C45_no_notify_partial"
   ],
   "note": "false of the code if a program announces another program's process as its main process (C45_violated); in full for configurations without programs of type notify in which nothing dies by a real-time signal (C45_no_notify_partial)"
  },
  {
   "property": "C57",
   "status": "partial",
   "theorems": [
    "Cinit.Props.C57_only_realtime_partial",
    "Cinit.Props.C57_all_reported_partial",
    "Cinit.Props.C57_attribution_partial",
    "Cinit.Props.C57_noticed_partial",
    "Cinit.Props.C57_violated"
   ],
   "note": "false of the code for deaths by real-time signals (C57_violated)"
  },
  {
   "property": "C58",
   "status": "proved",
   "theorems": [
    "Cinit.Props.C58_prompt"
   ],
   "note": ""
  },
  {
   "property": "C59",
   "status": "proved",
   "theorems": [
    "Cinit.Props.C59_only_when_due"
   ],
   "note": ""
  },
  {
   "property": "C60",
   "status": "proved",
   "theorems": [
    "Cinit.Props.C60_attended",
    "Cinit.Props.C60_none_overlooked"
   ],
   "note": ""
  },
  {
   "property": "C38",
   "status": "proved",
   "theorems": [
    "Cinit.Props.C38_no_effect",
    "Cinit.Props.C38_history"
   ],
   "note": ""
  },
  {
   "property": "C39",
   "status": "proved",
   "theorems": [
    "Cinit.Props.C39_meaning",
    "Cinit.Props.C39_same_assignments",
    "Cinit.Props.C39_last",
    "Cinit.Props.C39_text"
   ],
   "note": ""
  },
  {
   "property": "C40",
   "status": "proved",
   "theorems": [
    "Cinit.Props.C40_released",
    "Cinit.Props.C40_other_value",
    "Cinit.Props.C40_once",
    "Cinit.Props.C39_meaning",
    "Cinit.Props.C30_dependencies_first"
   ],
   "note": ""
  },
  {
   "property": "C41",
   "status": "partial",
   "theorems": [
    "Cinit.Props.C41_announces",
    "Cinit.Props.C41_new_main_partial",
    "Cinit.Props.C41_former_main_partial",
    "Cinit.Props.C41_others_partial",
    "Cinit.Props.C41_violated",
    "Cinit.Props.C41_no_notify_partial"
   ],
   "note": "false of the code: a program may announce the process of another program as its main process, whose termination is then attributed to it (C41_violated); proved for processes nobody else claims; in full for configurations without programs of type notify in which nothing dies by a real-time signal (C41_no_notify_partial)"
  },
  {
   "property": "C46",
   "status": "proved",
   "theorems": [
    "Cinit.Props.C46_causes",
    "Cinit.Props.C46_consistent",
    "Cinit.Props.C46_kill_succeeds",
    "Cinit.Props.C46_run",
    "Cinit.Props.C46_no_notify"
   ],
   "note": "exhaustive list of the causes of aborts in the event loop; kill failing (reachable only after MAINPID or a death by a real-time signal), malformed messages (C47) and the end of the calendar remain"
  },
  {
   "property": "C47",
   "status": "partial",
   "theorems": [
    "Cinit.Props.C47_malformed_partial",
    "Cinit.Props.C47_exact_partial",
    "Cinit.Props.C47_run_partial",
    "Cinit.Props.C47_runs_partial",
    "Cinit.Props.C47_violated",
    "Cinit.Props.C47_not_utf8",
    "Cinit.Props.C47_empty",
    "Cinit.Props.C47_later"
   ],
   "note": "false of the code: empty messages, messages that are not UTF-8, messages of 4096 bytes without NUL abort cinit (C47_exact_partial is an exact characterisation for a single message, C47_runs_partial for whole runs: cinit aborts upon a message if and only if it receives one of these), and a wrong MAINPID makes it abort when it is asked to terminate (C47_later)"
  },
  {
   "property": "C50",
   "status": "proved",
   "theorems": [
    "Cinit.Props.C50_checks",
    "Cinit.Props.C50_exit"
   ],
   "note": ""
  },
  {
   "property": "C51",
   "status": "partial",
   "theorems": [
    "Cinit.Props.C51_codes_partial",
    "Cinit.Props.C51_nothing_started",
    "Cinit.Props.C51_unreadable",
    "Cinit.Props.C51_invalid_partial",
    "Cinit.Props.C51_cron_error",
    "Cinit.Props.C51_cron_accepted",
    "Cinit.Props.C51_violated",
    "Cinit.Props.C51_epoll"
   ],
   "note": "false of the code for runtime set-up: exit code 2 if signals or sockets cannot be set up (C51_violated), abort without epoll descriptor (C51_epoll); the meaning of all other codes is proved in both directions"
  },
  {
   "property": "C52",
   "status": "partial",
   "theorems": [
    "Cinit.Props.C52_verbosity_partial",
    "Cinit.Props.C52_violated"
   ],
   "note": "false of the code: the third -v switches back to the default level (C52_violated)"
  },
  {
   "property": "C43",
   "status": "partial",
   "theorems": [
    "Cinit.Props.C43_lines",
    "Cinit.Props.C43_single_lines",
    "Cinit.Props.C43_decoded",
    "Cinit.Props.C43_ascii",
    "Cinit.Props.C43_text_partial",
    "Cinit.Props.C43_ascii_partial",
    "Cinit.Props.C43_exactly",
    "Cinit.Props.C43_nothing_else",
    "Cinit.Props.C43_until_end",
    "Cinit.Props.C43_violated"
   ],
   "note": "false of the code for characters of several bytes that are cut by the end of a read, which are replaced by U+FFFD (C43_violated), and for carriage returns before cut line feeds; proved: every read is logged line by line under the right name and stream, completely if the reads end at boundaries of characters, every ASCII character in any case; a text without U+FFFD is logged completely exactly if no read ends within a character (C43_exactly)"
  },
  {
   "property": "C44",
   "status": "partial",
   "theorems": [
    "Cinit.Props.C44_report_partial",
    "Cinit.Props.C44_order",
    "Cinit.Props.C44_pid_partial",
    "Cinit.Props.C44_number",
    "Cinit.Props.C44_not_forgeable",
    "Cinit.Props.C44_violated",
    "Cinit.Props.C46_causes"
   ],
   "note": "false of the code: a process id is also shown for a terminated program whose process id was given to another program (C44_violated; C44_pid_partial is an exact characterisation in undisturbed histories)"
  },
  {
   "property": "C61",
   "status": "proved",
   "theorems": [
    "Cinit.Props.C61_next",
    "Cinit.Props.C61_all"
   ],
   "note": ""
  },
  {
   "property": "C62",
   "status": "partial",
   "theorems": [
    "Cinit.Props.C62_reaped_partial",
    "Cinit.Props.C62_violated"
   ],
   "note": "false of the code if waiting reports a death by a real-time signal, which ends the round of reaping like the absence of children does (C62_violated)"
  },
  {
   "property": "C48",
   "status": "proved",
   "theorems": [
    "Cinit.Props.C48_credentials",
    "Cinit.Props.C48_user",
    "Cinit.Props.C48_required",
    "Cinit.Props.C48_available",
    "Cinit.Props.web_executed"
   ],
   "note": "also: set-up succeeds if and only if the needed capabilities are permitted, when the kernel has no other objections; the file executed is assumed not to be privileged itself"
  },
  {
   "property": "C49",
   "status": "proved",
   "theorems": [
    "Cinit.Props.C49_fail_closed",
    "Cinit.Props.C49_not_executed",
    "Cinit.Props.C49_complete",
    "Cinit.Props.C49_no_abort"
   ],
   "note": ""
  },
  {
   "property": "C63",
   "status": "partial",
   "theorems": [
    "Cinit.Props.C63_exact_partial",
    "Cinit.Props.C63_unknown",
    "Cinit.Props.C63_violated",
    "Cinit.Props.missing",
    "Cinit.Props.refused"
   ],
   "note": "false of the code: the descriptors 1 and 2 are closed before the message is printed, so it is always lost (C63_violated); C63_exact_partial says exactly what is reported"
  },
  {
   "property": "C64",
   "status": "proved",
   "theorems": [
    "Cinit.Props.C64_descriptors",
    "Cinit.Props.web_descriptors",
    "Cinit.Props.C64_run",
    "Cinit.Props.follows_reachable"
   ],
   "note": "assuming the descriptors 0, 1 and 2 are open in cinit, which the runtime of Rust makes sure of"
  },
  {
   "property": "C65",
   "status": "partial",
   "theorems": [
    "Cinit.Props.C65_exact_partial",
    "Cinit.Props.C65_violated"
   ],
   "note": "false of the code: the bounding set is left as it is, so programs of root have all its capabilities whatever is configured (C65_violated); exact characterisation for all users"
  },
  {
   "property": "C66",
   "status": "partial",
   "theorems": [
    "Cinit.Props.C66_exact_partial",
    "Cinit.Props.C66_violated"
   ],
   "note": "false of the code: SIGPIPE, ignored by the runtime of Rust, stays ignored (C66_violated); no signal is blocked"
  },
  {
   "property": "C67",
   "status": "proved",
   "theorems": [
    "Cinit.Props.C67_as_configured",
    "Cinit.Props.C82_executed",
    "Cinit.Props.web_executed"
   ],
   "note": "which file is executed if only a name is configured: C82_executed"
  },
  {
   "property": "C68",
   "status": "proved",
   "theorems": [
    "Cinit.Props.C68_cinit",
    "Cinit.Props.C68_programs",
    "Cinit.Props.answer_fresh",
    "Cinit.Props.C64_run"
   ],
   "note": ""
  },
  {
   "property": "C69",
   "status": "proved",
   "theorems": [
    "Cinit.Props.C69_waits",
    "Cinit.Props.C69_ends"
   ],
   "note": ""
  },
  {
   "property": "C70",
   "status": "partial",
   "theorems": [
    "Cinit.Props.C70_kept_partial",
    "Cinit.Props.C70_violated",
    "Cinit.Props.cronOnly_ends"
   ],
   "note": "false of the code: cronjobs waiting for their time are not counted, so a configuration of cronjobs only ends within a second with code 0 and without ever executing one (C70_violated); they are served as long as some other program runs (C70_kept_partial, C60)"
  },
  {
   "property": "C71",
   "status": "proved",
   "theorems": [
    "Cinit.Props.C71_account",
    "Cinit.Props.C71_prefix"
   ],
   "note": ""
  },
  {
   "property": "C72",
   "status": "proved",
   "theorems": [
    "Cinit.Props.C72_registered",
    "Cinit.Props.C72_listening"
   ],
   "note": ""
  },
  {
   "property": "C73",
   "status": "proved",
   "theorems": [
    "Cinit.Props.C73_open",
    "Cinit.Props.C73_apart",
    "Cinit.Props.C73_end",
    "Cinit.Props.C73_tables",
    "Cinit.Props.C73_tables_restored",
    "Cinit.Props.C73_tables_ended",
    "Cinit.Props.C73_follows",
    "Cinit.Props.follows_before"
   ],
   "note": "C73_tables adds what happens within the start of a program: pipes, also if it fails half way, and the connection of a status report; descriptors opened for a moment to read time zones are not modelled"
  },
  {
   "property": "C74",
   "status": "proved",
   "theorems": [
    "Cinit.Props.C74_sound",
    "Cinit.Props.C74_complete",
    "Cinit.Props.C74_order",
    "Cinit.Props.C74_expressible"
   ],
   "note": "the reading of plain scalars by the library is a parameter; structures given as lists of their fields are left open"
  },
  {
   "property": "C75",
   "status": "proved",
   "theorems": [
    "Cinit.Props.C75_refused",
    "Cinit.Props.C75_programs",
    "Cinit.Props.C75_program",
    "Cinit.Props.C75_whole",
    "Cinit.Props.C75_run",
    "Cinit.Props.C75_nothing"
   ],
   "note": "C75_run: if the start-up checks pass and file names are UTF-8; otherwise cinit ends with 5 or aborts, also before anything is started (C75_nothing)"
  },
  {
   "property": "C76",
   "status": "partial",
   "theorems": [
    "Cinit.Props.C76_ignored_partial",
    "Cinit.Props.C76_violated",
    "Cinit.Props.misspelt_read"
   ],
   "note": "false of the code: unknown keys are ignored, so that a program with a misspelt user is executed by root (C76_violated); C76_ignored_partial says so for all unknown keys"
  },
  {
   "property": "C77",
   "status": "partial",
   "theorems": [
    "Cinit.Props.C77_readable_partial",
    "Cinit.Props.C77_program_partial",
    "Cinit.Props.C77_stderr_partial",
    "Cinit.Props.C77_whole_partial",
    "Cinit.Props.C77_violated",
    "Cinit.Props.C77_impostor"
   ],
   "note": "false of the code: with -v a received message is repeated without escaping before its sender is checked, so that everybody who can send to the socket can forge lines of programs (C77_violated), and a program may be called cinit (C77_impostor); proved without -v and for the standard error, for names without brackets and line feeds"
  },
  {
   "property": "C78",
   "status": "proved",
   "theorems": [
    "Cinit.Props.C78_time",
    "Cinit.Props.C78_line",
    "Cinit.Props.C78_own",
    "Cinit.Props.C78_append",
    "Cinit.Props.C78_stderr"
   ],
   "note": ""
  },
  {
   "property": "C79",
   "status": "partial",
   "theorems": [
    "Cinit.Props.C79_stranded_partial",
    "Cinit.Props.C79_left_out_partial",
    "Cinit.Props.C79_code_partial",
    "Cinit.Props.C79_child_partial",
    "Cinit.Props.C79_violated",
    "Cinit.Props.noFork_ends",
    "Cinit.Props.C79_no_notify_partial"
   ],
   "note": "false of the code: a failing fork is only logged, the program and its dependants are never started, and cinit may end with code 0 (C79_violated); cinit never ends with code 4 (C79_code_partial); failures after fork lead to code 6 (C79_child_partial)"
  },
  {
   "property": "C80",
   "status": "proved",
   "theorems": [
    "Cinit.Props.C80_terminals",
    "Cinit.Props.C80_failed",
    "Cinit.Props.C80_succeeds"
   ],
   "note": "assuming that new terminals have new names and descriptors"
  },
  {
   "property": "C81",
   "status": "partial",
   "theorems": [
    "Cinit.Props.C81_lines_partial",
    "Cinit.Props.C81_unchanged",
    "Cinit.Props.C81_violated",
    "Cinit.Props.cr_ends"
   ],
   "note": "false of the code: if a read ends between the carriage return added by the terminal and the line feed, the carriage return is logged (C81_violated); proved for all other ways of cutting output into reads, and in any case if cinit has got a terminal itself (C81_unchanged)"
  },
  {
   "property": "C82",
   "status": "partial",
   "theorems": [
    "Cinit.Props.C82_executed",
    "Cinit.Props.C82_not_found",
    "Cinit.Props.C82_slash",
    "Cinit.Props.C82_search",
    "Cinit.Props.C82_fallback",
    "Cinit.Props.C82_long",
    "Cinit.Props.C82_missing",
    "Cinit.Props.C82_forwarded_partial",
    "Cinit.Props.C82_violated"
   ],
   "note": "false of the code: programs are looked up along the PATH of cinit, not along the one configured for them (C82_violated); proved for programs without PATH of their own, and what is executed along the PATH of cinit (C82_search)"
  },
  {
   "property": "C83",
   "status": "proved",
   "theorems": [
    "Cinit.Props.C83_offered",
    "Cinit.Props.C83_succeeds",
    "Cinit.Props.C83_fails",
    "Cinit.Props.C83_reason",
    "Cinit.Props.C83_first",
    "Cinit.Props.C83_halfway",
    "Cinit.Props.C83_messages",
    "Cinit.Props.C83_blocked",
    "Cinit.Props.C83_announced"
   ],
   "note": "the exit code after a failure is C51"
  },
  {
   "property": "C84",
   "status": "proved",
   "theorems": [
    "Cinit.Props.C84_told",
    "Cinit.Props.C84_words"
   ],
   "note": "during a call to start a program its announcement is already in the log"
  },
  {
   "property": "C85",
   "status": "partial",
   "theorems": [
    "Cinit.Props.C85_logged_partial",
    "Cinit.Props.C85_violated"
   ],
   "note": "false of the code: status texts are logged with level TRACE, so that they are shown with -vv only (C85_violated), for which it is proved"
  },
  {
   "property": "C86",
   "status": "partial",
   "theorems": [
    "Cinit.Props.C86_loop_partial",
    "Cinit.Props.C86_loaded_partial",
    "Cinit.Props.C86_one_first_partial",
    "Cinit.Props.C86_violated"
   ],
   "note": "false of the code: programs without dependencies are started in an order that depends on the seed of a hash table (C86_violated); nothing else does once the files are read and merged, so that runs are reproducible if only one program can be the first (C86_one_first_partial); for the merging of files see C02 and C04"
  },
  {
   "property": "C87",
   "status": "proved",
   "theorems": [
    "Cinit.Props.C87_started",
    "Cinit.Props.C87_shutdown",
    "Cinit.Props.C87_exit",
    "Cinit.Props.C87_no_exit",
    "Cinit.Props.C87_read"
   ],
   "note": ""
  },
  {
   "property": "C88",
   "status": "proved",
   "theorems": [
    "Cinit.Props.C88_explained",
    "Cinit.Props.C88_words",
    "Cinit.Props.C88_true",
    "Cinit.Props.C88_quiet",
    "Cinit.Props.C88_progress",
    "Cinit.Props.C88_together",
    "Cinit.Props.C88_shown",
    "Cinit.Props.C88_errors_shown"
   ],
   "note": ""
  },
  {
   "property": "C89",
   "status": "partial",
   "theorems": [
    "Cinit.Props.C89_warnings",
    "Cinit.Props.C89_arguments_partial",
    "Cinit.Props.C89_variables_partial",
    "Cinit.Props.C89_notify",
    "Cinit.Props.C89_violated"
   ],
   "note": "false of the code: a value with braces after rendering is used though the warning says that the raw value is (C89_violated); everything else is proved, in particular exactly which warnings there are (C89_warnings)"
  },
  {
   "property": "C90",
   "status": "partial",
   "theorems": [
    "Cinit.Props.C90_unreadable_partial",
    "Cinit.Props.C90_named_partial",
    "Cinit.Props.C90_violated"
   ],
   "note": "false of the code: errors about malformed files do not say which (C90_violated); all other errors name path or program"
  },
  {
   "property": "C91",
   "status": "partial",
   "theorems": [
    "Cinit.Props.C91_day_partial",
    "Cinit.Props.C91_today_partial",
    "Cinit.Props.C91_daytime_partial",
    "Cinit.Props.C91_skipped_partial",
    "Cinit.Props.C91_violated"
   ],
   "note": "false of the code: 24 hours are added to the present instant, so that a job late in the evening leaves out the day on which the clock is put forward (C91_violated, C91_skipped_partial); proved from 1:00 to 23:00, and exactly what is computed at all times"
  },
  {
   "property": "C92",
   "status": "partial",
   "theorems": [
    "Cinit.Props.C92_future_partial",
    "Cinit.Props.C92_daytime_partial",
    "Cinit.Props.C92_steady",
    "Cinit.Props.C92_endless_partial",
    "Cinit.Props.C92_repeated_partial",
    "Cinit.Props.C92_violated",
    "Cinit.Props.C92_violated_hour",
    "Cinit.Props.C92_violated_start"
   ],
   "note": "false of the code: on the day on which the clock is set back a job of midnight keeps cinit busy for an hour (C92_violated_hour), and jobs of an hour that comes twice do so if cinit computes their execution in its second half (C92_violated_start); proved where the clock does not repeat itself, from 1:00 to 23:00, and at any time while it is not changed (C92_steady)"
  },
  {
   "property": "C93",
   "status": "partial",
   "theorems": [
    "Cinit.Props.C93_steady_partial",
    "Cinit.Props.C93_forward_partial",
    "Cinit.Props.C93_repeated_partial",
    "Cinit.Props.C93_violated"
   ],
   "note": "false of the code when the clock is set back: jobs are not executed in the hour that comes for the second time (C93_violated, C93_repeated_partial); proved for clocks put forward and for jobs of every day"
  },
  {
   "property": "C94",
   "status": "partial",
   "theorems": [
    "Cinit.Props.C94_exact_partial",
    "Cinit.Props.C94_reason_partial",
    "Cinit.Props.C94_printed_partial",
    "Cinit.Props.C94_violated"
   ],
   "note": "false of the code: a stream that cannot be registered is reported as one that cannot be unregistered (C94_violated); proved: the warnings and errors of a run are exactly those its events give reason for, in order, with their levels and texts except for the quoted text of errors of the system; left open in the history is only whether removing a stream fails and which part of starting a program does"
  },
  {
   "property": "C95",
   "status": "partial",
   "theorems": [
    "Cinit.Props.C95_mentioned_partial",
    "Cinit.Props.C95_violated"
   ],
   "note": "false of the code: failing reads of the output of programs are passed over in silence, failing reads of signals are mentioned at level debug only (C95_violated); proved for all other requests"
  },
  {
   "property": "C96",
   "status": "partial",
   "theorems": [
    "Cinit.Props.C96_turn",
    "Cinit.Props.C96_wait",
    "Cinit.Props.C96_report",
    "Cinit.Props.C96_matching_partial",
    "Cinit.Props.C96_none_missed_partial",
    "Cinit.Props.C96_turn_steady",
    "Cinit.Props.C96_wait_steady",
    "Cinit.Props.next_steady",
    "Cinit.Props.C96_violated"
   ],
   "note": "false of the code for the reasons of C22 to C24 (C96_violated: at 14:10 the job 0,30 14 * * * of 14:00 has not been executed); proved for all expressions, with the exact declarative description of the instant aimed at in place of the matching instant (C96_turn, C96_wait, C96_report), and as stated for the expressions for which C22 to C24 hold; where clocks are changed, the same holds from a day after a change to a day before the next one (C96_turn_steady, C96_wait_steady)"
  },
  {
   "property": "C97",
   "status": "partial",
   "theorems": [
    "Cinit.Props.C97_writes",
    "Cinit.Props.C97_refines",
    "Cinit.Props.C97_text",
    "Cinit.Props.C97_broken",
    "Cinit.Props.C97_leaves_partial",
    "Cinit.Props.C97_reads_partial",
    "Cinit.Props.C97_small_partial",
    "Cinit.Props.C97_exact_partial",
    "Cinit.Props.C97_many",
    "Cinit.Props.C97_violated"
   ],
   "note": "false of the code: connections are in blocking mode, so a client that connects and does nothing stops all supervision forever once the report does not fit into what the kernel keeps for the connection (C97_violated for every amount; 70 programs with the figures of Linux); proved: exactly when this is possible (C97_exact_partial), that clients who leave or keep reading never hold up cinit, that a report fails only if the client leaves, that what is received is a prefix of the report, and that sending write by write is what the model of the loop does in one step (C97_refines)"
  },
  {
   "property": "C98",
   "status": "partial",
   "theorems": [
    "Cinit.Props.C98_exact_partial",
    "Cinit.Props.C98_heard_partial",
    "Cinit.Props.C98_forever",
    "Cinit.Props.C98_never",
    "Cinit.Props.C98_violated"
   ],
   "note": "false of the code: a failed registration is logged and forgotten, while cinit waits for the end of the stream all the same; proved: a stream is listened to exactly if its registration did not fail (C98_exact_partial), this is never made up for (C98_forever), and a run in which a registration fails never ends (C98_never)"
  },
  {
   "property": "C99",
   "status": "proved",
   "theorems": [
    "Cinit.Props.C99_account",
    "Cinit.Props.C99_ended",
    "Cinit.Props.C99_share",
    "Cinit.Props.C99_reason"
   ],
   "note": "entries showing the answer of the kernel to waitpid with {:?} are left out (their text is not modelled); the description of an error is a parameter (Voice)"
  },
  {
   "property": "C100",
   "status": "partial",
   "theorems": [
    "Cinit.Props.C100_exact_partial",
    "Cinit.Props.C100_unreadable",
    "Cinit.Props.C100_violated",
    "Cinit.Props.C100_cut"
   ],
   "note": "false of the code: names are not escaped and status texts are not quoted, so the status text `clients: 3` makes the whole report unreadable (C100_violated) and the text `50% # of all` is read as `50%` (C100_cut); proved: the report is read as meant exactly if no name contains an apostrophe or an unprintable character and each status text is a plain scalar (C100_exact_partial)"
  },
  {
   "property": "C101",
   "status": "partial",
   "theorems": [
    "Cinit.Props.C101_exact_partial",
    "Cinit.Props.C101_once_partial",
    "Cinit.Props.C101_unlinked_partial",
    "Cinit.Props.C101_violated",
    "Cinit.Props.C101_trouble",
    "Cinit.Props.C101_cycle",
    "Cinit.Props.C101_twice",
    "Cinit.Props.C101_volume"
   ],
   "note": "false of the code: files are read once for every path to them, so a ConfigMap mounted by Kubernetes, whose file is reached by three paths, makes cinit exit with code 1 because the path of the program is given twice (C101_violated, C101_volume, C101_twice); proved: a file is taken exactly as often as there are sequences of names to it, once if there are no links; circles end with code 1"
  },
  {
   "property": "C102",
   "status": "partial",
   "theorems": [
    "Cinit.Props.C102_source_partial",
    "Cinit.Props.C102_single_partial",
    "Cinit.Props.C102_children_partial",
    "Cinit.Props.C102_violated",
    "Cinit.Props.C102_stale",
    "Cinit.Props.C102_no_notify_partial"
   ],
   "note": "false of the code: a program of type notify that sends MAINPID=-1 makes cinit send SIGINT to every process of the system when it shuts down (C102_violated), and after a death by a real-time signal the signal goes to a process id that may be that of any other process by then (C102_stale); proved: every id a signal is sent to was given to cinit at the start of a program or announced by its main process, it is positive if only positive ones are announced, and it is an unreaped child if there are neither announcements nor deaths by real-time signals; in full for configurations without programs of type notify in which nothing dies by a real-time signal (C102_no_notify_partial)"
  },
  {
   "property": "C103",
   "status": "proved",
   "theorems": [
    "Cinit.Props.C103_exact",
    "Cinit.Props.C103_help",
    "Cinit.Props.C103_version",
    "Cinit.Props.C103_total",
    "Cinit.Props.C103_order"
   ],
   "note": "all lists of arguments; clap is modelled after its source (Model/CommandLine.lean)"
  },
  {
   "property": "C104",
   "status": "partial",
   "theorems": [
    "Cinit.Props.C104_codes_partial",
    "Cinit.Props.C104_misspelt",
    "Cinit.Props.C104_printing",
    "Cinit.Props.C104_run",
    "Cinit.Props.C104_violated"
   ],
   "note": "false of the code: wrong arguments also give exit code 2 (C104_violated), so an orchestrator cannot tell them from an invalid configuration; proved: that this is the only further meaning (besides that of C51), that nothing happens then, and what every other command line does"
  },
  {
   "property": "C105",
   "status": "partial",
   "theorems": [
    "Cinit.Props.C105_account_partial",
    "Cinit.Props.C105_number_partial",
    "Cinit.Props.C105_ordered_partial",
    "Cinit.Props.C105_once_partial",
    "Cinit.Props.C105_violated"
   ],
   "note": "false of the code: every program that dies by the signal it was sent counts as crashed, upon which all programs still running are sent another SIGINT (C105_violated); proved: the exact list of signals sent in every run (C105_account_partial), their number (C105_number_partial), and the statement for runs in which all programs end with code 0 (C105_once_partial)"
  },
  {
   "property": "C106",
   "status": "partial",
   "theorems": [
    "Cinit.Props.C106_fatal_partial",
    "Cinit.Props.C106_zero_partial",
    "Cinit.Props.C106_violated",
    "Cinit.Props.C106_no_notify_partial"
   ],
   "note": "false of the code: a program that does not handle SIGINT dies by the one cinit sends and counts as crashed, so stopping cinit gives exit code 6 (C106_violated); proved: that a single such program suffices (C106_fatal_partial), and that with exit code 0 every program alive at any time ended by itself with code 0 afterwards (C106_zero_partial)"
  },
  {
   "property": "C107",
   "status": "partial",
   "theorems": [
    "Cinit.Props.C107_shown_partial",
    "Cinit.Props.C107_large_partial",
    "Cinit.Props.C107_done_partial",
    "Cinit.Props.C107_blind",
    "Cinit.Props.C107_violated"
   ],
   "note": "false of the code: for a program killed by SIGKILL the exit code 9 is shown (C107_violated), and no effect of cinit in the model tells a death by the signal n from an exit with the code n, in any run (C107_blind; the log at level debug does, which is outside of this model); proved: the number shown is one or the other (C107_shown_partial), and the exit code if it is 0 or above 31"
  },
  {
   "property": "C108",
   "status": "partial",
   "theorems": [
    "Cinit.Props.C108_variable_partial",
    "Cinit.Props.C108_extended_partial",
    "Cinit.Props.C108_markup_partial",
    "Cinit.Props.C108_argument",
    "Cinit.Props.C108_undefined",
    "Cinit.Props.C108_violated"
   ],
   "note": "false of the code: tera escapes values in templates whose names end like those of markup files, and cinit uses the name of the variable as the name of the template (C108_violated: a variable called x.html); proved for all arguments and for all variables with other names; for the variables that are escaped, the value read as markup is the template filled in (C108_markup_partial, for templates whose texts have no ampersand); all under the assumption LikeTera about the engine, which is not part of /repo (Model/Template.lean; met by the engine defined there, likeTera_engine)"
  },
  {
   "property": "C109",
   "status": "proved",
   "theorems": [
    "Cinit.Props.C109_configured",
    "Cinit.Props.C109_from_files",
    "Cinit.Props.C109_always_same"
   ],
   "note": "the file executed for a program given by name is that of C82; capabilities of programs of root are those of C65"
  },
  {
   "property": "C110",
   "status": "partial",
   "theorems": [
    "Cinit.Props.C110_none_kept",
    "Cinit.Props.C110_plain_partial",
    "Cinit.Props.C110_ignored_partial",
    "Cinit.Props.C110_violated",
    "Cinit.Props.herald_plain",
    "Cinit.Props.herald_attached"
   ],
   "note": "false of the code: the buffer for control messages has space for the credentials only, so that messages with descriptors are refused as truncated and ignored (C110_ignored_partial; herald_attached: the dependant is not started upon READY=1); proved: messages without descriptors are taken from the process named by their credentials, and no descriptor is ever kept, under the model of the kernel and of nix in Model/Datagrams.lean"
  },
  {
   "property": "C111",
   "status": "partial",
   "theorems": [
    "Cinit.Props.C111_exact_partial",
    "Cinit.Props.C111_ordinary_partial",
    "Cinit.Props.C111_harmless",
    "Cinit.Props.C111_violated"
   ],
   "note": "false of the code: programs belong to root unless configured otherwise and keep CAP_SYS_ADMIN (C65), with which the kernel accepts any process id as that of the sender (C111_violated); proved exactly as whose messages those of a process can be taken, for all programs of other users without this capability, and that messages of everybody else have no effect (C111_harmless)"
  },
  {
   "property": "C112",
   "status": "partial",
   "theorems": [
    "Cinit.Props.C112_oldest_partial",
    "Cinit.Props.C112_unread_partial",
    "Cinit.Props.C112_late_partial",
    "Cinit.Props.C112_violated",
    "Cinit.Props.daemon_ends",
    "Cinit.Props.daemon_plausible"
   ],
   "note": "false of the code: one message is read per round, after which all terminated children are reaped, so that of two messages sent before the end the second comes too late; cinit ends with code 0 although the announced main process is running (C112_violated); proved: the oldest message waiting is read in time (C112_oldest_partial), those behind it never are if their sender has ended already (C112_unread_partial), and have no effect later (C112_late_partial)"
  },
  {
   "property": "C113",
   "status": "partial",
   "theorems": [
    "Cinit.Props.C113_children_partial",
    "Cinit.Props.C113_exact_partial",
    "Cinit.Props.C113_forever_partial",
    "Cinit.Props.C113_violated",
    "Cinit.Props.orphan_ends",
    "Cinit.Props.orphan_lawful",
    "Cinit.Props.C113_no_notify_partial"
   ],
   "note": "false of the code: the kernel tells cinit of its own children only, so that the end of an announced process that is waited for by the process that created it goes unnoticed, and cinit never ends (C113_violated, C113_forever_partial); proved: such processes are the only ones (C113_exact_partial), and none if all announced processes are children of cinit when they are announced, in particular if none is announced (C113_children_partial); deaths by real-time signals are excluded, see C57; in full for configurations without programs of type notify in which nothing dies by a real-time signal (C113_no_notify_partial)"
  },
  {
   "property": "C114",
   "status": "partial",
   "theorems": [
    "Cinit.Props.C114_waits_partial",
    "Cinit.Props.C114_held",
    "Cinit.Props.C114_kept",
    "Cinit.Props.C114_violated",
    "Cinit.Props.leftover_ends",
    "Cinit.Props.leftover_orderly"
   ],
   "note": "false of the code: cinit does not end as long as any process holds an output stream of a program, even if all programs have ended (C114_violated, C114_held, C114_kept); proved: apart from programs it waits for nothing else (C114_waits_partial)"
  },
  {
   "property": "C115",
   "status": "proved",
   "theorems": [
    "Cinit.Props.C115_closed",
    "Cinit.Props.C115_read",
    "Cinit.Props.C115_program",
    "Cinit.Props.C115_logged",
    "Cinit.Props.C115_once",
    "Cinit.Props.writtenTo_buffer"
   ],
   "note": "C115_program and C115_logged hold for cronjobs as well if the streams of the previous execution were closed when the next one began; otherwise two streams are read side by side, and C115_read holds of each. What the kernel is assumed to guarantee is Honest in Spec/Streams.lean; invalid and non-ASCII text is treated in C43"
  },
  {
   "property": "C116",
   "status": "partial",
   "theorems": [
    "Cinit.Props.C116_partial",
    "Cinit.Props.C116_since",
    "Cinit.Props.C116_violated",
    "Cinit.Props.spin_ends",
    "Cinit.Props.leftover_reliable"
   ],
   "note": "false of the code: a client that cannot be accepted (for example because of the limit of open files) stays in the queue and wakes cinit up again at once, as long as accepting fails (C116_violated); proved for all runs with failed calls counted in (C116_partial), and counted from any time on (C116_since). What the kernel is assumed to guarantee is Reliable in Spec/Arrivals.lean"
  },
  {
   "property": "C117",
   "status": "partial",
   "theorems": [
    "Cinit.Props.C117_partial",
    "Cinit.Props.C117_violated",
    "Cinit.Props.waiting_ends",
    "Cinit.Props.leftover_reliable",
    "Cinit.Props.leftover_punctual",
    "Cinit.Props.mem_openStreams"
   ],
   "note": "false of the code: the end of a stream that could not be registered at epoll is waited for forever (C117_violated, see C98); proved for all runs in which all registrations succeeded. What the kernel is assumed to guarantee is Reliable and Punctual in Spec/Arrivals.lean"
  },
  {
   "property": "C118",
   "status": "proved",
   "theorems": [
    "Cinit.Props.C118_turns",
    "Cinit.Props.C118_served",
    "Cinit.Props.busy_ends"
   ],
   "note": "what the kernel is assumed to guarantee is TakesTurns in Spec/Fairness.lean: a descriptor is passed over only if the buffer is full of others that have not been reported since it became ready"
  },
  {
   "property": "C119",
   "status": "proved",
   "theorems": [
    "Cinit.Props.C119_first",
    "Cinit.Props.C119_punctual",
    "Cinit.Props.C119_steady"
   ],
   "note": "that the clock goes on by at most the timeout of epoll_wait and the work between two readings is a hypothesis; up to one nanosecond per cronjob, by which cinit moves jobs due at the same instant"
  },
  {
   "property": "C120",
   "status": "partial",
   "theorems": [
    "Cinit.Props.C120_partial",
    "Cinit.Props.C120_general",
    "Cinit.Props.C120_violated"
   ],
   "note": "false: if each execution of a cronjob leaves a process behind that keeps the output streams, two more are open after each execution, until cinit runs out of descriptors. C120_partial: it holds if the streams of a cronjob end before its next execution; C120_general: two more for each start while a stream of an earlier execution is open"
  },
  {
   "property": "C121",
   "status": "proved",
   "theorems": [
    "Cinit.Props.C121",
    "Cinit.Props.C121_events"
   ],
   "note": "for two runs in which the kernel gives the same answers apart from the bytes read from programs"
  },
  {
   "property": "C122",
   "status": "proved",
   "theorems": [
    "Cinit.Props.C122",
    "Cinit.Props.C122_events"
   ],
   "note": "for two runs in which the kernel gives the same answers apart from how writing to clients ends. Clients that neither read nor go away are the subject of C97"
  },
  {
   "property": "C123",
   "status": "proved",
   "theorems": [
    "Cinit.Props.C123"
   ],
   "note": "for two runs in which the kernel gives the same answers apart from the time, and the times are ones chrono can represent"
  },
  {
   "property": "C124",
   "status": "proved",
   "theorems": [
    "Cinit.Props.C124"
   ],
   "note": "for two runs in which the kernel gives the same answers apart from the texts of messages and their senders. Messages that are no texts abort cinit (C47)"
  }
 ]
}