{"id": "C01", "title": "Drop-in merging: list and flag fields", "statement": "When several configuration entries name the same program and loading succeeds, the loaded program's before, after and capabilities contain exactly the values listed in any of the entries (each once), its pty flag is the disjunction of the entries' flags, and path, workdir, uid, gid, user, group are the value given by the one entry that sets them (unset if none does).", "quantifier": "all numbers of entries, all entry contents, all orders in which the entries are encountered", "why_tests_cant": "number, content and order of files in a configuration directory are unbounded; directory order is not under test control", "anchors": ["src/config/mod.rs: ProcessConfig::merge, prune_duplicates", "src/config/config_parser.rs: merge_dropins"]}
{"id": "C02", "title": "Drop-in merging: conflicts are always rejected", "statement": "Loading fails exactly when, for some program, two entries give a path, or two entries give the same one of workdir/uid/gid/user/group, or an entry without the path declares a cronjob; the verdict does not depend on the order of the entries (provided some entry has the path).", "quantifier": "all lists of entries and all permutations of them", "why_tests_cant": "order-independence quantifies over all permutations of an unbounded list", "anchors": ["src/config/mod.rs: ProcessConfig::merge", "src/config/config_parser.rs: merge_dropins"]}
{"id": "C03", "title": "Drop-in merging: argument and environment order", "statement": "In the loaded program the args (and env) of the entry holding the path come first; the lists of the other entries follow, each contiguous and in its own order, nothing lost and nothing duplicated.", "quantifier": "all lists of entries, in all orders", "why_tests_cant": "unbounded number of entries and permutations", "anchors": ["src/config/mod.rs: ProcessConfig::merge", "doc/README.md: Merging configuration"]}
{"id": "C04", "title": "One program per name", "statement": "After a successful load program names are unique, every name occurring in any entry is present, no other name is, and each program depends only on the entries bearing its name, in their order.", "quantifier": "all entry lists, all hash-map iteration orders", "why_tests_cant": "hash iteration order is randomised and the list is unbounded", "anchors": ["src/config/config_parser.rs: merge_dropins"]}
{"id": "C05", "title": "Type is decided by the path-holding entry", "statement": "The type of a loaded program is the type of the entry holding the path; an entry without a path that asks for any other type than the default is rejected.", "quantifier": "all entry lists and orders", "why_tests_cant": "quantifies over all orders of drop-ins", "anchors": ["src/config/mod.rs: ProcessConfig::merge", "doc/README.md: type"]}
{"id": "C06", "title": "Whole configuration tree is read, or start fails with code 1", "statement": "Given a directory, the programs of every regular file at any depth are taken exactly once; special files are skipped; if any file or directory is unreadable or does not parse, cinit exits with code 1 and starts nothing.", "quantifier": "all directory trees and contents", "why_tests_cant": "trees of unbounded depth and width", "anchors": ["src/config/config_parser.rs: read_config, parse_raw_config, parse_config"]}
{"id": "C07", "title": "No environment leakage", "statement": "The environment handed to a program contains only the nine documented default variables, variables named in its own env list, and NOTIFY_SOCKET if and only if configured or the program is of type notify; each name at most once.", "quantifier": "all cinit environments, all env lists whose names contain no equals sign, all users", "why_tests_cant": "the host environment and the env list are arbitrary", "anchors": ["src/analyse/process_builder.rs: convert_env, get_default_env, copy_from_config, flatten_to_strings"]}
{"id": "C08", "title": "Default environment always present and sanitised", "statement": "The nine default variables are always present; unless the env list mentions them HOME and PWD equal the target user's home, USER and LOGNAME its name, SHELL is /bin/sh, and LANG, LANGUAGE, PATH, TERM equal cinit's own value or the empty string.", "quantifier": "all host environments, users and env lists not naming the variable", "why_tests_cant": "arbitrary environments", "anchors": ["src/analyse/process_builder.rs: sanitise_env, get_default_env"]}
{"id": "C09", "title": "Configured environment values and forwarding", "statement": "A variable given without value is forwarded from cinit's environment if set there and otherwise leaves the environment unchanged; a variable given with a value gets the rendered template, or the raw text when rendering fails; the last mention wins; a template sees exactly the variables established before it.", "quantifier": "all env lists, host environments and template engines", "why_tests_cant": "unbounded lists; arbitrary template outcome", "anchors": ["src/analyse/process_builder.rs: copy_from_config, render_template"]}
{"id": "C10", "title": "Notify socket is always announced to notify programs", "statement": "A program of type notify always receives NOTIFY_SOCKET=/run/cinit-notify.socket whatever its env list says.", "quantifier": "all env lists and host environments", "why_tests_cant": "arbitrary env lists", "anchors": ["src/analyse/process_builder.rs: Process::from"]}
{"id": "C11", "title": "Argument vector", "statement": "The program is executed with its path as argument 0 followed by one argument per configured argument, in order, each being the rendering of the template in the program's final environment, or the raw text if rendering fails.", "quantifier": "all argument lists, environments and template engines", "why_tests_cant": "unbounded lists", "anchors": ["src/analyse/process_builder.rs: Process::from, treat_template_error_in_argument"]}
{"id": "C12", "title": "User and group resolution", "statement": "Giving both id and name, or an unknown id or name, is an error reported before any program runs; giving neither selects id 0; otherwise the program runs with exactly the id the user/group database associates.", "quantifier": "all user/group databases and all id/name combinations", "why_tests_cant": "database is arbitrary", "anchors": ["src/analyse/process_builder.rs: map_id, map_uid, map_gid"]}
{"id": "C13", "title": "Dependency graph acceptance", "statement": "A configuration with unique names passes dependency validation if and only if every before/after entry names a configured program, no after entry names a cronjob and the induced precedence relation has no cycle; the verdict does not depend on program order.", "quantifier": "all configurations, all hash orders", "why_tests_cant": "cycle-freedom over unbounded graphs", "anchors": ["src/runtime/dependency_graph.rs: with_nodes, validate_references, check_for_cycles"]}
{"id": "C14", "title": "Dependency errors point at the culprit", "statement": "A reported dependency error identifies a program and list position that really contains the unknown name (respectively the reference to a cronjob, respectively a program on a cycle), so error reporting itself never fails.", "quantifier": "all rejected configurations", "why_tests_cant": "unbounded configurations", "anchors": ["src/runtime/dependency_graph.rs: Error, validate_references", "src/analyse/process_manager_builder.rs: build_dependency_manager"]}
{"id": "C15", "title": "Dependants wait", "statement": "A program is reported runnable only if every program it depends on has been reported finished before.", "quantifier": "all accepted configurations, all interleavings of finish reports and queries", "why_tests_cant": "all interleavings", "anchors": ["src/runtime/dependency_graph.rs: notify_process_finished, pop_runnable, is_runnable"]}
{"id": "C16", "title": "Dependants are released", "statement": "As soon as every program it depends on has been reported finished, a program is reported runnable.", "quantifier": "all accepted configurations and all histories of finish reports", "why_tests_cant": "all interleavings", "anchors": ["src/runtime/dependency_graph.rs: notify_process_finished, is_runnable"]}
{"id": "C17", "title": "Released exactly once", "statement": "Over any history a program is handed out as runnable at most once, and reporting the same program finished again changes nothing.", "quantifier": "all accepted configurations and all histories, including repeated finish reports", "why_tests_cant": "all histories, duplicate reports", "anchors": ["src/runtime/dependency_graph.rs: notify_process_finished, pop_runnable"]}
{"id": "C18", "title": "Dependency bookkeeping never fails", "statement": "For any configured program reported finished at any time, any number of times, the bookkeeping neither underflows nor aborts.", "quantifier": "all accepted configurations and histories", "why_tests_cant": "underflow would need a specific unbounded history", "anchors": ["src/runtime/dependency_graph.rs: notify_process_finished"]}
{"id": "C19", "title": "No dependency deadlock", "statement": "In every state in which some program has not been handed out yet, some program is waiting to be handed out or has been handed out and not been reported finished.", "quantifier": "all accepted configurations and histories", "why_tests_cant": "needs acyclicity over unbounded graphs", "anchors": ["src/runtime/dependency_graph.rs: with_nodes, check_for_cycles"]}
{"id": "C20", "title": "Cron expression meaning", "statement": "Every well-formed five-field expression (numbers, ranges, lists, steps, stars within range) is accepted, and each field denotes exactly the values crontab(5) gives it; out-of-range values, reversed ranges, missing or surplus fields are rejected.", "quantifier": "all expressions built from the grammar", "why_tests_cant": "infinitely many expressions", "anchors": ["src/runtime/cronjob.rs: TimerDescription::parse, parse_element"]}
{"id": "C21", "title": "Cron parsing is total", "statement": "Parsing any text either yields an error message or a schedule whose five value sets are non-empty and within range; it never aborts cinit.", "quantifier": "all strings", "why_tests_cant": "infinitely many strings", "anchors": ["src/runtime/cronjob.rs: parse_element"]}
{"id": "C22", "title": "Scheduled instants match the expression", "statement": "The next execution computed for a job falls on a second-zero local time whose minute and hour are in the expression's sets and whose date satisfies the expression's day rule.", "quantifier": "all parsed expressions, all start instants, all fixed-offset zones", "why_tests_cant": "unbounded time axis", "anchors": ["src/runtime/cronjob.rs: TimerDescription::get_next_execution"]}
{"id": "C23", "title": "Scheduled instants lie in the future", "statement": "The next execution computed from an instant is strictly later than this instant.", "quantifier": "all expressions, instants, fixed-offset zones", "why_tests_cant": "unbounded time axis", "anchors": ["src/runtime/cronjob.rs: TimerDescription::get_next_execution"]}
{"id": "C24", "title": "No scheduled instant is skipped", "statement": "No instant strictly between the start instant and the computed next execution matches the expression.", "quantifier": "all expressions, instants, fixed-offset zones", "why_tests_cant": "unbounded time axis", "anchors": ["src/runtime/cronjob.rs: TimerDescription::get_next_execution"]}
{"id": "C25", "title": "Computing the next execution always succeeds", "statement": "For every accepted expression and every instant the next execution is computed in bounded time without aborting cinit.", "quantifier": "all expressions and instants", "why_tests_cant": "unbounded calendar search", "anchors": ["src/runtime/cronjob.rs: TimerDescription::get_next_execution"]}
{"id": "C26", "title": "Daylight saving gaps and folds", "statement": "If the wanted local time does not exist, the job is scheduled at the first later whole minute that exists (within 11 days); if it exists, it is scheduled at an instant showing exactly that local time.", "quantifier": "all time zones (arbitrary gap/fold structure), all instants", "why_tests_cant": "arbitrary zone rules", "anchors": ["src/runtime/cronjob.rs: TimerDescription::get_next_execution"]}
{"id": "C27", "title": "No cronjob is ever lost or duplicated in the schedule", "statement": "At every moment each configured cronjob has exactly one planned execution, however many jobs coincide and however the clock moves, so its next execution can always be reported.", "quantifier": "all sets of jobs, all sequences of clock readings including backward jumps", "why_tests_cant": "all clock histories; collisions of instants", "anchors": ["src/runtime/cronjob.rs: Cron::pop_runnable, insert_job, with_jobs, get_next_execution"]}
{"id": "C28", "title": "Due jobs and only due jobs fire, earliest first", "statement": "Asking for a due job yields one whose planned instant is not after the given time and is the earliest planned, and yields none exactly if no planned instant has been reached; other jobs' plans are untouched.", "quantifier": "all schedules and clock readings", "why_tests_cant": "unbounded schedules", "anchors": ["src/runtime/cronjob.rs: Cron::pop_runnable"]}
{"id": "C29", "title": "Cron polling terminates", "statement": "Polling for due jobs at a given time hands out each due job once and then reports none.", "quantifier": "all job sets and instants", "why_tests_cant": "termination", "anchors": ["src/runtime/cronjob.rs: Cron::pop_runnable", "src/runtime/process_manager/mod.rs: spawn_children"]}
{"id": "C30", "title": "No program starts before its dependencies completed", "statement": "Whenever a program (cronjob or not) is started, each program it depends on has earlier terminated with code 0 or, being of type notify, has announced READY=1.", "quantifier": "all accepted configurations, all schedules of exits, notifications, signals, fork failures, clock readings", "why_tests_cant": "all event interleavings", "anchors": ["src/runtime/process_manager/mod.rs: spawn_children, handle_finished_child", "src/runtime/process_manager/notify_manager.rs: handle_notification"]}
{"id": "C31", "title": "Non-cron programs start at most once", "statement": "A oneshot or notify program is started at most once during the life of cinit.", "quantifier": "all configurations and event schedules", "why_tests_cant": "all interleavings", "anchors": ["src/runtime/process_manager/mod.rs: spawn_child"]}
{"id": "C32", "title": "Cronjobs are not reentrant", "statement": "Between two starts of the same cronjob its earlier run has terminated with code 0.", "quantifier": "all configurations and event schedules", "why_tests_cant": "all interleavings of timers and exits", "anchors": ["src/runtime/process_manager/mod.rs: spawn_child, handle_finished_child"]}
{"id": "C33", "title": "Nothing starts after shutdown began", "statement": "Once a termination signal was received or a program terminated unsuccessfully, no program is started any more.", "quantifier": "all configurations and event schedules", "why_tests_cant": "all interleavings", "anchors": ["src/runtime/process_manager/mod.rs: start, initiate_shutdown"]}
{"id": "C34", "title": "Exit status", "statement": "When the event loop ends cinit's exit status is 6 if some supervised program terminated with non-zero status or by signal, and 0 otherwise.", "quantifier": "all configurations and event schedules", "why_tests_cant": "all interleavings", "anchors": ["src/runtime/process_manager/mod.rs: handle_finished_child, start", "doc/Integration.md: Exit Codes"]}
{"id": "C35", "title": "Termination signals reach every live child", "statement": "On SIGINT, SIGQUIT, SIGTERM (delivered as SIGINT) or a crash, every supervised program that is currently alive is sent the signal, once, at its main pid, and nobody else is.", "quantifier": "all reachable states", "why_tests_cant": "all interleavings", "anchors": ["src/runtime/process_manager/mod.rs: handle_signal, initiate_shutdown, signal_children"]}
{"id": "C36", "title": "cinit outlives its children", "statement": "cinit's event loop only ends when no supervised main process is left unreaped and every output stream of its programs has been closed.", "quantifier": "all configurations and event schedules", "why_tests_cant": "all interleavings", "anchors": ["src/runtime/process_manager/mod.rs: start", "src/runtime/process_map.rs: has_running_processes"]}
{"id": "C37", "title": "Foreign zombies are reaped without side effects", "statement": "Termination of a process that is not a main process of any program is reaped and changes neither program states, nor dependencies, nor the exit status, nor the running condition.", "quantifier": "all reachable states, pids and codes", "why_tests_cant": "all states", "anchors": ["src/runtime/process_manager/mod.rs: handle_finished_child"]}
{"id": "C38", "title": "Only notify programs may notify", "statement": "A datagram whose sender is not the main process of a program of type notify has no effect on any program, dependency or the pid table.", "quantifier": "all reachable states, datagrams and senders", "why_tests_cant": "arbitrary datagrams", "anchors": ["src/runtime/process_manager/notify_manager.rs: process"]}
{"id": "C39", "title": "Meaning of a notification message", "statement": "The effect of an accepted datagram is that of its last READY, STOPPING, STATUS and MAINPID assignment each, independent of the order in which the distinct variables are applied; other lines are ignored.", "quantifier": "all messages, all hash orders", "why_tests_cant": "hash order is randomised; arbitrary text", "anchors": ["src/runtime/process_manager/notify_manager.rs: parse, process", "src/runtime/process.rs: handle_notification"]}
{"id": "C40", "title": "Readiness", "statement": "READY=1 releases the sender's dependants like a successful termination would, at most once overall; any other READY value has no effect; a later termination does not release them again.", "quantifier": "all histories", "why_tests_cant": "all interleavings of readiness and exits", "anchors": ["src/runtime/process_manager/notify_manager.rs: handle_notification", "src/runtime/dependency_graph.rs: notify_process_finished"]}
{"id": "C41", "title": "Main pid hand-over", "statement": "After MAINPID=p from a program, termination of p is attributed to this program and termination of the former main pid is not; no other program's supervision is affected.", "quantifier": "all reachable states and pids", "why_tests_cant": "arbitrary pids including those of other programs", "anchors": ["src/runtime/process_manager/notify_manager.rs: handle_notification", "src/runtime/process.rs: handle_notification"]}
{"id": "C42", "title": "Program life cycle", "statement": "The reported state of a program moves only along: blocked to starting (notify) or running; starting to running or stopping; running to stopping; those three to done, sleeping (cronjobs only) or crashed; sleeping to running. done and crashed are final.", "quantifier": "all configurations and event schedules", "why_tests_cant": "all interleavings", "anchors": ["src/runtime/process.rs: ProcessState, start, handle_notification", "src/runtime/process_manager/mod.rs: handle_finished_child"]}
{"id": "C43", "title": "Child output is logged completely and under the right name", "statement": "Every character a program writes, except line terminators, appears exactly once and in order in cinit's log, in messages tagged with this program's name and sent to the stream (stdout or stderr) it was written to, however the output is chunked.", "quantifier": "all output texts and all ways reads may cut it", "why_tests_cant": "arbitrary chunking", "anchors": ["src/runtime/process_manager/mod.rs: print_child_output", "src/runtime/process_map.rs: is_stdout, process_for_fd"]}
{"id": "C44", "title": "Status report", "statement": "The status report lists every program once, in a fixed order, with its current state; an exit code is shown exactly for done and crashed programs (0 for done, the code otherwise), a planned execution exactly for cronjobs, a pid exactly for programs alive; producing it never fails.", "quantifier": "all reachable states", "why_tests_cant": "all reachable states", "anchors": ["src/runtime/process_manager/status_reporter.rs: format_report"]}
{"id": "C45", "title": "Clean completion", "statement": "If the event loop ends without a termination signal, a crash, or a failure to fork, every oneshot and notify program has been started and has terminated successfully.", "quantifier": "all accepted configurations and event schedules", "why_tests_cant": "liveness of the dependency resolution over all interleavings", "anchors": ["src/runtime/process_manager/mod.rs: start", "src/runtime/dependency_graph.rs"]}
{"id": "C46", "title": "Internal consistency", "statement": "No sequence of external events makes cinit abort on one of its own consistency checks (unknown program id, unknown file descriptor, index out of range, counter underflow, unknown cron id).", "quantifier": "all accepted configurations and event schedules", "why_tests_cant": "all interleavings", "anchors": ["src/runtime/process_manager/mod.rs", "src/runtime/process_map.rs", "src/runtime/dependency_graph.rs", "src/runtime/cronjob.rs"]}
{"id": "C47", "title": "No message can abort cinit", "statement": "No datagram sent to the world-writable notify socket, by whomever, makes cinit abort.", "quantifier": "all byte strings and senders", "why_tests_cant": "arbitrary bytes", "anchors": ["src/runtime/process_manager/notify_manager.rs: read_socket", "src/util/libc_helpers.rs: slice_to_string"]}
{"id": "C48", "title": "Credentials of executed programs", "statement": "A program configured with a non-root user is executed with exactly the configured uid, gid, the single supplementary group gid, and with permitted, effective, inheritable and ambient capability sets equal to the recognised configured capabilities.", "quantifier": "all initial kernel credential states in which set-up succeeds, all configured sets", "why_tests_cant": "kernel credential state space", "anchors": ["src/runtime/process.rs: set_user_and_caps, setup_child"]}
{"id": "C49", "title": "Fail closed", "statement": "If any of changing directory, user, group or capabilities fails, the program is not executed and the child terminates with code 4.", "quantifier": "all failure points", "why_tests_cant": "all combinations of failing system calls", "anchors": ["src/runtime/process.rs: start, setup_child, set_user_and_caps"]}
{"id": "C50", "title": "Preconditions", "statement": "cinit refuses to run (exit code 5) exactly if it is not root or the kernel release parses as a version older than 4.3.", "quantifier": "all kernel release strings and uids", "why_tests_cant": "arbitrary strings", "anchors": ["src/startup_checks.rs"]}
{"id": "C51", "title": "Exit code classification and nothing runs on error", "statement": "cinit's own exit code is 5, 1, 2, 3 for failing preconditions, unreadable configuration, invalid configuration and runtime set-up respectively, tested in this order, and in these cases no program has been started; otherwise it is 0 or 6.", "quantifier": "all environments and configurations", "why_tests_cant": "all combinations of failures", "anchors": ["src/main.rs: run", "src/analyse/process_manager_builder.rs: ProcessManager::from"]}
{"id": "C52", "title": "Verbosity", "statement": "Passing -v more often never reduces the amount of messages logged.", "quantifier": "all numbers of -v flags", "why_tests_cant": "unbounded flag count", "anchors": ["src/logging/mod.rs: initialise"]}
{"id": "C53", "title": "Documented notation of months and weekdays", "statement": "The notation of crontab(5), to which the manual refers with two stated exceptions, is accepted: 7 for Sunday and three-letter names for months and weekdays.", "quantifier": "all expressions using 7 or names in the weekday or month field", "why_tests_cant": "all spellings", "anchors": ["src/runtime/cronjob.rs: TimerDescription::parse, parse_element", "doc/README.md"]}
{"id": "C54", "title": "Malformed cron expressions are rejected", "statement": "A timer text that is not five white-space separated fields, each a comma-separated list of numbers, ranges and stars with an optional step behind a range or star, is rejected.", "quantifier": "all texts", "why_tests_cant": "arbitrary strings", "anchors": ["src/runtime/cronjob.rs: TimerDescription::parse, parse_element"]}
{"id": "C55", "title": "Building a program never aborts cinit", "statement": "Turning a program's configuration into a runnable program either succeeds or yields an error that is reported; it never aborts cinit.", "quantifier": "all program configurations, environments and user databases", "why_tests_cant": "arbitrary strings in every field", "anchors": ["src/analyse/process_builder.rs: Process::from, render_template, flatten_to_strings"]}
{"id": "C56", "title": "Configured attributes reach the program", "statement": "A built program carries exactly the configured name, path, pseudo-terminal flag, capability list and type, the configured working directory (the current one if none is given), and is initially sleeping if it is a cronjob and blocked otherwise.", "quantifier": "all program configurations that are accepted", "why_tests_cant": "all combinations of fields", "anchors": ["src/analyse/process_builder.rs: Process::from"]}
{"id": "C57", "title": "Every death of a main process is noticed", "statement": "Whenever the main process of a program dies, with a code or by any signal, cinit learns which program it belonged to and treats that program as terminated.", "quantifier": "all runs, all ways of dying", "why_tests_cant": "all interleavings and all signals", "anchors": ["src/runtime/process_manager/mod.rs: ProcessManager::handle_finished_child, look_for_finished_children"]}
{"id": "C58", "title": "Programs start promptly", "statement": "Whenever cinit waits for something to happen and is not shutting down, starting has been tried for every program that is not a cronjob and whose dependencies have all completed.", "quantifier": "all runs, all points where cinit waits, all programs", "why_tests_cant": "all interleavings", "anchors": ["src/runtime/process_manager/mod.rs: ProcessManager::spawn_children, dispatch_epoll", "src/runtime/dependency_graph.rs: DependencyManager::pop_runnable"]}
{"id": "C59", "title": "Cronjobs start only when due", "statement": "A cronjob is started only right after a reading of the clock at or after the instant for which it is planned.", "quantifier": "all runs, all cronjobs", "why_tests_cant": "all interleavings and clock readings", "anchors": ["src/runtime/process_manager/mod.rs: ProcessManager::spawn_children", "src/runtime/cronjob.rs: Cron::pop_runnable"]}
{"id": "C60", "title": "Due cronjobs are not overlooked", "statement": "Whenever a cronjob is due at a reading of the clock, the next thing cinit does is to start it, to report that starting it failed, to refuse it because it still runs, or to postpone it because of unfinished dependencies; and cinit never waits for events unless the schedule has just been consulted and nothing was due, or it is shutting down.", "quantifier": "all runs, all cronjobs, all clock readings", "why_tests_cant": "all interleavings of clock readings, dependencies and events", "anchors": ["src/runtime/process_manager/mod.rs: ProcessManager::spawn_children", "src/runtime/cronjob.rs: Cron::pop_runnable"]}
{"id": "C61", "title": "Every report of the kernel is served", "statement": "Whatever the kernel reports as readable is read in the same round, in the order of the reports, from the descriptor reported: signals from the signal descriptor, status requests and messages from their sockets, everything else as output of a program; a stream is closed only when its end was reported without anything left to read. No report is dropped, repeated or attributed to another descriptor.", "quantifier": "all runs, all batches of kernel reports", "why_tests_cant": "all combinations of readiness and hang-up in one batch", "anchors": ["src/runtime/process_manager/mod.rs: ProcessManager::dispatch_epoll, handle_event"]}
{"id": "C62", "title": "Terminated children are reaped in every round", "statement": "Between two waits for events, and before it starts anything or ends, cinit collects terminated children until the kernel has none left.", "quantifier": "all runs, all rounds", "why_tests_cant": "all interleavings", "anchors": ["src/runtime/process_manager/mod.rs: ProcessManager::start, look_for_finished_children"]}
{"id": "C63", "title": "Failures to execute a program are reported", "statement": "If a program cannot be executed, its output (which cinit logs) says that and why.", "quantifier": "all programs, all failure points of the set-up", "why_tests_cant": "all combinations of failing system calls; descriptor lifetimes are implicit in the code", "anchors": ["src/runtime/process.rs: start, setup_child, map_to_errno"]}
{"id": "C64", "title": "Programs inherit only what cinit was started with", "statement": "Whatever cinit has opened, started, served and closed before, a program begins with exactly the inheritable descriptors cinit itself was started with, its standard output and error being replaced by pipes of its own.", "quantifier": "all sequences of openings, starts (including failed ones), hang-ups and reports; all descriptor numbers handed out by the kernel", "why_tests_cant": "all histories of descriptor use", "anchors": ["src/runtime/process.rs: start, create_std_fds, setup_child", "src/analyse/process_manager_builder.rs", "src/runtime/process_map.rs: deregister_fd"]}
{"id": "C65", "title": "Capabilities confine programs", "statement": "A program has no capabilities but the configured ones, whoever its user is.", "quantifier": "all initial credentials, users, configured sets", "why_tests_cant": "kernel credential state space", "anchors": ["src/runtime/process.rs: set_user_and_caps", "README.md"]}
{"id": "C66", "title": "Signal state of programs", "statement": "A program begins with no signals blocked and none ignored, whatever cinit blocks or ignores itself.", "quantifier": "all masks and dispositions of cinit", "why_tests_cant": "the disposition is set implicitly by the language runtime", "anchors": ["src/runtime/process.rs: setup_child", "src/analyse/process_manager_builder.rs"]}
{"id": "C67", "title": "Programs are executed as configured", "statement": "What is executed is the configured program with exactly the configured arguments and environment in the configured working directory.", "quantifier": "all programs", "why_tests_cant": "all configurations", "anchors": ["src/runtime/process.rs: setup_child"]}
{"id": "C68", "title": "The output of a program ends with the program", "statement": "The end of an output pipe a program writes to is held by no other process cinit has started and never by cinit once the program has been started, so that cinit notices the end of the output.", "quantifier": "all sequences of starts, hang-ups and reports", "why_tests_cant": "all histories of descriptor use", "anchors": ["src/runtime/process.rs: start, create_std_fds, create_pipes, create_ptys"]}
{"id": "C69", "title": "cinit ends once nothing is left to wait for", "statement": "cinit waits for something to happen only while some program is alive, some output stream is open or some program has become startable since it last waited; if none of this is the case once all terminated children have been reaped, the next thing cinit does is to end.", "quantifier": "all configurations, all sequences of answers of the kernel, every point of a run", "why_tests_cant": "liveness-like claim over all event sequences; forgetting to deregister one descriptor in one of many paths makes cinit hang forever", "anchors": ["src/runtime/process_manager/mod.rs: start", "src/runtime/process_map.rs: has_running_processes, deregister_fd, deregister_pid", "src/runtime/dependency_graph.rs: has_runnables"]}
{"id": "C70", "title": "Cronjobs keep cinit running", "statement": "If some cronjob is configured and cinit is neither told to stop nor any program crashes, cinit does not end, so that the cronjob is executed whenever its timer demands it.", "quantifier": "all configurations with a cronjob, all runs", "why_tests_cant": "depends on what else happens to be running at every instant", "anchors": ["src/runtime/process_manager/mod.rs: start, spawn_children", "doc/README.md: Cronjob"]}
{"id": "C71", "title": "What the kernel reports is taken as it is", "statement": "Everything the kernel tells cinit (the time, new processes, deaths and their status, signals, messages and their senders, output, readiness, failures) is acted upon exactly once, in the order told and unaltered; in particular every reported death is recorded with the reported status.", "quantifier": "all sequences of answers of the kernel, all runs", "why_tests_cant": "all interleavings of answers; an answer dropped, doubled or altered in one branch goes unnoticed otherwise", "anchors": ["src/runtime/process_manager/mod.rs: look_for_finished_children, dispatch_epoll, handle_event, print_child_output, spawn_child", "src/runtime/process_manager/notify_manager.rs: read_socket", "src/runtime/process_manager/status_reporter.rs"]}
{"id": "C72", "title": "cinit listens to every program it has started", "statement": "Whenever a program has been started, the next things cinit does are to register its standard output and its standard error for being read.", "quantifier": "all runs, every start of every program", "why_tests_cant": "every start in every situation", "anchors": ["src/runtime/process_manager/mod.rs: spawn_child, register_fd_at_epoll"]}
{"id": "C73", "title": "cinit leaks no descriptors", "statement": "At every point of a run, the descriptors cinit holds are those it held when its event loop started and the output streams of programs that have not ended; output streams are never confused with the descriptors of cinit itself, and when cinit ends exactly the initial descriptors are open.", "quantifier": "all configurations, all sequences of answers of the kernel, every point of a run, including runs that abort", "why_tests_cant": "leaks show up only after many starts; every path on which a stream ends has to be right", "anchors": ["src/runtime/process_map.rs: register_stdout, register_stderr, deregister_fd", "src/runtime/process_manager/mod.rs: handle_event, deregister_fd, spawn_child"]}
{"id": "C74", "title": "Configuration files mean what is documented", "statement": "A document is loaded exactly if it is a mapping with one key `programs`, a list of mappings with the documented keys and kinds of values; each field of a program is the value of its key, or the documented default if the key is not given. The order of the keys does not matter, and every configuration can be written down.", "quantifier": "all YAML documents, all readings of plain scalars by the YAML library, all hash orders", "why_tests_cant": "the space of documents is infinite; attributes of the derived code (names, defaults, optionality) are spread over fourteen fields", "anchors": ["src/config/mod.rs: Config, ProcessConfig, ProcessType, default_process_type", "doc/README.md: Configuration"]}
{"id": "C75", "title": "Malformed configuration files are refused", "statement": "A document without `programs`, a program without a name, a key given twice or a value of the wrong kind make cinit end with code 1 before anything is started.", "quantifier": "all YAML documents and directories of them", "why_tests_cant": "every key and every wrong kind of value, in any of the files", "anchors": ["src/config/mod.rs: Config, ProcessConfig, ProcessType", "src/config/config_parser.rs: parse_raw_config"]}
{"id": "C76", "title": "Misspelt keys are refused", "statement": "A program with a key that is not documented is refused, so that a misspelt setting (say, of the user to run as) does not go unnoticed.", "quantifier": "all YAML documents", "why_tests_cant": "all possible keys", "anchors": ["src/config/mod.rs: ProcessConfig"]}
{"id": "C77", "title": "Log lines can be attributed", "statement": "Whatever programs, messages and failures occur, a reader of the log of cinit who splits it into lines and looks at the names in brackets finds under the name of a program exactly the lines this program has written, in order; nothing else can make a line appear under that name.", "quantifier": "all configurations, runs, levels of verbosity and interleavings of messages of cinit with output of programs", "why_tests_cant": "adversarial contents of output, names and messages; the space of texts is infinite", "anchors": ["src/logging/mod.rs: initialise", "src/runtime/process_manager/notify_manager.rs: handle_notification", "src/runtime/process_manager/mod.rs: print_child_output", "doc/README.md: Logging"]}
{"id": "C78", "title": "Output of programs is logged whatever the verbosity", "statement": "Each line of a program is written exactly once in the documented format, to the standard output or standard error of cinit according to the stream it came from, for every number of -v; messages of cinit itself go to the standard output, once, if their level is wanted.", "quantifier": "all texts, names, times, verbosities and sequences of messages", "why_tests_cant": "log4rs routes by prefixes of targets, levels and additivity, so that duplicates or losses occur only for some combinations of targets and levels", "anchors": ["src/logging/mod.rs: initialise", "src/runtime/process_manager/mod.rs: print_child_output"]}
{"id": "C79", "title": "Failures to start programs are reflected in the exit code", "statement": "If some program could not be started (the fork failed, or something failed between fork and exec), cinit ends with the documented exit code 4.", "quantifier": "all configurations, all runs", "why_tests_cant": "needs a failing kernel at an arbitrary point of an arbitrary run", "anchors": ["src/runtime/process_manager/mod.rs: spawn_child, start", "src/runtime/process.rs: start", "doc/Integration.md: Exit Codes"]}
{"id": "C80", "title": "Programs with pty get terminals of their own", "statement": "A program with `pty` gets two new terminals as standard output and error. They belong to its user and group with mode 0620, have the size of the terminal of cinit or 24 times 80, and processed, echoing, line-edited settings. If something fails, no terminal is left over; if nothing fails it works whether cinit has got a terminal or not.", "quantifier": "all users and groups, terminals of cinit, failures of any of the calls, and other terminals in use", "why_tests_cant": "each of ten calls may fail; the settings of every terminal of cinit", "anchors": ["src/runtime/process.rs: create_ptys", "src/util/libc_helpers.rs: ttyname, get_terminal_size"]}
{"id": "C81", "title": "Terminals do not change what is logged", "statement": "What a program writes to its terminal is logged like what it writes to a pipe; in particular the carriage returns added by the terminal do not appear in the log.", "quantifier": "all texts and all ways the output is cut into reads", "why_tests_cant": "all ways of cutting output into reads", "anchors": ["src/runtime/process.rs: create_ptys", "src/runtime/process_manager/mod.rs: print_child_output"]}
{"id": "C82", "title": "Programs given by name are found along their PATH", "statement": "A program whose `path` contains no slash is the first executable file of that name along the `PATH` it is given, directories without such a file being passed over; a `path` with a slash is executed as it is. If there is none, starting it fails.", "quantifier": "all configurations, environments, search paths and contents of the directories on them", "why_tests_cant": "all search paths, including empty entries and unusable files", "anchors": ["src/runtime/process.rs: setup_child", "src/analyse/process_builder.rs: convert_env"]}
{"id": "C83", "title": "Sockets are offered to everybody, whatever was there before", "statement": "If cinit gets its sockets set up, fresh sockets are at /run/cinit.socket and /run/cinit-notify.socket, usable by every user whatever the file mode creation mask, identifying their senders, the first one accepting connections; exactly SIGCHLD, SIGINT, SIGTERM and SIGQUIT are blocked in addition and delivered through the signal descriptor. Unless the kernel refuses a call, this fails only if there is a directory in the way; leftovers of an earlier run do no harm. If it fails, no socket is kept open, and other files are never touched.", "quantifier": "all contents of the file system, file mode creation masks, and failures of any of the calls", "why_tests_cant": "needs every call to fail in turn on every state of the file system", "anchors": ["src/analyse/process_manager_builder.rs: setup_file_descriptors, setup_signal_handler, setup_unix_socket", "src/util/libc_helpers.rs: map_to_errno"]}
{"id": "C84", "title": "The log tells what became of programs", "statement": "Whoever reads the standard output of cinit finds, in the order in which it happened, that programs were started, completed, went to sleep until their next execution, crashed with which exit code, and which foreign processes were reaped; and nothing of that kind that did not happen.", "quantifier": "all configurations whose names of programs contain no line feeds and closing brackets and do not begin with the word Starting, all runs, without -v or with more than two", "why_tests_cant": "The relation is between the whole history of a run and the text read back from the standard output; tests inspect single messages.", "anchors": ["src/runtime/process_manager/mod.rs: spawn_child, handle_finished_child, look_for_finished_children, spawn_children", "src/logging/mod.rs: initialise"]}
{"id": "C85", "title": "Status texts are logged", "statement": "Every status text that a program of type notify publishes is found in the log of cinit, together with the name of the program.", "quantifier": "all verbosities, configurations and runs", "why_tests_cant": "Depends on the verbosity and on who sends what when; the tests of the project run with full verbosity only.", "anchors": ["doc/README.md: Notify", "src/runtime/process.rs: handle_notification", "src/logging/mod.rs: initialise"]}
{"id": "C86", "title": "Runs are reproducible", "statement": "Starting cinit twice with the same configuration on the same machine, with everything outside of cinit behaving the same, leads to the same run: the same programs are started in the same order, with the same reactions to everything.", "quantifier": "all machines, configurations and behaviours of the kernel and of programs; all orders of iteration over hash tables", "why_tests_cant": "A statement about pairs of runs and about randomly seeded hash tables, which are different each time the tests are run.", "anchors": ["src/runtime/dependency_graph.rs: find_initial_runnables, check_for_cycles", "src/runtime/process_manager/notify_manager.rs: process", "src/config/config_parser.rs: merge_dropins"]}
{"id": "C87", "title": "The log is in order", "statement": "In the log a line of a program never comes before the message that this program is being started. After the message that cinit shuts down no program is announced any more. If cinit ends by itself after having supervised programs, the last thing it says is that it exits; otherwise it does not say so.", "quantifier": "all configurations, all runs, all texts of errors and other details that the messages show; the first part also for the text on the standard output as read without -v, for names of programs without line feeds and closing brackets", "why_tests_cant": "The order of messages and events over all runs, with failures of calls and aborts at any point.", "anchors": ["src/runtime/process_manager/mod.rs: start, spawn_child, print_child_output", "src/runtime/process.rs: start"]}
{"id": "C88", "title": "Not starting is explained", "statement": "If cinit ends with exit code 5, 1 or 2 before starting programs, there are error messages, on the standard output at every verbosity, and each says a fault that is there: an old kernel, a user other than root, the path of what cannot be read, malformed files, clashes between entries for a program, the program with wrong user, missing path or forbidden dependencies, unknown names, a cycle, what is wrong with a timer, the sockets. Faults in dependencies, timers and sockets are reported together. The general messages tell how far it got; if programs are started, there was no error.", "quantifier": "all machines and configurations, all texts of errors of libraries and the kernel", "why_tests_cant": "truth of messages for all faults and combinations of faults; tests look at exit codes of sample configurations", "anchors": ["src/startup_checks.rs", "src/config/config_parser.rs: read_config, parse_raw_config, merge_dropins", "src/analyse/process_manager_builder.rs: ProcessManager::from", "src/analyse/process_builder.rs", "src/runtime/dependency_graph.rs: with_nodes", "src/runtime/cronjob.rs: with_jobs, parse_element", "doc/Integration.md: Exit Codes"]}
{"id": "C89", "title": "Warnings at the start are true", "statement": "When cinit starts, it warns about a kernel version it cannot find out, about each file it ignores, about every template in variables and arguments that cannot be rendered or has braces afterwards, and about a configured NOTIFY_SOCKET of programs of type notify; about nothing else, and in this order. When it says that the raw value is used, it is, and when it says that a value is ignored, it is.", "quantifier": "all machines, configurations, environments and outcomes of rendering", "why_tests_cant": "all sequences of assignments, each rendered in the environment of those before", "anchors": ["src/analyse/process_builder.rs: copy_from_config, treat_template_error_in_argument, convert_env", "src/config/config_parser.rs: read_config", "src/startup_checks.rs: check_kernel_version"]}
{"id": "C90", "title": "Errors identify the faulty file or program", "statement": "An error about the configuration says which file or which program it is about: for configurations of which different files are malformed the errors differ.", "quantifier": "all trees of configuration files", "why_tests_cant": "a statement about pairs of configurations", "anchors": ["src/config/config_parser.rs: read_config, parse_raw_config"]}
{"id": "C91", "title": "Jobs of every day are executed every day", "statement": "Where the clock is changed by no more than an hour (daylight saving time), a job of every day is planned for today if its time is still to come and else for tomorrow; if its time does not exist then, for the first existing minute after it.", "quantifier": "all time zones, instants and times of day", "why_tests_cant": "needs instants around the changes of the clock in every zone", "anchors": ["src/runtime/cronjob.rs: get_next_execution", "doc/README.md: Cronjob"]}
{"id": "C92", "title": "cinit stays responsive when the clock is set back", "statement": "Where the clock is changed by no more than an hour, cinit starts each job that is due once and goes on; it does not come back to the same job forever.", "quantifier": "all time zones, configurations of jobs not restricted to a weekday, histories of polls", "why_tests_cant": "needs instants around the changes of the clock, and termination of a loop", "anchors": ["src/runtime/cronjob.rs: get_next_execution, pop_runnable", "src/runtime/process_manager/mod.rs: spawn_children"]}
{"id": "C93", "title": "Jobs of every hour keep their pace", "statement": "Where the clock is changed by no more than an hour, a job of every hour is executed at each instant at which the clock shows one of its minutes; none is left out.", "quantifier": "all time zones, sets of minutes and instants", "why_tests_cant": "needs instants around the changes of the clock in every zone", "anchors": ["src/runtime/cronjob.rs: get_next_execution"]}
{"id": "C94", "title": "Warnings and errors have a reason", "statement": "While cinit supervises its programs every warning and every error in its own log is about something that has happened, and they come in the order of what happened: a failed receive, a message without sender, from an unknown process, from a program that is not of type notify, with lines that are no assignments, with flags other than 1 or with a main process that is not a number, a failed status report, a failed wait for events, an event that is neither input nor hang-up, a stream that cannot be watched or removed, a program that cannot be started, crashes, refuses or has been asked for in vain. What the text says is what has happened. Warnings and errors are shown whatever the verbosity.", "quantifier": "all configurations, all behaviours of the kernel and of the programs, all states of the run, all levels of verbosity", "why_tests_cant": "the failures have to be provoked in the kernel, in all orders and combinations, and a warning without a reason shows only where nobody looks for one", "anchors": ["src/runtime/process_manager/mod.rs: dispatch_epoll, handle_event, register_fd_at_epoll, deregister_fd_from_epoll, handle_finished_child, spawn_child, start", "src/runtime/process_manager/notify_manager.rs: read_notification, process, handle_notification, parse"]}
{"id": "C95", "title": "Failures are logged", "statement": "While cinit supervises its programs each request to the kernel that fails - waiting for events, reading output of programs, signals and notifications, accepting connections for status reports, starting programs, watching their output - is followed by a warning or an error in the log before the next event.", "quantifier": "all configurations, all behaviours of the kernel and of the programs", "why_tests_cant": "every call has to fail in every state", "anchors": ["src/runtime/process_manager/mod.rs: dispatch_epoll, print_child_output, handle_signal, register_fd_at_epoll, spawn_child", "src/runtime/process_manager/status_reporter.rs: report_status", "src/runtime/process_manager/notify_manager.rs: read_notification"]}
{"id": "C96", "title": "Cronjobs run when their expressions say", "statement": "In a whole run, a cronjob is given a turn (it is started, or it is said why it is not started now) only if an instant matching its expression has passed since its last turn, or since the clock was read for it at the start; and whenever cinit waits for something to happen and is not shutting down, every job has had a turn since each matching instant that is over. Status reports show the instant each job is next due.", "quantifier": "all configurations, all expressions, all offsets of the local time from UTC, all sequences of clock readings (ascending or not), all behaviours of the kernel and of the programs", "why_tests_cant": "it takes runs of days; tests only compute single next executions from single instants", "anchors": ["src/runtime/cronjob.rs: Cron::with_jobs, Cron::pop_runnable, Cron::get_next_execution, TimerDescription::get_next_execution", "src/runtime/process_manager/mod.rs: spawn_children", "src/runtime/process_manager/status_reporter.rs: format_report"]}
{"id": "C97", "title": "Clients of the status socket cannot hold up cinit", "statement": "Whatever a client of the status socket does after it has connected (reading slowly, reading nothing, leaving early, leaving late), cinit goes on supervising its programs; what the client receives is the report from its beginning on, all of it if it keeps reading.", "quantifier": "all configurations, all states of the programs, all interleavings of the writes of cinit with reads of any size by the client and with its leaving, all amounts of memory the kernel provides for the connection", "why_tests_cant": "whether a write blocks depends on the number of programs, on the kernel's limits and on the timing of the client; the tests use few programs and a client that reads to the end", "anchors": ["src/runtime/process_manager/status_reporter.rs: ProcessManager::report_status, write_report, format_report", "src/runtime/process_manager/mod.rs: ProcessManager::dispatch_epoll", "src/analyse/process_manager_builder.rs: setup_unix_socket"]}
{"id": "C98", "title": "cinit hears of the end of everything it waits for", "statement": "Whenever cinit sleeps until something happens, the kernel will wake it for the end of every output stream of a program whose end cinit has not seen yet; so cinit cannot wait forever for programs that are gone.", "quantifier": "all configurations, all answers of the kernel, all moments of a run at which cinit waits", "why_tests_cant": "registrations fail only when the kernel runs out of memory or watches; no test provokes that, and that a run never ends cannot be observed", "anchors": ["src/runtime/process_manager/mod.rs: ProcessManager::register_fd_at_epoll, dispatch_epoll, handle_event, start", "src/runtime/process_map.rs: ProcessMap::register_stdout, register_stderr, has_running_processes"]}
{"id": "C99", "title": "The log is an exact account of the run", "statement": "Apart from a greeting, every entry cinit writes to the log while it supervises programs has its reason in something that has happened, in the order in which it happened, and everything that gives reason for an entry is found in the log: the start of a program, each message of a program with what becomes of each of its lines, the end of each process, each reading of the clock at which a cronjob is due, each failure, the beginning and the end of the shutdown. Nothing is said twice, left out or made up, whatever the verbosity.", "quantifier": "all configurations, all answers of the kernel, all messages of programs, all orders in which hash tables are iterated", "why_tests_cant": "tests compare the output of a few runs; that no entry is ever missing, superfluous or misplaced is a statement about all runs, including those in which system calls fail", "anchors": ["src/runtime/process_manager/mod.rs: ProcessManager::start, handle_event, handle_signal, handle_finished_child, spawn_child", "src/runtime/process_manager/notify_manager.rs: ProcessManager::process, parse", "src/runtime/process.rs: Process::start, handle_notification", "src/runtime/dependency_graph.rs: DependencyManager::notify_process_finished", "src/runtime/cronjob.rs: Cron::pop_runnable"]}
{"id": "C100", "title": "The status report can be read", "statement": "The status report is a document in the format its example in the documentation is labelled with (YAML): a reader of this format finds the programs with their names, states, status texts, exit codes, process ids and planned executions, with exactly the values that are meant, whatever the programs are called and whatever status texts they send.", "quantifier": "all configurations, all status texts programs send, all moments of all runs at which a report is asked for", "why_tests_cant": "tests compare a report with the expected text for tame names and status texts; which texts survive being written without quotes and escapes is a question about all texts", "anchors": ["src/runtime/process_manager/status_reporter.rs: ProcessManager::format_report, write_report", "src/runtime/process.rs: Process::handle_notification", "doc/README.md: Status Reporting"]}
{"id": "C101", "title": "A configuration file counts once, however many links lead to it", "statement": "If everything beneath the configuration path can be read, the contents of each file found there are taken once, also if symbolic links or several names lead to it; links that form a circle make cinit exit with code 1 instead of reading for ever.", "quantifier": "all contents of the file system: directories, files, hard and symbolic links (absolute, relative, dangling, circular), special files", "why_tests_cant": "the tests read plain directories; which files are met how often depends on every arrangement of links, for example those of a ConfigMap mounted by Kubernetes", "anchors": ["src/config/config_parser.rs: read_config, read_file, parse_config"]}
{"id": "C102", "title": "Signals only go to the programs cinit has started", "statement": "Whenever cinit sends a signal, it goes to a single process, which cinit has started as a program and whose end it has not yet been told. No program can make cinit send a signal to anybody else.", "quantifier": "all configurations, all answers of the kernel, all messages of programs, all orders in which processes end and messages arrive", "why_tests_cant": "the tests stop well-behaved programs; whom a signal reaches depends on every message and death before it", "anchors": ["src/runtime/process_manager/mod.rs: ProcessManager::signal_children", "src/runtime/process.rs: Process::handle_notification", "src/runtime/process_map.rs: ProcessMap::register_pid"]}
{"id": "C103", "title": "The command line means what is documented", "statement": "cinit goes on with a configuration path and a verbosity exactly if its arguments are spellings of the documented options: --config or -c with its value in the same argument or in the next one, at most once, and --verbose or -v any number of times, letters joined or not, possibly ended by --. Without --config the path is /etc/cinit.yml. Order and spelling of the options do not matter. Help and version are printed exactly if they are asked for before anything is wrong.", "quantifier": "all lists of arguments, being arbitrary bytes", "why_tests_cant": "the tests call cinit in one way; the command lines are infinitely many, and the rules for joined letters, attached values and arguments that begin with a dash interact", "anchors": ["src/cli_parser.rs: parse_arguments", "src/main.rs: run"]}
{"id": "C104", "title": "Exit codes of cinit mean the same however it is called", "statement": "Exit code 2 means that a configuration was read and is not valid, as documented, whatever arguments cinit is called with. If no configuration is looked at because help or version was asked for, the exit code is 0 and nothing happens.", "quantifier": "all lists of arguments, all machines", "why_tests_cant": "the tests never call cinit with wrong arguments; the exit code chosen by the library for them is not in the code at all", "anchors": ["src/cli_parser.rs: parse_arguments", "src/main.rs: run, main"]}
{"id": "C105", "title": "Each program is asked to stop once", "statement": "If cinit is asked to terminate once, no process it has started is sent more than one signal: programs that take a second SIGINT as a demand to quit at once get the time they need.", "quantifier": "all configurations, all runs", "why_tests_cant": "the tests stop cinit with programs that end at once; how many signals a slow program gets depends on how and in which order all the others end", "anchors": ["src/runtime/process_manager/mod.rs: handle_finished_child, initiate_shutdown, signal_children"]}
{"id": "C106", "title": "Stopping on request is no failure", "statement": "If no program exits with a code other than 0 and none dies by a signal other than one cinit has sent it, the exit code of cinit is 0: code 6 stands for programs that ended with a non-zero exit code, as documented.", "quantifier": "all configurations, all runs", "why_tests_cant": "the tests stop cinit with programs that handle the signal; the exit code depends on how each program takes the signals cinit sends", "anchors": ["src/runtime/process_manager/mod.rs: look_for_finished_children, handle_finished_child", "doc/Integration.md: Exit Codes"]}
{"id": "C107", "title": "Exit codes in the status report are those of the programs", "statement": "The exit code the status report shows for a program is the one its main process has returned; for a program killed by a signal none is made up.", "quantifier": "all configurations, all runs, all moments at which a report is asked for", "why_tests_cant": "tests ask for reports of programs that exit; whether any observable effect distinguishes exits from deaths by signals is a question about all pairs of runs", "anchors": ["src/runtime/process_manager/mod.rs: look_for_finished_children, handle_finished_child", "src/runtime/process_manager/status_reporter.rs: format_report", "doc/README.md: Status Reporting"]}
{"id": "C108", "title": "References in templates are replaced by the values of the variables, unchanged", "statement": "A reference {{ VAR }} in the value of a variable or in an argument is replaced by the value of VAR as the program finds it in its environment, character by character, without searching the value for references again; the text between references stays as it is, and a text referring to a variable that is not defined is passed on as it is written.", "quantifier": "all configurations, all values of variables, all templates made of text and references, all environments of cinit", "why_tests_cant": "tests use a handful of names and values; the claim ranges over all names of variables, which double as names of templates for the engine, and all values", "anchors": ["src/analyse/process_builder.rs: copy_from_config, render_template, treat_template_error_in_argument", "doc/README.md: Environment"]}
{"id": "C109", "title": "Every execution of a program is the configured one", "statement": "Whenever a program begins to run, also for the hundredth time and whatever messages, signals and failures have come before, its arguments, environment, working directory, user, groups and capabilities are what the files of the configuration say; all executions of a program are alike.", "quantifier": "all file trees, all configurations, all runs, all moments, all answers of the kernel to parent and child", "why_tests_cant": "a test sees a few executions; that nothing in an unbounded run of the event loop changes what is executed is an invariant", "anchors": ["src/runtime/process.rs: start, setup_child, handle_notification", "src/runtime/process_manager/mod.rs: spawn_child", "src/analyse/process_builder.rs: from", "src/config/config_parser.rs: parse_config"]}
{"id": "C110", "title": "Descriptors attached to a message do not change what it means", "statement": "The sd_notify protocol allows descriptors to be attached to messages. Whatever is attached to a message on the notify socket, it has the effect its text has without; and cinit keeps none of the descriptors, so that nobody can use up those available to it.", "quantifier": "all messages, all numbers of attached descriptors, all states of cinit", "why_tests_cant": "tests send plain texts; the claim depends on the kernel filling a buffer of fixed size for every combination of control messages", "anchors": ["src/runtime/process_manager/notify_manager.rs: read_socket, read_notification", "src/analyse/process_manager_builder.rs: setup_unix_socket"]}
{"id": "C111", "title": "Nobody speaks for somebody else", "statement": "A message on the notify socket only ever counts as one of the process that has sent it: no program can announce readiness, a status, a main process or the end of another program.", "quantifier": "all programs, all credentials they are executed with, all messages with everything attached to them, all states of cinit", "why_tests_cant": "tests send honest messages; the claim is about every sender and every forged credential the kernel lets pass", "anchors": ["src/runtime/process_manager/notify_manager.rs: read_socket, process", "src/analyse/process_manager_builder.rs: setup_unix_socket", "src/runtime/process.rs: set_user_and_caps"]}
{"id": "C112", "title": "What a program announces before its end counts", "statement": "Whatever a process has sent to the notify socket before it ended has been taken into account when cinit notices its end; in particular a daemon that announces its main process and then ends stays supervised.", "quantifier": "all configurations, all runs, all interleavings of the steps of cinit with messages and ends of processes", "why_tests_cant": "which messages are waiting when cinit reaps a process depends on the interleaving; tests see one interleaving at a time and a single message", "anchors": ["src/runtime/process_manager/mod.rs: dispatch_epoll, look_for_finished_children, handle_finished_child", "src/runtime/process_manager/notify_manager.rs: read_notification, process"]}
{"id": "C113", "title": "The end of an announced main process is noticed", "statement": "Whenever cinit has finished reaping, the main process of every program it takes for alive is alive, also if the program has announced another process as its main process; in particular cinit does not wait for processes that are gone.", "quantifier": "all configurations, all runs, all families of processes below cinit and all interleavings of their steps with those of cinit", "why_tests_cant": "depends on which process is whose child when, over unboundedly many processes; tests hand over to one process, in one order of events", "anchors": ["src/runtime/process_manager/mod.rs: setup, look_for_finished_children, handle_finished_child, start", "src/runtime/process_manager/notify_manager.rs: process"]}
{"id": "C114", "title": "Shutting down does not wait for leftovers", "statement": "Once cinit has been told to stop or some program has crashed, cinit waits only for programs that have not ended; processes programs have left behind do not keep it from ending.", "quantifier": "all configurations, all runs, all families of processes holding output streams and all interleavings of their steps with those of cinit", "why_tests_cant": "depends on which processes have inherited which output streams, over unboundedly many processes and interleavings", "anchors": ["src/runtime/process_manager/mod.rs: start, handle_event, look_for_finished_children, deregister_fd_from_epoll"]}
{"id": "C115", "title": "Nothing that is written is lost", "statement": "Whatever any process writes to an output stream of a program is read completely before cinit stops reading from it, also if it is written long after the main process has ended; and when cinit ends, the ASCII text logged for a program that is no cronjob is what has been written to its output streams by whomever, each character once and in order, line terminators aside.", "quantifier": "all configurations, all runs, all processes holding output streams, all interleavings of what they write with the steps of cinit and all ways the kernel cuts output into reads", "why_tests_cant": "races between the last output, the end of processes and the reports of the kernel; unboundedly many interleavings", "anchors": ["src/runtime/process_manager/mod.rs: handle_event, print_child_output, deregister_fd_from_epoll"]}
{"id": "C116", "title": "cinit does not spin", "statement": "cinit sleeps when there is nothing to do: it is woken up at most once for each signal, client, message and byte that comes in, and once for the end of each output stream.", "quantifier": "all configurations, all runs, all interleavings of signals, clients, messages and output with the steps of cinit and all ways the kernel groups them", "why_tests_cant": "a statement on the number of wake-ups over whole runs of any length; a test sees a few of them", "anchors": ["src/runtime/process_manager/mod.rs: start, dispatch_epoll, handle_event", "src/runtime/process_manager/status_reporter.rs: report_status", "src/runtime/process_map.rs: deregister_fd"]}
{"id": "C117", "title": "With all processes gone, stopping takes a bounded number of steps", "statement": "Once cinit stops, all programs have ended and no process holds an output stream any more, the number of times cinit still waits is bounded by what was left to be read and noticed then, what comes in afterwards and the number of calls that fail: it does not wait for anything that will not happen.", "quantifier": "all configurations, all runs, all states in which cinit may be when the last process ends and all orders in which the kernel reports what is left", "why_tests_cant": "a bound over all continuations of all histories; a test cannot tell a long wait from an endless one", "anchors": ["src/runtime/process_manager/mod.rs: start, handle_event, register_fd_at_epoll"]}
{"id": "C118", "title": "Nobody can keep cinit from serving others", "statement": "However much programs write and however many clients and messages come, cinit turns to every signal, client, message and output stream after a number of rounds that is bounded by a tenth of the number of its own and its programs' descriptors.", "quantifier": "all configurations, all runs, all descriptors, all orders of reports the kernel may choose as long as descriptors take turns", "why_tests_cant": "starvation shows under permanent load only, with more than ten busy descriptors, and depends on the order of reports", "anchors": ["src/runtime/process_manager/mod.rs: dispatch_epoll, handle_event"]}
{"id": "C119", "title": "Cronjobs are at most a second late", "statement": "If cinit waits for something to happen when an instant planned for a cronjob is still to come, and the job has a turn in the round after this wait, then not before that instant and less than a second after it, plus the time cinit's own work in that round takes.", "quantifier": "all configurations, all expressions, all offsets of the local time from UTC, all runs and clock readings, all durations of cinit's own work", "why_tests_cant": "the delay depends on the phase between the waits of cinit and the wall clock; a test sees one phase", "anchors": ["src/runtime/process_manager/mod.rs: start, dispatch_epoll", "src/runtime/cronjob.rs: Cron::pop_runnable"]}
{"id": "C120", "title": "The number of descriptors cinit needs is bounded", "statement": "However long cinit runs and however often cronjobs are executed, it has at most two output streams open for each program of the configuration.", "quantifier": "all configurations, all runs, all times, all behaviours of the programs", "why_tests_cant": "the number grows over hours or days, and only if executions leave processes behind; tests end after the first executions", "anchors": ["src/runtime/process_map.rs: register_stdout, register_stderr, deregister_fd", "src/runtime/process_manager/mod.rs: spawn_child, handle_event"]}
{"id": "C121", "title": "What programs write affects the log and nothing else", "statement": "Whatever programs write to their output streams, cinit starts the same programs at the same points, sends the same signals and the same status reports and ends in the same way; only the lines it logs for the programs differ.", "quantifier": "all configurations, all runs, all outputs of all programs, cut into reads of any size", "why_tests_cant": "relates pairs of runs; tests look at single runs with a few outputs", "anchors": ["src/runtime/process_manager/mod.rs: print_child_output, handle_event", "src/logging/stdout.rs: log", "src/logging/stderr.rs: log"]}
{"id": "C122", "title": "Clients that go away change nothing", "statement": "Whether a client that has connected to the status socket reads its report or goes away before, cinit starts the same programs at the same points, logs the same lines for programs, sends the same signals, turns to the same clients, and ends in the same way.", "quantifier": "all configurations, all runs, all sets of clients that go away", "why_tests_cant": "relates pairs of runs; the moment at which a client goes away is not under the control of a test", "anchors": ["src/runtime/process_manager/status_reporter.rs: report_status, write_report", "src/runtime/process_manager/mod.rs: handle_event"]}
{"id": "C123", "title": "Without cronjobs the clock has no influence", "statement": "If no program is a cronjob, cinit does the same whatever the clock shows and whether it goes forward, backward or stands still: it starts the same programs in the same order, logs the same lines for programs, sends the same signals and reports and ends in the same way.", "quantifier": "all configurations without cronjobs, all runs, all readings of the clock", "why_tests_cant": "relates pairs of runs; tests do not set the clock of the system", "anchors": ["src/runtime/process_manager/mod.rs: spawn_children", "src/runtime/cronjob.rs: pop_runnable", "src/runtime/process_manager/status_reporter.rs: format_report"]}
{"id": "C124", "title": "Without programs of type notify messages have no influence", "statement": "If no program is of type notify, cinit does the same whatever the texts sent to the notify socket say and whoever sends them: nobody can make it start a program earlier, follow another process or show a status text.", "quantifier": "all configurations without programs of type notify, all runs, all texts, all senders", "why_tests_cant": "relates pairs of runs; tests send a few messages at a few moments", "anchors": ["src/runtime/process_manager/notify_manager.rs: read_notification, process", "src/runtime/process_manager/mod.rs: handle_event"]}
