# Formal model of cinit in Lean 4 — design

## Approach

The model is a set of small, total, computable Lean functions, one per Rust
function, under `lean/Verif/Model/`. Independent specifications live in
`lean/Verif/Spec/`, helper lemmas in `lean/Verif/Proofs/`, and the property
theorems (with concrete cases that meet their hypotheses) in
`lean/Verif/Props/`. `lean/Verif/Base/` holds the few data structures shared by
everything (results, association lists, text). `lean/Verif/Checks/UnitTests.lean`
runs all unit tests of cinit on the model, and `Checks/SystemTests.lean` all of its
system tests (the 31 use cases, from the documents of the configuration to exit code,
trace and what the started programs find); they are tests of the model against
the code, no proofs, and no claim rests on them.

Conventions:

* A Rust panic (`panic!`, `expect`, `unwrap`, index out of range, `%` by zero,
  arithmetic underflow) is an explicit outcome carrying a reason; so is
  undefined behaviour (reading past the buffer of a message).
* `HashMap`/`HashSet` are association lists; wherever Rust *iterates* over one,
  the model applies an arbitrary permutation (`HashOrder`), and theorems
  quantify over it. The order may be different each time (`Env.order` is a
  function of the history).
* System calls are inputs: every run is a function of a list of answers
  (`fork`, `epoll_wait`, `waitpid`, `read`, `recvmsg`, signals, `accept`,
  `kill`, clock readings; in the child every single call). Theorems quantify
  over all lists, so over all schedules and failures. If the answers are
  exhausted, or the next one is not one the kernel can give, the run is
  unfinished: the histories so obtained are exactly the prefixes of real runs.
* Every observable action appends an event to a log (`Model/World.lean`,
  newest first); properties of runs are statements about that log alone.
  `Spec/Supervision.lean` and `Spec/History.lean` define the vocabulary
  (`Happened`, `Alive`, `Died`, `Undisturbed`, …) on logs and configuration,
  without reference to the state of the model.
* External libraries are parameters with their documented contract: template
  engine (`tera`), YAML (`serde_yaml`), user database, time zone
  (`chrono::Local`), `petgraph`'s `toposort` (assumed: `Err` iff the graph has a
  cycle, naming a node of it; an executable instance is proved correct in
  `Proofs/Toposort.lean`, so the assumption is satisfiable).
* Where a property is false of the code, the full statement is kept as a
  definition `Cnn_statement`, its negation is proved from a concrete run
  (`Cnn_violated`), and theorems with the suffix `_partial` prove what holds,
  wherever possible as an exact characterisation. Their comments say what is
  missing.

## Properties: what is modelled, how it is proved

(see `properties.jsonl` for the statements, `MANIFEST.json` for theorem names)

| id | model | proof |
|----|-------|-------|
| C01–C03, C05 | `ProcessConfig.merge`, fold over entries | induction over the entry list with an explicit summary invariant |
| C04 | `mergeDropins` over an association map | induction; projection to one name commutes with the fold |
| C06 | file tree, `readConfig`, `parseRawConfig` | structural induction over the tree; names that are not UTF-8 violate it |
| C07–C11, C55, C56 | `Process.from` and env helpers, template engine as parameter | induction over env list; map lemmas |
| C12 | `mapId` over an arbitrary database | case analysis |
| C13, C14 | `withNodes` with toposort parameter | fold invariants relating the node table to the declared precedence relation |
| C15–C19 | `notifyFinished`, `popRunnable` | inductive invariant over operation histories: counter = number of unfinished incoming edges |
| C20, C21, C53, C54 | `parseElement`, `parse` on character lists | round trip from an expression AST; case analysis of the parser; characterisation of the accepted language |
| C22–C26 | `getNextExecution` on integer nanoseconds, Gregorian calendar, abstract zone | arithmetic; search-loop invariants; correctness of the calendar (`Proofs/Calendar*.lean`); what is computed in general is specified declaratively (`Spec/CronChosen.lean`) and proved exactly (`Props/CronExact.lean`); that nothing is skipped is proved equivalent to conditions on the starting point (`Props/CronSkipped.lean`) |
| C27–C29 | `Cron` as sorted association list | invariant over all pop histories |
| C30–C37, C42, C45, C57–C60 | the whole `ProcessManager` event loop | one inductive invariant over all runs (`ManagerInv`, `ManagerReact`, `ManagerLoop`): each event is permitted by a rule about the log before it; the properties follow from the rules by reasoning about logs |
| C38–C41, C47 | message parsing and its effects, UTF-8 decoding | exact description of the effect of a message, embedded into runs |
| C43 | reading and logging of output | decoding and line splitting (`Utf8`, `Lines`), embedded into runs; the decoder equals a relational specification of lossy decoding (`decoded_iff`) |
| C44 | `format_report` | parsing the report back; relation of states to the log |
| C46 | the event loop | classification of every abort |
| C48, C49, C63, C65–C67 | the child between `fork` and `execve`, Linux credential rules | symbolic execution; weakest-precondition style lemmas for each step |
| C50–C52 | `startup_checks`, `run`, level selection | case analysis, whole runs |
| C61, C62 | the rounds of the event loop | grammar of rounds, as rules about the log |
| C69, C70 | the conditions of the two event loops | rule for waiting and reading the clock in the contract of the event loop (`Occupied`), combined with C58 and C61 |
| C71 | the answers of the kernel | simulation: what the answers tell equals what the history says, with a debt of facts told but not recorded yet |
| C72 | registration at epoll | grammar of the events of a start; the table of the kernel follows the history (simulation) |
| C73 | open descriptors of cinit; the descriptor tables of C64 and C68 along a run (`Spec/Leaks.lean`) | the table of the kernel follows the history (simulation); invariants relating the tables to the open streams |
| C74–C76 | the code derived by serde for `Config` (`Model/Document.lean`), on document trees | reading entry by entry equals reading each field on its own (`slots_iff`); relational specification in `Spec/Document.lean` |
| C79 | the event loop, the child | rules of starting, induction along dependencies |
| C80, C81 | `create_ptys` call by call, output processing of terminals (`Model/Terminal.lean`) | symbolic execution; C81 combines C43 with a lemma about line ends |
| C82 | `execvpe` of the C library (`Model/PathSearch.lean`), with its default directories and its limits on lengths | induction on the directories; relational specification of the first file along a path |
| C83 | set-up of the sockets and of the signal descriptor, call by call (`Model/Sockets.lean`) | symbolic execution with frame conditions; for whole runs by composition with C51 and C88 |
| C84 | the log of the event loop (`Model/Narration.lean`, see C87) | induction over the history, distinguishing all messages by their text; reading back what was written (C77) |
| C85 | the level of status texts | **false of the code** (level `TRACE`): `C85_violated`; proved with `-vv` |
| C86 | all iterations over hash tables are parameters (`HashOrder`) | equality of the event loops for all orders (with C39); **false of the code** for the order of independent programs: `C86_violated` |
| C87 | the event loop once more with every call of a logging macro at its place (`Model/Narration.lean`), equal to the event loop apart from the entries (`start_erases`) | the entries of interest are those the history gives reason for (`start_told`), by the invariant of the event loop; which functions write which messages (`Says`) |
| C88, C89, C90 | everything before the event loop once more with every call of a logging macro at its place (`Model/Prologue.lean`), equal to `run` apart from the messages (`prologue_erases`) | each error is the words of a fault of an independent list (`Spec/Complaints.lean`), function by function (`Explains`); warnings are computed by a separate specification (`Spec/Remarks.lean`); the console is read back as for C77 |
| C91, C92, C93 | the same model, in zones with changes of the clock (`Spec/Clocks.lean`) | the computation is that of a zone without changes followed by a search in the real one (`next_regular`) wherever whole days advance the date, which they do between 1:00 and 23:00; violations in Central Europe |
| C94, C95 | warnings and errors of the event loop, shared out among the events of the run (`Spec/Troubles.lean`) | for each step of the narrated loop the warnings it writes are those the events it adds to the history give reason for (`Rung`, `Rings` in `Proofs/Alarms.lean`); composed over the whole loop in `Proofs/AlarmRuns.lean`. Both properties are false as stated; the exact behaviour is proved |
| C96 | the schedule in the course of whole runs | invariant over histories: each job is planned from its last turn on, which is defined on the history alone (`Spec/Turns.lean`, `planned` in `Proofs/Turns.lean`); combined with C22 to C24; in zones where clocks are changed the computation is compared with that of a fixed offset, step by step (`next_steady`, from `C26_exact`) |
| C97 | a status report write by write, interleaved with what the client does (`Model/Status.lean`) | induction over the course of the connection; refinement of the single step of the loop (`C97_refines`); violation by programs of any number (`crowd_starts`) |
| C98 | the registrations at epoll and the events the kernel may report (`Spec/Service.lean`: `listening`, `Told`) | invariant of the tables of the kernel (`Proofs/Tables.lean`); induction over histories (`Props/Waiting.lean`) |
| C99 | all messages of the event loop with their order and their module (`Model/Narration.lean`); the account is a relation between histories and entries (`Spec/Account.lean`) | step-wise correspondence of narrated and silent steps with shares of entries (`Proofs/Account*.lean`), using the invariant of the supervision (`Props/Account.lean`) |
| C100 | the productions of YAML a report is made of (`Spec/Yaml.lean`), independent of the model: when a text is read as which programs; `reads_unique`: in at most one way | the report as a document (`Props/Reader.lean`), unique decomposition of documents, lines and scalars (`Proofs/Yaml.lean`) |
| C101 | inodes, names, symbolic links, path resolution with its limits (`Model/Disk.lean`), which yields the tree `readConfig` works on | path resolution as a relation (`Spec/Links.lean`), equivalence by induction on the derivation and on the links left (`Proofs/Disk.lean`); reading by induction on what may be added to the path |
| C102 | events `sent`, `spawned`, `datagram`, `waited`, `lost` of the event loop | where an id comes from as an inductive relation on histories; `C35_nobody_else_partial`, then induction on the history; counterexamples as complete runs (`Props/Signals.lean`); C36, C41, C45, C102, C113 hold in full, and the proved parts of C46, C79, C106 unconditionally, for all configurations without programs of type notify in which nothing dies by a real-time signal, C35 for all programs of other types (`Props/Ordinary.lean`) |
| C103 | `cli_parser.rs` and the part of clap it uses (`Model/CommandLine.lean`) | grammar of command lines as inductive relations (`Spec/CommandLine.lean`), both directions by induction on the derivation and on the number of arguments (`Proofs/CommandLine.lean`) |
| C104 | `run` from the command line on (`runWith`) | from C103 and C51 |
| C105 | `initiate_shutdown`, `signal_children`, `handle_finished_child` | the list of signals sent as a function of the history (`Spec/Stopping.lean`), induction over histories with the obligations of C35 |
| C106 | as C34 | from C34 and C36 |
| C107 | as C44 | a simulation between runs with signals and runs with exit codes (`Proofs/ExitCodes.lean`), C71 |
| C108 | the engine tera on texts with references, as an assumption about `render` (`Model/Template.lean`), and C09, C11 | the engine reads back what the specification writes; what is escaped is read back by a small reader of markup (`readMarkup`); C09, C11 |
| C109 | loading, building, event loop and child together | an invariant of the event loop (`Proofs/Execution.lean`), composed with C01, C03, C06, C09–C12, C48, C56, C66, C67 |
| C110 | control messages of the notify socket (`Model/Datagrams.lean`) and the event loop reading one message | computation of what fits into the buffer; violated by a run |
| C111 | as C110, with the credentials of C48 and C65 | case analysis of the check of credentials, composed with C48, C65 and C38 |
| C112 | histories interleaved with what other processes do (`Spec/Timeline.lean`), on top of the event loop | order of service (C61, C62) and delivery in order; counting the messages read per round; violated by a run |
| C113 | histories interleaved with what becomes of processes: who is whose child, who has ended, who has been waited for (`Spec/Family.lean`), on top of the event loop | invariants relating main processes to their parents, by induction over histories; that cinit never ends by C36; violated by a run |
| C114 | histories interleaved with what processes do with output streams: inherit, hand on, close, write (`Spec/Streams.lean`), on top of the event loop | invariant: streams that are reported ended without anything to be read are held by nobody and empty, by induction over histories; violated by a run |
| C115 | as C114 | what is written is what has been read followed by what waits in the stream, the latter being empty when cinit closes it; combined with C43 |
| C116 | as C114, with signals, clients and messages arriving; what is left to be done and how often cinit is woken up are counted (`Spec/Arrivals.lean`) | potential argument: each wake-up is paid for by something taken, read, closed or failed, by induction over histories; violated by a run |
| C117 | as C116 | during the shutdown there is an open stream whenever cinit waits (C114), it is registered (C98) and has ended, so each round is a wake-up; then as C116; violated by a run |
| C118 | the event loop with the size of its event buffer; the order of reports is arbitrary but for taking turns (`Spec/Fairness.lean`) | the descriptors not reported yet become ten fewer in each round in which the one in question is passed over, by induction over histories; C61 for what is reported |
| C119 | the event loop with clock readings and the timeout of epoll_wait | the instant computed at the last turn is after the reading before the wait and not after the reading before the turn (C96); arithmetic with the timeout; `C119_steady` for zones where clocks are changed, while they are not |
| C120 | the event loop with other processes (`Spec/Streams.lean`, `Spec/Budget.lean`) | false (`C120_violated`, a run with two executions of a cronjob); the bound with the number of overlapping executions by induction over histories, counting the streams of programs by name |
| C121 | the whole program, run twice (`Spec/Unheard.lean`) | a relation between the worlds of two runs that is kept by each function of the event loop (`Proofs/Unheard.lean`); that hash orders do not matter to the loop is C86 |
| C122 | as C121 | as C121, with another relation: what two runs may differ in is a parameter of `Proofs/Unheard.lean` |
| C123 | as C121 | as C122; that nothing is scheduled is kept along with the relation |
| C124 | as C121 | as C123; that there is no program of type notify is kept along with the relation |
| C77, C78 | configuration of log4rs and the messages cinit logs (`Model/Logging.lean`) | the console is parsed back line by line (`read_console`); the entries of a run (`Model/Narration.lean`) are of the kinds in `Possible` |
| C64, C68 | descriptor tables of cinit and children | inductive invariant over all sequences of operations |

No property was judged inexpressible.

## What is modelled and what is not

Modelled, function by function (definitions cite file and lines):

* `src/config/mod.rs`, `src/config/config_parser.rs`: everything; the derived
  deserialisation works on document trees, the parser of YAML is a parameter;
* `src/analyse/process_builder.rs`: everything;
* `src/analyse/process_manager_builder.rs`: the order of checks, dependency
  manager, schedule, descriptors, sockets;
* `src/runtime/dependency_graph.rs`, `src/runtime/cronjob.rs`,
  `src/runtime/process_map.rs`, `src/runtime/process_manager/*.rs`:
  everything; `Model/Narration.lean` has all functions of the event loop a second
  time with the messages they log (kinds of messages in `Model/Logging.lean`),
  proved to do the same otherwise; `Model/Prologue.lean` is the same for all that
  happens before the event loop;
* `src/runtime/process.rs`: everything; `create_ptys` on its own in
  `Model/Terminal.lean`, elsewhere as one answer (success or failure);
* `src/util/libc_helpers.rs`: `slice_to_string` (with the undefined behaviour
  for messages without NUL), `prctl` wrappers as answers;
* control messages of the notify socket, with the part of the kernel and of nix involved
  (`Model/Datagrams.lean`);
* `src/cli_parser.rs` with the part of clap 4.5 it uses;
* `src/main.rs`, `src/startup_checks.rs`, `src/logging/mod.rs` with the part of
  log4rs it uses (tree of loggers, levels, additivity, pattern encoder).

Not modelled: texts of clap, the harness programs under `src/programs/`, the build
script.

Simplifications, each noted at the definition:

* in the model of the event loop a status report is computed, then written in one
  step; `Model/Status.lean` has the single writes and the client, and `C97_refines`
  connects the two. A connection is a queue of writes with a limit on its memory
  (`sk_sndbuf`), each write taking its bytes and a constant overhead; that the
  connection is closed twice has no effect (as in release builds);
* rendering templates is a function of template and context (deterministic);
  only C108 assumes more, namely that templates made of text without `{` and of
  references are rendered as tera documents it (`LikeTera`);
* the configuration tree is the view that path resolution gives of a disk with
  links (`Model/Disk.lean`, C101); the other theorems hold for every tree;
* `uid`/`gid` are natural numbers (Rust: `u32`), instants are integers in
  nanoseconds limited to what `chrono` can represent;
* texts of errors of libraries and other details shown in messages of the event
  loop are arbitrary (`Voice`), but errors are assumed to be single lines; so are
  those of messages before (`Herald`), the text of an error of `serde_yaml` and of
  `tera` depending only on what was parsed or rendered;
* file descriptors of the event loop and descriptor tables are modelled
  separately (`World.Kernel`, `Descriptors.State`); `Spec/Leaks.lean` ties each event
  of the loop to the operations on the tables of the function behind it, and
  `C73_follows` shows that the tables can be followed along every run;
* documents are trees without tags and aliases; how plain scalars are read
  (null, booleans, numbers) and structures given as a list of their fields are
  parameters (`Reading`); errors of deserialisation are not told apart;
* a search of `execvpe` along `PATH` (`Model/PathSearch.lean`, after the source
  of musl; part of `Child.run`) counts as one call: what is at a path does not
  change in the course of it;
* the set-up of the sockets (`Model/Sockets.lean`, part of `run`) knows sockets by
  numbers of its own; the numbers of their descriptors are an input
  (`Machine.numbers`).

## Trusted base

* Lean's kernel (Lean 4.33.0). No axioms are added; theorems depend on at most
  `propext`, `Classical.choice`, `Quot.sound` (checked by `#print axioms` on
  the theorems of the manifest, and by `vcheck`). No `sorry`, `native_decide`
  or `bv_decide`. Concrete cases use `decide +kernel`, which is evaluation by
  the kernel and adds no axioms.
* The faithfulness of the model to `/repo`, documented by the file/line comment
  on each definition.
* Assumptions on the kernel (`Model/World.lean`, namespace `Sys`): new process
  ids are positive and not those of unreaped children; new descriptors are not
  open; `epoll_wait` reports at most ten, distinct, registered descriptors;
  `waitpid` reports exit statuses below 256 and signals 1–64; the signal
  descriptor reports only the four signals it was made for; reads fit the
  buffer of 4096 bytes; `kill` does not fail for an unreaped child (cinit is
  root). Everything else is arbitrary; in particular unknown processes
  (orphans adopted by cinit) may be reaped at any time, process ids may be
  reused after reaping, and every call may fail.
* Assumptions on the kernel in the child (`Model/Kernel.lean`): the rules of
  capabilities(7), credentials(7), `dup2` and `execve` for credentials and
  descriptors, after `security/commoncap.c`. User namespaces, security modules
  and `no_new_privs` are left out, but any call may be refused for any reason.
* Seven claims need more about other processes and the kernel, as hypotheses of their theorems and not
  of any other: C112 that the kernel delivers what was sent, in order and not before
  it was sent (`Possible` in `Spec/Timeline.lean`), C113 that a process becomes a child of cinit by
  being started by it or when its parent ends, and is reaped only after its end
  (`Natural` in `Spec/Family.lean`), C114 and C115 that processes get hold of output
  streams only by inheriting them or being handed them, that bytes are read in the order
  they were written, and that the kernel reports an end only if nobody can write any more
  and reports what is to be read along with it (`Honest` in `Spec/Streams.lean`),
  C116 and C117 moreover that it reports nothing but what can be read or has ended, and
  C117 that it does report it (`Prompt` and `Punctual` in `Spec/Arrivals.lean`),
  C118 that it reports descriptors in turns (`TakesTurns` in `Spec/Fairness.lean`).
* Assumptions on libraries: `clap` 4.5.43 parses as described in
  `Model/CommandLine.lean` and exits with code 2 on errors; `nix` 0.30.1 `waitpid` returns `Err(EINVAL)` for
  deaths by real-time signals, having reaped the child; `nix`
  `RecvMsg::iovs().next()` is `None` for an empty message; `caps` 0.5.5 `set`
  reads and writes back the sets; `serde_yaml` 0.9 accepts any scalar as a
  string and nothing (or an empty scalar) as an empty list or mapping, and
  `singleton_map` reads a variant from its name or from a mapping with one key; `HashMap`, sorting, UTF-8 decoding and line
  splitting of the Rust standard library as documented; the Rust runtime
  ignores SIGPIPE and opens the descriptors 0–2 if they are closed; `println!`
  to a closed standard output is silently dropped; `chrono` finds an instant
  that shows a given local time if there is one (`Zone`), and where stated
  (`FirstTaken`) the first of several.

## Disagreements found between code and documentation

Proved (theorem in parentheses):

* drop-ins may change the type of a program to `notify` unnoticed (C05);
* `*/0` and other zero steps abort cinit (C21); names and weekday 7 are
  rejected though documented (C53); text behind a second `-` or `/` is ignored
  (C54);
* cron instants: wrong with restricted month and weekday (C22), in the past on
  the only listed weekday after the last listed time (C23), skipped (C24),
  not found for days some listed month does not have (C25); as a consequence
  cinit may start a cronjob in an endless loop until midnight (C29);
* a configuration file whose name is not UTF-8 aborts cinit (C06);
* a death by a real-time signal is not noticed (C34, C57), programs are started
  after it (C33), and it ends the round of reaping (C62);
* `notify` programs that have not announced READY=1 are not signalled on
  shutdown (C35);
* a program may claim another program's process by MAINPID (C41, C45);
* multi-byte characters cut by the end of a read are garbled in the log (C43);
* a client of the status socket that does not read stops all supervision for
  as long as it stays, if the report is longer than what the kernel buffers:
  about 70 programs, since every piece of text is a write of its own (C97);
* status reports show a process id for a terminated program whose process id
  was reused (C44);
* empty messages, messages that are not UTF-8 and messages of 4096 bytes
  without NUL abort cinit, from any notify-capable process (C47), as does a
  wrong MAINPID on shutdown;
* exit code 2 instead of 3 if sockets cannot be set up, abort without epoll
  (C51); the third `-v` turns verbosity off (C52);
* NUL characters in path, arguments or environment abort cinit (C55);
* the message "Could not exec child" is never written (C63);
* capabilities do not confine programs of root (C65);
* programs start with SIGPIPE ignored (C66);
* a configuration of cronjobs only ends after one round without ever executing
  any of them (C70);
* unknown keys are ignored, so a program with a misspelt `user` is executed by
  root (C76);
* with `-v` a message received is logged without escaping and before its sender
  is checked, so that lines of programs can be forged in the log (C77);
* if `fork` fails the program and its dependants stay blocked for ever and
  cinit may end with code 0; the documented exit code 4 is never cinit's own but
  that of a child (C79);
* a carriage return added by a terminal gets into the log if a read ends right
  after it (C81);
* programs given by name are looked up along the `PATH` of cinit, not along the
  one configured for them (C82);
* status texts of programs are logged at a level that is shown with `-vv` only
  (C85);
* the order in which independent programs start differs from run to run (C86);
* a value with braces after rendering is used, though the warning says that the
  raw value is (C89);
* errors about malformed files do not say which file (C90);
* where the clock is changed, days are left out (C91), cinit is busy for an hour
  (C92), and jobs are not executed in the hour that comes for the second time
  (C93);
* a status text such as `clients: 3` or a name with an apostrophe makes the
  status report unreadable for readers of YAML; the key `status` is not
  documented (C100);
* a file reached by several links is read several times, so that cinit does not
  start with a ConfigMap mounted by Kubernetes (C101);
* a program of type notify that announces -1 as its main process makes cinit
  send signals to every process of the system (C102);
* wrong arguments give the exit code of an invalid configuration (C104);
* programs that die by the SIGINT cinit sends them make it send another one to all
  others (C105) and count as crashed, so that stopping cinit gives code 6 (C106);
* the status report shows the number of the signal as exit code of a program that
  was killed (C107);
* values put into a variable whose name ends in `.html`, `.htm` or `.xml` are
  escaped as in markup (C108);
* messages with descriptors attached are ignored (C110), and programs of root can
  send messages in the name of any other program (C111);
* of several messages sent right before the end of a program only the first counts,
  so that a daemon announcing its main process may be lost (C112);
* if an announced main process is the child of another process that waits for it, its
  end goes unnoticed and cinit never ends (C113);
* a process left behind by a program keeps cinit from ending, also when cinit has been
  told to stop, as long as it holds an output stream (C114);
* a client that cannot be accepted makes cinit spin as long as accepting fails (C116);
* processes left behind by executions of a cronjob make cinit run out of descriptors,
  as the streams of all executions stay open (C120);
* an output stream that cannot be registered at epoll is never read, and cinit
  does not terminate any more (C98);
* an output stream that cannot be registered at epoll is reported as one that
  could not be unregistered (C94); nothing is logged when output of a program
  cannot be read (C95).

Observed, not proved: SIGTERM is forwarded as SIGINT;
names containing `=` in `env` produce duplicate variables (C07_improper_name);
`write_report` closes the accepted socket twice (harmless in a single-threaded
program).

## Wrong programs

`seeded/LOG.jsonl` records, one line per attempt, edits of the model that are
realistic bugs, made in a copy outside this repository. `first_failures`
are the declarations Lean reported; a module whose import fails is not compiled
at all. `theorems_failed` lists the theorems about the claim whose proof
depends, directly or not, on one of these declarations. Where the edit
broke only a proof script, not a statement, this is said in the note and a
theorem whose statement is false of the edited program was added
(`theorems_tightened`).
