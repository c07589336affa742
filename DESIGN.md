# Formal model of qubes-core-qrexec in Lean 4

## Shape of the development

* `lean/Verif/Model/*.lean` – the model. One Lean definition per Python/C function (or per branch of a long one), each
  with a comment citing file and lines, and saying what was simplified. Total, computable functions; a Python exception
  is a value of `Err`, a function that may raise returns `Except Err α`. Programs that run over time are transition
  systems: a state, an event, the effects it has.
* `lean/Verif/Spec/*.lean` – specifications written without the model's helpers: inductive relations, grammars, what is
  on the wire.
* `lean/Verif/Lemmas/*.lean` – helper lemmas.
* `lean/Verif/Props/*.lean` – the property theorems `Cnn_…`, followed by `example`s that meet the hypotheses. Where the
  code violates a property, a theorem with a concrete witness shows it (`…_violated…`, `…_crash`, `…_stuck` etc.), and
  what does hold is a theorem with suffix `_partial`.

Strings and bytes are `List Char` (`Str`, `Wire`, `Bytes`; a byte is a character below 256). `qubesd` system information
is an insertion-ordered association list, as a Python dict is.

## What is modelled, and how it is proved

| property | model | proof method |
|---|---|---|
| C01-C03 | `Model/Policy`: `evaluate` over rule lists | induction on the rule list; the spec is an inductive "first match" relation |
| C04 | `Model/Exec`: `handleRequest` with an arbitrary agent function | case analysis through every exit |
| C05, C13 | `Allow.evaluate`, `Ask.evaluate` | spec is the resolution relation (`Spec/Outcome`) |
| C06 | `Model/Token`: `parseToken` per column | iff against an independent grammar (`Spec/Grammar`) |
| C07-C10 | `match` functions | iff against an independent matching spec (`Spec/Match`) |
| C11 | evaluator totality | partial theorem under stated hypotheses, witnesses of five crashes |
| C12 | construction of requests | equality of outcomes |
| C14, C15, C17 | `collectTargets` | fold invariant over reversed rules (`Spec/Offer`) |
| C16, C44 | answers of the question window | case analysis over arbitrary answers |
| C18-C20 | `execute` | case analysis |
| C21, C22 | response text, `Model/CResponse`: the C parser | round trip by induction on lines, for any byte sequence |
| C23, C24, C58 | `ruleFromLine`, lines of policy files | iff against a grammar (`Spec/RuleLine`) |
| C25-C28 | `Model/Loader` over an abstract file system, nesting limit as fuel | permutation invariance, induction on the fuel |
| C29, C30 | evaluator | relational induction on rule lists |
| C31-C36, C59 | `Model/Admin`, `Model/AdminConc`: file system with crash points, concurrent clients | invariants over histories |
| C37 | `Model/Cache`: inotify events and edits | invariant over traces |
| C38, C39 | `Model/PolicyDaemon` | iff against a grammar of requests, non-interference |
| C40 | `Model/Register` | invariants over interleavings |
| C41 | `Model/Sanitize` | structural induction |
| C42-C44 | `Model/Agent`: window of the GUI agent driven by arbitrary signals | invariants over event traces |
| C45 | `Model/Print` | round trip; exact characterisation of the rules that survive it |
| C46 | effects of `handleRequest` | case analysis |
| C47, C48, C49, C62, C63 | `Model/Buffer`, `Model/IoAll`, `Model/DataPath` | refinement to a byte queue, invariants over schedules of both ends |
| C50, C64, C65, C66 | `Model/ServiceCmd`, `Model/Toml` | iff against grammars, search order |
| C51, C52, C53, C55-C57, C60 | `Model/CDaemon`, `Model/Trigger` | invariants over histories of messages, children, clients |
| C54, C61 | `Model/ExecVm` | all failure points of the calls to qubesd and the daemon |
| C67-C69 | `Model/VmAgent` | invariants over histories; descriptor reuse |
| C70 | `Model/Handshake` | all interleavings of the two ends |
| C71 | `Model/Start` | all failure points |
| C72-C74 | `Model/ClientVm` | command line to policy decision, composed with C01, C53, C38; terminal filter composed with the data path |
| C75 | `Model/Client` | all command lines and failure points |
| C76 | `Model/Graph` | soundness and completeness of the edges against the evaluator |
| C77 | `Model/Lint` | iff of accepted lines against `PolicyLine`/`ServiceFileLine`; iff of loading |
| C78 | `Model/AdminClient` on top of `Model/Admin`, `Model/Client` | each method against the call of the server; the way through qrexec-client by C75 and C64 |
| C79 | `Model/PolicyEditor` | inductive specification of the editing session; composed with C77, C78, C31-C33 |
| C80 | `Model/Json`, `Model/SocketAsk` joining `Model/Exec` and `Model/Agent` | `json.loads (json.dumps v) = v` by mutual induction, then C16, C42, C44 end to end |
| C81 | `Model/SocketAsk` | the same round trip, then C43 |
| C82 | `Model/ForkServer` on top of `Model/VmAgent`, `Model/Start`, `Model/IoAll` | encoding round trip for every splitting of the writes; iff of accepted messages; induction over clients |
| C83 | `Model/PolicyExec` on top of `Model/Exec`, `Model/Client` | inductive specification of how a call is carried out, composed with C04, C05, C21, C75 |
| C84 | `Model/DoExec` on top of `Model/ServiceCmd`, `Model/Start` | the system and PAM as arbitrary answers; trace of events; composed with C50, C64, C65 |
| C85 | `Model/Fds` | tables of descriptors with lowest-free allocation |
| C86 | `Model/PolicyCli` over the client (C78) and the server of the admin API | command lines related to files by `CliName`; cases from C78; argparse itself is not modelled |
| C87 | `Model/Qubesd`, `Model/Json`; `Spec/Json` (grammar of JSON), `Spec/Qubesd` | the reader of JSON is proved equivalent to the grammar in both directions; then iff for the whole path from bytes to `Info` |
| C88 | `Model/LegacyConvert` (plan of file operations, crash points between and within them); `Spec/LegacyConvert` | invariant over the operations carried out: each text is in its file or in its backup; list lemmas for the rules; text of the files through the line grammar of C23/C45 |
| C89 | same | same invariant at the end; the counterexample by evaluation |
| C90 | SockDir (steps of any number of daemon processes on the socket directory, interleaved, with kills) | invariant over all histories (Base) |
| C91 | same | invariant per process (Stage) that another process's steps keep while each qube has one process; counterexamples as concrete histories |
| C92 | DaemonStart (both processes of `init`), with VchanWait and Handshake | case analysis of the daemon's process; the waiting process is a function of any prefix of its actions |
| C93 | VchanWait | induction on the rounds of the wait; arithmetic on timespec |
| C94 | EndToEnd and the models of all parts | composition of C72, C53, C57, C56, C61, C60, C68, C50, C84, C64 and C69 |
| C95 | DataPath | invariants of client and service (exit status closes the output; a reaped process has no input), a measure on the waiting messages; counterexample by an invariant (`Stuck`) |
| C96 | DataPoll, DataPath | `ppoll` as a function of what can be seen; every step of an iteration only moves forward (`Onward`), and moves if awake |
| C97 | Connect, ServiceCmd | the file system as a function, `mkdtemp` by its contract; lists of events for descriptors |
| C98 | Shipped, Loader, Admin | the shipped files as literal lines; an inductive relation for the files an include reaches; induction over the nesting of includes |
| C99 | Watch, Cache, Loader | inotify(7) as a table; an inductive relation for all that may be read; frame theorem for loading by induction over the nesting |
| C100 | Signals | lists of calls from start to execve, folded over any initial state; frame by induction over the calls |
| C101 | LoopSig | transition system with child ends between any two steps; invariant `LoopInv` and counting invariant |
| C102 | Rounds | a round as the code does it (collected descriptors, walk over stale results); refinement to the histories of CDaemon and VmAgent by induction over rounds |
| C103 | Modes | programs as sequences of operations on umask and files; invariants behind every operation, induction over the life of the daemon |
| C104 | Dom0Session | transition system of the two processes; invariant of the reachable states; `FindSpec` for the program |
| C105 | Restore | the tool and `toposort` as they are (names of the module, sets of Python); induction over the files and over the loads |
| C106 | Inherit (on VmAgent) | descriptors copied at each `fork` along the histories of C69; induction over the history, iff for the processes that hold a connection |
| C107 | LocalWire | bytes sent so far to events of CDaemon and VmAgent, with encoders of the client side; case analysis of the reads, little-endian round trips |
| C108 | Shell, ServiceCmd, DoExec | the script is a text; a lexer and interpreter of the needed part of the POSIX shell language; symbolic run of the script for all parameters and states |
| C109 | Getopt, Spec/Getopt | `getopt_long` as a function, a grammar of command lines as inductive predicates; equivalence by strong induction; the four tables as instances |
| C110 | PyClient, AdminClient, Connect | `prepare_subprocess_kwds` and the two functions as one step that starts at most one program; compared with a specification of the wanted call by cases |
| C111 | DataPath, Start | the copy is part of the state of the data path; invariant over every run relates it to what was read, and with C49 to what was sent |
| C112 | WaitSession | the script as a machine whose commands are carried out at arbitrary moments; induction over histories |
| C113 | Multiplexer, ServiceCmd | the script as a function of environment, files and words; the variables are compared with C64's specification, the places with C65's |
| C114 | AuditLog, Exec | `handle_request` with the list of its log records; forgetting the log gives the model of Exec; induction is not needed, all paths are followed for arbitrary policies and agents |
| C115 | Wakeup | the loop as steps, the peer may act between any two of them; an invariant over all runs (what was seen in this iteration is still so, or the event is raised) |
| C116 | Network | any number of daemons, agents and requests as one transition system; an invariant over all runs relates every message to the request it is for, then C68, C60 and C97 |
| C117 | LostAnswer | the loop of the daemon (as in LoopSig) with what each process has sent and what has been read; invariants over all runs |
| C118 | Connection | two copies of the loop of C48 and C49 and the messages on their way as one transition system; an invariant: each end is a run of C48/C49/C63, what has arrived and what is on the way is what was sent, and what that says about the end; termination (Props/ConnectionEnd): the client keeps an invariant (closed stdin: no buffer; nothing fails) and C95 bounds its iterations |
| C119 | `Model/LocalFds` on `Model/Fds` | tables of descriptors as in C85; the entries of every table as a chain of cases over the numbers, freshness of each new number |
| C120 | `Model/Concurrent` (requests as coroutines) on `Model/Exec`, `Model/Cache` | coroutine run to its end = `handleRequest`; invariant over runs: each request is where it would be alone; projection of a run to the cache's run (C37) |
| C121 | `Model/PdStart` (file system with kinds, modes and groups; the start as a list of operations) | a checker of operation lists proved to imply the invariant in all states on the way; execution on symbolic file systems |
| C122 | `Model/Ready` | states of the start for every prefix; induction over messages; the bytes of the socket's name |

No property listed is outside what a model can express; time is modelled as order of events.

## Trusted base

* Lean 4.33.0's kernel. The theorems depend on at most the axioms `propext`, `Classical.choice`, `Quot.sound` (Lean's own);
  no axiom is added, nothing is compiled (`decide` is evaluated by the kernel).
* Mathlib lemmas and tactics are used in proofs only, the kernel checks their results.
* That the model says what the code does: it was written by reading the code. The comments give the lines.
* Python and C semantics of what is used: `str.split/strip/replace`, `pathlib`, dict order, `strtol`, `memcpy` etc., as
  written in `Model/Str.lean` and next to their use. Text is UTF-8; a file that cannot be decoded raises before its lines
  are handled.
* The environment, where stated: `rename(2)` and `link(2)` are atomic, `O_APPEND` writes of a line are atomic, reads under
  the lock see one state, no rename is reordered before the data (the code calls no fsync); the hash of the admin API is
  an arbitrary function; the admin API's temporary file is not a symbolic link; qubesd, the GUI agent, other qubes and
  their schedules are arbitrary.

## Simplifications and parts that are not modelled

* GTK drawing (the window is driven by arbitrary signals), D-Bus transport, asyncio's scheduler inside one coroutine,
  logging, the text of messages, the PAM modules (their results are parameters of C84), `argparse` itself (the parsed options are the
  input; `getopt_long` is modelled for C109), locale.
* vchan and sockets are byte queues; libvchan send failures, `malloc` failures (except where a property is about them),
  the memory limit of buffers in the data path (C47 models it) is not modelled; that the copy of stderr for the logger (C111) may block is not modelled.
* inotify queue overflow, changes of links, a file made in a new directory before it is watched; the 4096 byte limit of the C side on an answer is modelled in
  `Model/CResponse`, not in the daemon's history model.
* Nothing is said about memory safety of the C code beyond the lengths and indices the models mention.
* Not modelled at all: `qrexec-policy-agent`'s icons and desktop notifications' appearance, systemd units, Windows support.

## Where the code does not do what the property says

Found while modelling; those with a theorem are machine checked in the model.

Policy evaluation and answers
* A rule for `@dispvm:X` raises `AttributeError` if the caller has no default disposable template (C10, C11, C76); a
  rule with `@dispvm:uuid:…` does not match plain `@dispvm` (C10). `ask` with `target=@dispvm`, unknown sources and
  missing templates raise `KeyError` (C11).
* Loopback is compared as text, so a caller naming itself by UUID is not refused, nor a relay calling what it relays
  (C18); for a remote qube behind a redirect the service line names the requested target (C20).
* A question whose only target has no row in the window (`ask target=@dispvm`, `target=uuid:…`) can only be refused
  (C80_unlisted, C80_redirect_unusable).
* `collect_targets` leaks aliases of dom0 and of the default disposable denied by a rule (C15).
* The notification of an allowed call is sent before the call is refused as loopback (C46).
* A question that is open when the policy changes is answered by the policy of the moment it was asked: the call can be
  allowed after the daemon has noticed that its rule is gone (C120_stale_violated).
* `Rule.__str__` drops `notify=`, `autostart=`, an empty `user=`, and prints the service `*` as `None` (C45).
* A call is logged as allowed before it is refused as loopback or for a RemoteVM without relay (C114_allowed_then_denied); the GUI qube
  can add lines to the log with its reply (C114_forged_line); calls that end in an exception are not logged (C114_no_record).
* The fallback of the daemon drops the requested source (C55), and a broken answer leaves its `policy_source` behind;
  dom0 services see the relay, not the remote qube (C56).
* `handle_request` catches only `QubesMgmtException` of `get_system_info`: a refused connection, a cut or malformed answer of
  qubesd is an exception, and the caller of the policy daemon gets an empty answer instead of `result=deny` (C87_none).

Policy files
* Admin API: names with capital letters, lone carriage returns, and files only included by the legacy policy break later
  loads though validated (C35); a crash in the middle blocks the API (C36_stuck); `!compat-4.0` validation ignores the
  override; a leftover `!name.policy`; names shown by GetFiles are ambiguous (C59).
* The cache loads before it watches (C37_startup_gap). Files included from outside the policy directories, renaming a policy
  directory itself, and a legacy directory made after the start are not noticed (C99_gap_elsewhere, C99_gap_replaced, C99_gap_late). The daemon takes the end of the stream for the end of a request
  (C38_truncated).
* RegisterArgument: missing newline at the end, hidden by a runtime file, service names that break the policy (C40).
* qrexec-policy-graph: calls missing from the graph (C76_gap), `--service` with a `*` rule raises `TypeError`.
* qrexec-policy-exec: `--path` always ends in an `AttributeError`; a RemoteVM gets the caller's service instead of the
  transport service (C83_remote_violation); `--just-evaluate` allows what execution refuses (C83_just_violation); an empty
  target with a grant for dom0 ends in an `IndexError`; `autostart=False` is ignored; disposables are not removed.
* qubes-policy-lint: `!include-service bad bad __main__` is not checked; `-i` accepts `!include-dir`, reports
  `$include:`; `!include ./__main__` and `-i` with `$include:inc` end in a `RecursionError`; only the first bad file is
  reported (C77). `./x` and absolute paths are refused although they load.
* PolicyClient: `policy_list` of an empty area returns `[""]` (C78_list_empty_violation); a message on standard error that
  begins with another global of the module (`List`, `warn`) raises `TypeError` from `issubclass`.
* qubes-policy (C86): `-r` and `-d` never detect a concurrent change (token `any`), `-r` changes CRLF line ends to LF, `-l` of an empty directory writes an empty line.
* Python client: `call_async` without input - the default - or with a file raises `KeyError` and starts nothing (C110_async_violated).
* qubes-policy-editor: files for `!include` cannot be saved (C79_include_violation); `file=sys.stderr` is an argument of
  `format`, so the message goes to stdout; `main` ignores its argument; errors of Get other than "not found", and a failed
  command at Replace, end in a traceback.
* `ToposortMixIn.toposort` always raises `TypeError` (sets of sets) (C105_order_violated); `qrexec-policy-restore` calls a function
  that does not exist (C105_restore_violated).
* qrexec-legacy-convert: restoring always raises `FileNotFoundError` at the first file of the old format, which has been
  renamed, and the old files stay out of use (C89_violated); new files without a predecessor are not removed; if the
  converted policy does not load, `"ERROR".difference` raises `AttributeError` before restoring is offered. A catch-all denial
  is dropped, so that a later default rule may allow what was denied (C88_violated_deny; the graph shows it). A rule
  for an input service with another argument is dropped (C88_violated_input). `notify=`, `autostart=` and an empty `user=`
  get lost (`Rule.__str__`), and the graph does not show it. Rules of 30-user come before those of 50-config-*, whatever
  their order was. A rule of an included file that the new policy includes as well counts as converted.

Daemon, dom0 side
* The daemon takes a domain id that is no number as 0, that of dom0 (`atoi`; example in Props/Getopt).
* Services in dom0 called by qubes run with SIGCHLD blocked, since the daemon never resets its signal mask (C100_daemon_violated);
  services in dom0 called from dom0 and qubes.WaitForSession run with SIGPIPE ignored (C100_pipe_violated). While descriptors
  are always ready, ends of children may stay unhandled (C101_starved).
* The agent does not reach a `NOTIFY_SOCKET` in the abstract namespace: the name it connects to ends in NUL bytes
  (C122_violated_abstract); a memory reporter with a PID above 65535 is never woken (C122_violated_pid).
* `SERVICE_CONNECT` with a bad port marks the request as answered (C52_bad_port); killed or stale children leave requests
  unanswered (C52); `LOG` reads `policy_pending[i]` out of bounds when the table is full; a client with domain id -1 gets
  an unreserved port (C51); qubesd sockets are closed twice; a disposable leaks if qubesd cannot be reached for its start
  or names it badly (C54).
* A command for dom0 that cannot be parsed, or `-l` with a command that fails, dereferences NULL (C71_dom0_crash, C75);
  the service is started before the vchan connects; a service configuration is ignored in dom0 for `nogui`; `force-user`
  is ignored or trips an assertion; a user name with `:` in a policy splits the command elsewhere (C50_user_colon).
* qrexec-client: dom0 to dom0 ignores `-e -p -t -T`; `-k` is ignored with `-c`; an unknown option exits with 0;
  `connect_unix_socket` leaks its socket; numbers with a leading zero are octal (C74).
* With a relative directory in `QREXEC_SERVICE_PATH`, a socket with a path of 108 bytes or more is not reached
  (C97_relative_gap). `load_service_config` (the old interface) frees the address of the caller's variable.
* Whitespace-only lines in service configurations are refused (C66_spaces); dangling links are skipped (C65_dangling);
  the service `..` finds a directory (C65_dotdot).
* A child of the daemon that serves a call to dom0 and meets an error on its vchan calls `exit(1)`, which runs the daemon's
  `atexit` handler: the names of the living daemon are removed and the qube cannot be called any more (C91_violated_child).
  A daemon that ends after its qube was started again removes the links of the new daemon (C91_violated_late); after a
  SIGKILL its links stay and, once the id is reused, lead to another qube (C90_violated_reuse). A failing `symlink` is only
  logged. If `libvchan_client_init_async` gives NULL the daemon ends with 3 but the command reports 1 (C92).
* Before a service with `wait-for-session` in dom0, `waitpid(0)` waits for the process group and not for the program: if the
  program leaves the group, the service starts at once (C104_gap); it also starts at once if `qubes.WaitForSession` is missing or fails (C104_without).
* `handle_client_hello` reads with `read_all` from a blocking socket: a local client that sends a part of its request stops the daemon
  until it goes on (C107_waits_violated). Commands of 65528 to 65535 bytes are sent, but the daemon drops the client (C107_limit_gap).

Qube side
* `qubes.WaitForSession` waits for the fork server of the default user, whichever user the service that waits is for
  (C112_user_violated), and succeeds at once with an argument (C112_argument_violated). `qubes-rpc-multiplexer` may start another program than
  the agent does (C113_program_violated).
* `logger_fd` is left 0 for commands that are not services, so what these write to stderr is also written to descriptor 0 of the
  agent (C111_violated); the tags of the log are ambiguous (C111_tag_ambiguous).
* A process of the agent that serves a call keeps copies of the connections of all local clients: a client refused meanwhile hangs until
  that service has ended, as do all waiting clients if the agent dies (C106_violated, C106_agent_ends).
* The fork server sets no umask: whether others may connect depends on what started it (C103_fork_gap).
* Agent and daemon look at their vchan after the sleep only, and the agent not at all: a peer that ends while a message is being read may go
  unnoticed (C115_main_loop_violated).
* The daemon may wait for the process of a granted call before it has read the connection from it (the vchan to the agent full, or another process
  ended at the same moment): it then ignores the connection, the service runs and the caller waits for ever (C117_full_violated,
  C117_race_violated).
* `handle_trigger_io` reads a whole request from a blocking socket: a local client that sends a part stops the agent for everyone (C107_waits_violated).
* The local program of qrexec-client-vm runs with SIGPIPE ignored (C100_pipe_violated).
* The daemon sends an agent's version back to it (C70_control). If `fork` fails the slot and the daemon's port leak
  (C67_lost); a connection begun while 256 are open is never reported (C67_full); `handle_service_refused` treats an EOF
  of sscanf as a match (C69_early_end); names are cut to 63 bytes silently (C72).
* Fork server: a client that connects and says nothing blocks it for everyone (C82_stuck); a failing `accept` or a message of
  type 0x202 ends it; the path of its socket is cut to the size of `sun_path`.
* Data path: SIGUSR1 and pending prefix data make data go behind the end of file (C49, C63_violated_prefix); a client
  whose reader has gone with data still buffered never notices the end of the peer and hangs for ever (C63_stuck, C95_hangs);
  prefix data, and messages behind data buffered for a closed input, wait up to ten seconds (C96_violated_prefix,
  C96_violated_closed); a negative exit status does not end a client (C95); stderr of plain commands is also written to fd 0.
* A user whose home directory name has 59 bytes or more cannot run anything: `do_exec` formats `HOME=…` into 64 bytes and
  gives up (C84_long_home_always); every failure behind `pam_open_session` leaves the session open (C84_long_home). There is
  no `pam_acct_mgmt`: expired or locked accounts are served if `pam_authenticate` lets them in.
* A process without stdin would start services without stdin, because `fix_fds` leaves a descriptor that already has the right
  number marked close-on-exec (C85_closed_stdin): the programs depend on `setup_logging`, which refuses to start (C119_closed).
