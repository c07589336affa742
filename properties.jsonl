{"id": "C01", "title": "First matching rule decides", "statement": "For every policy (ordered list of rules) and every request, the outcome of Policy.evaluate is the outcome of the action of the first rule whose service, argument, source and target columns all match the request; rules after that one cannot turn its allow or deny into anything else, and rules before it have no effect.", "quantifier": "every rule list, every system state, every request", "why_tests_cant": "rule lists and requests are unbounded; a test only samples a few orders", "anchors": ["qrexec/policy/parser.py: AbstractPolicy.evaluate, AbstractPolicy.find_matching_rule, Rule.is_match"]}
{"id": "C02", "title": "Default deny", "statement": "If no rule matches a request the request is refused with AccessDenied (notify on), and the policy frontend answers exactly result=deny.", "quantifier": "every policy without a matching rule and every request", "why_tests_cant": "absence of an accidental match must hold for all rules and requests", "anchors": ["qrexec/policy/parser.py: AbstractPolicy.find_matching_rule", "qrexec/tools/qrexec_policy_exec.py: handle_request"]}
{"id": "C03", "title": "A deny rule that matches first is final", "statement": "When the first matching rule is a deny, evaluation raises AccessDenied, with the notification flag the rule asked for (default: notify), whatever the other rules, the system state or the user would say; no question is ever put to the user.", "quantifier": "every policy, request, system state, agent behaviour", "why_tests_cant": "must hold for all rule lists and all agents", "anchors": ["qrexec/policy/parser.py: Deny.evaluate", "qrexec/tools/qrexec_policy_exec.py: handle_request"]}
{"id": "C04", "title": "No allow without an allow or an approved ask", "statement": "If handle_request answers with result=allow, then the first rule matching the request is an allow rule, or it is an ask rule and the GUI agent (or the assume-yes mode) picked a target that the ask offered.", "quantifier": "every policy, request, system state and every agent response string", "why_tests_cant": "soundness of a security gate: a single missed path in an unbounded space defeats it", "anchors": ["qrexec/tools/qrexec_policy_exec.py: handle_request, AgentAskResolution.execute", "qrexec/policy/parser.py: AskResolution.handle_user_response"]}
{"id": "C05", "title": "The allowed target is the one the rule names", "statement": "For an allow rule the resolved target is the rule's target= redirect when present, otherwise the requested target, after resolving @adminvm to dom0 and @dispvm to the source's default disposable template; it is never @default, @dispvm or @adminvm, and a plain target is an existing domain.", "quantifier": "every rule, request and system state", "why_tests_cant": "the resolution covers every token form and every system state", "anchors": ["qrexec/policy/parser.py: Allow.evaluate, ActionType.actual_target, IntendedTarget.verify, DispVM.get_dispvm_template"]}
{"id": "C06", "title": "Token grammar per column", "statement": "A source, target, redirect or requested-target token is accepted exactly when it is a plain non-empty name, or one of the keywords allowed in that column, or a prefix keyword allowed in that column followed by a non-empty value not starting with @; everything else is a syntax error and no other exception.", "quantifier": "every string and every column", "why_tests_cant": "the set of strings is infinite", "anchors": ["qrexec/policy/parser.py: VMToken.__new__, VMTokenMeta, Source, Target, Redirect, IntendedTarget"]}
{"id": "C07", "title": "dom0 is matched only by rules that say so", "statement": "@anyvm never matches dom0 in any of its spellings (dom0, @adminvm, uuid:0...), matches every other target, * matches everything, and dom0, @adminvm and uuid:0 written as a rule target match exactly those three spellings.", "quantifier": "every target token and every system state", "why_tests_cant": "quantifies over all target strings", "anchors": ["qrexec/policy/parser.py: AnyVM.match, WildcardVM.match, AdminVM.match, VMToken.match, is_dom0"]}
{"id": "C08", "title": "Names and UUIDs are interchangeable in matching", "statement": "In a consistent system state, whether a rule written with a domain's name or with its uuid: form matches does not depend on whether the caller designated the domain by name or by UUID.", "quantifier": "every consistent system state, every rule token, every domain", "why_tests_cant": "needs all system states and token forms", "anchors": ["qrexec/policy/parser.py: match_strings, VMToken.match, TypeVM.match, TagVM.match, DispVMTemplate.match"]}
{"id": "C09", "title": "@type and @tag rules match by the current attributes only", "statement": "@type:T matches exactly the existing domains whose class is T and @tag:X exactly the existing domains carrying tag X; neither matches a non-existing domain nor a keyword.", "quantifier": "every system state, every token", "why_tests_cant": "all states and strings", "anchors": ["qrexec/policy/parser.py: TypeVM.match, TagVM.match"]}
{"id": "C10", "title": "Disposable-template rules", "statement": "A @dispvm:T rule target matches a request for @dispvm:T (by name or UUID) and a request for plain @dispvm exactly when T is the source's default disposable template; @dispvm:@tag:X matches exactly when the requested (or default) template exists, is a template for disposables and carries X; plain @dispvm rules match only plain @dispvm.", "quantifier": "every system state, source and requested target", "why_tests_cant": "all states and strings", "anchors": ["qrexec/policy/parser.py: DispVM.match, DispVMTemplate.match, DispVMTag.match, DispVM.get_dispvm_template"]}
{"id": "C11", "title": "Policy evaluation is total", "statement": "For every well-formed policy and request, evaluation ends with a resolution or AccessDenied; no other exception escapes, so the caller always gets an answer.", "quantifier": "every policy, request and consistent system state", "why_tests_cant": "exception freedom over all inputs", "anchors": ["qrexec/policy/parser.py: AbstractPolicy.evaluate, DispVMTemplate.match, DispVMTemplate.expand, AbstractPolicy.collect_targets_for_ask"]}
{"id": "C12", "title": "A non-existing target is treated as unspecified", "statement": "A request for a domain that does not exist is evaluated exactly as a request for @default, and a request for a @dispvm:T whose T is missing or not a disposable template is refused.", "quantifier": "every name, system state and policy", "why_tests_cant": "all strings and states", "anchors": ["qrexec/policy/parser.py: IntendedTarget.verify, DispVMTemplate.verify, Request.__init__"]}
{"id": "C13", "title": "autostart=no never starts a domain", "statement": "With autostart=no an allow or an ask is only ever resolved to dom0 or a domain that is running at evaluation time, never to a disposable, and the response carries autostart=False; otherwise the request is refused.", "quantifier": "every rule with autostart=no, request, state and user choice", "why_tests_cant": "all states and choices", "anchors": ["qrexec/policy/parser.py: ActionType.allow_no_autostart, Allow.evaluate, Ask.evaluate, AllowResolution.execute"]}
{"id": "C14", "title": "Targets offered by ask are valid choices", "statement": "Every target offered to the user by an ask without redirect is an existing domain name or @dispvm: followed by an existing domain, is not the calling domain itself, is not marked internal, and is never the bare keyword @dispvm, @adminvm or @default.", "quantifier": "every policy, request and system state", "why_tests_cant": "sets built from arbitrarily long rule lists", "anchors": ["qrexec/policy/parser.py: AbstractPolicy.collect_targets_for_ask"]}
{"id": "C15", "title": "Ask offers exactly the targets policy does not deny", "statement": "A named domain is offered by ask exactly when the first rule applying to this service, argument and source whose target column covers that domain is not a deny (and it is not the caller and not internal).", "quantifier": "every policy, request, system state and candidate target", "why_tests_cant": "set fold over unbounded rule lists", "anchors": ["qrexec/policy/parser.py: AbstractPolicy.collect_targets_for_ask, _BaseTarget.expand, WildcardVM.expand, AnyVM.expand, TagVM.expand, TypeVM.expand, DispVMTag.expand, DispVMTemplate.expand"]}
{"id": "C16", "title": "User choice is confined to the offered targets", "statement": "After an ask, only the exact response allow:T with T among the offered targets leads to an allow, and then to T itself; deny, malformed responses, unknown targets and a missing GUI domain all lead to a refusal.", "quantifier": "every response string, offered set, rule and request", "why_tests_cant": "response strings are unbounded and adversarial", "anchors": ["qrexec/policy/parser.py: AskResolution.handle_user_response, AllowResolution.from_ask_resolution", "qrexec/tools/qrexec_policy_exec.py: AgentAskResolution.execute"]}
{"id": "C17", "title": "The preselected target is one of the offered ones", "statement": "The default target shown by ask is empty or a member of the offered targets, and it is the rule's default_target after resolving @dispvm and dom0 spellings.", "quantifier": "every rule, request, state", "why_tests_cant": "all policies and states", "anchors": ["qrexec/policy/parser.py: Ask.evaluate, AskResolution.__init__"]}
{"id": "C18", "title": "No loopback connection", "statement": "The policy never answers allow with the target equal to the calling domain.", "quantifier": "every policy, request and state", "why_tests_cant": "all policies and spellings of a domain", "anchors": ["qrexec/policy/parser.py: AllowResolution.execute, AbstractPolicy.collect_targets_for_ask"]}
{"id": "C19", "title": "Only a relay may speak for a remote domain", "statement": "A request carrying a requested source is accepted only if that source exists, is a RemoteVM and its relay is the domain that sent the request; then policy is evaluated with the remote domain as source; otherwise it is refused.", "quantifier": "every request with requested_source and every state", "why_tests_cant": "all states and strings", "anchors": ["qrexec/policy/parser.py: Request.__init__"]}
{"id": "C20", "title": "Calls to a remote domain go through its relay", "statement": "When the resolved target is a RemoteVM the response names the relay as target, with its UUID, user DEFAULT and a service line transport+target+service+argument, and is refused if relay or transport is not configured.", "quantifier": "every request, rule and state", "why_tests_cant": "all states", "anchors": ["qrexec/policy/parser.py: AllowResolution.execute"]}
{"id": "C21", "title": "Response is well formed and cannot be forged", "statement": "Whatever the caller puts in the request, the response text parses back (line by line, key=value, no duplicate key) to exactly the fields decided by policy, as long as domain names and policy parameters contain no newline; the caller's strings cannot add or override a field.", "quantifier": "every request, policy and state with newline-free names", "why_tests_cant": "injection over all strings", "anchors": ["qrexec/policy/parser.py: AllowResolution.execute", "qrexec/tools/qrexec_policy_exec.py: get_result", "daemon/qrexec-daemon.c: parse_policy_response"]}
{"id": "C22", "title": "The C daemon reads exactly what the policy engine wrote", "statement": "parse_policy_response applied to any response produced by the policy engine yields allow with the same user, target, target_uuid, requested_target, autostart, service and policy_source, or deny for result=deny; and any response accepted as allow has exactly one result=allow line and the mandatory fields.", "quantifier": "every response string", "why_tests_cant": "all byte strings up to the limit", "anchors": ["daemon/qrexec-daemon.c: parse_policy_response, connect_daemon_socket"]}
{"id": "C23", "title": "Rule line parsing is total and strict", "statement": "Every policy line is either turned into a rule or rejected with PolicySyntaxError; a rule is accepted exactly when it has at least five fields, a valid service and argument, valid source and target tokens, a known action, only parameters that action knows, none twice, yes/no for booleans, and target= for allow on @default.", "quantifier": "every line of text", "why_tests_cant": "infinite input space", "anchors": ["qrexec/policy/parser.py: Rule.from_line, Rule.__init__, validate_service_and_argument"]}
{"id": "C24", "title": "Comments, blank lines and whitespace do not matter", "statement": "Adding or removing comment lines, blank lines, leading/trailing whitespace, or changing the amount or kind of whitespace between fields does not change the loaded rules.", "quantifier": "every policy text", "why_tests_cant": "all texts", "anchors": ["qrexec/policy/parser.py: AbstractParser.load_policy_file, Rule.from_line"]}
{"id": "C25", "title": "Load order and override of policy directories", "statement": "The loaded policy is the concatenation of the rules of the files sorted by file name over all directories, where a file name occurring in several directories is taken only from the first directory.", "quantifier": "every set of directories and files, every directory listing order", "why_tests_cant": "all file systems and listing orders", "anchors": ["qrexec/policy/parser.py: AbstractFileSystemLoader.load_policy_dirs, filter_filepaths"]}
{"id": "C26", "title": "Bad file name or syntax error blocks the whole policy", "statement": "If any non-ignored policy file has a name with a forbidden character, or any loaded file has a syntax error, no policy is loaded at all and every request is refused (fail closed); ignored files (dotfiles, other suffixes) never affect the result.", "quantifier": "every file system", "why_tests_cant": "all file systems", "anchors": ["qrexec/policy/parser.py: filter_filepaths, AbstractFileSystemLoader", "qrexec/tools/qrexec_policy_exec.py: handle_request"]}
{"id": "C27", "title": "Include splices the file in place", "statement": "An !include line contributes exactly the rules of the included file at that position; !include-dir those of the sorted files of the directory; including a missing file is a syntax error; whether loading succeeds does not depend on the recursion depth available once it is enough.", "quantifier": "every tree of includes", "why_tests_cant": "unbounded nesting", "anchors": ["qrexec/policy/parser.py: AbstractFileLoader.handle_include, AbstractDirectoryLoader.handle_include_dir, AbstractParser.load_policy_file"]}
{"id": "C28", "title": "Legacy per-argument files do not fall through", "statement": "With !compat-4.0, for a service and argument having its own legacy file, no request from a domain other than dom0 for this service and argument is decided by a rule placed after that file's rules.", "quantifier": "every legacy directory, every following rules, every request", "why_tests_cant": "all policies", "anchors": ["qrexec/policy/parser_compat.py: Compat40Parser.execute, _sorted_compat_files"]}
{"id": "C29", "title": "Service and source isolation", "statement": "Rules whose service, argument or source column does not match the request have no influence at all on the outcome, including on the targets offered by ask: removing them gives the identical outcome.", "quantifier": "every policy and request", "why_tests_cant": "relational property over pairs of policies", "anchors": ["qrexec/policy/parser.py: AbstractPolicy.evaluate, AbstractPolicy.collect_targets_for_ask, Rule.is_match_but_target"]}
{"id": "C30", "title": "Adding a deny rule never grants anything", "statement": "Inserting a deny rule anywhere in a policy either leaves the decision as it is or turns it into a refusal, and never adds a target to what ask offers.", "quantifier": "every policy, position, deny rule, request", "why_tests_cant": "relational property over pairs of policies", "anchors": ["qrexec/policy/parser.py: AbstractPolicy.evaluate, AbstractPolicy.collect_targets_for_ask"]}
{"id": "C31", "title": "Admin API is a compare-and-swap register", "statement": "policy.Replace with the token returned by an earlier Get succeeds only if the file's content is still the one read (up to hash collisions); with token new only if the file does not exist; no interleaving of clients that all use tokens loses an update.", "quantifier": "every sequence of requests by any number of clients", "why_tests_cant": "all histories", "anchors": ["qrexec/policy/admin.py: PolicyAdmin._check_token, _common_get, _common_replace, _lock"]}
{"id": "C32", "title": "Get returns what Replace stored", "statement": "After a successful Replace of a name, Get of that name returns the token of and exactly the stored bytes, List contains the name, other files are unchanged; after Remove, Get fails and List does not contain it.", "quantifier": "every file system state, name and content", "why_tests_cant": "all contents and histories", "anchors": ["qrexec/policy/admin.py: PolicyAdmin.policy_get, policy_replace, policy_remove, policy_list"]}
{"id": "C33", "title": "Rejected or read-only admin calls change nothing", "statement": "A request that fails in any way before the write, and every List, Get, GetFiles request, leaves every file exactly as it was.", "quantifier": "every request and state", "why_tests_cant": "all requests", "anchors": ["qrexec/policy/admin.py: PolicyAdmin.handle_request"]}
{"id": "C34", "title": "Admin API stays inside its directories", "statement": "No argument makes Replace, Remove or Get touch a file other than <policy dir>/<name>.policy or <policy dir>/include/<name> (and the temporary file next to it).", "quantifier": "every argument string", "why_tests_cant": "path traversal over all strings", "anchors": ["qrexec/policy/admin.py: PolicyAdmin._get_path"]}
{"id": "C35", "title": "A validated change keeps the policy loadable", "statement": "After every successful Replace or Remove the policy directory loads without error, provided it did so before.", "quantifier": "every state and request", "why_tests_cant": "all directories, names and contents", "anchors": ["qrexec/policy/admin.py: PolicyAdmin._validate", "qrexec/policy/parser.py: ValidateParser, FilePolicy"]}
{"id": "C36", "title": "Replace is atomic with respect to crashes", "statement": "If the machine stops at any point during Replace, the file afterwards holds either its complete old content or its complete new content, and the policy is still loadable or every request is refused.", "quantifier": "every crash point, state and content", "why_tests_cant": "crash points", "anchors": ["qrexec/policy/admin.py: PolicyAdmin._common_replace"]}
{"id": "C37", "title": "The daemon never answers from a stale policy", "statement": "Once the change notification for an edit of the policy directories has been delivered, every request taken up later is decided by a policy loaded after that edit (for a request already waiting for the user see C120); a policy that fails to load is never replaced silently by an older one.", "quantifier": "every interleaving of edits, notifications and queries", "why_tests_cant": "schedules", "anchors": ["qrexec/policy/utils.py: PolicyCache, PolicyWatcher"]}
{"id": "C38", "title": "Daemon request protocol is strict", "statement": "A client connection gets an answer only if each argument is known and given at most once, booleans are yes/no and all mandatory arguments are present; the answer is then that of the policy engine for exactly the values sent.", "quantifier": "every byte stream a client may send", "why_tests_cant": "all inputs", "anchors": ["qrexec/tools/qrexec_policy_daemon.py: handle_client_connection"]}
{"id": "C39", "title": "policy.EvalSimple and policy.EvalGUI reveal only permitted verdicts", "statement": "The evaluation services answer only result=allow or result=deny for syntactically valid source and target, never execute or ask anything, never notify, and policy.EvalGUI only when the caller provides the GUI of both domains.", "quantifier": "every payload and state", "why_tests_cant": "all inputs", "anchors": ["qrexec/tools/qrexec_policy_daemon.py: qrexec_policy_eval, read_all_up_to_limit"]}
{"id": "C40", "title": "RegisterArgument registers an argument at most once", "statement": "Whatever the interleaving of concurrent policy.RegisterArgument calls, an argument of a service is registered at most once, each registration adds exactly one allow line for exactly this frontend, backend, service and argument, and invalid arguments change nothing.", "quantifier": "every sequence of calls, argument bytes and policy state", "why_tests_cant": "schedules and histories", "anchors": ["qubes-rpc-dom0/policy.RegisterArgument: main, _lock"]}
{"id": "C41", "title": "Name sanitization", "statement": "The sanitizers (Python and C) keep the length, are idempotent, output only allowed characters, change only disallowed characters, and the asserting form accepts exactly the strings that are already clean.", "quantifier": "every string", "why_tests_cant": "infinite input space", "anchors": ["qrexec/utils.py: _sanitize_char, _sanitize_name", "daemon/qrexec-daemon.c: sanitize_name"]}
{"id": "C42", "title": "The question window cannot be answered by stolen focus", "statement": "The confirmation button can be effective only if the window has been continuously focused for the required time since it last gained focus, whatever the order of focus changes and timers.", "quantifier": "every sequence of focus, timer and enable events", "why_tests_cant": "schedules", "anchors": ["qrexec/tools/qrexec_policy_agent.py: GtkOneTimerHelper, FocusStealingHelper"]}
{"id": "C43", "title": "The question window displays caller text inertly", "statement": "Service names and arguments shown in the question window are escaped so that no caller-chosen text can introduce markup, and the displayed text is the given text.", "quantifier": "every service and argument string", "why_tests_cant": "injection over all strings", "anchors": ["qrexec/tools/qrexec_policy_agent.py: escape_and_format_rpc_text"]}
{"id": "C44", "title": "The window can only return a whitelisted target", "statement": "The confirmation window answers with deny or with a target out of the offered list, and the OK button is enabled only when such a target is selected.", "quantifier": "every user interaction sequence", "why_tests_cant": "schedules", "anchors": ["qrexec/tools/qrexec_policy_agent.py: VMListModeler, RPCConfirmationWindow, PolicyAgent.handle_ask"]}
{"id": "C45", "title": "Rule printing round trip", "statement": "Printing a loaded rule and parsing it again gives a rule with the same effect (used by the legacy policy converter).", "quantifier": "every rule", "why_tests_cant": "all rules", "anchors": ["qrexec/policy/parser.py: Rule.__str__, Allow.__str__, Ask.__str__, Deny.__str__", "qrexec/tools/qrexec_legacy_convert.py"]}
{"id": "C46", "title": "Notifications follow the rule", "statement": "A user notification is sent for a refused request exactly when the deciding error asks for it, the request is not evaluate-only and the source has a GUI domain; for an allowed one exactly when the rule says notify=yes and the source has a GUI domain; a failing notification never changes the answer.", "quantifier": "every request, policy, state, agent failure", "why_tests_cant": "all combinations", "anchors": ["qrexec/tools/qrexec_policy_exec.py: handle_request, NotifyAllowedResolution, notify"]}
{"id": "C47", "title": "Stream buffer is a faithful FIFO", "statement": "The libqrexec buffer returns exactly the bytes appended, in order, each once, under any interleaving of appends and removals, and its memory accounting equals the bytes held.", "quantifier": "every sequence of operations", "why_tests_cant": "histories", "anchors": ["libqrexec/buffer.c: buffer_append, buffer_remove"]}
{"id": "C48", "title": "Data to the local process is neither lost, duplicated nor reordered", "statement": "The bytes written to the local process are always a prefix of the bytes received for it, and everything not written yet is kept in the buffer, whatever partial writes the kernel makes.", "quantifier": "every sequence of incoming messages and partial write results", "why_tests_cant": "schedules", "anchors": ["libqrexec/write-stdin.c: write_stdin, flush_client_data"]}
{"id": "C49", "title": "Data framing round trip", "statement": "A stream sent by handle_input in data messages and read by handle_remote_data arrives as the same byte stream, with chunks within the protocol limit, and end of file is signalled exactly once, after all data.", "quantifier": "every stream, chunking and protocol version", "why_tests_cant": "all streams and chunkings", "anchors": ["libqrexec/remote.c: handle_input_v2, handle_remote_data_v2"]}
{"id": "C50", "title": "Service command parsing", "statement": "A service command line is parsed into service, argument and source exactly as written; malformed lines (empty name, leading +, bad target type, missing source) are refused, and the service descriptor is always name+argument.", "quantifier": "every command line", "why_tests_cant": "infinite input space", "anchors": ["libqrexec/exec.c: parse_qubes_rpc_command"]}
{"id": "C51", "title": "vchan ports never collide", "statement": "Two live connections of a daemon never share a port, ports allocated for a pair of domains by their two daemons are disjoint, a port is released only on a termination message for the domain it was reserved for, and exhaustion refuses instead of reusing.", "quantifier": "every sequence of allocations and releases, every pair of domain ids", "why_tests_cant": "histories", "anchors": ["daemon/qrexec-daemon.c: allocate_vchan_port, release_vchan_port"]}
{"id": "C52", "title": "Every service request of a VM is answered exactly once", "statement": "For each service trigger message the daemon sends the agent exactly one of service-refused or service-connect, whatever the order of child exits and client messages.", "quantifier": "every sequence of triggers, child exits, client connects", "why_tests_cant": "schedules", "anchors": ["daemon/qrexec-daemon.c: handle_execute_service, reap_children, handle_cmdline_body_from_client"]}
{"id": "C53", "title": "Untrusted trigger messages are sanitized before use", "statement": "What the daemon passes to the policy engine from a VM's trigger message contains only permitted characters, in particular no newline, '=' or NUL, so the VM cannot inject request fields; invalid identifiers or names are refused.", "quantifier": "every message content", "why_tests_cant": "all byte strings", "anchors": ["daemon/qrexec-daemon.c: handle_message_from_agent, sanitize_name, validate_service_name, validate_request_id, send_request_to_daemon"]}
{"id": "C54", "title": "A disposable created for a call is always cleaned up", "statement": "Every disposable domain created for a call is killed when the call ends or fails, whatever step fails.", "quantifier": "every failure point", "why_tests_cant": "failure points", "anchors": ["daemon/qrexec-daemon-common.c: qrexec_execute_vm"]}
{"id": "C55", "title": "The caller identity survives the policy engine fallback", "statement": "When the policy daemon is unavailable or misbehaves, the fallback evaluation gives the decision the daemon would have given for the same request, including its requested source.", "quantifier": "every request and failure mode", "why_tests_cant": "failure schedules", "anchors": ["daemon/qrexec-daemon.c: connect_daemon_socket"]}
{"id": "C56", "title": "Services see the right caller", "statement": "The command executed for a permitted call names exactly the granted user, the called service with its argument and the calling qube; for calls through a relay the caller is the remote qube.", "quantifier": "every permitted request, target kind and requested source", "why_tests_cant": "ranges over all requests and answers of the policy engine", "anchors": ["daemon/qrexec-daemon.c: handle_execute_service_child"]}
{"id": "C57", "title": "No service runs for a qube unless the policy grants it", "statement": "From the bytes of a qube's trigger message to the executed command: while the policy daemon answers, a command is executed only if the loaded policy grants the call of exactly this qube, target, service and argument, and the command is the one for the granted target.", "quantifier": "every message, policy, system state and agent reply", "why_tests_cant": "composition of the C daemon, the wire protocol and the policy engine over all inputs", "anchors": ["daemon/qrexec-daemon.c: handle_message_from_agent, handle_execute_service_child", "qrexec/tools/qrexec_policy_daemon.py: handle_client_connection", "qrexec/tools/qrexec_policy_exec.py: handle_request"]}
{"id": "C58", "title": "Old-format policy lines mean what the new format says", "statement": "A rule line of a legacy policy file or of a file included with !include-service means the new-format line with the service and argument in front, '$' read as '@' and commas as spaces; $include: includes a file for the same service and argument; any other line is a syntax error for the whole policy.", "quantifier": "every line, service and argument", "why_tests_cant": "infinite input space", "anchors": ["qrexec/policy/parser.py: Rule.from_line_service, AbstractPolicyLoader.handle_compat40, load_policy_file_service"]}
{"id": "C59", "title": "GetFiles lists exactly the files with rules of the service", "statement": "policy.GetFiles writes nothing and answers, one per line, each once and in order of precedence, the files of the loaded policy that have a rule for the service or for all services; empty or invalid service names are refused.", "quantifier": "every policy directory and service name", "why_tests_cant": "infinite policy space", "anchors": ["qrexec/policy/admin.py: policy_get_files", "qrexec/policy/parser.py: find_rules_for_service"]}
{"id": "C60", "title": "The daemon passes on exactly one well-formed command per client", "statement": "Each message the daemon passes to the agent comes from one greeted client connection, which gets at most one command through; it carries the client's kind, domain and text, with only a leading DEFAULT: replaced by the default user, a data port within range, and a header length that matches the text.", "quantifier": "every sequence of daemon events and client messages", "why_tests_cant": "histories", "anchors": ["daemon/qrexec-daemon.c: handle_cmdline_body_from_client, handle_client_hello, handle_message_from_client"]}
{"id": "C61", "title": "Executing a permitted call starts and contacts only the right qubes", "statement": "Without autostart no qube is created or started; otherwise only the target (or a disposable created for the call) is started, and only when it does not run. Success is reported exactly if the source's daemon was told to connect, with the domain and port the target's daemon gave for this command and the identifier of the request.", "quantifier": "every target, option and failure of qubesd and the daemons", "why_tests_cant": "failure points", "anchors": ["daemon/qrexec-daemon-common.c: qrexec_execute_vm, negotiate_connection_params, send_service_connect", "libqrexec/ioall.c: qubesd_call2"]}
{"id": "C62", "title": "Bulk I/O transfers everything or reports failure", "statement": "write_all, read_all, read_all_to_malloc, qubes_sendmsg_all, the vchan variants and copy_fd_all: on success exactly the given bytes, in order, were transferred, however the kernel splits, interrupts or delays the calls; on failure only a prefix was.", "quantifier": "every buffer and every schedule of short reads/writes, EINTR, EAGAIN and errors", "why_tests_cant": "schedules of the kernel", "anchors": ["libqrexec/ioall.c: write_all, read_all, copy_fd_all", "libqrexec/unix-server.c"]}
{"id": "C63", "title": "The exit status of a remote call is reported correctly", "statement": "A service sends exactly one exit status, as its last message, behind the ends of both streams; it is the status of its process. The client returns the status it received, -1 if the connection ended without one, and prints what the service wrote to stderr; a client ends when its service has ended or the service's qube is gone.", "quantifier": "every schedule of the two ends, of the kernel and of the processes", "why_tests_cant": "schedules and failure points", "anchors": ["libqrexec/process_io.c: qrexec_process_io", "libqrexec/remote.c: handle_remote_data_v2"]}
{"id": "C64", "title": "The environment of a service describes its call and nothing else", "statement": "A service process finds in its QREXEC_* environment variables exactly the calling qube, the service, the argument and the requested target of its call, whatever environment the agent itself was started with; other variables are passed on. Nothing of the call is ever interpreted by a shell.", "quantifier": "every call text, program path and inherited environment", "why_tests_cant": "infinite input space", "anchors": ["libqrexec/exec.c: exec_qubes_rpc2, should_strip_env_var"]}
{"id": "C65", "title": "A service is looked up at its first place", "statement": "The file used for a call is the first existing one of <dir>/<service>+<argument> for all directories, then <dir>/<service> for all directories, always directly in one of the service directories; a link to /dev/tcp connects exactly to the host and port the link and the argument give, the port being a decimal from 1 to 65535.", "quantifier": "every directory list, file system content, service and argument", "why_tests_cant": "infinite input space and file system states", "anchors": ["libqrexec/exec.c: find_file, find_qrexec_service, qubes_tcp_connect, validate_port"]}
{"id": "C66", "title": "Service configuration files mean what they say", "statement": "A service configuration is accepted exactly if each line is blank, a comment or a setting, known keys have values of the right type and occur once; it then sets exactly what it says. Anything else refuses the call instead of running it with defaults.", "quantifier": "every file content", "why_tests_cant": "infinite input space", "anchors": ["libqrexec/toml.c: qubes_toml_config_parse", "libqrexec/exec.c: load_service_config_v2"]}
{"id": "C67", "title": "Every connection of a qube is reported ended exactly once", "statement": "For each connection that the agent begins (a process it forks, a request it passes to a fork server, a client it connects) the agent tells the daemon the domain and port when the connection has ended, exactly once and not before; so the daemon can give the port to another connection.", "quantifier": "every sequence of messages, process exits and client actions", "why_tests_cant": "histories and schedules", "anchors": ["agent/qrexec-agent.c: register_vchan_connection, reap_children, handle_terminated_fork_client, release_connection, terminate_connection"]}
{"id": "C68", "title": "Every request to run a service is started exactly once", "statement": "The agent starts every request of the daemon once: at once, or, if the service waits for the session of the user, when the process that waits for the session ends, then all waiting requests in the order of their arrival. A fork server gets the request's own type, domain, port, user and command, and only requests whose options it knows.", "quantifier": "every sequence of messages, process exits and failures of fork", "why_tests_cant": "histories and schedules", "anchors": ["agent/qrexec-agent.c: handle_server_exec_request_init, handle_server_exec_request_do, wait_for_session_maybe, try_fork_server, reap_children"]}
{"id": "C69", "title": "The answer to a service request reaches the client that asked", "statement": "The agent passes a request of a local client to the daemon unchanged except for the identifier, which names the client's descriptor; garbage from clients is not passed on and cannot end the daemon. The answer of the daemon is acted upon for exactly that client: its descriptor cannot have been closed and reused in between.", "quantifier": "every sequence of client requests, answers and other events", "why_tests_cant": "histories and schedules, descriptor reuse", "anchors": ["agent/qrexec-agent.c: handle_trigger_io, handle_service_refused, handle_server_exec_request_do", "daemon/qrexec-daemon.c: sanitize_message_from_agent"]}
{"id": "C70", "title": "The two ends of a connection agree on the version of the protocol", "statement": "Two ends of a data connection that know version 2 or later always finish the handshake, in any interleaving, without waiting for each other, both using the smaller of their versions (so the same largest message size), and no byte sent behind the handshake is lost. An end goes on only if it received a HELLO of a version it accepts: 2 for data and control connections, 3 for the daemon's socket.", "quantifier": "every pair of versions, every interleaving and every sequence of received bytes", "why_tests_cant": "schedules and infinite input space", "anchors": ["agent/qrexec-agent-data.c: handle_handshake", "daemon/qrexec-daemon-common.c: handle_agent_handshake, handle_daemon_handshake", "daemon/qrexec-daemon.c: handle_agent_hello, handle_client_hello, send_client_hello"]}
{"id": "C71", "title": "A caller always learns why a service was not started", "statement": "A request to run a command that cannot be started is answered with the ends of both streams and an exit status: 127 exactly if there is no file for the service in any of its places, 125 in all other cases; and the caller then ends with this status. A started service gets a descriptor for stderr, or, if it is a socket or TCP service, first the description of the call unless its configuration says otherwise. A request that only starts a command is answered with 0, 127 or 125 alone.", "quantifier": "every command, file system, configuration and failure of the system calls, every schedule of the caller", "why_tests_cant": "failure points and schedules", "anchors": ["agent/qrexec-agent-data.c: handle_new_process_common, handle_just_exec", "daemon/qrexec-daemon-common.c: run_qrexec_to_dom0, prepare_local_fds, handshake_and_go, handle_failed_exec", "libqrexec/exec.c: execute_parsed_qubes_rpc_command"]}
{"id": "C72", "title": "A request reaches the policy as its caller asked", "statement": "With options that make sense qrexec-client-vm sends one request for exactly the source, target and service it was given (a $ in the target is written @), and what the policy daemon decides is what the policy says for them; with others it sends nothing and exits with a status below 3. It exits with 126 exactly if the agent closes the connection without an answer, otherwise it talks to the domain and port of the answer, and without a local program its exit status is that of the service.", "quantifier": "every command line, names, agent answer and schedule", "why_tests_cant": "infinite input space and schedules", "anchors": ["agent/qrexec-client-vm.c: main, convert_target_name_keyword", "agent/qrexec-agent-data.c: handle_data_client"]}
{"id": "C73", "title": "Only harmless characters reach a terminal", "statement": "If stdout or stderr of qrexec-client-vm is a terminal and filtering was not switched off for it, only printable ASCII and the white space characters are written to it, whatever a service sends; the last option for a stream counts.", "quantifier": "every command line, every sequence of messages and every schedule", "why_tests_cant": "infinite input space and schedules", "anchors": ["agent/qrexec-client-vm.c: main", "libqrexec/replace.c: do_replace_chars", "libqrexec/remote.c: handle_remote_data_v2"]}
{"id": "C74", "title": "Numbers on command lines are read as in C", "statement": "A number option is accepted exactly if it is an unsigned C integer (decimal, octal with a leading 0, hexadecimal with 0x) of at most INT_MAX, and then it has the value of this integer; anything else stops the program.", "quantifier": "every text", "why_tests_cant": "infinite input space", "anchors": ["agent/qrexec-client-vm.c: main", "daemon/qrexec-client.c: parse_int"]}
{"id": "C75", "title": "qrexec-client does what its command line says and nothing else", "statement": "A command line that makes no sense leads to no action at all. Otherwise exactly the daemon of the named qube gets exactly the given command; with -c the daemon of the source learns who answers, and nothing is started, created or killed; a call of dom0 by dom0 asks no daemon and runs the program found for the service; a local command is started only after the daemon has answered. A qube is killed at the end exactly if -k was given and the command was in a qube. Failures end with 125 (or 137 for -c), 127 means there is no such service.", "quantifier": "every command line, file system, configuration and failure of the outside", "why_tests_cant": "infinite input space and failure points", "anchors": ["daemon/qrexec-client.c: main, parse_connect, parse_int", "daemon/qrexec-daemon-common.c: qrexec_execute_vm, run_qrexec_to_dom0, handshake_and_go, connect_unix_socket"]}
{"id": "C76", "title": "The policy graph shows what the policy allows", "statement": "Every edge qrexec-policy-graph draws is a call the policy allows (or asks about) for every service and argument the edge stands for, and every allowed call between drawn qubes for the services listed is drawn, once. A call is covered by some listed service and argument unless the policy treats the argument differently only by rules with no argument of their own.", "quantifier": "every policy, system information and command line", "why_tests_cant": "infinite input space", "anchors": ["qrexec/tools/qrexec_policy_graph.py: main, handle_single_action"]}
{"id": "C77", "title": "The linter reports the lines that keep a policy from loading", "statement": "qubes-policy-lint reports, in order, the numbers of exactly the lines that are no lines of a policy file (or, with -i, of a file for !include-service) or whose include paths are not written plainly. A file found clean loads whenever the files it includes load; a file with a reported line never loads. The exit status is 0 exactly if all files are clean, else 1.", "quantifier": "every text and every content of the policy directories", "why_tests_cant": "infinite input space", "anchors": ["qrexec/tools/qubes_policy_lint.py: parse_file, parse_string_policy, main", "qrexec/policy/parser.py: StringPolicy, StringLoader, ToposortMixIn.save_included_path"]}
{"id": "C78", "title": "The Python client of the policy admin API does what its methods say", "statement": "policy_get, policy_replace, policy_remove, policy_list and policy_get_files have exactly the effect of the call of the server with the same name, argument, token and content, and return what it returns: content and token of the file, the names. An error of the server is raised as the exception of the same name with its message, any other failure as CalledProcessError. A name that contains a space runs no command. In dom0 the command runs the server found for exactly this service and argument.", "quantifier": "every text, name, token, state of the policy directories and every UTF-8 content", "why_tests_cant": "infinite input space", "anchors": ["qrexec/policy/admin_client.py: PolicyClient", "qrexec/client.py: call, make_command", "qrexec/tools/qubes_policy_admin.py: main"]}
{"id": "C79", "title": "qubes-policy-editor saves what the user wrote, only if it is clean, and loses no change of others", "statement": "The editor reports success exactly if the server accepted the text the user's editor left, which the linter found clean and which then is the content of the file, all other files being as before. If the user quits, the linter complains, or the server refuses, no policy file changes. If the file was changed, created or removed by another since the editor read it, the editor fails and that change stays. Only the file named on the command line is edited; names with other characters are refused.", "quantifier": "every sequence of editor runs and answers, every content, every change by others in between", "why_tests_cant": "infinite input space and histories", "anchors": ["qrexec/tools/qubes_policy_editor.py: main, validate_name, PolicyManager"]}
{"id": "C80", "title": "A call the policy asks about is executed exactly as the user confirmed it", "statement": "If the policy asks, the window shown in the GUI domain of the caller - dom0 or another qube - is for exactly this caller, service, argument, offered targets and default, whatever characters they contain, and lists the qubes and the disposables of all templates. The call is allowed only if the user pressed OK or Enter with the window in focus for at least a second, and then to the target chosen in the window when it was closed, which is one of the offered ones; pressing the active OK button always leads to the answer for the chosen target. A window closed otherwise, or one that cannot be shown, refuses.", "quantifier": "every policy, system state, request, GUI domain and sequence of user actions", "why_tests_cant": "infinite input space and schedules of user actions", "anchors": ["qrexec/tools/qrexec_policy_exec.py: AgentAskResolution", "qrexec/server.py: call_socket_service, SocketService", "qrexec/client.py: call_async", "qrexec/tools/qrexec_policy_agent.py: PolicyAgent, RPCConfirmationWindow"]}
{"id": "C81", "title": "Notifications name the call that was allowed or refused", "statement": "A notification for an allowed or refused call, sent to the agent in dom0 or in another qube, is shown as one about exactly this service, argument, source and target, whatever characters they contain.", "quantifier": "every service, argument, source, target and GUI domain", "why_tests_cant": "infinite input space", "anchors": ["qrexec/tools/qrexec_policy_exec.py: NotifyAllowedResolution, notify, handle_request", "qrexec/server.py: call_socket_service, SocketService", "qrexec/tools/qrexec_policy_agent.py: PolicyAgent.handle_notify"]}
{"id": "C82", "title": "A request handed to the fork server of a session is served exactly as the agent would have served it", "statement": "A request that the agent hands to the fork server of a user is decoded there to the same type, domain, port and command, and the process the fork server starts does what the child of the agent would have done. A request the agent could not hand over completely, and now serves itself, is not also started by the fork server. Whatever a client of the fork server writes, a process is started only for a complete message with a command that can be parsed. Clients that finish or go away do not influence each other.", "quantifier": "every request, every splitting and failure of the writes, every sequence of clients and every bytes they write", "why_tests_cant": "infinite input space and schedules", "anchors": ["agent/qrexec-fork-server.c: handle_single_command, main", "agent/qrexec-agent.c: try_fork_server", "agent/qrexec-agent-data.c: handle_new_process"]}
{"id": "C83", "title": "qrexec-policy-exec runs exactly the calls the policy grants", "statement": "With three arguments or with --just-evaluate, qrexec-policy-exec creates, starts and runs nothing, and its exit status is 0 exactly if the policy grants the request (1 otherwise). With five arguments a refused request runs nothing; a granted one is run exactly once, in the qube it was granted to, as the user of the rule and in the name of the caller, after qubesd has started the qube, and the exit status is that of qrexec-client, which hands the command to the daemon of this qube and tells the daemon of the caller.", "quantifier": "every request, policy, system state, answer of the user and of qubesd", "why_tests_cant": "infinite input space", "anchors": ["qrexec/tools/qrexec_policy_exec.py: get_result, main, handle_request", "qrexec/utils.py: qubesd_call", "daemon/qrexec-client.c: main"]}
{"id": "C84", "title": "A command runs as the user it is meant for, in a session of that user", "statement": "When the agent of a qube (running as root) starts a program for a request, the user named in the request exists, PAM has authenticated it and opened a session before, and the program has exactly the user id, group id and supplementary groups of that user, with HOME, SHELL, USER and LOGNAME of the user, and no variable from the agent. A service is executed without interpreting its name; any other command is one argument of the user's login shell. If any step fails nothing is run and the status is 125. Otherwise the status is that of the program, or 128 plus the signal, and the session is closed. An agent without privileges runs programs for its own user only; in dom0 programs run as the user of the process that got the call.", "quantifier": "every request, user database, environment, and every failure of the system calls and of PAM", "why_tests_cant": "infinite input space and failure points", "anchors": ["agent/qrexec-agent.c: do_exec", "agent/qrexec-fork-server.c: do_exec", "daemon/qrexec-client.c: do_exec", "daemon/qrexec-daemon.c: do_exec", "libqrexec/exec.c: exec_qubes_rpc2, execute_parsed_qubes_rpc_command"]}
{"id": "C85", "title": "A service has its three streams and no other descriptor of the agent", "statement": "A service starts with stdin, stdout and stderr connected to the process that serves the call (in dom0 stderr is inherited), not mixed up, and no other open descriptor of it; the serving process keeps none of the service's ends, so it sees the end of the output. This holds for a process that has its own three standard streams; on a kernel without close_range inherited descriptors above 255 stay open.", "quantifier": "every table of open descriptors", "why_tests_cant": "infinite input space", "anchors": ["libqrexec/exec.c: fix_fds, do_fork_exec"]}
{"id": "C86", "title": "qubes-policy does what its options say to the named file only", "statement": "qubes-policy -g writes the content of the named file without the white space at its end, -r replaces it by the standard input (with newlines as line ends), -d removes it, -l writes the sorted names of the files of the directory; include/ selects the other directory. A refusal of the server is reported with its message and status 1, and nothing changed. A name with other characters, a missing name or one with -l is a usage error; nothing is done.", "quantifier": "every command line, input and state of the policy directories", "why_tests_cant": "infinite input space", "anchors": ["qrexec/tools/qubes_policy.py: main, run_method", "qrexec/policy/admin_client.py: PolicyClient"]}
{"id": "C87", "title": "Decisions use exactly the system information qubesd reports", "statement": "The system information used for a decision is there exactly if qubesd answered with success and a JSON text that describes the domains; then every domain it describes is found by name and by UUID exactly as described, and no other. An answer that is cut anywhere gives no information. Without information no request is allowed and nothing is done: a reported exception gives a refusal, everything else no answer. A call to qubesd names exactly the method, argument and destination.", "quantifier": "every answer of qubesd (bytes), cut at any point, every request and policy", "why_tests_cant": "infinite input space and failure points", "anchors": ["qrexec/utils.py: qubesd_call, get_system_info", "qrexec/tools/qrexec_policy_exec.py: handle_request"]}
{"id": "C88", "title": "Converting the old policy loses nothing and accounts for every rule", "statement": "Wherever qrexec-legacy-convert stops, every text that was in the two policy directories is still in its file or in a backup next to it under a name that was free. It reports success without asking exactly if the lines of the policy graph are the same before and after; after success no file of the old format is in use. A rule that stands only in the old files is written to the file for its service or to 30-user, in the old order; or the new policy has a rule with the same text, or the rule is or follows a denial of all calls of the service, or it is a further rule for an input service and source. Each file written loads as the rules written to it followed by what it loaded as before.", "quantifier": "every content of the policy directories, every failure and crash point, every graph, every answer of the user", "why_tests_cant": "infinite input space and crash points", "anchors": ["qrexec/tools/qrexec_legacy_convert.py: main, split_input_rules"]}
{"id": "C89", "title": "Undoing the conversion of the old policy restores the previous state", "statement": "If the policy graph differs after the conversion and the user does not insist on keeping the result, every file of both policy directories has the content it had before.", "quantifier": "every content of the policy directories, every graph and answer of the user", "why_tests_cant": "infinite input space", "anchors": ["qrexec/tools/qrexec_legacy_convert.py: main"]}
{"id": "C90", "title": "The names of a qube's daemon lead to that daemon only", "statement": "In the socket directory of dom0, whatever daemons were started, lost their agent, ended or were killed in any order: whoever is reached by the id of a qube, and, while the ids of qubes are not reused, by its name or UUID, is a daemon started for exactly this qube, which has received the HELLO of the agent and has not ended.", "quantifier": "every number of daemons and every interleaving of their steps, crashes included", "why_tests_cant": "infinite histories and schedules", "anchors": ["daemon/qrexec-daemon.c: create_qrexec_socket, unlink_qrexec_socket, handle_agent_restart", "libqrexec/unix-server.c: get_server_socket", "daemon/qrexec-daemon-common.c: connect_unix_socket"]}
{"id": "C91", "title": "A running daemon is reached by all its names and leaves none behind", "statement": "A daemon in its main loop is reached by the id, the name and the UUID of its qube; one that lost its agent or ended by itself has left none of these names behind.", "quantifier": "every number of daemons and every interleaving of their steps, crashes included", "why_tests_cant": "infinite histories and schedules", "anchors": ["daemon/qrexec-daemon.c: create_qrexec_socket, unlink_qrexec_socket, handle_agent_restart", "libqrexec/process_io.c: handle_vchan_error"]}
{"id": "C92", "title": "Who starts a daemon learns whether the qube can be reached", "statement": "qrexec-daemon started for a qube returns 0 exactly if the agent connected before the timeout, sent a HELLO of version 2 or more, and the sockets for clients exist; 3 exactly if the daemon gave up waiting for the agent; 1 if it ended for another reason; and it does not return before. QREXEC_STARTUP_NOWAIT makes it return 0 at once. The timeout is QREXEC_STARTUP_TIMEOUT if this is a positive number and else 60 seconds. Clients are never accepted before the HELLO.", "quantifier": "every outcome of the system calls, every behaviour of the agent, every point at which the daemon is killed", "why_tests_cant": "infinite input space and crash points", "anchors": ["daemon/qrexec-daemon.c: init, main", "libqrexec/vchan_timeout.c: qubes_wait_for_vchan_connection_with_timeout"]}
{"id": "C93", "title": "Waiting for a vchan connection ends at its deadline", "statement": "Waiting for a connection with a timeout succeeds exactly if the connection is there before the deadline, is over when the clock is past the deadline, and each sleep is at most the time left to the deadline, exactly to the nanosecond; signals and intermediate events neither end nor prolong it. With a timeout of zero it waits without limit.", "quantifier": "every sequence of times, events and signals", "why_tests_cant": "infinite schedules", "anchors": ["libqrexec/vchan_timeout.c: qubes_wait_for_vchan_connection_with_timeout"]}
{"id": "C94", "title": "A call from qube to qube runs what was granted, where it was granted, for whom it was granted", "statement": "If a program is started in another qube because of a message of a qube's agent, then the policy granted this call; the program is the program for the service called (for a remote domain the transport service in its relay), told the calling domain as its source, in the qube that was granted (or a new disposable of the granted template), as the user of the rule or, without one, the target's default user, unless the configuration of the service there says another user. A clean call that is not refused arrives in the agent of the granted qube as exactly this request, and the client that made it - and no other - is told the domain and port at which exactly this request is served.", "quantifier": "every message of the calling agent, system state, rule list, history of both daemons, configuration of the target", "why_tests_cant": "infinite input space and the composition of five programs", "anchors": ["agent/qrexec-client-vm.c: main", "agent/qrexec-agent.c: handle_trigger_io, handle_server_exec_request_init, do_exec", "daemon/qrexec-daemon.c: handle_message_from_agent, handle_execute_service_child, handle_cmdline_body_from_client", "daemon/qrexec-daemon-common.c: qrexec_execute_vm", "qrexec/tools/qrexec_policy_exec.py: handle_request"]}
{"id": "C95", "title": "A connection ends", "statement": "A service that has collected its process and seen the end of its output and errors ends the connection at once with the exit status, whatever the client does. A client that has received the end of the output and a status that is not negative, and whose own process has ended, ends at once. If the other end goes away, either side ends after having passed on what arrived.", "quantifier": "every schedule of reads, writes, signals, polls and messages, every configuration of the connection", "why_tests_cant": "infinite schedules; liveness", "anchors": ["libqrexec/process_io.c: qrexec_process_io", "libqrexec/remote.c: handle_remote_data_v2", "libqrexec/write-stdin.c: flush_client_data"]}
{"id": "C96", "title": "A data connection sleeps exactly when it has nothing to do", "statement": "Whenever the loop of a data connection sleeps, looking at all its descriptors again would change nothing; whenever it does not sleep and goes on, it has received, read or written something or closed a descriptor: it neither stalls nor spins.", "quantifier": "every state of the connection and of its descriptors", "why_tests_cant": "infinite state space; liveness", "anchors": ["libqrexec/process_io.c: qrexec_process_io"]}
{"id": "C97", "title": "Calls of socket services connect to the socket of the service and leave nothing behind", "statement": "A call of a service that is a socket connects to exactly the path at which it was found, however long the path is; interrupted attempts are repeated; nothing stays in /tmp and nothing else is removed. A TCP service connects only to the numeric address and port (1 to 65535) of the link or the argument: names are never looked up. A socket is left open exactly if the connection was made and is used for the call.", "quantifier": "every path, every failure of the system calls, every host and port text", "why_tests_cant": "infinite input space and failure points", "anchors": ["libqrexec/exec.c: qubes_connect, qubes_tcp_connect, find_qrexec_service"]}
{"id": "C98", "title": "The shipped policy lets nobody read or change the policy until the user says so", "statement": "With the policy files as they are shipped, no other policy file and an empty legacy directory, the policy loads and every request is refused. With the shipped file for the policy services in place, a request to read or change the policy that is not refused matched a rule of another policy file, or a rule written in the list kept for that kind of service (readers or writers) or in a file that list includes; such a rule is for that one service. Only the services kept in the list of writers change any file. With the list of readers as shipped, whatever decides for a qube's request to change the policy also decides for its requests to read it.", "quantifier": "every file system, every set of other policy files, every text of the lists, every request", "why_tests_cant": "infinite input space", "anchors": ["policy.d/90-admin-policy-default.policy", "policy.d/35-compat.policy", "policy.d/include/admin-policy-ro", "policy.d/include/admin-policy-rwx", "qrexec/policy/parser.py: AbstractFileLoader, FilePolicy", "qrexec/policy/admin.py: PolicyAdmin"]}
{"id": "C99", "title": "Every change of the policy files is noticed", "statement": "A change of the file system that changes what the policy says - a file created, written, removed or renamed anywhere in the policy directories, in their subdirectories or in the legacy directory - makes the policy daemon load the policy again for the next request, however it is done and whatever the files include.", "quantifier": "every operation, every file system, every include structure, every set of policy directories", "why_tests_cant": "infinite input space", "anchors": ["qrexec/policy/utils.py: PolicyCache.initialize_watcher, PolicyWatcher", "qrexec/policy/parser.py: FilePolicy, AbstractFileLoader"]}
{"id": "C100", "title": "Programs start with their signals in the normal state", "statement": "A program started for a call - a service, a command, the local program of a client, the program that waits for the session - starts with SIGCHLD and SIGPIPE neither blocked nor ignored, and no other signal is blocked or ignored by it unless it already was when the agent, fork server, daemon or client was started.", "quantifier": "every way of starting a program, every state of the signals of the first process", "why_tests_cant": "infinite state space (all initial signal states) and all paths to execve", "anchors": ["agent/qrexec-agent.c: main, do_exec, wait_for_session_maybe", "agent/qrexec-agent-data.c: prepare_child_env", "agent/qrexec-fork-server.c: main, do_exec", "agent/qrexec-client-vm.c: main", "daemon/qrexec-daemon.c: init, main, handle_execute_service", "daemon/qrexec-client.c: main", "libqrexec/exec.c: do_fork_exec"]}
{"id": "C101", "title": "The main loops never sleep on the end of a child", "statement": "Whenever the agent or the daemon sleeps, the end of every child that has ended has been handled, exactly once; if a child ends at any other moment, even just before going to sleep, the program wakes up or goes on by itself.", "quantifier": "every interleaving of the steps of the loop with forks and ends of children", "why_tests_cant": "infinite schedules; race between signal and sleep", "anchors": ["agent/qrexec-agent.c: main, reap_children, sigchld_handler", "daemon/qrexec-daemon.c: main, reap_children, sigchld_handler"]}
{"id": "C102", "title": "A round of the main loop serves exactly who was reported", "statement": "Whatever becomes ready in whatever combination - ends of children, a new connection, messages of the agent, any set of clients -, a round of the daemon's main loop serves, each once and according to its state, exactly those clients that were connected when the round began, were reported, and have not been disconnected by the agent's messages in the meantime; never a client that was just accepted in place of another. No client is ever overlooked and the tables are never exceeded. The agent ends exactly the connections whose own descriptor was reported; its consistency checks never fail. What is guaranteed for events that are handled one by one therefore holds for the programs.", "quantifier": "every set of descriptors reported in every round, every history of rounds and restarts of the agent", "why_tests_cant": "infinite schedules", "anchors": ["daemon/qrexec-daemon.c: main, handle_new_client, handle_message_from_client", "agent/qrexec-agent.c: main, handle_terminated_fork_client"]}
{"id": "C103", "title": "Only those that are meant to can connect to the sockets, and services make private files", "statement": "Whatever umask the programs are started with and wherever they end: nobody but its user and the group qubes can ever connect to a socket of the policy daemon, even while it starts, and stale sockets are replaced; every program a daemon starts in dom0 has the umask 0077, also after the agent has come back, and the log files it makes are closed to others; the agent leaves the umask of the programs it starts alone, and all users of the qube can connect to it; only the user of a fork server can have programs run by it.", "quantifier": "every umask, every state of the files before, every moment of the start, every history", "why_tests_cant": "all umasks and crash points", "anchors": ["qrexec/tools/qrexec_policy_daemon.py: main, start_serving", "daemon/qrexec-daemon.c: create_qrexec_socket, init, handle_agent_restart", "agent/qrexec-agent.c: init", "agent/qrexec-fork-server.c: main", "libqrexec/unix-server.c: get_server_socket"]}
{"id": "C104", "title": "A service in dom0 that waits for the session is not started before", "statement": "A service called in dom0 whose configuration says that it waits for the session is started only when the program qubes.WaitForSession - the first in the directories for services - has ended; a call that does not wait, or is marked nogui, never starts that program; a call whose configuration cannot be read is never served.", "quantifier": "every interleaving of the two processes, every configuration and file system", "why_tests_cant": "infinite schedules", "anchors": ["daemon/qrexec-daemon-common.c: wait_for_session_maybe, run_qrexec_to_dom0", "libqrexec/exec.c: exec_wait_for_session", "daemon/qrexec-client.c: main"]}
{"id": "C105", "title": "Restoring a policy restores it and overwrites nothing", "statement": "Restoring a backup of the policy writes every file of the backup that is not in the live policy, each after the files it includes, and leaves all files of the live policy as they are.", "quantifier": "every backup, every live policy", "why_tests_cant": "infinite input space", "anchors": ["qrexec/tools/qrexec_policy_restore.py: main", "qrexec/policy/parser.py: ToposortMixIn"]}
{"id": "C106", "title": "A client whose call is refused is told", "statement": "If a call of a program in a qube (qrexec-client-vm) is refused, or its request is garbage, the program sees the end of the connection to the agent at once, and so reports the refusal; it does not see it before the answer. The same if the agent ends.", "quantifier": "every sequence of requests, answers, services started and processes ending in the qube, and every point at which the agent ends", "why_tests_cant": "depends on which processes inherit the connection, over all interleavings of other calls", "anchors": ["agent/qrexec-agent.c: handle_trigger_io, handle_service_refused, wait_for_session_maybe", "agent/qrexec-agent-data.c: handle_new_process", "libqrexec/unix-server.c: do_accept", "agent/qrexec-client-vm.c: main"]}
{"id": "C107", "title": "Local programs are understood exactly, and cannot stop the daemon or the agent", "statement": "Of the bytes a local program sends to the daemon of a qube or to the agent, exactly the complete messages of the protocol, with known types and lengths within the limits, are acted upon, and with the values that were sent; anything else makes the receiver drop this program, which harms nobody else. What the programs of this package send is understood as meant. No local program can keep others from being served.", "quantifier": "every sequence of bytes, cut at any point", "why_tests_cant": "infinite input space, partial writes", "anchors": ["daemon/qrexec-daemon.c: handle_client_hello, handle_cmdline_message_from_client, handle_cmdline_body_from_client, handle_message_from_client", "agent/qrexec-agent.c: handle_trigger_io", "daemon/qrexec-daemon-common.c: negotiate_connection_params, send_service_connect, handle_daemon_handshake", "libqrexec/ioall.c: read_all", "agent/qrexec-client-vm.c: main"]}
{"id": "C108", "title": "A login shell in between changes nothing about a call", "statement": "A service that the agent of a qube starts through a login shell (as it does when it runs as root) is executed exactly as if it were started directly: the program that was found, with the argument of the call as its only argument - whatever characters it has, also those that mean something to a shell - and with the QREXEC_ variables of this call and no leftovers of another one, whatever the login files have set; all other variables are those of the login files. If the variables cannot be set nothing is executed. (The kind of target is given only if it is name or keyword.)", "quantifier": "every program, call, environment and state the login files leave", "why_tests_cant": "infinite input space: quoting of every text in every shell state", "anchors": ["libqrexec/exec.c: exec_qubes_rpc2", "agent/qrexec-agent.c: do_exec"]}
{"id": "C109", "title": "Command lines are taken apart exactly, and no text is taken as an option", "statement": "The programs accept exactly the command lines made of their options - short, joined, long or abbreviated without ambiguity, with arguments in the same or the next word -, the two dashes and other words, with the meaning getopt(3) gives them, the last use of an option counting; anything else ends them before they do anything. In qrexec-client-vm nothing behind the target is an option. The target and service of a call by the Python client, and the target, connection and command by qrexec-policy-exec, are never taken as options whatever their text. The daemon starts exactly with a uuid, an id, a name and possibly a user.", "quantifier": "every list of words, with and without POSIXLY_CORRECT", "why_tests_cant": "infinite input space", "anchors": ["agent/qrexec-client-vm.c: main, longopts", "daemon/qrexec-client.c: main, longopts", "daemon/qrexec-daemon.c: main, longopts", "agent/qrexec-agent.c: main, longopts", "qrexec/client.py: make_command", "qrexec/tools/qrexec_policy_exec.py: get_result"]}
{"id": "C110", "title": "The Python client makes exactly the call it is asked for", "statement": "A call of the Python client starts exactly one program, the client program of dom0 or of a qube, whichever is installed, with the given service, argument and destination, and gives it exactly the given input - text, bytes, a file or nothing; the caller gets its output if it succeeds and an exception with its status otherwise. A call that cannot be written on a command line starts nothing. The asynchronous version does the same.", "quantifier": "every destination, service, argument, kind of input, and behaviour of the program", "why_tests_cant": "infinite input space", "anchors": ["qrexec/client.py: call, call_async, make_command", "qrexec/utils.py: prepare_subprocess_kwds"]}
{"id": "C111", "title": "The log of a service has what it wrote to stderr", "statement": "What a service in a qube writes to its standard error stream is copied to a logger process that was started for this call, all of it and in order, and nothing else; it is what the caller is sent. The log entry names the service with its argument and the calling qube, and no part of a name is taken as an option. Without a logger, and for commands that are not services, nothing is copied.", "quantifier": "every connection, schedule and failure", "why_tests_cant": "infinite schedules and inputs", "anchors": ["libqrexec/remote.c: handle_input_v2", "libqrexec/process_io.c: qrexec_process_io", "libqrexec/open_logger.c: open_logger", "agent/qrexec-agent-data.c: handle_new_process_common"]}
{"id": "C112", "title": "The program that waits for the session succeeds only when the session is there", "statement": "qubes.WaitForSession ends successfully only after the user's system manager has reported that it runs, and - in a qube with a graphical session - not before the fork server of the user whose services wait has been there; until then it does not end at all, and when that has happened it ends with the status of the system manager. In dom0 and in qubes without a screen it does not look at the fork server. With an argument it fails.", "quantifier": "every history of what the commands of the script find, at any moment", "why_tests_cant": "infinite schedules", "anchors": ["qubes-rpc-base/qubes.WaitForSession", "libqrexec/exec.c: exec_wait_for_session", "agent/qrexec-agent.c: wait_for_session_maybe"]}
{"id": "C113", "title": "The multiplexer starts the same service with the same environment", "statement": "The script qubes-rpc-multiplexer, which is installed for programs of older versions, starts the same program for a call as the programs of this package do, with the argument of the call as its only argument, exactly the variables that describe the call - nothing left over from another one - and all other variables as they were; with a wrong number of words it starts nothing.", "quantifier": "every call, environment and file system", "why_tests_cant": "infinite input space", "anchors": ["lib/qubes-rpc-multiplexer", "libqrexec/exec.c: find_file, exec_qubes_rpc2"]}
{"id": "C114", "title": "The log tells what was decided about every call", "statement": "For each call the policy daemon decides, its log has exactly one record of the decision: allowed if the call is let through, denied (or an error) if it is refused; a record of an allowed call is never written for a call that is refused. The record names the service with its argument, the calling qube, the requested target and - if allowed - the target the call goes to, no two different calls or decisions have the same record, and only the policy daemon decides what is in the log: no qube can add a line. A call that is only evaluated is not recorded as allowed.", "quantifier": "every system state, policy, call, mode and behaviour of the GUI agent", "why_tests_cant": "infinite input space; the log is written at several places, before and after the decision", "anchors": ["qrexec/tools/qrexec_policy_exec.py: handle_request, LogAllowedResolution, AgentAskResolution", "qrexec/policy/parser.py: AllowResolution.execute, AskResolution.handle_user_response"]}
{"id": "C115", "title": "No event of a vchan is lost", "statement": "While a data connection, the agent or the daemon sleeps there is nothing it could do: nothing to read from its vchan (unless the local process does not take what came before), the room for writing is what it last saw, and the peer is still there; anything the peer does ends the sleep. It does not wait elsewhere for an event that has been taken, and does not spin without something to do.", "quantifier": "every interleaving of the steps of the loop with writing, reading and closing by the peer", "why_tests_cant": "infinite schedules; a lost event needs a peer that acts between two particular instructions", "anchors": ["libqrexec/txrx-vchan.c: ppoll_vchan", "libqrexec/process_io.c: qrexec_process_io", "agent/qrexec-agent.c: main", "daemon/qrexec-daemon.c: main"]}
{"id": "C116", "title": "All qubes together", "statement": "With any number of qubes, any behaviour of their agents towards their daemons and any order of events: a program that a qube starts for a request of its daemon was sent to that daemon by another program in dom0, or some qube had asked for it and the policy in force at the decision granted it with this qube as the target; the program is then the service asked for, told the name of the qube that asked, run as the user the policy means, and told to connect to the qube that asked. A client that is told a domain and a port is told those of its own request, where the daemon of the target has passed on the command for this request with this port.", "quantifier": "all numbers of qubes, all interleavings of daemons, agents and processes of requests, all messages from untrusted agents, policies and system states that change between decisions", "why_tests_cant": "confusion of two requests needs particular interleavings among several qubes", "anchors": ["daemon/qrexec-daemon.c: handle_execute_service_child, handle_cmdline_body", "daemon/qrexec-daemon-common.c: qrexec_execute_vm, negotiate_connection_params, send_service_connect", "agent/qrexec-agent.c: handle_server_cmd, handle_server_exec_request_do, register_vchan_connection"]}
{"id": "C117", "title": "The answer to a granted call is not lost", "statement": "A call to another qube that was granted, and whose service was started, is answered: the agent of the caller is told the connection, once. A call that was refused or failed is told as refused. Nobody is told twice.", "quantifier": "every interleaving of the daemon's loop with the processes of any number of requests, and with the room in the vchan", "why_tests_cant": "the message of a process and its end are noticed in two ways that race; the order is chosen by the scheduler", "anchors": ["daemon/qrexec-daemon.c: main, reap_children, handle_cmdline_body", "daemon/qrexec-daemon-common.c: qrexec_execute_vm, send_service_connect"]}
{"id": "C118", "title": "A data connection from both ends", "statement": "On a data connection between a client and a service (without SIGUSR1): what a program has been given is at every time what was there before the connection followed by the prefix data of the other end and what was read from the program at the other end, or a beginning of it, whichever end dies; a client does not leave while the service runs; if it has left and the service has not died, a client without a program of its own returns the status of the program of the service and has printed all of its stderr, and if its own side takes its input everything read from the program of the service has been written; and when both ends sleep, what a program says is left unread only because the other end holds data that the program there does not take. The connection ends: the client of a program that takes its input does not fail once its prefix data are sent, whatever happens at the other end, unless it dies in the middle of a message; the service leaves, its status sent, in the iteration after its program has ended and its outputs are at their ends; and the client then leaves, as well as when the service died, within as many iterations as there are messages left plus two.", "quantifier": "all interleavings of iterations of both ends, all data, splits of reads and writes, sizes of free space, deaths of either end at any time, closing of any descriptor", "why_tests_cant": "the state is distributed over two machines and the vchan; races between the last data, the exit status and the closing of the vchan cannot be enumerated", "anchors": ["libqrexec/process_io.c: qrexec_process_io", "libqrexec/remote.c: handle_remote_data_v2, handle_input_v2", "libqrexec/write-stdin.c: write_stdin, flush_client_data"]}
{"id": "C119", "title": "Local programs and helpers have the descriptors they need and no other", "statement": "A local program of qrexec-client-vm has the streams of the call as stdin and stdout, the original streams under the numbers that SAVED_FD_0, SAVED_FD_1 and, with PASS_LOCAL_STDERR, SAVED_FD_2 say, and besides only what the caller left open: not the connection to the agent and no other end of a stream, so that each side sees the end of what the other writes. A command nobody waits for has /dev/null as stdin and stdout, the pipe to the logger (a service) or /dev/null as stderr, and nothing else; the logger reads that pipe and has the agent's stdout and stderr. qrexec-policy-exec started by the daemon has one connection to the process that waits for it, and the log. A program started with one of its three streams closed exits with 125.", "quantifier": "all tables of open descriptors, all numbers they have, with and without close_range", "why_tests_cant": "the numbers of descriptors depend on what the caller had open; a leaked descriptor shows only as an end of file that never comes", "anchors": ["agent/qrexec-client-vm.c: main", "agent/qrexec-agent-data.c: handle_just_exec", "libqrexec/open_logger.c: open_logger", "libqrexec/log.c: setup_logging", "daemon/qrexec-daemon.c: connect_daemon_socket, handle_execute_service_child"]}
{"id": "C120", "title": "Requests to the policy daemon at the same time", "statement": "The policy daemon serves other requests while one waits for the user or for a notification to be taken. What a request is answered, what it asks and what is notified for it depend only on the request, on the system information and the policy of the moment it was taken up, and on the reply to its own question: not on other requests, on the order of replies, or on replies to others. A waiting request keeps no other waiting. A request taken up after a change of the policy was noticed is decided by a policy loaded after that change, whatever waits. A call that is allowed after a change of the policy was noticed is allowed by the changed policy.", "quantifier": "every interleaving of requests, replies, notifications, edits of the policy and their notifications, any number of requests", "why_tests_cant": "schedules of a cooperative scheduler; unbounded numbers of open questions", "anchors": ["qrexec/tools/qrexec_policy_exec.py: handle_request, AgentAskResolution, NotifyAllowedResolution, notify", "qrexec/tools/qrexec_policy_daemon.py: handle_client_connection", "qrexec/policy/utils.py: PolicyCache"]}
{"id": "C121", "title": "The policy daemon's sockets", "statement": "At no moment of the policy daemon's start, whatever was left at its socket paths and whatever umask it inherited, can a user outside the group qubes connect to a socket it serves, and it serves nothing before the policy was loaded and its files are watched. Sockets, files and links left by an earlier run do not keep it from starting; each path then leads to its own service (the GUI check only, and always, at policy.EvalGUI), and no other file is touched. If the policy does not load it ends without having served anything and leaves no socket, so that callers fall back instead of waiting. The policy agent starts over a leftover socket or file too.", "quantifier": "all contents of the file system at and around the paths, inherited umasks and groups, root or not, every moment of the start", "why_tests_cant": "leftovers and moments between system calls; the mode of a socket is there between bind and chmod", "anchors": ["qrexec/tools/qrexec_policy_daemon.py: start_serving, main", "qrexec/server.py: SocketService.start"]}
{"id": "C122", "title": "What the agent tells systemd and the memory reporter", "statement": "systemd is told that the agent is ready only when it was greeted by the daemon, listens for calls and is connected; at most once, at the socket named in NOTIFY_SOCKET; no program the agent starts sees that variable. The program that reports the memory use is woken by the first command at which it runs, once; no signal goes to any process but the one in its PID file, and none without a command.", "quantifier": "all values of NOTIFY_SOCKET, all points at which the agent ends, all sequences of messages, contents of the PID file and processes alive at each", "why_tests_cant": "values of the environment and of the PID file; histories of messages", "anchors": ["agent/qrexec-agent.c: my_sd_notify, init, wake_meminfo_writer, handle_server_cmd"]}
