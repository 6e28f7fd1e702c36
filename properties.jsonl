{"id": "C01", "title": "Runlevel lists mean what they say", "statement": "For a stanza's runlevel list `[...]` the resulting set of allowed runlevels contains runlevel n (0-9, or S=10) exactly when n is listed (positive list), or, after `!`, exactly when n is 1..9 or S and is not listed after the last `!`; no runlevel outside 0..9,S is ever allowed, and an omitted list means the documented default.", "quantifier": "every byte string used as a runlevel list", "why_tests_cant": "The input language is infinite (repeats, order, mixed `!`, junk characters); tests sample a handful of lists.", "anchors": ["src/conf.c:conf_parse_runlevels", "src/finit.h:INIT_LEVEL", "doc/runlevels.md"]}
{"id": "C02", "title": "Condition state is a function of its history", "statement": "After any sequence of set / clear / one-shot-set / reload operations on conditions, querying a condition returns: off if it was never asserted or was cleared since; on if it was asserted since the last reload or is a one-shot; flux if it was last asserted before the last reload.", "quantifier": "all finite histories of condition operations over all names, and every name queried", "why_tests_cant": "Histories are unbounded and interleave distinct names; the on-disk generation counter makes old assertions matter arbitrarily later.", "anchors": ["src/cond-w.c:cond_set_path", "src/cond-w.c:cond_set_oneshot_noupdate", "src/cond-w.c:cond_reload", "src/cond.c:cond_get_path", "doc/conditions.md"]}
{"id": "C03", "title": "Aggregate condition is the meet of its members", "statement": "The state of a comma-separated condition list is off if any member is off, otherwise flux if any member is flux, otherwise on; the empty list is on.", "quantifier": "every condition list and every assignment of states to names", "why_tests_cant": "List length, order and duplicates are unbounded.", "anchors": ["src/cond.c:cond_get_agg"]}
{"id": "C04", "title": "A condition change wakes exactly its dependents", "statement": "The test that decides whether a changed condition affects a service holds exactly when the condition's name is one of the comma-separated members of the service's condition list - never for a mere prefix, suffix or substring.", "quantifier": "every condition name and every list up to the stored size", "why_tests_cant": "Prefix/substring confusion only shows on particular pairs out of infinitely many.", "anchors": ["src/cond.c:cond_affects"]}
{"id": "C05", "title": "Distinct conditions never alias", "statement": "Setting or clearing one condition never changes the reported state of a differently named condition.", "quantifier": "every pair of distinct condition names and every store", "why_tests_cant": "Aliasing needs names long enough to be truncated; tests use short names.", "anchors": ["src/cond.c:cond_path", "src/cond-w.c:cond_set_path"]}
{"id": "C06", "title": "Condition list parsing keeps every condition", "statement": "Parsing `<a,b,c>` (optionally with leading `!`) stores exactly the non-empty members in order, and a stanza that names conditions never ends up unconditional.", "quantifier": "every condition string", "why_tests_cant": "Needs over-long and oddly delimited strings.", "anchors": ["src/conf.c:conf_parse_cond", "src/svc.h:MAX_COND_LEN"]}
{"id": "C07", "title": "PID 1 never signals itself, everyone, or its own process group", "statement": "Every signal the supervisor sends on behalf of a service is addressed to a pid greater than 1 or to a process group greater than 1; in particular never to 0, 1 or -1.", "quantifier": "all reachable supervisor states: any configuration, any interleaving of process exits, timer expiries, condition changes, API commands, reloads, runlevel changes, and any fork failures", "why_tests_cant": "The dangerous target only arises from a particular failure (fork) followed by a particular interleaving; a test that hit it would stop every process on the machine.", "anchors": ["src/service.c:service_step", "src/service.c:service_stop", "src/service.c:service_kill", "src/service.c:service_monitor", "src/service.c:pre_script"]}
{"id": "C08", "title": "No service is started while a run task executes", "statement": "From the moment a `run` command is started until it has been collected, no other service, task, run, sysv or tty command is started.", "quantifier": "all reachable supervisor states and interleavings", "why_tests_cant": "Concerns every interleaving of step requests with an outstanding run task.", "anchors": ["src/service.c:service_start", "src/service.c:run_block_pid", "doc/config/task-and-run.md"]}
{"id": "C09", "title": "At most one main process per service", "statement": "A service's command is never started while a process previously started for the same service is still tracked or still alive.", "quantifier": "all reachable supervisor states and interleavings", "why_tests_cant": "Needs exhaustive interleavings of start failures, stop scripts and exits.", "anchors": ["src/service.c:service_step", "src/service.c:service_start", "src/service.c:service_stop"]}
{"id": "C10", "title": "Commands are only started when enabled", "statement": "A service's command is started only if, at that moment, the service is not blocked, not removed, and its runlevels include the current runlevel.", "quantifier": "all reachable supervisor states and interleavings", "why_tests_cant": "Any later change of runlevel or block between decision and start must be covered.", "anchors": ["src/service.c:service_step", "src/svc.c:svc_enabled"]}
{"id": "C11", "title": "Commands are only started with all conditions on", "statement": "A service leaves the waiting state towards being started only when all its conditions are on, no conflicting service is running and no reload/runlevel change is in progress.", "quantifier": "all reachable supervisor states and interleavings", "why_tests_cant": "Conditions may change at any instant between the check and the start.", "anchors": ["src/service.c:service_step", "src/cond.c:cond_get_agg", "doc/conditions.md"]}
{"id": "C12", "title": "A crashing service is given up after the configured number of restarts", "statement": "Between two manual interventions, a non-respawn service is automatically restarted at most restart-max times without an intervening stable period, and is then marked crashed and is not started again until manually restarted.", "quantifier": "every restart limit accepted by the parser and every crash schedule", "why_tests_cant": "Counter overflow and the interplay of timers need arbitrarily long histories.", "anchors": ["src/service.c:service_retry", "src/service.c:service_step", "src/svc.h:restart_cnt", "doc/config/service-opts.md"]}
{"id": "C13", "title": "A service stopped by the user stays stopped", "statement": "After a user stop, the service's command is not started again by any process exit, timer, condition change or runlevel change, until the user starts or restarts it or its configuration is re-registered.", "quantifier": "all reachable states and all later event sequences without start/restart/reload", "why_tests_cant": "Quantifies over all futures.", "anchors": ["src/api.c:stop", "src/service.c:service_step", "src/service.c:service_retry", "src/service.c:service_forked"]}
{"id": "C14", "title": "A stop always escalates to SIGKILL", "statement": "Whenever a service with a live tracked process has been asked to stop and has not yet been collected, a kill timer is pending or SIGKILL has already been sent.", "quantifier": "all reachable states and interleavings", "why_tests_cant": "A lost timer shows only as a hang at shutdown in one interleaving.", "anchors": ["src/service.c:svc_set_state", "src/service.c:service_timeout_after", "src/service.c:service_script_del", "src/service.c:service_kill"]}
{"id": "C15", "title": "The right service is told about the right process", "statement": "No two services track the same live process, so that the exit of a process is attributed to exactly the service that started it.", "quantifier": "all reachable states and interleavings", "why_tests_cant": "Depends on the whole history of forks and reaps.", "anchors": ["src/svc.c:svc_find_by_pid", "src/service.c:service_monitor"]}
{"id": "C16", "title": "A paused service is always continued before it is stopped", "statement": "A process that the supervisor froze with SIGSTOP because of a condition in flux receives SIGCONT before it is sent its halt signal, and leaving the paused state alive always sends SIGCONT.", "quantifier": "all reachable states and interleavings", "why_tests_cant": "A frozen process cannot act on SIGTERM; finding the missing SIGCONT needs the exact interleaving.", "anchors": ["src/service.c:service_step"]}
{"id": "C17", "title": "Removed services are never started again", "statement": "A service that is no longer in the configuration is never started, and once it is out of the state machine it never re-enters it.", "quantifier": "all reachable states and all event sequences", "why_tests_cant": "Quantifies over all futures after a removal.", "anchors": ["src/service.c:service_step", "src/svc.c:svc_enabled", "src/svc.h:svc_is_removed"]}
{"id": "C18", "title": "Conflicting services do not run together", "statement": "A service with conflict:a,b,... is held back whenever any of the listed services is running or starting.", "quantifier": "every conflict list and every registry of services", "why_tests_cant": "Which of several listed services exists/runs is combinatorial.", "anchors": ["src/svc.c:svc_conflicts", "src/service.c:service_step", "doc/config/service-opts.md"]}
{"id": "C19", "title": "Shutdown happens last", "statement": "The final shutdown action is taken only in runlevel 0 or 6 and only after every service that must stop has been stopped and collected.", "quantifier": "all reachable states and interleavings", "why_tests_cant": "Ordering over all interleavings of exits and timers.", "anchors": ["src/sm.c:sm_step", "src/svc.c:svc_stop_completed", "src/svc.c:svc_clean_completed", "src/sig.c:do_shutdown"]}
{"id": "C20", "title": "Halt and reboot cannot be cancelled", "statement": "Once the system has entered runlevel 0 or 6 no API command or signal changes the runlevel, reloads configuration or starts services by request.", "quantifier": "every request and signal after entering runlevel 0 or 6", "why_tests_cant": "The request space is the whole protocol.", "anchors": ["src/api.c:api_cb", "src/sig.c:sighup_cb", "src/sig.c:sigusr2_cb", "src/sig.c:sigterm_cb"]}
{"id": "C21", "title": "Runlevel changes stop before they start", "statement": "During a runlevel change no service that is waiting to start is started until every service not allowed in the new runlevel has stopped.", "quantifier": "all reachable states and interleavings during a change", "why_tests_cant": "Interleaving of stops, exits and condition changes.", "anchors": ["src/sm.c:sm_step", "src/service.c:service_step"]}
{"id": "C22", "title": "Bootstrap always ends", "statement": "The bootstrap phase completes after a bounded number of one-second polls even if bootstrap tasks never finish, and never before they have finished while time remains.", "quantifier": "every history of task completion", "why_tests_cant": "A test cannot wait for every schedule.", "anchors": ["src/sm.c:sm_check_bootstrap", "doc/config/runlevels.md"]}
{"id": "C23", "title": "No login outside the multi-user runlevels", "statement": "After every runlevel change logins are disabled (nologin present) exactly when the new runlevel is 0, 1 or 6.", "quantifier": "every sequence of runlevel changes", "why_tests_cant": "Depends on the previous runlevel, i.e. on history.", "anchors": ["src/sm.c:nologin"]}
{"id": "C24", "title": "Reload is mark and sweep", "statement": "After a configuration reload every service that is still in the configuration remains registered, every one that is not is removed (once stopped), and no other service is affected.", "quantifier": "every old registry and every new configuration", "why_tests_cant": "Set-level claim over arbitrary configurations.", "anchors": ["src/svc.c:svc_mark_dynamic", "src/svc.c:svc_clean_dynamic", "src/conf.c:conf_reload", "src/service.c:service_register"]}
{"id": "C25", "title": "Identity is unique", "statement": "At most one registered service has a given name:id, job numbers given out are never zero and never shared between different commands, and looking a service up by the identity it is shown under finds that service.", "quantifier": "every registration history", "why_tests_cant": "Arbitrary registration/unregistration sequences.", "anchors": ["src/svc.c:svc_new", "src/svc.c:svc_find", "src/svc.c:svc_find_by_str", "src/svc.c:svc_find_by_jobid"]}
{"id": "C26", "title": "A multi-job request handles each job exactly once", "statement": "A start/stop/restart request with a space separated list of jobs acts on each token once, in order, terminates, and reports failure if any token matches no service.", "quantifier": "every request string", "why_tests_cant": "Infinite inputs; one of them makes PID 1 loop.", "anchors": ["src/svc.c:svc_parse_jobstr", "src/svc.c:tokstr", "src/util.c:sanitize", "src/api.c:do_start"]}
{"id": "C27", "title": "Reserved runlevel gate", "statement": "While in runlevel 0 or 6 the control API refuses every request except the documented set, and request data is always treated as a terminated string.", "quantifier": "every request", "why_tests_cant": "Whole request space (command x runlevel).", "anchors": ["src/api.c:api_cb"]}
{"id": "C28", "title": "Environment assignments are parsed faithfully", "statement": "`set key=value`, `key=value` and quoted variants set exactly variable `key` to `value`, for every key and value.", "quantifier": "every configuration line", "why_tests_cant": "Infinite inputs; keys that begin with the keyword are corner cases.", "anchors": ["src/conf.c:conf_parse_env", "doc/config/env.md"]}
{"id": "C29", "title": "Template instantiation replaces every %i", "statement": "Instantiating a template line replaces each `%i` by the instance name and leaves everything else unchanged.", "quantifier": "every template line and every instance name", "why_tests_cant": "Instance names may themselves contain the pattern; infinitely many inputs.", "anchors": ["src/conf.c:instantiate", "doc/config/templating.md"]}
{"id": "C30", "title": "Overriding configuration files: exactly one wins", "statement": "When several directories provide a file with the same base name, exactly the one from the highest-precedence directory is used, and files with unique names are all used, in order.", "quantifier": "every set of candidate files", "why_tests_cant": "Combinatorial file sets.", "anchors": ["src/conf.c:conf_reload", "doc/config/files.md"]}
{"id": "C31", "title": "Path confinement: dot-dot removal", "statement": "The path clean-up used on user-supplied file names returns a path with no `..` component, or reports failure.", "quantifier": "every path string", "why_tests_cant": "Path strings are infinite; traversal filters are usually broken by an odd one.", "anchors": ["src/util.c:de_dotdot"]}
{"id": "C32", "title": "Signal names and numbers round-trip", "statement": "Every signal number with a name maps to that name and back, names are accepted with or without SIG and in any case, and unknown names are rejected.", "quantifier": "every signal number and every string", "why_tests_cant": "Infinite strings; prefix handling.", "anchors": ["src/util.c:sig2str", "src/util.c:str2sig", "src/sig.c:sig_num", "src/sig.c:sig_name"]}
{"id": "C33", "title": "Size strings denote their size", "statement": "A size such as 10k, 5M or 1G is converted to exactly that number of bytes, for every size that is representable, and anything else is rejected.", "quantifier": "every size string", "why_tests_cant": "Overflow only for large values; infinite inputs.", "anchors": ["src/util.c:strtobytes"]}
{"id": "C34", "title": "Log facility/level round-trip", "statement": "The priority string parser returns the facility and level named in the string and the documented default for the part left out.", "quantifier": "every priority string", "why_tests_cant": "All combinations and malformed strings.", "anchors": ["src/log.c:log_parse"]}
{"id": "C35", "title": "Control group garbage collection", "statement": "After a reload the top-level groups that remain are exactly the protected groups, those in the configuration, and those that still have processes.", "quantifier": "every history of configurations", "why_tests_cant": "Mark and sweep over arbitrary histories.", "anchors": ["src/cgroup.c:cgroup_mark_all", "src/cgroup.c:cgroup_cleanup", "src/cgroup.c:cgroup_add"]}
{"id": "C36", "title": "Device condition bookkeeping", "statement": "A device path is watched as long as at least one service references its dev/ condition, and is dropped when the last one is removed.", "quantifier": "every history of add/remove", "why_tests_cant": "Reference counts over unbounded histories.", "anchors": ["src/devmon.c:devmon_add_cond", "src/devmon.c:devmon_del_cond"]}
{"id": "C37", "title": "PID file naming", "statement": "The pid: option yields the documented PID file path for each documented form, and the forking marker `!` never becomes part of a path that is opened.", "quantifier": "every pid: argument", "why_tests_cant": "Infinite inputs.", "anchors": ["src/pid.c:pid_file_parse", "src/pid.c:pid_file_set", "src/pid.c:pid_file"]}
{"id": "C38", "title": "Resource limit lines", "statement": "An rlimit line changes only the named resource and only the requested (soft/hard/both) limit; an unparsable line changes nothing.", "quantifier": "every rlimit line and prior limits", "why_tests_cant": "Infinite inputs.", "anchors": ["src/conf.c:conf_parse_rlimit"]}
{"id": "C39", "title": "Kill delay and halt signal options are sane", "statement": "The kill: option accepts only the documented range and otherwise keeps the default, so a stop is never left without escalation; halt: accepts only real signals.", "quantifier": "every option string", "why_tests_cant": "Infinite inputs incl. overflow.", "anchors": ["src/service.c:parse_killdelay", "src/service.c:parse_sighalt"]}
{"id": "C40", "title": "Conditional loading (if:)", "statement": "if:NAME loads a stanza iff a service NAME exists, if:!NAME iff it does not, if:<COND> iff the condition is on, and negation is exact.", "quantifier": "every statement and registry", "why_tests_cant": "Infinite statements x registries.", "anchors": ["src/svc.c:svc_ifthen", "doc/config/services.md"]}
{"id": "C41", "title": "Deferred destruction is safe", "statement": "A removed service's memory is released only after the grace period and never while a timer or list can still reach it.", "quantifier": "every history of removals, timers and collections", "why_tests_cant": "Use-after-free depends on interleavings.", "anchors": ["src/svc.c:svc_del", "src/svc.c:svc_gc"]}
{"id": "C42", "title": "Run/task outcome conditions", "statement": "After a run/task completes exactly one of its success/failure conditions is on, matching its exit status, and both are off once it is re-armed.", "quantifier": "all completions and statuses", "why_tests_cant": "All histories and all exit statuses.", "anchors": ["src/service.c:svc_set_state"]}
{"id": "C43", "title": "Service status conditions are exclusive", "statement": "At most one of a daemon's published state conditions (running, halted, missing, crashed, stopped, ...) is on at any time outside a transition, and it agrees with the actual state.", "quantifier": "all reachable states", "why_tests_cant": "All histories.", "anchors": ["src/service.c:svc_set_state", "src/svc.h:svc_status"]}
{"id": "C44", "title": "Shell-less command splitting", "statement": "The command splitter used to run programs splits on white space, keeps quoted strings together and never reads outside the string.", "quantifier": "every command line", "why_tests_cant": "Infinite inputs; unterminated quotes.", "anchors": ["src/exec.c:run"]}
{"id": "C45", "title": "tmpfiles argument unescaping", "statement": "The argument writer decodes the documented escapes byte for byte and never reads past the argument.", "quantifier": "every argument string", "why_tests_cant": "Infinite inputs; trailing backslash.", "anchors": ["src/tmpfiles.c:write_arg", "src/tmpfiles.c:write_hex"]}
{"id": "C46", "title": "Honest answers", "statement": "A request on the control socket that asks for a change is acknowledged exactly if the change was set in motion.", "quantifier": "every request, registry and runlevel", "why_tests_cant": "Whole request space (command x runlevel x data x registry).", "anchors": ["src/api.c:api_cb", "src/api.c:do_reboot", "src/svc.c:svc_parse_jobstr"]}
{"id": "C47", "title": "Condition changes are announced", "statement": "Setting a condition is reported as a change, and so wakes the services that depend on it, exactly when the condition was not on before (including when it was in flux), and clearing it exactly when it was not off before; afterwards it is on, or off.", "quantifier": "every history of set, one-shot, clear and reload operations", "why_tests_cant": "The answer depends on the whole history of the condition and on reload generations; tests only try a few histories.", "anchors": ["src/cond-w.c:cond_set_path", "src/cond-w.c:cond_set_noupdate", "src/cond-w.c:cond_clear_noupdate", "src/cond.c:cond_get_path"]}
{"id": "C48", "title": "Options of a service line", "statement": "Options in front of a command may be given in any order, the last of two that set the same thing counts, each has its documented meaning and what is not given its default; the first word that is not an option is the command and the rest its arguments.", "quantifier": "every list of option words, every command and arguments", "why_tests_cant": "Unbounded space of option sequences; interactions of options depend on order.", "anchors": ["src/service.c:service_register", "src/private.h:MATCH_CMD"]}
{"id": "C49", "title": "Arguments reach the program", "statement": "The words of a command line, with quoted text taken as one word, and no others, are the arguments of the program.", "quantifier": "every command line", "why_tests_cant": "Unbounded space of texts with quotes and blanks.", "anchors": ["src/service.c:parse_cmdline_args", "src/service.c:service_register"]}
{"id": "C50", "title": "No line crashes init", "statement": "Whatever a service line says, and whatever is already known of the service, reading it does nothing undefined.", "quantifier": "every line, type, file and earlier state of the service", "why_tests_cant": "A crash of process 1 takes the machine down; it needs particular texts that tests do not guess.", "anchors": ["src/service.c:service_register", "src/service.c:parse_script", "src/service.c:parse_log", "src/pid.c:pid_file_parse"]}
{"id": "C51", "title": "Changed arguments are noticed", "statement": "When a line is read again, the arguments of the service are marked as changed, and the service so restarted, exactly if they are not what they were.", "quantifier": "every pair of old and new command lines", "why_tests_cant": "Unbounded space of pairs of texts; both false positives and false negatives must be excluded.", "anchors": ["src/service.c:parse_cmdline_args", "src/service.c:parse_args"]}
{"id": "C52", "title": "A line read again", "statement": "When the line of a known service is changed, the service has afterwards the settings it would have, had it been started from the new line only.", "quantifier": "every old and new line", "why_tests_cant": "Leftovers of old settings depend on the history of the configuration file; tests start from a fresh system.", "anchors": ["src/service.c:service_register", "src/service.c:parse_log", "src/service.c:parse_cgroup", "src/pid.c:pid_file_set"]}
{"id": "C53", "title": "Output goes where the log option says", "statement": "The output of a service goes where its `log` option says, with the priority and tag given there, and nowhere if there is none.", "quantifier": "every log option, line and earlier state of the service", "why_tests_cant": "Unbounded option texts, and settings kept from earlier lines.", "anchors": ["src/service.c:parse_log", "src/service.c:service_register"]}
{"id": "C54", "title": "A service is what its line says", "statement": "A service that is new has exactly the settings its line gives: command, arguments, name, user, runlevels, conditions, scripts, signals, delays, PID file, control group and flags, and the defaults for what is not given.", "quantifier": "every list of options, command and arguments", "why_tests_cant": "Twenty-seven options that may be combined in any way and share storage; tests try a handful of lines.", "anchors": ["src/service.c:service_register", "src/svc.c:svc_new", "src/conf.c:conf_parse_cond"]}
{"id": "C55", "title": "Network conditions follow the kernel", "statement": "When finit has read all netlink messages, net/IFACE/exist, net/IFACE/up and net/IFACE/running say what the kernel has for every interface, and for names no interface has; net/route/default is on if, and only if, there is a default route.", "quantifier": "every sequence of changes to interfaces and routes, and every moment at which finit reads the messages", "why_tests_cant": "Changes and reads interleave in any order, and routes vanish without a message; a test tries one cable.", "anchors": ["plugins/netlink.c:nl_parse", "plugins/netlink.c:nl_link", "plugins/netlink.c:nl_route", "plugins/netlink.c:nl_callback", "plugins/netlink.c:nl_resync"]}
{"id": "C56", "title": "A log has no holes", "statement": "What a service prints to its log is found, without a hole, in the older versions of the log file from the oldest to the newest, and the log file itself. At most the configured number of older versions is kept, one file each, and nothing is dropped before there are that many versions of more than the configured size.", "quantifier": "every text, cut into any lines, and every moment at which the C library writes its buffer", "why_tests_cant": "Holes show only after more rotations than a test makes, and depend on the number of versions and on gzip.", "anchors": ["src/logrotate.c:logrotate", "src/logit.c:flogit", "src/logit.c:checksz"]}
{"id": "C57", "title": "Lines of tmpfiles.d do what they say", "statement": "The fields of a tmpfiles.d line are those between its blanks. Afterwards there is what the line asks for at its path: a directory, file, pipe, device or symbolic link with the given mode, owner and contents. What was there stays unless the line asks to replace it, and reading the line again changes nothing.", "quantifier": "every line, every file at its path and every umask", "why_tests_cant": "Types, modifiers, missing fields and what was there before combine to far more cases than tests cover, and a wrong mode goes unnoticed.", "anchors": ["src/tmpfiles.c:tmpfiles", "src/tmpfiles.c:parse_mm", "src/tmpfiles.c:rmrf", "src/util.c:mksubsys"]}
{"id": "C58", "title": "Changed files are noticed", "statement": "When a configuration file that is read at a reload is not what it was at the reload before, the services in it are marked as changed, however the file, or a link that leads to it, was changed and whenever init was told. Nothing is marked when nothing has changed.", "quantifier": "all files and links, every sequence of changes to them, and every way in which the events are read", "why_tests_cant": "What is noted depends on what links lead to at the moment an event is read; tests change one file at a time and wait.", "anchors": ["src/conf.c:conf_change_act", "src/conf.c:conf_changed", "src/conf.c:conf_iwatch_read", "src/conf.c:conf_flush_events", "src/conf.c:conf_monitor"]}
{"id": "C59", "title": "Boot parameters", "statement": "The last boot parameter about a setting counts, whatever else is given: configuration file, fstab, debug and progress output, rescue mode, single user mode, runlevel, and how file systems are checked. Exactly the conditions of all finit.cond parameters are set. No parameter makes a system go down right after it has come up.", "quantifier": "every list of parameters, and everything finit can be built with", "why_tests_cant": "Parameters come from the boot loader, the kernel and the user in any number and order, so interactions between them cannot be tested.", "anchors": ["src/conf.c:conf_parse_cmdline", "src/conf.c:parse_arg", "src/conf.c:parse_finit_opts", "src/conf.c:parse_fsck_opts", "src/conf.c:parse_runlevel", "src/cond-w.c:cond_boot_parse", "src/cond-w.c:cond_boot_strap", "src/sm.c:sm_check_bootstrap", "doc/cmdline.md"]}
{"id": "C60", "title": "Enabling and disabling configurations", "statement": "initctl enable NAME adds one link in enabled/ to NAME.conf in available/, for foo@bar to foo@.conf, and from then on finit reads that file; initctl disable NAME removes only that link and undoes the enable exactly. initctl create NAME makes the file from what is piped in, initctl delete NAME removes file and link. Nothing else is ever changed, and a command that fails changes nothing.", "quantifier": "every file system tree, with links, every name and all options", "why_tests_cant": "What is in the directories, links that lead nowhere or elsewhere, and names with or without suffix, instance or directory give endless combinations.", "anchors": ["src/serv.c:serv_enable", "src/serv.c:do_disable", "src/serv.c:serv_creat", "src/serv.c:serv_delete", "src/serv.c:conf", "src/util.h:suffix", "src/conf.c:conf_reload", "man/initctl.8"]}
{"id": "C61", "title": "A crashed service is tried again", "statement": "When the command of a service ends although the service should run, the timer after which it is tried again is set and stays set, whatever other events come in between, until it expires or the user, a lost condition, a reload of its configuration or its removal decides otherwise. When the timer expires the service is started again, unless it has crashed too often, in which case it is given up.", "quantifier": "all reachable supervisor states and all later events in any order", "why_tests_cant": "The claim is about every sequence of events between the crash and the timer; a test sees a few, and a service that silently stays down looks just like one that waits.", "anchors": ["src/service.c:service_retry", "src/service.c:service_step", "src/service.c:service_monitor", "src/service.c:service_timeout_after", "src/service.c:service_timeout_cancel", "src/service.c:service_script_del"]}
{"id": "C62", "title": "Acting on a service never interrupts acting on the same service", "statement": "While finit is in the middle of acting on a service (a step of its state machine, or the publication of its new state), it does not start to act on that service again from inside. So the guarantees about processes, signals and conditions do not depend on what waits for what.", "quantifier": "all configurations and all reachable supervisor states", "why_tests_cant": "Re-entry needs a certain shape of the dependency graph and a change at a certain moment, deep inside nested calls; a test sees one graph and one order of events.", "anchors": ["src/service.c:service_step", "src/service.c:svc_set_state", "src/service.c:service_reload", "src/service.c:service_monitor", "src/cond-w.c:cond_update", "src/cond-w.c:cond_delpath", "src/cond.c:cond_affects", "src/sm.c:sm_step"]}
{"id": "C63", "title": "PID 1 is done with every event in finite time", "statement": "However services depend on each other, finit is done with each event (the end of a process, a timer, a request of the user, a reload, a change of runlevel) after finitely many steps and returns to its event loop. It never goes round for ever inside a step, which would freeze the system.", "quantifier": "all configurations, all reachable supervisor states, all events", "why_tests_cant": "Each change of state changes conditions and each condition changes states; whether that ends depends on the whole dependency graph and the states of all services. A test can only show that some chains end.", "anchors": ["src/service.c:service_step", "src/service.c:svc_set_state", "src/sm.c:sm_step", "src/cond-w.c:cond_update", "src/svc.c:svc_ifthen", "src/svc.c:svc_enabled"]}
{"id": "C64", "title": "Start scripts run in order, each once, and failures are reported", "statement": "A runparts line names a directory and options. All executable files of that directory that are no backups are run once each, in alphabetical order, S01name with the argument start and K01name with stop; with the option sysv only files named like scripts of SysV init are. The exit code of runparts is 0 if, and only if, all scripts succeeded.", "quantifier": "all lines, all directories with any number of files of any names and kinds, all exit codes", "why_tests_cant": "Names, kinds and exit codes of files are chosen by others; a test tries a few directories, and that two exit codes add up to 256 is never among them.", "anchors": ["src/runparts.c:run_parts", "src/runparts.c:main", "src/conf.c:parse_static", "src/helpers.c:strip_line", "libite:paste"]}
{"id": "C65", "title": "Hook scripts run exactly once at each hook point", "statement": "At every documented hook point the scripts in its directory are run exactly once, in the order in which the hook points are reached, with the name of the hook in the environment, and from shutdown on with the way the system goes down.", "quantifier": "all sequences of hook points of a life of the system, all ways to go down, with and without external plugins", "why_tests_cant": "Whether a hook is missing or run twice depends on how finit was built and on when conditions become available; a test of one build sees one of these.", "anchors": ["src/plugin.c:plugin_script_run", "src/plugin.c:plugin_run_hook", "src/plugin.c:plugin_init", "src/plugin.h:HOOK_TYPES", "plugins/hook-scripts.c", "src/sig.c:do_shutdown"]}
{"id": "C66", "title": "The configuration is read in the documented order", "statement": "At bootstrap and reload the lines acted upon are exactly those of the main file and then those of all .conf files in the system directories and the directories of the administrator, directory by directory and alphabetically within each, with files of the system left out that are overridden by a file of the same name; included files take the place of the line that includes them, templates themselves are not read. The directory of the administrator is the one the main file names at bootstrap, and does not change later.", "quantifier": "all file systems: any number of files, names, kinds and contents, any nesting of included files", "why_tests_cant": "The order matters for run tasks and for which of several definitions wins; it depends on all names in four directories and on what files include, of which tests try a handful.", "anchors": ["src/conf.c:conf_reload", "src/conf.c:parse_conf", "src/conf.c:parse_static", "src/conf.c:glob_append", "src/conf.c:is_template"]}
{"id": "C67", "title": "File systems are unmounted at shutdown", "statement": "At shutdown every file system is unmounted that can be: what is left are those the system needs till the end (the root, /proc, /sys, /dev, /run and those in them), those that are busy, and those these are mounted on. What is mounted on, or over, another file system is unmounted before it; file systems in memory are unmounted before swap is turned off, the others in the reverse order of mounting.", "quantifier": "all tables of mounted file systems: any number, any nesting, any stacking, any set of busy ones", "why_tests_cant": "What can be unmounted depends on what else is still mounted; the loop starts over after each success, so whether it ends, and what is left, depends on the whole table. A test shows one table.", "anchors": ["src/mount.c:unmount_tmpfs", "src/mount.c:unmount_regular", "src/mount.c:iterator", "src/mount.c:is_protected", "src/sig.c:do_shutdown"]}
{"id": "C68", "title": "The condition for mains power tells the truth", "statement": "After any sequence of messages of the kernel the condition sys/pwr/ac is on just when some mains power supply (anything but a battery) is on line, or there is none at all. Other messages do not matter, and no message makes the daemon write outside its buffer.", "quantifier": "all sets of power supplies, all sequences of changes, additions, removals and other messages, all message texts", "why_tests_cant": "The daemon counts, so what it does depends on the whole history of messages; a test that unplugs once sees nothing wrong.", "anchors": ["src/keventd.c:init", "src/keventd.c:main", "src/keventd.c:is_ac", "src/keventd.c:check_online", "src/keventd.c:sys_cond"]}
{"id": "C69", "title": "The system goes down the way it was told to", "statement": "The kernel is told to halt, power off or reboot just as was last asked for, by one of the programs halt, poweroff, reboot and shutdown or by asking for runlevel 0 or 6; never unless that was asked for; and once asked for, as soon as all services have stopped. The last of the options that say how decides, else the name of the program.", "quantifier": "all sequences of calls of the programs with any timeouts, requests for runlevels, reloads, services stopping, the end of bootstrap and timers, in any order; all command lines", "why_tests_cant": "What happens depends on what else init is waiting for when the request and the signal that follows it arrive; a test on an idle system never sees it.", "anchors": ["src/reboot.c:reboot_main", "src/reboot.c:transform", "src/initctl.c:do_cmd", "src/api.c:do_reboot", "src/api.c:api_cb", "src/sig.c:sigusr2_cb", "src/sig.c:sigterm_cb", "src/sig.c:do_shutdown", "src/sm.c:sm_step", "src/sm.c:sm_runlevel"]}
{"id": "C70", "title": "At shutdown every process is ended, gently first", "statement": "When file systems are unmounted no process is left but init, threads of the kernel, storage daemons marked with a '@', the debugger and initctl. All others have been sent SIGTERM, once; SIGKILL is sent, once, to those that are still there a second later and to nobody else; nothing is waited for once all have gone.", "quantifier": "all sets of processes with any command lines, and all ways in which they come and go while init waits", "why_tests_cant": "Which processes are spared depends on bytes of their command lines, and who is killed on when each of them ends; a test has a few daemons with harmless names.", "anchors": ["src/sig.c:do_iterate_proc", "src/sig.c:kill_cb", "src/sig.c:status_cb", "src/sig.c:do_wait", "src/sig.c:do_shutdown"]}
{"id": "C71", "title": "A tty line gives a login on the terminal it names", "statement": "A line tty DEV [BAUD] [TERM], with options anywhere, gives one service for the device, in place of the one it had if there was one; when it is started, getty is run on that device and told the device, the speed and the type of terminal of the line, and passes the environment on only if asked. A line with another getty runs that with exactly the arguments of the line. A line with @console does the same for each console of the kernel. Reading the line again changes nothing.", "quantifier": "all lines, options in any order, all devices, programs and consoles there are, and all services there already are", "why_tests_cant": "The words of the line go through two parsers, are joined and split again and are shifted once before they reach getty; a test of each step on its own finds nothing.", "anchors": ["src/tty.c:tty_parse_args", "src/tty.c:tty_canonicalize", "src/tty.c:tty_atcon", "src/tty.c:tty_exec", "src/service.c:service_register", "src/service.c:parse_cmdline_args", "src/svc.c:svc_find_by_tty", "src/getty.c:main"]}
{"id": "C72", "title": "Plugins are set up after those they depend on", "statement": "Whatever the order of the files in the plugin directory, each plugin is registered exactly once, after all plugins it depends on, with the handle of its own file; and at each hook point every plugin that has a callback for it is called once, after those it depends on.", "quantifier": "all sets of plugins, all dependencies between them, all orders in which the directory is read", "why_tests_cant": "The order of readdir(3) depends on the file system and on how the files were installed, and loading a plugin loads others from within its constructor; a test sees the one order of the machine it runs on.", "anchors": ["src/plugin.c:plugin_register", "src/plugin.c:plugin_find", "src/plugin.c:check_plugin_depends", "src/plugin.c:load_one", "src/plugin.c:load_plugins", "src/plugin.c:plugin_run_hook"]}
{"id": "C73", "title": "A maintenance shell is given to those who know root's password", "statement": "sulogin, started when a file system cannot be checked or mounted or when single user mode is asked for, gives a root shell to whoever types the password of root, after any number of wrong ones, and to nobody else; without password or with the account locked, to whoever presses a key other than Ctrl-D.", "quantifier": "all contents of /etc/passwd and /etc/shadow, all input on the console, all results of crypt(3)", "why_tests_cant": "The files differ on every system, and which line of shadow(5) is taken depends on their order; a test on a system with root first in shadow(5) sees nothing wrong.", "anchors": ["src/sulogin.c:get_passwd", "src/sulogin.c:main"]}
{"id": "C74", "title": "File systems are checked before they are mounted", "statement": "At boot all file systems of fstab(5) with a pass number are checked, in the order of these numbers, before anything is mounted or made writable. If a check fails and the line does not say nofail, nothing is mounted, a maintenance shell is offered and the system reboots. Otherwise, also when errors were put right, the root file system is made writable unless its line says ro, all is mounted, and the file systems every system needs are mounted where nothing is mounted yet.", "quantifier": "all tables, all block devices and mounts, all ways in which fsck ends for each of them", "why_tests_cant": "A test would have to boot with damaged file systems of each kind; which are checked depends on how fsck ended for others, on how devices are named and on what the kernel has mounted.", "anchors": ["src/finit.c:fsck", "src/finit.c:fsck_all", "src/finit.c:fs_remount_root", "src/finit.c:fs_root_dev", "src/finit.c:fs_mount_all", "src/finit.c:fs_finalize", "src/finit.c:fs_swapon", "src/finit.c:sulogin", "src/util.c:ismnt", "src/exec.c:run"]}
{"id": "C75", "title": "initctl acts on the services named and its exit status tells whether it could", "statement": "initctl start, stop, restart and reload pass the command on to every service that an argument means, in the order of the arguments, and to no other, and exit with 0 exactly if each argument means a service, or errors are to be ignored. While the system starts or goes down they do nothing and say so. initctl signal sends the signal to exactly the services meant that run. initctl -q status exits with 0 exactly if the services of that name run, and initctl ident prints the identities of the services meant.", "quantifier": "all registries, arguments, options and runlevels", "why_tests_cant": "The exit status depends on how a query, a request and the registry fit together over a socket, for any number of arguments; a test only tries some names.", "anchors": ["src/initctl.c:do_startstop", "src/initctl.c:do_svc", "src/initctl.c:do_reload", "src/initctl.c:do_restart", "src/initctl.c:do_signal", "src/initctl.c:show_status", "src/initctl.c:svc_compare", "src/initctl.c:show_ident", "src/initctl.c:cmd_parse", "src/client.c:client_send", "src/client.c:client_request", "src/api.c:api_cb"]}
{"id": "C76", "title": "What initctl -j prints is JSON that says what is known of the services", "statement": "initctl -j status, initctl -j cond show, initctl -j cond dump and initctl -j ls print a JSON document (RFC 8259), whatever the services are called, described as and given as arguments. Its values are those of the services: one object for each service, in order, with identity, description, type, status, command with its arguments, conditions with their states, PID, user, group and runlevels.", "quantifier": "all services, condition states, listings and directories", "why_tests_cant": "The text is put together by printf() from strings of the configuration; whether it parses depends on every character of every string and on the lengths of buffers. A test only tries some services.", "anchors": ["src/initctl.c:json_status_one", "src/initctl.c:show_status", "src/initctl.c:svc_cond", "src/initctl.c:svc_command", "src/initctl.c:svc_environ", "src/initctl.c:runlevel_arr", "src/initctl.c:do_cond_show", "src/initctl.c:dump_one_cond", "src/initctl.c:do_cond_dump", "src/serv.c:do_list", "src/serv.c:serv_list"]}
{"id": "C77", "title": "Conditions set with initctl cond are seen by Finit until they are cleared", "statement": "After initctl cond set each condition named is on for Finit, after initctl cond clear it is off, and no other condition has changed; it stays so until the next command that names it, however often the configuration is reloaded. The services that depend on a condition that has changed are stepped, and no others. No file outside of the directory of the user's conditions is made or removed, whatever the arguments. The exit status of initctl cond get tells the state that Finit sees.", "quantifier": "all arguments, condition stores and histories of commands, reloads and changes by Finit", "why_tests_cant": "The program writes to a directory which another process watches and reads by other paths; whether they agree depends on every name, its length and the history. A test only tries some names.", "anchors": ["src/initctl.c:do_cond_act", "src/initctl.c:cond_read", "src/initctl.c:cmd_parse", "plugins/usr.c:usr_callback", "plugins/usr.c:usr_cond", "plugins/usr.c:usr_init", "src/cond.c:cond_path", "src/cond.c:cond_get_path", "src/cond.c:cond_affects", "src/cond-w.c:cond_update"]}
{"id": "C78", "title": "The name typed at getty's prompt is the one login gets", "statement": "The first line typed at Finit's getty that is not empty is, whole and unchanged, the last argument of login, behind --, so that no name is taken for an option of login; what has been typed before a failed read is not part of it. Nothing typed makes getty write outside its buffer. The terminal runs at the speed given.", "quantifier": "all sequences of characters typed and failed reads, all limits of the system for the length of a name, all speeds", "why_tests_cant": "The input is an unbounded sequence of characters and errors; the claim is about every one of them, including lines of exactly the size of the buffer.", "anchors": ["src/getty.c:get_logname", "src/getty.c:readch", "src/getty.c:getty", "src/getty.c:exec_login", "src/getty.c:main", "src/stty.c:stty", "src/stty.c:stty_parse_speed"]}
{"id": "C79", "title": "getty shows /etc/issue with its escapes filled in", "statement": "Before it asks for a name getty shows /etc/issue, or a default text if there is none, with each known escape replaced by what the system or os-release says of it, and with every other character as it is, followed by the host name and login: . It shows nothing else.", "quantifier": "all texts of /etc/issue with lines of up to 8190 characters, all os-release files, all names of the system", "why_tests_cant": "Which escapes are used, which keys os-release has and where the buffer ends are independent of one another and unbounded; a test tries a few issue files on one system.", "anchors": ["src/getty.c:parseln", "src/getty.c:issue", "src/getty.c:osrel", "src/getty.c:get_val"]}
{"id": "C80", "title": "A service runs with the variables of the current configuration", "statement": "The environment of a service that is started is that of the configuration read last: for each variable the last line of its env: file counts, then the home directory and path of its user, then the last set line of the configuration, then the defaults, then what Finit itself was started with. No variable of an earlier configuration is left, however often it was reloaded.", "quantifier": "all configurations, histories of reloads, env: files with lines of up to 1022 characters, users, and initial environments", "why_tests_cant": "The environment is state that every reload changes by deleting and setting variables; that it depends on the current configuration only is a claim about all histories.", "anchors": ["src/conf.c:parse_env", "src/conf.c:conf_reset_env", "src/conf.c:conf_parse_env", "src/conf.c:parse_static", "src/conf.c:parse_conf", "src/conf.c:conf_reload", "src/service.c:source_env", "src/service.c:service_fork", "doc/config/env.md", "doc/config/service-env.md"]}
{"id": "C81", "title": "A service runs as the user and group its line names", "statement": "A service whose line has @user:group, and every script of it, runs as this user and this group and with none of Finit's own rights, whatever an earlier configuration said of it; one whose user cannot be had does not run. Without such an option it runs as the user and group of Finit.", "quantifier": "all service lines, earlier configurations of the same service, account files, kernels that let only root change users, and inherited rights", "why_tests_cant": "That a service never runs with more rights than its line grants is a claim about every account file, every history of lines and every answer of the kernel; a test sees one system.", "anchors": ["src/service.c:service_fork", "src/service.c:service_register", "src/util.c:getuser", "src/util.c:getgroup", "src/log.h:err", "src/svc.h:MAX_USER_LEN"]}
{"id": "C82", "title": "Cleaning up at boot removes temporary files and nothing else", "statement": "At boot everything in /tmp, /var/run and /var/lock that is left from the last boot is removed, at any depth, unless the directory is a tmpfs; the directories themselves and everything outside of them are left alone.", "quantifier": "all file systems, mounts and links", "why_tests_cant": "Which files are removed depends on the whole tree, with links and mounts; that nothing outside is touched and nothing inside is left is a claim about all trees of any depth.", "anchors": ["plugins/bootmisc.c:clean", "plugins/bootmisc.c:bootclean", "plugins/bootmisc.c:is_tmpfs"]}
{"id": "C83", "title": "The clock is not turned back by a reboot", "statement": "After a boot the clock is not earlier than when it was last saved, be it in the clock on the board or, without one, in the restore file; and it is never earlier than the earliest valid date.", "quantifier": "all states of clock, device and file, all histories of saving, setting the clock, time passing with the system on or off, and booting", "why_tests_cant": "A test sees one boot; that time never goes back is a claim about all histories of saves and boots, and about every content of device and file.", "anchors": ["plugins/rtc.c:time_set", "plugins/rtc.c:time_get", "plugins/rtc.c:file_save", "plugins/rtc.c:file_restore", "plugins/rtc.c:rtc_save", "plugins/rtc.c:rtc_restore", "plugins/rtc.c:tz_set", "plugins/rtc.c:tz_restore"]}
{"id": "C84", "title": "No random seed counts twice", "statement": "At every boot the kernel is given a seed of its own: no seed is given to it as entropy twice, however boots, shutdowns and power losses follow one another, none counts for more than eight bits a byte, and one that can be guessed does not count.", "quantifier": "all histories of boots, orderly shutdowns, failed saves and crashes, all seed files and hardware generators", "why_tests_cant": "A seed used twice makes two boots share their keys; that this never happens is a claim about all histories, not about one boot.", "anchors": ["plugins/urandom.c:setup", "plugins/urandom.c:fallback", "plugins/urandom.c:save"]}
{"id": "C85", "title": "A service is ready when it says so", "statement": "A service that uses the protocol of systemd is ready if and only if a process with the environment Finit gave it has sent a message with the line READY=1; messages of one service never make another one ready.", "quantifier": "all sets of services, all process numbers, all messages, all orders of binding, sending and reading", "why_tests_cant": "Whether a message reaches the right service, whole and in time, depends on the order of two processes and on the length of the text.", "anchors": ["src/service.c:service_start", "src/service.c:service_notify_cb", "libsystemd/sd-daemon.c:sd_notify", "libsystemd/sd-daemon.c:sd_pid_notify"]}
{"id": "C86", "title": "Modules named in /etc/modules-load.d are loaded", "statement": "Every kernel module named on a line of a file in /etc/modules-load.d is loaded by a task of its own, in the order of the files and lines, with its parameters, in the run levels and by the program set before in the same file; comments and empty lines do nothing, and no two tasks have the same name and number.", "quantifier": "all files, lines, module names, parameters and settings", "why_tests_cant": "The lines go through two parsers, the one of the plugin and the one for services, and numbers run through all files: tests see a few files, not all texts.", "anchors": ["plugins/modules-load.c:modules_load", "plugins/modules-load.c:load", "src/helpers.h:fgetval", "src/service.c:service_register"]}
{"id": "C87", "title": "What a service prints is logged as configured", "statement": "What a service with a log file prints is written to that file, rotated at the size and into the number of versions set; without a file every line goes to the system log, once and in order, under the service's tag, facility and level, or the level a line begins with; `log:null` and `log:console` lead nowhere and to the console; and the settings in use are those of the configuration.", "quantifier": "all log options, settings, names, priorities and lines printed, with and without the logging programs", "why_tests_cant": "Numbers and names go through buffers, the command line of another program and its parsers: errors show only for some sizes, counts, priorities and installed programs.", "anchors": ["src/service.c:redirect", "src/service.c:lredirect", "src/service.c:fallback_logger", "src/logit.c:main", "src/logit.c:parse_prio", "src/logit.c:parse_level", "src/conf.c:parse_static"]}
{"id": "C88", "title": "Control groups have the settings of the configuration", "statement": "A control group has exactly the settings its line or the services in it give, each written to the file of that name in its own directory and nowhere else; settings no longer given are gone; and a service's processes are moved to the directory of the service in the group it names, or in `system`, once the settings are made.", "quantifier": "all groups, names, settings and services, existing and new directories", "why_tests_cant": "Settings are split, joined, unquoted, cut and turned into paths: what is written where depends on every character of them.", "anchors": ["src/cgroup.c:cgset", "src/cgroup.c:group_init", "src/cgroup.c:cgroup_leaf_init", "src/cgroup.c:cgroup_service", "src/conf.c:conf_parse_cgroup", "src/service.c:parse_cgroup", "src/service.c:group_name"]}
{"id": "C89", "title": "The watchdog timer resets the board when it should, and not otherwise", "statement": "While the built-in watchdog daemon runs the board is not reset. Handing the device over stops the timer. At a reboot the board is reset by the timer within the ten seconds init waits for it, and not before file systems are unmounted.", "quantifier": "all sequences of system calls, signals and passing time in which the daemon is not late by more than some seconds, and all timeouts the device takes", "why_tests_cant": "Signals arrive between any two system calls and time passes everywhere: the bad interleavings are milliseconds wide.", "anchors": ["src/watchdog.c:loop", "src/watchdog.c:main", "src/watchdog.c:sighandler", "src/sig.c:do_shutdown"]}
{"id": "C90", "title": "The login records tell who is where", "statement": "utmp has one record for every terminal that was used, that of the last process on it, one of the boot and one of the last change of runlevel, and none of a process known to have ended. wtmp has all that happened, in order.", "quantifier": "all sequences of boots, changes of runlevel, shutdowns, logins on any terminals and ends of processes", "why_tests_cant": "Which record is overwritten depends on all the records that were put before and on the names of all terminals.", "anchors": ["src/utmp-api.c:utmp_set", "src/utmp-api.c:set_getty", "src/utmp-api.c:utmp_set_runlevel", "src/utmp-api.c:utmp_logrotate", "src/service.c:service_cleanup", "src/getty.c:getty"]}
{"id": "C91", "title": "A program is started with the words of its line", "statement": "A service, run, task, terminal or SysV script is started with its command and what the words of its line stand for: plain text is itself, text in quotes is one word, the value of a variable is divided at blanks unless it is in double quotes. If they do not fit, nothing is started.", "quantifier": "all lines of plain words, quoted text and variables, all values of variables, all types of services", "why_tests_cant": "Words pass through the parser, a second expansion and, for tasks, a shell; what goes wrong depends on the combination of quotes, values and lengths.", "anchors": ["src/service.c:service_start", "src/service.c:service_stop", "src/exec.c:exec_runtask", "src/tty.c:tty_exec"]}
{"id": "C92", "title": "Every service is listed once", "statement": "initctl status and the other commands that go through all services are sent every service that is there all the time while they ask, none twice, in order, and nothing that is not or was not a service meanwhile, whatever other clients ask and whichever services are added and removed meanwhile.", "quantifier": "all lists of services, all sequences of requests of any clients, additions, removals and frees", "why_tests_cant": "init keeps one position for all clients between requests; what goes wrong depends on what happens between two requests.", "anchors": ["src/svc.c:svc_iterator", "src/api.c:api_cb", "src/client.c:client_svc_iterator", "src/svc.c:svc_del", "src/svc.c:svc_gc", "src/initctl.c:show_status"]}
{"id": "C93", "title": "The modules of all devices found at boot are loaded", "statement": "At boot modprobe is started once for each alias that a readable uevent or modalias file below /sys/devices tells, and for nothing else; whatever becomes of modprobe, init itself goes on with the boot.", "quantifier": "all trees of files with any text, any outcome of each fork and exec", "why_tests_cant": "Which devices a machine has and how long their aliases are is not known to a test; a missing modprobe changes who goes on.", "anchors": ["plugins/modprobe.c:coldplug", "plugins/modprobe.c:modprobe", "plugins/modprobe.c:scan_alias", "plugins/modprobe.c:scan_uevent", "plugins/modprobe.c:scan_modalias", "plugins/modprobe.c:alias_add_uniq"]}
{"id": "C94", "title": "A login is offered on a terminal exactly while its device is there", "statement": "When init has read all events and no getty is about to end, a getty runs on a terminal of the configuration exactly if its device is there and the user has not stopped it, however devices came and went and gettys ended.", "quantifier": "all sets of terminals, all sequences of devices that come and go, gettys that end, commands, and reads in between", "why_tests_cant": "init learns of devices late and in any order with other events; what goes wrong depends on what happens before an event is read.", "anchors": ["plugins/tty.c:do_tty", "plugins/tty.c:tty_watcher", "src/svc.c:svc_find_by_tty", "src/service.c:service_start", "src/service.c:service_step", "src/service.c:service_register"]}
{"id": "C95", "title": "The system has the name it is given", "statement": "Whenever the configuration is read the name of the host becomes the first line of /etc/hostname; if there is no such file at the start it is that of the last host line of the configuration, and without one the default.", "quantifier": "all texts of /etc/hostname, all lines of the configuration, all sequences of readings and of other changes of the name", "why_tests_cant": "The text of the file is arbitrary, and the name depends on its size and on what was read before; a test takes a few files that an editor has written.", "anchors": ["src/helpers.c:set_hostname", "src/helpers.c:strip_line", "src/conf.c:parse_static", "src/conf.c:conf_reload", "src/conf.c:conf_init"]}
{"id": "C96", "title": "Settings of the kernel by the administrator replace those of the vendor", "statement": "After the start a key of sysctl(8) has the value of /etc/sysctl.conf, or else that of the last file, by name, that sets it, where a file in an earlier directory replaces those of the same name in later ones.", "quantifier": "all files in all the directories, all their settings, all names and values, and all values the kernel has before", "why_tests_cant": "Which value wins depends on all files at once, and their names and numbers are unbounded; a test looks at a few of them.", "anchors": ["plugins/procps.c:setup", "src/exec.c:run"]}
{"id": "C97", "title": "A step at boot is shown on one line with its outcome", "statement": "When a step is done the terminal has one line with the text of the step and its outcome, cut to the width of the terminal; nothing above is touched and the cursor is on a new line.", "quantifier": "all texts, widths of the terminal, outcomes, styles, and all that may be on the line before", "why_tests_cant": "The result depends on lengths of the text and of the terminal together; sizes at which it goes wrong are not those a test runs with.", "anchors": ["src/helpers.c:cprintf", "src/helpers.c:slen", "src/helpers.c:pad", "src/helpers.c:status", "src/helpers.c:printv", "src/helpers.c:print", "src/helpers.c:print_desc", "src/helpers.c:print_result"]}
{"id": "C98", "title": "A runlevel that is asked for is changed to, or the command fails", "statement": "A command to change the runlevel, of initctl or telinit, tells init to go to that runlevel and succeeds if its word names one and the system does not go down; else it fails and nothing is changed.", "quantifier": "all words and all states of init", "why_tests_cant": "Tests use the words that are runlevels; what any other word does, and at any time of a boot, is not among their cases.", "anchors": ["src/finit.c:telinit", "src/initctl.c:do_runlevel", "src/initctl.c:cmd_parse", "src/api.c:api_cb", "src/sm.c:sm_check_bootstrap"]}
{"id": "C99", "title": "A sys condition that is set or cleared is acted upon", "statement": "Whenever others set or clear conditions below sys/, in directories they make, Finit gets done with what it is told by the kernel, and then the services that need a condition were told of it as it is.", "quantifier": "all sequences of files and directories made and removed by others, at any point between the steps of Finit, and all sets of conditions that are needed", "why_tests_cant": "It depends on how the steps of others fall between those of Finit; a test sees one of these orders.", "anchors": ["plugins/sys.c:sys_update_conds", "plugins/sys.c:sys_scandir", "plugins/sys.c:sys_handle_dir", "plugins/sys.c:sys_callback", "plugins/sys.c:sys_init", "src/iwatch.c:iwatch_add1", "src/iwatch.c:iwatch_del", "src/iwatch.c:iwatch_find_by_wd", "src/iwatch.c:iwatch_find_by_path"]}
{"id": "C100", "title": "A device condition is on exactly while its device is there", "statement": "When Finit has read all events, a condition dev/node or dev/dir/node that a service needs is on exactly if that device is there, however devices and directories came and went, and however often the configuration was read.", "quantifier": "all sequences of devices and directories made and removed, services read, reloads, and reads of events in between", "why_tests_cant": "Events are read late and in any order with other steps; tests see one order, and few devices come and go in them.", "anchors": ["src/devmon.c:devmon_add_cond", "src/devmon.c:devmon_add_path", "src/devmon.c:devmon_update_conds", "src/devmon.c:devmon_scandir", "src/devmon.c:devmon_handle_dir", "src/devmon.c:devmon_cb", "src/devmon.c:devmon_init", "src/cond-w.c:cond_reload", "src/cond-w.c:cond_set", "src/cond-w.c:cond_clear", "src/cond.c:cond_get_path", "src/util.h:paste"]}
{"id": "C101", "title": "Only the PID file of a service speaks for it", "statement": "The condition pid/NAME of a running service is on once that service has written its PID file and until this file is gone, whatever other services and users write to files of their own in /run, and however late Finit gets to see it.", "quantifier": "all sequences of files in /run written, removed and renamed with any text, and of changes to other services", "why_tests_cant": "Tests write the file of one service; that a file of somebody else names the same process, or changes again before its event is read, takes a second party and bad timing.", "anchors": ["plugins/pidfile.c:pidfile_update_conds", "plugins/pidfile.c:pidfile_callback", "src/svc.c:svc_find_by_pidfile", "src/svc.c:svc_find_by_pid", "src/pid.c:pid_file_read", "src/pid.c:pid_file_set", "src/svc.h:svc_has_pidfile"]}
{"id": "C102", "title": "A message given to logit is logged whole", "statement": "The words given to logit are logged as one message, with blanks in between and with the facility and level that were asked for, whatever they are and however long, and nothing behind the buffer is written.", "quantifier": "all lists of words of any length, all facilities and levels", "why_tests_cant": "The buffer is overrun only by words of certain lengths together; what is then overwritten depends on the stack, and a test may pass by luck.", "anchors": ["src/logit.c:main", "src/logit.c:logit", "src/logit.c:do_log", "src/logit.c:parse_level"]}
{"id": "C103", "title": "The watchdog daemon is told that the system goes down, and nobody else", "statement": "When the system goes down, the process of the watchdog daemon that said hello last is told so, with SIGPWR and at a reboot with SIGTERM last; if that daemon is not running then no process is signalled, and memory that was given back is never used.", "quantifier": "all sequences of hellos, services started, ended, read and removed, and objects given back, before the system goes down", "why_tests_cant": "The daemon must be stopped or removed between its hello and the shutdown, and what memory that was given back holds is not defined; a test that runs to the end of a shutdown has no system left to look at.", "anchors": ["src/api.c:api_cb", "src/conf.c:conf_reload", "src/sig.c:do_shutdown", "src/svc.c:svc_del", "src/svc.c:svc_gc", "src/svc.c:svc_find_by_pid"]}
{"id": "C104", "title": "A post script is run as written and told how its service ended", "statement": "All commands of a post script are run, in their order, and each is told the name, the ID and the identity of its service, and with EXIT_CODE and EXIT_STATUS how the process of the service ended: the exit status, or the name of the signal, or that Finit gave it up.", "quantifier": "all services, scripts, environment files, exit statuses and signals, and all scripts that ended before", "why_tests_cant": "There are 256 exit statuses and 64 signals, with and without a core file, and any environment file and script; the one test has a script with one command and a service without an environment file.", "anchors": ["src/service.c:set_pre_post_envs", "src/service.c:service_post_script", "src/service.c:service_monitor", "src/svc.h:svc_getenv", "src/util.c:sig2str"]}
{"id": "C105", "title": "PID files below /run are noticed", "statement": "Finit watches /run for PID files, recursively: whatever happens to a file below /run while Finit runs, it is written, renamed there or removed, Finit is told of it, in order, and looks at the file then.", "quantifier": "all files and directories that are there at first, all sequences of files and directories being made, written, renamed and removed, and of events being read in between", "why_tests_cant": "What is noticed depends on how the acts of other processes fall between the reads of Finit and on directories made, removed and made again while events wait; tests make a directory and a file at leisure.", "anchors": ["plugins/pidfile.c:pidfile_init", "plugins/pidfile.c:pidfile_callback", "plugins/pidfile.c:pidfile_handle_dir", "plugins/pidfile.c:pidfile_scandir", "plugins/pidfile.c:pidfile_add_path", "src/iwatch.c:iwatch_add1", "src/iwatch.c:iwatch_del"]}
{"id": "C106", "title": "The network is up in exactly the runlevels that have it", "statement": "Finit brings up the network, by the script of the network directive, ifup -a, or the loopback interface alone, when it leaves runlevels S or 1 and takes it down for shutdown: whenever it waits for what comes next, the network is up in all runlevels but S, 1, 6 and 0, in whatever order runlevels, reloads and shutdowns were asked for; in rescue mode it is left alone.", "quantifier": "all configured runlevels and runlevels of the kernel command line, all sequences of requests for runlevels, shutdowns and reloads, of services ending and timers running out, services having stopped or not at any turn of the state machine", "why_tests_cant": "Whether the network is up depends on what else was under way when a runlevel was asked for, and on how long services took to stop; tests change runlevels one at a time and look at services.", "anchors": ["src/sm.c:sm_runlevel", "src/sm.c:sm_step", "src/helpers.c:networking", "src/private.h:IS_RESERVED_RUNLEVEL"]}
{"id": "C107", "title": "What commands print, and how they end, is shown", "statement": "When Finit runs a command, like fsck, mount, modprobe or the network script, the lines that it writes to standard output are logged one by one, all that it writes to standard error is shown on the console after the result, and the result is [ OK ] if the command succeeded and [FAIL] if it did not.", "quantifier": "all outputs of any length, all ways to end, with and without debug mode, with and without a temporary file", "why_tests_cant": "What is lost depends on how long the output is and on how the command ends; commands in tests print a line or nothing, and are not killed.", "anchors": ["src/exec.c:run", "src/exec.c:run_interactive", "src/exec.c:complete", "src/helpers.c:print_result"]}
{"id": "C108", "title": "initctl status tells how a process ended", "statement": "For a service or run/task that does not run, initctl status shows the word for its state and how its process ended last, the exit status or the signal with its number and name, and that it is started by hand if it is; nothing for one that never ran.", "quantifier": "all states and reasons to be blocked, all exit statuses and signals, with and without a core, with and without colours, started by hand or not", "why_tests_cant": "The text goes through two buffers, and whether it fits depends on the length of one of some fifty names together with the digits and other options; tests see the statuses 0 and 1.", "anchors": ["src/initctl.c:status", "src/initctl.c:exit_status", "src/svc.h:svc_status", "src/util.c:code2str", "src/util.c:sig2str"]}
{"id": "C109", "title": "The record of what is started at bootstrap is right", "statement": "While the system boots, /run/finit/exec.order gets one line for everything that is started, in the order in which it is started, with its type, whole command line and description, and [ OK ] or [FAIL] for whether it could be started or, for a run, succeeded.", "quantifier": "all sequences of starts that are refused, fail or succeed, of processes that end with any status, and of the end of bootstrap", "why_tests_cant": "The line is prepared in a static variable by one call and finished by another, for a run only after its process has ended; whether the two calls belong to the same service depends on what else is started and ends in between.", "anchors": ["src/conf.c:conf_save_exec_order", "src/service.c:service_start", "src/service.c:compose_cmdline", "src/service.c:service_monitor"]}
{"id": "C110", "title": "Sizes and times shown by initctl are right", "statement": "Whoever reads a size shown by initctl status, top or cgroup gets the true size to a tenth of its unit, and an uptime is shown with all of its parts.", "quantifier": "all sizes below 2^61 bytes and all times below a million years", "why_tests_cant": "The digit after the point is computed by division by 102 and the columns cut the text at six characters; wrong are a few values in a thousand next to the next unit, and those of 1000 units and more.", "anchors": ["src/util.c:memsz", "src/util.c:uptime", "src/initctl.c:show_status", "src/cgutil.c:cgroup_tree"]}
{"id": "C111", "title": "initctl top shows what a group uses", "statement": "The memory that initctl top shows for a group is that of its processes, of the kernel for it (slabs, stacks, page tables, per-CPU memory) and of its sockets, and its shares of the memory and of a processor are right to a tenth of a percent.", "quantifier": "all contents of memory.stat and cpu.stat in the format of the kernel, whatever other lines there are and in whatever order, and all sequences of looks at them", "why_tests_cant": "All names are looked for by prefix and all numbers are read at the same place in the line, so what counts depends on every name the kernel has or will have; and the load of a group depends on the look before.", "anchors": ["src/cgutil.c:cgroup_memuse", "src/cgutil.c:cgroup_cpuload", "src/cgutil.c:cgroup_tree"]}
{"id": "C112", "title": "The runlevels shown for a service are its runlevels", "statement": "For every service initctl status shows S and 0 to 9 in this order, in a column of 13 characters, with - for the runlevels that the service is not for and the current one in bold; used in a configuration, what is shown means the same runlevels.", "quantifier": "all sets of runlevels, all current runlevels, with and without colours, all runlevel lists of a configuration", "why_tests_cant": "The text goes through a buffer and a column whose widths must allow for the escape sequences; there are some 45000 combinations, and the round trip is a claim about two programs.", "anchors": ["src/initctl.c:runlevel_string", "src/initctl.c:show_status", "src/conf.c:conf_parse_runlevels"]}
{"id": "C113", "title": "Modules of the configuration are loaded at boot, with their arguments, unless they are loaded", "statement": "While the system boots, every module line makes modprobe run with exactly the name and the arguments of the line, in the order of the lines, unless the module is already there when the line is reached; after boot no module line does anything.", "quantifier": "all module lines with any blanks, arguments and comments, all configurations, all contents of /proc/modules, all effects of the commands, all runlevels", "why_tests_cant": "Whether a module is there depends on the commands run before and on the text of /proc/modules, which is read in pieces of 255 bytes; name and command go through buffers of 64 and 1024 bytes and a shell.", "anchors": ["src/conf.c:kmod_exists", "src/conf.c:kmod_load", "src/conf.c:parse_static", "src/helpers.c:strip_line"]}
{"id": "C114", "title": "initctl ps shows every process, once, in its group", "statement": "initctl ps shows all groups below the one asked for and all processes in them that are not kernel threads, each once, in its group and with all its arguments, in the order of the groups and of cgroup.procs.", "quantifier": "all trees of groups of any depth and width, all processes and arguments, all sizes of the terminal", "why_tests_cant": "What is shown of a group depends on its place among all groups above it and on the rows of the terminal; trees have no bound.", "anchors": ["src/cgutil.c:cgroup_tree", "src/cgutil.c:pid_cmdline", "src/cgutil.c:show_cgps"]}
{"id": "C115", "title": "initctl cgroup shows the settings of each group", "statement": "For every group initctl cgroup shows the memory it uses, the memory reserved for it, its limit, its CPUs, its weight and its share of the CPUs as the kernel has them, and nothing for a setting that the group does not have.", "quantifier": "all lists of groups, all settings, all controllers that are off", "why_tests_cant": "The settings of all groups go through one static structure, so that each row depends on all groups shown before it; columns and buffers cut what does not fit.", "anchors": ["src/cgutil.c:cg_conf", "src/cgutil.c:cgroup_val", "src/cgutil.c:cgroup_memval", "src/cgutil.c:cgroup_uint64", "src/cgutil.c:cgroup_tree"]}
{"id": "C116", "title": "initctl works on the configuration that Finit uses", "statement": "Whatever main configuration file the kernel command line names, and whatever directory the configuration names with rcsd, initctl reads, shows, enables and edits services in that same file and directory.", "quantifier": "all names of the main file and of the directory, all configurations read at bootstrap", "why_tests_cant": "The names go from one program to another through a file that is written and read by different code at different times; names that one side takes as they are have a meaning for the other.", "anchors": ["src/conf.c:conf_saverc", "src/initctl.c:sourcerc", "src/finit.c:main", "src/conf.c:conf_init", "src/conf.c:conf_reload"]}
{"id": "C117", "title": "initctl ls shows all configuration files in columns that fit the terminal", "statement": "initctl ls shows every configuration file of a directory, each once and in order, in columns as wide as the longest name, and no row is longer than the terminal is wide.", "quantifier": "all lists of names, all widths of the terminal", "why_tests_cant": "Rows, columns and the width of the terminal depend on each other in a division that a few lists of names cannot settle; that some widths divide by zero shows only with a name as long as the terminal is wide.", "anchors": ["src/serv.c:do_list", "src/serv.c:calc_width"]}
{"id": "C118", "title": "Swap areas are used from bootstrap to shutdown", "statement": "After bootstrap exactly the swap areas that fstab(5) lists without noauto are in use, and at shutdown every swap area that it lists is turned off before the file systems that are left are unmounted.", "quantifier": "all tables of file systems, all names, all areas in use before", "why_tests_cant": "The areas in use depend on all lines of the table and on how a shell reads the names in it; two functions at either end of the system's life must agree.", "anchors": ["src/finit.c:fs_swapon", "src/sig.c:fs_swapoff", "src/exec.c:run_interactive"]}
{"id": "C119", "title": "The banner at bootstrap has the name of the system", "statement": "If no name was built in, the banner at bootstrap shows the name that the last PRETTY_NAME line of /etc/os-release gives, without quotes or anything else, and the name and version of Finit if there is none.", "quantifier": "all texts of the file with lines shorter than the buffer, all names", "why_tests_cant": "What is shown depends on every character and line of the file; a few files with quoted names do not show what happens to the others.", "anchors": ["src/helpers.c:release_heading", "src/finit.c:banner"]}
