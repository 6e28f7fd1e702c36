# Design: a machine-checked model of finit

Subject: troglobit/finit at the pinned commit in `/repo`.  The model is Lean 4
(4.33.0), under `lean/Verif/`.  Properties are listed in `properties.jsonl`, their
status in `MANIFEST.json`, mutation tests in `seeded/LOG.jsonl`.

## How the model is built

* One definition per C function, total and computable, with a comment citing file and
  lines.  Where a definition simplifies, the comment says so.
* C strings are `List Char` without NUL; a `Char` stands for one byte.  Fixed buffers
  are modelled by explicit truncation (`strlcpy`, `snprintf`), fixed-width integers by
  explicit wrap or range checks.
* Undefined behaviour (NULL dereference, read past the terminator, use after free,
  out-of-bounds store) is a distinct outcome, never a silent default.
* The kernel, the file system outside the condition directory, `exec`, the clock and
  configuration file contents are parameters: theorems quantify over all of them.
* Where the code does not have a property, the negation is proved with a concrete witness,
  and a theorem with suffix `_partial` is proved for the largest class of inputs or
  executions we found for which it does hold.

### Stand-alone parts (`Verif/*.lean`, namespace `Verif`)

String and table code is modelled directly as functions and compared with a separate small
specification in the property file:

| module | code |
|---|---|
| `CStr` | libc string functions on `List Char` |
| `Cond` | `src/cond.c`, `src/cond-w.c`: paths, generations, aggregate, affects |
| `Runlevels`, `Conf` | `src/conf.c` parsers: runlevels, conditions, env, rlimit, templates, override order |
| `Util`, `Log`, `PidFile`, `Exec` | `src/util.c`, `src/log.c`, `src/sig.c`, `src/pid.c`, `src/exec.c`, `src/tmpfiles.c` helpers |
| `Registry` | `src/svc.c`: find, new, jobs, `svc_parse_jobstr`, `svc_ifthen`, `svc_conflicts` |
| `Devmon`, `Cgroup` | `src/devmon.c`, `src/cgroup.c` book keeping |
| `Api` | `src/api.c` `api_cb` with its requests, answers and the bytes of `struct init_request` |
| `Line` | `src/service.c` `service_register` and its parsers: what a `service`, `task`, `run` or `sysv` line means |
| `Gc` | `src/svc.c` `svc_del`, `svc_gc` with 32/64-bit time arithmetic |

### The supervisor (`Verif/Sup/*.lean`, namespace `Verif.Sup`)

A `World` holds the service records (keyed by object identity, i.e. the C pointer), the
order of the service list, the condition store, the state of `sm_step`, `run_block_pid`, the
table of live children, timers, the deferred-free list, and a trace of observable effects.
All C functions are `World -> World` (or return a pair).  `Model.lean` has them one by one;
`handle E n ev w` is what happens on one external event (child exit, timer expiry, API
request, condition change, reload, worker tick, PID file event, readiness notification).

* Answers from the environment (fork result, does `/proc/PID` exist, exit code of a
  foreground script, is a binary present, contents of the configuration, ...) come from an
  oracle `Env` indexed by a query counter.  Theorems hold for every oracle.
* `service_step` is re-entrant: changing a condition steps other services, which change
  conditions, and so on; the C code has no bound on that recursion.  The model uses open
  recursion (`Rec`) closed with fuel.  Every theorem holds for every fuel, and running out of
  fuel is recorded in the world (`oof`), so nothing is hidden by truncation; only theorems
  that say that something does happen assume `oof = false`.
* `Reach E w`: `w` is reached from the start of the system by any sequence of events with
  any fuel.  All properties of the supervisor are statements about `Reach`.
* The trace (`w.trace`, newest first) is ghost state: pairs of the `Core` (everything but the
  trace) just before an effect and the effect: fork with role, signal with target and
  reason, collected child with status, change of state, registration, reading of the
  configuration, change of runlevel, shutdown, ...  The model never reads it.  Specifications
  in the property files are functions of the trace.  Further ghosts: `main k` (unreaped
  processes running the command of `k`), `zs` (stanzas applied to an object), `odd`, `mids`
  (`svc_set_state` calls in progress), `twice`, `reent`, `ub`.

How proofs go:

1. `Prim` (Prim.lean) is a relation of guarded atomic updates; `Refine*.lean`, `Settle.lean`
   show that every function of the model is a sequence of them (`Reach.steps`).  A guard
   holds in the state where the update happens.  `Soft` guards hold unless re-entrancy of a
   certain kind has been observed (`reent`).
2. `Reach.inv`, `Reach.inv_soft`, `Reach.inv_born`, `Reach.at`, `Later.inv`, `Reach.future`
   turn an invariant of `Prim` into a statement about all reachable worlds, about every point
   of the trace, or about everything after some point.
3. Views: `Prim.view`/`Prim.turn` (one service), `Prim.kids` (children), `Prim.sigs` (signals),
   `Prim.stChange` (states), `Prim.pub` (conditions), `Prim.ends` (exit statuses),
   `Prim.lists`/`Prim.bury` (deferred freeing) condense the ~50 constructors of `Prim` to
   what matters for a group of properties.
4. Control flow of `sm_step` and `service_step` beyond single updates (what is done when a
   whole event has been handled) is in `Settle.lean`, `Ctl.lean` (automaton `Move`/`Run`),
   `Levels.lean`, `Reload*.lean`, `Quiet.lean`.

## Trusted base

* Lean's kernel.  Axioms: every theorem in the manifest depends on at most `propext`,
  `Classical.choice` and `Quot.sound` (checked with `#print axioms` over the whole
  manifest).  No axioms of our own, no `sorry`, no `native_decide`, no `bv_decide`.
* The reading of C into Lean.  This is by hand; the citations are there to be checked.
* Semantics assumed of what is outside of the code:
  * libite: `string_compare`, `fexist`, `strlcpy`, TAILQ macros as documented; `waitpid` only
    returns children that exist; a pid given out by `fork` is above 1 and not that of an
    unreaped child; `kill` of an unreaped child does not fail with ESRCH;
  * Linux/x86-64: signal and rlimit numbers, `char` is signed, 32-bit `int`, 64-bit `long`
    and `time_t`; glibc: syslog name tables, `%m`, `strtol` family;
  * libuev refuses a negative timeout and delivers a timer only while it is armed.
* Not modelled: memory allocation failure, logging output, the progress display, the child
  side after `fork` (redirects, cgroups, `exec`), utmp, network interface set-up, plugins
  except pidfile and the effects of hooks on conditions, time except as an ordering of timer
  events (and in `Gc`).
* Simplifications of the supervisor model that could matter:
  * `if:` in the supervisor covers the service and condition forms of `svc_ifthen`;
  * the registry is taken as fixed while one job request of the API is carried out (`Api`);
  * `removed` is cleared and `levels` set a few lines earlier than in `service_register`
    (nothing reads them in between);
  * a nested `sm_step` that would set the runlevel to -1 gives 0 in the model; such runs have
    `reent = true` and are excluded wherever it matters;
  * lines with a bare `cgroup` option have a result of their own (`odd`) and are not followed
    further (`Line`);
  * calls made before an endless loop in the job parser are not listed (`Api`).

### What `reent = false` excludes

`reent` becomes true when `service_monitor` is entered while some `service_step`,
`svc_set_state` or `sm_step` is in progress (this happens when a signal is sent to a process
that no longer exists and was not our child, in the middle of a reload), or when a condition
change made by a service comes back to the same service while it is being stepped (cyclic
conditions).  Theorems that need it say so in their hypotheses and are marked partial.  Each
has an example execution beside it with `reent = false`.

## Per property

"proved" / "partial" as in the manifest.  Names of theorems are in the manifest.

| id | what is modelled | how it is proved, what is missing |
|----|----------|-------|
| C01 | `conf_parse_runlevels` as a fold over the characters with a bit mask | partial: False as stated only for a colon inside the list, which the code takes for runlevel S (C01_colon_means_S); proved for every other list, and that no other runlevel is ever allowed for every list. |
| C02 | condition directory as a map to generation or symlink; set, clear, one-shot, reload | proved: All histories of set/one-shot/clear/reload over coexisting names of at most 43 bytes, fewer than 2^32-1 reloads. The third theorem records a corner where the documentation is wrong. |
| C03 | `cond_get_agg` | proved: All stores, all strings. |
| C04 | `cond_affects` with its buffer | proved: All stored lists (stored lists are at most 191 bytes). |
| C05 | `mkcond`/`cond_path` truncation | partial: False for names longer than 43 bytes (counterexample proved); proved for all names that fit. |
| C06 | `conf_parse_cond` | partial: False as stated: a condition list of 192 bytes or more is dropped and a new service is then unconditional (C06_long_list_is_dropped). Proved for every list below that length. |
| C07 | all `kill()` sites of service.c and api.c | partial: Full claim refuted by two witnesses (kill(-1,SIGSTOP) after a failed fork; kill(0,sig) from initctl signal). Proved for all other signal reasons, and never pid 1 for plain services. C07_which_signals: the signal and the state of the service fit the reason it is sent for. For layered configurations (see C62) no assumption on re-entrancy is needed (theorem ending in _layered_partial). |
| C08 | `run_block_pid`, `service_start` | proved: All inputs and executions. |
| C09 | start effects and child table | partial: Full claim refuted (stop:script returning 1). Proved for registered plain services in executions without re-entrant stepping. For layered configurations (see C62) no assumption on re-entrancy is needed (theorem ending in _layered_partial). |
| C10 | `svc_enabled` at each start | proved: Every execution, every environment: each command start in the trace happens while the service is allowed in the current runlevel, not removed, not blocked and its if: statement holds. |
| C11 | WAITING branch of `service_step` | proved: Every execution, every environment. The second theorem follows each start back to the moment the service left WAITING. |
| C12 | `service_retry`, its counters and timer | partial: False of the code as stated: a service whose condition goes away while it waits for its restart delay is started again uncounted (C12_flapping_condition_is_not_counted), and a limit above 127 is never reached since the counter is a signed char. Proved for services that are neither respawn nor forking, limits 0..127, no failed starts, no re-entrancy: starts after a crash exceed the limit only by crashes let go because conditions were gone; a given-up service is marked crashed and is not started until someone intervenes. For layered configurations (see C62) no assumption on re-entrancy is needed (theorem ending in _layered_partial). |
| C13 | `initctl stop` and SVC_BLOCK_USER | partial: Proved for every execution after `initctl stop`, over all other events (exits, timers, condition and runlevel changes, reboot, requests about other services), without re-entrant stepping, until the stanza is registered again. Excluded: pid file events of the service itself, for which the claim is false of the code (second theorem: the pid file of a stopped forking service lifts the block). For layered configurations (see C62) no assumption on re-entrancy is needed (theorem ending in _layered_partial). |
| C14 | STOPPING and the kill timer | partial: Proved for plain services without ready script as long as the user does not ask for the stopping service again; the full claim is refuted by two reachable witnesses (a second stop request, and the ready script of the same service, cancel the kill timer). For layered configurations (see C62) no assumption on re-entrancy is needed (theorem ending in _layered_partial). |
| C15 | pids, pid files and the live table | partial: Full claim refuted for forking services. Proved for plain configurations. For layered configurations (see C62) no assumption on re-entrancy is needed (theorem ending in _layered_partial). |
| C16 | SIGSTOP/SIGCONT in `service_step` | partial: Proved for plain services unless their crash timer expires while they are paused; refuted for forking services: writing the pid file of a frozen service makes it RUNNING without SIGCONT, and it is then sent its halt signal while frozen. For layered configurations (see C62) no assumption on re-entrancy is needed (theorem ending in _layered_partial). |
| C17 | `svc_mark_dynamic`, removed, DEAD | partial: A removed service is never started: proved for all executions. That it never re-enters the life cycle is false when its retry timer is pending (counterexample proved); proved for all executions without such a timer. |
| C18 | `svc_conflicts` | partial: False for the second registered name of a conflict list (counterexample proved); proved for the first registered name. |
| C19 | `sm_step` shutdown branch | partial: Full claim refuted for shutdown with a time limit. Otherwise proved for plain services. |
| C20 | API and signal handlers in runlevel 0/6 | partial: Requests in runlevel 0/6 are proved to do nothing in every state. That nothing changes the runlevel, the set of services or their configuration from then on is proved for all executions without re-entrant stepping. For layered configurations (see C62) no assumption on re-entrancy is needed (theorem ending in _layered_partial). |
| C21 | `sm_step` RUNLEVEL_CHANGE/WAIT and the in_reload gate | partial: Proved for all executions without re-entrant stepping, from the moment on at which every service is given its turn under the new runlevel (and after a reload): a waiting service starts only when no process is left of any plain service that is not allowed. False of services started by the shutdown hook, which runs before the others are told to stop (witness). Not covered: forking/sysv/stop-script/notify services and services whose crash timer expires during the change. For tiered configurations (C63) the _tiered_ theorems speak of whole sequences of events and assume nothing about re-entrancy or limits. |
| C22 | `sm_check_bootstrap` | partial: Proved for all executions without re-entrant stepping in which the recursion of service_step/sm_step ends within the fuel of the model. For tiered configurations (C63) the _tiered_ theorems speak of whole sequences of events and assume nothing about re-entrancy or limits. |
| C23 | `nologin` | partial: False as stated: nologin() erases the file when coming from S or 1 even if the new runlevel is 0, 1 or 6. Proved: the exact rule for every change, and the property for executions that never go from S or 1 directly to 0, 1 or 6. For tiered configurations (C63) the _tiered_ theorems speak of whole sequences of events and assume nothing about re-entrancy or limits. |
| C24 | `conf_reload`, mark, register, sweep, `svc_clean_dynamic` | partial: Proved: at rest after bootstrap every registered service is protected or in the configuration as last read (executions without re-entrant stepping and within the fuel of the model); every service registered by the last reading stays unless its if: fails or it is for bootstrap only; a service is dropped only once stopped; every accepted stanza is registered with its settings on the same object; reading the configuration itself starts, stops and changes nothing else. Missing: that a removed service does stop in the end. To the letter the claim is false for bootstrap-only tasks, which are dropped though still configured. For tiered configurations (C63) the _tiered_ theorems speak of whole sequences of events and assume nothing about re-entrancy or limits. |
| C25 | registry of svc.c | partial: Proved without terminals, for names that fit and commands that do not change; C25_identity_can_clash gives a counterexample to each part of the full statement. |
| C26 | `tokstr`, `svc_parse_jobstr` | partial: Proved for tokens of the documented form; the full statement is false (endless loop on a huge number, unknown bare names reported as done). |
| C27 | gate and data handling of `api_cb` | partial: The gate is proved for every request, runlevel 0 and 6, any registry and any further requests on the connection: nothing but the permitted calls, and every known request outside the served set is closed without an answer. Termination of the data is proved for every request but PLUGIN_DEPS and (while debugging is on) those that log the name before terminating it; the full claim is refuted with a witness for both. |
| C28 | `conf_parse_env` | partial: Proved for keys that do not begin with "set"; C28_set_prefix_lost shows the full statement fails for those. |
| C29 | `instantiate` | partial: Proved for instance names without '%'; with one the inserted text is scanned again (witness). C29_buffer: the buffer allocated suffices for all that is written on the way, for every line and name. C29_names_partial: the name of an instance is found in the name of the file, for names of up to 64 characters; it is wrong for longer ones, for names with .conf in them, and below directories with '@' in their names (C29_names_full_false). |
| C30 | override logic of conf.c | partial: Override order between /lib/finit/system, /run/finit/system and /etc/finit.d is proved; files in enabled/ do not take part (witness). |
| C31 | `de_dotdot` | partial: Full statement false: "..", "/.." and "x/.." are left alone. |
| C32 | signal tables of sig.c and conf.c | proved: All inputs and executions. |
| C33 | `strtobytes` | partial: Full statement false: text after the suffix and the empty string are accepted, large sizes overflow. |
| C34 | `log_parse` | partial: Full statement false: a facility or a level alone sets the other part to -1 instead of keeping the default. |
| C35 | cgroup mark and sweep | partial: Proved for every history of configurations that does not name a protected group; naming one clears its protection, so the full statement is false |
| C36 | devmon reference counts | partial: Watched while referenced is proved; the second half is false, paths are never dropped |
| C37 | `pid_file_parse`, `pid_file_read` | partial: Full statement false: a path outside the run directory is moved into it, "pid" alone is refused, a long name reads beyond the buffer. |
| C38 | `conf_parse_rlimit` | proved: All inputs and executions. |
| C39 | `parse_killdelay`, `parse_sighalt` | proved: All inputs and executions. |
| C40 | `svc_ifthen` | partial: Exact for statements that fit the buffer and conditions not in flux; counterexamples for the rest. |
| C41 | `svc_del`, `svc_gc`, timers, script table, readiness sockets | partial: Time stamps and C arithmetic of svc_del and svc_gc: an object is freed only more than 2999 ms after its removal (the documented 3000 ms is cut short by rounding, witness), once, and not lost. Use after free: false of the code in three ways (witnesses: crashed service for runlevel S alone keeps its restart timer; ready script outliving its service; readiness socket of a forking service). Proved for all executions without re-entrancy in which no object is taken off the list in one of these situations, and for all configurations that rule them out. For layered configurations (see C62) no assumption on re-entrancy is needed (theorem ending in _layered_partial). |
| C42 | `svc_set_state` for run/tasks, `service_monitor` | partial: All reachable states: exactly one of success/failure is on in DONE and both are off otherwise. The one that is on is determined by the exit status on record at the transition, and for tasks without pre: script by how the process of the command actually ended. Missing: manual tasks and a killed pre: script, where the claim is false (two witnesses); names are assumed unique, short and without slash. For layered configurations (see C62) no assumption on re-entrancy is needed (theorem ending in _layered_partial). |
| C43 | `svc_set_state` for daemons | partial: All reachable states: at most one status condition of a daemon is on, and it is the status at the last change of state. Missing: agreement with a reason that changes while halted, where the claim is false (witness: a service given up on is never said to be crashed); names are assumed unique, short and without slash. For layered configurations (see C62) no assumption on re-entrancy is needed (theorem ending in _layered_partial). |
| C44 | the splitter of `run` | partial: Proved for command lines whose last word is not quoted; a quoted last word or a missing closing quote leaves the string, so the full statement is false |
| C45 | `write_arg` of tmpfiles.c | partial: Proved for escapes without the hex digits 8 and 9; those are not decoded and a trailing backslash reads on, so the full statement is false |
| C46 | answers of `api_cb` | partial: Start, stop, restart and reload requests: acknowledged exactly if every word was acted on, provided a word without an id is known. Runlevel and reload requests: acknowledged and carried out outside reserved runlevels. The full claim is refuted: reboot is answered with NACK though carried out, a runlevel request in 0/6 and a start of an unknown name are answered with ACK. Also: a query is answered with the first service of that name, or NACK, and a watchdog that registers replaces the earlier one, which is stopped and deleted just when it is the bundled (protected) one and another service. |
| C47 | `cond_set`, `cond_clear` return values | partial: For names that can coexist in the condition directory and fewer than 2^32-1 reloads; setting over a path blocked by a file, or with the generation file missing, is outside these hypotheses. |
| C48 | `service_register` as `parseLine` (option loop with the table of options, the split of the description) in Line.lean. | partial: Proved for lists of options of any length: order (C48_order_partial), the last one counts (C48_last_partial, except an `oncrash:` with an unknown argument), and meaning, defaults, command and arguments (C48_meaning_partial, C48_path_partial) if no word begins like an option by accident. The full claim is false (C48_full_false): a command such as `logger` is taken for the option `log` (C48_logger), and an unknown argument of `oncrash:` leaves the earlier one (C48_oncrash). |
| C49 | `parse_cmdline_args` as `cmdLoop`/`newArgs` in Line.lean. | partial: Proved for at most 62 words of less than 256 bytes, in which quoted text has single blanks, none next to the quotes, and no quote behind a blank. The full claim is false (C49_full_false): blanks in quotes are squeezed, a quote behind a blank ends the text, text in open quotes and words after the 62nd are lost. The expansion of words when the program is started is in C91. |
| C50 | all of `service_register` as `registerLine` in Line.lean, with null pointers, reads beyond a buffer and overflow as outcome `ub`. | partial: Proved for every line in which no delay is too long, `reload:` and `stop:` are given without a time, `log:` does not end in a key without a value, and names of PID files fit. The full claim is false (C50_full_false); each exclusion has a witness: `reload:5,...` and `stop:5,...` write through a null pointer, `log:...,prio` reads through one, long PID file names are read beyond the buffer, `restart_sec:2592000` overflows. |
| C51 | the comparison in `parse_cmdline_args` as `argsDiff` in Line.lean. | partial: Proved both ways for commands of less than 256 bytes and lines whose quotes are closed. The full claim is false (C51_full_false): with an open quote, or a longer command, the arguments count as changed at every reload. |
| C52 | `lineFill` in Line.lean: everything service_register stores, on a new object (`newSvc`) and on a known one. | partial: Proved for every line: settings in `SameLine` do not depend on what was known before, and those in `SameGiven` do not if the new line gives them. The full claim is false (C52_full_false): `pid:` that is taken away leaves the old file name, a user without a group the old group; the same holds for the description, cgroup settings and invalid values. Log settings are in C53. |
| C53 | `parse_log` as `parseLog` in Line.lean. | partial: Proved for options made of items in documented form: for a new service the settings are those in the option and no others (C53_new_partial), for a known one what is in the option is set and the rest is left (C53_any_partial). The full claim is false (C53_full_false): when `log:null` is replaced by a file the output is still thrown away (C53_sticky). |
| C54 | `registerLine` in Line.lean from the text of the line to the stored fields; the specification `Says` has one clause for each option. | partial: Proved for every list of options and every command that does not begin like an option: all settings are those of the line, and the documented defaults otherwise, as far as the texts have room in their buffers (C54_partial); the description (C54_desc). Scripts in quotes and runlevel lists with a colon are not covered. Without the room the claim is false (C54_full_false): a long name is cut (C54_name). |
| C55 | `nlParse`, `nlCallback` and `nlResync` in Netlink.lean on lists of attributes; the kernel, its events and its messages are a separate specification in Props/Netlink.lean. Induction over executions with messages in transit: what the unread messages will make of the conditions is what the kernel has. Not modelled: bytes of messages, multipath routes and routes in tables other than the main one. | partial: Interfaces: proved for any number of changes between reads (C55_links_partial). Default route: proved if each message is read before the next change and only the last default route is deleted (C55_route_partial). The full claim is false (C55_full_false): deleting one of two default routes takes the condition away (C55_two_routes), the conditions of an old name stay on after a rename (C55_rename), and after a loss of messages older ones are read after the resynchronisation (C55_lost). |
| C56 | `logrotate` and `flogit` in Rotate.lean, on files by number; both renaming loops are characterised by induction, and the log by an invariant over all inputs that lists the versions. Not modelled: failures of rename and truncate, NUL bytes, and a logit that is killed. | partial: Proved for all inputs if gzip works always or never, except for two versions with gzip (C56_partial); at least num times sz bytes are kept once anything is dropped (C56_enough). The full claim is false (C56_full_false): with two versions the compressed one is never replaced (C56_two), and the same happens when gzip stops working (C56_flaky). Text in the buffer of a logit that is killed is not covered. |
| C57 | `tmpfiles --create` in Tmpfiles.lean, field by field and type by type, on the file at the path. Cases per type; idempotence by showing that every type maps to a fixed point. Not modelled: parents, copies, patterns, failing system calls. | partial: Proved for all lines: fields with one blank before the last (C57_fields_partial), directories (C57_dir), kind and contents of files (C57_file_partial, C57_file_plain), links (C57_link_partial), nothing is lost without + (C57_kept), reading twice (C57_twice). The full claim is false (C57_full_false): more blanks become part of the last field (C57_blanks), files do not get the mode and group of their line, which lets everybody read the shipped /var/log/btmp (C57_mode), L+ does not replace a file (C57_over), devices with number 0 are not made (C57_minor). Missing: C, e, w, z, Z and --remove. |
| C58 | `conf_change_act`, `conf_changed` and the reading of events in Changes.lean, on files and links by path. Invariant over all histories: every path whose way has changed is noted, or an event about its way is still to be read. Simplified: directories are not links; the watch on finit.conf itself is not modelled. | partial: Proved for all histories if everything on the way to the file is in a watched directory, is not a template, has a name beginning with printable ASCII, there is no loop of links and the kernel's queue is never full (C58_partial); nothing is marked without a change (C58_quiet). The full claim is false (C58_full_false): a changed template is not noticed for its instances (C58_template), nor is the removal of a file that overrides one of the system (C58_override), a file whose name begins with another byte (C58_name), what comes after a looping link in the same read (C58_loop), or anything while the queue is full (C58_lost). |
| C59 | `parse_arg` and its parsers in Boot.lean. Every parameter is shown to change only settings it is about; then induction over the parameters. Not modelled: parsing of /proc/cmdline and the log level of the kernel. | partial: Proved for all lists of parameters (C59_last_partial, C59_default, C59_conds, C59_single, C59_never_down), but for a runlevel that is followed by a parameter finit does not know. There the claim is false (C59_full_false): any unknown word cancels the runlevel (C59_unknown). |
| C60 | Serv.lean models a tree of directories, files and links with path resolution and the system calls on it. Equations for each command on a plain layout, by induction over path components; the general theorems by cases over all outcomes. Not modelled: permissions, errors of the file system, the editor. | partial: Proved for all trees with /etc/finit.d a directory and names without '/': enabling, disabling of links that lead somewhere, both in turn, creating and deleting. That enable takes nothing away and that failed commands change nothing holds for any name. False are: only links are removed (C60_regular, C60_full_false), only in enabled/ (C60_static, C60_outside), every link can be removed (C60_stale), created files go to available/ (C60_create_static). |
| C61 | Sup/Await.lean: an invariant over all atomic updates following the crash (each update either keeps the wait or is preceded by an entry in the trace that ends it), established by following the crash through service_monitor and service_step. Props/Comeback.lean has the theorems and the three executions that refute the full claim. | partial: Proved for daemons and ttys that are not forking and without respawn and ready:script, in executions without re-entrant stepping: the crash sets the timer, and it stays set through all later events. Proved without these restrictions except respawn: what its expiry does. The full claim is false: /tmp/norespawn present at the moment of expiry (C61_norespawn_is_forever), a start that failed before the first crash (C61_delay_lost: the delay becomes 0 and no timer is set), and a ready:script that ends after the crash (C61_ready_script_cancels) leave a service halted for ever. For layered configurations (see C62) no assumption on re-entrancy is needed (theorem ending in _layered_partial). |
| C62 | Sup/Nest.lean, Sup/NestEv.lean: every function of the model is followed with an invariant on the stack of services being stepped: everything on it comes before the service about to be stepped. It can fail only after SIGHUP to a process that does not exist, which Sup/NestFree.lean excludes with the invariants of C15. Props/Nest.lean has the theorems, a check for finite configurations, an example with three layers, and the two executions that refute the full claim. | partial: The full claim is false: a service that waits for one of its own conditions is stepped inside its own step (C62_false_for_rings), and a forking service whose process is gone when SIGHUP is to be sent runs the state machine inside a step, whatever waits for what (C62_false_for_lost_processes). Proved for every configuration in which the services can be ordered so that each waits only for conditions of earlier ones, none is forking, sysv, has a stop:script or systemd/s6 notification, and what is for runlevel S alone is a run or task that is not sent SIGHUP. For such configurations the theorems of C07, C09, C12, C13, C14, C15, C16, C20, C41, C42, C43 and C61 are given again without any assumption on re-entrancy (theorems ending in _layered_partial). |
| C63 | Sup/Ends.lean, Sup/EndsEv.lean: for each function of the model a limit on nested calls is shown to be enough, by induction over the ranks of the services (a step of a service causes steps only of services of higher rank) and a measure on the states within the loop of one step and of the loop of sm_step. Props/Ends.lean has the theorem, a check for finite configurations, an example with `if:<...>`, and the refutation by induction over the limit. Sup/Limit.lean shows for every function that a larger limit gives the same result unless the smaller is hit (a small tactic there follows lets and calls; its proofs are checked by the kernel like all others). Props/Whole.lean: fuel-free relation `Yields` on sequences of events (total and functional for tiered configurations), with C21–C24 restated over it. | partial: The full claim is false: a running service whose line gets `if:<service/NAME/halted>` on itself is stopped by the reload, and when its process ends service_step goes from HALTED to WAITING and back for ever (C63_false_for_halted; the proof shows that no limit on the number of rounds is enough). Proved, for single events and for whole sequences of events, for every configuration in which the services can be ordered so that each waits for and tests only conditions of earlier ones (names of at most 42 characters), with a limit on the number of stanzas, none forking, sysv, with a stop:script or systemd/s6 notification, and what is for runlevel S alone a run or task not sent SIGHUP. The limit on nested calls that the model uses does not influence the result once it is large enough (part of the theorems). |
| C64 | Runparts.lean models the parsing of the line, the sorted directory, what is given to the shell for each entry and the sum of exit codes; the shell itself is modelled only for texts of plain words. Props/Runparts.lean proves that sorting by names is unique, and that the buffers suffice. | partial: Proved for names without characters that mean something to the shell (and with sysv: whenever those that begin with S or K go on with a digit), for sums of exit codes below 256, and for lines with at most one option. The full claim is false: with both options the second becomes a part of the directory's name, and no script is run (C64_both_options); so does the blank before a comment (C64_comment); a name with a blank is split by the shell (C64_blank); sysv runs files like Setup (C64_sysv); exit codes are added up modulo 256, two scripts that fail with 128 look like success (C64_sum). |
| C65 | Runparts.lean models plugin_run_hook as a function of whether plugins are loaded and conditions available, and the callbacks of plugins/hook-scripts.c. Props/Runparts.lean has a separate table of the documented names and environments, and an induction over the hook points. | partial: Proved for builds with a path for external plugins and all hook points but two. The full claim is false: scripts in hook/net/down and hook/svc/plugin are never run (C65_never); built without a path for external plugins, the scripts of all hooks up to the mounting of file systems are run twice (C65_twice). |
| C66 | Files.lean models glob(3) for *.conf (sorted in the C locale, no hidden files), the loop over files, parse_conf with include (the number of descriptors bounds the nesting) and the rcsd line. Props/Files.lean states the order as a relation on (directory, name), for which there is only one sorted list, and included files by equations that a function from files to lines has to satisfy. | partial: Proved for all file systems in which what has the name of a system file is a file, files do not include themselves, and the directory of the administrator does not begin like a system directory. The full claim is false: a directory (or dangling link) hides a system file (C66_hidden_by_directory); an rcsd line in any other file is obeyed at the next reload (C66_rcsd_later); a directory like /run/finit/system2 is taken for a system directory (C66_prefix_of_system); a file that includes itself is read as often as there are file descriptors (C66_loop). A file with an @ in its path and no .conf after it is not read at all (C66_at_sign). |
| C67 | Umount.lean models is_protected, the iterator that restarts after each success, both loops and umount(2) (the topmost mount of a directory; fails if it is held, or something was mounted below or over it later). Props/Umount.lean defines what stays by recursion from the last mount to the first and shows by an invariant that the loops leave exactly that. | partial: Proved for all tables: what is left (C67_left_partial: nothing mounted on /dev/.static/dev), that each file system is unmounted once (C67_once), the order between those in each other's way (C67_order), and that each tmpfs goes before swap if all of type tmpfs are called tmpfs (C67_tmpfs_partial). The full claim is false: siblings are unmounted in the order of mounting (C67_reverse_false), a tmpfs of another name is unmounted only after swap is turned off since its name is tested instead of its type (C67_tmpfs_false), and the entry dev/.static/dev lacks its slash, so what is mounted there is unmounted (C67_static_false). |
| C68 | Kevent.lean models init, the message loop on bytes (splitting at zeros, the buffer of 1024 bytes), is_ac, check_online with atoi, and the condition. Creating and removing the file of the condition is assumed to work. Props/Kevent.lean has the power supplies as the kernel sees them, the messages it sends as texts with any other strings in between, and an invariant that ties the counter to the number of supplies on line. | partial: Proved for all sequences in which each message about a mains supply tells of one that goes on or off line, no supply comes or goes, messages are shorter than the buffer, and the condition is off when the daemon starts. The full claim is false: each further message that a supply is on line is counted, so the condition stays on when it is unplugged (C68_counted_twice); supplies removed while on line stay counted (C68_removed); the condition is not cleared when the daemon is started again (C68_restarted); a message of 1024 bytes or more makes it write one byte behind its buffer (C68_overflow). |
| C69 | Down.lean models reboot_main from the options as getopt_long(3) returns them, the request with the check for reserved runlevels, do_reboot and its timer, the signal sent after each request, requests for runlevels, and the state machine sm_step as far as runlevels go; whether services have all stopped is a parameter of each step. That stopping services ends at all is C63 and others. Props/Down.lean has an invariant that ties the variable `halt` to the last request and a rank that shows that the loop of sm_step ends. | partial: Proved for all sequences without timeouts in which halt is not called while a reload or a change of runlevel waits for services. The full claim is false: init tells each program that its request has failed (do_reboot returns 1), so it sends a signal too, which for halt means power off and is obeyed if init is still waiting (C69_halt_powers_off); suspend -t makes the system halt when the time is over (C69_suspend_halts); the timer of a request that was taken back still fires (C69_taken_back); timeouts of more than 2147483 s overflow an int (C69_overflow); a request for runlevel 0 during bootstrap is dropped if the kernel command line has a runlevel (C69_ignored). |
| C70 | Reap.lean models do_iterate_proc on the bytes of /proc/PID/cmdline (fgets(3), strstr(3)), the two callbacks, the polls of do_wait and the signals do_shutdown sends. Which processes there are at each moment is the environment. Props/Reap.lean says what a program's name is and who is to be left alone. | partial: Proved for all processes whose names are shorter than 1023 bytes, have no newline, and have the words gdbserver and initctl only if they are these programs, and, for what is left, when no process is started after SIGTERM is sent. The full claim is false: a daemon in a directory like /opt/initctl-tools is never ended (C70_path), and a process started after the last poll is not either (C70_late). |
| C71 | Tty.lean models tty_parse_args word by word, tty_canonicalize over a stat(2) parameter, tty_atcon with its static state, the tty part of service_register including the joined line, parse_cmdline_args (shared with Line.lean) and svc_find_by_tty, tty_exec and the options of getty's main. Which programs and devices there are is the environment. Props/Tty.lean says which words are options, what names a device and what the line says. | partial: Proved: which service the line gives, on which device it runs, which program, with which options and arguments, for all lines whose words are no programs and whose device's path is shorter than 32 bytes; with another getty; for all consoles; and reading it again. The full claim is false: the program gets its arguments without its own name before them, so the built-in getty takes the speed for the terminal and the type for the speed (C71_shifted, C71_manual, C71_manual_console), prints its usage if there is no speed (C71_usage), and gets all right but passenv when passenv is given (C71_passenv). A TERM that is a program is run as getty (C71_program), long device names are cut and make a service more at each reload (C71_long), so do lines with notty (C71_bare), and the list of consoles can be left half read (C71_stale). |
| C72 | Plugin.lean models load_one, plugin_register, check_plugin_depends and plugin_find on the list of plugins, with dlopen(3) as a table of what each shared object registers; opening an object again runs nothing. Recursion has fuel, which is proved to suffice. Props/Plugin.lean proves an invariant with the stack of plugins being loaded, each needed by the next. | partial: Proved for a plugin directory in which each file registers the plugin of its name: loading ends whatever depends on what, each is registered once, and after those it depends on unless these depend on it as well; hook callbacks follow that order. The full claim is false: a plugin that is loaded as a dependency before its file is read makes the plugin registered last lose its handle (C72_handle; C72_handles_partial says when all are right), one in an external directory read later is not waited for (C72_later), nor one whose file has another name (C72_file), names are cut at .c wherever it is (C72_cut), and names of fewer than three bytes are read before their beginning (C72_early; C72_names). |
| C73 | Sulogin.lean models fgets(3) on both files, get_passwd with strsep(3), and main with the bytes typed on the console as a list and crypt(3) as a parameter. Props/Sulogin.lean has the files as lists of lines and typing a password as a relation; loops over lines and input are proved by induction. Not modelled: terminal settings, the shell itself. | partial: Proved when root is first in /etc/shadow, or has the password in /etc/passwd and it does not begin with x. The full claim is false: the test for the name in get_passwd is inverted and looks at the wrong half of the line, so that the password that counts is that of the first user in /etc/shadow (C73_first). If that is a locked system user anybody who presses enter gets a root shell though root has a password (C73_locked); the password of another user opens it (C73_other); a comment on the first line makes sulogin crash (C73_crash); and a password in /etc/passwd that begins with x is not used (C73_x). Without files nobody gets in (C73_nofiles); without an entry for root the first user of shadow gets in (C73_noroot). |
| C74 | Mounts.lean models fs_mount_all with fsck, fs_remount_root, fs_swapon and fs_finalize as the list of actions taken, given the table, what is mounted, and how each command ends. Props/Mounts.lean proves what one pass does by induction over the lines and then the passes. Not modelled: mount flags, lines longer than the buffer given to getmntent_r(3). | partial: Proved for tables of plain lines when no check puts something right. Without restriction on the table: the order of checks (C74_order), that nothing is mounted after a failed check (C74_failed), and which common file systems are mounted (C74_common). The full claim is false: after a check that ended with 1, errors corrected, no further pass is made, the unchecked file systems are mounted all the same and the root file system stays read-only (C74_corrected, C74_skips), against the comment in the code; a check that is killed counts as success (C74_killed); pass numbers above 9, PARTUUID, PARTLABEL (C74_unchecked), /dev/root on a partition (C74_devroot) and directories mounted twice (C74_hidden) are not checked; of a label with a blank something else is (C74_blank). The mode of pseudo terminals, meant to be 0620, is written in decimal and so 0400 (see C74_skips). What is mounted and which swap is used is C74_mounted. |
| C75 | Initctl.lean models the command functions on top of apiRequest of Api.lean, so that both ends of the socket are in the model: the calls made in the supervisor and the exit status of the program. Props/Initctl.lean takes what C26 and C46 say of one request to any number of arguments by induction. | partial: Proved for arguments of the documented form. The full claim is false: with -n the first argument that means no service ends the program with exit status 0 and the arguments after it are not seen to (C75_stops_early); initctl -q status prints a table and exits with 0 though none of several instances runs, a name that begins with a digit is taken for a job number, and initctl ident also prints services whose name only begins the argument, or that have another id (C75_misleading). Left out of the theorems: arguments of 368 characters and more, and those with words of another form (see C26). |
| C76 | Json.lean models the printing functions as functions to strings. Props/Json.lean states the grammar of RFC 8259 as mutually inductive relations between texts and values (JText, JElems, JMembers) and derives each text in it. That texts are not JSON is shown by invariants of the grammar: an automaton that follows quotes and backslashes, the characters allowed, and where a string ends. | partial: Proved for services whose strings have no quotes, backslashes and control characters, whose command, environment and conditions fit their buffers, and if there is something to print; initctl -j ls is characterised exactly. The full claim is false: a quote in a description is not escaped, and a list of conditions that does not fit its 512 bytes is cut inside a string (C76_broken); initctl -j cond show without -p has escape sequences in it as soon as a condition is not met (C76_show_escape); if there is nothing to list nothing at all is printed (C76_empty); initctl -j ls begins with a comma if the first directory has no files but a later one has (C76_ls), and initctl -j ls DIR prints a member of an object inside an array (C76_lsdir). |
| C77 | UserCond.lean models the commands on the CondStore of Cond.lean, with the events of inotify and what the plugin makes of them. Props/UserCond.lean shows by induction what a command does to each path, and by induction over histories, with the invariant that all files in the directory are symlinks, that the last command counts. | partial: Proved for names of up to 39 characters; that other files are safe is proved for all arguments. The full claim is false: with a name of 40 and more characters initctl cond set and initctl cond get say that the condition is set, but Finit cuts the path and goes on to see it as off (C77_long); initctl cond clear usr/ with no condition set removes the directory, and from then on none can be set (C77_dir, if erase() of libite is remove(3)); initctl cond get usr/pid/sshd tells the state of pid/sshd (C77_get_nested). Fewer than 2^32 - 2 reloads. |
| C78 | Getty.lean models get_logname() on sequences of characters and failed reads, the arguments of login, and the speed through the tables of stty.c. Props/Getty.lean proves by induction over the input what is skipped and what becomes the name. | partial: Proved for names that fit the buffer, with the exact set of inputs on which login is run and on which the buffer is overrun. The full claim is false: a line of as many characters as the buffer has room for makes getty write a NUL behind the buffer (C78_long); no speed given is ever set, since the number of bauds is passed where a code of speed_t is expected (C78_speed); on a line that has hung up getty goes on reading for ever (C78_hangup). After a NUL in a line the rest is lost (C78_only). |
| C79 | Getty.lean models parseln() with the table of escapes, get_val() on the list of keys and values, and the reading of lines by fgets(). Props/Getty.lean describes a text as a list of pieces and proves by induction what is shown; C79_all shows that every text is such a list but for a backslash at its end. | partial: Proved for systems without os-release, for Alpine Linux, and for issues that use only keys which os-release has. The full claim is false: if os-release has no ID, or not the key of an escape that is used, such as PRETTY_NAME, getty shows memory that was never written (C79_undefined, C79_default); a backslash at the very end is not shown (C79_backslash). Values are cut at the size of their fields. Reading os-release into keys and values (fparseln and the quotes) is not modelled. |
| C80 | Environ.lean models conf_reset_env(), parse_env() with the list of names that are to be unset, the two ways to read a set line, and source_env(). Props/Environ.lean proves by induction over lines, and over histories of configurations, what each variable is; the meaning of a line is that of C28. | partial: Proved for lines whose meaning does not depend on the time they are read. The full claim is false: a variable Finit was started with is gone for good once a configuration has set it and a later one does not (C80_lost); names that begin with set are cut at bootstrap but not at a reload, and SET in capitals is known only at bootstrap (C80_boot); blanks in quotes of an env: file are squeezed (C80_blanks). wordexp() is a parameter. |
| C81 | Priv.lean models the child in service_fork() with getpwnam(), getgrnam() and what the kernel grants as parameters. Props/Priv.lean takes the meaning of a whole line from C48 and C52 and proves what rights the child ends up with, for all earlier states of the service. | partial: Proved for known users and groups with names of up to 15 characters and numbers below 2^31, given with a group. The full claim is false: a service whose user is unknown (C81_unknown), has a number of 2^31 or more (C81_large) or may not be changed to (C81_refused) runs with all rights of Finit; a name of 16 characters such as systemd-timesync is cut and so unknown (C81_long); with @user alone a new service stays in Finit's group (C81_group) and one known before in its old group (C81_stale); supplementary groups are always kept (C81_groups). |
| C82 | Bootclean.lean models clean() with nftw() as the C library has it: depth first, links followed, no directory entered twice. Props/Bootclean.lean proves by induction on the depth, with the number of directories not entered yet as the bound, exactly which entries are left. | partial: Proved for trees of any depth in which no link leads to a directory, where there are not two mounts on a directory to be cleaned. The full claim is false: nftw() is called without FTW_PHYS and so follows links, so that a link a user leaves in /tmp makes Finit remove the files of the directory it leads to (C82_link). Of file systems mounted over one another the first counts, so files that are kept across boots stay if a tmpfs is below (C82_mounts), and /run/lock is itself removed where /var/lock leads to it (C82_lock). |
| C83 | Rtc.lean models saving and restoring with times as seconds. Props/Rtc.lean proves by induction over the events since the last save what time it is after the next boot. | partial: Proved with a clock on the board (C83_board_partial) and, in all cases, that the clock is valid after a boot (C83_sane). The full claim is false: line 198 of rtc.c makes every restore from the file fail, so without a clock on the board the time is always reset to the earliest valid date (C83_never, C83_full_false), although what was saved could be read (C83_file_partial). What was saved is lost when the clock is not valid at the next save (C83_lost), and an empty TZ is unset (C83_zone). How dates are written is a parameter; settimeofday() is granted. |
| C84 | Seed.lean models setup() and save() with seeds told apart by a number. Props/Seed.lean proves by induction over histories that numbers of seeds given are distinct. | partial: Proved for histories in which a seed is saved between any two boots. The full claim is false: the file is not replaced when it has been used, so after a power loss the same seed is given again with full credit (C84_twice), and a seed made of the time of day counts for 4096 bits (C84_guess). |
| C85 | Notify.lean models both ends: the name bound by the parent, the variable of the child, sd_notify and service_notify_cb. Props/Notify.lean proves by induction over all events that messages reach the service of the process and no other. | partial: Proved both ways for messages sent after the socket is bound, for the first 31 bytes of them: C85_ready_partial and C85_only; C85_own for the separation of services and C85_s6 for pipes, where more after the line feed in the same read hides it (C85_s6_more). The full claim is false: the parent binds the socket after the fork, so what a fast child sends is lost (C85_race); a line after byte 31 is not seen and a longer line cut there counts (C85_cut); anyone can send (C85_anyone); sd_pid_notify does not handle the variable as documented (C85_unset). |
| C86 | Modload.lean models modules_load(), load() and fgetval(), with a null pointer read as an outcome. Props/Modload.lean describes files by items, proves that each line does what its item says, and that the text of each task is understood by registerLine (Line.lean) as that task. | partial: Proved through both parsers for files of comments, settings with values and modules with parameters (words without quotes and tabs, lines that fit the buffer): C86_partial. Numbers are distinct if none is set (C86_numbers, C86_unique). The full claim is false: a number set in one file is used again in the next (C86_twice). Also proved: a setting without a value crashes Finit (C86_crash), a blank after `set noindex` makes it useless and `noindex` on a line of its own, as the comment in the source describes it, is loaded as a module (C86_noindex), and after a tab parameters become part of the name (C86_tab). |
| C87 | Output.lean models redirect(), fredirect(), lredirect() and fallback_logger(), the log line of parse_static(), and main(), parse_prio(), parse_level() and logit() of logit.c with getopt(3), openlog(3) and syslog(3) of glibc. Props/Output.lean runs the arguments built by lredirect() through the model of logit and compares with what the configuration says; the lines of a log file are handed to C56. | partial: Proved for Finit's own logit: files for counts up to 99 (C87_file_partial, with C56 C87_kept), the system log for facilities other than kern and levels other than none (C87_syslog_partial), null and console (C87_where), the arguments given to sysklogd's logger (C87_sysklogd), and the log line (C87_settings_partial, C87_settings_agree). The full claim is false: counts over 99 are cut to two digits (C87_count). Also proved: priorities that are no facility.level lose all output (C87_prio), none becomes mail.emerg (C87_none), kern becomes user (C87_kern), the file is forgotten without logit (C87_fallback), services that notify as systemd's need a program that may be missing (C87_missing), a console that does not open is ignored (C87_noopen), settings survive the removal of their line (C87_reload). |
| C88 | Cgset.lean models cgset(), group_init(), cgroup_leaf_init(), cgroup_service(), group_name() and conf_parse_cgroup() with a list of what is created and written as the result; parse_cgroup() is that of Line.lean. Props/Cgset.lean writes settings as text, with one to many in a word, and proves which files are written; climbing is the number of `..` among the components of a path. | partial: Proved: exactly the settings given are written, in order, for existing and new groups (C88_settings_partial, C88_created, C88_values), from the text of a cgroup line (C88_line, C88_name) and of a service's option (C88_option); processes are moved last and to the right place (C88_service, C88_root, C88_self); a setting whatever its text goes up at most once, and only if what is before its first dot is empty or ends in a slash (C88_confined_partial). The full claim is false: `../cgroup.subtree_control:-cpu` is written one level up (C88_escape). Also proved: settings removed stay in force (C88_stale, C88_kept), 128 to 143 characters are cut (C88_cut), the group of a service is not checked (C88_group), services of one file share a group and override each other's limits (C88_shared, C88_override), values with a blank are lost in cgroup lines (C88_blank). |
| C89 | Watchdog.lean models loop() and main() of watchdog.c one system call at a time, with flags set by the signal handler in between, sleep(3) ended by signals, the kernel's device and time in milliseconds. Props/Watchdog.lean has invariants with the time since the last sign of life for each place in the program; being late is a condition on the execution. | partial: Proved for a daemon that is up to 3.75 s late: no reset without SIGPWR (C89_safe), the timer is stopped exactly when it has ended (C89_stopped), which is soon after SIGTERM (C89_handover); no reset within two seconds of SIGPWR (C89_grace_partial); reset within ten seconds of a SIGTERM that finds it waiting (C89_reboot_partial). The full claim is false: SIGPWR just before sleep(3) is not noticed until SIGTERM, and then the timer is stopped (C89_race). Also proved: the timeout of one second after SIGPWR resets the board while file systems are unmounted (C89_early), without it that is ten seconds later (C89_ten), SIGTERM just before sleep(3) is answered too late (C89_slow), and halted boards are reset (C89_halt). |
| C90 | Utmp.lean models utmp_set and its callers, pututline(3) as in the GNU C library, and the rotation of utmp. Props/Utmp.lean proves that the records are exactly the last ones of each key, with an invariant over all sequences of events. | partial: Proved for terminals that differ in their first four characters: one record each, of the last process (C90_terminals_partial). For all: none for terminals not used (C90_nobody), one of the last change of runlevel, that decodes to both levels (C90_level), one of the boot (C90_boot), all of the history in order (C90_history). The full claim is false: /dev/ttyS0 and /dev/ttyS1 overwrite each other (C90_collide), and the end of a process never changes utmp (C90_ended) and does not tell the terminal in wtmp (C90_nameless). Also proved: the shutdown takes the place of the runlevel (C90_halt), and rotation leaves utmp empty after 267 terminals (C90_lost). |
| C91 | Launch.lean models the child of service_start from svc->args to execvp, exec_runtask, the arguments of tty_exec and the stop of SysV scripts; wordexp(3) as a state machine over characters, with what is not modelled as an outcome of its own. Props/Launch.lean follows the words through it, by induction over text and words, and joins this with C49. | partial: Proved from the text of the line (with C49) to execvp: services are started with exactly the words meant (C91_service) or, if these do not fit, not at all (C91_refused). Tasks, for words without characters special to the shell and at most 1023 characters in all (C91_task_partial); terminals, unless a word is empty or two vanish (C91_tty_partial); SysV scripts with plain words (C91_sysv_stop_partial). The full claim is false (C91_full_false): quoted text of a task is read again by a shell, which divides it and takes it for commands (C91_code), long texts are cut and run (C91_cut), terminals get the last word twice if two vanish (C91_stale), SysV scripts are started with the quotes and stopped without (C91_sysv, C91_sysv_quotes), and with 62 arguments beyond the array. Also proved: an operator inside a plain word keeps everything from being started (C91_operator); %n is the descriptor at the end of a word (C91_fd_partial), not with three digits (C91_fd_three), and divides words (C91_fd_middle). Missing: patterns, home directories, command substitution. |
| C92 | Iter.lean models the position that api_cb keeps for all clients, the list of services, the list of removed ones and the time after which they are freed, as a state machine over the requests of clients and changes. Props/Iter.lean has the invariant that what is before the position was sent and the rest is not, by induction over the events. | partial: Proved if no other client asks meanwhile and the service to be sent next is not removed (C92_listing_partial); if nothing happens meanwhile, exactly the list is sent (C92_quiet). The full claim is false (C92_full_false): two clients at the same time share one position and each misses services (C92_two); if the next service is removed, the position goes over to the list of removed services and the rest is not sent (C92_removed); and if it is freed before the client asks, init reads memory it has given back, in every state (C92_freed). |
| C93 | Coldplug.lean models the scan of the files nftw(3) comes to, with fgets(3) in pieces of 255 bytes, the list of aliases, and the loop of forks with the generation of the process that goes on. Props/Coldplug.lean relates this to the lines of the files, by induction over lines, files and aliases. | partial: Proved for files with lines of at most 254 characters on systems with modprobe, counting each failed fork (C93_all_partial). The full claim is false (C93_full_false): without modprobe each child returns from the function that was to start it and goes on as a second init while its parent waits for it, so the boot goes on in a process as many generations below PID 1 as there are aliases (C93_missing, C93_forked); and of a longer alias only the beginning is used, as with many input devices (C93_long). Missing: the walk of nftw(3) itself. |
| C94 | Hotplug.lean models the events of /dev with the queue of inotify(7), do_tty, and what service_step does to a terminal until nothing changes. Props/Hotplug.lean has the invariant that relates what was read, what is left to be read and what is, by induction over the events. | partial: Proved for devices in /dev itself, commands given when there is nothing left to do, and devices of stopped terminals that stay as they are (C94_partial). The full claim is false (C94_full_false): if a terminal is started before init reads that its device has appeared, the event ends its getty, which is not started again (C94_early, in every system); a terminal stopped by the user gets a getty again when its device is put back (C94_stopped); devices in directories of /dev are not watched, so terminals on them never get a getty when they appear (C94_directory). |
| C95 | Hostname.lean models set_hostname with realloc(3) and fgets(3), the host lines, and the pointer that is kept from one reading to the next. Props/Hostname.lean proves what fgets(3) reads for every text and carries it through every history. | partial: Proved for files with a line feed after the name, host lines without blanks after the name, and no empty file before (C95_partial). The full claim is false (C95_full_false): without a line feed at the end of the file the last byte of the name is lost, for every name and every history (C95_cut); blanks after the name in a host line become part of it (C95_blanks); an empty file drops the name, and when the configuration is read again memory that was never written is taken for the name (C95_empty). |
| C96 | Sysctl.lean models the order of glob(3), the command in its buffer of 160 bytes, and what the shell makes of it when it is cut. Props/Sysctl.lean states the rule of sysctl(8) on the files alone and compares it with the settings in the order they are made. | partial: Proved for keys of /etc/sysctl.conf, and for keys set in one directory when no name is in two directories; keys set nowhere stay as they are (C96_partial). The full claim is false (C96_full_false): the directories are read one after the other with the vendor's after those of the administrator and no file replaces another, so the vendor's value is set (C96_vendor for all files, C96_override for every name, key and pair of values); of a path of more than 140 bytes another file or none is read (C96_long); a path of 138 bytes gives a command the shell refuses (C96_syntax). |
| C97 | Console.lean models what is written for a step. Props/Console.lean has a terminal as specification, with sequences, return, line feed and wrapping, and proves what it shows by induction over the text. | partial: Proved for texts that leave 7 columns, or 8 in the classic style, have at most 219 bytes, or are on terminals of at most 260 columns in the classic style (C97_partial). The full claim is false (C97_full_false): a longer text goes on in the next line, where the outcome then is, and the line of the step shows it as pending for ever (C97_wrap); cprintf writes as many bytes as vsnprintf(3) wanted to, so memory behind the text is written to the console, for texts of 220 bytes (C97_long) and in the classic style for every text on a terminal of more than 260 columns (C97_wide); with fewer than 8 columns in the classic style the loop in pad goes on for 2^64 turns (C97_narrow). |
| C98 | Telinit.lean models telinit, initctl runlevel and the request in api_cb. What sm_runlevel does then is in the model of the supervisor (C07, C20). | partial: Proved: a word that names a runlevel is done as asked, during the start of the system too if the command line has no runlevel; words that do not start like a runlevel, and any word while the system goes down, change nothing (C98_partial). The full claim is false (C98_full_false): only the first byte of a word counts, so that `init 10` and `init stop` go to runlevel 1 with success (C98_first); initctl succeeds for words that are no runlevel and while the system goes down (C98_silent); during the start of the system a request is lost, with success, if there was a runlevel on the command line (C98_cmdline). |
| C99 | Syscond.lean models the directories, the watches, the queue of the kernel and the steps of plugins/sys.c, with others acting in between. The proof is an invariant: each condition that services were not told of as it is has an event, a scan or an update that waits, or its directory has; a measure shows that Finit gets done. | partial: Finit always gets done (C99_ends). Proved by an invariant over all interleavings, if no directory is removed, no file is renamed to its name and directories are made only in those that are watched by then, that services were then told of each condition as it is; conditions that no service needs are removed by then, so that a service that comes to need one with a later reload does not see it (C99_partial; names that start with a dot are left out, glob(3) does not find them). The full claim is false (C99_full_false): of two directories made one in the other only the outer one is watched and what is set in the inner one is never noticed (C99_nested); a directory made, removed and made again while its events wait is for a while not watched, and a condition cleared then stays on for services (C99_remade); a file that is renamed to be a condition is never noticed (C99_moved). |
| C100 | Devcond.lean models devmon.c over the files, watches and queue of Syscond.lean, with the generations of conditions. C100_partial is an invariant on what the last event that waits says of each device; C100_present and C100_reload follow from a frame lemma over all later actions that leave the device alone. | partial: Proved for all interleavings if services that need a device are read before it is there, there is no reload, no directory is removed and devices are made in directories that are watched by then (C100_partial). The full claim is false (C100_full_false): a device that is there before a service needs it never turns its condition on (C100_present); after a reload every device condition stays in flux, so that its services stay paused, until the device is made anew (C100_reload), as nothing asserts dev/ again; the scan of a new directory looks for dev/snd/dev/snd/timer instead of dev/snd/timer, so that a device made before its directory is watched is missed (C100_subdir). |
| C101 | Pidwatch.lean models pidfile_update_conds(), svc_find_by_pidfile() and pid_file_read(); each event comes with the text found when it is dealt with, so that every delay is covered. C101_own_partial is an invariant: no other service has the file or the process of this one. | partial: Proved for all sequences of events if no file of others names the process of the service and its file is not renamed (C101_own_partial); if Finit makes the PID file then files of others change nothing, even if they name the process and unless they are made again before their removal is seen (C101_managed). The full claim is false (C101_full_false): a file of anybody, such as /run/lock/x.pid, that names the process turns the condition on, becomes the PID file of the service, and turns the condition off when it is removed (C101_stranger), as a service is looked up by the number in the file first and svc_has_pidfile() is not true of pid:!file; from then on the real PID file is ignored (C101_lost); a file removed and made again in time turns off the condition of any service (C101_race); a file renamed is not missed (C101_renamed). |
| C102 | Logmsg.lean models the loop over the words in main() with the position and the unsigned room left, a write behind the buffer being a distinct outcome; options, levels and syslog(3) are those of Output.lean. Proved by an invariant that relates position, room and text to the words done. | partial: Proved for messages of up to 510 bytes that do not begin with '<' (C102_logged_partial). The full claim is false (C102_full_false): snprintf() returns the length it would have needed, so that pos runs past the end and len wraps around; the stack is written to exactly if the words before the last one take more than 512 bytes (C102_overflow). Otherwise the first 511 bytes are logged (C102_cut). A level at the start of the message replaces the one asked for (C102_level). |
| C103 | Wdhello.lean models the pointer wdog: api.c sets it, conf.c sets it at boot, sig.c uses it, and svc.c gives objects back. Proved by invariants over all actions. | partial: Proved for all sequences if the daemon is running and in the configuration when the system goes down (C103_told_partial); no memory is used after it was given back if no daemon is given back while it is the watchdog daemon (C103_sound). The full claim is false (C103_full_false): a daemon that is stopped before, as one that is not to run in runlevels 0 and 6 is, has PID 0, so that SIGPWR goes to the process group of Finit (C103_group); if its line is removed then wdog points to memory that was given back (C103_dangling). |
| C104 | Postscript.lean models the environment and the text of a post script, the status that is kept when something of a service ends, and the part of sh that runs commands separated by semicolons. Proved by induction over the commands and over all that ended. | partial: Proved for all exit statuses and the signals 1 to 31, for scripts of any number of commands if there is no environment file, and of one command if there is one (C104_told_partial); all other variables are those of Finit and of the file (C104_environment). The text never exceeds its buffer. The full claim is false (C104_full_false): with an environment file the script is run with exec, so that only its first command is ever run (C104_first); a real-time signal has no name (C104_realtime); a pre script that ended last is reported as if it were the process (C104_pre). |
| C105 | Verif/Pidnews.lean models the directories and files below /run, the watches and queue of inotify(7), and pidfile_init(), pidfile_callback(), pidfile_handle_dir(), pidfile_add_path() with its test on the text of the path, pidfile_scandir(), iwatch_add() and iwatch_del(). Others act between any two events. Proved by invariants on the numbers of directories and watches, on the events that wait for a directory, and on what was told and waits to be told of a file. | partial: Proved for all sequences of acts: files in /run itself are reported completely and in order (C105_partial), those in a directory of /run made since from when its making was read for as long as it is there (C105_dir). The full claim is false (C105_full_false): a file made before Finit has read that its directory was made is passed over, as the scan meant for this asks about a doubled path with an event that is ignored (C105_early); directories that were there before Finit began to watch (C105_boot), that are renamed to /run (C105_moved), or that are further down (C105_deep) are not watched at all. |
| C106 | Verif/Netlevel.lean models sm_runlevel() on top of the turns of sm_step() from Verif/Down.lean, each turn with its own answer to whether services have yet to stop, and networking() as the list of what it does. Not modelled: what ifup or the script do; the first test of networking(), which cannot be true. Proved by an invariant over the turns of the state machine and one over all acts. | partial: Proved for all sequences of acts: outside rescue mode the network is up in all runlevels but S, 1, 6 and 0 and not in S (C106_partial), it is left alone in rescue mode (C106_rescue), and what bringing it up means (C106_means). The full claim is false (C106_full_false): in runlevel 1 it is always up, even after booting into it (C106_single); it is taken down for shutdown only if nothing else was under way and services have yet to stop (C106_down), never when a reload or another change of runlevel was waited for (C106_pending). It is brought up before services are stopped, not after (C106_before). |
| C107 | Verif/Cmdout.lean models run() with a prefix for the log, and run_interactive(): the loop with fgets(3), chomp() on what is a string up to the first NUL, the status that the child passes on, the copy of the temporary file with the values of fread(3) and fwrite(3), the order on the console. Not modelled: the layout of the marks (C97), what logit() makes of a line, the split of commands without a prefix (C44). | partial: Proved for all commands: lines of less than 255 bytes are logged one by one, up to 1024 bytes of standard error are shown, and [ OK ] means the status 0 for commands that exit (C107_partial); nothing of standard output is lost whatever its lines (C107_logged). The full claim is false (C107_full_false): the loop that copies standard error compares the 1 that fwrite(3) returns with the number of bytes, so it ends after 1024 bytes (C107_err); longer lines are logged in pieces (C107_long); a command that was killed gets [ OK ] if the shell replaced itself by it (C107_killed); only the status 1 gets [FAIL] (C107_marks). |
| C108 | Verif/Statusline.lean models svc_status(), exit_status() into ok[48], status() into buf[96], the table of code2str(), and the macros of <sys/wait.h>; sig2str() is in Verif/Util.lean. The tables are compared with the names of sysexits.h and signal(7) for all 256 exit statuses and 64 signals by evaluation in the kernel, everything else by case analysis. | partial: Proved for all: what ran and ended is shown as it ended, but for six exit statuses of those started by hand (C108_partial); whatever is cut, exit statuses and signals can be told from one another (C108_number); words fit the list (C108_list) and colours do not change the text (C108_colour). The full claim is false (C108_full_false): a service that never ran is shown with status=0/SUCCESS (C108_never), and a buffer of 48 bytes is too small for the exit statuses 2 to 6 and 69 of those started by hand (C108_cut). |
| C109 | Verif/Execorder.lean models conf_save_exec_order() with its static variable and the text it writes, compose_cmdline(), and the calls in service_start() and service_monitor() with run_block_pid. Proved by a simulation, by induction over the sequence of events, between the code and a specification that has no prepared text. | partial: Proved for all sequences: whatever is in the file is right, in order, and each result is that of the service on the same line (C109_right), after the heading (C109_head); all of it is there if everything can be started, command lines fit and bootstrap does not end while a run is waited for (C109_partial); nothing is added later (C109_over). The full claim is false (C109_full_false): the result -1 of a start that failed is the value that means that the start is yet to come, so failed starts are never recorded (C109_fail). |
| C110 | Verif/Sizes.lean models memsz() and uptime() with their buffers and the columns of cgroup_tree(). What is shown is compared with a reader of decimal numbers with a unit; proved by arithmetic. | partial: Proved for all: sizes are shown to a tenth of their unit if less than 1020/1024 of a unit is left over (C110_partial), in columns if there are also less than 1000 units (C110_column); times have all parts and fit (C110_time). The full claim is false (C110_full_false): 1020/1024 and more are shown as .10, which reads as a tenth (C110_carry); columns with 1000 units and more have no unit (C110_unit); and nothing at all is shown for a time of 0 (C110_now). |
| C111 | Verif/Top.lean models cgroup_memuse() and cgroup_cpuload() line by line with their buffers, strncmp() by prefix, and strtoull() at a fixed place; numbers have 64 bits, shares are taken as exact where the code uses float. Proved by induction over the lines and over the looks. | partial: Proved for all contents: the memory shown is that of anon, slab and sock, and the files are file, whatever other lines there are (C111_partial), so stacks of the kernel, page tables and per-CPU memory count for nothing (C111_kernel); the share of the memory is in whole percents (C111_share), that of a processor in whole processors (C111_cpu), and groups that use less are always shown with 0 (C111_idle). The full claim is false (C111_full_false). |
| C112 | Verif/Levelstr.lean models runlevel_string() with its loop and buffer and the column of show_status(); the parser is that of C01 (Verif/Runlevels.lean). What is shown is defined by a terminal that knows bold. Proved by induction over the loop. | proved: The full claim is proved: C112_shown for all sets of runlevels, C112_again for all that a line of a configuration can say. |
| C113 | Verif/Kmod.lean models kmod_exists(), kmod_load() and the module line of parse_static(); /proc/modules and what a command does to the system are parameters. The shell is known for words without special characters. Lines are those of a grammar with any blanks and comments. Proved by induction over the lines of the configuration and over /proc/modules. | partial: C113_full_false: the kernel lists snd-pcm as snd_pcm, so a module with a dash in its name is loaded again. C113_partial and C113_boot prove the claim for modules listed under the name of the line, names of up to 63 characters, and lines that fit; C113_loaded is for lines of /proc/modules of any length. C113_cut: a line that is too long is cut, not refused. |
| C114 | Verif/Cgtree.lean models cgroup_tree() without its figures, as recursion over a tree of groups, and pid_cmdline(). What is to be shown is defined by recursion over a tree with the arguments of the processes. Proved by mutual induction over trees and lists of trees. | partial: C114_full_false: with 24 rows, also the default if there is no terminal, the processes of the 25th service are not shown; C114_hidden says which are not. C114_partial proves the claim for trees whose numbers of groups on every way add up to less than the rows, C114_sound that nothing is wrong, twice or out of order in any case. C114_ends: no process is drawn as the last one if one of them is a kernel thread. C114_lines: groups are drawn with the right lines. |
| C115 | Verif/Cgconf.lean models cg_conf() with its static structure, the functions that read the files, and the columns of cgroup_tree(); sizes are those of C110. The settings are numbers, limits and sets of CPUs, and the files are what the kernel writes for them. Proved by induction over the groups. | partial: C115_full_false: a group without a setting is shown with that of the group shown before; C115_stale says for which settings. C115_min: of a reservation of a million bytes or more only the first six digits are shown. C115_partial proves the claim for any number of groups that have all settings, none of them longer than its column of six. |
| C116 | Verif/Initrc.lean models conf_saverc(), sourcerc() with fparseln(3) as its manual says, and the order of conf_init(), conf_saverc() and conf_reload() at bootstrap; rcsd lines are those of Verif/Files.lean and fgetval() that of Verif/Modload.lean. The directory that is to be used is specified as that of the last rcsd line. Proved by induction over the characters and lines. | partial: C116_full_false: with an empty name (finit.config= on the kernel command line) initctl crashes before it does anything, C116_crash. C116_comment: a name with # is cut by initctl. C116_late: an rcsd line in a file other than the main one is used by Finit, but .initrc was written before it was read, so initctl works on another directory. C116_partial proves the claim for names that are not empty, begin with neither = nor a quote and have no # or backslash, if rcsd lines are only in the main file. |
| C117 | Verif/Lscols.lean models calc_width(), the number of columns and the loop of do_list() as text. The table is specified as rows of names joined by blanks. Proved by induction over the names. | partial: C117_full_false, C117_crash: if there are two files and the name of one does not leave two columns, initctl is ended by a division by zero, also with -j. C117_over: with short names rows are longer than the terminal, twelve names of six characters take 94 columns of 80. C117_all proves that otherwise all names are shown in order with columns as wide as the longest; C117_partial that rows fit if the longest name is not too short for the width, C117_terminal that ten characters are enough for 80 columns. |
| C118 | Verif/Swap.lean models fs_swapon() and fs_swapoff() with their buffers, the splitting into words by the shell, and what swapon(8) and swapoff(8) do with their arguments; a command with other characters does anything. Proved by induction over the table. | partial: C118_full_false: an area with the option noauto is turned on at bootstrap. C118_blank: a name with a blank (\040 in the table) is taken for two names. C118_cut: a name of 248 characters is turned on, but cut when it is turned off. C118_boot and C118_halt say for all tables with names of up to 247 characters that mean nothing else to a shell exactly what is in use; C118_partial is the claim for such tables without noauto. That file systems are unmounted after it is in Verif/Umount.lean (C67). |
| C119 | Verif/Heading.lean models release_heading() with its buffer and fgets(3). The lines that give a name are specified by their form. Proved by induction over the lines. | partial: C119_full_false, C119_word: a name that is not in quotes is shown with the end of its line, which breaks the banner. Of several lines the first counts, not the last as for a shell. C119_partial proves the claim for names in quotes if no line before it gives one; C119_quoted says that whatever is between the quotes is shown, so that escapes are shown as they are. C119_none: without file or line it is the name of Finit. |
