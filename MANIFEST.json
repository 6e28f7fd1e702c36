{
 "claims": [
  {
   "property": "C01",
   "status": "partial",
   "theorems": [
    "Verif.C01_runlevel_lists_partial",
    "Verif.C01_no_other_runlevel",
    "Verif.C01_colon_means_S"
   ],
   "note": "False as stated only for a colon inside the list, which the code takes for runlevel S (C01_colon_means_S); proved for every other list, and that no other runlevel is ever allowed for every list."
  },
  {
   "property": "C02",
   "status": "proved",
   "theorems": [
    "Verif.C02_cond_state_is_function_of_history",
    "Verif.C02_reload_effect",
    "Verif.C02_oneshot_after_set_goes_flux"
   ],
   "note": "All histories of set/one-shot/clear/reload over coexisting names of at most 43 bytes, fewer than 2^32-1 reloads. The third theorem records a corner where the documentation is wrong."
  },
  {
   "property": "C03",
   "status": "proved",
   "theorems": [
    "Verif.C03_aggregate_is_meet",
    "Verif.C03_empty_is_on"
   ],
   "note": "All stores, all strings."
  },
  {
   "property": "C04",
   "status": "proved",
   "theorems": [
    "Verif.C04_affects_iff_member"
   ],
   "note": "All stored lists (stored lists are at most 191 bytes)."
  },
  {
   "property": "C05",
   "status": "partial",
   "theorems": [
    "Verif.C05_no_alias_partial",
    "Verif.C05_long_names_alias"
   ],
   "note": "False for names longer than 43 bytes (counterexample proved); proved for all names that fit."
  },
  {
   "property": "C06",
   "status": "partial",
   "theorems": [
    "Verif.Sup.C06_conditions_kept_partial",
    "Verif.Sup.C06_conditions_checked_partial",
    "Verif.Sup.C06_long_list_is_dropped"
   ],
   "note": "False as stated: a condition list of 192 bytes or more is dropped and a new service is then unconditional (C06_long_list_is_dropped). Proved for every list below that length."
  },
  {
   "property": "C07",
   "status": "partial",
   "theorems": [
    "Verif.Sup.C07_signal_targets_partial",
    "Verif.Sup.C07_never_pid_one_partial",
    "Verif.Sup.C07_sigstop_to_everyone",
    "Verif.Sup.C07_signal_to_own_group",
    "Verif.Sup.C07_which_signals",
    "Verif.Sup.C07_never_pid_one_layered_partial"
   ],
   "note": "Full claim refuted by two witnesses (kill(-1,SIGSTOP) after a failed fork; kill(0,sig) from initctl signal). Proved for all other signal reasons, and never pid 1 for plain services. C07_which_signals: the signal and the state of the service fit the reason it is sent for. For layered configurations (see C62) no assumption on re-entrancy is needed (theorem ending in _layered_partial)."
  },
  {
   "property": "C08",
   "status": "proved",
   "theorems": [
    "Verif.Sup.C08_nothing_starts_during_run"
   ],
   "note": ""
  },
  {
   "property": "C09",
   "status": "partial",
   "theorems": [
    "Verif.Sup.C09_one_main_process_partial",
    "Verif.Sup.C09_one_main_process_plain_partial",
    "Verif.Sup.C09_second_instance",
    "Verif.Sup.C09_one_main_process_layered_partial"
   ],
   "note": "Full claim refuted (stop:script returning 1). Proved for registered plain services in executions without re-entrant stepping. For layered configurations (see C62) no assumption on re-entrancy is needed (theorem ending in _layered_partial)."
  },
  {
   "property": "C10",
   "status": "proved",
   "theorems": [
    "Verif.Sup.C10_started_only_when_enabled"
   ],
   "note": "Every execution, every environment: each command start in the trace happens while the service is allowed in the current runlevel, not removed, not blocked and its if: statement holds."
  },
  {
   "property": "C11",
   "status": "proved",
   "theorems": [
    "Verif.Sup.C11_leaves_waiting_only_with_conditions_on",
    "Verif.Sup.C11_every_start_passed_the_gate"
   ],
   "note": "Every execution, every environment. The second theorem follows each start back to the moment the service left WAITING."
  },
  {
   "property": "C12",
   "status": "partial",
   "theorems": [
    "Verif.Sup.C12_restarts_limited_partial",
    "Verif.Sup.C12_no_start_after_giving_up_partial",
    "Verif.Sup.C12_given_up_is_crashed_partial",
    "Verif.Sup.C12_limit_above_127_never_given_up",
    "Verif.Sup.C12_flapping_condition_is_not_counted",
    "Verif.Sup.C12_restarts_limited_layered_partial"
   ],
   "note": "False of the code as stated: a service whose condition goes away while it waits for its restart delay is started again uncounted (C12_flapping_condition_is_not_counted), and a limit above 127 is never reached since the counter is a signed char. Proved for services that are neither respawn nor forking, limits 0..127, no failed starts, no re-entrancy: starts after a crash exceed the limit only by crashes let go because conditions were gone; a given-up service is marked crashed and is not started until someone intervenes. For layered configurations (see C62) no assumption on re-entrancy is needed (theorem ending in _layered_partial)."
  },
  {
   "property": "C13",
   "status": "partial",
   "theorems": [
    "Verif.Sup.C13_user_stop_lasts_partial",
    "Verif.Sup.C13_pidfile_lifts_user_stop",
    "Verif.Sup.C13_user_stop_lasts_layered_partial"
   ],
   "note": "Proved for every execution after `initctl stop`, over all other events (exits, timers, condition and runlevel changes, reboot, requests about other services), without re-entrant stepping, until the stanza is registered again. Excluded: pid file events of the service itself, for which the claim is false of the code (second theorem: the pid file of a stopped forking service lifts the block). For layered configurations (see C62) no assumption on re-entrancy is needed (theorem ending in _layered_partial)."
  },
  {
   "property": "C14",
   "status": "partial",
   "theorems": [
    "Verif.Sup.C14_stop_escalates_partial",
    "Verif.Sup.C14_second_stop_cancels_escalation",
    "Verif.Sup.C14_ready_script_cancels_escalation",
    "Verif.Sup.C14_stop_escalates_layered_partial"
   ],
   "note": "Proved for plain services without ready script as long as the user does not ask for the stopping service again; the full claim is refuted by two reachable witnesses (a second stop request, and the ready script of the same service, cancel the kill timer). For layered configurations (see C62) no assumption on re-entrancy is needed (theorem ending in _layered_partial)."
  },
  {
   "property": "C15",
   "status": "partial",
   "theorems": [
    "Verif.Sup.C15_attribution_partial",
    "Verif.Sup.C15_pid_files_are_believed",
    "Verif.Sup.C15_attribution_layered_partial"
   ],
   "note": "Full claim refuted for forking services. Proved for plain configurations. For layered configurations (see C62) no assumption on re-entrancy is needed (theorem ending in _layered_partial)."
  },
  {
   "property": "C16",
   "status": "partial",
   "theorems": [
    "Verif.Sup.C16_frozen_continues_partial",
    "Verif.Sup.C16_forking_stays_frozen",
    "Verif.Sup.C16_forking_halted_frozen",
    "Verif.Sup.C16_frozen_continues_layered_partial"
   ],
   "note": "Proved for plain services unless their crash timer expires while they are paused; refuted for forking services: writing the pid file of a frozen service makes it RUNNING without SIGCONT, and it is then sent its halt signal while frozen. For layered configurations (see C62) no assumption on re-entrancy is needed (theorem ending in _layered_partial)."
  },
  {
   "property": "C17",
   "status": "partial",
   "theorems": [
    "Verif.Sup.C17_removed_never_started",
    "Verif.Sup.C17_dead_stays_dead_partial",
    "Verif.Sup.C17_dead_service_comes_back"
   ],
   "note": "A removed service is never started: proved for all executions. That it never re-enters the life cycle is false when its retry timer is pending (counterexample proved); proved for all executions without such a timer."
  },
  {
   "property": "C18",
   "status": "partial",
   "theorems": [
    "Verif.Sup.C18_conflict_holds_back_partial",
    "Verif.Sup.C18_second_conflict_is_ignored"
   ],
   "note": "False for the second registered name of a conflict list (counterexample proved); proved for the first registered name."
  },
  {
   "property": "C19",
   "status": "partial",
   "theorems": [
    "Verif.Sup.C19_shutdown_last_partial",
    "Verif.Sup.C19_time_limit"
   ],
   "note": "Full claim refuted for shutdown with a time limit. Otherwise proved for plain services."
  },
  {
   "property": "C20",
   "status": "partial",
   "theorems": [
    "Verif.Sup.C20_requests_ignored",
    "Verif.Sup.C20_signal_only",
    "Verif.Sup.C20_requests_start_nothing",
    "Verif.Sup.C20_no_return_partial",
    "Verif.Sup.C20_no_return_layered_partial"
   ],
   "note": "Requests in runlevel 0/6 are proved to do nothing in every state. That nothing changes the runlevel, the set of services or their configuration from then on is proved for all executions without re-entrant stepping. For layered configurations (see C62) no assumption on re-entrancy is needed (theorem ending in _layered_partial)."
  },
  {
   "property": "C21",
   "status": "partial",
   "theorems": [
    "Verif.Sup.C21_waiting_starts_after_stops_partial",
    "Verif.Sup.C21_shutdown_hook_starts_early",
    "Verif.Sup.C21_waiting_starts_after_stops_tiered_partial"
   ],
   "note": "Proved for all executions without re-entrant stepping, from the moment on at which every service is given its turn under the new runlevel (and after a reload): a waiting service starts only when no process is left of any plain service that is not allowed. False of services started by the shutdown hook, which runs before the others are told to stop (witness). Not covered: forking/sysv/stop-script/notify services and services whose crash timer expires during the change. For tiered configurations (C63) the _tiered_ theorems speak of whole sequences of events and assume nothing about re-entrancy or limits."
  },
  {
   "property": "C22",
   "status": "partial",
   "theorems": [
    "Verif.Sup.C22_bounded_partial",
    "Verif.Sup.C22_not_early_partial",
    "Verif.Sup.C22_bounded_tiered_partial",
    "Verif.Sup.C22_not_early_tiered_partial"
   ],
   "note": "Proved for all executions without re-entrant stepping in which the recursion of service_step/sm_step ends within the fuel of the model. For tiered configurations (C63) the _tiered_ theorems speak of whole sequences of events and assume nothing about re-entrancy or limits."
  },
  {
   "property": "C23",
   "status": "partial",
   "theorems": [
    "Verif.Sup.C23_rule_partial",
    "Verif.Sup.C23_exactly_partial",
    "Verif.Sup.C23_full_false",
    "Verif.Sup.C23_boot_to_single_user",
    "Verif.Sup.C23_rule_tiered_partial",
    "Verif.Sup.C23_exactly_tiered_partial"
   ],
   "note": "False as stated: nologin() erases the file when coming from S or 1 even if the new runlevel is 0, 1 or 6. Proved: the exact rule for every change, and the property for executions that never go from S or 1 directly to 0, 1 or 6. For tiered configurations (C63) the _tiered_ theorems speak of whole sequences of events and assume nothing about re-entrancy or limits."
  },
  {
   "property": "C24",
   "status": "partial",
   "theorems": [
    "Verif.Sup.C24_removed_are_gone_partial",
    "Verif.Sup.C24_listed_stay",
    "Verif.Sup.C24_removed_once_stopped",
    "Verif.Sup.C24_stanza_is_registered",
    "Verif.Sup.C24_reading_only_marks",
    "Verif.Sup.C24_full_false",
    "Verif.Sup.C24_removed_are_gone_tiered_partial"
   ],
   "note": "Proved: at rest after bootstrap every registered service is protected or in the configuration as last read (executions without re-entrant stepping and within the fuel of the model); every service registered by the last reading stays unless its if: fails or it is for bootstrap only; a service is dropped only once stopped; every accepted stanza is registered with its settings on the same object; reading the configuration itself starts, stops and changes nothing else. Missing: that a removed service does stop in the end. To the letter the claim is false for bootstrap-only tasks, which are dropped though still configured. For tiered configurations (C63) the _tiered_ theorems speak of whole sequences of events and assume nothing about re-entrancy or limits."
  },
  {
   "property": "C25",
   "status": "partial",
   "theorems": [
    "Verif.C25_unique_partial",
    "Verif.C25_jobs_not_zero",
    "Verif.C25_jobs_partial",
    "Verif.C25_lookup_partial",
    "Verif.C25_identity_can_clash"
   ],
   "note": "Proved without terminals, for names that fit and commands that do not change; C25_identity_can_clash gives a counterexample to each part of the full statement."
  },
  {
   "property": "C26",
   "status": "partial",
   "theorems": [
    "Verif.C26_each_once_partial",
    "Verif.C26_query_partial",
    "Verif.C26_hang_and_false_success",
    "Verif.C26_reads_behind_the_string"
   ],
   "note": "Proved for tokens of the documented form; the full statement is false (endless loop on a huge number, unknown bare names reported as done)."
  },
  {
   "property": "C27",
   "status": "partial",
   "theorems": [
    "Verif.C27_only_permitted",
    "Verif.C27_others_refused",
    "Verif.C27_magic",
    "Verif.C27_terminated_partial",
    "Verif.C27_terminated_false"
   ],
   "note": "The gate is proved for every request, runlevel 0 and 6, any registry and any further requests on the connection: nothing but the permitted calls, and every known request outside the served set is closed without an answer. Termination of the data is proved for every request but PLUGIN_DEPS and (while debugging is on) those that log the name before terminating it; the full claim is refuted with a witness for both."
  },
  {
   "property": "C28",
   "status": "partial",
   "theorems": [
    "Verif.C28_env_partial",
    "Verif.C28_bad_lines",
    "Verif.C28_set_prefix_lost"
   ],
   "note": "Proved for keys that do not begin with \"set\"; C28_set_prefix_lost shows the full statement fails for those."
  },
  {
   "property": "C29",
   "status": "partial",
   "theorems": [
    "Verif.C29_instantiate_partial",
    "Verif.C29_no_instance",
    "Verif.C29_name_with_percent",
    "Verif.C29_buffer",
    "Verif.C29_names_partial",
    "Verif.C29_names_full_false"
   ],
   "note": "Proved for instance names without '%'; with one the inserted text is scanned again (witness). C29_buffer: the buffer allocated suffices for all that is written on the way, for every line and name. C29_names_partial: the name of an instance is found in the name of the file, for names of up to 64 characters; it is wrong for longer ones, for names with .conf in them, and below directories with '@' in their names (C29_names_full_false)."
  },
  {
   "property": "C30",
   "status": "partial",
   "theorems": [
    "Verif.C30_override_partial",
    "Verif.C30_enabled_does_not_override"
   ],
   "note": "Override order between /lib/finit/system, /run/finit/system and /etc/finit.d is proved; files in enabled/ do not take part (witness)."
  },
  {
   "property": "C31",
   "status": "partial",
   "theorems": [
    "Verif.C31_dotdot_removed_partial",
    "Verif.C31_clean_path_unchanged",
    "Verif.C31_dotdot_can_stay"
   ],
   "note": "Full statement false: \"..\", \"/..\" and \"x/..\" are left alone."
  },
  {
   "property": "C32",
   "status": "proved",
   "theorems": [
    "Verif.C32_name_to_number",
    "Verif.C32_config_name_to_number",
    "Verif.C32_unknown_rejected",
    "Verif.C32_number_to_name"
   ],
   "note": ""
  },
  {
   "property": "C33",
   "status": "partial",
   "theorems": [
    "Verif.C33_sizes_partial",
    "Verif.C33_not_every_bad_size_rejected"
   ],
   "note": "Full statement false: text after the suffix and the empty string are accepted, large sizes overflow."
  },
  {
   "property": "C34",
   "status": "partial",
   "theorems": [
    "Verif.C34_priority_partial",
    "Verif.C34_rejected_keeps_defaults",
    "Verif.C34_default_lost",
    "Verif.C34_authpriv_loose"
   ],
   "note": "Full statement false: a facility or a level alone sets the other part to -1 instead of keeping the default."
  },
  {
   "property": "C35",
   "status": "partial",
   "theorems": [
    "Verif.C35_groups_partial",
    "Verif.C35_groups_any",
    "Verif.C35_protection_lost"
   ],
   "note": "Proved for every history of configurations that does not name a protected group; naming one clears its protection, so the full statement is false"
  },
  {
   "property": "C36",
   "status": "partial",
   "theorems": [
    "Verif.C36_watched_partial",
    "Verif.C36_never_named",
    "Verif.C36_never_dropped",
    "Verif.C36_not_dropped",
    "Verif.C36_count"
   ],
   "note": "Watched while referenced is proved; the second half is false, paths are never dropped"
  },
  {
   "property": "C37",
   "status": "partial",
   "theorems": [
    "Verif.C37_pid_forms_partial",
    "Verif.C37_pid_file_confined",
    "Verif.C37_some_forms_fail",
    "Verif.C37_long_name_reads_beyond_buffer"
   ],
   "note": "Full statement false: a path outside the run directory is moved into it, \"pid\" alone is refused, a long name reads beyond the buffer."
  },
  {
   "property": "C38",
   "status": "proved",
   "theorems": [
    "Verif.C38_rlimit"
   ],
   "note": ""
  },
  {
   "property": "C39",
   "status": "proved",
   "theorems": [
    "Verif.C39_killdelay",
    "Verif.C39_sighalt"
   ],
   "note": ""
  },
  {
   "property": "C40",
   "status": "partial",
   "theorems": [
    "Verif.C40_conf_partial",
    "Verif.C40_cond_partial",
    "Verif.C40_cond_reevaluated",
    "Verif.C40_own_time",
    "Verif.C40_stanza_partial",
    "Verif.C40_flux_and_long_lists"
   ],
   "note": "Exact for statements that fit the buffer and conditions not in flux; counterexamples for the rest."
  },
  {
   "property": "C41",
   "status": "partial",
   "theorems": [
    "Verif.Gc.C41_grace_partial",
    "Verif.Gc.C41_grace_cut_short",
    "Verif.Gc.C41_freed_once",
    "Verif.Gc.C41_freed_at_last",
    "Verif.Sup.C41_use_after_free",
    "Verif.Sup.C41_three_ways",
    "Verif.Sup.C41_no_use_after_free_partial",
    "Verif.Sup.C41_plain_configuration_partial",
    "Verif.Sup.C41_no_use_after_free_layered_partial"
   ],
   "note": "Time stamps and C arithmetic of svc_del and svc_gc: an object is freed only more than 2999 ms after its removal (the documented 3000 ms is cut short by rounding, witness), once, and not lost. Use after free: false of the code in three ways (witnesses: crashed service for runlevel S alone keeps its restart timer; ready script outliving its service; readiness socket of a forking service). Proved for all executions without re-entrancy in which no object is taken off the list in one of these situations, and for all configurations that rule them out. For layered configurations (see C62) no assumption on re-entrancy is needed (theorem ending in _layered_partial)."
  },
  {
   "property": "C42",
   "status": "partial",
   "theorems": [
    "Verif.Sup.C42_outcome_partial",
    "Verif.Sup.C42_matches_exit_partial",
    "Verif.Sup.C42_killed_setup_is_success",
    "Verif.Sup.C42_manual_keeps_outcome",
    "Verif.Sup.C42_matches_exit_layered_partial"
   ],
   "note": "All reachable states: exactly one of success/failure is on in DONE and both are off otherwise. The one that is on is determined by the exit status on record at the transition, and for tasks without pre: script by how the process of the command actually ended. Missing: manual tasks and a killed pre: script, where the claim is false (two witnesses); names are assumed unique, short and without slash. For layered configurations (see C62) no assumption on re-entrancy is needed (theorem ending in _layered_partial)."
  },
  {
   "property": "C43",
   "status": "partial",
   "theorems": [
    "Verif.Sup.C43_status_is_told_partial",
    "Verif.Sup.C43_at_most_one_partial",
    "Verif.Sup.C43_agrees_partial",
    "Verif.Sup.C43_gives_up_untold",
    "Verif.Sup.C43_status_is_told_layered_partial"
   ],
   "note": "All reachable states: at most one status condition of a daemon is on, and it is the status at the last change of state. Missing: agreement with a reason that changes while halted, where the claim is false (witness: a service given up on is never said to be crashed); names are assumed unique, short and without slash. For layered configurations (see C62) no assumption on re-entrancy is needed (theorem ending in _layered_partial)."
  },
  {
   "property": "C44",
   "status": "partial",
   "theorems": [
    "Verif.C44_split_partial",
    "Verif.C44_unquoted_safe",
    "Verif.C44_reads_outside"
   ],
   "note": "Proved for command lines whose last word is not quoted; a quoted last word or a missing closing quote leaves the string, so the full statement is false"
  },
  {
   "property": "C45",
   "status": "partial",
   "theorems": [
    "Verif.C45_decoded_partial",
    "Verif.C45_stays_inside",
    "Verif.C45_hex_and_trailing_backslash",
    "Verif.C45_second_file_cut"
   ],
   "note": "Proved for escapes without the hex digits 8 and 9; those are not decoded and a trailing backslash reads on, so the full statement is false"
  },
  {
   "property": "C46",
   "status": "partial",
   "theorems": [
    "Verif.C46_jobs_partial",
    "Verif.C46_runlevel_partial",
    "Verif.C46_false_answers",
    "Verif.C46_find",
    "Verif.C46_watchdog"
   ],
   "note": "Start, stop, restart and reload requests: acknowledged exactly if every word was acted on, provided a word without an id is known. Runlevel and reload requests: acknowledged and carried out outside reserved runlevels. The full claim is refuted: reboot is answered with NACK though carried out, a runlevel request in 0/6 and a start of an unknown name are answered with ACK. Also: a query is answered with the first service of that name, or NACK, and a watchdog that registers replaces the earlier one, which is stopped and deleted just when it is the bundled (protected) one and another service."
  },
  {
   "property": "C47",
   "status": "partial",
   "theorems": [
    "Verif.C47_set_announces_change",
    "Verif.C47_clear_announces_change"
   ],
   "note": "For names that can coexist in the condition directory and fewer than 2^32-1 reloads; setting over a path blocked by a file, or with the generation file missing, is outside these hypotheses."
  },
  {
   "property": "C48",
   "status": "partial",
   "theorems": [
    "Verif.C48_order_partial",
    "Verif.C48_last_partial",
    "Verif.C48_meaning_partial",
    "Verif.C48_path_partial",
    "Verif.C48_logger",
    "Verif.C48_oncrash",
    "Verif.C48_full_false"
   ],
   "note": "Proved for lists of options of any length: order (C48_order_partial), the last one counts (C48_last_partial, except an `oncrash:` with an unknown argument), and meaning, defaults, command and arguments (C48_meaning_partial, C48_path_partial) if no word begins like an option by accident. The full claim is false (C48_full_false): a command such as `logger` is taken for the option `log` (C48_logger), and an unknown argument of `oncrash:` leaves the earlier one (C48_oncrash)."
  },
  {
   "property": "C49",
   "status": "partial",
   "theorems": [
    "Verif.C49_args_partial",
    "Verif.C49_blanks",
    "Verif.C49_nested",
    "Verif.C49_open",
    "Verif.C49_many",
    "Verif.C49_full_false"
   ],
   "note": "Proved for at most 62 words of less than 256 bytes, in which quoted text has single blanks, none next to the quotes, and no quote behind a blank. The full claim is false (C49_full_false): blanks in quotes are squeezed, a quote behind a blank ends the text, text in open quotes and words after the 62nd are lost. The expansion of words when the program is started is in C91."
  },
  {
   "property": "C50",
   "status": "partial",
   "theorems": [
    "Verif.C50_partial",
    "Verif.C50_reload",
    "Verif.C50_stop",
    "Verif.C50_log",
    "Verif.C50_pid",
    "Verif.C50_forking",
    "Verif.C50_delay",
    "Verif.C50_full_false"
   ],
   "note": "Proved for every line in which no delay is too long, `reload:` and `stop:` are given without a time, `log:` does not end in a key without a value, and names of PID files fit. The full claim is false (C50_full_false); each exclusion has a witness: `reload:5,...` and `stop:5,...` write through a null pointer, `log:...,prio` reads through one, long PID file names are read beyond the buffer, `restart_sec:2592000` overflows."
  },
  {
   "property": "C51",
   "status": "partial",
   "theorems": [
    "Verif.C51_partial",
    "Verif.C51_open",
    "Verif.C51_long",
    "Verif.C51_full_false"
   ],
   "note": "Proved both ways for commands of less than 256 bytes and lines whose quotes are closed. The full claim is false (C51_full_false): with an open quote, or a longer command, the arguments count as changed at every reload."
  },
  {
   "property": "C52",
   "status": "partial",
   "theorems": [
    "Verif.C52_partial",
    "Verif.C52_pid",
    "Verif.C52_group",
    "Verif.C52_full_false"
   ],
   "note": "Proved for every line: settings in `SameLine` do not depend on what was known before, and those in `SameGiven` do not if the new line gives them. The full claim is false (C52_full_false): `pid:` that is taken away leaves the old file name, a user without a group the old group; the same holds for the description, cgroup settings and invalid values. Log settings are in C53."
  },
  {
   "property": "C53",
   "status": "partial",
   "theorems": [
    "Verif.C53_new_partial",
    "Verif.C53_any_partial",
    "Verif.C53_sticky",
    "Verif.C53_full_false"
   ],
   "note": "Proved for options made of items in documented form: for a new service the settings are those in the option and no others (C53_new_partial), for a known one what is in the option is set and the rest is left (C53_any_partial). The full claim is false (C53_full_false): when `log:null` is replaced by a file the output is still thrown away (C53_sticky)."
  },
  {
   "property": "C54",
   "status": "partial",
   "theorems": [
    "Verif.C54_partial",
    "Verif.C54_desc",
    "Verif.C54_name",
    "Verif.C54_full_false"
   ],
   "note": "Proved for every list of options and every command that does not begin like an option: all settings are those of the line, and the documented defaults otherwise, as far as the texts have room in their buffers (C54_partial); the description (C54_desc). Scripts in quotes and runlevel lists with a colon are not covered. Without the room the claim is false (C54_full_false): a long name is cut (C54_name)."
  },
  {
   "property": "C55",
   "status": "partial",
   "theorems": [
    "Verif.C55_links_partial",
    "Verif.C55_route_partial",
    "Verif.C55_two_routes",
    "Verif.C55_rename",
    "Verif.C55_lost",
    "Verif.C55_full_false"
   ],
   "note": "Interfaces: proved for any number of changes between reads (C55_links_partial). Default route: proved if each message is read before the next change and only the last default route is deleted (C55_route_partial). The full claim is false (C55_full_false): deleting one of two default routes takes the condition away (C55_two_routes), the conditions of an old name stay on after a rename (C55_rename), and after a loss of messages older ones are read after the resynchronisation (C55_lost)."
  },
  {
   "property": "C56",
   "status": "partial",
   "theorems": [
    "Verif.C56_partial",
    "Verif.C56_enough",
    "Verif.C56_two",
    "Verif.C56_flaky",
    "Verif.C56_full_false"
   ],
   "note": "Proved for all inputs if gzip works always or never, except for two versions with gzip (C56_partial); at least num times sz bytes are kept once anything is dropped (C56_enough). The full claim is false (C56_full_false): with two versions the compressed one is never replaced (C56_two), and the same happens when gzip stops working (C56_flaky). Text in the buffer of a logit that is killed is not covered."
  },
  {
   "property": "C57",
   "status": "partial",
   "theorems": [
    "Verif.C57_fields_partial",
    "Verif.C57_dir",
    "Verif.C57_file_partial",
    "Verif.C57_file_plain",
    "Verif.C57_link_partial",
    "Verif.C57_kept",
    "Verif.C57_twice",
    "Verif.C57_blanks",
    "Verif.C57_mode",
    "Verif.C57_over",
    "Verif.C57_minor",
    "Verif.C57_full_false"
   ],
   "note": "Proved for all lines: fields with one blank before the last (C57_fields_partial), directories (C57_dir), kind and contents of files (C57_file_partial, C57_file_plain), links (C57_link_partial), nothing is lost without + (C57_kept), reading twice (C57_twice). The full claim is false (C57_full_false): more blanks become part of the last field (C57_blanks), files do not get the mode and group of their line, which lets everybody read the shipped /var/log/btmp (C57_mode), L+ does not replace a file (C57_over), devices with number 0 are not made (C57_minor). Missing: C, e, w, z, Z and --remove."
  },
  {
   "property": "C58",
   "status": "partial",
   "theorems": [
    "Verif.C58_partial",
    "Verif.C58_quiet",
    "Verif.C58_template",
    "Verif.C58_override",
    "Verif.C58_name",
    "Verif.C58_loop",
    "Verif.C58_lost",
    "Verif.C58_full_false",
    "Verif.C58_dirs_partial"
   ],
   "note": "Proved for all histories if everything on the way to the file is in a watched directory, is not a template, has a name beginning with printable ASCII, there is no loop of links and the kernel's queue is never full (C58_partial); nothing is marked without a change (C58_quiet). The full claim is false (C58_full_false): a changed template is not noticed for its instances (C58_template), nor is the removal of a file that overrides one of the system (C58_override), a file whose name begins with another byte (C58_name), what comes after a looping link in the same read (C58_loop), or anything while the queue is full (C58_lost)."
  },
  {
   "property": "C59",
   "status": "partial",
   "theorems": [
    "Verif.C59_last_partial",
    "Verif.C59_default",
    "Verif.C59_conds",
    "Verif.C59_single",
    "Verif.C59_never_down",
    "Verif.C59_unknown",
    "Verif.C59_full_false"
   ],
   "note": "Proved for all lists of parameters (C59_last_partial, C59_default, C59_conds, C59_single, C59_never_down), but for a runlevel that is followed by a parameter finit does not know. There the claim is false (C59_full_false): any unknown word cancels the runlevel (C59_unknown)."
  },
  {
   "property": "C60",
   "status": "partial",
   "theorems": [
    "Verif.C60_enable",
    "Verif.C60_enable_adds",
    "Verif.C60_enable_failed",
    "Verif.C60_disable_partial",
    "Verif.C60_round",
    "Verif.C60_disable_only",
    "Verif.C60_disable_failed",
    "Verif.C60_create_partial",
    "Verif.C60_create_keeps",
    "Verif.C60_example",
    "Verif.C60_delete",
    "Verif.C60_stale",
    "Verif.C60_regular",
    "Verif.C60_static",
    "Verif.C60_outside",
    "Verif.C60_create_static",
    "Verif.C60_full_false"
   ],
   "note": "Proved for all trees with /etc/finit.d a directory and names without '/': enabling, disabling of links that lead somewhere, both in turn, creating and deleting. That enable takes nothing away and that failed commands change nothing holds for any name. False are: only links are removed (C60_regular, C60_full_false), only in enabled/ (C60_static, C60_outside), every link can be removed (C60_stale), created files go to available/ (C60_create_static)."
  },
  {
   "property": "C61",
   "status": "partial",
   "theorems": [
    "Verif.Sup.C61_crash_sets_timer_partial",
    "Verif.Sup.C61_timer_tries_again",
    "Verif.Sup.C61_norespawn_is_forever",
    "Verif.Sup.C61_delay_lost",
    "Verif.Sup.C61_ready_script_cancels",
    "Verif.Sup.C61_crash_sets_timer_layered_partial"
   ],
   "note": "Proved for daemons and ttys that are not forking and without respawn and ready:script, in executions without re-entrant stepping: the crash sets the timer, and it stays set through all later events. Proved without these restrictions except respawn: what its expiry does. The full claim is false: /tmp/norespawn present at the moment of expiry (C61_norespawn_is_forever), a start that failed before the first crash (C61_delay_lost: the delay becomes 0 and no timer is set), and a ready:script that ends after the crash (C61_ready_script_cancels) leave a service halted for ever. For layered configurations (see C62) no assumption on re-entrancy is needed (theorem ending in _layered_partial)."
  },
  {
   "property": "C62",
   "status": "partial",
   "theorems": [
    "Verif.Sup.C62_no_overlap_partial",
    "Verif.Sup.C62_false_for_rings",
    "Verif.Sup.C62_false_for_lost_processes"
   ],
   "note": "The full claim is false: a service that waits for one of its own conditions is stepped inside its own step (C62_false_for_rings), and a forking service whose process is gone when SIGHUP is to be sent runs the state machine inside a step, whatever waits for what (C62_false_for_lost_processes). Proved for every configuration in which the services can be ordered so that each waits only for conditions of earlier ones, none is forking, sysv, has a stop:script or systemd/s6 notification, and what is for runlevel S alone is a run or task that is not sent SIGHUP. For such configurations the theorems of C07, C09, C12, C13, C14, C15, C16, C20, C41, C42, C43 and C61 are given again without any assumption on re-entrancy (theorems ending in _layered_partial)."
  },
  {
   "property": "C63",
   "status": "partial",
   "theorems": [
    "Verif.Sup.C63_done_in_time_partial",
    "Verif.Sup.C63_runs_in_time_partial",
    "Verif.Sup.C63_false_for_halted",
    "Verif.Sup.C63_yields_partial"
   ],
   "note": "The full claim is false: a running service whose line gets `if:<service/NAME/halted>` on itself is stopped by the reload, and when its process ends service_step goes from HALTED to WAITING and back for ever (C63_false_for_halted; the proof shows that no limit on the number of rounds is enough). Proved, for single events and for whole sequences of events, for every configuration in which the services can be ordered so that each waits for and tests only conditions of earlier ones (names of at most 42 characters), with a limit on the number of stanzas, none forking, sysv, with a stop:script or systemd/s6 notification, and what is for runlevel S alone a run or task not sent SIGHUP. The limit on nested calls that the model uses does not influence the result once it is large enough (part of the theorems)."
  },
  {
   "property": "C64",
   "status": "partial",
   "theorems": [
    "Verif.C64_scripts_partial",
    "Verif.C64_failures_partial",
    "Verif.C64_line_partial",
    "Verif.C64_options",
    "Verif.C64_both_options",
    "Verif.C64_comment",
    "Verif.C64_blank",
    "Verif.C64_sysv",
    "Verif.C64_sum",
    "Verif.C64_full_false"
   ],
   "note": "Proved for names without characters that mean something to the shell (and with sysv: whenever those that begin with S or K go on with a digit), for sums of exit codes below 256, and for lines with at most one option. The full claim is false: with both options the second becomes a part of the directory's name, and no script is run (C64_both_options); so does the blank before a comment (C64_comment); a name with a blank is split by the shell (C64_blank); sysv runs files like Setup (C64_sysv); exit codes are added up modulo 256, two scripts that fail with 128 look like success (C64_sum)."
  },
  {
   "property": "C65",
   "status": "partial",
   "theorems": [
    "Verif.C65_once_partial",
    "Verif.C65_never",
    "Verif.C65_twice",
    "Verif.C65_full_false"
   ],
   "note": "Proved for builds with a path for external plugins and all hook points but two. The full claim is false: scripts in hook/net/down and hook/svc/plugin are never run (C65_never); built without a path for external plugins, the scripts of all hooks up to the mounting of file systems are run twice (C65_twice)."
  },
  {
   "property": "C66",
   "status": "partial",
   "theorems": [
    "Verif.C66_files_partial",
    "Verif.C66_include_partial",
    "Verif.C66_read_partial",
    "Verif.C66_rcsd_kept",
    "Verif.C66_files_full_false",
    "Verif.C66_hidden_by_directory",
    "Verif.C66_rcsd_later",
    "Verif.C66_loop",
    "Verif.C66_prefix_of_system",
    "Verif.C66_at_sign"
   ],
   "note": "Proved for all file systems in which what has the name of a system file is a file, files do not include themselves, and the directory of the administrator does not begin like a system directory. The full claim is false: a directory (or dangling link) hides a system file (C66_hidden_by_directory); an rcsd line in any other file is obeyed at the next reload (C66_rcsd_later); a directory like /run/finit/system2 is taken for a system directory (C66_prefix_of_system); a file that includes itself is read as often as there are file descriptors (C66_loop). A file with an @ in its path and no .conf after it is not read at all (C66_at_sign)."
  },
  {
   "property": "C67",
   "status": "partial",
   "theorems": [
    "Verif.C67_left_partial",
    "Verif.C67_once",
    "Verif.C67_order",
    "Verif.C67_tmpfs_partial",
    "Verif.C67_reverse_false",
    "Verif.C67_tmpfs_false",
    "Verif.C67_static_false",
    "Verif.C67_full_false"
   ],
   "note": "Proved for all tables: what is left (C67_left_partial: nothing mounted on /dev/.static/dev), that each file system is unmounted once (C67_once), the order between those in each other's way (C67_order), and that each tmpfs goes before swap if all of type tmpfs are called tmpfs (C67_tmpfs_partial). The full claim is false: siblings are unmounted in the order of mounting (C67_reverse_false), a tmpfs of another name is unmounted only after swap is turned off since its name is tested instead of its type (C67_tmpfs_false), and the entry dev/.static/dev lacks its slash, so what is mounted there is unmounted (C67_static_false)."
  },
  {
   "property": "C68",
   "status": "partial",
   "theorems": [
    "Verif.C68_partial",
    "Verif.C68_other",
    "Verif.C68_kinds",
    "Verif.C68_counted_twice",
    "Verif.C68_restarted",
    "Verif.C68_removed",
    "Verif.C68_overflow",
    "Verif.C68_full_false"
   ],
   "note": "Proved for all sequences in which each message about a mains supply tells of one that goes on or off line, no supply comes or goes, messages are shorter than the buffer, and the condition is off when the daemon starts. The full claim is false: each further message that a supply is on line is counted, so the condition stays on when it is unplugged (C68_counted_twice); supplies removed while on line stay counted (C68_removed); the condition is not cleared when the daemon is started again (C68_restarted); a message of 1024 bytes or more makes it write one byte behind its buffer (C68_overflow)."
  },
  {
   "property": "C69",
   "status": "partial",
   "theorems": [
    "Verif.C69_partial",
    "Verif.C69_goes_partial",
    "Verif.C69_options",
    "Verif.C69_force",
    "Verif.C69_halt_powers_off",
    "Verif.C69_suspend_halts",
    "Verif.C69_taken_back",
    "Verif.C69_overflow",
    "Verif.C69_ignored",
    "Verif.C69_full_false",
    "Verif.C69_names"
   ],
   "note": "Proved for all sequences without timeouts in which halt is not called while a reload or a change of runlevel waits for services. The full claim is false: init tells each program that its request has failed (do_reboot returns 1), so it sends a signal too, which for halt means power off and is obeyed if init is still waiting (C69_halt_powers_off); suspend -t makes the system halt when the time is over (C69_suspend_halts); the timer of a request that was taken back still fires (C69_taken_back); timeouts of more than 2147483 s overflow an int (C69_overflow); a request for runlevel 0 during bootstrap is dropped if the kernel command line has a runlevel (C69_ignored)."
  },
  {
   "property": "C70",
   "status": "partial",
   "theorems": [
    "Verif.C70_partial",
    "Verif.C70_term_partial",
    "Verif.C70_kill_partial",
    "Verif.C70_wait_partial",
    "Verif.C70_once",
    "Verif.C70_path",
    "Verif.C70_late",
    "Verif.C70_full_false"
   ],
   "note": "Proved for all processes whose names are shorter than 1023 bytes, have no newline, and have the words gdbserver and initctl only if they are these programs, and, for what is left, when no process is started after SIGTERM is sent. The full claim is false: a daemon in a directory like /opt/initctl-tools is never ended (C70_path), and a process started after the last poll is not either (C70_late)."
  },
  {
   "property": "C71",
   "status": "partial",
   "theorems": [
    "Verif.C71_partial",
    "Verif.C71_again",
    "Verif.C71_passenv",
    "Verif.C71_shifted",
    "Verif.C71_usage",
    "Verif.C71_external_partial",
    "Verif.C71_console_partial",
    "Verif.C71_manual",
    "Verif.C71_manual_console",
    "Verif.C71_program",
    "Verif.C71_long",
    "Verif.C71_bare",
    "Verif.C71_stale",
    "Verif.C71_full_false",
    "Verif.C71_rescue",
    "Verif.C71_device",
    "Verif.C71_refused"
   ],
   "note": "Proved: which service the line gives, on which device it runs, which program, with which options and arguments, for all lines whose words are no programs and whose device's path is shorter than 32 bytes; with another getty; for all consoles; and reading it again. The full claim is false: the program gets its arguments without its own name before them, so the built-in getty takes the speed for the terminal and the type for the speed (C71_shifted, C71_manual, C71_manual_console), prints its usage if there is no speed (C71_usage), and gets all right but passenv when passenv is given (C71_passenv). A TERM that is a program is run as getty (C71_program), long device names are cut and make a service more at each reload (C71_long), so do lines with notty (C71_bare), and the list of consoles can be left half read (C71_stale)."
  },
  {
   "property": "C72",
   "status": "partial",
   "theorems": [
    "Verif.C72_partial",
    "Verif.C72_acyclic",
    "Verif.C72_hooks",
    "Verif.C72_names",
    "Verif.C72_handles_partial",
    "Verif.C72_handle",
    "Verif.C72_later",
    "Verif.C72_cut",
    "Verif.C72_file",
    "Verif.C72_cycle",
    "Verif.C72_early",
    "Verif.C72_full_false"
   ],
   "note": "Proved for a plugin directory in which each file registers the plugin of its name: loading ends whatever depends on what, each is registered once, and after those it depends on unless these depend on it as well; hook callbacks follow that order. The full claim is false: a plugin that is loaded as a dependency before its file is read makes the plugin registered last lose its handle (C72_handle; C72_handles_partial says when all are right), one in an external directory read later is not waited for (C72_later), nor one whose file has another name (C72_file), names are cut at .c wherever it is (C72_cut), and names of fewer than three bytes are read before their beginning (C72_early; C72_names)."
  },
  {
   "property": "C73",
   "status": "partial",
   "theorems": [
    "Verif.C73_partial",
    "Verif.C73_first",
    "Verif.C73_noshadow",
    "Verif.C73_locked",
    "Verif.C73_other",
    "Verif.C73_crash",
    "Verif.C73_x",
    "Verif.C73_full_false",
    "Verif.C73_nofiles",
    "Verif.C73_noroot"
   ],
   "note": "Proved when root is first in /etc/shadow, or has the password in /etc/passwd and it does not begin with x. The full claim is false: the test for the name in get_passwd is inverted and looks at the wrong half of the line, so that the password that counts is that of the first user in /etc/shadow (C73_first). If that is a locked system user anybody who presses enter gets a root shell though root has a password (C73_locked); the password of another user opens it (C73_other); a comment on the first line makes sulogin crash (C73_crash); and a password in /etc/passwd that begins with x is not used (C73_x). Without files nobody gets in (C73_nofiles); without an entry for root the first user of shadow gets in (C73_noroot)."
  },
  {
   "property": "C74",
   "status": "partial",
   "theorems": [
    "Verif.C74_partial",
    "Verif.C74_mounted",
    "Verif.C74_order",
    "Verif.C74_failed",
    "Verif.C74_corrected",
    "Verif.C74_rescue",
    "Verif.C74_nofstab",
    "Verif.C74_common",
    "Verif.C74_skips",
    "Verif.C74_killed",
    "Verif.C74_unchecked",
    "Verif.C74_blank",
    "Verif.C74_hidden",
    "Verif.C74_devroot",
    "Verif.C74_full_false"
   ],
   "note": "Proved for tables of plain lines when no check puts something right. Without restriction on the table: the order of checks (C74_order), that nothing is mounted after a failed check (C74_failed), and which common file systems are mounted (C74_common). The full claim is false: after a check that ended with 1, errors corrected, no further pass is made, the unchecked file systems are mounted all the same and the root file system stays read-only (C74_corrected, C74_skips), against the comment in the code; a check that is killed counts as success (C74_killed); pass numbers above 9, PARTUUID, PARTLABEL (C74_unchecked), /dev/root on a partition (C74_devroot) and directories mounted twice (C74_hidden) are not checked; of a label with a blank something else is (C74_blank). The mode of pseudo terminals, meant to be 0620, is written in decimal and so 0400 (see C74_skips). What is mounted and which swap is used is C74_mounted."
  },
  {
   "property": "C75",
   "status": "partial",
   "theorems": [
    "Verif.C75_partial",
    "Verif.C75_exit_partial",
    "Verif.C75_reserved",
    "Verif.C75_noarg",
    "Verif.C75_signal_partial",
    "Verif.C75_status_partial",
    "Verif.C75_status_job_partial",
    "Verif.C75_ident_partial",
    "Verif.C75_stops_early",
    "Verif.C75_misleading",
    "Verif.C75_full_false"
   ],
   "note": "Proved for arguments of the documented form. The full claim is false: with -n the first argument that means no service ends the program with exit status 0 and the arguments after it are not seen to (C75_stops_early); initctl -q status prints a table and exits with 0 though none of several instances runs, a name that begins with a digit is taken for a job number, and initctl ident also prints services whose name only begins the argument, or that have another id (C75_misleading). Left out of the theorems: arguments of 368 characters and more, and those with words of another form (see C26)."
  },
  {
   "property": "C76",
   "status": "partial",
   "theorems": [
    "Verif.C76_partial",
    "Verif.C76_show_partial",
    "Verif.C76_dump_partial",
    "Verif.C76_ls",
    "Verif.C76_show_escape",
    "Verif.C76_empty",
    "Verif.C76_lsdir",
    "Verif.C76_broken",
    "Verif.C76_full_false"
   ],
   "note": "Proved for services whose strings have no quotes, backslashes and control characters, whose command, environment and conditions fit their buffers, and if there is something to print; initctl -j ls is characterised exactly. The full claim is false: a quote in a description is not escaped, and a list of conditions that does not fit its 512 bytes is cut inside a string (C76_broken); initctl -j cond show without -p has escape sequences in it as soon as a condition is not met (C76_show_escape); if there is nothing to list nothing at all is printed (C76_empty); initctl -j ls begins with a comma if the first directory has no files but a later one has (C76_ls), and initctl -j ls DIR prints a member of an object inside an array (C76_lsdir)."
  },
  {
   "property": "C77",
   "status": "partial",
   "theorems": [
    "Verif.C77_set_partial",
    "Verif.C77_clear_partial",
    "Verif.C77_history_partial",
    "Verif.C77_safe",
    "Verif.C77_reject",
    "Verif.C77_get_partial",
    "Verif.C77_get_all_partial",
    "Verif.C77_long",
    "Verif.C77_dir",
    "Verif.C77_get_nested",
    "Verif.C77_full_false"
   ],
   "note": "Proved for names of up to 39 characters; that other files are safe is proved for all arguments. The full claim is false: with a name of 40 and more characters initctl cond set and initctl cond get say that the condition is set, but Finit cuts the path and goes on to see it as off (C77_long); initctl cond clear usr/ with no condition set removes the directory, and from then on none can be set (C77_dir, if erase() of libite is remove(3)); initctl cond get usr/pid/sshd tells the state of pid/sshd (C77_get_nested). Fewer than 2^32 - 2 reloads."
  },
  {
   "property": "C78",
   "status": "partial",
   "theorems": [
    "Verif.C78_partial",
    "Verif.C78_room",
    "Verif.C78_only",
    "Verif.C78_overflow",
    "Verif.C78_hangup",
    "Verif.C78_speed",
    "Verif.C78_full_false",
    "Verif.C78_long"
   ],
   "note": "Proved for names that fit the buffer, with the exact set of inputs on which login is run and on which the buffer is overrun. The full claim is false: a line of as many characters as the buffer has room for makes getty write a NUL behind the buffer (C78_long); no speed given is ever set, since the number of bauds is passed where a code of speed_t is expected (C78_speed); on a line that has hung up getty goes on reading for ever (C78_hangup). After a NUL in a line the rest is lost (C78_only)."
  },
  {
   "property": "C79",
   "status": "partial",
   "theorems": [
    "Verif.C79_partial",
    "Verif.C79_old_partial",
    "Verif.C79_all",
    "Verif.C79_backslash",
    "Verif.C79_no_file",
    "Verif.C79_undefined",
    "Verif.C79_full_false",
    "Verif.C79_default"
   ],
   "note": "Proved for systems without os-release, for Alpine Linux, and for issues that use only keys which os-release has. The full claim is false: if os-release has no ID, or not the key of an escape that is used, such as PRETTY_NAME, getty shows memory that was never written (C79_undefined, C79_default); a backslash at the very end is not shown (C79_backslash). Values are cut at the size of their fields. Reading os-release into keys and values (fparseln and the quotes) is not modelled."
  },
  {
   "property": "C80",
   "status": "partial",
   "theorems": [
    "Verif.C80_global_partial",
    "Verif.C80_no_leftover",
    "Verif.C80_file_partial",
    "Verif.C80_file_last",
    "Verif.C80_user",
    "Verif.C80_child_partial",
    "Verif.C80_lost",
    "Verif.C80_boot",
    "Verif.C80_full_false",
    "Verif.C80_blanks"
   ],
   "note": "Proved for lines whose meaning does not depend on the time they are read. The full claim is false: a variable Finit was started with is gone for good once a configuration has set it and a later one does not (C80_lost); names that begin with set are cut at bootstrap but not at a reload, and SET in capitals is known only at bootstrap (C80_boot); blanks in quotes of an env: file are squeezed (C80_blanks). wordexp() is a parameter."
  },
  {
   "property": "C81",
   "status": "partial",
   "theorems": [
    "Verif.C81_partial",
    "Verif.C81_none_partial",
    "Verif.C81_nobody_else",
    "Verif.C81_unknown",
    "Verif.C81_large",
    "Verif.C81_refused",
    "Verif.C81_group",
    "Verif.C81_stale",
    "Verif.C81_groups",
    "Verif.C81_long",
    "Verif.C81_full_false"
   ],
   "note": "Proved for known users and groups with names of up to 15 characters and numbers below 2^31, given with a group. The full claim is false: a service whose user is unknown (C81_unknown), has a number of 2^31 or more (C81_large) or may not be changed to (C81_refused) runs with all rights of Finit; a name of 16 characters such as systemd-timesync is cut and so unknown (C81_long); with @user alone a new service stays in Finit's group (C81_group) and one known before in its old group (C81_stale); supplementary groups are always kept (C81_groups)."
  },
  {
   "property": "C82",
   "status": "partial",
   "theorems": [
    "Verif.C82_partial",
    "Verif.C82_stays_partial",
    "Verif.C82_link",
    "Verif.C82_full_false",
    "Verif.C82_mounts",
    "Verif.C82_lock"
   ],
   "note": "Proved for trees of any depth in which no link leads to a directory, where there are not two mounts on a directory to be cleaned. The full claim is false: nftw() is called without FTW_PHYS and so follows links, so that a link a user leaves in /tmp makes Finit remove the files of the directory it leads to (C82_link). Of file systems mounted over one another the first counts, so files that are kept across boots stay if a tmpfs is below (C82_mounts), and /run/lock is itself removed where /var/lock leads to it (C82_lock)."
  },
  {
   "property": "C83",
   "status": "partial",
   "theorems": [
    "Verif.C83_board_partial",
    "Verif.C83_sane",
    "Verif.C83_saved",
    "Verif.C83_file_partial",
    "Verif.C83_never",
    "Verif.C83_lost",
    "Verif.C83_zone_partial",
    "Verif.C83_zone",
    "Verif.C83_full_false"
   ],
   "note": "Proved with a clock on the board (C83_board_partial) and, in all cases, that the clock is valid after a boot (C83_sane). The full claim is false: line 198 of rtc.c makes every restore from the file fail, so without a clock on the board the time is always reset to the earliest valid date (C83_never, C83_full_false), although what was saved could be read (C83_file_partial). What was saved is lost when the clock is not valid at the next save (C83_lost), and an empty TZ is unset (C83_zone). How dates are written is a parameter; settimeofday() is granted."
  },
  {
   "property": "C84",
   "status": "partial",
   "theorems": [
    "Verif.C84_partial",
    "Verif.C84_bits",
    "Verif.C84_twice",
    "Verif.C84_guess",
    "Verif.C84_full_false"
   ],
   "note": "Proved for histories in which a seed is saved between any two boots. The full claim is false: the file is not replaced when it has been used, so after a power loss the same seed is given again with full credit (C84_twice), and a seed made of the time of day counts for 4096 bits (C84_guess)."
  },
  {
   "property": "C85",
   "status": "partial",
   "theorems": [
    "Verif.C85_ready_partial",
    "Verif.C85_only",
    "Verif.C85_own",
    "Verif.C85_s6",
    "Verif.C85_s6_more",
    "Verif.C85_race",
    "Verif.C85_cut",
    "Verif.C85_anyone",
    "Verif.C85_unset",
    "Verif.C85_full_false"
   ],
   "note": "Proved both ways for messages sent after the socket is bound, for the first 31 bytes of them: C85_ready_partial and C85_only; C85_own for the separation of services and C85_s6 for pipes, where more after the line feed in the same read hides it (C85_s6_more). The full claim is false: the parent binds the socket after the fork, so what a fast child sends is lost (C85_race); a line after byte 31 is not seen and a longer line cut there counts (C85_cut); anyone can send (C85_anyone); sd_pid_notify does not handle the variable as documented (C85_unset)."
  },
  {
   "property": "C86",
   "status": "partial",
   "theorems": [
    "Verif.C86_partial",
    "Verif.C86_numbers",
    "Verif.C86_unique",
    "Verif.C86_crash",
    "Verif.C86_noindex",
    "Verif.C86_tab",
    "Verif.C86_twice",
    "Verif.C86_full_false"
   ],
   "note": "Proved through both parsers for files of comments, settings with values and modules with parameters (words without quotes and tabs, lines that fit the buffer): C86_partial. Numbers are distinct if none is set (C86_numbers, C86_unique). The full claim is false: a number set in one file is used again in the next (C86_twice). Also proved: a setting without a value crashes Finit (C86_crash), a blank after `set noindex` makes it useless and `noindex` on a line of its own, as the comment in the source describes it, is loaded as a module (C86_noindex), and after a tab parameters become part of the name (C86_tab)."
  },
  {
   "property": "C87",
   "status": "partial",
   "theorems": [
    "Verif.C87_file_partial",
    "Verif.C87_kept",
    "Verif.C87_syslog_partial",
    "Verif.C87_where",
    "Verif.C87_sysklogd",
    "Verif.C87_settings_partial",
    "Verif.C87_settings_agree",
    "Verif.C87_count",
    "Verif.C87_prio",
    "Verif.C87_none",
    "Verif.C87_kern",
    "Verif.C87_fallback",
    "Verif.C87_missing",
    "Verif.C87_noopen",
    "Verif.C87_reload",
    "Verif.C87_comma",
    "Verif.C87_full_false"
   ],
   "note": "Proved for Finit's own logit: files for counts up to 99 (C87_file_partial, with C56 C87_kept), the system log for facilities other than kern and levels other than none (C87_syslog_partial), null and console (C87_where), the arguments given to sysklogd's logger (C87_sysklogd), and the log line (C87_settings_partial, C87_settings_agree). The full claim is false: counts over 99 are cut to two digits (C87_count). Also proved: priorities that are no facility.level lose all output (C87_prio), none becomes mail.emerg (C87_none), kern becomes user (C87_kern), the file is forgotten without logit (C87_fallback), services that notify as systemd's need a program that may be missing (C87_missing), a console that does not open is ignored (C87_noopen), settings survive the removal of their line (C87_reload)."
  },
  {
   "property": "C88",
   "status": "partial",
   "theorems": [
    "Verif.C88_settings_partial",
    "Verif.C88_created",
    "Verif.C88_values",
    "Verif.C88_confined_partial",
    "Verif.C88_line",
    "Verif.C88_name",
    "Verif.C88_service",
    "Verif.C88_root",
    "Verif.C88_self",
    "Verif.C88_option",
    "Verif.C88_cut",
    "Verif.C88_kept",
    "Verif.C88_escape",
    "Verif.C88_group",
    "Verif.C88_shared",
    "Verif.C88_override",
    "Verif.C88_blank",
    "Verif.C88_stale",
    "Verif.C88_full_false",
    "Verif.C88_dropped"
   ],
   "note": "Proved: exactly the settings given are written, in order, for existing and new groups (C88_settings_partial, C88_created, C88_values), from the text of a cgroup line (C88_line, C88_name) and of a service's option (C88_option); processes are moved last and to the right place (C88_service, C88_root, C88_self); a setting whatever its text goes up at most once, and only if what is before its first dot is empty or ends in a slash (C88_confined_partial). The full claim is false: `../cgroup.subtree_control:-cpu` is written one level up (C88_escape). Also proved: settings removed stay in force (C88_stale, C88_kept), 128 to 143 characters are cut (C88_cut), the group of a service is not checked (C88_group), services of one file share a group and override each other's limits (C88_shared, C88_override), values with a blank are lost in cgroup lines (C88_blank)."
  },
  {
   "property": "C89",
   "status": "partial",
   "theorems": [
    "Verif.C89_safe",
    "Verif.C89_stopped",
    "Verif.C89_handover",
    "Verif.C89_grace_partial",
    "Verif.C89_reboot_partial",
    "Verif.C89_early",
    "Verif.C89_ten",
    "Verif.C89_race",
    "Verif.C89_slow",
    "Verif.C89_halt",
    "Verif.C89_full_false"
   ],
   "note": "Proved for a daemon that is up to 3.75 s late: no reset without SIGPWR (C89_safe), the timer is stopped exactly when it has ended (C89_stopped), which is soon after SIGTERM (C89_handover); no reset within two seconds of SIGPWR (C89_grace_partial); reset within ten seconds of a SIGTERM that finds it waiting (C89_reboot_partial). The full claim is false: SIGPWR just before sleep(3) is not noticed until SIGTERM, and then the timer is stopped (C89_race). Also proved: the timeout of one second after SIGPWR resets the board while file systems are unmounted (C89_early), without it that is ten seconds later (C89_ten), SIGTERM just before sleep(3) is answered too late (C89_slow), and halted boards are reset (C89_halt)."
  },
  {
   "property": "C90",
   "status": "partial",
   "theorems": [
    "Verif.C90_terminals_partial",
    "Verif.C90_nobody",
    "Verif.C90_level",
    "Verif.C90_halt",
    "Verif.C90_boot",
    "Verif.C90_history",
    "Verif.C90_ended",
    "Verif.C90_collide",
    "Verif.C90_nameless",
    "Verif.C90_lost",
    "Verif.C90_full_false"
   ],
   "note": "Proved for terminals that differ in their first four characters: one record each, of the last process (C90_terminals_partial). For all: none for terminals not used (C90_nobody), one of the last change of runlevel, that decodes to both levels (C90_level), one of the boot (C90_boot), all of the history in order (C90_history). The full claim is false: /dev/ttyS0 and /dev/ttyS1 overwrite each other (C90_collide), and the end of a process never changes utmp (C90_ended) and does not tell the terminal in wtmp (C90_nameless). Also proved: the shutdown takes the place of the runlevel (C90_halt), and rotation leaves utmp empty after 267 terminals (C90_lost)."
  },
  {
   "property": "C91",
   "status": "partial",
   "theorems": [
    "Verif.C91_service",
    "Verif.C91_refused",
    "Verif.C91_text",
    "Verif.C91_task_partial",
    "Verif.C91_code",
    "Verif.C91_cut",
    "Verif.C91_tty_partial",
    "Verif.C91_stale",
    "Verif.C91_sysv",
    "Verif.C91_sysv_stop_partial",
    "Verif.C91_sysv_quotes",
    "Verif.C91_operator",
    "Verif.C91_fd_partial",
    "Verif.C91_fd_three",
    "Verif.C91_fd_middle",
    "Verif.C91_full_false",
    "Verif.C91_empty"
   ],
   "note": "Proved from the text of the line (with C49) to execvp: services are started with exactly the words meant (C91_service) or, if these do not fit, not at all (C91_refused). Tasks, for words without characters special to the shell and at most 1023 characters in all (C91_task_partial); terminals, unless a word is empty or two vanish (C91_tty_partial); SysV scripts with plain words (C91_sysv_stop_partial). The full claim is false (C91_full_false): quoted text of a task is read again by a shell, which divides it and takes it for commands (C91_code), long texts are cut and run (C91_cut), terminals get the last word twice if two vanish (C91_stale), SysV scripts are started with the quotes and stopped without (C91_sysv, C91_sysv_quotes), and with 62 arguments beyond the array. Also proved: an operator inside a plain word keeps everything from being started (C91_operator); %n is the descriptor at the end of a word (C91_fd_partial), not with three digits (C91_fd_three), and divides words (C91_fd_middle). Missing: patterns, home directories, command substitution."
  },
  {
   "property": "C92",
   "status": "partial",
   "theorems": [
    "Verif.C92_listing_partial",
    "Verif.C92_quiet",
    "Verif.C92_two",
    "Verif.C92_removed",
    "Verif.C92_freed",
    "Verif.C92_full_false"
   ],
   "note": "Proved if no other client asks meanwhile and the service to be sent next is not removed (C92_listing_partial); if nothing happens meanwhile, exactly the list is sent (C92_quiet). The full claim is false (C92_full_false): two clients at the same time share one position and each misses services (C92_two); if the next service is removed, the position goes over to the list of removed services and the rest is not sent (C92_removed); and if it is freed before the client asks, init reads memory it has given back, in every state (C92_freed)."
  },
  {
   "property": "C93",
   "status": "partial",
   "theorems": [
    "Verif.C93_all_partial",
    "Verif.C93_missing",
    "Verif.C93_forked",
    "Verif.C93_long",
    "Verif.C93_full_false"
   ],
   "note": "Proved for files with lines of at most 254 characters on systems with modprobe, counting each failed fork (C93_all_partial). The full claim is false (C93_full_false): without modprobe each child returns from the function that was to start it and goes on as a second init while its parent waits for it, so the boot goes on in a process as many generations below PID 1 as there are aliases (C93_missing, C93_forked); and of a longer alias only the beginning is used, as with many input devices (C93_long). Missing: the walk of nftw(3) itself."
  },
  {
   "property": "C94",
   "status": "partial",
   "theorems": [
    "Verif.C94_partial",
    "Verif.C94_early",
    "Verif.C94_stopped",
    "Verif.C94_directory",
    "Verif.C94_full_false"
   ],
   "note": "Proved for devices in /dev itself, commands given when there is nothing left to do, and devices of stopped terminals that stay as they are (C94_partial). The full claim is false (C94_full_false): if a terminal is started before init reads that its device has appeared, the event ends its getty, which is not started again (C94_early, in every system); a terminal stopped by the user gets a getty again when its device is put back (C94_stopped); devices in directories of /dev are not watched, so terminals on them never get a getty when they appear (C94_directory)."
  },
  {
   "property": "C95",
   "status": "partial",
   "theorems": [
    "Verif.C95_partial",
    "Verif.C95_cut",
    "Verif.C95_blanks",
    "Verif.C95_empty",
    "Verif.C95_full_false"
   ],
   "note": "Proved for files with a line feed after the name, host lines without blanks after the name, and no empty file before (C95_partial). The full claim is false (C95_full_false): without a line feed at the end of the file the last byte of the name is lost, for every name and every history (C95_cut); blanks after the name in a host line become part of it (C95_blanks); an empty file drops the name, and when the configuration is read again memory that was never written is taken for the name (C95_empty)."
  },
  {
   "property": "C96",
   "status": "partial",
   "theorems": [
    "Verif.C96_partial",
    "Verif.C96_vendor",
    "Verif.C96_override",
    "Verif.C96_long",
    "Verif.C96_syntax",
    "Verif.C96_full_false"
   ],
   "note": "Proved for keys of /etc/sysctl.conf, and for keys set in one directory when no name is in two directories; keys set nowhere stay as they are (C96_partial). The full claim is false (C96_full_false): the directories are read one after the other with the vendor's after those of the administrator and no file replaces another, so the vendor's value is set (C96_vendor for all files, C96_override for every name, key and pair of values); of a path of more than 140 bytes another file or none is read (C96_long); a path of 138 bytes gives a command the shell refuses (C96_syntax)."
  },
  {
   "property": "C97",
   "status": "partial",
   "theorems": [
    "Verif.C97_partial",
    "Verif.C97_wrap",
    "Verif.C97_long",
    "Verif.C97_wide",
    "Verif.C97_narrow",
    "Verif.C97_full_false"
   ],
   "note": "Proved for texts that leave 7 columns, or 8 in the classic style, have at most 219 bytes, or are on terminals of at most 260 columns in the classic style (C97_partial). The full claim is false (C97_full_false): a longer text goes on in the next line, where the outcome then is, and the line of the step shows it as pending for ever (C97_wrap); cprintf writes as many bytes as vsnprintf(3) wanted to, so memory behind the text is written to the console, for texts of 220 bytes (C97_long) and in the classic style for every text on a terminal of more than 260 columns (C97_wide); with fewer than 8 columns in the classic style the loop in pad goes on for 2^64 turns (C97_narrow)."
  },
  {
   "property": "C98",
   "status": "partial",
   "theorems": [
    "Verif.C98_partial",
    "Verif.C98_first",
    "Verif.C98_silent",
    "Verif.C98_cmdline",
    "Verif.C98_refused",
    "Verif.C98_full_false"
   ],
   "note": "Proved: a word that names a runlevel is done as asked, during the start of the system too if the command line has no runlevel; words that do not start like a runlevel, and any word while the system goes down, change nothing (C98_partial). The full claim is false (C98_full_false): only the first byte of a word counts, so that `init 10` and `init stop` go to runlevel 1 with success (C98_first); initctl succeeds for words that are no runlevel and while the system goes down (C98_silent); during the start of the system a request is lost, with success, if there was a runlevel on the command line (C98_cmdline)."
  },
  {
   "property": "C99",
   "status": "partial",
   "theorems": [
    "Verif.C99_ends",
    "Verif.C99_partial",
    "Verif.C99_nested",
    "Verif.C99_remade",
    "Verif.C99_moved",
    "Verif.C99_full_false"
   ],
   "note": "Finit always gets done (C99_ends). Proved by an invariant over all interleavings, if no directory is removed, no file is renamed to its name and directories are made only in those that are watched by then, that services were then told of each condition as it is; conditions that no service needs are removed by then, so that a service that comes to need one with a later reload does not see it (C99_partial; names that start with a dot are left out, glob(3) does not find them). The full claim is false (C99_full_false): of two directories made one in the other only the outer one is watched and what is set in the inner one is never noticed (C99_nested); a directory made, removed and made again while its events wait is for a while not watched, and a condition cleared then stays on for services (C99_remade); a file that is renamed to be a condition is never noticed (C99_moved)."
  },
  {
   "property": "C100",
   "status": "partial",
   "theorems": [
    "Verif.C100_partial",
    "Verif.C100_present",
    "Verif.C100_reload",
    "Verif.C100_subdir",
    "Verif.C100_dir",
    "Verif.C100_full_false"
   ],
   "note": "Proved for all interleavings if services that need a device are read before it is there, there is no reload, no directory is removed and devices are made in directories that are watched by then (C100_partial). The full claim is false (C100_full_false): a device that is there before a service needs it never turns its condition on (C100_present); after a reload every device condition stays in flux, so that its services stay paused, until the device is made anew (C100_reload), as nothing asserts dev/ again; the scan of a new directory looks for dev/snd/dev/snd/timer instead of dev/snd/timer, so that a device made before its directory is watched is missed (C100_subdir)."
  },
  {
   "property": "C101",
   "status": "partial",
   "theorems": [
    "Verif.C101_own_partial",
    "Verif.C101_managed",
    "Verif.C101_stranger",
    "Verif.C101_lost",
    "Verif.C101_race",
    "Verif.C101_renamed",
    "Verif.C101_full_false",
    "Verif.C101_number"
   ],
   "note": "Proved for all sequences of events if no file of others names the process of the service and its file is not renamed (C101_own_partial); if Finit makes the PID file then files of others change nothing, even if they name the process and unless they are made again before their removal is seen (C101_managed). The full claim is false (C101_full_false): a file of anybody, such as /run/lock/x.pid, that names the process turns the condition on, becomes the PID file of the service, and turns the condition off when it is removed (C101_stranger), as a service is looked up by the number in the file first and svc_has_pidfile() is not true of pid:!file; from then on the real PID file is ignored (C101_lost); a file removed and made again in time turns off the condition of any service (C101_race); a file renamed is not missed (C101_renamed)."
  },
  {
   "property": "C102",
   "status": "partial",
   "theorems": [
    "Verif.C102_logged_partial",
    "Verif.C102_overflow",
    "Verif.C102_cut",
    "Verif.C102_level",
    "Verif.C102_full_false"
   ],
   "note": "Proved for messages of up to 510 bytes that do not begin with '<' (C102_logged_partial). The full claim is false (C102_full_false): snprintf() returns the length it would have needed, so that pos runs past the end and len wraps around; the stack is written to exactly if the words before the last one take more than 512 bytes (C102_overflow). Otherwise the first 511 bytes are logged (C102_cut). A level at the start of the message replaces the one asked for (C102_level)."
  },
  {
   "property": "C103",
   "status": "partial",
   "theorems": [
    "Verif.C103_told_partial",
    "Verif.C103_sound",
    "Verif.C103_group",
    "Verif.C103_dangling",
    "Verif.C103_full_false",
    "Verif.C103_builtin"
   ],
   "note": "Proved for all sequences if the daemon is running and in the configuration when the system goes down (C103_told_partial); no memory is used after it was given back if no daemon is given back while it is the watchdog daemon (C103_sound). The full claim is false (C103_full_false): a daemon that is stopped before, as one that is not to run in runlevels 0 and 6 is, has PID 0, so that SIGPWR goes to the process group of Finit (C103_group); if its line is removed then wdog points to memory that was given back (C103_dangling)."
  },
  {
   "property": "C104",
   "status": "partial",
   "theorems": [
    "Verif.C104_told_partial",
    "Verif.C104_environment",
    "Verif.C104_first",
    "Verif.C104_realtime",
    "Verif.C104_pre",
    "Verif.C104_full_false"
   ],
   "note": "Proved for all exit statuses and the signals 1 to 31, for scripts of any number of commands if there is no environment file, and of one command if there is one (C104_told_partial); all other variables are those of Finit and of the file (C104_environment). The text never exceeds its buffer. The full claim is false (C104_full_false): with an environment file the script is run with exec, so that only its first command is ever run (C104_first); a real-time signal has no name (C104_realtime); a pre script that ended last is reported as if it were the process (C104_pre)."
  },
  {
   "property": "C105",
   "status": "partial",
   "theorems": [
    "Verif.C105_partial",
    "Verif.C105_dir",
    "Verif.C105_early",
    "Verif.C105_boot",
    "Verif.C105_moved",
    "Verif.C105_deep",
    "Verif.C105_full_false"
   ],
   "note": "Proved for all sequences of acts: files in /run itself are reported completely and in order (C105_partial), those in a directory of /run made since from when its making was read for as long as it is there (C105_dir). The full claim is false (C105_full_false): a file made before Finit has read that its directory was made is passed over, as the scan meant for this asks about a doubled path with an event that is ignored (C105_early); directories that were there before Finit began to watch (C105_boot), that are renamed to /run (C105_moved), or that are further down (C105_deep) are not watched at all."
  },
  {
   "property": "C106",
   "status": "partial",
   "theorems": [
    "Verif.C106_partial",
    "Verif.C106_single",
    "Verif.C106_down",
    "Verif.C106_pending",
    "Verif.C106_before",
    "Verif.C106_rescue",
    "Verif.C106_means",
    "Verif.C106_full_false"
   ],
   "note": "Proved for all sequences of acts: outside rescue mode the network is up in all runlevels but S, 1, 6 and 0 and not in S (C106_partial), it is left alone in rescue mode (C106_rescue), and what bringing it up means (C106_means). The full claim is false (C106_full_false): in runlevel 1 it is always up, even after booting into it (C106_single); it is taken down for shutdown only if nothing else was under way and services have yet to stop (C106_down), never when a reload or another change of runlevel was waited for (C106_pending). It is brought up before services are stopped, not after (C106_before)."
  },
  {
   "property": "C107",
   "status": "partial",
   "theorems": [
    "Verif.C107_partial",
    "Verif.C107_logged",
    "Verif.C107_long",
    "Verif.C107_err",
    "Verif.C107_killed",
    "Verif.C107_marks",
    "Verif.C107_full_false"
   ],
   "note": "Proved for all commands: lines of less than 255 bytes are logged one by one, up to 1024 bytes of standard error are shown, and [ OK ] means the status 0 for commands that exit (C107_partial); nothing of standard output is lost whatever its lines (C107_logged). The full claim is false (C107_full_false): the loop that copies standard error compares the 1 that fwrite(3) returns with the number of bytes, so it ends after 1024 bytes (C107_err); longer lines are logged in pieces (C107_long); a command that was killed gets [ OK ] if the shell replaced itself by it (C107_killed); only the status 1 gets [FAIL] (C107_marks)."
  },
  {
   "property": "C108",
   "status": "partial",
   "theorems": [
    "Verif.C108_partial",
    "Verif.C108_number",
    "Verif.C108_cut",
    "Verif.C108_never",
    "Verif.C108_running",
    "Verif.C108_colour",
    "Verif.C108_list",
    "Verif.C108_full_false"
   ],
   "note": "Proved for all: what ran and ended is shown as it ended, but for six exit statuses of those started by hand (C108_partial); whatever is cut, exit statuses and signals can be told from one another (C108_number); words fit the list (C108_list) and colours do not change the text (C108_colour). The full claim is false (C108_full_false): a service that never ran is shown with status=0/SUCCESS (C108_never), and a buffer of 48 bytes is too small for the exit statuses 2 to 6 and 69 of those started by hand (C108_cut)."
  },
  {
   "property": "C109",
   "status": "partial",
   "theorems": [
    "Verif.C109_partial",
    "Verif.C109_right",
    "Verif.C109_head",
    "Verif.C109_over",
    "Verif.C109_fail",
    "Verif.C109_full_false"
   ],
   "note": "Proved for all sequences: whatever is in the file is right, in order, and each result is that of the service on the same line (C109_right), after the heading (C109_head); all of it is there if everything can be started, command lines fit and bootstrap does not end while a run is waited for (C109_partial); nothing is added later (C109_over). The full claim is false (C109_full_false): the result -1 of a start that failed is the value that means that the start is yet to come, so failed starts are never recorded (C109_fail)."
  },
  {
   "property": "C110",
   "status": "partial",
   "theorems": [
    "Verif.C110_partial",
    "Verif.C110_column",
    "Verif.C110_unit",
    "Verif.C110_carry",
    "Verif.C110_time",
    "Verif.C110_now",
    "Verif.C110_full_false"
   ],
   "note": "Proved for all: sizes are shown to a tenth of their unit if less than 1020/1024 of a unit is left over (C110_partial), in columns if there are also less than 1000 units (C110_column); times have all parts and fit (C110_time). The full claim is false (C110_full_false): 1020/1024 and more are shown as .10, which reads as a tenth (C110_carry); columns with 1000 units and more have no unit (C110_unit); and nothing at all is shown for a time of 0 (C110_now)."
  },
  {
   "property": "C111",
   "status": "partial",
   "theorems": [
    "Verif.C111_partial",
    "Verif.C111_kernel",
    "Verif.C111_share",
    "Verif.C111_cpu",
    "Verif.C111_idle",
    "Verif.C111_full_false"
   ],
   "note": "Proved for all contents: the memory shown is that of anon, slab and sock, and the files are file, whatever other lines there are (C111_partial), so stacks of the kernel, page tables and per-CPU memory count for nothing (C111_kernel); the share of the memory is in whole percents (C111_share), that of a processor in whole processors (C111_cpu), and groups that use less are always shown with 0 (C111_idle). The full claim is false (C111_full_false)."
  },
  {
   "property": "C112",
   "status": "proved",
   "theorems": [
    "Verif.C112_shown",
    "Verif.C112_again"
   ],
   "note": "The full claim is proved: C112_shown for all sets of runlevels, C112_again for all that a line of a configuration can say."
  },
  {
   "property": "C113",
   "status": "partial",
   "theorems": [
    "Verif.C113_partial",
    "Verif.C113_loaded",
    "Verif.C113_boot",
    "Verif.C113_later",
    "Verif.C113_cut",
    "Verif.C113_full_false"
   ],
   "note": "C113_full_false: the kernel lists snd-pcm as snd_pcm, so a module with a dash in its name is loaded again. C113_partial and C113_boot prove the claim for modules listed under the name of the line, names of up to 63 characters, and lines that fit; C113_loaded is for lines of /proc/modules of any length. C113_cut: a line that is too long is cut, not refused."
  },
  {
   "property": "C114",
   "status": "partial",
   "theorems": [
    "Verif.C114_partial",
    "Verif.C114_sound",
    "Verif.C114_hidden",
    "Verif.C114_ends",
    "Verif.C114_gone",
    "Verif.C114_lines",
    "Verif.C114_full_false"
   ],
   "note": "C114_full_false: with 24 rows, also the default if there is no terminal, the processes of the 25th service are not shown; C114_hidden says which are not. C114_partial proves the claim for trees whose numbers of groups on every way add up to less than the rows, C114_sound that nothing is wrong, twice or out of order in any case. C114_ends: no process is drawn as the last one if one of them is a kernel thread. C114_lines: groups are drawn with the right lines."
  },
  {
   "property": "C115",
   "status": "partial",
   "theorems": [
    "Verif.C115_partial",
    "Verif.C115_stale",
    "Verif.C115_min",
    "Verif.C115_full_false"
   ],
   "note": "C115_full_false: a group without a setting is shown with that of the group shown before; C115_stale says for which settings. C115_min: of a reservation of a million bytes or more only the first six digits are shown. C115_partial proves the claim for any number of groups that have all settings, none of them longer than its column of six."
  },
  {
   "property": "C116",
   "status": "partial",
   "theorems": [
    "Verif.C116_dir",
    "Verif.C116_partial",
    "Verif.C116_default",
    "Verif.C116_comment",
    "Verif.C116_crash",
    "Verif.C116_late",
    "Verif.C116_full_false"
   ],
   "note": "C116_full_false: with an empty name (finit.config= on the kernel command line) initctl crashes before it does anything, C116_crash. C116_comment: a name with # is cut by initctl. C116_late: an rcsd line in a file other than the main one is used by Finit, but .initrc was written before it was read, so initctl works on another directory. C116_partial proves the claim for names that are not empty, begin with neither = nor a quote and have no # or backslash, if rcsd lines are only in the main file."
  },
  {
   "property": "C117",
   "status": "partial",
   "theorems": [
    "Verif.C117_all",
    "Verif.C117_partial",
    "Verif.C117_terminal",
    "Verif.C117_crash",
    "Verif.C117_over",
    "Verif.C117_one",
    "Verif.C117_full_false"
   ],
   "note": "C117_full_false, C117_crash: if there are two files and the name of one does not leave two columns, initctl is ended by a division by zero, also with -j. C117_over: with short names rows are longer than the terminal, twelve names of six characters take 94 columns of 80. C117_all proves that otherwise all names are shown in order with columns as wide as the longest; C117_partial that rows fit if the longest name is not too short for the width, C117_terminal that ten characters are enough for 80 columns."
  },
  {
   "property": "C118",
   "status": "partial",
   "theorems": [
    "Verif.C118_boot",
    "Verif.C118_halt",
    "Verif.C118_partial",
    "Verif.C118_blank",
    "Verif.C118_cut",
    "Verif.C118_full_false"
   ],
   "note": "C118_full_false: an area with the option noauto is turned on at bootstrap. C118_blank: a name with a blank (\\040 in the table) is taken for two names. C118_cut: a name of 248 characters is turned on, but cut when it is turned off. C118_boot and C118_halt say for all tables with names of up to 247 characters that mean nothing else to a shell exactly what is in use; C118_partial is the claim for such tables without noauto. That file systems are unmounted after it is in Verif/Umount.lean (C67)."
  },
  {
   "property": "C119",
   "status": "partial",
   "theorems": [
    "Verif.C119_quoted",
    "Verif.C119_partial",
    "Verif.C119_word",
    "Verif.C119_none",
    "Verif.C119_full_false"
   ],
   "note": "C119_full_false, C119_word: a name that is not in quotes is shown with the end of its line, which breaks the banner. Of several lines the first counts, not the last as for a shell. C119_partial proves the claim for names in quotes if no line before it gives one; C119_quoted says that whatever is between the quotes is shown, so that escapes are shown as they are. C119_none: without file or line it is the name of Finit."
  }
 ]
}
