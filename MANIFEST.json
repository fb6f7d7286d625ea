{
 "claims": [
  {
   "property": "C01",
   "status": "proved",
   "theorems": [
    "Ruroco.C01_plaintext_round_trip",
    "Ruroco.C01_plaintext_round_trip_exact"
   ],
   "note": "All requests; the \"::\" exception is part of the statement."
  },
  {
   "property": "C02",
   "status": "proved",
   "theorems": [
    "Ruroco.C02_rejects_iff_version",
    "Ruroco.C02_decoding_unambiguous"
   ],
   "note": "All 58-byte strings."
  },
  {
   "property": "C03",
   "status": "proved",
   "theorems": [
    "Ruroco.C03_datagram_framing",
    "Ruroco.C03_size_never_varies",
    "Ruroco.C03_plaintext_size"
   ],
   "note": "AES-256-GCM-SIV is abstract; its functional contract (Aead.Correct) is a hypothesis."
  },
  {
   "property": "C04",
   "status": "proved",
   "theorems": [
    "Ruroco.C04_key_text_round_trip",
    "Ruroco.C04_key_accepted_iff",
    "Ruroco.C04_base64_canonical",
    "Ruroco.C04_white_space"
   ],
   "note": "Concrete base64 STANDARD codec."
  },
  {
   "property": "C05",
   "status": "proved",
   "theorems": [
    "Ruroco.C05_ipc_round_trip",
    "Ruroco.C05_ipc_every_message",
    "Ruroco.C05_ipc_injective"
   ],
   "note": ""
  },
  {
   "property": "C06",
   "status": "proved",
   "theorems": [
    "Ruroco.C06_normalize_idempotent",
    "Ruroco.C06_normalize_canonical",
    "Ruroco.C06_wire_form"
   ],
   "note": ""
  },
  {
   "property": "C07",
   "status": "proved",
   "theorems": [
    "Ruroco.C07_counters_strictly_increase"
   ],
   "note": "Invariant over all histories (starts, packets, failing calls, crashes, kills, power losses)."
  },
  {
   "property": "C08",
   "status": "proved",
   "theorems": [
    "Ruroco.C08_persisted_before_forward"
   ],
   "note": "Holds at every moment of every history."
  },
  {
   "property": "C09",
   "status": "proved",
   "theorems": [
    "Ruroco.C09_rejected_leaves_state",
    "Ruroco.C09_unacceptable_is_inert",
    "Ruroco.C09_other_keys_untouched"
   ],
   "note": "All outcomes, failing calls and crash points of processing one datagram."
  },
  {
   "property": "C10",
   "status": "proved",
   "theorems": [
    "Ruroco.C10_future_refused",
    "Ruroco.C10_counters_bounded"
   ],
   "note": ""
  },
  {
   "property": "C11",
   "status": "proved",
   "theorems": [
    "Ruroco.C11_only_authenticated"
   ],
   "note": "Unforgeability of the cipher is an explicit hypothesis inside the statement."
  },
  {
   "property": "C12",
   "status": "proved",
   "theorems": [
    "Ruroco.C12_destination_pinned",
    "Ruroco.C12_packet_for_other_server"
   ],
   "note": ""
  },
  {
   "property": "C13",
   "status": "proved",
   "theorems": [
    "Ruroco.C13_source_pinning"
   ],
   "note": ""
  },
  {
   "property": "C14",
   "status": "proved",
   "theorems": [
    "Ruroco.C14_failed_save_no_execution",
    "Ruroco.C14_retry_works"
   ],
   "note": "Failure of any system call of the save."
  },
  {
   "property": "C15",
   "status": "proved",
   "theorems": [
    "Ruroco.C15_forwards_only_if_acceptable",
    "Ruroco.C15_forwards_iff_acceptable"
   ],
   "note": "Iff against the independent predicate Spec.Acceptable."
  },
  {
   "property": "C16",
   "status": "partial",
   "theorems": [
    "Ruroco.C16_start_preserves_counters_partial",
    "Ruroco.C16_counters_never_decrease_partial",
    "Ruroco.C16_stat_failure_resets",
    "Ruroco.C16_kept_iff"
   ],
   "note": "False when stat of the file fails (Path::exists then says absent): refuted by a concrete history; proved otherwise. C16_kept_iff: a start that reported success has kept a stored counter if and only if its stat call did not fail."
  },
  {
   "property": "C17",
   "status": "partial",
   "theorems": [
    "Ruroco.C17_new_key_floor_partial",
    "Ruroco.C17_older_than_start_accepted",
    "Ruroco.C17_accepted_iff"
   ],
   "note": "Documented claim is false for keys with a stored counter: refuted; proved for newly seeded keys. C17_accepted_iff says exactly what a started server accepts: counters above the stored one or, for a key without one, above the time of the start."
  },
  {
   "property": "C18",
   "status": "proved",
   "theorems": [
    "Ruroco.C18_no_datagram_stops_the_loop",
    "Ruroco.C18_loop_ends_only_on",
    "Ruroco.C18_shutdown_is_prompt"
   ],
   "note": "All sequences of receive results, failing calls and shutdown times."
  },
  {
   "property": "C19",
   "status": "proved",
   "theorems": [
    "Ruroco.C19_own_limit_per_second",
    "Ruroco.C19_global_limit_per_second",
    "Ruroco.C19_own_limit_per_window",
    "Ruroco.C19_global_limit_per_window",
    "Ruroco.C19_server_own_limit",
    "Ruroco.C19_server_global_limit"
   ],
   "note": "Limit 0 acts like 1 (the code admits the request that resets an expired window); \"within one window\" is stated as: after a second without requests."
  },
  {
   "property": "C20",
   "status": "proved",
   "theorems": [
    "Ruroco.C20_memory_bounded"
   ],
   "note": ""
  },
  {
   "property": "C21",
   "status": "proved",
   "theorems": [
    "Ruroco.C21_refused_only_if_own_limit_used",
    "Ruroco.C21_refused_only_if_global_limit_used",
    "Ruroco.C21_other_sources_irrelevant",
    "Ruroco.C21_no_other_refusal"
   ],
   "note": ""
  },
  {
   "property": "C22",
   "status": "proved",
   "theorems": [
    "Ruroco.C22_lines_five_seconds_apart",
    "Ruroco.C22_first_is_reported",
    "Ruroco.C22_nothing_lost",
    "Ruroco.C22_reported_when_due",
    "Ruroco.C22_server_throttle"
   ],
   "note": ""
  },
  {
   "property": "C23",
   "status": "partial",
   "theorems": [
    "Ruroco.C23_socket_priority_partial",
    "Ruroco.C23_fd_only_if_activated",
    "Ruroco.C23_half_set_falls_back",
    "Ruroco.C23_refused_iff"
   ],
   "note": "C23_refused_iff says exactly when the server refuses. Decision table proved; \"inconsistent variables are refused\" is false when only one of LISTEN_PID/LISTEN_FDS is set."
  },
  {
   "property": "C24",
   "status": "proved",
   "theorems": [
    "Ruroco.C24_keys_loaded_iff",
    "Ruroco.C24_usable_keys"
   ],
   "note": ""
  },
  {
   "property": "C25",
   "status": "proved",
   "theorems": [
    "Ruroco.C25_trace_shape"
   ],
   "note": ""
  },
  {
   "property": "C26",
   "status": "proved",
   "theorems": [
    "Ruroco.C26_selected_is_configured",
    "Ruroco.C26_unknown_hash",
    "Ruroco.C26_configured_is_selected",
    "Ruroco.C26_only_configured_run"
   ],
   "note": ""
  },
  {
   "property": "C27",
   "status": "proved",
   "theorems": [
    "Ruroco.C27_refused_iff_in_block",
    "Ruroco.C27_mapped_notation_refused",
    "Ruroco.C27_no_command_for_refused"
   ],
   "note": ""
  },
  {
   "property": "C28",
   "status": "partial",
   "theorems": [
    "Ruroco.C28_killed_only_after_deadline",
    "Ruroco.C28_finished_not_killed_partial",
    "Ruroco.C28_killed_although_finished",
    "Ruroco.C28_status_is_genuine",
    "Ruroco.C28_deadline_enforced",
    "Ruroco.C28_killed_iff",
    "Ruroco.C28_no_deadline",
    "Ruroco.C28_poll_failure_leaves_child",
    "Ruroco.C28_capture_files_removed",
    "Ruroco.C28_report_matches",
    "Ruroco.C28_configured_limit_applies"
   ],
   "note": "False in two corners, both refuted by concrete runs: a command ending between the poll and the clock reading is killed, and a failing poll or kill leaves the command running. Everything else proved."
  },
  {
   "property": "C29",
   "status": "proved",
   "theorems": [
    "Ruroco.C29_keeps_serving",
    "Ruroco.C29_connections_independent",
    "Ruroco.C29_failures_only_omit"
   ],
   "note": ""
  },
  {
   "property": "C30",
   "status": "proved",
   "theorems": [
    "Ruroco.C30_socket_never_open"
   ],
   "note": "Every failure point and every kill point of start-up is an outcome of the model."
  },
  {
   "property": "C31",
   "status": "proved",
   "theorems": [
    "Ruroco.Locks.C31_mutual_exclusion",
    "Ruroco.Locks.C31_refused_only_by_live_holder",
    "Ruroco.Locks.C31_live_socket_is_own",
    "Ruroco.Locks.C31_guarded_parts_disjoint",
    "Ruroco.C31_second_commander_leaves_socket"
   ],
   "note": "Any number of processes, any interleaving at system call granularity; the semantics of flock(2) is modelled."
  },
  {
   "property": "C32",
   "status": "proved",
   "theorems": [
    "Ruroco.C32_counters_never_reused",
    "Ruroco.C32_datagram_carries_counter",
    "Ruroco.C32_disk_never_lowered"
   ],
   "note": "With power losses: provided the best-effort directory fsync did not fail (see C55)."
  },
  {
   "property": "C33",
   "status": "proved",
   "theorems": [
    "Ruroco.C33_existing_untouched",
    "Ruroco.C33_missing_seeded",
    "Ruroco.C33_seed_is_now",
    "Ruroco.C33_no_wrap",
    "Ruroco.C33_reseed"
   ],
   "note": ""
  },
  {
   "property": "C34",
   "status": "proved",
   "theorems": [
    "Ruroco.C34_every_destination_tried",
    "Ruroco.tried_wire"
   ],
   "note": ""
  },
  {
   "property": "C35",
   "status": "proved",
   "theorems": [
    "Ruroco.C35_only_v4",
    "Ruroco.C35_only_v6",
    "Ruroco.C35_no_preference",
    "Ruroco.C35_unresolved",
    "Ruroco.C35_bounds"
   ],
   "note": ""
  },
  {
   "property": "C36",
   "status": "proved",
   "theorems": [
    "Ruroco.C36_socket_kept",
    "Ruroco.C36_canonical_kept",
    "Ruroco.C36_bare_ip",
    "Ruroco.C36_bare_host",
    "Ruroco.C36_host_port",
    "Ruroco.C36_accepts_iff",
    "Ruroco.C36_result_has_port",
    "Ruroco.C36_idempotent"
   ],
   "note": "std address parsing and printing are modelled character by character."
  },
  {
   "property": "C37",
   "status": "proved",
   "theorems": [
    "Ruroco.C37_end_to_end"
   ],
   "note": "client run, delivery of its datagram, server and commander composed: exactly one spawn of the configured command, none on any later delivery; hypotheses (operations succeed, key known, address admitted, clocks within bounds) are structures with concrete instances"
  },
  {
   "property": "C38",
   "status": "proved",
   "theorems": [
    "Ruroco.C38_forwards_genuine_and_distinct"
   ],
   "note": "Server side; unforgeability enters as the meaning of \"sealed under a key of the table\"."
  },
  {
   "property": "C39",
   "status": "proved",
   "theorems": [
    "Ruroco.C39_never_locked_out"
   ],
   "note": "Joint histories of client machine and server machine over a hostile network. Assumptions in the statement: unforgeability of datagrams under the key, seed time T between server setup and client setup, reseeds do not lower the counter; after a power loss the directory syncs did not fail (C55) and the stat calls succeeded (C16/C17)."
  },
  {
   "property": "C40",
   "status": "partial",
   "theorems": [
    "Ruroco.C40_reseed_recovers_partial",
    "Ruroco.C40_reseed_can_stay_below",
    "Ruroco.C40_recovers_iff"
   ],
   "note": "The documented claim is refuted with a concrete history (a counter accepted ahead of the server clock, within the skew, stays above a later reseed). Proved instead: a reseed at a client time not before every server clock reading plus the configured skew recovers, whatever was in the counter file. C40_recovers_iff says exactly when: if and only if the stored counter is not above the time of the reseed."
  },
  {
   "property": "C41",
   "status": "proved",
   "theorems": [
    "Ruroco.C41_atomic_replacement",
    "Ruroco.C41_atomic_under_power_loss"
   ],
   "note": "Every failing call, partial write, crash point and power loss."
  },
  {
   "property": "C42",
   "status": "partial",
   "theorems": [
    "Ruroco.C42_keeps_configuration_partial",
    "Ruroco.C42_success",
    "Ruroco.C42_success_means_started",
    "Ruroco.C42_kept_iff",
    "Ruroco.C42_failed_stat_overwrites",
    "Ruroco.C42_torn_template_kept"
   ],
   "note": "False when stat fails (the existing configuration is overwritten) and for a fresh install interrupted while writing the template (the next run keeps the torn file); both have a witness theorem. Proved otherwise, over any number of runs and any failure or crash point. C42_kept_iff: a run that reports success has kept an edited file if and only if looking for it did not fail, otherwise the file holds the template."
  },
  {
   "property": "C43",
   "status": "proved",
   "theorems": [
    "Ruroco.C43_nothing_touched",
    "Ruroco.C43_only_verified",
    "Ruroco.C43_success"
   ],
   "note": ""
  },
  {
   "property": "C44",
   "status": "partial",
   "theorems": [
    "Ruroco.C44_all_or_nothing_partial",
    "Ruroco.C44_failed_backup_deletes_binary",
    "Ruroco.C44_partial_backup_truncates_binary",
    "Ruroco.C44_failed_stat_deletes_binary",
    "Ruroco.C44_stale_backup_installed",
    "Ruroco.C44_crash_mixes"
   ],
   "note": "False as stated: four failure patterns (backup copy fails before or after creating the copy, stat fails, left-over .old) destroy or replace a working binary, and a crash can leave old and new side by side; each has a witness theorem. Proved without these: contents and modes are restored on every error, and every binary is old or verified-new at every crash point."
  },
  {
   "property": "C45",
   "status": "proved",
   "theorems": [
    "Ruroco.C45_comparison",
    "Ruroco.C45_order",
    "Ruroco.C45_text_injective",
    "Ruroco.C45_no_downgrade",
    "Ruroco.C45_explicit",
    "Ruroco.C45_older_on_request"
   ],
   "note": ""
  },
  {
   "property": "C46",
   "status": "proved",
   "theorems": [
    "Ruroco.C46_release",
    "Ruroco.C46_release_unique",
    "Ruroco.C46_asset"
   ],
   "note": "that exactly the assets with these names are what gets installed is part of Authentic in C43_only_verified and C43_success"
  },
  {
   "property": "C47",
   "status": "proved",
   "theorems": [
    "Ruroco.C47_chars",
    "Ruroco.C47_injective",
    "Ruroco.C47_no_shell_syntax"
   ],
   "note": ""
  },
  {
   "property": "C48",
   "status": "proved",
   "theorems": [
    "Ruroco.C48_parse_show",
    "Ruroco.C48_parse_show_socket"
   ],
   "note": ""
  },
  {
   "property": "C49",
   "status": "proved",
   "theorems": [
    "Ruroco.C49_round_trip",
    "Ruroco.C49_text_injective",
    "Ruroco.C49_list_round_trip",
    "Ruroco.C49_old_file",
    "Ruroco.C49_space_is_lost",
    "Ruroco.C04_white_space"
   ],
   "note": "C49_space_is_lost shows that the restriction to fields without white space is needed"
  },
  {
   "property": "C50",
   "status": "proved",
   "theorems": [
    "Ruroco.C50_sorted_multiset",
    "Ruroco.C50_add_saves_the_form",
    "Ruroco.C50_stable",
    "Ruroco.C50_restart",
    "Ruroco.C50_reload"
   ],
   "note": "the toml crate is a parameter: ListCodec.Correct says that what it writes it reads back"
  },
  {
   "property": "C51",
   "status": "partial",
   "theorems": [
    "Ruroco.C51_color_partial",
    "Ruroco.C51_removed_by_text_keeps_color"
   ],
   "note": "False as stated for a command deleted by editing the text: it keeps its colour when added again. Proved for deletion by the delete button."
  },
  {
   "property": "C52",
   "status": "proved",
   "theorems": [
    "Ruroco.C52_replay_file_round_trip",
    "Ruroco.C52_truncated_file_refused",
    "Ruroco.C52_accepted_is_well_formed"
   ],
   "note": "Concrete MessagePack codec; the reader accepts integers and array lengths in every form, but not a struct written as a map of field names."
  },
  {
   "property": "C53",
   "status": "partial",
   "theorems": [
    "Ruroco.C53_datagrams_per_send_partial",
    "Ruroco.C53_executions_per_send_partial",
    "Ruroco.C53_dual_stack_executes_twice",
    "Ruroco.C53_order_decides"
   ],
   "note": "false as stated: a dual-stack send emits two datagrams with two counters and both execute (witness theorem). Proved: at most one datagram per resolved destination (two at most), distinct counters, and at most that many executions over any later history; and, if the server admits both, that the order of arrival decides: twice in the order of sending, once in the other"
  },
  {
   "property": "C54",
   "status": "proved",
   "theorems": [
    "Ruroco.C54_cap"
   ],
   "note": ""
  },
  {
   "property": "C55",
   "status": "partial",
   "theorems": [
    "Ruroco.C55_success_survives_power_loss_partial",
    "Ruroco.C55_success_can_be_lost",
    "Ruroco.C55_survives_iff"
   ],
   "note": "False in general: the directory fsync is best effort; refuted with a witness, proved when it succeeds. C55_survives_iff says exactly when: a reported write of new content survives every power loss if and only if the directory fsync worked."
  },
  {
   "property": "C56",
   "status": "partial",
   "theorems": [
    "Ruroco.C56_short_rejected_partial",
    "Ruroco.C56_longer_is_processed",
    "Ruroco.C56_rejected_iff"
   ],
   "note": "False for longer datagrams (94-byte receive buffer truncates them): refuted in general; proved for shorter ones. C56_rejected_iff: refused for its size if and only if shorter than 94 bytes."
  },
  {
   "property": "C57",
   "status": "partial",
   "theorems": [
    "Ruroco.C57_second_start_lowers_counter",
    "Ruroco.C57_uninterleaved_start_partial",
    "Ruroco.C57_second_start_puts_back",
    "Ruroco.C57_lowered_iff"
   ],
   "note": "False: no instance lock and the replay state is written before the port is bound; refuted by a concrete interleaving ending in a replay; proved when no datagram is handled in between. C57_second_start_puts_back and C57_lowered_iff say exactly what happens otherwise: the counters read are put back, so a counter goes down if and only if it grew in between."
  },
  {
   "property": "C58",
   "status": "partial",
   "theorems": [
    "Ruroco.C58_readable_partial",
    "Ruroco.C58_readable_iff",
    "Ruroco.C58_fresh_install_unreadable",
    "Ruroco.C58_run_revokes_access"
   ],
   "note": "False as stated: on every fresh install config.toml is 0600 and owned by the installing user, and a second run also revokes group access. Proved only when the file already belongs to the server user."
  },
  {
   "property": "C59",
   "status": "partial",
   "theorems": [
    "Ruroco.C59_executable_partial",
    "Ruroco.C59_after_failure",
    "Ruroco.C59_lost_iff",
    "Ruroco.C59_executable_for_all",
    "Ruroco.C59_rollback_loses_owner"
   ],
   "note": "False as stated: the rollback restores a copy owned by the updating user. Proved for successful updates, for those failing before installation, and for a binary that everybody may execute; for one as installed (0500) `C59_lost_iff` shows that it stays executable exactly if the update fails before getting to it."
  },
  {
   "property": "C60",
   "status": "proved",
   "theorems": [
    "Ruroco.C60_private",
    "Ruroco.C60_removed"
   ],
   "note": ""
  },
  {
   "property": "C61",
   "status": "partial",
   "theorems": [
    "Ruroco.C61_unedited_save_partial",
    "Ruroco.C61_unchanged_iff",
    "Ruroco.C61_deleted_command_returns"
   ],
   "note": "False after a deletion on the Execute tab: the text is not refreshed and saving it brings the command back. Proved when nothing was deleted since the text was last generated. `C61_unchanged_iff` gives the list after the save in all cases without white space in a field: the list of the time at which the text was generated, so it changes exactly when one of the commands deleted since was in it."
  },
  {
   "property": "C62",
   "status": "partial",
   "theorems": [
    "Ruroco.C62_preserved_partial",
    "Ruroco.C62_whole_or_untouched",
    "Ruroco.C62_always_lost",
    "Ruroco.C62_unread_list_is_lost"
   ],
   "note": "False: after any start at which the list could not be read or parsed, the first command added replaces the whole file (`C62_always_lost`, for every file and every reason). Proved: starting, executing and editing text change nothing, and the file is never left half written."
  },
  {
   "property": "C63",
   "status": "proved",
   "theorems": [
    "Ruroco.C63_datagram_says_what_was_asked",
    "Ruroco.C63_unusable_refused"
   ],
   "note": "`--ip ::` cannot be claimed: on the wire :: stands for none"
  },
  {
   "property": "C64",
   "status": "proved",
   "theorems": [
    "Ruroco.C64_only_keys_of_last_start",
    "Ruroco.C64_revoked_key_is_dead"
   ],
   "note": ""
  },
  {
   "property": "C65",
   "status": "proved",
   "theorems": [
    "Ruroco.C65_keys_do_not_interfere"
   ],
   "note": "for runs in which the shared rate limiter refuses nothing and the system calls of the server work"
  },
  {
   "property": "C66",
   "status": "proved",
   "theorems": [
    "Ruroco.C66_server_settings",
    "Ruroco.C66_commander_settings",
    "Ruroco.C66_in_force"
   ],
   "note": "for the table the file parses to; the TOML parser is not modelled, dates are left out"
  },
  {
   "property": "C67",
   "status": "partial",
   "theorems": [
    "Ruroco.C67_known_settings_partial",
    "Ruroco.C67_unknown_ignored",
    "Ruroco.C67_server_ignores_iff",
    "Ruroco.C67_commander_ignores_iff",
    "Ruroco.C67_commands_file_ignores_iff",
    "Ruroco.C67_command_ignores_iff",
    "Ruroco.C67_command_line_ignored",
    "Ruroco.C67_misspelt_limit_ignored",
    "Ruroco.C67_misspelt_timeout_ignored"
   ],
   "note": "false for the code: an unknown (misspelt) key is ignored; known keys take effect or are refused. The ignored keys are exactly the unknown ones, in config.toml for either program and on both levels of commands.toml"
  },
  {
   "property": "C68",
   "status": "proved",
   "theorems": [
    "Ruroco.C68_same_socket",
    "Ruroco.C68_absolute",
    "Ruroco.C68_relative_differs"
   ],
   "note": "C68_relative_differs shows the restriction for relative directories is needed"
  },
  {
   "property": "C69",
   "status": "proved",
   "theorems": [
    "Ruroco.C69_accepted_iff",
    "Ruroco.C69_commands"
   ],
   "note": "if no two configured names have the same hash (cf. C26)"
  },
  {
   "property": "C70",
   "status": "partial",
   "theorems": [
    "Ruroco.C70_filter_never_matches",
    "Ruroco.C70_rest_of_filter_partial",
    "Ruroco.C70_suppressed_not_matched"
   ],
   "note": "False as stated: the filter never matches any complaint, because the log has milliseconds the filter does not allow for. Proved: without the milliseconds every complaint with nothing suppressed before it would match; those with suppressed ones would still not."
  },
  {
   "property": "C71",
   "status": "partial",
   "theorems": [
    "Ruroco.C71_read_bounded_partial",
    "Ruroco.C71_trickling_peer"
   ],
   "note": "False as stated: the limit of one second is for each read, so a peer that sends a byte now and then holds the commander for almost 24 seconds. Proved: never more than 24 seconds, and one second for a peer that sends nothing."
  },
  {
   "property": "C72",
   "status": "proved",
   "theorems": [
    "Ruroco.C72_waiting_is_bounded"
   ],
   "note": "the fixed time is 24 s for reading (see C71), the largest time limit, 50 ms and the delays of the machine; the clock and the machine are unhindered as stated by AllUnhindered"
  },
  {
   "property": "C73",
   "status": "partial",
   "theorems": [
    "Ruroco.C73_installed_partial",
    "Ruroco.C73_installed_iff",
    "Ruroco.C73_server_left_old"
   ],
   "note": "False as stated: whether there is anything to do is decided by the version of the running client, so update --server of an up-to-date client leaves old server binaries. Proved if forced or if the running program is not of the chosen release."
  },
  {
   "property": "C74",
   "status": "proved",
   "theorems": [
    "Ruroco.C74_only_there",
    "Ruroco.C74_unusable",
    "Ruroco.C74_unwritable"
   ],
   "note": ""
  },
  {
   "property": "C75",
   "status": "partial",
   "theorems": [
    "Ruroco.C75_signed_partial",
    "Ruroco.C75_old_binary_under_new_tag"
   ],
   "note": "False as stated: signatures cover neither name nor version. Proved: only binaries signed by the makers (as whatever) are installed."
  },
  {
   "property": "C76",
   "status": "partial",
   "theorems": [
    "Ruroco.C76_same_files_partial",
    "Ruroco.C76_lock_beside_counter",
    "Ruroco.C76_depends_on_directory",
    "Ruroco.C76_same_counter_iff"
   ],
   "note": "False without HOME and RUROCO_CONF_DIR or with a relative one: the working directory decides. Proved for absolute ones, and C76_same_counter_iff: exactly for these; the lock is beside the counter always."
  },
  {
   "property": "C77",
   "status": "partial",
   "theorems": [
    "Ruroco.C77_keys_side_by_side_partial",
    "Ruroco.C77_retired_key_keeps_counter",
    "Ruroco.C77_needs_restart"
   ],
   "note": "False as stated: a running server does not see new key files. Proved: with a restart after each change, all keys work side by side and a retired one does not (see also C64)."
  },
  {
   "property": "C78",
   "status": "partial",
   "theorems": [
    "Ruroco.C78_hash_needed_partial",
    "Ruroco.C78_guessed_name"
   ],
   "note": "False as stated: the hash involves no secret, so a guessed name (e.g. default) suffices. Proved: a command runs only if the hash of its name is sent."
  },
  {
   "property": "C79",
   "status": "proved",
   "theorems": [
    "Ruroco.C79_executions_explained",
    "Ruroco.C79_executed_at_most_once",
    "Ruroco.C79_configured_command_runs"
   ],
   "note": "under the conditions of C07 for at most once (no failed stat of the state file; after power losses, no failed directory sync); command names hash differently"
  },
  {
   "property": "C80",
   "status": "proved",
   "theorems": [
    "Ruroco.C80_server_writes_only_state"
   ],
   "note": "for an absolute directory (a relative one is taken from the working directory, C68)"
  },
  {
   "property": "C81",
   "status": "partial",
   "theorems": [
    "Ruroco.C81_key_shown",
    "Ruroco.C81_paste_target_partial",
    "Ruroco.C81_answered_at_once",
    "Ruroco.C81_stray_paste"
   ],
   "note": "False as stated: a paste button pressed with an empty clipboard stays armed, so that the next Ctrl+V into another field replaces the key too. Proved: the key shown is determined by what the user did, with exactly this exception; none if each request for the clipboard is answered at once."
  },
  {
   "property": "C82",
   "status": "partial",
   "theorems": [
    "Ruroco.C82_server_partial",
    "Ruroco.C82_client_partial",
    "Ruroco.C82_leftovers_grow"
   ],
   "note": "False as stated: a write that fails leaves its temporary file, nothing removes it, and a refused request can be repeated. Proved: at most one file per failing or interrupted call, none while nothing fails (no power loss)."
  },
  {
   "property": "C83",
   "status": "partial",
   "theorems": [
    "Ruroco.C83_completed_shell_gone",
    "Ruroco.C83_shell_gone_partial",
    "Ruroco.C83_others_survive",
    "Ruroco.C83_orphans_survive",
    "Ruroco.C83_background_untouched"
   ],
   "note": "False as stated: only the shell is killed. Proved: the shell is gone and forks nothing any more, a command without further processes is gone; every other process forked before the kill survives unchanged, exactly as without a time limit (general refutation and a case in which it overlaps with the next command)."
  },
  {
   "property": "C84",
   "status": "partial",
   "theorems": [
    "Ruroco.C84_no_stall_partial",
    "Ruroco.C84_stall_bounded",
    "Ruroco.C84_stall_bounded_by_limit",
    "Ruroco.C84_hung_commander",
    "Ruroco.C84_stalled_for_an_hour"
   ],
   "note": "False as stated: connect has no time limit. Proved: a request is handed over at once exactly when the queue is not full; with a commander that needs at most D per connection no request waits longer than D; a commander that hangs stops the server for good once the queue is full."
  },
  {
   "property": "C85",
   "status": "proved",
   "theorems": [
    "Ruroco.C85_send_confined",
    "Ruroco.C85_reseed_confined",
    "Ruroco.C85_history_confined",
    "Ruroco.C85_history_files",
    "Ruroco.C85_ui_start",
    "Ruroco.C85_ui_confined",
    "Ruroco.C85_frame_confined"
   ],
   "note": "The key, given on the command line, is an argument; `ls` and the update command are not part of it (C74)."
  },
  {
   "property": "C86",
   "status": "partial",
   "theorems": [
    "Ruroco.C86_failures_are_errors",
    "Ruroco.C86_every_execution_recorded_partial",
    "Ruroco.C86_killed",
    "Ruroco.C86_output_partial",
    "Ruroco.C86_output_lost",
    "Ruroco.C86_client_lost",
    "Ruroco.C86_refused_said_running",
    "Ruroco.C86_captures_private",
    "Ruroco.C86_text_ambiguous"
   ],
   "note": "False as stated: the record with the address is written after the command has ended, so a commander that ends during a command leaves none; output that is not UTF-8 is shown as nothing; a refused request is first logged as running. Proved: unless the commander is killed there is exactly one record per execution, in order, with text and address; at most one is missing otherwise; text output is shown in full; capture files are private and removed."
  },
  {
   "property": "C87",
   "status": "proved",
   "theorems": [
    "Ruroco.C87_start_confined",
    "Ruroco.C87_serving_confined"
   ],
   "note": ""
  },
  {
   "property": "C88",
   "status": "proved",
   "theorems": [
    "Ruroco.C88_update_confined",
    "Ruroco.C88_wizard_confined",
    "Ruroco.C88_programs",
    "Ruroco.C88_again"
   ],
   "note": "Running again: if looking for one of the two configuration files does not fail (C42); for the binary of the commander contents and mode, not owner."
  },
  {
   "property": "C89",
   "status": "proved",
   "theorems": [
    "Ruroco.C89_flood_leaves_no_trace",
    "Ruroco.C89_over_after_a_second",
    "Ruroco.C89_forged_source_locks_out",
    "Ruroco.C89_spray_locks_everybody_out"
   ],
   "note": "System calls working (`deliver`); limits of at least one; the server has had its limiter since time t0 and has been sent anything before."
  },
  {
   "property": "C90",
   "status": "proved",
   "theorems": [
    "Ruroco.C90_send",
    "Ruroco.C90_send_without_the_key",
    "Ruroco.C90_server",
    "Ruroco.C90_client"
   ],
   "note": "The texts of error messages are not modelled: the message about a malformed key text names the first symbol that is not base64. The key file the UI writes for one send is C60. Timing is not observed."
  },
  {
   "property": "C91",
   "status": "proved",
   "theorems": [
    "Ruroco.C91_one_draw_each",
    "Ruroco.C91_no_draw_used_twice",
    "Ruroco.C91_nonces_differ",
    "Ruroco.C91_plaintexts_differ"
   ],
   "note": "The generator (OpenSSL) is a parameter; it returns the number of bytes asked for or fails."
  },
  {
   "property": "C92",
   "status": "proved",
   "theorems": [
    "Ruroco.C92_server_permitted",
    "Ruroco.C92_outside_never_starts",
    "Ruroco.C92_only_inherited_socket",
    "Ruroco.C92_port",
    "Ruroco.C92_commander_permitted",
    "Ruroco.C92_shipped_configuration",
    "Ruroco.C92_blocklist_dir_mandatory"
   ],
   "note": "What systemd makes of the lines of the units is modelled only as far as paths, system calls, capabilities, socket families and binding go. The commands started by the commander are not considered."
  },
  {
   "property": "C93",
   "status": "proved",
   "theorems": [
    "Ruroco.C93_state_bounded_by_keys",
    "Ruroco.C93_bounded_work",
    "Ruroco.C93_work_is_linear"
   ],
   "note": "The memory of the rate limiter is the subject of C20. With a power loss in the history the initial file is assumed to be on disk. Reading the clock and receiving the datagram are not counted as calls. Temporary files left behind by crashes are the subject of C82."
  },
  {
   "property": "C94",
   "status": "partial",
   "theorems": [
    "Ruroco.C94_refines_loop",
    "Ruroco.C94_stops_in_time_partial",
    "Ruroco.C94_flag_stops",
    "Ruroco.C94_at_most_one_more",
    "Ruroco.C94_interrupted_is_not_forwarded",
    "Ruroco.C94_signal_frees",
    "Ruroco.C94_no_service_without_timeout",
    "Ruroco.C94_request_lost",
    "Ruroco.C94_may_never_stop"
   ],
   "note": "False as stated, in two ways, both shown by witnesses: a request that waits for the commander when the signal comes loses its counter without being handed over, and with a commander that hangs the server may never stop. Proved: everything else, that is, if the commander lets every connect return within K, the loop ends at most one second and the time for one datagram after the signal; at most one more datagram is received; requests whose connect need not wait are processed as without the signal."
  },
  {
   "property": "C95",
   "status": "partial",
   "theorems": [
    "Ruroco.C95_forward_is_announced",
    "Ruroco.C95_announcement_is_true",
    "Ruroco.C95_success_is_true",
    "Ruroco.C95_failure_is_true",
    "Ruroco.C95_outcome_is_told_partial",
    "Ruroco.C95_level_tells_partial",
    "Ruroco.C95_all_accounted_for",
    "Ruroco.C95_hidden_failure",
    "Ruroco.C95_text_tells_all",
    "Ruroco.C95_one_line"
   ],
   "note": "One part is false, shown by a witness: the failure to store the counter of an accepted request goes through the same throttle as garbage, so it may have no error line. Everything else is proved; the texts of the failures are a parameter here (assumed to have no line break; for what the server refuses this is C124_one_line)."
  },
  {
   "property": "C96",
   "status": "proved",
   "theorems": [
    "Ruroco.C96_understood_iff",
    "Ruroco.C96_client_understands",
    "Ruroco.C96_every_request_can_be_written",
    "Ruroco.C96_requests_are_such",
    "Ruroco.C96_order_irrelevant",
    "Ruroco.C96_missing_value",
    "Ruroco.C96_missing_value_letters",
    "Ruroco.C96_unknown_option",
    "Ruroco.C96_twice_refused",
    "Ruroco.C96_not_understood",
    "Ruroco.C96_datagram_says_what_the_line_says",
    "Ruroco.C96_programs_only_for_wizard",
    "Ruroco.C96_server_reads",
    "Ruroco.C96_commander_reads",
    "Ruroco.C96_shipped_units_read_installed_files",
    "Ruroco.C96_options_as_documented",
    "Ruroco.C96_service_options",
    "Ruroco.C96_help_and_version"
   ],
   "note": "The option tables are the program's; how a table is applied to arguments is clap's, modelled after its documentation."
  },
  {
   "property": "C97",
   "status": "proved",
   "theorems": [
    "Ruroco.C97_set_up_works",
    "Ruroco.C97_server_starts",
    "Ruroco.C97_commander_starts"
   ],
   "note": "The programs from their command lines on; the set-up is described in `Spec/Setup` without reference to the running programs. TOML text to table is the parser's."
  },
  {
   "property": "C98",
   "status": "proved",
   "theorems": [
    "Ruroco.C98_shared_key",
    "Ruroco.C98_leader_served",
    "Ruroco.C98_reseeded_leads",
    "Ruroco.C98_last_sender_does_not_decide"
   ],
   "note": "Nothing goes wrong on the way (calls work, no rate limit, server clock not behind). The README's account (last sender wins, all future packets of the other are rejected) is refuted by `C98_last_sender_does_not_decide`."
  },
  {
   "property": "C99",
   "status": "partial",
   "theorems": [
    "Ruroco.C99_key_survives_partial",
    "Ruroco.C99_untouched_key_stays",
    "Ruroco.C99_stores_what_it_shows",
    "Ruroco.C99_unstored_key_is_lost",
    "Ruroco.C99_unread_key_is_overwritten"
   ],
   "note": "Proved if reading the key at the start and storing each change went well since the last opening. Otherwise it fails, and the user is told nothing (the error goes to the log only): a key that could not be stored is shown and used but gone after the restart (`C99_unstored_key_is_lost`); if the stored key cannot be read the field is empty as if there were none, and the first character typed into it replaces the stored key (`C99_unread_key_is_overwritten`)."
  },
  {
   "property": "C100",
   "status": "proved",
   "theorems": [
    "Ruroco.C100_keyboard_follows_focus",
    "Ruroco.C100_keyboard_rests",
    "Ruroco.C100_update_opens",
    "Ruroco.C100_update_reports_success"
   ],
   "note": "A failed call is taken to have no effect on the screen."
  },
  {
   "property": "C101",
   "status": "proved",
   "theorems": [
    "Ruroco.C101_served_by_clock",
    "Ruroco.C101_one_user",
    "Ruroco.C101_caught_up",
    "Ruroco.C101_reseed_behind_locks_out"
   ],
   "note": "Nothing else goes wrong on the way (calls work, no rate limit). The advice of security.md:120-121 to reseed after the client's clock jumped back does the opposite of what it says (`C101_reseed_behind_locks_out`)."
  },
  {
   "property": "C102",
   "status": "proved",
   "theorems": [
    "Ruroco.C102_requests_look_alike",
    "Ruroco.C102_only_encrypted",
    "Ruroco.C102_histories_look_alike",
    "Ruroco.C102_key_id_is_visible"
   ],
   "note": "`C102_requests_look_alike` and the histories are for any cipher that works; `C102_only_encrypted` replaces the cipher by one that hides everything but the length (the usual ideal form of confidentiality). An `--ip` that is refused shows, as nothing is sent."
  },
  {
   "property": "C103",
   "status": "proved",
   "theorems": [
    "Ruroco.C103_asks_what_is_shown",
    "Ruroco.C103_green_means_sent",
    "Ruroco.C103_same_as_command_line",
    "Ruroco.C103_press_runs_the_command",
    "Ruroco.utf8_faithful"
   ],
   "note": "For any text codec that gives back what was written; `utf8_faithful` shows that UTF-8 is one. An IP field of `::` claims nothing (as on the command line, C01)."
  },
  {
   "property": "C104",
   "status": "partial",
   "theorems": [
    "Ruroco.C104_server_files",
    "Ruroco.C104_client_files",
    "Ruroco.C104_server_private_partial",
    "Ruroco.C104_client_private_partial",
    "Ruroco.C104_unit_umask",
    "Ruroco.C104_start_resets",
    "Ruroco.C104_reseed_resets",
    "Ruroco.C104_list_resets",
    "Ruroco.C104_start_private_iff",
    "Ruroco.C104_reseed_private_iff",
    "Ruroco.C104_private_file_opened"
   ],
   "note": "False as stated: each save gives the file the permissions of a new one, so under the usual umask 022 a counter or list of commands set to 0600 is 0644 after the next save (`C104_private_file_opened`). Proved: permissions and owner of every file are always those it had or those of a new file; with a umask like that of the shipped unit (0077) the property holds. Temporary files already there are assumed to be left by the same user; power losses (which may bring back an older file) and changes by other programs are excluded."
  },
  {
   "property": "C105",
   "status": "proved",
   "theorems": [
    "Ruroco.C105_server_is_a_gate",
    "Ruroco.C105_gate_increasing",
    "Ruroco.C105_gate_open",
    "Ruroco.C105_gate_opens"
   ],
   "note": "A refinement: every history of the model (`Run`) is one of the small machine in `Spec/Gate.lean` (`GateRun`), with the same outputs, file contents and running state. The gate says when a start may fail and when a datagram may be ignored (trouble around the server, not a request to let through, rate limits reached); the rate limits are abstracted to a count of the datagrams seen, see C19 to C21 for their exact behaviour. Excluded, as in C16 and C55: a failing `stat` of the replay state, and, if power is lost, a directory that cannot be synced or a file that was not durable at the beginning."
  },
  {
   "property": "C106",
   "status": "partial",
   "theorems": [
    "Ruroco.C106_comes_back_partial",
    "Ruroco.C106_comes_back_iff",
    "Ruroco.C106_given_up",
    "Ruroco.C106_full_disk",
    "Ruroco.C106_policy",
    "Ruroco.C106_five_in_ten_seconds",
    "Ruroco.C106_never_given_up"
   ],
   "note": "Proved: it comes back within 100 ms of the end of the trouble if that lasts 400 ms at most, and exactly if one of five starts in half a second works. False beyond that (C106_full_disk): the units set neither RestartSec nor a start limit, so with systemd's defaults a server that cannot start for half a second (full disk, no key yet, port taken) is given up and stays down. A service whose processes last 1.9 s each is never given up. systemd is modelled from its documentation."
  },
  {
   "property": "C107",
   "status": "partial",
   "theorems": [
    "Ruroco.C107_line_is_command_line_iff",
    "Ruroco.C107_line_asks",
    "Ruroco.C107_pasted_asks",
    "Ruroco.C107_command_line_is_line_iff",
    "Ruroco.C107_command_line_is_line_partial",
    "Ruroco.C107_empty_command",
    "Ruroco.C107_pasted_line_differs"
   ],
   "note": "Exact for the first half: it holds if and only if address and command are not empty and no field begins with a hyphen (then the line is refused). Exact for the second half as well: it holds if and only if the line names a command and its delay is the usual 50 ms (not named, or 50). False otherwise: without `--command` the command-line client asks for `default`, the button for the command with the empty name; `--send-delay-ms` in a line is dropped."
  },
  {
   "property": "C108",
   "status": "proved",
   "theorems": [
    "Ruroco.C108_server_as_told",
    "Ruroco.C108_server_untold",
    "Ruroco.C108_no_other_socket",
    "Ruroco.C108_commander_as_told",
    "Ruroco.C108_commander_untold"
   ],
   "note": "The converse of C97. Files are given as the TOML tables they parse to; TOML's rule that no key comes twice in a table is a hypothesis."
  },
  {
   "property": "C109",
   "status": "proved",
   "theorems": [
    "Ruroco.C109_client_is_a_stamp",
    "Ruroco.C109_stamp_increasing",
    "Ruroco.C109_stamp_no_leap",
    "Ruroco.C109_stamp_exact",
    "Ruroco.C109_stamp_set"
   ],
   "note": "The client's counterpart of C105. Histories with power losses need a durable counter file at the beginning and no failing sync of the directory (C16, C17)."
  },
  {
   "property": "C110",
   "status": "proved",
   "theorems": [
    "Ruroco.C110_ip_iff",
    "Ruroco.C110_socket_iff",
    "Ruroco.C110_unambiguous",
    "Ruroco.C110_not_both"
   ],
   "note": "About the model of the parsers in Rust's standard library (core::net::parser), whose source is not in the repository. The four kinds of destinations in C36 are now stated with this grammar."
  },
  {
   "property": "C111",
   "status": "proved",
   "theorems": [
    "Ruroco.C111_shown",
    "Ruroco.C111_execute"
   ],
   "note": "The toolkit is external: a frame is given by what the user does in it. What sorting, showing and parsing the list mean is C49 and C50."
  },
  {
   "property": "C112",
   "status": "proved",
   "theorems": [
    "Ruroco.C112_in_order",
    "Ruroco.C112_executed_in_order",
    "Ruroco.C112_sole_user"
   ],
   "note": "The messages reach the commander in the order in which the server handed them over (it is one process and handles one connection at a time; the socket is a queue)."
  },
  {
   "property": "C113",
   "status": "proved",
   "theorems": [
    "Ruroco.AtOnce.C113_one_after_another",
    "Ruroco.AtOnce.C113_finishes",
    "Ruroco.AtOnce.C113_counters_increase",
    "Ruroco.AtOnce.C113_cut",
    "Ruroco.AtOnce.C113_any_history"
   ],
   "note": "flock(2) is part of the model of the machine. A process killed in the middle of a job dies in its next system call, before or after the effect."
  },
  {
   "property": "C114",
   "status": "proved",
   "theorems": [
    "Ruroco.AtOnce.C114_at_once",
    "Ruroco.AtOnce.C114_executed_in_order",
    "Ruroco.AtOnce.C114_any_history"
   ],
   "note": "The assumptions are those of C39/C112, step by step: the key is known to its owner only, nonces have the right size, the clients' clock is never before the time at which the server first saw the key, and at a reseed not below a counter already sent. The order theorem is for a server with one key; C112's general statement follows from C114_at_once in the same way."
  },
  {
   "property": "C115",
   "status": "partial",
   "theorems": [
    "Ruroco.C115_whole_key_partial",
    "Ruroco.C115_whole_iff",
    "Ruroco.C115_only_key",
    "Ruroco.C115_part_refused",
    "Ruroco.C115_unnoticed",
    "Ruroco.C115_same_run"
   ],
   "note": "False as stated: the key is printed with `print!` without a line break, so it stays in Rust's buffer until the process ends, and errors of that last write are ignored: on a full disk the documented `ruroco-client gen > user.key` gives an empty file or a part of the key, with exit status 0 (C115_unnoticed). Proved: if standard output takes 56 characters the key is there, whole and alone (exactly then, C115_whole_iff); otherwise it is a part, which nobody takes for a key. The behaviour of standard output is modelled from Rust's standard library."
  },
  {
   "property": "C116",
   "status": "partial",
   "theorems": [
    "Ruroco.C116_reachable_partial",
    "Ruroco.C116_deaf_iff",
    "Ruroco.C116_accepted_but_deaf",
    "Ruroco.C116_silently_deaf"
   ],
   "note": "False as stated: `ips = []` and `max_requests_per_second = 0` are accepted, and the server then runs and refuses everything (C116_silently_deaf). Proved: after every other start every key that has counters left can order every command from everywhere, one second later (C116_reachable_partial); exactly these two settings and used-up counters make a server deaf (C116_deaf_iff). A limiter that takes no time is assumed in both directions (with limit 0 a request can pass if a second goes by between two looks at the clock)."
  },
  {
   "property": "C117",
   "status": "partial",
   "theorems": [
    "Ruroco.C117_one_byte_partial",
    "Ruroco.C117_cut_short_refused",
    "Ruroco.C117_zeros_refused",
    "Ruroco.C117_unnoticed",
    "Ruroco.C117_executed_again"
   ],
   "note": "False as documented: the file has no checksum. For every written file and every key with a counter above zero there is a byte that, read as zero, lowers this counter unnoticed (C117_unnoticed), and the server then executes a request a second time (C117_executed_again). Proved: a file cut short or filled with zeros is refused; one changed byte is either refused, or alters the counters of at most two keys, or loses keys, which then start from the time of the start (for counters below 2^64, that is up to the year 2554; the reader, which accepts numbers in longer forms than the server writes, can fall out of step inside a larger counter). The reader is that of C52."
  },
  {
   "property": "C118",
   "status": "partial",
   "theorems": [
    "Ruroco.C118_nothing_twice_partial",
    "Ruroco.C118_repeated_iff",
    "Ruroco.C118_executed_again",
    "Ruroco.C118_backup_executes_again"
   ],
   "note": "Proved: after a loss nothing is executed twice, over both histories, if no request executed before is dated later than the starts after it (C118_nothing_twice_partial), and exactly the requests dated later than the start can be executed again (C118_repeated_iff). False otherwise: a request dated ahead, within the allowed clock skew, is executed again (C118_executed_again), and an older copy of the file lets everything since then be executed again (C118_backup_executes_again)."
  },
  {
   "property": "C119",
   "status": "proved",
   "theorems": [
    "Ruroco.C119_executed_by_one_server",
    "Ruroco.C119_both_list_the_destination",
    "Ruroco.C119_executed_by_both"
   ],
   "note": "For any number of machines with a common key table and pairwise no common host in their address lists (C119_executed_by_one_server); two machines can both execute a datagram only if both list the host it is addressed to (C119_both_list_the_destination). That condition is needed: with the same address in both lists a replay at the second machine is executed (C119_executed_by_both). The conditions on failing calls are those of C07."
  },
  {
   "property": "C120",
   "status": "partial",
   "theorems": [
    "Ruroco.C120_read_off_partial",
    "Ruroco.C120_executions_partial",
    "Ruroco.C120_output_forges_entries",
    "Ruroco.C120_forged"
   ],
   "note": "False as stated: output is logged as it is, with its line breaks, so a command can print entries; for every list of entries there is an output with which the journal is, character for character, that of a commander that wrote them (C120_output_forges_entries, C120_forged). Proved for commands of one line (without ` for ` in their text, should they fail to start) and output without lines that begin with `[`: an explicit reader of the text finds exactly the executions, and in an uninterrupted life of the commander these are those the connections were entitled to."
  },
  {
   "property": "C121",
   "status": "partial",
   "theorems": [
    "Ruroco.C121_asked_is_run_iff",
    "Ruroco.C121_asked_is_run_partial",
    "Ruroco.C121_names_alike",
    "Ruroco.C121_other_command_runs",
    "Ruroco.C121_documented"
   ],
   "note": "False as stated: a request carries only a number of 64 bits, and the commander keeps one command per number without noticing that two names share it. C121_names_alike: no hash of this size avoids that; C121_other_command_runs: two concrete names of the same number under the hash the programs use (BLAKE2b, modelled after RFC 7693 and evaluated by the kernel), with the run from the client's command line to the start of the other command. Proved: exactly when the property holds for a name (C121_asked_is_run_iff), and that it holds for all names in the shipped configuration and the README."
  },
  {
   "property": "C122",
   "status": "partial",
   "theorems": [
    "Ruroco.C122_program_replaced_partial",
    "Ruroco.C122_other_left",
    "Ruroco.C122_program_left_old"
   ],
   "note": "Proved if the program is in the directory the update is for: `.local/bin` of the home directory, or the one given with --bin-path. False otherwise: a program anywhere else is left as it was whatever the update reports (C122_other_left), so that after a successful update the program that was run is still the old one (C122_program_left_old)."
  },
  {
   "property": "C123",
   "status": "proved",
   "theorems": [
    "Ruroco.C123_plaintext",
    "Ruroco.C123_server_reads",
    "Ruroco.C123_datagram",
    "Ruroco.C123_server_takes",
    "Ruroco.C123_message",
    "Ruroco.C123_commander_reads",
    "Ruroco.C123_counter_file",
    "Ruroco.C123_sent"
   ],
   "note": "The tables of docs/src/architecture/protocol.md, common/protocol.md, client/send.md, common/ipc.md and client/counter-lock-gen-util.md, written down in Spec/Layout.lean. AES-256-GCM-SIV is abstract (Aead.Correct). The one exception of C01 (a claimed source `::`) is part of C123_server_reads."
  },
  {
   "property": "C124",
   "status": "partial",
   "theorems": [
    "Ruroco.C124_line_iff",
    "Ruroco.C124_line_is_true_partial",
    "Ruroco.C124_line_tells",
    "Ruroco.C124_line_shape",
    "Ruroco.C124_text_tells_all",
    "Ruroco.C124_one_line",
    "Ruroco.C124_not_mistaken",
    "Ruroco.C124_sender_not_told",
    "Ruroco.C124_sender_not_told_witness",
    "Ruroco.C124_cause_not_told",
    "Ruroco.C124_cause_not_told_witness"
   ],
   "note": "The last sentence is false, shown by general theorems and witnesses: most lines do not name the sender, and the line about a counter that could not be stored shows only the outermost context of the error. Everything else is proved. Failures of the cipher library other than a wrong tag (no memory) are not told apart from it."
  },
  {
   "property": "C125",
   "status": "proved",
   "theorems": [
    "Ruroco.C125_same_client",
    "Ruroco.C125_every_destination_reported",
    "Ruroco.C125_killed",
    "Ruroco.C125_sent_is_true",
    "Ruroco.C125_status_agrees",
    "Ruroco.C125_send_cases",
    "Ruroco.C125_send_status_agrees",
    "Ruroco.C125_text_tells"
   ],
   "note": "The client with its lines is shown to be the client of C33-C36 when the lines are ignored. \"Handed to the network\" is a successful `send` on the socket; UDP does not tell whether it arrives. The line about the counter file that is loaded, the one before names are resolved and time stamps are left out; how a path is quoted is a parameter."
  },
  {
   "property": "C126",
   "status": "proved",
   "theorems": [
    "Ruroco.C126_switch",
    "Ruroco.C126_only_adds",
    "Ruroco.C126_fates_told",
    "Ruroco.C126_source_told",
    "Ruroco.C126_no_hidden_failure",
    "Ruroco.C126_one_report_each",
    "Ruroco.C126_line_tells",
    "Ruroco.C126_word_shown",
    "Ruroco.C126_text_tells"
   ],
   "note": "For datagrams that are processed to the end; a report is cut short if the process is killed. Not bounded: with debugging on a flood writes at least a line per datagram (the throttle of C22 holds back error lines only), see `C126_one_report_each`. Only the standard output is needed, so it does not matter how the journal orders the two streams."
  },
  {
   "property": "C127",
   "status": "partial",
   "theorems": [
    "Ruroco.C127_same_update",
    "Ruroco.C127_already",
    "Ruroco.C127_updated_iff",
    "Ruroco.C127_updated",
    "Ruroco.C127_downloads",
    "Ruroco.C127_refused",
    "Ruroco.C127_refused_iff",
    "Ruroco.C127_success_lines",
    "Ruroco.C127_rollbacks_told",
    "Ruroco.C127_error_told",
    "Ruroco.C127_failure_told_partial",
    "Ruroco.C127_contradicts",
    "Ruroco.C127_rolled_back_untrue",
    "Ruroco.C127_both_said"
   ],
   "note": "Everything but the last clause is proved as stated. The list of what was rolled back is not true in general: it always names every binary tried, also one reported as not rolled back just before (`C127_contradicts`, `C127_both_said`), and one that the rollback deleted (`C127_rolled_back_untrue`). Proved instead: if no failed rollback is reported and no look or safety copy failed, every binary is what it was (`C127_failure_told_partial`)."
  },
  {
   "property": "C128",
   "status": "proved",
   "theorems": [
    "Ruroco.C128_same_run",
    "Ruroco.C128_steps",
    "Ruroco.C128_installed_iff",
    "Ruroco.C128_installed",
    "Ruroco.C128_stopped",
    "Ruroco.C128_announced_in_time",
    "Ruroco.C128_user_exists_iff",
    "Ruroco.C128_creating_new"
   ],
   "note": "That earlier steps succeeded is stated for the announcements about systemd (`C128_announced_in_time`), which come last. The lines of the update within are those of C127. The text of the error that ends a failed run is not modelled."
  }
 ]
}