Verif.Props.DapSchema.C83_exact	propext Classical.choice Quot.sound
Verif.Props.Machine.C107_ended_partial	propext Classical.choice Quot.sound
Verif.Props.WireInit.C99_other_requests	propext Classical.choice Quot.sound
Verif.Props.Server.C55_forwarded_partial	propext Quot.sound
Verif.Props.Server.C47_exactly_one	propext Classical.choice Quot.sound
Verif.Props.Sock.C77_reset_refuted	propext
Verif.Props.SockUds.C78_removed_partial	propext Quot.sound
Verif.Props.Bp.C31_exact_partial	propext Quot.sound
Verif.Props.Launch.C69_launch_end_to_end	propext Classical.choice Quot.sound
Verif.Props.WireInit.C99_unannounced_ignored	propext Quot.sound
Verif.Props.Launch.C70_connect_options	propext Quot.sound
Verif.Props.StratHooks.C80_threads	propext Classical.choice Quot.sound
Verif.Props.Bp.C24_modified	propext Quot.sound
Verif.Props.Server.C56_mappings_no_list	propext
Verif.Props.Sock.C77_first_success_partial	propext Quot.sound
Verif.Props.Server.C49_answered_partial	propext Quot.sound
Verif.Props.Sock.C77_returned_tls_partial	propext Quot.sound
Verif.Props.Strat.C65_exact_partial	propext Classical.choice Quot.sound
Verif.Props.Dap.C12_event	propext Quot.sound
Verif.Props.Strat.C98_scans_first_partial	propext Classical.choice Quot.sound
Verif.Props.WireStops.C86_events	propext Classical.choice Quot.sound
Verif.Props.Race.C93_next_variable_refuted	propext Quot.sound
Verif.Props.Cond.C102_counts	propext Quot.sound
Verif.Props.Server.C49_refuted	propext
Verif.Props.Server.C55_not_forwarded_before_partial	propext Quot.sound
Verif.Props.StratHooks.C80_last	propext Classical.choice Quot.sound
Verif.Props.Conn.C07_exact_partial	propext Classical.choice Quot.sound
Verif.Props.Wire.C85_continue_partial	propext Classical.choice Quot.sound
Verif.Props.WireBps.C90_set_breakpoints_partial	propext Classical.choice Quot.sound
Verif.Props.Dap.C11_ignored_message	propext Classical.choice Quot.sound
Verif.Props.Strat.C42_ends	propext Classical.choice Quot.sound
Verif.Props.Bp.C21_answer_is_snapped	propext Classical.choice Quot.sound
Verif.Props.Sock.C77_in_order	propext Classical.choice Quot.sound
Verif.Props.Single.C101_one_thread_partial	propext Classical.choice Quot.sound
Verif.Props.Bp.C26_stop_iff_snapped	propext Classical.choice Quot.sound
Verif.Props.Transport.C15_reset_or_cancel	propext Classical.choice Quot.sound
Verif.Props.Launch.C69_ambiguous_argument_rejected	propext Quot.sound
Verif.Props.Debuggee.C108_goes_on_partial	propext Classical.choice Quot.sound
Verif.Props.Launch.C61_configuration_kept_partial	propext Quot.sound
Verif.Props.Transport.C14_delivered	propext Classical.choice Quot.sound
Verif.Props.Bp.C111_answered_late_refuted	propext Quot.sound
Verif.Props.Addr.C20_unix_iff	propext Classical.choice Quot.sound
Verif.Props.Dap.C09_nested_types	propext Classical.choice Quot.sound
Verif.Props.Conn.C01_exactly_the_messages	propext Classical.choice Quot.sound
Verif.Props.Server.C52_never_leaves_refuted	propext
Verif.Props.StratHooks.C81_orphan_refuted	propext Quot.sound
Verif.Props.Server.C52_disconnect_leaves_partial	propext
Verif.Props.Transport.C17_results	propext Quot.sound
Verif.Props.StratHooks.C79_announced_first	propext Classical.choice Quot.sound
Verif.Props.WireEval.C87_remove_command	propext Quot.sound
Verif.Props.Strat.C98_scanned_partial	propext Classical.choice Quot.sound
Verif.Props.Strat.C45_all_exit	propext Classical.choice Quot.sound
Verif.Props.WireStops.C86_step_over	propext Classical.choice Quot.sound
Verif.Props.Race.C94_no_deadlock	propext Classical.choice Quot.sound
Verif.Props.Race.C96_terminate_ends	propext Classical.choice Quot.sound
Verif.Props.WireEval.C87_expression	propext Classical.choice Quot.sound
Verif.Repl.C46_verbatim_partial	propext Quot.sound
Verif.Props.E2e.C91_shown	propext Classical.choice Quot.sound
Verif.Props.Server.C49_exactly_one_partial	propext Classical.choice Quot.sound
Verif.Props.Addr.C19_lenient	propext
Verif.Props.Conn.C06_none_iff	propext Quot.sound
Verif.Props.Debuggee.C108_refuted	propext Classical.choice Quot.sound
Verif.Props.Strat.C34_import_refuted	propext Quot.sound
Verif.Props.Strat.C98_breakpoints_verified_partial	propext Classical.choice Quot.sound
Verif.Props.Conn.C05_send_numbers	propext Classical.choice Quot.sound
Verif.Props.Dap.C13_roundtrip	propext Classical.choice Quot.sound
Verif.Props.Bp.C28_task_line_verified	propext Classical.choice Quot.sound
Verif.Props.Launch.C71_rejected	propext
Verif.Props.Addr.C19_uds_both	propext Classical.choice Quot.sound
Verif.Props.StratHooks.C81_begin_fails	propext Classical.choice Quot.sound
Verif.Props.Dap.C10_refuted	propext Quot.sound
Verif.Props.Strat.C104_console_partial	propext Quot.sound
Verif.Props.Server.C56_process_id	propext Quot.sound
Verif.Props.Strat.C32_step_in_ordinary_partial	propext Classical.choice Quot.sound
Verif.Props.WireVars.C89_variables	propext Classical.choice Quot.sound
Verif.Props.Server.C50_relayed_all	propext Classical.choice Quot.sound
Verif.Props.Strat.C82_set_option	propext Classical.choice Quot.sound
Verif.Props.Race.C97_continue_refuted	propext Quot.sound
Verif.Props.Server.C54_ended_first_no_response	propext Quot.sound
Verif.Repl.C46_words_partial	propext Quot.sound
Verif.Props.WireEval.C88_stack	propext Classical.choice Quot.sound
Verif.Props.Launch.C62_launch_script	propext Classical.choice Quot.sound
Verif.Props.Strat.C44_list_partial	propext Classical.choice Quot.sound
Verif.Props.Addr.C19_tcp_v6_zone	propext Classical.choice Quot.sound
Verif.Props.Addr.C20_address_roundtrip_partial	propext Classical.choice Quot.sound
Verif.Props.Machine.C107_planted_refuted	propext Classical.choice Quot.sound
Verif.Props.Launch.C71_mappings_no_list	propext
Verif.Props.WireVars.C89_gone	propext Classical.choice Quot.sound
Verif.Props.Conn.C02_default_and_limit	propext Quot.sound
Verif.Props.DapSchema.C84_accepted_partial	propext Classical.choice Quot.sound
Verif.Props.Strat.C41_refresh_refuted	propext Quot.sound
Verif.Props.Listen.C105_no_dualstack_refuted	propext Classical.choice Quot.sound
Verif.Props.Strat.C37_waits	propext Classical.choice Quot.sound
Verif.Props.Cond.C102_stops	propext Classical.choice Quot.sound
Verif.Props.Dap.C12_error_response	propext Quot.sound
Verif.Props.Strat.C65_disconnect_terminate_partial	propext Classical.choice Quot.sound
Verif.Props.Server.C50_requests_numbered	propext Quot.sound
Verif.Props.Bp.C31_in_force_partial	propext Quot.sound
Verif.Props.Race.C95_answer	propext Classical.choice Quot.sound
Verif.Props.Debuggee.C58_refuted	propext Classical.choice Quot.sound
Verif.Props.Strat.C35_never_stopped	propext Classical.choice Quot.sound
Verif.Props.Strat.C73_paging_refuted	propext Quot.sound
Verif.Props.Launch.C71_mappings	propext Classical.choice Quot.sound
Verif.Props.Strat.C72_refuted	propext Quot.sound
Verif.Props.Cond.C102_stops_for	propext Classical.choice Quot.sound
Verif.Props.Bp.C24_ids_never_reused	propext Classical.choice Quot.sound
Verif.Props.WireEval.C87_set_command	propext Classical.choice Quot.sound
Verif.Props.Conn.C01_prefix_at_any_time	propext Classical.choice Quot.sound
Verif.Props.Debuggee.C67_only_failed_disconnects	propext Classical.choice Quot.sound
Verif.Props.Addr.C19_tcp_v6_port	propext Classical.choice Quot.sound
Verif.Props.Bp.C26_no_stop_iff	propext Classical.choice Quot.sound
Verif.Repl.C46_tail_partial	propext Classical.choice Quot.sound
Verif.Repl.C46_escaped_name_refuted	propext Quot.sound
Verif.Props.Race.C93_include_refuted	propext Quot.sound
Verif.Props.Strat.C72_stop_has_true_condition_partial	propext Classical.choice Quot.sound
Verif.Props.Transport.C14_prefix_delivered	propext Classical.choice Quot.sound
Verif.Props.Listen.C105_everywhere_v4	propext Quot.sound
Verif.Props.DapSchema.C84_unsaid_partial	propext Classical.choice Quot.sound
Verif.Props.Bp.C29_stale_update_refuted	propext Quot.sound
Verif.Props.Debuggee.C108_no_wait_refuted	propext Classical.choice Quot.sound
Verif.Props.WireStops.C86_only	propext Quot.sound
Verif.Props.Server.C54_order	propext Quot.sound
Verif.Props.Strat.C38_exception_refuted	propext Quot.sound
Verif.Props.Strat.C37_continue_all	propext Classical.choice Quot.sound
Verif.Props.Addr.C19_only_ValueError	propext Quot.sound
Verif.Props.Strat.C44_key_refuted	propext Quot.sound
Verif.Props.WireEval.C87_command_answer	propext Classical.choice Quot.sound
Verif.Props.Sock.C75_closed_refuted	propext
Verif.Props.Debuggee.C58_returns_partial	propext Classical.choice Quot.sound
Verif.Props.WireEval.C88_threads	propext Classical.choice Quot.sound
Verif.Props.WireInit.C99_filters	propext Classical.choice Quot.sound
Verif.Props.Bp.C31_exact_back_partial	propext Quot.sound
Verif.Props.Strat.C104_why	propext Classical.choice Quot.sound
Verif.Props.Server.C47_ends	propext Classical.choice Quot.sound
Verif.Props.Strat.C45_paired	propext Classical.choice Quot.sound
Verif.Props.Strat.C38_waiting_exact_partial	propext Classical.choice Quot.sound
Verif.Props.Race.C97_threads_refuted	propext Quot.sound
Verif.Props.Strat.C82_remove_option	propext Classical.choice Quot.sound
Verif.Props.Listen.C105_v4_refuted	propext Classical.choice Quot.sound
Verif.Props.Sock.C77_timeout_refuted	propext Quot.sound
Verif.Props.Wire.C85_document_partial	propext Classical.choice Quot.sound
Verif.Props.Listen.C105_exactly_partial	propext Quot.sound
Verif.Props.Strat.C32_step_over_partial	propext Classical.choice Quot.sound
Verif.Props.WireInit.C100_ignored	propext
Verif.Props.Debuggee.C59_all_before_the_end_mark	propext Classical.choice Quot.sound
Verif.Props.Strat.C33_step_in	propext Classical.choice Quot.sound
Verif.Props.Conn.C02_nothing_lost	propext Classical.choice Quot.sound
Verif.Props.WireInit.C99_announced_requests	propext Quot.sound
Verif.Props.Strat.C110_within_play_partial	propext Classical.choice Quot.sound
Verif.Props.Dap.C12_unknown_type	propext Quot.sound
Verif.Props.WireStops.C86_start	propext Classical.choice Quot.sound
Verif.Props.Server.C48_exactly_one_partial	propext Classical.choice Quot.sound
Verif.Props.WireStops.C86_step_out	propext Classical.choice Quot.sound
Verif.Props.Transport.C14_send_iff	propext Quot.sound
Verif.Props.Dap.C10_stepIn_thread_partial	propext Classical.choice Quot.sound
Verif.Props.Bp.C31_unmapped_partial	propext Quot.sound
Verif.Props.SockUds.C78_umask_restored_partial	propext Quot.sound
Verif.Props.Listen.C106_chosen_port_partial	propext Quot.sound
Verif.Props.Bp.C21_unique	propext Quot.sound
Verif.Props.Conn.C05_no_duplicates	propext Quot.sound
Verif.Props.Sock.C77_error_passed_on_partial	propext
Verif.Props.Strat.C38_refresh_refuted	propext Quot.sound
Verif.Props.Strat.C66_option	propext Quot.sound
Verif.Props.Strat.C104_hostvar_refuted	propext Quot.sound
Verif.Props.Agree.C95_agrees_with_one_step	propext Classical.choice Quot.sound
Verif.Props.Machine.C107_found_partial	propext Classical.choice Quot.sound
Verif.Props.WireInit.C99_document	propext Classical.choice Quot.sound
Verif.Props.Transport.C15_crash_at_any_byte	propext Classical.choice Quot.sound
Verif.Props.Launch.C63_client_certificate	propext
Verif.Props.Launch.C63_tls_iff_requested	propext Classical.choice Quot.sound
Verif.Props.WireEval.C87_not_evaluated	propext Classical.choice Quot.sound
Verif.Props.WireBps.C90_disconnect_partial	propext Classical.choice Quot.sound
Verif.Props.Launch.C64_friendly_types	propext Quot.sound
Verif.Props.Launch.C70_dap_options	propext Quot.sound
Verif.Props.Server.C53_witness_refuted	propext Quot.sound
Verif.Props.WireStops.C86_threads	propext Classical.choice Quot.sound
Verif.Props.Race.C96_disconnect_fails_refuted	propext Quot.sound
Verif.Props.Strat.C44_exact_partial	propext Classical.choice Quot.sound
Verif.Props.Bp.C29_scan_heals_partial	propext Classical.choice Quot.sound
Verif.Props.Strat.C35_new_host	propext Classical.choice Quot.sound
Verif.Props.Sock.C75_uds_single_partial	propext
Verif.Props.StratHooks.C79_held	propext Classical.choice Quot.sound
Verif.Props.Sock.C76_no_fallback	propext Quot.sound
Verif.Props.Strat.C73_indices_partial	propext Classical.choice Quot.sound
Verif.Props.Conn.C03_nonnegative_suffices	propext Quot.sound
Verif.Props.Single.C101_own_instance	propext Quot.sound
Verif.Props.Transport.C17_cancelled_for_ever	propext Quot.sound
Verif.Props.E2e.C92_answers	propext Classical.choice Quot.sound
Verif.Props.Debuggee.C57_tasks_wait_for_configuration	propext Classical.choice Quot.sound
Verif.Props.Strat.C42_meaning	propext Classical.choice Quot.sound
Verif.Props.Transport.C18_before_failing_partial	propext
Verif.Props.Single.C101_settled_partial	propext Quot.sound
Verif.Props.Strat.C73_page_exact_partial	propext Quot.sound
Verif.Props.Strat.C41_stack_partial	propext Classical.choice Quot.sound
Verif.Props.Bp.C29_sequential_partial	propext Classical.choice Quot.sound
Verif.Props.WireBps.C90_terminate_partial	propext Classical.choice Quot.sound
Verif.Props.Wire.C85_disconnect_silent	propext Quot.sound
Verif.Props.Sock.C75_first_accepting_wins_partial	propext Quot.sound
Verif.Props.Debuggee.C59_in_order	propext Classical.choice Quot.sound
Verif.Props.Dap.C12_unknown_command	propext Quot.sound
Verif.Props.Listen.C105_by_name	propext Quot.sound
Verif.Props.Launch.C71_log_options	propext Quot.sound
Verif.Props.Strat.C72_stops_partial	propext Classical.choice Quot.sound
Verif.Props.Transport.C18_refuted	propext
Verif.Props.Conn.C06_bad_header_sticks	propext Quot.sound
Verif.Props.Bp.C29_unless_overtaken_partial	propext Classical.choice Quot.sound
Verif.Props.Sock.C75_returned_partial	propext Quot.sound
Verif.Props.Strat.C37_exact	propext Classical.choice Quot.sound
Verif.Props.Server.C48_answered_twice_refuted	propext
Verif.Props.Cond.C102_asked	propext Classical.choice Quot.sound
Verif.Props.Launch.C70_options_reach_debuggee	propext Classical.choice Quot.sound
Verif.Props.Debuggee.C58_handshake_refuted	propext Quot.sound
Verif.Props.Machine.C107_one_client_partial	propext Classical.choice Quot.sound
Verif.Repl.C46_template_otherwise	propext Classical.choice Quot.sound
Verif.Repl.C46_empty_name_refuted	propext Quot.sound
Verif.Props.Debuggee.C67_never_stuck	propext Classical.choice Quot.sound
Verif.Props.Conn.C07_refuted	propext Classical.choice Quot.sound
Verif.Props.Addr.C19_tcp_alone	propext
Verif.Props.Server.C52_refuted	propext
Verif.Props.Addr.C19_uds_path_short	propext Classical.choice Quot.sound
Verif.Props.Server.C55_refuted	propext
Verif.Props.Server.C52_exact_partial	propext Quot.sound
Verif.Props.Launch.C71_accepted	propext Classical.choice Quot.sound
Verif.Props.Race.C97_new_references_partial	propext Classical.choice Quot.sound
Verif.Props.Bp.C30_last_filters	propext Quot.sound
Verif.Props.Bp.C23_events_are_changes	propext Classical.choice Quot.sound
Verif.Props.Debuggee.C67_every_request_handled	propext Classical.choice Quot.sound
Verif.Props.Strat.C72_exact_partial	propext Classical.choice Quot.sound
Verif.Props.Strat.C98_first_task_stops_partial	propext Classical.choice Quot.sound
Verif.Props.Strat.C38_exact_partial	propext Classical.choice Quot.sound
Verif.Props.Machine.C107_killed_refuted	propext Classical.choice Quot.sound
Verif.Repl.C46_remove_partial	propext Classical.choice Quot.sound
Verif.Props.Strat.C39_disconnect_partial	propext Classical.choice Quot.sound
Verif.Props.Conn.C03_negative_refuted	propext Quot.sound
Verif.Props.Launch.C63_verification_off_only_on_request	propext
Verif.Props.Machine.C107_stale_refuted	propext Classical.choice Quot.sound
Verif.Props.Bp.C28_plays	propext Quot.sound
Verif.Props.StratHooks.C79_meta_no_stop	propext Classical.choice Quot.sound
Verif.Repl.C46_escaped_quote_refuted	propext Quot.sound
Verif.Props.Strat.C41_two_levels_refuted	propext Quot.sound
Verif.Repl.C46_template_partial	propext Classical.choice Quot.sound
Verif.Props.Strat.C37_proceeds	propext Classical.choice Quot.sound
Verif.Props.DapSchema.C84_exception_options_refuted	propext Quot.sound
Verif.Props.Transport.C16_exact	propext Classical.choice Quot.sound
Verif.Props.WireBps.C90_refuted	propext Quot.sound
Verif.Props.Addr.C19_uds_alone	propext
Verif.Props.DapSchema.C84_argument_partial	propext Classical.choice Quot.sound
Verif.Props.Strat.C45_threads_answer	propext Classical.choice Quot.sound
Verif.Props.Strat.C43_fails	propext Quot.sound
Verif.Props.E2e.C91_client	propext Classical.choice Quot.sound
Verif.Props.Dap.C12_unknown_event	propext Quot.sound
Verif.Props.Sock.C75_cancelled_partial	propext
Verif.Props.Bp.C22_kept_up_to_date	propext Classical.choice Quot.sound
Verif.Props.Strat.C38_disconnect_refuted	propext Quot.sound
Verif.Props.Launch.C70_listen_options	propext Quot.sound
Verif.Props.Cond.C102_document	propext Classical.choice Quot.sound
Verif.Props.Dap.C09_unpack_pack_partial	propext Classical.choice Quot.sound
Verif.Props.WireEval.C87_gone	propext Classical.choice Quot.sound
Verif.Props.Sock.C75_cancelled_greeting_partial	propext Quot.sound
Verif.Props.StratHooks.C81_no_failure_partial	propext Classical.choice Quot.sound
Verif.Props.Server.C53_exact_partial	propext Quot.sound
Verif.Props.Launch.C70_options_end_at_the_playbook	propext Quot.sound
Verif.Props.Strat.C44_dict_partial	propext Classical.choice Quot.sound
Verif.Props.Strat.C65_closed_refuted	propext Quot.sound
Verif.Props.Debuggee.C68_wait_ends_partial	propext Classical.choice Quot.sound
Verif.Props.Addr.C19_uds_name	propext Classical.choice Quot.sound
Verif.Props.Debuggee.C109_refuted	propext Classical.choice Quot.sound
Verif.Repl.C46_minus_h_refuted	propext Quot.sound
Verif.Props.Input.C01_adapter_reads	propext Classical.choice Quot.sound
Verif.Props.Server.C53_refuted	propext Quot.sound
Verif.Props.Launch.C61_environment_kept_partial	propext Quot.sound
Verif.Props.Strat.C34_step_out_partial	propext Classical.choice Quot.sound
Verif.Props.Sock.C75_confirmation_exact_partial	propext Quot.sound
Verif.Props.Bp.C31_unmapped_refuted	
Verif.Props.Server.C48_all_answered_partial	propext Quot.sound
Verif.Props.Race.C97_threads_listed_partial	propext Classical.choice Quot.sound
Verif.Props.Dap.C11_ignored	propext Classical.choice Quot.sound
Verif.Props.Bp.C31_no_boundary_refuted	
Verif.Props.Dap.C12_error_response_unknown_command	propext Quot.sound
Verif.Props.SockUds.C78_existing_partial	propext Quot.sound
Verif.Props.Bp.C31_roundtrip_refuted	propext Quot.sound
Verif.Props.Strat.C36_exception_stops	propext Classical.choice Quot.sound
Verif.Props.Launch.C63_attach_certificate	propext Quot.sound
Verif.Repl.C46_unknown_option_partial	propext Classical.choice Quot.sound
Verif.Props.Server.C54_config_sent	propext Quot.sound
Verif.Props.Listen.C105_only_asked	propext Quot.sound
Verif.Props.Bp.C25_modified_clears	propext Classical.choice Quot.sound
Verif.Props.DapSchema.C84_single_thread_refuted	propext Quot.sound
Verif.Props.Bp.C25_replaces_source	propext Classical.choice Quot.sound
Verif.Props.Server.C47_at_most_one	propext Classical.choice Quot.sound
Verif.Props.Dap.C12_response	propext Quot.sound
Verif.Props.Sock.C77_plain_partial	propext
Verif.Props.Bp.C23_client_rest	propext Classical.choice Quot.sound
Verif.Props.Server.C56_mappings	propext Classical.choice Quot.sound
Verif.Props.Debuggee.C58_fair_executions_exist	propext Classical.choice Quot.sound
Verif.Props.Launch.C61_empty_entry_refuted	propext
Verif.Props.SockUds.C78_owner_refuted	propext Quot.sound
Verif.Props.Bp.C24_one_per_entry	propext Classical.choice Quot.sound
Verif.Props.Race.C94_no_lost_wakeup	propext Classical.choice Quot.sound
Verif.Props.Bp.C31_first_applies_partial	propext Quot.sound
Verif.Props.Addr.C19_tcp_no_port	propext Classical.choice Quot.sound
Verif.Props.Sock.C77_gives_up_partial	propext
Verif.Props.Bp.C22_reason	propext Classical.choice Quot.sound
Verif.Props.Race.C93_playbook_does_not_fail_partial	propext Classical.choice Quot.sound
Verif.Props.Listen.C106_refuted	propext Quot.sound
Verif.Props.Bp.C31_no_mappings_partial	
Verif.Props.Conn.C05_wrong_number_rejected	propext Quot.sound
Verif.Props.Dap.C09_result	propext Classical.choice Quot.sound
Verif.Props.StratHooks.C80_code	propext Classical.choice Quot.sound
Verif.Props.Race.C95_answered	propext Classical.choice Quot.sound
Verif.Props.WireStops.C86_breakpoint	propext Classical.choice Quot.sound
Verif.Props.Dap.C12_accepted_class	propext Classical.choice Quot.sound
Verif.Props.E2e.C92_complete	propext Classical.choice Quot.sound
Verif.Props.Listen.C106_same_user_partial	propext Quot.sound
Verif.Props.StratHooks.C79_results	propext Classical.choice Quot.sound
Verif.Props.Race.C96_fails_only_if_a_thread_exits_partial	propext Classical.choice Quot.sound
Verif.Props.StratHooks.C81_refresh_refuted	propext Quot.sound
Verif.Props.Strat.C98_scans_only_then	propext Classical.choice Quot.sound
Verif.Props.SockUds.C78_owner_partial	propext Classical.choice Quot.sound
Verif.Props.Strat.C40_stack	propext Classical.choice Quot.sound
Verif.Props.Strat.C66_hostvar	propext Quot.sound
Verif.Props.Debuggee.C67_answers_in_order	propext Classical.choice Quot.sound
Verif.Props.Dap.C08_json_roundtrip	propext Classical.choice Quot.sound
Verif.Props.Strat.C42_never_reused	propext Classical.choice Quot.sound
Verif.Props.Dap.C09_text_roundtrip_partial	propext Classical.choice Quot.sound
Verif.Props.Strat.C74_inspecting_is_neutral	propext Classical.choice Quot.sound
Verif.Props.WireVars.C89_scopes	propext Classical.choice Quot.sound
Verif.Props.Strat.C82_before_scopes_fails	propext Classical.choice Quot.sound
Verif.Props.Server.C47_only_cancel_kills	propext Classical.choice Quot.sound
Verif.Props.E2e.C91_session	propext Classical.choice Quot.sound
Verif.Props.Strat.C104_set	propext Quot.sound
Verif.Props.Addr.C19_scheme	propext Quot.sound
Verif.Props.Strat.C110_refuted	propext Quot.sound
Verif.Props.Debuggee.C109_ends_partial	propext Classical.choice Quot.sound
Verif.Props.WireInit.C99_clipboard	propext Classical.choice Quot.sound
Verif.Props.Sock.C77_cancelled_partial	propext
Verif.Props.Bp.C21_negative_line_partial	propext Quot.sound
Verif.Props.Sock.C77_retry_partial	propext Quot.sound
Verif.Props.Wire.C85_refuted	propext Quot.sound
Verif.Props.Strat.C98_inline_block_refuted	propext Quot.sound
Verif.Props.Server.C50_forwarded_unchanged	propext Quot.sound
Verif.Props.Strat.C42_frame	propext Classical.choice Quot.sound
Verif.Props.Sock.C75_unresolved_partial	propext
Verif.Props.Server.C51_atomic_methods_partial	propext Classical.choice Quot.sound
Verif.Props.Sock.C76_server_encrypted	propext Quot.sound
Verif.Props.Transport.C16_short	propext Classical.choice Quot.sound
Verif.Props.Race.C96_no_stop_after_disconnect	propext Classical.choice Quot.sound
Verif.Props.StratHooks.C81_negative_line_refuted	propext Quot.sound
Verif.Props.Transport.C15_closed_exactly_once	propext Quot.sound
Verif.Props.Raise.C103_refuted	propext Quot.sound
Verif.Props.Bp.C27_idempotent	propext Classical.choice Quot.sound
Verif.Props.Strat.C73_counts_partial	propext Classical.choice Quot.sound
Verif.Props.Listen.C105_both_refuted	propext Quot.sound
Verif.Props.Dap.C11_types_exact	propext Classical.choice Quot.sound
Verif.Props.Race.C94_request_goes_on	propext Classical.choice Quot.sound
Verif.Props.Machine.C107_not_others_partial	propext Classical.choice Quot.sound
Verif.Props.Raise.C103_requests	propext Classical.choice Quot.sound
Verif.Props.WireBps.C90_set_exceptions_partial	propext Classical.choice Quot.sound
Verif.Props.Dap.C12_success	propext Classical.choice Quot.sound
Verif.Props.Bp.C31_roundtrip_partial	propext Quot.sound
Verif.Props.Server.C56_address	propext Quot.sound
Verif.Props.Strat.C74_inspecting_is_always_possible	propext Classical.choice Quot.sound
Verif.Props.Server.C54_handshake	propext Quot.sound
Verif.Props.Sock.C75_every_address_refuted	propext
Verif.Props.WireVars.C89_set_variable	propext Classical.choice Quot.sound
Verif.Props.Server.C54_terminal_requested	propext Quot.sound
Verif.Props.Bp.C23_client_view	propext Classical.choice Quot.sound
Verif.Props.Dap.C13_launch_args	propext Quot.sound
Verif.Props.Input.C03_adapter_chunking	propext Quot.sound
Verif.Props.Strat.C41_block_refuted	propext Quot.sound
Verif.Props.Conn.C03_chunking_irrelevant	propext Quot.sound
Verif.Props.Strat.C82_edit_options	propext Classical.choice Quot.sound
Verif.Props.Listen.C105_why	propext Classical.choice Quot.sound
Verif.Props.Sock.C77_plain_calls_partial	propext
Verif.Props.Dap.C08_surrogate_pair_is_joined	propext Quot.sound
Verif.Props.Race.C93_set_breakpoints_refuted	propext Quot.sound
Verif.Props.Strat.C98_rescan_is_silent_partial	propext Classical.choice Quot.sound
Verif.Props.Debuggee.C58_returns_or_deadlock_partial	propext Classical.choice Quot.sound
Verif.Props.Server.C48_refuted	propext Quot.sound
Verif.Props.Conn.C06_none_unchanged	propext Quot.sound
Verif.Props.Bp.C25_other_sources_unchanged	propext Classical.choice Quot.sound
Verif.Props.E2e.C91_delivered	propext Classical.choice Quot.sound
Verif.Props.Launch.C69_arguments_reach_ansible	propext Quot.sound
Verif.Props.WireEval.C87_template_command	propext Classical.choice Quot.sound
Verif.Props.Launch.C63_custom_ca	propext
Verif.Props.Single.C101_refuted	propext
Verif.Props.Dap.C11_types_key_refuted	propext Quot.sound
Verif.Props.Strat.C42_resolves	propext Classical.choice Quot.sound
Verif.Props.Debuggee.C60_exactly_while_up	propext Classical.choice Quot.sound
Verif.Props.Bp.C111_unless_answered_late_partial	propext Classical.choice Quot.sound
Verif.Props.Launch.C63_attach_plain	propext Quot.sound
Verif.Props.Single.C101_retry	propext Quot.sound
Verif.Props.Bp.C21_exists	propext Classical.choice Quot.sound
Verif.Repl.C46_option_refuted	propext Quot.sound
Verif.Props.Server.C56_round_trip	propext Classical.choice Quot.sound
Verif.Props.WireInit.C100_from_one_partial	propext Classical.choice Quot.sound
Verif.Props.Conn.C01_hypotheses_hold	propext Classical.choice Quot.sound
Verif.Props.Debuggee.C68_refuted	propext Quot.sound
Verif.Props.Race.C97_leaked_references_refuted	propext Quot.sound
Verif.Props.Bp.C24_modified_reason	propext Quot.sound
Verif.Props.Raise.C103_exactly	propext Classical.choice Quot.sound
Verif.Props.DapSchema.C83_cancel_refuted	propext Quot.sound
Verif.Props.WireStops.C86_step_in	propext Classical.choice Quot.sound
Verif.Props.Server.C54_ended_first	propext Classical.choice Quot.sound
Verif.Props.Bp.C27_order_irrelevant	propext Classical.choice Quot.sound
Verif.Props.Dap.C09_stepIn_refuted	propext Quot.sound
Verif.Props.Transport.C17_cancel_reaches_pending	propext Quot.sound
Verif.Props.Wire.C85_routed_partial	propext Classical.choice Quot.sound
Verif.Props.Transport.C17_admission	propext
Verif.Props.Raise.C103_goes_on_partial	propext Classical.choice Quot.sound
Verif.Props.Server.C50_response_matches	propext Classical.choice Quot.sound
Verif.Repl.C46_set_partial	propext Classical.choice Quot.sound
Verif.Props.SockUds.C78_all_or_nothing_partial	propext Quot.sound
Verif.Props.Transport.C18_exact_partial	propext Quot.sound
Verif.Props.Launch.C61_repeated_setting_fails	propext
Verif.Props.Server.C56_no_mappings	propext
Verif.Props.Strat.C34_nested_refuted	propext Quot.sound
Verif.Props.Server.C53_valid_chunks_partial	propext Quot.sound
Verif.Props.Server.C54_at_most_one	propext Quot.sound
Verif.Props.Server.C51_nothing_invented_partial	propext Classical.choice Quot.sound
Verif.Props.Dap.C12_request	propext Quot.sound
Verif.Props.Dap.C13_attach_args	propext Quot.sound
Verif.Props.Sock.C76_uds_hostname	propext
Verif.Props.Sock.C75_all_refused_partial	propext
Verif.Props.Strat.C39_exception_refuted	propext Quot.sound
Verif.Props.Cond.C102_belongs	propext Classical.choice Quot.sound
Verif.Props.Launch.C61_exact_partial	propext Quot.sound
Verif.Props.Server.C50_relayed_in_order	propext Classical.choice Quot.sound
Verif.Props.Strat.C32_after_exception_refuted	propext Quot.sound
Verif.Props.Server.C55_disconnect_forwarded_partial	propext
Verif.Props.Addr.C20_refuted	propext Quot.sound
Verif.Props.DapSchema.C83_sent_conforms_partial	propext Classical.choice Quot.sound
Verif.Props.Conn.C05_receive_numbers	propext Quot.sound
Verif.Props.Race.C97_fails_only_if_partial	propext Classical.choice Quot.sound
Verif.Props.Bp.C28_blocks	propext Quot.sound
Verif.Props.WireInit.C100_lines_refuted	propext Quot.sound
Verif.Props.Addr.C19_uds_path	propext Classical.choice Quot.sound
Verif.Props.Strat.C43_scopes	propext Classical.choice Quot.sound
Verif.Props.Addr.C19_tcp_host_port	propext Classical.choice Quot.sound
Verif.Props.Conn.C04_frame	propext Classical.choice Quot.sound
Verif.Props.Server.C51_serial_partial	propext Quot.sound
Verif.Props.Debuggee.C60_attach_finds_it	propext Classical.choice Quot.sound
Verif.Props.Dap.C09_exact_partial	propext Classical.choice Quot.sound
Verif.Props.DapSchema.C84_read_partial	propext Classical.choice Quot.sound
Verif.Props.Debuggee.C109_unanswered_refuted	propext Classical.choice Quot.sound
Verif.Props.Launch.C63_attach	propext Classical.choice Quot.sound
Verif.Props.Wire.C85_unknown	propext Classical.choice Quot.sound
Verif.Props.Listen.C105_reported	propext Classical.choice Quot.sound
Verif.Props.StratHooks.C79_not_skipped	propext Classical.choice Quot.sound
Verif.Props.Server.C49_before_terminated_partial	propext Classical.choice Quot.sound
Verif.Props.Strat.C34_no_include_never_stops	propext Classical.choice Quot.sound
Verif.Props.Race.C97_stack_trace_refuted	propext Quot.sound
Verif.Props.WireInit.C99_filter_texts	propext
Verif.Props.Bp.C29_lost_update_refuted	propext Quot.sound
Verif.Props.Strat.C37_continue_single	propext Quot.sound
Verif.Props.Listen.C105_documented_refuted	propext Classical.choice Quot.sound
Verif.Props.Server.C51_refuted	propext
Verif.Props.Strat.C38_terminate_partial	propext Classical.choice Quot.sound
Verif.Props.Launch.C64_bytes_are_a_list	
Verif.Props.Strat.C82_edit_hostvars	propext Classical.choice Quot.sound
Verif.Props.Server.C52_stays_refuted	propext Quot.sound
Verif.Props.Race.C94_resumed	propext Classical.choice Quot.sound
Verif.Props.Strat.C39_exact_partial	propext Classical.choice Quot.sound
Verif.Props.Launch.C71_terminal_request	propext
Verif.Props.SockUds.C78_no_path_partial	propext
Verif.Props.Server.C55_forwarded_or_handled_partial	propext Quot.sound
Verif.Props.Server.C47_no_deadlock	propext Classical.choice Quot.sound
Verif.Props.StratHooks.C81_role_refuted	propext Quot.sound
Verif.Props.Server.C47_after_close	propext Classical.choice Quot.sound
Verif.Props.Dap.C10_exact_partial	propext Classical.choice Quot.sound
Verif.Props.SockUds.C78_private_always_partial	propext Quot.sound
Verif.Props.Strat.C35_continued	propext Classical.choice Quot.sound
Verif.Props.SockUds.C78_round_trip_partial	propext Quot.sound
Verif.Props.Sock.C76_client_encrypted	propext Quot.sound
Verif.Props.Debuggee.C59_nothing_lost	propext Classical.choice Quot.sound
Verif.Props.Strat.C110_step_forgotten_refuted	propext Classical.choice Quot.sound
Verif.Props.Launch.C69_dash_playbook_rejected	propext Quot.sound
Verif.Props.DapSchema.C83_null_refuted	propext Quot.sound
Verif.Props.Input.C06_adapter_terminates	propext Quot.sound
Verif.Props.Sock.C75_confirmed_refuted	propext
Verif.Props.Conn.C07_wrong_seq_recovers_partial	propext Classical.choice Quot.sound
Verif.Props.WireBps.C90_changed_partial	propext Classical.choice Quot.sound
Verif.Props.Bp.C22_not_loaded_unverified	propext Classical.choice Quot.sound
Verif.Props.Listen.C105_everywhere	propext Quot.sound
Verif.Props.SockUds.C78_stop_refuted	
Verif.Props.WireStops.C86_exception	propext Classical.choice Quot.sound
Verif.Props.Wire.C85_answered_partial	propext Classical.choice Quot.sound
