{
 "claims": [
  {
   "property": "C01",
   "status": "proved",
   "theorems": [
    "Verif.Props.Conn.C01_exactly_the_messages",
    "Verif.Props.Conn.C01_prefix_at_any_time",
    "Verif.Props.Conn.C01_hypotheses_hold",
    "Verif.Props.Input.C01_adapter_reads"
   ],
   "note": "Sender and receiver as arbitrary histories; every message class of the protocol. The messages must be instances with annotated attribute types, JSON-representable payloads and C09's exclusions (Exact: known defects of StepInRequest/attach/launch are excluded through the Wire predicate). C01_adapter_reads: for the adapter's input loop."
  },
  {
   "property": "C02",
   "status": "proved",
   "theorems": [
    "Verif.Props.Conn.C02_default_and_limit",
    "Verif.Props.Conn.C02_nothing_lost"
   ],
   "note": "All histories, including negative n (Python slicing of the buffer)."
  },
  {
   "property": "C03",
   "status": "proved",
   "theorems": [
    "Verif.Props.Conn.C03_chunking_irrelevant",
    "Verif.Props.Conn.C03_nonnegative_suffices",
    "Verif.Props.Conn.C03_negative_refuted",
    "Verif.Props.Input.C03_adapter_chunking"
   ],
   "note": "Stronger than stated: negative lengths are allowed as long as they do not reach back before their own header; beyond that the claim is refuted by C03_negative_refuted. C03_adapter_chunking: for the adapter's input loop."
  },
  {
   "property": "C04",
   "status": "proved",
   "theorems": [
    "Verif.Props.Conn.C04_frame"
   ],
   "note": ""
  },
  {
   "property": "C05",
   "status": "proved",
   "theorems": [
    "Verif.Props.Conn.C05_send_numbers",
    "Verif.Props.Conn.C05_receive_numbers",
    "Verif.Props.Conn.C05_no_duplicates",
    "Verif.Props.Conn.C05_wrong_number_rejected"
   ],
   "note": "feq is an arbitrary comparison of float sequence numbers."
  },
  {
   "property": "C06",
   "status": "proved",
   "theorems": [
    "Verif.Props.Conn.C06_none_iff",
    "Verif.Props.Conn.C06_none_unchanged",
    "Verif.Props.Conn.C06_bad_header_sticks",
    "Verif.Props.Input.C06_adapter_terminates"
   ],
   "note": " C06_adapter_terminates: no input makes the adapter's loop spin."
  },
  {
   "property": "C07",
   "status": "partial",
   "theorems": [
    "Verif.Props.Conn.C07_wrong_seq_recovers_partial",
    "Verif.Props.Conn.C07_refuted",
    "Verif.Props.Conn.C07_exact_partial"
   ],
   "note": "FALSE of the code except for messages rejected for their seq alone: C07_refuted shows that after any undecodable message every later correctly numbered message is rejected for ever. C07_wrong_seq_recovers_partial is the part that holds. C07_exact_partial: later messages are accepted iff the rejected one could be decoded."
  },
  {
   "property": "C08",
   "status": "proved",
   "theorems": [
    "Verif.Props.Dap.C08_json_roundtrip",
    "Verif.Props.Dap.C08_surrogate_pair_is_joined"
   ],
   "note": "C08_surrogate_pair_is_joined shows the proviso is needed."
  },
  {
   "property": "C09",
   "status": "partial",
   "theorems": [
    "Verif.Props.Dap.C09_unpack_pack_partial",
    "Verif.Props.Dap.C09_text_roundtrip_partial",
    "Verif.Props.Dap.C09_nested_types",
    "Verif.Props.Dap.C09_stepIn_refuted",
    "Verif.Props.Dap.C09_result",
    "Verif.Props.Dap.C09_exact_partial"
   ],
   "note": "C09_result says for every well-typed instance of all 46 message classes what comes back; C09_exact_partial: it is the message itself exactly if it is not a stepIn request with a target id and not an attach/launch request whose arguments contain a reserved key. C09_stepIn_refuted shows the first exception."
  },
  {
   "property": "C10",
   "status": "partial",
   "theorems": [
    "Verif.Props.Dap.C10_stepIn_thread_partial",
    "Verif.Props.Dap.C10_exact_partial",
    "Verif.Props.Dap.C10_refuted"
   ],
   "note": "FALSE of the code when a targetId is sent (C10_refuted): the target id is taken for the thread id. Proved without targetId. C10_exact_partial: the last of threadId and targetId that is not null gives the thread."
  },
  {
   "property": "C11",
   "status": "proved",
   "theorems": [
    "Verif.Props.Dap.C11_ignored",
    "Verif.Props.Dap.C11_ignored_message",
    "Verif.Props.Dap.C11_types_key_refuted",
    "Verif.Props.Dap.C11_types_exact"
   ],
   "note": "Ext is the relation 'extra unknown or null optional members at any depth'; C11_types_key_refuted shows the one exception: a client member named __types raises. C11_types_exact: exactly which values under `__types` are ignored and which reject the message."
  },
  {
   "property": "C12",
   "status": "proved",
   "theorems": [
    "Verif.Props.Dap.C12_accepted_class",
    "Verif.Props.Dap.C12_request",
    "Verif.Props.Dap.C12_event",
    "Verif.Props.Dap.C12_response",
    "Verif.Props.Dap.C12_error_response",
    "Verif.Props.Dap.C12_success",
    "Verif.Props.Dap.C12_unknown_type",
    "Verif.Props.Dap.C12_unknown_command",
    "Verif.Props.Dap.C12_unknown_event",
    "Verif.Props.Dap.C12_error_response_unknown_command"
   ],
   "note": ""
  },
  {
   "property": "C13",
   "status": "proved",
   "theorems": [
    "Verif.Props.Dap.C13_attach_args",
    "Verif.Props.Dap.C13_launch_args",
    "Verif.Props.Dap.C13_roundtrip"
   ],
   "note": ""
  },
  {
   "property": "C14",
   "status": "proved",
   "theorems": [
    "Verif.Props.Transport.C14_delivered",
    "Verif.Props.Transport.C14_prefix_delivered",
    "Verif.Props.Transport.C14_send_iff"
   ],
   "note": "Serialisation (pickle) is an abstract codec with the laws loads(dumps m) = m and 'a truncated dump does not load'; demoCodec shows the laws are satisfiable. Short reads are arbitrary."
  },
  {
   "property": "C15",
   "status": "proved",
   "theorems": [
    "Verif.Props.Transport.C15_crash_at_any_byte",
    "Verif.Props.Transport.C15_closed_exactly_once",
    "Verif.Props.Transport.C15_reset_or_cancel"
   ],
   "note": "Every byte offset; also reset and local cancel instead of a close; closed exactly once for arbitrary garbage and arbitrary handler exceptions."
  },
  {
   "property": "C16",
   "status": "proved",
   "theorems": [
    "Verif.Props.Transport.C16_exact",
    "Verif.Props.Transport.C16_short"
   ],
   "note": ""
  },
  {
   "property": "C17",
   "status": "proved",
   "theorems": [
    "Verif.Props.Transport.C17_cancel_reaches_pending",
    "Verif.Props.Transport.C17_cancelled_for_ever",
    "Verif.Props.Transport.C17_admission",
    "Verif.Props.Transport.C17_results"
   ],
   "note": "Interleavings as arbitrary sequences of the token's atomic (locked) sections; for cancel actions that do not raise (see C18)."
  },
  {
   "property": "C18",
   "status": "partial",
   "theorems": [
    "Verif.Props.Transport.C18_refuted",
    "Verif.Props.Transport.C18_before_failing_partial",
    "Verif.Props.Transport.C18_exact_partial"
   ],
   "note": "FALSE of the code: C18_refuted shows that operations behind a failing cancel action are never cancelled, by any number of cancels. The partial theorem is what holds. C18_exact_partial: an operation is cancelled iff no action of an earlier one fails."
  },
  {
   "property": "C19",
   "status": "proved",
   "theorems": [
    "Verif.Props.Addr.C19_tcp_alone",
    "Verif.Props.Addr.C19_tcp_host_port",
    "Verif.Props.Addr.C19_tcp_v6_port",
    "Verif.Props.Addr.C19_tcp_v6_zone",
    "Verif.Props.Addr.C19_tcp_no_port",
    "Verif.Props.Addr.C19_uds_alone",
    "Verif.Props.Addr.C19_uds_name",
    "Verif.Props.Addr.C19_uds_path",
    "Verif.Props.Addr.C19_uds_path_short",
    "Verif.Props.Addr.C19_uds_both",
    "Verif.Props.Addr.C19_only_ValueError",
    "Verif.Props.Addr.C19_scheme",
    "Verif.Props.Addr.C19_lenient"
   ],
   "note": "Model of CPython 3.12 urlsplit; IPv6 validity, NFKC and non-ASCII lower-casing are arbitrary. C19_lenient lists undocumented strings that are accepted as well."
  },
  {
   "property": "C20",
   "status": "partial",
   "theorems": [
    "Verif.Props.Addr.C20_address_roundtrip_partial",
    "Verif.Props.Addr.C20_unix_iff",
    "Verif.Props.Addr.C20_refuted"
   ],
   "note": "Proved for IPv4, IPv6 and absolute unix paths without ? # tab CR LF; C20_unix_iff shows this is exact, C20_refuted shows the failures (also relative unix paths)."
  },
  {
   "property": "C21",
   "status": "proved",
   "theorems": [
    "Verif.Props.Bp.C21_answer_is_snapped",
    "Verif.Props.Bp.C21_unique",
    "Verif.Props.Bp.C21_exists",
    "Verif.Props.Bp.C21_negative_line_partial"
   ],
   "note": "Any history, any non-negative requested line; C21_negative_line_partial records what happens for a negative one."
  },
  {
   "property": "C22",
   "status": "proved",
   "theorems": [
    "Verif.Props.Bp.C22_kept_up_to_date",
    "Verif.Props.Bp.C22_not_loaded_unverified",
    "Verif.Props.Bp.C22_reason"
   ],
   "note": "Actions are atomic here; interleavings are C29."
  },
  {
   "property": "C23",
   "status": "proved",
   "theorems": [
    "Verif.Props.Bp.C23_client_view",
    "Verif.Props.Bp.C23_client_rest",
    "Verif.Props.Bp.C23_events_are_changes"
   ],
   "note": "Breakpoints of a modified source are shown by the client without location and not kept (C23_client_rest)."
  },
  {
   "property": "C24",
   "status": "proved",
   "theorems": [
    "Verif.Props.Bp.C24_modified",
    "Verif.Props.Bp.C24_modified_reason",
    "Verif.Props.Bp.C24_one_per_entry",
    "Verif.Props.Bp.C24_ids_never_reused"
   ],
   "note": ""
  },
  {
   "property": "C25",
   "status": "proved",
   "theorems": [
    "Verif.Props.Bp.C25_replaces_source",
    "Verif.Props.Bp.C25_modified_clears",
    "Verif.Props.Bp.C25_other_sources_unchanged"
   ],
   "note": ""
  },
  {
   "property": "C26",
   "status": "proved",
   "theorems": [
    "Verif.Props.Bp.C26_stop_iff_snapped",
    "Verif.Props.Bp.C26_no_stop_iff"
   ],
   "note": "For entries at lines other than 0 (Ansible lines are 1-based)."
  },
  {
   "property": "C27",
   "status": "proved",
   "theorems": [
    "Verif.Props.Bp.C27_order_irrelevant",
    "Verif.Props.Bp.C27_idempotent"
   ],
   "note": ""
  },
  {
   "property": "C28",
   "status": "proved",
   "theorems": [
    "Verif.Props.Bp.C28_blocks",
    "Verif.Props.Bp.C28_plays",
    "Verif.Props.Bp.C28_task_line_verified"
   ],
   "note": "Locations are the texts path:line; entries without a location are skipped, as in the code. Which entry wins when two share a line is given by C21/C22 (the last registered)."
  },
  {
   "property": "C29",
   "status": "partial",
   "theorems": [
    "Verif.Props.Bp.C29_lost_update_refuted",
    "Verif.Props.Bp.C29_stale_update_refuted",
    "Verif.Props.Bp.C29_scan_heals_partial",
    "Verif.Props.Bp.C29_sequential_partial",
    "Verif.Props.Bp.C29_unless_overtaken_partial"
   ],
   "note": "FALSE of the code: C29_lost_update_refuted and C29_stale_update_refuted give interleavings after which a kept breakpoint is wrong. Proved: every scan of the file heals it (C29_scan_heals_partial), for all interleavings of all requests and registrations. C29_unless_overtaken_partial: after any earlier pieces, one request racing any number of registrations in any interleaving leaves every breakpoint of its source right, unless a registration of its file slipped in between the handler's lookup and its storing with no scan of the file after the storing; so the refutations are the only way to lose an update."
  },
  {
   "property": "C30",
   "status": "proved",
   "theorems": [
    "Verif.Props.Bp.C30_last_filters"
   ],
   "note": "The filters survive a disconnect; see C39."
  },
  {
   "property": "C31",
   "status": "partial",
   "theorems": [
    "Verif.Props.Bp.C31_roundtrip_refuted",
    "Verif.Props.Bp.C31_unmapped_refuted",
    "Verif.Props.Bp.C31_no_boundary_refuted",
    "Verif.Props.Bp.C31_roundtrip_partial",
    "Verif.Props.Bp.C31_unmapped_partial",
    "Verif.Props.Bp.C31_first_applies_partial",
    "Verif.Props.Bp.C31_exact_partial",
    "Verif.Props.Bp.C31_exact_back_partial",
    "Verif.Props.Bp.C31_no_mappings_partial",
    "Verif.Props.Bp.C31_in_force_partial"
   ],
   "note": "FALSE of the code in general (three counterexamples). Proved for prefix-incomparable remote roots and for unmapped paths outside all remote roots; and, for every configuration and path, exactly when the round trip returns the path, in both directions (the mapping which applies on the way back must agree with the one used on the way there). The mappings in force over any history: C31_in_force_partial."
  },
  {
   "property": "C32",
   "status": "partial",
   "theorems": [
    "Verif.Props.Strat.C32_step_over_partial",
    "Verif.Props.Strat.C32_step_in_ordinary_partial",
    "Verif.Props.Strat.C32_after_exception_refuted"
   ],
   "note": "Proved for stops at the start of a task (step over, and step in on an ordinary task), over all histories of playbook steps and requests. After an exception stop the level compared with is that of the last start stop: C32_after_exception_refuted."
  },
  {
   "property": "C33",
   "status": "proved",
   "theorems": [
    "Verif.Props.Strat.C33_step_in"
   ],
   "note": "All histories; stops at the next task the host starts that has a location."
  },
  {
   "property": "C34",
   "status": "partial",
   "theorems": [
    "Verif.Props.Strat.C34_step_out_partial",
    "Verif.Props.Strat.C34_nested_refuted",
    "Verif.Props.Strat.C34_import_refuted",
    "Verif.Props.Strat.C34_no_include_never_stops"
   ],
   "note": "Characterises exactly where a step out stops; the English claim holds when the enclosing include is the innermost task ancestor, and is refuted for a nested include (stops inside it) and for imports; with no enclosing include the host never stops again, not even at breakpoints."
  },
  {
   "property": "C35",
   "status": "proved",
   "theorems": [
    "Verif.Props.Strat.C35_continued",
    "Verif.Props.Strat.C35_new_host",
    "Verif.Props.Strat.C35_never_stopped"
   ],
   "note": "All histories, for continued hosts, hosts seen for the first time and hosts never stopped."
  },
  {
   "property": "C36",
   "status": "proved",
   "theorems": [
    "Verif.Props.Strat.C36_exception_stops"
   ],
   "note": "All histories; results that report at most one of failed, unreachable and skipped."
  },
  {
   "property": "C37",
   "status": "proved",
   "theorems": [
    "Verif.Props.Strat.C37_waits",
    "Verif.Props.Strat.C37_proceeds",
    "Verif.Props.Strat.C37_continue_all",
    "Verif.Props.Strat.C37_continue_single",
    "Verif.Props.Strat.C37_exact"
   ],
   "note": "C37_waits: no step of the playbook until a request concerning the thread; C37_proceeds: after one the playbook can always go on. C37_exact: what becomes of a stopped thread, for every sequence of requests and ends of connections."
  },
  {
   "property": "C38",
   "status": "partial",
   "theorems": [
    "Verif.Props.Strat.C38_terminate_partial",
    "Verif.Props.Strat.C38_exact_partial",
    "Verif.Props.Strat.C38_exception_refuted",
    "Verif.Props.Strat.C38_disconnect_refuted",
    "Verif.Props.Strat.C38_refresh_refuted",
    "Verif.Props.Strat.C38_waiting_exact_partial"
   ],
   "note": "Proved with the exception filters off and no request that resumes threads afterwards; refuted otherwise: a failing task with the filter on hangs the playbook, a following disconnect resumes it, an inventory refresh forgets the termination. C38_exact_partial: with any filters, the run ends exactly when the result of the known host is not one the filters select; otherwise the host stops and nothing but a resuming request (not the end of the connection) wakes it. C38_waiting_exact_partial: for a waiting playbook, iff the last request that resumes the thread asks for it."
  },
  {
   "property": "C39",
   "status": "partial",
   "theorems": [
    "Verif.Props.Strat.C39_disconnect_partial",
    "Verif.Props.Strat.C39_exact_partial",
    "Verif.Props.Strat.C39_exception_refuted"
   ],
   "note": "Proved with the exception filters off; refuted otherwise, because exception filters survive the disconnect and the playbook then waits for a client that is gone. C39_exact_partial: with any filters, the first stop after the disconnect is exactly the first result the filters select, and the playbook then waits."
  },
  {
   "property": "C40",
   "status": "proved",
   "theorems": [
    "Verif.Props.Strat.C40_stack"
   ],
   "note": "All histories of playbook steps and requests. The stack trace request of a task without a path is an error (frameDap), as in the code."
  },
  {
   "property": "C41",
   "status": "partial",
   "theorems": [
    "Verif.Props.Strat.C41_stack_partial",
    "Verif.Props.Strat.C41_block_refuted",
    "Verif.Props.Strat.C41_two_levels_refuted",
    "Verif.Props.Strat.C41_refresh_refuted"
   ],
   "note": "Proved (C41_stack_partial) for histories whose tasks come in the nested order of static includes, one level left at a time and no inventory refresh inside an include. Refuted otherwise: C41_block_refuted (a block inside an included file), C41_two_levels_refuted (two include levels left at once), C41_refresh_refuted (refresh_inventory inside an include)."
  },
  {
   "property": "C42",
   "status": "proved",
   "theorems": [
    "Verif.Props.Strat.C42_never_reused",
    "Verif.Props.Strat.C42_resolves",
    "Verif.Props.Strat.C42_meaning",
    "Verif.Props.Strat.C42_frame",
    "Verif.Props.Strat.C42_ends"
   ],
   "note": "All histories. The handlers run in the receive thread and are modelled as atomic with respect to the playbook thread."
  },
  {
   "property": "C43",
   "status": "proved",
   "theorems": [
    "Verif.Props.Strat.C43_scopes",
    "Verif.Props.Strat.C43_fails"
   ],
   "note": "The outcome of templating and the host variables are parameters. The scopes request fails (after making some references) when the host variables or the mapping vars are missing."
  },
  {
   "property": "C44",
   "status": "partial",
   "theorems": [
    "Verif.Props.Strat.C44_dict_partial",
    "Verif.Props.Strat.C44_exact_partial",
    "Verif.Props.Strat.C44_list_partial",
    "Verif.Props.Strat.C44_key_refuted"
   ],
   "note": "Proved for dictionaries whose keys shown as that name are strings and for list entries by their shown index. Refuted (C44_key_refuted) for an entry with a non-string key: a second entry with the same shown name appears and the old one keeps its value. C44_exact_partial: for any dictionary, the value is shown under the name, alone iff no non-string key was shown as that name."
  },
  {
   "property": "C45",
   "status": "proved",
   "theorems": [
    "Verif.Props.Strat.C45_paired",
    "Verif.Props.Strat.C45_all_exit",
    "Verif.Props.Strat.C45_threads_answer"
   ],
   "note": ""
  },
  {
   "property": "C46",
   "status": "partial",
   "theorems": [
    "Verif.Repl.C46_template_partial",
    "Verif.Repl.C46_template_otherwise",
    "Verif.Repl.C46_set_partial",
    "Verif.Repl.C46_remove_partial",
    "Verif.Repl.C46_tail_partial",
    "Verif.Repl.C46_verbatim_partial",
    "Verif.Repl.C46_escaped_quote_refuted",
    "Verif.Repl.C46_minus_h_refuted",
    "Verif.Repl.C46_empty_name_refuted",
    "Verif.Repl.C46_escaped_name_refuted",
    "Verif.Repl.C46_words_partial",
    "Verif.Repl.C46_unknown_option_partial",
    "Verif.Repl.C46_option_refuted"
   ],
   "note": "Holds for every expression that shlex can split and that contains no help word, and for names written plainly or in quotes (C46_*_partial with the exact complement C46_template_otherwise); refuted for expressions with shell-unbalanced quotes, words like -h, an empty name, escaped names."
  },
  {
   "property": "C47",
   "status": "proved",
   "theorems": [
    "Verif.Props.Server.C47_at_most_one",
    "Verif.Props.Server.C47_exactly_one",
    "Verif.Props.Server.C47_after_close",
    "Verif.Props.Server.C47_no_deadlock",
    "Verif.Props.Server.C47_ends",
    "Verif.Props.Server.C47_only_cancel_kills"
   ],
   "note": "All interleavings of the two threads of the adapter: at most one terminated event ever, exactly one when the server has stopped or the end of the debuggee's connection was handled; stopping cannot deadlock and ends in a bounded number of steps; only an exception of the cancel token (C18) can kill the main thread in stop."
  },
  {
   "property": "C48",
   "status": "partial",
   "theorems": [
    "Verif.Props.Server.C48_all_answered_partial",
    "Verif.Props.Server.C48_refuted",
    "Verif.Props.Server.C48_answered_twice_refuted",
    "Verif.Props.Server.C48_exactly_one_partial"
   ],
   "note": "Every request is answered when the adapter stopped because of an exception (all executions). 'Exactly one' is refuted: two threads stopping at once, or a relayed response being noted late, give a second response; proved exactly-one for executions in which the threads do not overtake each other (OReach)."
  },
  {
   "property": "C49",
   "status": "partial",
   "theorems": [
    "Verif.Props.Server.C49_answered_partial",
    "Verif.Props.Server.C49_before_terminated_partial",
    "Verif.Props.Server.C49_refuted",
    "Verif.Props.Server.C49_exactly_one_partial"
   ],
   "note": "Always answered when the server has stopped; before the terminated event if the receive thread had not begun stopping when it arrived; refuted in the window between the receive thread's look at outstanding requests and its terminated event; exactly one response in orderly executions."
  },
  {
   "property": "C50",
   "status": "proved",
   "theorems": [
    "Verif.Props.Server.C50_requests_numbered",
    "Verif.Props.Server.C50_relayed_in_order",
    "Verif.Props.Server.C50_relayed_all",
    "Verif.Props.Server.C50_forwarded_unchanged",
    "Verif.Props.Server.C50_response_matches"
   ],
   "note": "Relayed messages are a prefix (all, when the receive thread is idle) of what the debuggee sent, unchanged and in order; forwarded requests are requests of the client in order with the client's numbers."
  },
  {
   "property": "C51",
   "status": "partial",
   "theorems": [
    "Verif.Props.Server.C51_refuted",
    "Verif.Props.Server.C51_serial_partial",
    "Verif.Props.Server.C51_atomic_methods_partial",
    "Verif.Props.Server.C51_nothing_invented_partial"
   ],
   "note": "Refuted at the level of single reads and writes: duplicate sequence numbers, duplicated, lost and reordered frames. Proved: non-overlapping calls give the right stream; if queue_msg, data_to_send and the write are atomic every frame arrives exactly once with distinct consecutive numbers (order may differ). In every interleaving of single steps nothing is invented: each frame written is a whole frame of a message some thread sends, with a number that was given out (C51_nothing_invented_partial)."
  },
  {
   "property": "C52",
   "status": "partial",
   "theorems": [
    "Verif.Props.Server.C52_refuted",
    "Verif.Props.Server.C52_never_leaves_refuted",
    "Verif.Props.Server.C52_disconnect_leaves_partial",
    "Verif.Props.Server.C52_exact_partial",
    "Verif.Props.Server.C52_stays_refuted"
   ],
   "note": "Refuted: at end of input the loop of start() reads again forever and nothing but a message, bad input or interrupt ends it. Proved: a disconnect request leads out of the loop. C52_exact_partial: the loop is going to be left iff a disconnect request was sent; C52_stays_refuted: over whole executions."
  },
  {
   "property": "C53",
   "status": "partial",
   "theorems": [
    "Verif.Props.Server.C53_refuted",
    "Verif.Props.Server.C53_witness_refuted",
    "Verif.Props.Server.C53_valid_chunks_partial",
    "Verif.Props.Server.C53_exact_partial"
   ],
   "note": "Refuted: debug logging decodes each chunk, so a chunk boundary within a character stops the adapter. Proved: no difference if every chunk is valid UTF-8 by itself. C53_exact_partial: exactly what debug logging changes, for every chunking."
  },
  {
   "property": "C54",
   "status": "proved",
   "theorems": [
    "Verif.Props.Server.C54_at_most_one",
    "Verif.Props.Server.C54_terminal_requested",
    "Verif.Props.Server.C54_handshake",
    "Verif.Props.Server.C54_order",
    "Verif.Props.Server.C54_config_sent",
    "Verif.Props.Server.C54_ended_first",
    "Verif.Props.Server.C54_ended_first_no_response"
   ],
   "note": "At most one runInTerminal request and launch response per launch in every execution; the successful sequences; order of request, answer and response; configuration sent; if the launched process ends first the terminated event follows and no launch response is sent."
  },
  {
   "property": "C55",
   "status": "partial",
   "theorems": [
    "Verif.Props.Server.C55_forwarded_partial",
    "Verif.Props.Server.C55_disconnect_forwarded_partial",
    "Verif.Props.Server.C55_forwarded_or_handled_partial",
    "Verif.Props.Server.C55_not_forwarded_before_partial",
    "Verif.Props.Server.C55_refuted"
   ],
   "note": "Forwarding, exclusivity and never forwarding requests received before a debuggee is set are proved for all executions; refuted between launch and connection, where a request stops the adapter instead of being forwarded."
  },
  {
   "property": "C56",
   "status": "proved",
   "theorems": [
    "Verif.Props.Server.C56_process_id",
    "Verif.Props.Server.C56_address",
    "Verif.Props.Server.C56_round_trip",
    "Verif.Props.Server.C56_mappings",
    "Verif.Props.Server.C56_no_mappings",
    "Verif.Props.Server.C56_mappings_no_list"
   ],
   "note": "Complete characterisation of get_connection_tuple after from_json for all argument dictionaries and directory contents, and the round trip with the file a debuggee writes."
  },
  {
   "property": "C57",
   "status": "proved",
   "theorems": [
    "Verif.Props.Debuggee.C57_tasks_wait_for_configuration"
   ],
   "note": "All interleavings of the playbook, send and receive threads; besides the cases of the property a task can run when start() itself failed (Ansible swallows the callback's exception): stated in the theorem."
  },
  {
   "property": "C58",
   "status": "partial",
   "theorems": [
    "Verif.Props.Debuggee.C58_returns_or_deadlock_partial",
    "Verif.Props.Debuggee.C58_returns_partial",
    "Verif.Props.Debuggee.C58_refuted",
    "Verif.Props.Debuggee.C58_handshake_refuted",
    "Verif.Props.Debuggee.C58_fair_executions_exist"
   ],
   "note": "Refuted: a request that needs the strategy after the last play deadlocks all three threads; a TLS handshake is not cancelled. Proved: in fair executions shutdown returns unless exactly that deadlock occurs; and it returns if no such request is pending or received. Assumes that the peer reads what is sent."
  },
  {
   "property": "C59",
   "status": "proved",
   "theorems": [
    "Verif.Props.Debuggee.C59_in_order",
    "Verif.Props.Debuggee.C59_all_before_the_end_mark",
    "Verif.Props.Debuggee.C59_nothing_lost"
   ],
   "note": "All histories of queueing; if sending fails the messages sent are a prefix."
  },
  {
   "property": "C60",
   "status": "proved",
   "theorems": [
    "Verif.Props.Debuggee.C60_exactly_while_up",
    "Verif.Props.Debuggee.C60_attach_finds_it"
   ],
   "note": "All histories; if shutdown raises (a cancel function failing, C18) or does not return (C58) the file stays, as the property says only what holds once shutdown returns. The adapter's reading of the file is composed with C56."
  },
  {
   "property": "C61",
   "status": "partial",
   "theorems": [
    "Verif.Props.Launch.C61_environment_kept_partial",
    "Verif.Props.Launch.C61_configuration_kept_partial",
    "Verif.Props.Launch.C61_exact_partial",
    "Verif.Props.Launch.C61_empty_entry_refuted",
    "Verif.Props.Launch.C61_repeated_setting_fails"
   ],
   "note": "The user's variables, enabled callbacks, collection paths and non-empty python path entries are kept in order, for every dump with distinct entries; empty PYTHONPATH entries are dropped (refuted), a dump with a repeated setting fails with KeyError. C61_exact_partial: exactly when the callbacks, collection paths and PYTHONPATH arrive as the user had them."
  },
  {
   "property": "C62",
   "status": "proved",
   "theorems": [
    "Verif.Props.Launch.C62_launch_script"
   ],
   "note": "The script text is run by a model of the POSIX shell (lexer, parser, executor) on bytes; every executable path, argument and socket path that can be encoded and has no NUL."
  },
  {
   "property": "C63",
   "status": "proved",
   "theorems": [
    "Verif.Props.Launch.C63_verification_off_only_on_request",
    "Verif.Props.Launch.C63_custom_ca",
    "Verif.Props.Launch.C63_client_certificate",
    "Verif.Props.Launch.C63_tls_iff_requested",
    "Verif.Props.Launch.C63_attach",
    "Verif.Props.Launch.C63_attach_plain",
    "Verif.Props.Launch.C63_attach_certificate"
   ],
   "note": "ssl.SSLContext is modelled by its settings and a file system of readable PEM files; the TLS library's own behaviour is trusted. A custom CA is added to the system CAs, and inherited ANSIBUG_TLS_* variables apply when the option is absent."
  },
  {
   "property": "C64",
   "status": "proved",
   "theorems": [
    "Verif.Props.Launch.C64_friendly_types",
    "Verif.Props.Launch.C64_bytes_are_a_list"
   ],
   "note": "Every class with at most one builtin layout (as CPython demands); bytes are shown as list (C64_bytes_are_a_list)."
  },
  {
   "property": "C65",
   "status": "partial",
   "theorems": [
    "Verif.Props.Strat.C65_disconnect_terminate_partial",
    "Verif.Props.Strat.C65_closed_refuted",
    "Verif.Props.Strat.C65_exact_partial"
   ],
   "note": "Proved until the connection ends; refuted when the connection ends before the playbook thread has woken up. C65_exact_partial: the run ends iff the last request that resumes the thread asks for it."
  },
  {
   "property": "C66",
   "status": "proved",
   "theorems": [
    "Verif.Props.Strat.C66_option",
    "Verif.Props.Strat.C66_hostvar"
   ],
   "note": ""
  },
  {
   "property": "C67",
   "status": "proved",
   "theorems": [
    "Verif.Props.Debuggee.C67_answers_in_order",
    "Verif.Props.Debuggee.C67_only_failed_disconnects",
    "Verif.Props.Debuggee.C67_never_stuck",
    "Verif.Props.Debuggee.C67_every_request_handled"
   ],
   "note": "The bodies of the handlers succeed or raise arbitrarily."
  },
  {
   "property": "C68",
   "status": "partial",
   "theorems": [
    "Verif.Props.Debuggee.C68_wait_ends_partial",
    "Verif.Props.Debuggee.C68_refuted"
   ],
   "note": "Proved for configurationDone and the end of a connection; refuted for a connection that cannot be made: the playbook waits for ever."
  },
  {
   "property": "C69",
   "status": "proved",
   "theorems": [
    "Verif.Props.Launch.C69_arguments_reach_ansible",
    "Verif.Props.Launch.C69_launch_end_to_end",
    "Verif.Props.Launch.C69_dash_playbook_rejected",
    "Verif.Props.Launch.C69_ambiguous_argument_rejected"
   ],
   "note": "End to end through the shell script, argparse and execve. C69_dash_playbook_rejected and C69_ambiguous_argument_rejected show the provisos are needed (both argparse behaviours, before and since Python 3.12, modelled by the parameter eager)."
  },
  {
   "property": "C70",
   "status": "proved",
   "theorems": [
    "Verif.Props.Launch.C70_options_reach_debuggee",
    "Verif.Props.Launch.C70_options_end_at_the_playbook",
    "Verif.Props.Launch.C70_listen_options",
    "Verif.Props.Launch.C70_connect_options",
    "Verif.Props.Launch.C70_dap_options"
   ],
   "note": "For every environment; inherited ANSIBUG_TLS_* variables apply where an option is absent, as stated in the theorem."
  },
  {
   "property": "C71",
   "status": "proved",
   "theorems": [
    "Verif.Props.Launch.C71_terminal_request",
    "Verif.Props.Launch.C71_log_options",
    "Verif.Props.Launch.C71_rejected",
    "Verif.Props.Launch.C71_accepted",
    "Verif.Props.Launch.C71_mappings",
    "Verif.Props.Launch.C71_mappings_no_list"
   ],
   "note": "Every JSON body accepted by the request parser."
  },
  {
   "property": "C72",
   "status": "partial",
   "theorems": [
    "Verif.Props.Strat.C72_stop_has_true_condition_partial",
    "Verif.Props.Strat.C72_stops_partial",
    "Verif.Props.Strat.C72_exact_partial",
    "Verif.Props.Strat.C72_refuted"
   ],
   "note": "FALSE of the code with several breakpoints on one task (C72_refuted): only the first one set counts, so a false condition of it hides the others. Proved: a stop has a true condition; it stops if all the conditions on the line hold (in particular for a single breakpoint). Outcomes of conditions are arbitrary. That the conditions are those the client gave: C102. C72_exact_partial: it stops iff the kept breakpoint of smallest number on the line has a true condition."
  },
  {
   "property": "C73",
   "status": "partial",
   "theorems": [
    "Verif.Props.Strat.C73_counts_partial",
    "Verif.Props.Strat.C73_indices_partial",
    "Verif.Props.Strat.C73_paging_refuted",
    "Verif.Props.Strat.C73_page_exact_partial"
   ],
   "note": "Counts proved for every reference ever handed out, at any later time while the container is unchanged; paging refuted: start and count are ignored. C73_page_exact_partial: the answer is the part asked for iff all the children are asked for."
  },
  {
   "property": "C74",
   "status": "proved",
   "theorems": [
    "Verif.Props.Strat.C74_inspecting_is_neutral",
    "Verif.Props.Strat.C74_inspecting_is_always_possible"
   ],
   "note": "Two-run property, both directions (removing and inserting inspecting requests). What Ansible does with changed variables is outside (labels env/start are the same in both runs). Handlers are atomic, as in C42."
  },
  {
   "property": "C75",
   "status": "partial",
   "theorems": [
    "Verif.Props.Sock.C75_first_accepting_wins_partial",
    "Verif.Props.Sock.C75_returned_partial",
    "Verif.Props.Sock.C75_all_refused_partial",
    "Verif.Props.Sock.C75_unresolved_partial",
    "Verif.Props.Sock.C75_cancelled_partial",
    "Verif.Props.Sock.C75_every_address_refuted",
    "Verif.Props.Sock.C75_closed_refuted",
    "Verif.Props.Sock.C75_confirmed_refuted",
    "Verif.Props.Sock.C75_uds_single_partial",
    "Verif.Props.Sock.C75_cancelled_greeting_partial",
    "Verif.Props.Sock.C75_confirmation_exact_partial"
   ],
   "note": "Proved: order, first success, closing after failures, errors, cancellation. FALSE of the code: a failing socket.socket() ends it without trying the rest; a cancelled attempt leaves its socket open; a connection closed by the server counts as confirmed."
  },
  {
   "property": "C76",
   "status": "proved",
   "theorems": [
    "Verif.Props.Sock.C76_client_encrypted",
    "Verif.Props.Sock.C76_server_encrypted",
    "Verif.Props.Sock.C76_no_fallback",
    "Verif.Props.Sock.C76_uds_hostname"
   ],
   "note": "System calls are an environment with arbitrary outcomes; TLS itself is Python's ssl and trusted."
  },
  {
   "property": "C77",
   "status": "partial",
   "theorems": [
    "Verif.Props.Sock.C77_retry_partial",
    "Verif.Props.Sock.C77_first_success_partial",
    "Verif.Props.Sock.C77_returned_tls_partial",
    "Verif.Props.Sock.C77_plain_partial",
    "Verif.Props.Sock.C77_in_order",
    "Verif.Props.Sock.C77_reset_refuted",
    "Verif.Props.Sock.C77_timeout_refuted",
    "Verif.Props.Sock.C77_gives_up_partial",
    "Verif.Props.Sock.C77_error_passed_on_partial",
    "Verif.Props.Sock.C77_cancelled_partial",
    "Verif.Props.Sock.C77_plain_calls_partial"
   ],
   "note": "Proved for handshakes that fail with SSLError. FALSE of the code: a reset during the handshake ends the listening; the timeout restarts with each failed client. Any other failure is passed on (C77_error_passed_on_partial)."
  },
  {
   "property": "C78",
   "status": "partial",
   "theorems": [
    "Verif.Props.SockUds.C78_private_always_partial",
    "Verif.Props.SockUds.C78_umask_restored_partial",
    "Verif.Props.SockUds.C78_all_or_nothing_partial",
    "Verif.Props.SockUds.C78_owner_partial",
    "Verif.Props.SockUds.C78_owner_refuted",
    "Verif.Props.SockUds.C78_existing_partial",
    "Verif.Props.SockUds.C78_removed_partial",
    "Verif.Props.SockUds.C78_no_path_partial",
    "Verif.Props.SockUds.C78_round_trip_partial",
    "Verif.Props.SockUds.C78_stop_refuted"
   ],
   "note": "Privacy, umask, all-or-nothing and removal proved. FALSE of the code: with a umask that denies the owner the file is unusable; a failing unlink leaves stop before the socket is closed."
  },
  {
   "property": "C79",
   "status": "proved",
   "theorems": [
    "Verif.Props.StratHooks.C79_announced_first",
    "Verif.Props.StratHooks.C79_not_skipped",
    "Verif.Props.StratHooks.C79_held",
    "Verif.Props.StratHooks.C79_results",
    "Verif.Props.StratHooks.C79_meta_no_stop"
   ],
   "note": "Ansible's linear strategy is an environment that may call the hooks in any order."
  },
  {
   "property": "C80",
   "status": "proved",
   "theorems": [
    "Verif.Props.StratHooks.C80_last",
    "Verif.Props.StratHooks.C80_threads",
    "Verif.Props.StratHooks.C80_code"
   ],
   "note": "Exceptions of Ansible's own code may occur whenever it runs; KeyboardInterrupt while waiting is not modelled."
  },
  {
   "property": "C81",
   "status": "partial",
   "theorems": [
    "Verif.Props.StratHooks.C81_no_failure_partial",
    "Verif.Props.StratHooks.C81_negative_line_refuted",
    "Verif.Props.StratHooks.C81_orphan_refuted",
    "Verif.Props.StratHooks.C81_refresh_refuted",
    "Verif.Props.StratHooks.C81_begin_fails",
    "Verif.Props.StratHooks.C81_role_refuted"
   ],
   "note": "Proved under what the linear strategy promises (Orderly) and for playbooks in which the tasks that follow an include_role, while it is the newest frame and below a block or include, are tasks of a role (RolesOnly); C81_begin_fails says exactly when the start of a task fails. FALSE without: an include_role inside an included file or block followed by another task (AttributeError, no request needed: C81_role_refuted), a task in no block on a host inside an include (AttributeError), a refresh while results are outstanding (StopIteration). Also for line numbers that are not negative (C81_negative_line_refuted, C103)."
  },
  {
   "property": "C82",
   "status": "proved",
   "theorems": [
    "Verif.Props.Strat.C82_set_option",
    "Verif.Props.Strat.C82_remove_option",
    "Verif.Props.Strat.C82_edit_options",
    "Verif.Props.Strat.C82_edit_hostvars",
    "Verif.Props.Strat.C82_before_scopes_fails"
   ],
   "note": "task.args is the model's dictionary at the frame's args address; that Ansible runs the task with it is trusted. Before the client has asked for the scopes of the frame the commands answer with a KeyError (C82_before_scopes_fails)."
  },
  {
   "property": "C83",
   "status": "partial",
   "theorems": [
    "Verif.Props.DapSchema.C83_sent_conforms_partial",
    "Verif.Props.DapSchema.C83_exact",
    "Verif.Props.DapSchema.C83_null_refuted",
    "Verif.Props.DapSchema.C83_cancel_refuted"
   ],
   "note": "Proved for all classes but attach, launch and cancel requests with the tolerance that an optional member without a value may be null; without the tolerance for the classes listed in C83_exact. FALSE for the schema as published: optional members are sent as null (C83_null_refuted). That the program builds its messages from values of the annotated types is trusted (mypy)."
  },
  {
   "property": "C84",
   "status": "partial",
   "theorems": [
    "Verif.Props.DapSchema.C84_accepted_partial",
    "Verif.Props.DapSchema.C84_read_partial",
    "Verif.Props.DapSchema.C84_argument_partial",
    "Verif.Props.DapSchema.C84_unsaid_partial",
    "Verif.Props.DapSchema.C84_single_thread_refuted",
    "Verif.Props.DapSchema.C84_exception_options_refuted"
   ],
   "note": "Proved for every request but: exceptionOptions without path raise a TypeError (C84_exception_options_refuted), continue without singleThread means true instead of false (C84_single_thread_refuted), stepIn targets (C10_refuted), a member __types (C11_types_key_refuted). The schema is transcribed in Dap/Schema.lean (trusted)."
  },
  {
   "property": "C85",
   "status": "partial",
   "theorems": [
    "Verif.Props.Wire.C85_answered_partial",
    "Verif.Props.Wire.C85_disconnect_silent",
    "Verif.Props.Wire.C85_document_partial",
    "Verif.Props.Wire.C85_refuted",
    "Verif.Props.Wire.C85_routed_partial",
    "Verif.Props.Wire.C85_continue_partial",
    "Verif.Props.Wire.C85_unknown"
   ],
   "note": "C85_answered_partial and C85_disconnect_silent are proved for every request object. On documents the exclusions of C84 apply (C85_refuted: an exceptionOptions entry without a path is not answered)."
  },
  {
   "property": "C86",
   "status": "proved",
   "theorems": [
    "Verif.Props.WireStops.C86_start",
    "Verif.Props.WireStops.C86_step_over",
    "Verif.Props.WireStops.C86_step_in",
    "Verif.Props.WireStops.C86_step_out",
    "Verif.Props.WireStops.C86_breakpoint",
    "Verif.Props.WireStops.C86_exception",
    "Verif.Props.WireStops.C86_events",
    "Verif.Props.WireStops.C86_only",
    "Verif.Props.WireStops.C86_threads"
   ],
   "note": "Event objects; that their documents conform to the schema is C86_events with C83."
  },
  {
   "property": "C87",
   "status": "proved",
   "theorems": [
    "Verif.Props.WireEval.C87_expression",
    "Verif.Props.WireEval.C87_template_command",
    "Verif.Props.WireEval.C87_set_command",
    "Verif.Props.WireEval.C87_remove_command",
    "Verif.Props.WireEval.C87_command_answer",
    "Verif.Props.WireEval.C87_gone",
    "Verif.Props.WireEval.C87_not_evaluated"
   ],
   "note": "templating, repr and type names are arbitrary functions (Env)."
  },
  {
   "property": "C88",
   "status": "proved",
   "theorems": [
    "Verif.Props.WireEval.C88_threads",
    "Verif.Props.WireEval.C88_stack"
   ],
   "note": "Attributes of the answer; the document says the same by C83/C09."
  },
  {
   "property": "C89",
   "status": "proved",
   "theorems": [
    "Verif.Props.WireVars.C89_variables",
    "Verif.Props.WireVars.C89_scopes",
    "Verif.Props.WireVars.C89_set_variable",
    "Verif.Props.WireVars.C89_gone"
   ],
   "note": "Attributes of the answer objects (the document says the same by C83/C09). repr, type names and templating are arbitrary functions (Env)."
  },
  {
   "property": "C90",
   "status": "partial",
   "theorems": [
    "Verif.Props.WireBps.C90_set_breakpoints_partial",
    "Verif.Props.WireBps.C90_refuted",
    "Verif.Props.WireBps.C90_set_exceptions_partial",
    "Verif.Props.WireBps.C90_disconnect_partial",
    "Verif.Props.WireBps.C90_terminate_partial",
    "Verif.Props.WireBps.C90_changed_partial"
   ],
   "note": "On documents the exclusions of C84 apply (no member __types, no exceptionOptions; C90_refuted). terminate, configurationDone and the changed events are proved in full."
  },
  {
   "property": "C91",
   "status": "proved",
   "theorems": [
    "Verif.Props.E2e.C91_session",
    "Verif.Props.E2e.C91_client",
    "Verif.Props.E2e.C91_delivered",
    "Verif.Props.E2e.C91_shown"
   ],
   "note": "pickle is an arbitrary serialisation with the left-inverse property (Codec). The session starts when the path mappings have been sent. One send_to_client call is one step (its races are C51), handling a message is one step; requests the client writes after a disconnect request are not forwarded in the model. Delivery needs messages below 4 GiB on the socket (the length field); the reading side of C91_client asks for texts that JSON can carry (Val.Ok)."
  },
  {
   "property": "C92",
   "status": "proved",
   "theorems": [
    "Verif.Props.E2e.C92_answers",
    "Verif.Props.E2e.C92_complete"
   ],
   "note": "Same model as C91."
  },
  {
   "property": "C93",
   "status": "partial",
   "theorems": [
    "Verif.Props.Race.C93_playbook_does_not_fail_partial",
    "Verif.Props.Race.C93_set_breakpoints_refuted",
    "Verif.Props.Race.C93_include_refuted",
    "Verif.Props.Race.C93_next_variable_refuted"
   ],
   "note": "Proved: no KeyError or IndexError ever (thread switches everywhere except inside next_variable_id, which CPython with a global lock does not do), and no exception at all unless a breakpoint is added while the playbook iterates over the breakpoints. Refuted in general: setBreakpoints at that moment raises RuntimeError in the playbook (before a stop, and when an included file or role is scanned); with a switch inside of next_variable_id a number is used twice and the playbook ends with KeyError."
  },
  {
   "property": "C94",
   "status": "proved",
   "theorems": [
    "Verif.Props.Race.C94_no_deadlock",
    "Verif.Props.Race.C94_request_goes_on",
    "Verif.Props.Race.C94_no_lost_wakeup",
    "Verif.Props.Race.C94_resumed"
   ],
   "note": "Both granularities. One play; condition variable and lock of threading with one waiter."
  },
  {
   "property": "C95",
   "status": "proved",
   "theorems": [
    "Verif.Props.Agree.C95_agrees_with_one_step",
    "Verif.Props.Race.C95_answer",
    "Verif.Props.Race.C95_answered"
   ],
   "note": "Values are left out: a variables answer is its list of references (their contents: C42-C44, C87-C90). Thread switches everywhere except inside of next_variable_id. C95_agrees_with_one_step ties the small-step model to the one the other debug state properties are about: every history of the latter within one play is an unoverlapped execution of the former."
  },
  {
   "property": "C96",
   "status": "partial",
   "theorems": [
    "Verif.Props.Race.C96_no_stop_after_disconnect",
    "Verif.Props.Race.C96_terminate_ends",
    "Verif.Props.Race.C96_disconnect_fails_refuted",
    "Verif.Props.Race.C96_fails_only_if_a_thread_exits_partial"
   ],
   "note": "Proved: no stop after a successful answer, a stopped playbook ends on terminate, and the request fails only if a thread exits while it is handled. Refuted: in that case it does fail, with KeyError. (With exception filters set: C39.)"
  },
  {
   "property": "C97",
   "status": "partial",
   "theorems": [
    "Verif.Props.Race.C97_new_references_partial",
    "Verif.Props.Race.C97_fails_only_if_partial",
    "Verif.Props.Race.C97_threads_listed_partial",
    "Verif.Props.Race.C97_stack_trace_refuted",
    "Verif.Props.Race.C97_threads_refuted",
    "Verif.Props.Race.C97_continue_refuted",
    "Verif.Props.Race.C97_leaked_references_refuted"
   ],
   "note": "Proved: an answer is a KeyError or the right number of new, distinct references; a request fails only for a stated reason (what it asks for was not there or has been removed meanwhile, or a thread has come or gone while it went through them). Refuted: stackTrace (KeyError), threads and continue (RuntimeError) do fail when the playbook changes the dictionaries meanwhile; references added to a frame that has just been removed are never removed."
  },
  {
   "property": "C98",
   "status": "partial",
   "theorems": [
    "Verif.Props.Strat.C98_scans_first_partial",
    "Verif.Props.Strat.C98_scans_only_then",
    "Verif.Props.Strat.C98_breakpoints_verified_partial",
    "Verif.Props.Strat.C98_first_task_stops_partial",
    "Verif.Props.Strat.C98_scanned_partial",
    "Verif.Props.Strat.C98_rescan_is_silent_partial",
    "Verif.Props.Strat.C98_inline_block_refuted"
   ],
   "note": "For trees with well-formed locations; verification and silence of repeated scans for roles in which no line holds both an explicit block and a task (C98_inline_block_refuted: with an inline block each task of the role sends two spurious events). The stop of the first task for conditions that hold and a host that is not stepping out. For kept breakpoints whose requested lines are not negative (C103)."
  },
  {
   "property": "C99",
   "status": "proved",
   "theorems": [
    "Verif.Props.WireInit.C99_document",
    "Verif.Props.WireInit.C99_filter_texts",
    "Verif.Props.WireInit.C99_announced_requests",
    "Verif.Props.WireInit.C99_other_requests",
    "Verif.Props.WireInit.C99_unannounced_ignored",
    "Verif.Props.WireInit.C99_filters",
    "Verif.Props.WireInit.C99_clipboard"
   ],
   "note": "The table of the requests and attributes that belong to capabilities is taken from the protocol's specification. 'Understood' is: of a known class, with a handler; what the handler then does is C44, C57, C38. Conditional breakpoints are C72, ending the debuggee on disconnect is C65."
  },
  {
   "property": "C100",
   "status": "partial",
   "theorems": [
    "Verif.Props.WireInit.C100_from_one_partial",
    "Verif.Props.WireInit.C100_ignored",
    "Verif.Props.WireInit.C100_lines_refuted"
   ],
   "note": "Proved for clients that count from 1 (the default). FALSE for a client with linesStartAt1 = false (C100_lines_refuted): everything it says in the initialize request is ignored (C100_ignored)."
  },
  {
   "property": "C101",
   "status": "partial",
   "theorems": [
    "Verif.Props.Single.C101_own_instance",
    "Verif.Props.Single.C101_one_thread_partial",
    "Verif.Props.Single.C101_settled_partial",
    "Verif.Props.Single.C101_retry",
    "Verif.Props.Single.C101_refuted"
   ],
   "note": "Proved for calls from one thread (both plugins call it from Ansible's main thread) and, for any number of threads, from the moment the instance is there and nobody is making one; no call ever fails in the lookup or returns a foreign object. FALSE for two threads that make the first call at the same time (C101_refuted): there is no lock."
  },
  {
   "property": "C102",
   "status": "proved",
   "theorems": [
    "Verif.Props.Cond.C102_belongs",
    "Verif.Props.Cond.C102_asked",
    "Verif.Props.Cond.C102_stops_for",
    "Verif.Props.Cond.C102_stops",
    "Verif.Props.Cond.C102_counts",
    "Verif.Props.Cond.C102_document"
   ],
   "note": "The outcome of evaluating a text as a condition is an arbitrary function. With several breakpoints on one task the first one counts (C72_refuted, C102_counts)."
  },
  {
   "property": "C103",
   "status": "partial",
   "theorems": [
    "Verif.Props.Raise.C103_exactly",
    "Verif.Props.Raise.C103_goes_on_partial",
    "Verif.Props.Raise.C103_requests",
    "Verif.Props.Raise.C103_refuted"
   ],
   "note": "FALSE for lines far below zero, which conform to the protocol and are accepted while the file is not loaded: the playbook dies of an IndexError when it is (C103_refuted). C103_exactly says for every history exactly which lines do this; C103_goes_on_partial is the property for lines that are not negative. The scan of an included role: C98."
  },
  {
   "property": "C104",
   "status": "partial",
   "theorems": [
    "Verif.Props.Strat.C104_set",
    "Verif.Props.Strat.C104_console_partial",
    "Verif.Props.Strat.C104_why",
    "Verif.Props.Strat.C104_hostvar_refuted"
   ],
   "note": "C104_set and C104_why are the property for setVariable, C104_console_partial for the console commands. FALSE for set_hostvar if the scopes request of the frame failed half-way (C104_hostvar_refuted): the variable of the task is changed and the command answered with an error. Assumes that the arguments of a task are a dict (as in Ansible) and that set_host_variable of the variable manager does not raise."
  },
  {
   "property": "C105",
   "status": "partial",
   "theorems": [
    "Verif.Props.Listen.C105_only_asked",
    "Verif.Props.Listen.C105_everywhere",
    "Verif.Props.Listen.C105_everywhere_v4",
    "Verif.Props.Listen.C105_exactly_partial",
    "Verif.Props.Listen.C105_why",
    "Verif.Props.Listen.C105_v4_refuted",
    "Verif.Props.Listen.C105_documented_refuted",
    "Verif.Props.Listen.C105_both_refuted",
    "Verif.Props.Listen.C105_no_dualstack_refuted",
    "Verif.Props.Listen.C105_by_name",
    "Verif.Props.Listen.C105_reported"
   ],
   "note": "'At no others' (C105_only_asked), the unspecified host (C105_everywhere), the reported address (C105_reported) and clients that try all addresses of a name (C105_by_name) are proved. FALSE of the code for IPv4 on every machine with dual stack (C105_v4_refuted): an IPv6 socket is bound to it; the example of the help text, tcp://127.0.0.1:0, fails (C105_documented_refuted). C105_exactly_partial says exactly when listening succeeds. Trusted: the model of create_server and of the kernel's rules in Sock/Listen.lean (Linux); the failure was reproduced with the standard library alone."
  },
  {
   "property": "C106",
   "status": "partial",
   "theorems": [
    "Verif.Props.Listen.C106_chosen_port_partial",
    "Verif.Props.Listen.C106_same_user_partial",
    "Verif.Props.Listen.C106_refuted"
   ],
   "note": "Proved if the system chooses the port (C106_chosen_port_partial) and against other users (C106_same_user_partial), over all histories. FALSE for a given port (C106_refuted): SO_REUSEPORT is set, so a second playbook of the same user listens on the same address without an error and may get the connections. The kernel's rules (Linux) are part of the model."
  },
  {
   "property": "C107",
   "status": "partial",
   "theorems": [
    "Verif.Props.Machine.C107_found_partial",
    "Verif.Props.Machine.C107_not_others_partial",
    "Verif.Props.Machine.C107_killed_refuted",
    "Verif.Props.Machine.C107_planted_refuted",
    "Verif.Props.Machine.C107_one_client_partial",
    "Verif.Props.Machine.C107_stale_refuted",
    "Verif.Props.Machine.C107_ended_partial"
   ],
   "note": "Found, and nothing else, whatever happened on the machine, while the playbook waits on a port the system chose (C107_found_partial); fails or names a running playbook of this id if nothing was killed and no file planted (C107_not_others_partial). Once it has its client nobody else reaches it (C107_one_client_partial), once it has ended nobody does and its id is not found (C107_ended_partial). FALSE after a playbook was killed (C107_killed_refuted: its file stays, and whatever gets the port is reached; C107_stale_refuted: for good) and against other users (C107_planted_refuted: the file is in a shared directory, its owner is not checked; the planted file also keeps the playbook from being debugged). TCP only; the steps are whole calls (thread by thread: C60). Trusted: the rules of the kernel in Sock/Listen.lean and of a sticky directory."
  },
  {
   "property": "C108",
   "status": "partial",
   "theorems": [
    "Verif.Props.Debuggee.C108_refuted",
    "Verif.Props.Debuggee.C108_no_wait_refuted",
    "Verif.Props.Debuggee.C108_goes_on_partial"
   ],
   "note": "FALSE for every playbook but the first (C108_refuted: the debugger is one object per process, its cancel token stays cancelled, so no message is ever received or sent; C108_no_wait_refuted: it does not wait for the configuration either, while announcing an address). Proved: it is at least not held up (C108_goes_on_partial). Trusted: Ansible calls on_start and on_stats once per playbook on the same plugin object."
  },
  {
   "property": "C109",
   "status": "partial",
   "theorems": [
    "Verif.Props.Debuggee.C109_refuted",
    "Verif.Props.Debuggee.C109_unanswered_refuted",
    "Verif.Props.Debuggee.C109_ends_partial"
   ],
   "note": "FALSE (C109_refuted: if the end was not asked for before, the send thread waits on for a client or for messages, is not a daemon, and the process stays, whatever the client does, unless an operation on its socket fails). Proved: once the end mark is queued the process ends within a bound, if the receive thread does not wait for a play (C109_ends_partial). Trusted: on_stats is not called after KeyboardInterrupt or AnsibleError; the interpreter waits for threads that are not daemons. C109_unanswered_refuted: a request that needs a play is then never answered and blocks everything behind it."
  },
  {
   "property": "C110",
   "status": "partial",
   "theorems": [
    "Verif.Props.Strat.C110_step_forgotten_refuted",
    "Verif.Props.Strat.C110_within_play_partial",
    "Verif.Props.Strat.C110_refuted"
   ],
   "note": "FALSE: the state of the threads is that of the play; after any history, the first task of a host in a new play (or after a refresh of the inventory) stops exactly at breakpoints, whatever the client had told the host (C110_step_forgotten_refuted; C110_refuted is a case). Proved within a play (C110_within_play_partial)."
  },
  {
   "property": "C111",
   "status": "partial",
   "theorems": [
    "Verif.Props.Bp.C111_unless_answered_late_partial",
    "Verif.Props.Bp.C111_answered_late_refuted"
   ],
   "note": "FALSE of the code: C111_answered_late_refuted (the event precedes the answer that first names the breakpoint, and the answer carries the old data; the client stays wrong however often the file is loaded again). C111_unless_answered_late_partial: in every other interleaving the client's view of every source equals what the debuggee keeps. The scan loop is one piece, as in C29."
  }
 ]
}