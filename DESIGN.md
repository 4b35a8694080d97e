# Formal model of ansibug in Lean 4 — design

Source: `/repo` (jborean93/ansibug, Python). Nothing of it is executed; the model was written by
reading it. Every definition of the model cites the file and lines it models, and says where it
simplifies. `tools/coverage.py -v` lists the source lines no definition cites.

This file is generated by `tools/design.py` from `tools/design_head.md`, `tools/approach.json`,
`tools/axioms.tsv` and `MANIFEST.json`.

## Layout

| directory of `lean/Verif` | what it models | properties |
|---|---|---|
| `Py` | Python primitives: strings as code points, byte strings, insertion-ordered dicts, slices, `find`, `split`, `int()` | all |
| `Json` | `json.dumps` (ensure_ascii) and `json.loads` on code points | C01, C08 |
| `Dap` | class tables of `dap/_messages, _requests, _responses, _events, _types`, `default_pack`, `default_unpack`, dispatch; the protocol's published schema | C09–C13, C83, C84 |
| `Conn` | `DebugAdapterConnection` (`dap/_adapter.py`) | C01–C07 |
| `Transport` | `MPQueue` framing, `SocketHelper.recv`, `SocketCancellationToken` | C14–C18 |
| `Addr` | `urlsplit` and the address functions | C19, C20 |
| `Bp` | breakpoints of the debuggee and of the client, playbook scan, path mappings, races | C21–C31 |
| `Strat` | debug strategy: threads, stepping, stack, variables, console requests, the hooks called by Ansible's linear strategy | C32–C45, C65, C66, C72–C74, C79–C82 |
| `Repl` | console commands: `shlex`, `argparse` part, expression recovery | C46 |
| `Server` | `DAServer`, both threads; client socket writes; attach | C47–C56 |
| `Debuggee` | `AnsibleDebugger`: three threads, start and shutdown | C57–C60, C67, C68 |
| `Launch` | command line, environment, launch script and a POSIX shell to run it, TLS settings | C61–C64, C69–C71 |
| `Sock` | connecting, listening, TLS wrapping, unix sockets over a nondeterministic kernel | C75–C78, C105, C106 |
| `Wire` | `AnsibleDebugger.process_message` and the DAP objects the debug state builds: from request objects to answers and events | C85–C90, C99, C100 |
| `Bp.Cond` | the breakpoint functions with the conditions of the entries; erasing them gives `Bp` | C102 |
| `Single` | `Singleton.__call__`, thread switches between any two dictionary operations | C101 |
| `E2e` | client, adapter and debuggee in one transition system with the bytes between them (composition of `Conn`, `Transport`, `Wire`) | C91, C92 |
| `Race` | the debug state with the playbook thread and the request thread interleaved at every access to what they share | C93–C97 |
| `Props` | the property theorems `Cnn_…`, their vocabulary, non-vacuity examples | all |

In each directory `Model` (or the files named after the code) holds the model, `Spec` the vocabulary of
the statements that is not part of the code, the other files lemmas. A theorem named `Cnn_…_refuted` proves that
the English property does *not* hold of the code, with a concrete reachable witness; `Cnn_…_partial` proves
the part that holds. The rest hold as stated.

## Trusted base

* **Kernel.** Lean 4.33.0's kernel. No `sorry`-like placeholder, no compiled evaluation, no own axioms.
* **Axioms.** Every claim theorem depends on at most `propext`, `Classical.choice`, `Quot.sound`; the list per theorem
  is at the end.
* **The reading.** That the Lean definitions say what the cited Python lines do. No tool checks this. It is helped by:
  line citations, example runs of the models checked by the kernel, and the seeded edits in `seeded/LOG.jsonl`.
* **Differential test of library models** (not a proof): `tools/difftest` runs the Lean models of shlex, argparse (repl and command line), `json.loads`/`dumps`, `int()`, UTF-8,
  base64, `shlex.quote` and `urlsplit` against CPython 3.11 on generated inputs; about 268 000 cases over four seeds differed only where stated: lower-casing of
  non-ASCII letters is a parameter, non-ASCII digits are not digits, and the check of bracketed hosts is that of later patch releases.
* **The DAP schema.** `Dap/Schema.lean` transcribes the published debugAdapterProtocol.json (members, required, types) for C83 and C84, from memory: there is no copy
  of it in /repo or in this sandbox.
* **Python library behaviour that is modelled** (from the CPython sources, versions 3.9 to 3.13 where they differ):
  `json`, UTF-8, `bytes.find/split`, `int()`, dict order, slices, `urllib.parse.urlsplit`, `shlex.split`, the parts of `argparse` in use,
  `shlex.quote`, `os.path.join/abspath` on POSIX, `socketserver`-free socket use, `contextlib.ExitStack`, `threading.Condition/Event`,
  `queue.Queue`; a POSIX shell (quoting, simple commands, `exec`) for the launch script.
* **Behaviour that is a parameter with stated laws or fully arbitrary**: `pickle` (round trip, no proper prefix loads),
  outcomes of system calls, Ansible's templating and conditions, IPv6 and NFKC tables, TLS handshakes, the order in which the kernel
  delivers bytes, the scheduler.
* **Request attributes.** In `Wire` a request attribute of a wrong Python type is an error answer; a breakpoint source is echoed with name and path only.
* **Atomicity.** The adapter, the debuggee's life cycle, the client's writes, breakpoint registration and the cancellation token are
  modelled as interleavings of steps with at most one shared access each (or one locked section). The strategy's request
  handlers (`Strat`, `Wire`, `E2e`) are atomic with respect to the playbook thread there; `Race` models the same code (without the values) with thread
  switches at every access to shared state, and says when atomic handling is justified (C95: while the playbook is stopped) and when not (C93, C96, C97).
  The two are not only written from the same lines: `C95_agrees_with_one_step` (`Race/Sim*`) proves that each history of `Strat` within one play is an execution of
  `Race` with the same inputs, events, thread, frame and reference ids, in which nothing overlaps.

## What is not modelled

* Floating point values (a JSON float is its literal text), Python recursion limits, memory exhaustion, signals except where stated
  (KeyboardInterrupt in the adapter's main loop), wall-clock time (timeouts may expire at any moment they are armed).
* Output of logging (`_logging.py`): only its effect on control flow (C53) is modelled.
* `__init__`, `_version.py`, imports and type annotations.
* TLS records, certificates and OpenSSL: contexts are their settings (C63), handshakes succeed or fail (C76, C77).
* Ansible: the linear strategy, the variable manager and the templating engine are environments whose calls and results are
  arbitrary, restricted only where a theorem says so (`Orderly` and `RolesOnly` for C81, nested includes for C41).
* Windows.

## Findings: where the code does not have the property

Each has a theorem `…_refuted` (or is the proviso of a `…_partial` theorem).

* C03: a negative Content-Length that reaches back before its header makes parsing depend on how the stream was cut.
* C07: after one undecodable message every later, correctly numbered message is rejected for ever.
* C09, C10: `stepIn` with a `targetId`: the target id is taken for the thread id.
* C11: a member named `__types` in a client message raises.
* C18: if a cancel action raises, the operations behind it are never cancelled.
* C20: unix paths containing `?`, `#`, tab, CR, LF, or relative paths, are reported as addresses that mean something else.
* C29: a breakpoint set while Ansible registers lines of the same file can be left with an outdated location.
* C31: path mappings with overlapping roots are not inverse.
* C32, C34: after an exception stop the step level is the one of the last start stop; step out of a nested include stops inside it; with no enclosing include the host never stops again.
* C38: terminate is undone by an exception stop (hangs), a following disconnect, or a refresh of the inventory.
* C39: exception filters survive a disconnect; the playbook then waits for a client that is gone.
* C41: blocks inside included files and leaving two include levels at once give a wrong stack.
* C44: setting an entry whose key is not a string adds a second entry.
* C46: expressions with unbalanced quotes or words like `-h` are not evaluated verbatim; the command word is looked up as the first occurrence in the text, so `! -t t a` evaluates `t a`.
* C48, C49: a request may get two responses when both threads of the adapter stop at once or a relayed response is noted late; a disconnect response may follow the terminated event.
* C51: `send_to_client` is not synchronised: duplicate sequence numbers, duplicated, lost or reordered frames.
* C52: at the end of the client's input the adapter reads again for ever (busy loop).
* C53: with debug logging on, a chunk boundary inside a UTF-8 character stops the adapter.
* C55: a request between launch and the debuggee's connection stops the adapter. Also seen while modelling: a race on `_launch_queue`; a second disconnect in the same buffer raises CancelledError; disconnect after a failed launch raises NotImplementedError (still answered).
* C58: a request for the strategy after the last play deadlocks shutdown; a TLS handshake is not cancellable.
* C60: if shutdown raises, the process file stays.
* C61: a configuration dump with a repeated entry raises KeyError; empty PYTHONPATH entries are dropped.
* C63: a custom CA is added to the system's CAs instead of replacing them; inherited `ANSIBUG_TLS_*` variables apply when an option is absent.
* C64: bytes are shown as `list`.
* C65: if the connection ends before the playbook thread has woken up, the termination is lost.
* C68: the playbook waits for ever if the connection cannot be made; if `start()` fails Ansible swallows the exception and runs the tasks without waiting; if `v2_playbook_on_stats` is never called the send thread keeps the process alive.
* C69: a playbook argument that begins with `-` is rejected; ambiguous abbreviations are rejected on Python up to 3.11.
* C72: only the first of several breakpoints on a task counts, so its false condition hides the others.
* C73: `start` and `count` of a variables request are ignored.
* C75: a failing `socket.socket()` (no IPv6) ends connecting without trying the other addresses; a cancelled attempt leaves its socket open; a connection closed by the server counts as confirmed.
* C77: a connection reset during the handshake ends listening; the timeout restarts with each failed client.
* C78: a umask that denies the owner makes the socket file unusable; a failing unlink leaves stop before the socket is closed.
* C81: an include_role inside an included file or an explicit block, followed by another task, raises AttributeError in the strategy (the next task's `_role` is None); a task in no block on a host inside an include raises AttributeError; a refresh of the inventory with outstanding results raises StopIteration.
* C82: `set_option`/`remove_option` before the client has asked for the scopes of the frame answer with a KeyError.
* C83: optional members without a value are sent as null, which the DAP schema does not allow (clients tolerate it); `progressId` of cancel is a number instead of a text; `hex` of a stack frame format is not read.
* C84: `continue` without `singleThread` is taken as `singleThread: true` (the protocol says false: the other threads should continue); exception options without `path` raise a TypeError.
* C93: setBreakpoints handled while the playbook goes through the breakpoints raises RuntimeError in the playbook thread and ends it.
* C96: disconnect or terminate handled while the playbook removes its threads fails with KeyError.
* C97: stackTrace, threads and continue requests handled while the playbook runs may fail with KeyError or RuntimeError; scopes may add references to a frame that was just removed, which then stay for ever.
* C100: a client that counts lines from 0 (linesStartAt1 false) is shown and understood with lines counted from 1; nothing of the initialize request is looked at.
* C101: two threads that ask for the first instance at the same time get two debuggers (the plugins ask from one thread only).
* C98: a role with an explicit block and a task on one line makes every task of the role send two spurious breakpoint events.
* C81, C103: a breakpoint requested far below line 0 of a file that is not loaded yet is accepted and kills the playbook (IndexError) when the file is loaded.
* C104: `set_hostvar` in a frame whose scopes request failed half-way is answered with an error although the variable of the task has been changed.
* C105: with dual stack (every usual Linux host) listening on an IPv4 address fails, including `tcp://127.0.0.1:0` of the help text: an IPv6 socket is made for every TCP address.
* C106: with a port given by the user `SO_REUSEPORT` is set, and two playbooks of one user share the address without an error; a client reaches either.
* C107: the process file of a killed playbook stays, and an attach request with its id reaches whatever has got the port since; the file is looked for in the shared temporary directory and its owner is not checked, so another user can direct attach requests elsewhere and keep a playbook from being debugged.
* C108: `ansible-playbook a.yml b.yml`: the debugger object is shared and its cancel token is never renewed, so the second playbook announces an address, does not wait for the client and can never be debugged.
* C109: a playbook that is interrupted (Ctrl-C) or fails with an error of Ansible never calls shutdown; the send thread is not a daemon and waits for messages, so the process hangs and disconnect requests are not answered.
* C110: a step at the last task of a play (or before a `meta: refresh_inventory`) is forgotten: the playbook runs on to the next breakpoint.
* C111: if a file is scanned after a setBreakpoints request has stored a breakpoint and before its answer is sent, the `changed` event precedes the answer and the answer carries the old data: the client shows the breakpoint as unverified for good although the debuggee stops there.

## The properties

Statements are in `properties.jsonl`. Theorems are in `lean/Verif/Props`.

### C01 Messages survive the client wire protocol unchanged — proved

*Modelled and proved by:* JSON writer and reader on code points; sender and receiver as arbitrary histories; induction over frames with prefix stability of next_message.

*Remarks:* Sender and receiver as arbitrary histories; every message class of the protocol. The messages must be instances with annotated attribute types, JSON-representable payloads and C09's exclusions (Exact: known defects of StepInRequest/attach/launch are excluded through the Wire predicate). C01_adapter_reads: for the adapter's input loop.

*Theorems:* `C01_exactly_the_messages`, `C01_prefix_at_any_time`, `C01_hypotheses_hold`, `C01_adapter_reads`

### C02 Draining output never loses, repeats or reorders bytes — proved

*Modelled and proved by:* induction over histories of queueing and draining, slices with negative n.

*Remarks:* All histories, including negative n (Python slicing of the buffer).

*Theorems:* `C02_default_and_limit`, `C02_nothing_lost`

### C03 Receiving does not depend on how the stream was cut — proved

*Modelled and proved by:* prefix stability of the parser; any two cuttings of a stream give the same messages.

*Remarks:* Stronger than stated: negative lengths are allowed as long as they do not reach back before their own header; beyond that the claim is refuted by C03_negative_refuted. C03_adapter_chunking: for the adapter's input loop.

*Theorems:* `C03_chunking_irrelevant`, `C03_nonnegative_suffices`, `C03_negative_refuted`, `C03_adapter_chunking`

### C04 Content-Length is the exact payload size in bytes — proved

*Modelled and proved by:* computation of the frame for every payload.

*Theorems:* `C04_frame`

### C05 Sequence numbers — proved

*Modelled and proved by:* induction over histories.

*Remarks:* feq is an arbitrary comparison of float sequence numbers.

*Theorems:* `C05_send_numbers`, `C05_receive_numbers`, `C05_no_duplicates`, `C05_wrong_number_rejected`

### C06 Incomplete input is not consumed — proved

*Modelled and proved by:* case analysis of next_message on incomplete buffers, all states.

*Remarks:*  C06_adapter_terminates: no input makes the adapter's loop spin.

*Theorems:* `C06_none_iff`, `C06_none_unchanged`, `C06_bad_header_sticks`, `C06_adapter_terminates`

### C07 A rejected message does not desynchronise the connection — partial

*Modelled and proved by:* counterexample for all later messages by induction; recovery proved for wrong seq.

*Remarks:* FALSE of the code except for messages rejected for their seq alone: C07_refuted shows that after any undecodable message every later correctly numbered message is rejected for ever. C07_wrong_seq_recovers_partial is the part that holds. C07_exact_partial: later messages are accepted iff the rejected one could be decoded.

*Theorems:* `C07_wrong_seq_recovers_partial`, `C07_refuted`, `C07_exact_partial`

### C08 JSON text round-trip — proved

*Modelled and proved by:* structural induction over JSON values, decoder inverse to encoder.

*Remarks:* C08_surrogate_pair_is_joined shows the proviso is needed.

*Theorems:* `C08_json_roundtrip`, `C08_surrogate_pair_is_joined`

### C09 pack/unpack are inverse for every message type — partial

*Modelled and proved by:* generic round trip from a condition on class tables; the condition is evaluated by the kernel on the complete finite table; values arbitrary.

*Remarks:* C09_result says for every well-typed instance of all 46 message classes what comes back; C09_exact_partial: it is the message itself exactly if it is not a stepIn request with a target id and not an attach/launch request whose arguments contain a reserved key. C09_stepIn_refuted shows the first exception.

*Theorems:* `C09_unpack_pack_partial`, `C09_text_roundtrip_partial`, `C09_nested_types`, `C09_stepIn_refuted`, `C09_result`, `C09_exact_partial`

### C10 stepIn addresses the thread the client named — partial

*Modelled and proved by:* symbolic evaluation of unpack; counterexample with targetId.

*Remarks:* FALSE of the code when a targetId is sent (C10_refuted): the target id is taken for the thread id. Proved without targetId. C10_exact_partial: the last of threadId and targetId that is not null gives the thread.

*Theorems:* `C10_stepIn_thread_partial`, `C10_exact_partial`, `C10_refuted`

### C11 Unknown keys and nulls are ignored — proved

*Modelled and proved by:* relation Ext between JSON values, induction over nesting.

*Remarks:* Ext is the relation 'extra unknown or null optional members at any depth'; C11_types_key_refuted shows the one exception: a client member named __types raises. C11_types_exact: exactly which values under `__types` are ignored and which reject the message.

*Theorems:* `C11_ignored`, `C11_ignored_message`, `C11_types_key_refuted`, `C11_types_exact`

### C12 Message dispatch is total and exact — proved

*Modelled and proved by:* dispatch over the whole table and arbitrary JSON.

*Theorems:* `C12_accepted_class`, `C12_request`, `C12_event`, `C12_response`, `C12_error_response`, `C12_success`, `C12_unknown_type`, `C12_unknown_command`, `C12_unknown_event`, `C12_error_response_unknown_command`

### C13 Launch and attach arguments pass through untouched — proved

*Modelled and proved by:* symbolic evaluation of pack and unpack.

*Theorems:* `C13_attach_args`, `C13_launch_args`, `C13_roundtrip`

### C14 Messages survive the debuggee socket unchanged — proved

*Modelled and proved by:* framing over a stream with adversarial short reads, abstract pickle codec, induction over messages.

*Remarks:* Serialisation (pickle) is an abstract codec with the laws loads(dumps m) = m and 'a truncated dump does not load'; demoCodec shows the laws are satisfiable. Short reads are arbitrary.

*Theorems:* `C14_delivered`, `C14_prefix_delivered`, `C14_send_iff`

### C15 A peer crash at any byte is clean — proved

*Modelled and proved by:* the same with the stream cut at every offset, reset or cancel.

*Remarks:* Every byte offset; also reset and local cancel instead of a close; closed exactly once for arbitrary garbage and arbitrary handler exceptions.

*Theorems:* `C15_crash_at_any_byte`, `C15_closed_exactly_once`, `C15_reset_or_cancel`

### C16 recv returns exactly n bytes unless the peer closed — proved

*Modelled and proved by:* induction over the read loop.

*Theorems:* `C16_exact`, `C16_short`

### C17 Cancelling reaches every pending socket operation — proved

*Modelled and proved by:* token as a transition system, arbitrary interleavings of locked sections.

*Remarks:* Interleavings as arbitrary sequences of the token's atomic (locked) sections; for cancel actions that do not raise (see C18).

*Theorems:* `C17_cancel_reaches_pending`, `C17_cancelled_for_ever`, `C17_admission`, `C17_results`

### C18 One failing cancel action does not strand the others — partial

*Modelled and proved by:* the same system with raising actions; counterexample.

*Remarks:* FALSE of the code: C18_refuted shows that operations behind a failing cancel action are never cancelled, by any number of cancels. The partial theorem is what holds. C18_exact_partial: an operation is cancelled iff no action of an earlier one fails.

*Theorems:* `C18_refuted`, `C18_before_failing_partial`, `C18_exact_partial`

### C19 Address strings: the documented forms mean what is documented, the rest is ValueError — proved

*Modelled and proved by:* model of urlsplit; characterisation of every documented form, all strings.

*Remarks:* Model of CPython 3.12 urlsplit; IPv6 validity, NFKC and non-ASCII lower-casing are arbitrary. C19_lenient lists undocumented strings that are accepted as well.

*Theorems:* `C19_tcp_alone`, `C19_tcp_host_port`, `C19_tcp_v6_port`, `C19_tcp_v6_zone`, `C19_tcp_no_port`, `C19_uds_alone`, `C19_uds_name`, `C19_uds_path`, `C19_uds_path_short`, `C19_uds_both`, `C19_only_ValueError`, `C19_scheme`, `C19_lenient`

### C20 A reported address can be connected to — partial

*Modelled and proved by:* composition of formatting and parsing; exact condition on unix paths.

*Remarks:* Proved for IPv4, IPv6 and absolute unix paths without ? # tab CR LF; C20_unix_iff shows this is exact, C20_refuted shows the failures (also relative unix paths).

*Theorems:* `C20_address_roundtrip_partial`, `C20_unix_iff`, `C20_refuted`

### C21 Breakpoints snap to the entry that governs the line — proved

*Modelled and proved by:* specification 'last entry at or before the line'; invariant of the line table, search loop by induction.

*Remarks:* Any history, any non-negative requested line; C21_negative_line_partial records what happens for a negative one.

*Theorems:* `C21_answer_is_snapped`, `C21_unique`, `C21_exists`, `C21_negative_line_partial`

### C22 Breakpoints are always up to date with what Ansible loaded — proved

*Modelled and proved by:* invariant of breakpoints and line tables over histories.

*Remarks:* Actions are atomic here; interleavings are C29.

*Theorems:* `C22_kept_up_to_date`, `C22_not_loaded_unverified`, `C22_reason`

### C23 The client's view of breakpoints equals the debuggee's — proved

*Modelled and proved by:* refinement: client mirror of responses and events, induction over histories.

*Remarks:* Breakpoints of a modified source are shown by the client without location and not kept (C23_client_rest).

*Theorems:* `C23_client_view`, `C23_client_rest`, `C23_events_are_changes`

### C24 setBreakpoints answers one breakpoint per request entry, in order, with fresh ids — proved

*Modelled and proved by:* induction over request entries, id counter invariant.

*Theorems:* `C24_modified`, `C24_modified_reason`, `C24_one_per_entry`, `C24_ids_never_reused`

### C25 setBreakpoints replaces the breakpoints of its source only — proved

*Modelled and proved by:* frame property of the request over all states.

*Theorems:* `C25_replaces_source`, `C25_modified_clears`, `C25_other_sources_unchanged`

### C26 A task stops at a breakpoint iff a breakpoint snapped to it — proved

*Modelled and proved by:* characterisation of get_breakpoint in terms of snapping.

*Remarks:* For entries at lines other than 0 (Ansible lines are 1-based).

*Theorems:* `C26_stop_iff_snapped`, `C26_no_stop_iff`

### C27 Known lines do not depend on the discovery order — proved

*Modelled and proved by:* permutation invariance of registrations.

*Theorems:* `C27_order_irrelevant`, `C27_idempotent`

### C28 Every task of a playbook is registered — proved

*Modelled and proved by:* structural induction over nested blocks.

*Remarks:* Locations are the texts path:line; entries without a location are skipped, as in the code. Which entry wins when two share a line is given by C21/C22 (the last registered).

*Theorems:* `C28_blocks`, `C28_plays`, `C28_task_line_verified`

### C29 Breakpoints set while Ansible is loading a file are not lost — partial

*Modelled and proved by:* two threads of micro-steps, invariant of the healing scan; counterexample interleavings; induction over the interleaving with the registrations since the lookup as ghost.

*Remarks:* FALSE of the code: C29_lost_update_refuted and C29_stale_update_refuted give interleavings after which a kept breakpoint is wrong. Proved: every scan of the file heals it (C29_scan_heals_partial), for all interleavings of all requests and registrations. C29_unless_overtaken_partial: after any earlier pieces, one request racing any number of registrations in any interleaving leaves every breakpoint of its source right, unless a registration of its file slipped in between the handler's lookup and its storing with no scan of the file after the storing; so the refutations are the only way to lose an update.

*Theorems:* `C29_lost_update_refuted`, `C29_stale_update_refuted`, `C29_scan_heals_partial`, `C29_sequential_partial`, `C29_unless_overtaken_partial`

### C30 Exception filters are exactly the last ones sent — proved

*Modelled and proved by:* induction over histories.

*Remarks:* The filters survive a disconnect; see C39.

*Theorems:* `C30_last_filters`

### C31 Path mappings are inverse to each other — partial

*Modelled and proved by:* prefix reasoning on paths; counterexamples.

*Remarks:* FALSE of the code in general (three counterexamples). Proved for prefix-incomparable remote roots and for unmapped paths outside all remote roots; and, for every configuration and path, exactly when the round trip returns the path, in both directions (the mapping which applies on the way back must agree with the one used on the way there). The mappings in force over any history: C31_in_force_partial.

*Theorems:* `C31_roundtrip_refuted`, `C31_unmapped_refuted`, `C31_no_boundary_refuted`, `C31_roundtrip_partial`, `C31_unmapped_partial`, `C31_first_applies_partial`, `C31_exact_partial`, `C31_exact_back_partial`, `C31_no_mappings_partial`, `C31_in_force_partial`

### C32 Step over stops at the next task of the same include level — partial

*Modelled and proved by:* ghost control invariant (thread level, last stop) over all histories of playbook steps and requests.

*Remarks:* Proved for stops at the start of a task (step over, and step in on an ordinary task), over all histories of playbook steps and requests. After an exception stop the level compared with is that of the last start stop: C32_after_exception_refuted.

*Theorems:* `C32_step_over_partial`, `C32_step_in_ordinary_partial`, `C32_after_exception_refuted`

### C33 Step in stops at the very next task — proved

*Modelled and proved by:* the same control invariant.

*Remarks:* All histories; stops at the next task the host starts that has a location.

*Theorems:* `C33_step_in`

### C34 Step out stops at the first task outside the include — partial

*Modelled and proved by:* the same; exact characterisation and counterexamples.

*Remarks:* Characterises exactly where a step out stops; the English claim holds when the enclosing include is the innermost task ancestor, and is refuted for a nested include (stops inside it) and for imports; with no enclosing include the host never stops again, not even at breakpoints.

*Theorems:* `C34_step_out_partial`, `C34_nested_refuted`, `C34_import_refuted`, `C34_no_include_never_stops`

### C35 A breakpoint always stops a running host — proved

*Modelled and proved by:* the same.

*Remarks:* All histories, for continued hosts, hosts seen for the first time and hosts never stopped.

*Theorems:* `C35_continued`, `C35_new_host`, `C35_never_stopped`

### C36 Exception stops happen exactly when configured — proved

*Modelled and proved by:* case analysis of result handling, all states.

*Remarks:* All histories; results that report at most one of failed, unreachable and skipped.

*Theorems:* `C36_exception_stops`

### C37 A stopped playbook waits for its own thread to be resumed — proved

*Modelled and proved by:* no transition of the playbook is enabled until a request for the thread, induction over runs.

*Remarks:* C37_waits: no step of the playbook until a request concerning the thread; C37_proceeds: after one the playbook can always go on. C37_exact: what becomes of a stopped thread, for every sequence of requests and ends of connections.

*Theorems:* `C37_waits`, `C37_proceeds`, `C37_continue_all`, `C37_continue_single`, `C37_exact`

### C38 Terminate ends the run — partial

*Modelled and proved by:* invariant 'terminating' over runs; counterexamples.

*Remarks:* Proved with the exception filters off and no request that resumes threads afterwards; refuted otherwise: a failing task with the filter on hangs the playbook, a following disconnect resumes it, an inventory refresh forgets the termination. C38_exact_partial: with any filters, the run ends exactly when the result of the known host is not one the filters select; otherwise the host stops and nothing but a resuming request (not the end of the connection) wakes it. C38_waiting_exact_partial: for a waiting playbook, iff the last request that resumes the thread asks for it.

*Theorems:* `C38_terminate_partial`, `C38_exact_partial`, `C38_exception_refuted`, `C38_disconnect_refuted`, `C38_refresh_refuted`, `C38_waiting_exact_partial`

### C39 After the client disconnects the playbook never stops again — partial

*Modelled and proved by:* invariant 'no breakpoints, all threads running' over runs; counterexamples.

*Remarks:* Proved with the exception filters off; refuted otherwise, because exception filters survive the disconnect and the playbook then waits for a client that is gone. C39_exact_partial: with any filters, the first stop after the disconnect is exactly the first result the filters select, and the playbook then waits.

*Theorems:* `C39_disconnect_partial`, `C39_exact_partial`, `C39_exception_refuted`

### C40 Stack traces never refer to missing frames — proved

*Modelled and proved by:* reachability invariant tying thread frame lists and frame table.

*Remarks:* All histories of playbook steps and requests. The stack trace request of a task without a path is an error (frameDap), as in the code.

*Theorems:* `C40_stack`

### C41 The stack trace is the chain of includes around the current task — partial

*Modelled and proved by:* specification of include chains; invariant for nested histories; counterexamples.

*Remarks:* Proved (C41_stack_partial) for histories whose tasks come in the nested order of static includes, one level left at a time and no inventory refresh inside an include. Refuted otherwise: C41_block_refuted (a block inside an included file), C41_two_levels_refuted (two include levels left at once), C41_refresh_refuted (refresh_inventory inside an include).

*Theorems:* `C41_stack_partial`, `C41_block_refuted`, `C41_two_levels_refuted`, `C41_refresh_refuted`

### C42 Variable references never dangle and are never reused — proved

*Modelled and proved by:* reachability invariant of references, monotone counters.

*Remarks:* All histories. The handlers run in the receive thread and are modelled as atomic with respect to the playbook thread.

*Theorems:* `C42_never_reused`, `C42_resolves`, `C42_meaning`, `C42_frame`, `C42_ends`

### C43 Scopes of a frame — proved

*Modelled and proved by:* symbolic evaluation of the scopes handler in all reachable states.

*Remarks:* The outcome of templating and the host variables are parameters. The scopes request fails (after making some references) when the host variables or the mapping vars are missing.

*Theorems:* `C43_scopes`, `C43_fails`

### C44 A variable that was set reads back — partial

*Modelled and proved by:* heap update lemmas; counterexample with a non-string key.

*Remarks:* Proved for dictionaries whose keys shown as that name are strings and for list entries by their shown index. Refuted (C44_key_refuted) for an entry with a non-string key: a second entry with the same shown name appears and the old one keeps its value. C44_exact_partial: for any dictionary, the value is shown under the name, alone iff no non-string key was shown as that name.

*Theorems:* `C44_dict_partial`, `C44_exact_partial`, `C44_list_partial`, `C44_key_refuted`

### C45 Thread events are paired — proved

*Modelled and proved by:* event history invariant.

*Theorems:* `C45_paired`, `C45_all_exit`, `C45_threads_answer`

### C46 Console commands keep the expression verbatim — partial

*Modelled and proved by:* grammar of shell words proved equivalent to the shlex model; recovery of the text by search; counterexamples.

*Remarks:* Holds for every expression that shlex can split and that contains no help word, and for names written plainly or in quotes (C46_*_partial with the exact complement C46_template_otherwise); refuted for expressions with shell-unbalanced quotes, words like -h, an empty name, escaped names.

*Theorems:* `C46_template_partial`, `C46_template_otherwise`, `C46_set_partial`, `C46_remove_partial`, `C46_tail_partial`, `C46_verbatim_partial`, `C46_escaped_quote_refuted`, `C46_minus_h_refuted`, `C46_empty_name_refuted`, `C46_escaped_name_refuted`, `C46_words_partial`, `C46_unknown_option_partial`, `C46_option_refuted`

### C47 Exactly one terminated event — proved

*Modelled and proved by:* two-thread transition system of the adapter, weight function for progress, invariant for the event count.

*Remarks:* All interleavings of the two threads of the adapter: at most one terminated event ever, exactly one when the server has stopped or the end of the debuggee's connection was handled; stopping cannot deadlock and ends in a bounded number of steps; only an exception of the cancel token (C18) can kill the main thread in stop.

*Theorems:* `C47_at_most_one`, `C47_exactly_one`, `C47_after_close`, `C47_no_deadlock`, `C47_ends`, `C47_only_cancel_kills`

### C48 A crash of the adapter answers every outstanding request — partial

*Modelled and proved by:* history invariant of outstanding requests; counterexample interleavings.

*Remarks:* Every request is answered when the adapter stopped because of an exception (all executions). 'Exactly one' is refuted: two threads stopping at once, or a relayed response being noted late, give a second response; proved exactly-one for executions in which the threads do not overtake each other (OReach).

*Theorems:* `C48_all_answered_partial`, `C48_refuted`, `C48_answered_twice_refuted`, `C48_exactly_one_partial`

### C49 A disconnect request is always answered, before the terminated event — partial

*Modelled and proved by:* history invariant; counterexample interleaving.

*Remarks:* Always answered when the server has stopped; before the terminated event if the receive thread had not begun stopping when it arrived; refuted in the window between the receive thread's look at outstanding requests and its terminated event; exactly one response in orderly executions.

*Theorems:* `C49_answered_partial`, `C49_before_terminated_partial`, `C49_refuted`, `C49_exactly_one_partial`

### C50 Relayed responses carry the client's request seq — proved

*Modelled and proved by:* relation between the observations of both sides (prefix), invariant.

*Remarks:* Relayed messages are a prefix (all, when the receive thread is idle) of what the debuggee sent, unchanged and in order; forwarded requests are requests of the client in order with the client's numbers.

*Theorems:* `C50_requests_numbered`, `C50_relayed_in_order`, `C50_relayed_all`, `C50_forwarded_unchanged`, `C50_response_matches`

### C51 Concurrent sends do not corrupt the client stream — partial

*Modelled and proved by:* send_to_client split into reads and writes of shared state; counterexamples; proofs under atomicity.

*Remarks:* Refuted at the level of single reads and writes: duplicate sequence numbers, duplicated, lost and reordered frames. Proved: non-overlapping calls give the right stream; if queue_msg, data_to_send and the write are atomic every frame arrives exactly once with distinct consecutive numbers (order may differ). In every interleaving of single steps nothing is invented: each frame written is a whole frame of a message some thread sends, with a number that was given out (C51_nothing_invented_partial).

*Theorems:* `C51_refuted`, `C51_serial_partial`, `C51_atomic_methods_partial`, `C51_nothing_invented_partial`

### C52 The adapter exits when the client goes away — partial

*Modelled and proved by:* model of the main loop; infinite execution as counterexample.

*Remarks:* Refuted: at end of input the loop of start() reads again forever and nothing but a message, bad input or interrupt ends it. Proved: a disconnect request leads out of the loop. C52_exact_partial: the loop is going to be left iff a disconnect request was sent; C52_stays_refuted: over whole executions.

*Theorems:* `C52_refuted`, `C52_never_leaves_refuted`, `C52_disconnect_leaves_partial`, `C52_exact_partial`, `C52_stays_refuted`

### C53 Debug logging does not change behaviour — partial

*Modelled and proved by:* two-run comparison with and without logging.

*Remarks:* Refuted: debug logging decodes each chunk, so a chunk boundary within a character stops the adapter. Proved: no difference if every chunk is valid UTF-8 by itself. C53_exact_partial: exactly what debug logging changes, for every chunking.

*Theorems:* `C53_refuted`, `C53_witness_refuted`, `C53_valid_chunks_partial`, `C53_exact_partial`

### C54 Launch handshake — proved

*Modelled and proved by:* handshake phases as an invariant of the transition system.

*Remarks:* At most one runInTerminal request and launch response per launch in every execution; the successful sequences; order of request, answer and response; configuration sent; if the launched process ends first the terminated event follows and no launch response is sent.

*Theorems:* `C54_at_most_one`, `C54_terminal_requested`, `C54_handshake`, `C54_order`, `C54_config_sent`, `C54_ended_first`, `C54_ended_first_no_response`

### C55 Requests are routed to the debuggee exactly when it is there — partial

*Modelled and proved by:* history invariant; counterexample.

*Remarks:* Forwarding, exclusivity and never forwarding requests received before a debuggee is set are proved for all executions; refuted between launch and connection, where a request stops the adapter instead of being forwarded.

*Theorems:* `C55_forwarded_partial`, `C55_disconnect_forwarded_partial`, `C55_forwarded_or_handled_partial`, `C55_not_forwarded_before_partial`, `C55_refuted`

### C56 Attach target selection — proved

*Modelled and proved by:* evaluation of the attach arguments for all JSON and directory contents.

*Remarks:* Complete characterisation of get_connection_tuple after from_json for all argument dictionaries and directory contents, and the round trip with the file a debuggee writes.

*Theorems:* `C56_process_id`, `C56_address`, `C56_round_trip`, `C56_mappings`, `C56_no_mappings`, `C56_mappings_no_list`

### C57 The playbook starts only after configuration is done — proved

*Modelled and proved by:* history invariant of three threads.

*Remarks:* All interleavings of the playbook, send and receive threads; besides the cases of the property a task can run when start() itself failed (Ansible swallows the callback's exception): stated in the theorem.

*Theorems:* `C57_tasks_wait_for_configuration`

### C58 Shutdown completes — partial

*Modelled and proved by:* well-founded weight under fairness; deadlock as the only obstacle; fair executions shown to exist.

*Remarks:* Refuted: a request that needs the strategy after the last play deadlocks all three threads; a TLS handshake is not cancelled. Proved: in fair executions shutdown returns unless exactly that deadlock occurs; and it returns if no such request is pending or received. Assumes that the peer reads what is sent.

*Theorems:* `C58_returns_or_deadlock_partial`, `C58_returns_partial`, `C58_refuted`, `C58_handshake_refuted`, `C58_fair_executions_exist`

### C59 Debuggee messages are sent in the order they were queued, and none after the end mark — proved

*Modelled and proved by:* history invariant of the queue.

*Remarks:* All histories of queueing; if sending fails the messages sent are a prefix.

*Theorems:* `C59_in_order`, `C59_all_before_the_end_mark`, `C59_nothing_lost`

### C60 The process info file exists exactly while a listening debuggee is up — proved

*Modelled and proved by:* history invariant of the process file.

*Remarks:* All histories; if shutdown raises (a cancel function failing, C18) or does not return (C58) the file stays, as the property says only what holds once shutdown returns. The adapter's reading of the file is composed with C56.

*Theorems:* `C60_exactly_while_up`, `C60_attach_finds_it`

### C61 The user's environment and configuration are kept — partial

*Modelled and proved by:* folds over the environment; counterexamples.

*Remarks:* The user's variables, enabled callbacks, collection paths and non-empty python path entries are kept in order, for every dump with distinct entries; empty PYTHONPATH entries are dropped (refuted), a dump with a repeated setting fails with KeyError. C61_exact_partial: exactly when the callbacks, collection paths and PYTHONPATH arrive as the user had them.

*Theorems:* `C61_environment_kept_partial`, `C61_configuration_kept_partial`, `C61_exact_partial`, `C61_empty_entry_refuted`, `C61_repeated_setting_fails`

### C62 The launch script runs exactly the intended command — proved

*Modelled and proved by:* script text run through the shell model; quoting proved inverse to lexing.

*Remarks:* The script text is run by a model of the POSIX shell (lexer, parser, executor) on bytes; every executable path, argument and socket path that can be encoded and has no NUL.

*Theorems:* `C62_launch_script`

### C63 TLS verification is off only on request — proved

*Modelled and proved by:* context settings as functions of options.

*Remarks:* ssl.SSLContext is modelled by its settings and a file system of readable PEM files; the TLS library's own behaviour is trusted. A custom CA is added to the system CAs, and inherited ANSIBUG_TLS_* variables apply when the option is absent.

*Theorems:* `C63_verification_off_only_on_request`, `C63_custom_ca`, `C63_client_certificate`, `C63_tls_iff_requested`, `C63_attach`, `C63_attach_plain`, `C63_attach_certificate`

### C64 Variable types shown are the friendly ones — proved

*Modelled and proved by:* class hierarchy as arbitrary MRO with one builtin layout.

*Remarks:* Every class with at most one builtin layout (as CPython demands); bytes are shown as list (C64_bytes_are_a_list).

*Theorems:* `C64_friendly_types`, `C64_bytes_are_a_list`

### C65 Disconnect with terminateDebuggee ends the run — partial

*Modelled and proved by:* control invariant over runs.

*Remarks:* Proved until the connection ends; refuted when the connection ends before the playbook thread has woken up. C65_exact_partial: the run ends iff the last request that resumes the thread asks for it.

*Theorems:* `C65_disconnect_terminate_partial`, `C65_closed_refuted`, `C65_exact_partial`

### C66 Console changes take effect — proved

*Modelled and proved by:* heap update lemmas, frame conditions.

*Theorems:* `C66_option`, `C66_hostvar`

### C67 The debuggee answers every request once — proved

*Modelled and proved by:* history invariant relating received requests and queued answers; liveness under fairness.

*Remarks:* The bodies of the handlers succeed or raise arbitrarily.

*Theorems:* `C67_answers_in_order`, `C67_only_failed_disconnects`, `C67_never_stuck`, `C67_every_request_handled`

### C68 The playbook does not wait for a configuration that cannot come — partial

*Modelled and proved by:* fairness argument; counterexample state with no transition.

*Remarks:* Proved for configurationDone and the end of a connection; refuted for a connection that cannot be made: the playbook waits for ever.

*Theorems:* `C68_wait_ends_partial`, `C68_refuted`

### C69 Launch arguments reach ansible-playbook unchanged — proved

*Modelled and proved by:* composition script → shell → argparse → execve.

*Remarks:* End to end through the shell script, argparse and execve. C69_dash_playbook_rejected and C69_ambiguous_argument_rejected show the provisos are needed (both argparse behaviours, before and since Python 3.12, modelled by the parameter eager).

*Theorems:* `C69_arguments_reach_ansible`, `C69_launch_end_to_end`, `C69_dash_playbook_rejected`, `C69_ambiguous_argument_rejected`

### C70 Command line options reach the debuggee — proved

*Modelled and proved by:* composition options → environment → callback options; grammar of given options for the meaning of the command line.

*Remarks:* For every environment; inherited ANSIBUG_TLS_* variables apply where an option is absent, as stated in the theorem.

*Theorems:* `C70_options_reach_debuggee`, `C70_options_end_at_the_playbook`, `C70_listen_options`, `C70_connect_options`, `C70_dap_options`

### C71 A launch request becomes one terminal request — proved

*Modelled and proved by:* evaluation of the launch handler for all accepted arguments.

*Remarks:* Every JSON body accepted by the request parser.

*Theorems:* `C71_terminal_request`, `C71_log_options`, `C71_rejected`, `C71_accepted`, `C71_mappings`, `C71_mappings_no_list`

### C72 Conditional breakpoints — partial

*Modelled and proved by:* case analysis with arbitrary condition outcomes; counterexample.

*Remarks:* FALSE of the code with several breakpoints on one task (C72_refuted): only the first one set counts, so a false condition of it hides the others. Proved: a stop has a true condition; it stops if all the conditions on the line hold (in particular for a single breakpoint). Outcomes of conditions are arbitrary. That the conditions are those the client gave: C102. C72_exact_partial: it stops iff the kept breakpoint of smallest number on the line has a true condition.

*Theorems:* `C72_stop_has_true_condition_partial`, `C72_stops_partial`, `C72_exact_partial`, `C72_refuted`

### C73 Child counts and paging of variables — partial

*Modelled and proved by:* invariant that counts describe the container; counterexample for paging.

*Remarks:* Counts proved for every reference ever handed out, at any later time while the container is unchanged; paging refuted: start and count are ignored. C73_page_exact_partial: the answer is the part asked for iff all the children are asked for.

*Theorems:* `C73_counts_partial`, `C73_indices_partial`, `C73_paging_refuted`, `C73_page_exact_partial`

### C74 Inspecting does not influence the run — proved

*Modelled and proved by:* two-run simulation (non-interference).

*Remarks:* Two-run property, both directions (removing and inserting inspecting requests). What Ansible does with changed variables is outside (labels env/start are the same in both runs). Handlers are atomic, as in C42.

*Theorems:* `C74_inspecting_is_neutral`, `C74_inspecting_is_always_possible`

### C75 Connecting to the other side — partial

*Modelled and proved by:* trace semantics of connecting against a nondeterministic kernel, induction over candidate addresses.

*Remarks:* Proved: order, first success, closing after failures, errors, cancellation. FALSE of the code: a failing socket.socket() ends it without trying the rest; a cancelled attempt leaves its socket open; a connection closed by the server counts as confirmed.

*Theorems:* `C75_first_accepting_wins_partial`, `C75_returned_partial`, `C75_all_refused_partial`, `C75_unresolved_partial`, `C75_cancelled_partial`, `C75_every_address_refuted`, `C75_closed_refuted`, `C75_confirmed_refuted`, `C75_uds_single_partial`, `C75_cancelled_greeting_partial`, `C75_confirmation_exact_partial`

### C76 Encryption is not bypassed — proved

*Modelled and proved by:* the same trace semantics: no bytes before the handshake.

*Remarks:* System calls are an environment with arbitrary outcomes; TLS itself is Python's ssl and trusted.

*Theorems:* `C76_client_encrypted`, `C76_server_encrypted`, `C76_no_fallback`, `C76_uds_hostname`

### C77 Listening survives clients that fail the handshake — partial

*Modelled and proved by:* the same, induction over clients.

*Remarks:* Proved for handshakes that fail with SSLError. FALSE of the code: a reset during the handshake ends the listening; the timeout restarts with each failed client. Any other failure is passed on (C77_error_passed_on_partial).

*Theorems:* `C77_retry_partial`, `C77_first_success_partial`, `C77_returned_tls_partial`, `C77_plain_partial`, `C77_in_order`, `C77_reset_refuted`, `C77_timeout_refuted`, `C77_gives_up_partial`, `C77_error_passed_on_partial`, `C77_cancelled_partial`, `C77_plain_calls_partial`

### C78 The unix socket is private and cleaned up — partial

*Modelled and proved by:* evaluation of bind and stop over umasks (bit vectors, all values) and outcomes.

*Remarks:* Privacy, umask, all-or-nothing and removal proved. FALSE of the code: with a umask that denies the owner the file is unusable; a failing unlink leaves stop before the socket is closed.

*Theorems:* `C78_private_always_partial`, `C78_umask_restored_partial`, `C78_all_or_nothing_partial`, `C78_owner_partial`, `C78_owner_refuted`, `C78_existing_partial`, `C78_removed_partial`, `C78_no_path_partial`, `C78_round_trip_partial`, `C78_stop_refuted`

### C79 Tasks, results and stops in order — proved

*Modelled and proved by:* refinement of the hooks by a small order automaton, all call sequences.

*Remarks:* Ansible's linear strategy is an environment that may call the hooks in any order.

*Theorems:* `C79_announced_first`, `C79_not_skipped`, `C79_held`, `C79_results`, `C79_meta_no_stop`

### C80 How a play ends — proved

*Modelled and proved by:* exception-safe hook model, all points of failure.

*Remarks:* Exceptions of Ansible's own code may occur whenever it runs; KeyboardInterrupt while waiting is not modelled.

*Theorems:* `C80_last`, `C80_threads`, `C80_code`

### C81 The debugger does not fail the playbook — partial

*Modelled and proved by:* safety invariant under the specification Orderly; counterexamples.

*Remarks:* Proved under what the linear strategy promises (Orderly) and for playbooks in which the tasks that follow an include_role, while it is the newest frame and below a block or include, are tasks of a role (RolesOnly); C81_begin_fails says exactly when the start of a task fails. FALSE without: an include_role inside an included file or block followed by another task (AttributeError, no request needed: C81_role_refuted), a task in no block on a host inside an include (AttributeError), a refresh while results are outstanding (StopIteration). Also for line numbers that are not negative (C81_negative_line_refuted, C103).

*Theorems:* `C81_no_failure_partial`, `C81_negative_line_refuted`, `C81_orphan_refuted`, `C81_refresh_refuted`, `C81_begin_fails`, `C81_role_refuted`

### C82 Edits made while stopped reach the task — proved

*Modelled and proved by:* reachability invariant IdsOk linking scopes and task arguments; induction over later requests.

*Remarks:* task.args is the model's dictionary at the frame's args address; that Ansible runs the task with it is trusted. Before the client has asked for the scopes of the frame the commands answer with a KeyError (C82_before_scopes_fails).

*Theorems:* `C82_set_option`, `C82_remove_option`, `C82_edit_options`, `C82_edit_hostvars`, `C82_before_scopes_fails`

### C83 Sent messages conform to the protocol's schema — partial

*Modelled and proved by:* decidable check of the generated class tables against the transcribed schema, proved sufficient by induction over well-typed values; counterexamples.

*Remarks:* Proved for all classes but attach, launch and cancel requests with the tolerance that an optional member without a value may be null; without the tolerance for the classes listed in C83_exact. FALSE for the schema as published: optional members are sent as null (C83_null_refuted). That the program builds its messages from values of the annotated types is trusted (mypy).

*Theorems:* `C83_sent_conforms_partial`, `C83_exact`, `C83_null_refuted`, `C83_cancel_refuted`

### C84 Conforming requests are understood — partial

*Modelled and proved by:* decidable check of the class tables, proved sufficient by induction over the depth of the document; specification relation Reads; counterexamples.

*Remarks:* Proved for every request but: exceptionOptions without path raise a TypeError (C84_exception_options_refuted), continue without singleThread means true instead of false (C84_single_thread_refuted), stepIn targets (C10_refuted), a member __types (C11_types_key_refuted). The schema is transcribed in Dap/Schema.lean (trusted).

*Theorems:* `C84_accepted_partial`, `C84_read_partial`, `C84_argument_partial`, `C84_unsaid_partial`, `C84_single_thread_refuted`, `C84_exception_options_refuted`

### C85 Every request gets its own answer on the wire — partial

*Modelled and proved by:* composition of C84 (reading), the debug state's request and C83 (writing); every class of requests.

*Remarks:* C85_answered_partial and C85_disconnect_silent are proved for every request object. On documents the exclusions of C84 apply (C85_refuted: an exceptionOptions entry without a path is not answered).

*Theorems:* `C85_answered_partial`, `C85_disconnect_silent`, `C85_document_partial`, `C85_refuted`, `C85_routed_partial`, `C85_continue_partial`, `C85_unknown`

### C86 Stops are reported as what they are — proved

*Modelled and proved by:* C32–C37 composed with the event objects.

*Remarks:* Event objects; that their documents conform to the schema is C86_events with C83.

*Theorems:* `C86_start`, `C86_step_over`, `C86_step_in`, `C86_step_out`, `C86_breakpoint`, `C86_exception`, `C86_events`, `C86_only`, `C86_threads`

### C87 Evaluation is in the frame asked for and changes nothing else — proved

*Modelled and proved by:* case analysis of the routing, for arbitrary templating.

*Remarks:* templating, repr and type names are arbitrary functions (Env).

*Theorems:* `C87_expression`, `C87_template_command`, `C87_set_command`, `C87_remove_command`, `C87_command_answer`, `C87_gone`, `C87_not_evaluated`

### C88 Threads and stack as shown to the client — proved

*Modelled and proved by:* invariant of the reachable states (Strat) composed with the response objects.

*Remarks:* Attributes of the answer; the document says the same by C83/C09.

*Theorems:* `C88_threads`, `C88_stack`

### C89 Variables as shown to the client — proved

*Modelled and proved by:* invariant of the reachable states (Strat), induction over the entries listed, composed with the response objects.

*Remarks:* Attributes of the answer objects (the document says the same by C83/C09). repr, type names and templating are arbitrary functions (Env).

*Theorems:* `C89_variables`, `C89_scopes`, `C89_set_variable`, `C89_gone`

### C90 Breakpoint, disconnect and terminate requests on the wire — partial

*Modelled and proved by:* C84 (reading of documents) composed with the breakpoint state (C21–C25) and the response objects.

*Remarks:* On documents the exclusions of C84 apply (no member __types, no exceptionOptions; C90_refuted). terminate, configurationDone and the changed events are proved in full.

*Theorems:* `C90_set_breakpoints_partial`, `C90_refuted`, `C90_set_exceptions_partial`, `C90_disconnect_partial`, `C90_terminate_partial`, `C90_changed_partial`

### C91 A debugging session from end to end — proved

*Modelled and proved by:* composition of the models Conn, Transport and Wire in one transition system; invariant relating each byte stream to the messages still in it; forward simulation to the debuggee given the messages directly; progress by induction over what is under way.

*Remarks:* pickle is an arbitrary serialisation with the left-inverse property (Codec). The session starts when the path mappings have been sent. One send_to_client call is one step (its races are C51), handling a message is one step; requests the client writes after a disconnect request are not forwarded in the model. Delivery needs messages below 4 GiB on the socket (the length field); the reading side of C91_client asks for texts that JSON can carry (Val.Ok).

*Theorems:* `C91_session`, `C91_client`, `C91_delivered`, `C91_shown`

### C92 Responses answer requests one by one — proved

*Modelled and proved by:* C91 and C85, induction over the operations of the debuggee.

*Remarks:* Same model as C91.

*Theorems:* `C92_answers`, `C92_complete`

### C93 Requests never make the playbook fail — partial

*Modelled and proved by:* transition system with the playbook and the request thread interleaved at every shared access; inductive invariants for lock and waiting, for frames and variables, for the breakpoint iterators; counterexample executions.

*Remarks:* Proved: no KeyError or IndexError ever (thread switches everywhere except inside next_variable_id, which CPython with a global lock does not do), and no exception at all unless a breakpoint is added while the playbook iterates over the breakpoints. Refuted in general: setBreakpoints at that moment raises RuntimeError in the playbook (before a stop, and when an included file or role is scanned); with a switch inside of next_variable_id a number is used twice and the playbook ends with KeyError.

*Theorems:* `C93_playbook_does_not_fail_partial`, `C93_set_breakpoints_refuted`, `C93_include_refuted`, `C93_next_variable_refuted`

### C94 No lost wake-up and no deadlock — proved

*Modelled and proved by:* invariant of the lock and the waiting; stages of a resume, by induction over the execution.

*Remarks:* Both granularities. One play; condition variable and lock of threading with one waiter.

*Theorems:* `C94_no_deadlock`, `C94_request_goes_on`, `C94_no_lost_wakeup`, `C94_resumed`

### C95 Requests while stopped are answered from the state shown — proved

*Modelled and proved by:* a function predicts the answer from the state in the middle of handling; it is invariant while the playbook sleeps; a measure for termination; a simulation takes each history of `Strat` within one play to an execution of `Race` with the same inputs, events and ids (`Race/Sim*`).

*Remarks:* Values are left out: a variables answer is its list of references (their contents: C42-C44, C87-C90). Thread switches everywhere except inside of next_variable_id. C95_agrees_with_one_step ties the small-step model to the one the other debug state properties are about: every history of the latter within one play is an unoverlapped execution of the former.

*Theorems:* `C95_agrees_with_one_step`, `C95_answer`, `C95_answered`

### C96 Disconnect and terminate at any moment — partial

*Modelled and proved by:* invariant over the stages of a disconnect and afterwards; counterexample execution.

*Remarks:* Proved: no stop after a successful answer, a stopped playbook ends on terminate, and the request fails only if a thread exits while it is handled. Refuted: in that case it does fail, with KeyError. (With exception filters set: C39.)

*Theorems:* `C96_no_stop_after_disconnect`, `C96_terminate_ends`, `C96_disconnect_fails_refuted`, `C96_fails_only_if_a_thread_exits_partial`

### C97 Requests while the playbook runs — partial

*Modelled and proved by:* invariant on the references collected so far; counterexample executions.

*Remarks:* Proved: an answer is a KeyError or the right number of new, distinct references; a request fails only for a stated reason (what it asks for was not there or has been removed meanwhile, or a thread has come or gone while it went through them). Refuted: stackTrace (KeyError), threads and continue (RuntimeError) do fail when the playbook changes the dictionaries meanwhile; references added to a frame that has just been removed are never removed.

*Theorems:* `C97_new_references_partial`, `C97_fails_only_if_partial`, `C97_threads_listed_partial`, `C97_stack_trace_refuted`, `C97_threads_refuted`, `C97_continue_refuted`, `C97_leaked_references_refuted`

### C98 Breakpoints in roles that are included at run time — partial

*Modelled and proved by:* refinement: start_task with the scan equals registrations followed by start_task without; then the breakpoint theorems C22, C26, C27 over the extended history.

*Remarks:* For trees with well-formed locations; verification and silence of repeated scans for roles in which no line holds both an explicit block and a task (C98_inline_block_refuted: with an inline block each task of the role sends two spurious events). The stop of the first task for conditions that hold and a host that is not stepping out. For kept breakpoints whose requested lines are not negative (C103).

*Theorems:* `C98_scans_first_partial`, `C98_scans_only_then`, `C98_breakpoints_verified_partial`, `C98_first_task_stops_partial`, `C98_scanned_partial`, `C98_rescan_is_silent_partial`, `C98_inline_block_refuted`

### C99 Announced capabilities are honoured — proved

*Modelled and proved by:* the response as a message object and document; the specification's table of gated requests against the message registry and the handlers; filters: the wire theorem C90, the history theorem C30 and the stop theorem C36 composed over every later run.

*Remarks:* The table of the requests and attributes that belong to capabilities is taken from the protocol's specification. 'Understood' is: of a known class, with a handler; what the handler then does is C44, C57, C38. Conditional breakpoints are C72, ending the debuggee on disconnect is C65.

*Theorems:* `C99_document`, `C99_filter_texts`, `C99_announced_requests`, `C99_other_requests`, `C99_unannounced_ignored`, `C99_filters`, `C99_clipboard`

### C100 What the client says about itself is respected — partial

*Modelled and proved by:* the response does not depend on the request; wire theorem C88 for counting from 1; counterexample run for counting from 0.

*Remarks:* Proved for clients that count from 1 (the default). FALSE for a client with linesStartAt1 = false (C100_lines_refuted): everything it says in the initialize request is ignored (C100_ignored).

*Theorems:* `C100_from_one_partial`, `C100_ignored`, `C100_lines_refuted`

### C101 One debugger per process — partial

*Modelled and proved by:* `Singleton.__call__` as a transition system of threads (test, construct, store, look up); invariants over all executions; counterexample for simultaneous first calls.

*Remarks:* Proved for calls from one thread (both plugins call it from Ansible's main thread) and, for any number of threads, from the moment the instance is there and nobody is making one; no call ever fails in the lookup or returns a foreign object. FALSE for two threads that make the first call at the same time (C101_refuted): there is no lock.

*Theorems:* `C101_own_instance`, `C101_one_thread_partial`, `C101_settled_partial`, `C101_retry`, `C101_refuted`

### C102 Conditions belong to their breakpoints — proved

*Modelled and proved by:* the breakpoint state with the conditions of the entries kept; simulation onto the model without them (`eraseRun`); invariant over all histories that each kept number carries the condition of the entry it answered.

*Remarks:* The outcome of evaluating a text as a condition is an arbitrary function. With several breakpoints on one task the first one counts (C72_refuted, C102_counts).

*Theorems:* `C102_belongs`, `C102_asked`, `C102_stops_for`, `C102_stops`, `C102_counts`, `C102_document`

### C103 Breakpoints do not make the playbook fail — partial

*Modelled and proved by:* the exceptions of the index operations are kept in the model and end the run; the search of a table that begins with an entry fails exactly if it begins below it; induction over the kept breakpoints, and over histories for the length of the tables.

*Remarks:* FALSE for lines far below zero, which conform to the protocol and are accepted while the file is not loaded: the playbook dies of an IndexError when it is (C103_refuted). C103_exactly says for every history exactly which lines do this; C103_goes_on_partial is the property for lines that are not negative. The scan of an included role: C98.

*Theorems:* `C103_exactly`, `C103_goes_on_partial`, `C103_requests`, `C103_refuted`

### C104 An edit that fails changes nothing — partial

*Modelled and proved by:* the heap of containers with mutability, the exceptions of item assignment; case analysis over the four kinds of variables, and the fact that an assignment keeps every dict a dict.

*Remarks:* C104_set and C104_why are the property for setVariable, C104_console_partial for the console commands. FALSE for set_hostvar if the scopes request of the frame failed half-way (C104_hostvar_refuted): the variable of the task is changed and the command answered with an error. Assumes that the arguments of a task are a dict (as in Ansible) and that set_host_variable of the variable manager does not raise.

*Theorems:* `C104_set`, `C104_console_partial`, `C104_why`, `C104_hostvar_refuted`

### C105 A debuggee listens where it was told to — partial

*Modelled and proved by:* a model of name resolution by family and of bound sockets; case analysis over families and wildcards, and C20 for the reported text.

*Remarks:* 'At no others' (C105_only_asked), the unspecified host (C105_everywhere), the reported address (C105_reported) and clients that try all addresses of a name (C105_by_name) are proved. FALSE of the code for IPv4 on every machine with dual stack (C105_v4_refuted): an IPv6 socket is bound to it; the example of the help text, tcp://127.0.0.1:0, fails (C105_documented_refuted). C105_exactly_partial says exactly when listening succeeds. Trusted: the model of create_server and of the kernel's rules in Sock/Listen.lean (Linux); the failure was reproduced with the standard library alone.

*Theorems:* `C105_only_asked`, `C105_everywhere`, `C105_everywhere_v4`, `C105_exactly_partial`, `C105_why`, `C105_v4_refuted`, `C105_documented_refuted`, `C105_both_refuted`, `C105_no_dualstack_refuted`, `C105_by_name`, `C105_reported`

### C106 A listening address belongs to one playbook — partial

*Modelled and proved by:* invariant over all histories of binding and closing: no two sockets exclude each other; two sockets taking the same address overlap.

*Remarks:* Proved if the system chooses the port (C106_chosen_port_partial) and against other users (C106_same_user_partial), over all histories. FALSE for a given port (C106_refuted): SO_REUSEPORT is set, so a second playbook of the same user listens on the same address without an error and may get the connections. The kernel's rules (Linux) are part of the model.

*Theorems:* `C106_chosen_port_partial`, `C106_same_user_partial`, `C106_refuted`

### C107 Attaching by process id reaches that playbook — partial

*Modelled and proved by:* a machine of processes, sockets and files; invariant over all histories: the file of a running playbook holds its address, sockets do not exclude each other; composed with C20, C56, C105, C106.

*Remarks:* Found, and nothing else, whatever happened on the machine, while the playbook waits on a port the system chose (C107_found_partial); fails or names a running playbook of this id if nothing was killed and no file planted (C107_not_others_partial). Once it has its client nobody else reaches it (C107_one_client_partial), once it has ended nobody does and its id is not found (C107_ended_partial). FALSE after a playbook was killed (C107_killed_refuted: its file stays, and whatever gets the port is reached; C107_stale_refuted: for good) and against other users (C107_planted_refuted: the file is in a shared directory, its owner is not checked; the planted file also keeps the playbook from being debugged). TCP only; the steps are whole calls (thread by thread: C60). Trusted: the rules of the kernel in Sock/Listen.lean and of a sticky directory.

*Theorems:* `C107_found_partial`, `C107_not_others_partial`, `C107_killed_refuted`, `C107_planted_refuted`, `C107_one_client_partial`, `C107_stale_refuted`, `C107_ended_partial`

### C108 Every playbook of a run can be debugged — partial

*Modelled and proved by:* the state a first playbook leaves (Debuggee/Again.lean), invariant over all runs from every such state.

*Remarks:* FALSE for every playbook but the first (C108_refuted: the debugger is one object per process, its cancel token stays cancelled, so no message is ever received or sent; C108_no_wait_refuted: it does not wait for the configuration either, while announcing an address). Proved: it is at least not held up (C108_goes_on_partial). Trusted: Ansible calls on_start and on_stats once per playbook on the same plugin object.

*Theorems:* `C108_refuted`, `C108_no_wait_refuted`, `C108_goes_on_partial`

### C109 An interrupted playbook ends — partial

*Modelled and proved by:* invariant of the states with nobody to queue the end mark; a measure for the others.

*Remarks:* FALSE (C109_refuted: if the end was not asked for before, the send thread waits on for a client or for messages, is not a daemon, and the process stays, whatever the client does, unless an operation on its socket fails). Proved: once the end mark is queued the process ends within a bound, if the receive thread does not wait for a play (C109_ends_partial). Trusted: on_stats is not called after KeyboardInterrupt or AnsibleError; the interpreter waits for threads that are not daemons. C109_unanswered_refuted: a request that needs a play is then never answered and blocks everything behind it.

*Theorems:* `C109_refuted`, `C109_unanswered_refuted`, `C109_ends_partial`

### C110 Stepping goes on across plays — partial

*Modelled and proved by:* invariant: no thread of the host after a new play until its first task; with C35 for new hosts.

*Remarks:* FALSE: the state of the threads is that of the play; after any history, the first task of a host in a new play (or after a refresh of the inventory) stops exactly at breakpoints, whatever the client had told the host (C110_step_forgotten_refuted; C110_refuted is a case). Proved within a play (C110_within_play_partial).

*Theorems:* `C110_step_forgotten_refuted`, `C110_within_play_partial`, `C110_refuted`

### C111 The client's view of breakpoints while Ansible is loading a file — partial

*Modelled and proved by:* C29's micro-steps with the client's mirror; a scan does to the kept breakpoints what its events do to the mirror; induction over the interleaving; counterexample closed under further loads.

*Remarks:* FALSE of the code: C111_answered_late_refuted (the event precedes the answer that first names the breakpoint, and the answer carries the old data; the client stays wrong however often the file is loaded again). C111_unless_answered_late_partial: in every other interleaving the client's view of every source equals what the debuggee keeps. The scan loop is one piece, as in C29.

*Theorems:* `C111_unless_answered_late_partial`, `C111_answered_late_refuted`

## Axioms

* **none** (5): C31_no_boundary_refuted, C31_no_mappings_partial, C31_unmapped_refuted, C64_bytes_are_a_list, C78_stop_refuted

* **propext** (42): C100_ignored, C101_refuted, C17_admission, C18_before_failing_partial, C18_refuted, C19_lenient, C19_tcp_alone, C19_uds_alone, C48_answered_twice_refuted, C49_refuted, C51_refuted, C52_disconnect_leaves_partial, C52_never_leaves_refuted, C52_refuted, C55_disconnect_forwarded_partial, C55_refuted, C56_mappings_no_list, C56_no_mappings, C61_empty_entry_refuted, C61_repeated_setting_fails, C63_client_certificate, C63_custom_ca, C63_verification_off_only_on_request, C71_mappings_no_list, C71_rejected, C71_terminal_request, C75_all_refused_partial, C75_cancelled_partial, C75_closed_refuted, C75_confirmed_refuted, C75_every_address_refuted, C75_uds_single_partial, C75_unresolved_partial, C76_uds_hostname, C77_cancelled_partial, C77_error_passed_on_partial, C77_gives_up_partial, C77_plain_calls_partial, C77_plain_partial, C77_reset_refuted, C78_no_path_partial, C99_filter_texts

* **propext, Quot.sound** (178): C02_default_and_limit, C03_adapter_chunking, C03_chunking_irrelevant, C03_negative_refuted, C03_nonnegative_suffices, C05_no_duplicates, C05_receive_numbers, C05_wrong_number_rejected, C06_adapter_terminates, C06_bad_header_sticks, C06_none_iff, C06_none_unchanged, C08_surrogate_pair_is_joined, C09_stepIn_refuted, C100_lines_refuted, C101_own_instance, C101_retry, C101_settled_partial, C102_counts, C103_refuted, C104_console_partial, C104_hostvar_refuted, C104_set, C105_both_refuted, C105_by_name, C105_everywhere, C105_everywhere_v4, C105_exactly_partial, C105_only_asked, C106_chosen_port_partial, C106_refuted, C106_same_user_partial, C10_refuted, C110_refuted, C111_answered_late_refuted, C11_types_key_refuted, C12_error_response, C12_error_response_unknown_command, C12_event, C12_request, C12_response, C12_unknown_command, C12_unknown_event, C12_unknown_type, C13_attach_args, C13_launch_args, C14_send_iff, C15_closed_exactly_once, C17_cancel_reaches_pending, C17_cancelled_for_ever, C17_results, C18_exact_partial, C19_only_ValueError, C19_scheme, C20_refuted, C21_negative_line_partial, C21_unique, C24_modified, C24_modified_reason, C28_blocks, C28_plays, C29_lost_update_refuted, C29_stale_update_refuted, C30_last_filters, C31_exact_back_partial, C31_exact_partial, C31_first_applies_partial, C31_in_force_partial, C31_roundtrip_partial, C31_roundtrip_refuted, C31_unmapped_partial, C32_after_exception_refuted, C34_import_refuted, C34_nested_refuted, C37_continue_single, C38_disconnect_refuted, C38_exception_refuted, C38_refresh_refuted, C39_exception_refuted, C41_block_refuted, C41_refresh_refuted, C41_two_levels_refuted, C43_fails, C44_key_refuted, C46_empty_name_refuted, C46_escaped_name_refuted, C46_escaped_quote_refuted, C46_minus_h_refuted, C46_option_refuted, C46_verbatim_partial, C46_words_partial, C48_all_answered_partial, C48_refuted, C49_answered_partial, C50_forwarded_unchanged, C50_requests_numbered, C51_serial_partial, C52_exact_partial, C52_stays_refuted, C53_exact_partial, C53_refuted, C53_valid_chunks_partial, C53_witness_refuted, C54_at_most_one, C54_config_sent, C54_ended_first_no_response, C54_handshake, C54_order, C54_terminal_requested, C55_forwarded_or_handled_partial, C55_forwarded_partial, C55_not_forwarded_before_partial, C56_address, C56_process_id, C58_handshake_refuted, C61_configuration_kept_partial, C61_environment_kept_partial, C61_exact_partial, C63_attach_certificate, C63_attach_plain, C64_friendly_types, C65_closed_refuted, C66_hostvar, C66_option, C68_refuted, C69_ambiguous_argument_rejected, C69_arguments_reach_ansible, C69_dash_playbook_rejected, C70_connect_options, C70_dap_options, C70_listen_options, C70_options_end_at_the_playbook, C71_log_options, C72_refuted, C73_page_exact_partial, C73_paging_refuted, C75_cancelled_greeting_partial, C75_confirmation_exact_partial, C75_first_accepting_wins_partial, C75_returned_partial, C76_client_encrypted, C76_no_fallback, C76_server_encrypted, C77_first_success_partial, C77_retry_partial, C77_returned_tls_partial, C77_timeout_refuted, C78_all_or_nothing_partial, C78_existing_partial, C78_owner_refuted, C78_private_always_partial, C78_removed_partial, C78_round_trip_partial, C78_umask_restored_partial, C81_negative_line_refuted, C81_orphan_refuted, C81_refresh_refuted, C81_role_refuted, C83_cancel_refuted, C83_null_refuted, C84_exception_options_refuted, C84_single_thread_refuted, C85_disconnect_silent, C85_refuted, C86_only, C87_remove_command, C90_refuted, C93_include_refuted, C93_next_variable_refuted, C93_set_breakpoints_refuted, C96_disconnect_fails_refuted, C97_continue_refuted, C97_leaked_references_refuted, C97_stack_trace_refuted, C97_threads_refuted, C98_inline_block_refuted, C99_announced_requests, C99_unannounced_ignored

* **propext, Classical.choice, Quot.sound** (262): C01_adapter_reads, C01_exactly_the_messages, C01_hypotheses_hold, C01_prefix_at_any_time, C02_nothing_lost, C04_frame, C05_send_numbers, C07_exact_partial, C07_refuted, C07_wrong_seq_recovers_partial, C08_json_roundtrip, C09_exact_partial, C09_nested_types, C09_result, C09_text_roundtrip_partial, C09_unpack_pack_partial, C100_from_one_partial, C101_one_thread_partial, C102_asked, C102_belongs, C102_document, C102_stops, C102_stops_for, C103_exactly, C103_goes_on_partial, C103_requests, C104_why, C105_documented_refuted, C105_no_dualstack_refuted, C105_reported, C105_v4_refuted, C105_why, C107_ended_partial, C107_found_partial, C107_killed_refuted, C107_not_others_partial, C107_one_client_partial, C107_planted_refuted, C107_stale_refuted, C108_goes_on_partial, C108_no_wait_refuted, C108_refuted, C109_ends_partial, C109_refuted, C109_unanswered_refuted, C10_exact_partial, C10_stepIn_thread_partial, C110_step_forgotten_refuted, C110_within_play_partial, C111_unless_answered_late_partial, C11_ignored, C11_ignored_message, C11_types_exact, C12_accepted_class, C12_success, C13_roundtrip, C14_delivered, C14_prefix_delivered, C15_crash_at_any_byte, C15_reset_or_cancel, C16_exact, C16_short, C19_tcp_host_port, C19_tcp_no_port, C19_tcp_v6_port, C19_tcp_v6_zone, C19_uds_both, C19_uds_name, C19_uds_path, C19_uds_path_short, C20_address_roundtrip_partial, C20_unix_iff, C21_answer_is_snapped, C21_exists, C22_kept_up_to_date, C22_not_loaded_unverified, C22_reason, C23_client_rest, C23_client_view, C23_events_are_changes, C24_ids_never_reused, C24_one_per_entry, C25_modified_clears, C25_other_sources_unchanged, C25_replaces_source, C26_no_stop_iff, C26_stop_iff_snapped, C27_idempotent, C27_order_irrelevant, C28_task_line_verified, C29_scan_heals_partial, C29_sequential_partial, C29_unless_overtaken_partial, C32_step_in_ordinary_partial, C32_step_over_partial, C33_step_in, C34_no_include_never_stops, C34_step_out_partial, C35_continued, C35_never_stopped, C35_new_host, C36_exception_stops, C37_continue_all, C37_exact, C37_proceeds, C37_waits, C38_exact_partial, C38_terminate_partial, C38_waiting_exact_partial, C39_disconnect_partial, C39_exact_partial, C40_stack, C41_stack_partial, C42_ends, C42_frame, C42_meaning, C42_never_reused, C42_resolves, C43_scopes, C44_dict_partial, C44_exact_partial, C44_list_partial, C45_all_exit, C45_paired, C45_threads_answer, C46_remove_partial, C46_set_partial, C46_tail_partial, C46_template_otherwise, C46_template_partial, C46_unknown_option_partial, C47_after_close, C47_at_most_one, C47_ends, C47_exactly_one, C47_no_deadlock, C47_only_cancel_kills, C48_exactly_one_partial, C49_before_terminated_partial, C49_exactly_one_partial, C50_relayed_all, C50_relayed_in_order, C50_response_matches, C51_atomic_methods_partial, C51_nothing_invented_partial, C54_ended_first, C56_mappings, C56_round_trip, C57_tasks_wait_for_configuration, C58_fair_executions_exist, C58_refuted, C58_returns_or_deadlock_partial, C58_returns_partial, C59_all_before_the_end_mark, C59_in_order, C59_nothing_lost, C60_attach_finds_it, C60_exactly_while_up, C62_launch_script, C63_attach, C63_tls_iff_requested, C65_disconnect_terminate_partial, C65_exact_partial, C67_answers_in_order, C67_every_request_handled, C67_never_stuck, C67_only_failed_disconnects, C68_wait_ends_partial, C69_launch_end_to_end, C70_options_reach_debuggee, C71_accepted, C71_mappings, C72_exact_partial, C72_stop_has_true_condition_partial, C72_stops_partial, C73_counts_partial, C73_indices_partial, C74_inspecting_is_always_possible, C74_inspecting_is_neutral, C77_in_order, C78_owner_partial, C79_announced_first, C79_held, C79_meta_no_stop, C79_not_skipped, C79_results, C80_code, C80_last, C80_threads, C81_begin_fails, C81_no_failure_partial, C82_before_scopes_fails, C82_edit_hostvars, C82_edit_options, C82_remove_option, C82_set_option, C83_exact, C83_sent_conforms_partial, C84_accepted_partial, C84_argument_partial, C84_read_partial, C84_unsaid_partial, C85_answered_partial, C85_continue_partial, C85_document_partial, C85_routed_partial, C85_unknown, C86_breakpoint, C86_events, C86_exception, C86_start, C86_step_in, C86_step_out, C86_step_over, C86_threads, C87_command_answer, C87_expression, C87_gone, C87_not_evaluated, C87_set_command, C87_template_command, C88_stack, C88_threads, C89_gone, C89_scopes, C89_set_variable, C89_variables, C90_changed_partial, C90_disconnect_partial, C90_set_breakpoints_partial, C90_set_exceptions_partial, C90_terminate_partial, C91_client, C91_delivered, C91_session, C91_shown, C92_answers, C92_complete, C93_playbook_does_not_fail_partial, C94_no_deadlock, C94_no_lost_wakeup, C94_request_goes_on, C94_resumed, C95_agrees_with_one_step, C95_answer, C95_answered, C96_fails_only_if_a_thread_exits_partial, C96_no_stop_after_disconnect, C96_terminate_ends, C97_fails_only_if_partial, C97_new_references_partial, C97_threads_listed_partial, C98_breakpoints_verified_partial, C98_first_task_stops_partial, C98_rescan_is_silent_partial, C98_scanned_partial, C98_scans_first_partial, C98_scans_only_then, C99_clipboard, C99_document, C99_filters, C99_other_requests
