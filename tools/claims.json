{
 "C01": {
  "status": "proved",
  "note": "Sender and receiver as arbitrary histories; every message class of the protocol. The messages must be instances with annotated attribute types, JSON-representable payloads and C09's exclusions (Exact: known defects of StepInRequest/attach/launch are excluded through the Wire predicate). C01_adapter_reads: for the adapter's input loop."
 },
 "C02": {
  "status": "proved",
  "note": "All histories, including negative n (Python slicing of the buffer)."
 },
 "C03": {
  "status": "proved",
  "note": "Stronger than stated: negative lengths are allowed as long as they do not reach back before their own header; beyond that the claim is refuted by C03_negative_refuted. C03_adapter_chunking: for the adapter's input loop."
 },
 "C04": {
  "status": "proved",
  "note": ""
 },
 "C05": {
  "status": "proved",
  "note": "feq is an arbitrary comparison of float sequence numbers."
 },
 "C06": {
  "status": "proved",
  "note": " C06_adapter_terminates: no input makes the adapter's loop spin."
 },
 "C07": {
  "status": "partial",
  "note": "FALSE of the code except for messages rejected for their seq alone: C07_refuted shows that after any undecodable message every later correctly numbered message is rejected for ever. C07_wrong_seq_recovers_partial is the part that holds. C07_exact_partial: later messages are accepted iff the rejected one could be decoded."
 },
 "C08": {
  "status": "proved",
  "note": "C08_surrogate_pair_is_joined shows the proviso is needed."
 },
 "C09": {
  "status": "partial",
  "note": "C09_result says for every well-typed instance of all 46 message classes what comes back; C09_exact_partial: it is the message itself exactly if it is not a stepIn request with a target id and not an attach/launch request whose arguments contain a reserved key. C09_stepIn_refuted shows the first exception."
 },
 "C10": {
  "status": "partial",
  "note": "FALSE of the code when a targetId is sent (C10_refuted): the target id is taken for the thread id. Proved without targetId. C10_exact_partial: the last of threadId and targetId that is not null gives the thread."
 },
 "C11": {
  "status": "proved",
  "note": "Ext is the relation 'extra unknown or null optional members at any depth'; C11_types_key_refuted shows the one exception: a client member named __types raises. C11_types_exact: exactly which values under `__types` are ignored and which reject the message."
 },
 "C12": {
  "status": "proved",
  "note": ""
 },
 "C13": {
  "status": "proved",
  "note": ""
 },
 "C14": {
  "status": "proved",
  "note": "Serialisation (pickle) is an abstract codec with the laws loads(dumps m) = m and 'a truncated dump does not load'; demoCodec shows the laws are satisfiable. Short reads are arbitrary."
 },
 "C15": {
  "status": "proved",
  "note": "Every byte offset; also reset and local cancel instead of a close; closed exactly once for arbitrary garbage and arbitrary handler exceptions."
 },
 "C16": {
  "status": "proved",
  "note": ""
 },
 "C17": {
  "status": "proved",
  "note": "Interleavings as arbitrary sequences of the token's atomic (locked) sections; for cancel actions that do not raise (see C18)."
 },
 "C18": {
  "status": "partial",
  "note": "FALSE of the code: C18_refuted shows that operations behind a failing cancel action are never cancelled, by any number of cancels. The partial theorem is what holds. C18_exact_partial: an operation is cancelled iff no action of an earlier one fails."
 },
 "C19": {
  "status": "proved",
  "note": "Model of CPython 3.12 urlsplit; IPv6 validity, NFKC and non-ASCII lower-casing are arbitrary. C19_lenient lists undocumented strings that are accepted as well."
 },
 "C20": {
  "status": "partial",
  "note": "Proved for IPv4, IPv6 and absolute unix paths without ? # tab CR LF; C20_unix_iff shows this is exact, C20_refuted shows the failures (also relative unix paths)."
 },
 "C21": {
  "status": "proved",
  "note": "Any history, any non-negative requested line; C21_negative_line_partial records what happens for a negative one."
 },
 "C22": {
  "status": "proved",
  "note": "Actions are atomic here; interleavings are C29."
 },
 "C23": {
  "status": "proved",
  "note": "Breakpoints of a modified source are shown by the client without location and not kept (C23_client_rest)."
 },
 "C24": {
  "status": "proved",
  "note": ""
 },
 "C25": {
  "status": "proved",
  "note": ""
 },
 "C26": {
  "status": "proved",
  "note": "For entries at lines other than 0 (Ansible lines are 1-based)."
 },
 "C27": {
  "status": "proved",
  "note": ""
 },
 "C28": {
  "status": "proved",
  "note": "Locations are the texts path:line; entries without a location are skipped, as in the code. Which entry wins when two share a line is given by C21/C22 (the last registered)."
 },
 "C29": {
  "status": "partial",
  "note": "FALSE of the code: C29_lost_update_refuted and C29_stale_update_refuted give interleavings after which a kept breakpoint is wrong. Proved: every scan of the file heals it (C29_scan_heals_partial), for all interleavings of all requests and registrations. C29_unless_overtaken_partial: after any earlier pieces, one request racing any number of registrations in any interleaving leaves every breakpoint of its source right, unless a registration of its file slipped in between the handler's lookup and its storing with no scan of the file after the storing; so the refutations are the only way to lose an update."
 },
 "C30": {
  "status": "proved",
  "note": "The filters survive a disconnect; see C39."
 },
 "C31": {
  "status": "partial",
  "note": "FALSE of the code in general (three counterexamples). Proved for prefix-incomparable remote roots and for unmapped paths outside all remote roots; and, for every configuration and path, exactly when the round trip returns the path, in both directions (the mapping which applies on the way back must agree with the one used on the way there). The mappings in force over any history: C31_in_force_partial."
 },
 "C32": {
  "status": "partial",
  "note": "Proved for stops at the start of a task (step over, and step in on an ordinary task), over all histories of playbook steps and requests. After an exception stop the level compared with is that of the last start stop: C32_after_exception_refuted."
 },
 "C33": {
  "status": "proved",
  "note": "All histories; stops at the next task the host starts that has a location."
 },
 "C34": {
  "status": "partial",
  "note": "Characterises exactly where a step out stops; the English claim holds when the enclosing include is the innermost task ancestor, and is refuted for a nested include (stops inside it) and for imports; with no enclosing include the host never stops again, not even at breakpoints."
 },
 "C35": {
  "status": "proved",
  "note": "All histories, for continued hosts, hosts seen for the first time and hosts never stopped."
 },
 "C36": {
  "status": "proved",
  "note": "All histories; results that report at most one of failed, unreachable and skipped."
 },
 "C37": {
  "status": "proved",
  "note": "C37_waits: no step of the playbook until a request concerning the thread; C37_proceeds: after one the playbook can always go on. C37_exact: what becomes of a stopped thread, for every sequence of requests and ends of connections."
 },
 "C38": {
  "status": "partial",
  "note": "Proved with the exception filters off and no request that resumes threads afterwards; refuted otherwise: a failing task with the filter on hangs the playbook, a following disconnect resumes it, an inventory refresh forgets the termination. C38_exact_partial: with any filters, the run ends exactly when the result of the known host is not one the filters select; otherwise the host stops and nothing but a resuming request (not the end of the connection) wakes it. C38_waiting_exact_partial: for a waiting playbook, iff the last request that resumes the thread asks for it."
 },
 "C39": {
  "status": "partial",
  "note": "Proved with the exception filters off; refuted otherwise, because exception filters survive the disconnect and the playbook then waits for a client that is gone. C39_exact_partial: with any filters, the first stop after the disconnect is exactly the first result the filters select, and the playbook then waits."
 },
 "C65": {
  "status": "partial",
  "note": "Proved until the connection ends; refuted when the connection ends before the playbook thread has woken up. C65_exact_partial: the run ends iff the last request that resumes the thread asks for it."
 },
 "C40": {
  "status": "proved",
  "note": "All histories of playbook steps and requests. The stack trace request of a task without a path is an error (frameDap), as in the code."
 },
 "C41": {
  "status": "partial",
  "note": "Proved (C41_stack_partial) for histories whose tasks come in the nested order of static includes, one level left at a time and no inventory refresh inside an include. Refuted otherwise: C41_block_refuted (a block inside an included file), C41_two_levels_refuted (two include levels left at once), C41_refresh_refuted (refresh_inventory inside an include)."
 },
 "C42": {
  "status": "proved",
  "note": "All histories. The handlers run in the receive thread and are modelled as atomic with respect to the playbook thread."
 },
 "C43": {
  "status": "proved",
  "note": "The outcome of templating and the host variables are parameters. The scopes request fails (after making some references) when the host variables or the mapping vars are missing."
 },
 "C44": {
  "status": "partial",
  "note": "Proved for dictionaries whose keys shown as that name are strings and for list entries by their shown index. Refuted (C44_key_refuted) for an entry with a non-string key: a second entry with the same shown name appears and the old one keeps its value. C44_exact_partial: for any dictionary, the value is shown under the name, alone iff no non-string key was shown as that name."
 },
 "C45": {
  "status": "proved",
  "note": ""
 },
 "C66": {
  "status": "proved",
  "note": ""
 },
 "C46": {
  "status": "partial",
  "note": "Holds for every expression that shlex can split and that contains no help word, and for names written plainly or in quotes (C46_*_partial with the exact complement C46_template_otherwise); refuted for expressions with shell-unbalanced quotes, words like -h, an empty name, escaped names."
 },
 "C47": {
  "status": "proved",
  "note": "All interleavings of the two threads of the adapter: at most one terminated event ever, exactly one when the server has stopped or the end of the debuggee's connection was handled; stopping cannot deadlock and ends in a bounded number of steps; only an exception of the cancel token (C18) can kill the main thread in stop."
 },
 "C48": {
  "status": "partial",
  "note": "Every request is answered when the adapter stopped because of an exception (all executions). 'Exactly one' is refuted: two threads stopping at once, or a relayed response being noted late, give a second response; proved exactly-one for executions in which the threads do not overtake each other (OReach)."
 },
 "C49": {
  "status": "partial",
  "note": "Always answered when the server has stopped; before the terminated event if the receive thread had not begun stopping when it arrived; refuted in the window between the receive thread's look at outstanding requests and its terminated event; exactly one response in orderly executions."
 },
 "C50": {
  "status": "proved",
  "note": "Relayed messages are a prefix (all, when the receive thread is idle) of what the debuggee sent, unchanged and in order; forwarded requests are requests of the client in order with the client's numbers."
 },
 "C51": {
  "status": "partial",
  "note": "Refuted at the level of single reads and writes: duplicate sequence numbers, duplicated, lost and reordered frames. Proved: non-overlapping calls give the right stream; if queue_msg, data_to_send and the write are atomic every frame arrives exactly once with distinct consecutive numbers (order may differ). In every interleaving of single steps nothing is invented: each frame written is a whole frame of a message some thread sends, with a number that was given out (C51_nothing_invented_partial)."
 },
 "C52": {
  "status": "partial",
  "note": "Refuted: at end of input the loop of start() reads again forever and nothing but a message, bad input or interrupt ends it. Proved: a disconnect request leads out of the loop. C52_exact_partial: the loop is going to be left iff a disconnect request was sent; C52_stays_refuted: over whole executions."
 },
 "C53": {
  "status": "partial",
  "note": "Refuted: debug logging decodes each chunk, so a chunk boundary within a character stops the adapter. Proved: no difference if every chunk is valid UTF-8 by itself. C53_exact_partial: exactly what debug logging changes, for every chunking."
 },
 "C54": {
  "status": "proved",
  "note": "At most one runInTerminal request and launch response per launch in every execution; the successful sequences; order of request, answer and response; configuration sent; if the launched process ends first the terminated event follows and no launch response is sent."
 },
 "C55": {
  "status": "partial",
  "note": "Forwarding, exclusivity and never forwarding requests received before a debuggee is set are proved for all executions; refuted between launch and connection, where a request stops the adapter instead of being forwarded."
 },
 "C56": {
  "status": "proved",
  "note": "Complete characterisation of get_connection_tuple after from_json for all argument dictionaries and directory contents, and the round trip with the file a debuggee writes."
 },
 "C57": {
  "status": "proved",
  "note": "All interleavings of the playbook, send and receive threads; besides the cases of the property a task can run when start() itself failed (Ansible swallows the callback's exception): stated in the theorem."
 },
 "C58": {
  "status": "partial",
  "note": "Refuted: a request that needs the strategy after the last play deadlocks all three threads; a TLS handshake is not cancelled. Proved: in fair executions shutdown returns unless exactly that deadlock occurs; and it returns if no such request is pending or received. Assumes that the peer reads what is sent."
 },
 "C59": {
  "status": "proved",
  "note": "All histories of queueing; if sending fails the messages sent are a prefix."
 },
 "C60": {
  "status": "proved",
  "note": "All histories; if shutdown raises (a cancel function failing, C18) or does not return (C58) the file stays, as the property says only what holds once shutdown returns. The adapter's reading of the file is composed with C56."
 },
 "C67": {
  "status": "proved",
  "note": "The bodies of the handlers succeed or raise arbitrarily."
 },
 "C68": {
  "status": "partial",
  "note": "Proved for configurationDone and the end of a connection; refuted for a connection that cannot be made: the playbook waits for ever."
 },
 "C61": {
  "status": "partial",
  "note": "The user's variables, enabled callbacks, collection paths and non-empty python path entries are kept in order, for every dump with distinct entries; empty PYTHONPATH entries are dropped (refuted), a dump with a repeated setting fails with KeyError. C61_exact_partial: exactly when the callbacks, collection paths and PYTHONPATH arrive as the user had them."
 },
 "C62": {
  "status": "proved",
  "note": "The script text is run by a model of the POSIX shell (lexer, parser, executor) on bytes; every executable path, argument and socket path that can be encoded and has no NUL."
 },
 "C63": {
  "status": "proved",
  "note": "ssl.SSLContext is modelled by its settings and a file system of readable PEM files; the TLS library's own behaviour is trusted. A custom CA is added to the system CAs, and inherited ANSIBUG_TLS_* variables apply when the option is absent."
 },
 "C64": {
  "status": "proved",
  "note": "Every class with at most one builtin layout (as CPython demands); bytes are shown as list (C64_bytes_are_a_list)."
 },
 "C69": {
  "status": "proved",
  "note": "End to end through the shell script, argparse and execve. C69_dash_playbook_rejected and C69_ambiguous_argument_rejected show the provisos are needed (both argparse behaviours, before and since Python 3.12, modelled by the parameter eager)."
 },
 "C70": {
  "status": "proved",
  "note": "For every environment; inherited ANSIBUG_TLS_* variables apply where an option is absent, as stated in the theorem."
 },
 "C71": {
  "status": "proved",
  "note": "Every JSON body accepted by the request parser."
 },
 "C72": {
  "status": "partial",
  "note": "FALSE of the code with several breakpoints on one task (C72_refuted): only the first one set counts, so a false condition of it hides the others. Proved: a stop has a true condition; it stops if all the conditions on the line hold (in particular for a single breakpoint). Outcomes of conditions are arbitrary. That the conditions are those the client gave: C102. C72_exact_partial: it stops iff the kept breakpoint of smallest number on the line has a true condition."
 },
 "C73": {
  "status": "partial",
  "note": "Counts proved for every reference ever handed out, at any later time while the container is unchanged; paging refuted: start and count are ignored. C73_page_exact_partial: the answer is the part asked for iff all the children are asked for."
 },
 "C74": {
  "status": "proved",
  "note": "Two-run property, both directions (removing and inserting inspecting requests). What Ansible does with changed variables is outside (labels env/start are the same in both runs). Handlers are atomic, as in C42."
 },
 "C75": {
  "status": "partial",
  "note": "Proved: order, first success, closing after failures, errors, cancellation. FALSE of the code: a failing socket.socket() ends it without trying the rest; a cancelled attempt leaves its socket open; a connection closed by the server counts as confirmed."
 },
 "C76": {
  "status": "proved",
  "note": "System calls are an environment with arbitrary outcomes; TLS itself is Python's ssl and trusted."
 },
 "C77": {
  "status": "partial",
  "note": "Proved for handshakes that fail with SSLError. FALSE of the code: a reset during the handshake ends the listening; the timeout restarts with each failed client. Any other failure is passed on (C77_error_passed_on_partial)."
 },
 "C78": {
  "status": "partial",
  "note": "Privacy, umask, all-or-nothing and removal proved. FALSE of the code: with a umask that denies the owner the file is unusable; a failing unlink leaves stop before the socket is closed."
 },
 "C79": {
  "status": "proved",
  "note": "Ansible's linear strategy is an environment that may call the hooks in any order."
 },
 "C80": {
  "status": "proved",
  "note": "Exceptions of Ansible's own code may occur whenever it runs; KeyboardInterrupt while waiting is not modelled."
 },
 "C81": {
  "status": "partial",
  "note": "Proved under what the linear strategy promises (Orderly) and for playbooks in which the tasks that follow an include_role, while it is the newest frame and below a block or include, are tasks of a role (RolesOnly); C81_begin_fails says exactly when the start of a task fails. FALSE without: an include_role inside an included file or block followed by another task (AttributeError, no request needed: C81_role_refuted), a task in no block on a host inside an include (AttributeError), a refresh while results are outstanding (StopIteration). Also for line numbers that are not negative (C81_negative_line_refuted, C103)."
 },
 "C82": {
  "status": "proved",
  "note": "task.args is the model's dictionary at the frame's args address; that Ansible runs the task with it is trusted. Before the client has asked for the scopes of the frame the commands answer with a KeyError (C82_before_scopes_fails)."
 },
 "C83": {
  "status": "partial",
  "note": "Proved for all classes but attach, launch and cancel requests with the tolerance that an optional member without a value may be null; without the tolerance for the classes listed in C83_exact. FALSE for the schema as published: optional members are sent as null (C83_null_refuted). That the program builds its messages from values of the annotated types is trusted (mypy)."
 },
 "C84": {
  "status": "partial",
  "note": "Proved for every request but: exceptionOptions without path raise a TypeError (C84_exception_options_refuted), continue without singleThread means true instead of false (C84_single_thread_refuted), stepIn targets (C10_refuted), a member __types (C11_types_key_refuted). The schema is transcribed in Dap/Schema.lean (trusted)."
 },
 "C85": {
  "status": "partial",
  "note": "C85_answered_partial and C85_disconnect_silent are proved for every request object. On documents the exclusions of C84 apply (C85_refuted: an exceptionOptions entry without a path is not answered)."
 },
 "C86": {
  "status": "proved",
  "note": "Event objects; that their documents conform to the schema is C86_events with C83."
 },
 "C87": {
  "status": "proved",
  "note": "templating, repr and type names are arbitrary functions (Env)."
 },
 "C88": {
  "status": "proved",
  "note": "Attributes of the answer; the document says the same by C83/C09."
 },
 "C89": {
  "status": "proved",
  "note": "Attributes of the answer objects (the document says the same by C83/C09). repr, type names and templating are arbitrary functions (Env)."
 },
 "C90": {
  "status": "partial",
  "note": "On documents the exclusions of C84 apply (no member __types, no exceptionOptions; C90_refuted). terminate, configurationDone and the changed events are proved in full."
 },
 "C91": {
  "status": "proved",
  "note": "pickle is an arbitrary serialisation with the left-inverse property (Codec). The session starts when the path mappings have been sent. One send_to_client call is one step (its races are C51), handling a message is one step; requests the client writes after a disconnect request are not forwarded in the model. Delivery needs messages below 4 GiB on the socket (the length field); the reading side of C91_client asks for texts that JSON can carry (Val.Ok)."
 },
 "C92": {
  "status": "proved",
  "note": "Same model as C91."
 },
 "C93": {
  "status": "partial",
  "note": "Proved: no KeyError or IndexError ever (thread switches everywhere except inside next_variable_id, which CPython with a global lock does not do), and no exception at all unless a breakpoint is added while the playbook iterates over the breakpoints. Refuted in general: setBreakpoints at that moment raises RuntimeError in the playbook (before a stop, and when an included file or role is scanned); with a switch inside of next_variable_id a number is used twice and the playbook ends with KeyError."
 },
 "C94": {
  "status": "proved",
  "note": "Both granularities. One play; condition variable and lock of threading with one waiter."
 },
 "C95": {
  "status": "proved",
  "note": "Values are left out: a variables answer is its list of references (their contents: C42-C44, C87-C90). Thread switches everywhere except inside of next_variable_id. C95_agrees_with_one_step ties the small-step model to the one the other debug state properties are about: every history of the latter within one play is an unoverlapped execution of the former."
 },
 "C96": {
  "status": "partial",
  "note": "Proved: no stop after a successful answer, a stopped playbook ends on terminate, and the request fails only if a thread exits while it is handled. Refuted: in that case it does fail, with KeyError. (With exception filters set: C39.)"
 },
 "C97": {
  "status": "partial",
  "note": "Proved: an answer is a KeyError or the right number of new, distinct references; a request fails only for a stated reason (what it asks for was not there or has been removed meanwhile, or a thread has come or gone while it went through them). Refuted: stackTrace (KeyError), threads and continue (RuntimeError) do fail when the playbook changes the dictionaries meanwhile; references added to a frame that has just been removed are never removed."
 },
 "C98": {
  "status": "partial",
  "note": "For trees with well-formed locations; verification and silence of repeated scans for roles in which no line holds both an explicit block and a task (C98_inline_block_refuted: with an inline block each task of the role sends two spurious events). The stop of the first task for conditions that hold and a host that is not stepping out. For kept breakpoints whose requested lines are not negative (C103)."
 },
 "C99": {
  "status": "proved",
  "note": "The table of the requests and attributes that belong to capabilities is taken from the protocol's specification. 'Understood' is: of a known class, with a handler; what the handler then does is C44, C57, C38. Conditional breakpoints are C72, ending the debuggee on disconnect is C65."
 },
 "C100": {
  "status": "partial",
  "note": "Proved for clients that count from 1 (the default). FALSE for a client with linesStartAt1 = false (C100_lines_refuted): everything it says in the initialize request is ignored (C100_ignored)."
 },
 "C101": {
  "status": "partial",
  "note": "Proved for calls from one thread (both plugins call it from Ansible's main thread) and, for any number of threads, from the moment the instance is there and nobody is making one; no call ever fails in the lookup or returns a foreign object. FALSE for two threads that make the first call at the same time (C101_refuted): there is no lock."
 },
 "C102": {
  "status": "proved",
  "note": "The outcome of evaluating a text as a condition is an arbitrary function. With several breakpoints on one task the first one counts (C72_refuted, C102_counts)."
 },
 "C103": {
  "status": "partial",
  "note": "FALSE for lines far below zero, which conform to the protocol and are accepted while the file is not loaded: the playbook dies of an IndexError when it is (C103_refuted). C103_exactly says for every history exactly which lines do this; C103_goes_on_partial is the property for lines that are not negative. The scan of an included role: C98."
 },
 "C104": {
  "status": "partial",
  "note": "C104_set and C104_why are the property for setVariable, C104_console_partial for the console commands. FALSE for set_hostvar if the scopes request of the frame failed half-way (C104_hostvar_refuted): the variable of the task is changed and the command answered with an error. Assumes that the arguments of a task are a dict (as in Ansible) and that set_host_variable of the variable manager does not raise."
 },
 "C105": {
  "status": "partial",
  "note": "'At no others' (C105_only_asked), the unspecified host (C105_everywhere), the reported address (C105_reported) and clients that try all addresses of a name (C105_by_name) are proved. FALSE of the code for IPv4 on every machine with dual stack (C105_v4_refuted): an IPv6 socket is bound to it; the example of the help text, tcp://127.0.0.1:0, fails (C105_documented_refuted). C105_exactly_partial says exactly when listening succeeds. Trusted: the model of create_server and of the kernel's rules in Sock/Listen.lean (Linux); the failure was reproduced with the standard library alone."
 },
 "C106": {
  "status": "partial",
  "note": "Proved if the system chooses the port (C106_chosen_port_partial) and against other users (C106_same_user_partial), over all histories. FALSE for a given port (C106_refuted): SO_REUSEPORT is set, so a second playbook of the same user listens on the same address without an error and may get the connections. The kernel's rules (Linux) are part of the model."
 },
 "C107": {
  "status": "partial",
  "note": "Found, and nothing else, whatever happened on the machine, while the playbook waits on a port the system chose (C107_found_partial); fails or names a running playbook of this id if nothing was killed and no file planted (C107_not_others_partial). Once it has its client nobody else reaches it (C107_one_client_partial), once it has ended nobody does and its id is not found (C107_ended_partial). FALSE after a playbook was killed (C107_killed_refuted: its file stays, and whatever gets the port is reached; C107_stale_refuted: for good) and against other users (C107_planted_refuted: the file is in a shared directory, its owner is not checked; the planted file also keeps the playbook from being debugged). TCP only; the steps are whole calls (thread by thread: C60). Trusted: the rules of the kernel in Sock/Listen.lean and of a sticky directory."
 },
 "C108": {
  "status": "partial",
  "note": "FALSE for every playbook but the first (C108_refuted: the debugger is one object per process, its cancel token stays cancelled, so no message is ever received or sent; C108_no_wait_refuted: it does not wait for the configuration either, while announcing an address). Proved: it is at least not held up (C108_goes_on_partial). Trusted: Ansible calls on_start and on_stats once per playbook on the same plugin object."
 },
 "C109": {
  "status": "partial",
  "note": "FALSE (C109_refuted: if the end was not asked for before, the send thread waits on for a client or for messages, is not a daemon, and the process stays, whatever the client does, unless an operation on its socket fails). Proved: once the end mark is queued the process ends within a bound, if the receive thread does not wait for a play (C109_ends_partial). Trusted: on_stats is not called after KeyboardInterrupt or AnsibleError; the interpreter waits for threads that are not daemons. C109_unanswered_refuted: a request that needs a play is then never answered and blocks everything behind it."
 },
 "C110": {
  "status": "partial",
  "note": "FALSE: the state of the threads is that of the play; after any history, the first task of a host in a new play (or after a refresh of the inventory) stops exactly at breakpoints, whatever the client had told the host (C110_step_forgotten_refuted; C110_refuted is a case). Proved within a play (C110_within_play_partial)."
 },
 "C111": {
  "status": "partial",
  "note": "FALSE of the code: C111_answered_late_refuted (the event precedes the answer that first names the breakpoint, and the answer carries the old data; the client stays wrong however often the file is loaded again). C111_unless_answered_late_partial: in every other interleaving the client's view of every source equals what the debuggee keeps. The scan loop is one piece, as in C29."
 }
}