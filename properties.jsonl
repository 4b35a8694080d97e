{"id": "C01", "title": "Messages survive the client wire protocol unchanged", "statement": "If a sequence of DAP messages is queued on one DebugAdapterConnection and the bytes it hands out are fed to another connection, then the receiver's next_message returns exactly those messages, in order, each exactly once and equal to what was queued (with seq 1,2,3,...), and returns None once they are exhausted.", "quantifier": "every finite sequence of well-typed messages, every sequence of sizes passed to data_to_send, every way of cutting the byte stream into receive_data chunks, every placement of next_message polls", "why_tests_cant": "the number of messages, their contents and the cut points are unbounded; a test fixes one chunking", "anchors": ["src/ansibug/dap/_adapter.py:DebugAdapterConnection.queue_msg", "src/ansibug/dap/_adapter.py:DebugAdapterConnection.data_to_send", "src/ansibug/dap/_adapter.py:DebugAdapterConnection.receive_data", "src/ansibug/dap/_adapter.py:DebugAdapterConnection.next_message"]}
{"id": "C02", "title": "Draining output never loses, repeats or reorders bytes", "statement": "Whatever sequence of queue_msg and data_to_send(n) calls is made, the concatenation of everything data_to_send returned followed by what is still pending equals the concatenation of all the frames queued so far; data_to_send() with the default n leaves nothing pending, and a non-negative n never returns more than n bytes.", "quantifier": "every history of queue_msg / data_to_send(n) calls, every integer n (also 0, negative, larger than the buffer)", "why_tests_cant": "holds for all histories and all n, including values no test tries", "anchors": ["src/ansibug/dap/_adapter.py:DebugAdapterConnection.data_to_send"]}
{"id": "C03", "title": "Receiving does not depend on how the stream was cut", "statement": "For any byte stream whose Content-Length headers are not negative - well formed or not - feeding it in any chunks with polls anywhere yields the same messages and the same first exception as feeding it in one piece.", "quantifier": "every byte stream, every chunking, every poll placement", "why_tests_cant": "arbitrary (also malformed) streams and arbitrary cut points cannot be enumerated", "anchors": ["src/ansibug/dap/_adapter.py:DebugAdapterConnection.receive_data", "src/ansibug/dap/_adapter.py:DebugAdapterConnection.next_message"]}
{"id": "C04", "title": "Content-Length is the exact payload size in bytes", "statement": "For every message, including ones with non-ASCII text, control characters or unpaired surrogates, the frame is 'Content-Length: N', CRLF CRLF and exactly N bytes of payload, all of them ASCII.", "quantifier": "every message content (every string of code points)", "why_tests_cant": "the code counts characters, not bytes; that is right only because every escaped text is ASCII, a fact about all strings", "anchors": ["src/ansibug/dap/_adapter.py:DebugAdapterConnection.queue_msg", "src/ansibug/dap/_messages.py:DAPEncoder"]}
{"id": "C05", "title": "Sequence numbers", "statement": "The k-th message queued is stamped with seq k and that number is returned; the receiver accepts the k-th message only if its seq is k and otherwise raises ValueError.", "quantifier": "every history of queued and received messages", "why_tests_cant": "an inductive fact about histories of any length", "anchors": ["src/ansibug/dap/_adapter.py:DebugAdapterConnection._seq_no_out", "src/ansibug/dap/_adapter.py:DebugAdapterConnection._seq_no_in", "src/ansibug/dap/_adapter.py:DebugAdapterConnection.next_message"]}
{"id": "C06", "title": "Incomplete input is not consumed", "statement": "next_message returns None exactly when the header terminator or part of the announced payload is missing, and then nothing observable changes; a complete header block without a usable Content-Length raises and keeps raising on every later call whatever is received afterwards.", "quantifier": "every buffer content and every continuation of the stream", "why_tests_cant": "universal over buffers and all future input", "anchors": ["src/ansibug/dap/_adapter.py:DebugAdapterConnection.next_message"]}
{"id": "C07", "title": "A rejected message does not desynchronise the connection", "statement": "After next_message has raised because one message could not be understood (unknown command, unknown type, bad JSON), the following correctly numbered messages are still accepted.", "quantifier": "every bad message and every following stream", "why_tests_cant": "needs a history after an error for every kind of error; the code violates it, because the expected seq is only advanced after a successful unpack", "anchors": ["src/ansibug/dap/_adapter.py:DebugAdapterConnection.next_message"]}
{"id": "C08", "title": "JSON text round-trip", "statement": "The JSON text written for a value parses back to the same value, whatever nesting, escapes, control characters or non-BMP characters it contains, provided no string contains a high surrogate directly followed by a low one.", "quantifier": "every JSON value (unbounded size and depth), every string of code points", "why_tests_cant": "infinitely many values; tests use a handful of strings", "anchors": ["src/ansibug/dap/_adapter.py:DebugAdapterConnection.queue_msg", "src/ansibug/dap/_adapter.py:DebugAdapterConnection.next_message", "src/ansibug/dap/_messages.py:DAPEncoder"]}
{"id": "C09", "title": "pack/unpack are inverse for every message type", "statement": "For every request, response and event class and every instance whose attributes have the annotated types, unpacking the JSON of its packed form gives an equal instance of the same class.", "quantifier": "every message class except stepIn, every well-typed instance including arbitrarily nested Source/Breakpoint/Scope objects", "why_tests_cant": "instances are unbounded (recursive types) and there are about fifty classes with hand-written key tables", "anchors": ["src/ansibug/dap/_messages.py:DAPObjectMeta.default_pack", "src/ansibug/dap/_messages.py:DAPObjectMeta.default_unpack", "src/ansibug/dap/_messages.py:ProtocolMessage.unpack"]}
{"id": "C10", "title": "stepIn addresses the thread the client named", "statement": "A stepIn request is delivered with the threadId the client sent, whatever targetId it also sent.", "quantifier": "every stepIn request", "why_tests_cant": "quantifies over every combination and order of arguments; the code violates it when targetId is given", "anchors": ["src/ansibug/dap/_requests.py:StepInRequest"]}
{"id": "C11", "title": "Unknown keys and nulls are ignored", "statement": "Adding keys the protocol version does not know, or adding a known optional key with value null, does not change the unpacked message.", "quantifier": "every message, every set of extra keys at the top level or in arguments/body", "why_tests_cant": "clients of every future protocol revision send keys that no test lists", "anchors": ["src/ansibug/dap/_messages.py:DAPObjectMeta.default_unpack"]}
{"id": "C12", "title": "Message dispatch is total and exact", "statement": "A JSON object is unpacked as a request/response/event of exactly the class registered for its command/event; an unsuccessful response is unpacked as an ErrorResponse whatever its command; an unknown type, command or event raises ValueError.", "quantifier": "every type/command/event string", "why_tests_cant": "the set of strings is infinite", "anchors": ["src/ansibug/dap/_messages.py:ProtocolMessage.unpack", "src/ansibug/dap/_messages.py:DAPObjectMeta.__new__"]}
{"id": "C13", "title": "Launch and attach arguments pass through untouched", "statement": "For a launch (attach) request every client supplied argument except noDebug/__restart (__restart) appears unchanged in the request's arguments, and the reserved ones appear as the no_debug/restart attributes; packing such a request and unpacking it is the identity.", "quantifier": "every argument dictionary", "why_tests_cant": "argument dictionaries are arbitrary client data", "anchors": ["src/ansibug/dap/_requests.py:LaunchRequest", "src/ansibug/dap/_requests.py:AttachRequest"]}
{"id": "C14", "title": "Messages survive the debuggee socket unchanged", "statement": "If one end sends messages m1..mn (each shorter than 4 GiB serialised) the other end's protocol object receives exactly m1..mn in order, however the socket fragments the stream.", "quantifier": "every message sequence, every pattern of short reads", "why_tests_cant": "short reads are chosen by the kernel", "anchors": ["src/ansibug/_mp_queue.py:MPQueue.send", "src/ansibug/_mp_queue.py:MPQueue._recv_handler", "src/ansibug/_socket_helper.py:SocketHelper.recv"]}
{"id": "C15", "title": "A peer crash at any byte is clean", "statement": "If the stream ends after an arbitrary number of bytes, exactly the messages whose last byte arrived are delivered, then connection_closed is called exactly once, without an exception iff the stream ended between two messages.", "quantifier": "every message sequence and every crash point (byte offset)", "why_tests_cant": "every byte offset of every stream", "anchors": ["src/ansibug/_mp_queue.py:MPQueue._recv_handler"]}
{"id": "C16", "title": "recv returns exactly n bytes unless the peer closed", "statement": "The helper's recv(n) returns exactly the next n bytes of the stream, and fewer only if the stream ended, in which case it returns all that was left.", "quantifier": "every stream, every n, every short-read pattern", "why_tests_cant": "kernel chooses the short reads", "anchors": ["src/ansibug/_socket_helper.py:SocketHelper.recv"]}
{"id": "C17", "title": "Cancelling reaches every pending socket operation", "statement": "For every interleaving of operations entering and leaving and of cancel(): an operation that starts after cancel raises CancelledError without touching the socket; every operation pending when cancel runs has its cancel action executed exactly once; no action of a finished operation is executed; a cancelled token never becomes usable again.", "quantifier": "every interleaving of any number of threads' operations and cancels", "why_tests_cant": "schedules", "anchors": ["src/ansibug/_socket_helper.py:SocketCancellationToken.cancel", "src/ansibug/_socket_helper.py:SocketCancellationToken.with_cancel"]}
{"id": "C18", "title": "One failing cancel action does not strand the others", "statement": "If the cancel action of one pending operation fails, the other pending operations are still cancelled.", "quantifier": "every set of pending operations and every subset of failing actions", "why_tests_cant": "needs every position of the failing action; the code violates it", "anchors": ["src/ansibug/_socket_helper.py:SocketCancellationToken.cancel"]}
{"id": "C19", "title": "Address strings: the documented forms mean what is documented, the rest is ValueError", "statement": "Each documented form (tcp:// alone, tcp with optional host and a port, uds:// alone, uds with a name or with a path) yields the documented socket address; a tcp address without port or with a port above 65535, a uds address with both name and path and any scheme other than tcp/uds raise ValueError; no other exception is ever raised, for any string.", "quantifier": "every host, port and path string", "why_tests_cant": "infinite set of strings", "anchors": ["src/ansibug/_socket_helper.py:parse_addr_string"]}
{"id": "C20", "title": "A reported address can be connected to", "statement": "The address string a queue reports for its socket parses back to the socket's own address, so that a debug adapter given that string reaches that socket.", "quantifier": "every socket address (IPv4, IPv6, unix path)", "why_tests_cant": "all hosts, ports and paths; the code violates it for unix paths with '?' or '#'", "anchors": ["src/ansibug/_mp_queue.py:MPQueue.address", "src/ansibug/_socket_helper.py:parse_addr_string"]}
{"id": "C21", "title": "Breakpoints snap to the entry that governs the line", "statement": "A breakpoint requested at a line of a loaded file is reported with line = the greatest known entry line at or before the requested line (clamped to the last known line) and end_line = the last line before the next known entry (or the last known line), verified iff that entry is a task; computing it always terminates without error.", "quantifier": "every set of known entry lines and every non-negative requested line", "why_tests_cant": "all files, all lines", "anchors": ["src/ansibug/_debuggee.py:AnsibleDebugger._calculate_breakpoint"]}
{"id": "C22", "title": "Breakpoints are always up to date with what Ansible loaded", "statement": "After any history of setBreakpoints requests, file/line registrations, configuration changes and disconnects, every breakpoint the debuggee keeps for a loaded file has exactly the verified/line/end_line values that the currently known lines of that file determine, and every breakpoint for a file not loaded is unverified.", "quantifier": "every history", "why_tests_cant": "an invariant over unbounded histories", "anchors": ["src/ansibug/_debuggee.py:AnsibleDebugger.register_path_breakpoint", "src/ansibug/_debuggee.py:AnsibleDebugger.process_message(SetBreakpointsRequest)"]}
{"id": "C23", "title": "The client's view of breakpoints equals the debuggee's", "statement": "A client that applies each setBreakpoints response (replacing its list for that source) and each breakpoint 'changed' event holds, after every history, exactly the breakpoints (id, verified, line, end_line) the debuggee uses; and events are sent only when something changed.", "quantifier": "every history of requests and registrations between connect and disconnect", "why_tests_cant": "history refinement", "anchors": ["src/ansibug/_debuggee.py:AnsibleDebugger.register_path_breakpoint", "src/ansibug/_debuggee.py:AnsibleDebugger.process_message(SetBreakpointsRequest)"]}
{"id": "C24", "title": "setBreakpoints answers one breakpoint per request entry, in order, with fresh ids", "statement": "The response has exactly one breakpoint per requested breakpoint, in request order, with ids never used before in the session; modified sources get unverified breakpoints that are not kept.", "quantifier": "every request and every earlier history", "why_tests_cant": "freshness is over the whole history", "anchors": ["src/ansibug/_debuggee.py:AnsibleDebugger.process_message(SetBreakpointsRequest)"]}
{"id": "C25", "title": "setBreakpoints replaces the breakpoints of its source only", "statement": "After a setBreakpoints request the kept breakpoints of that source are exactly the requested ones and those of every other source are unchanged.", "quantifier": "every state, every request", "why_tests_cant": "frame condition over all states", "anchors": ["src/ansibug/_debuggee.py:AnsibleDebugger.process_message(SetBreakpointsRequest)"]}
{"id": "C26", "title": "A task stops at a breakpoint iff a breakpoint snapped to it", "statement": "For a task whose line is a known entry of its file, the debuggee finds a breakpoint for it iff some kept breakpoint of that file was requested at a line governed by that very entry; it is the one with the smallest id.", "quantifier": "every history, every file, every task line", "why_tests_cant": "needs the invariant over all histories plus all lines", "anchors": ["src/ansibug/_debuggee.py:AnsibleDebugger.get_breakpoint"]}
{"id": "C27", "title": "Known lines do not depend on the discovery order", "statement": "Registering the entries of a file in any order leads to the same breakpoint locations (for entries with distinct lines), and registering an entry again changes nothing and sends no event.", "quantifier": "every permutation of every set of registrations", "why_tests_cant": "n! orders", "anchors": ["src/ansibug/_debuggee.py:AnsibleDebugger.register_path_breakpoint"]}
{"id": "C28", "title": "Every task of a playbook is registered", "statement": "Scanning plays registers the line of each play and of every task in block/rescue/always at any nesting depth as a possible stop, and every explicit block line as not a stop, except where the same line is registered later by another entry; nothing else is registered.", "quantifier": "every play/block tree of any depth", "why_tests_cant": "unbounded nesting", "anchors": ["src/ansibug/ansible_collections/ansibug/dap/plugins/plugin_utils/_breakpoints.py:register_block_breakpoints", "src/ansibug/ansible_collections/ansibug/dap/plugins/plugin_utils/_breakpoints.py:register_play_breakpoints"]}
{"id": "C29", "title": "Breakpoints set while Ansible is loading a file are not lost", "statement": "If a setBreakpoints request is handled on the receive thread while the strategy thread registers lines of the same file, then when both are done the kept breakpoint agrees with the known lines.", "quantifier": "every interleaving of the two threads", "why_tests_cant": "schedules; the code violates it", "anchors": ["src/ansibug/_debuggee.py:AnsibleDebugger.register_path_breakpoint", "src/ansibug/_debuggee.py:AnsibleDebugger.process_message(SetBreakpointsRequest)"]}
{"id": "C30", "title": "Exception filters are exactly the last ones sent", "statement": "After any history, the debuggee stops on failures/unreachable/skipped iff that filter was in the most recent setExceptionBreakpoints request.", "quantifier": "every history", "why_tests_cant": "history property", "anchors": ["src/ansibug/_debuggee.py:AnsibleDebugger.process_message(SetExceptionBreakpointsRequest)", "src/ansibug/_debuggee.py:AnsibleDebugger.should_stop_on_error"]}
{"id": "C31", "title": "Path mappings are inverse to each other", "statement": "With path mappings configured, the source path reported to the client in stack frames for a file is the path the client used when it set breakpoints on that file.", "quantifier": "every list of mappings, every path", "why_tests_cant": "all mapping lists and paths; holds for one mapping and for prefix-free roots, fails otherwise", "anchors": ["src/ansibug/_debuggee.py:AnsibleDebugger.convert_to_client_path", "src/ansibug/_debuggee.py:AnsibleDebugger.process_message(SetBreakpointsRequest)"]}
{"id": "C32", "title": "Step over stops at the next task of the same include level", "statement": "After step over (or step in on a task that is not an include) a host stops at the next task whose enclosing include is the one of the task it was stopped at; tasks inside a deeper include are passed unless a breakpoint is on them.", "quantifier": "every task tree, every sequence of started tasks", "why_tests_cant": "unbounded trees and sequences", "anchors": ["src/ansibug/ansible_collections/ansibug/dap/plugins/strategy/debug.py:AnsibleThread.should_break", "src/ansibug/ansible_collections/ansibug/dap/plugins/strategy/debug.py:AnsibleThread._break_step_over", "src/ansibug/ansible_collections/ansibug/dap/plugins/strategy/debug.py:AnsibleThread.set_state"]}
{"id": "C33", "title": "Step in stops at the very next task", "statement": "After step in on an include task the host stops at the next task it starts, whatever that is.", "quantifier": "every sequence of tasks", "why_tests_cant": "universal", "anchors": ["src/ansibug/ansible_collections/ansibug/dap/plugins/strategy/debug.py:AnsibleThread.should_break", "src/ansibug/ansible_collections/ansibug/dap/plugins/strategy/debug.py:AnsibleThread.set_state"]}
{"id": "C34", "title": "Step out stops at the first task outside the include", "statement": "After step out a host stops exactly at the first task started whose nearest enclosing include is not the include it was stopped in; breakpoints inside are ignored.", "quantifier": "every task tree and sequence of tasks", "why_tests_cant": "unbounded; the code deviates for static imports inside the include and when there is no enclosing include", "anchors": ["src/ansibug/ansible_collections/ansibug/dap/plugins/strategy/debug.py:AnsibleThread.set_state", "src/ansibug/ansible_collections/ansibug/dap/plugins/strategy/debug.py:AnsibleThread._break_step_out"]}
{"id": "C35", "title": "A breakpoint always stops a running host", "statement": "A host that was told to continue (or has never been stopped) stops at a task iff a breakpoint applies to it, and the stopped event names that breakpoint and that host's thread.", "quantifier": "every history of stops and resumes for that host", "why_tests_cant": "history; violated after a step out with no enclosing include", "anchors": ["src/ansibug/ansible_collections/ansibug/dap/plugins/strategy/debug.py:AnsibleThread.should_break"]}
{"id": "C36", "title": "Exception stops happen exactly when configured", "statement": "A finished task causes an exception stop iff it failed, is not ignore_errors and has no enclosing rescue and the failure filter is on; or it is unreachable, not ignored and that filter is on; or it was skipped and that filter is on.", "quantifier": "every result, ancestry and filter combination", "why_tests_cant": "ancestry is unbounded", "anchors": ["src/ansibug/ansible_collections/ansibug/dap/plugins/strategy/debug.py:AnsibleThread.should_stop_on_exception"]}
{"id": "C37", "title": "A stopped playbook waits for its own thread to be resumed", "statement": "From the stopped event until a continue/step/disconnect that includes the stopped thread, no further task starts or ends, whatever other requests arrive; after such a request the playbook proceeds.", "quantifier": "every interleaving of client requests with the playbook thread", "why_tests_cant": "schedules; lost-wakeup freedom", "anchors": ["src/ansibug/ansible_collections/ansibug/dap/plugins/strategy/debug.py:AnsibleDebugState.start_task", "src/ansibug/ansible_collections/ansibug/dap/plugins/strategy/debug.py:AnsibleDebugState._resume_threads"]}
{"id": "C38", "title": "Terminate ends the run", "statement": "After a terminate request no task that a known host finishes is followed by another task: the run ends at the latest when the next task result of a host known at that time is processed.", "quantifier": "every state and continuation", "why_tests_cant": "every state the request can arrive in; violated when an exception filter is active, because the end mark is overwritten", "anchors": ["src/ansibug/ansible_collections/ansibug/dap/plugins/strategy/debug.py:AnsibleDebugState.disconnect", "src/ansibug/ansible_collections/ansibug/dap/plugins/strategy/debug.py:AnsibleDebugState.end_task"]}
{"id": "C39", "title": "After the client disconnects the playbook never stops again", "statement": "Once a disconnect (without terminate) was handled the playbook runs to its end without ever waiting for a client.", "quantifier": "every continuation after a disconnect in every state", "why_tests_cant": "all continuations; violated: the exception filters survive the disconnect", "anchors": ["src/ansibug/_debuggee.py:AnsibleDebugger._disconnect", "src/ansibug/_debuggee.py:AnsibleDebugger.shutdown", "src/ansibug/ansible_collections/ansibug/dap/plugins/strategy/debug.py:AnsibleDebugState.end_task"]}
{"id": "C40", "title": "Stack traces never refer to missing frames", "statement": "After every history the frames of every thread exist, belong to no other thread, and a stackTrace request for an existing thread succeeds and lists them newest first.", "quantifier": "every history of task starts, ends, requests and thread exits", "why_tests_cant": "invariant over histories", "anchors": ["src/ansibug/ansible_collections/ansibug/dap/plugins/strategy/debug.py:AnsibleDebugState.start_task", "src/ansibug/ansible_collections/ansibug/dap/plugins/strategy/debug.py:AnsibleDebugState.end_task", "src/ansibug/ansible_collections/ansibug/dap/plugins/strategy/debug.py:AnsibleDebugState.get_stacktrace"]}
{"id": "C41", "title": "The stack trace is the chain of includes around the current task", "statement": "When a host is stopped at a task, its stack trace is that task followed by the include tasks that enclose it, innermost first.", "quantifier": "every task tree and execution order", "why_tests_cant": "unbounded nesting; violated when two include levels end at once", "anchors": ["src/ansibug/ansible_collections/ansibug/dap/plugins/strategy/debug.py:AnsibleDebugState.start_task", "src/ansibug/ansible_collections/ansibug/dap/plugins/strategy/debug.py:AnsibleDebugState.end_task"]}
{"id": "C42", "title": "Variable references never dangle and are never reused", "statement": "A variablesReference or frameId handed to the client denotes the same container/frame for as long as it resolves, stops resolving when its frame ends, and no id is ever handed out twice in the session (except that the Module Result scope of a frame keeps its one reference).", "quantifier": "every history", "why_tests_cant": "history property over unbounded sessions", "anchors": ["src/ansibug/ansible_collections/ansibug/dap/plugins/strategy/debug.py:AnsibleDebugState._add_variable", "src/ansibug/ansible_collections/ansibug/dap/plugins/strategy/debug.py:AnsibleDebugState.end_task", "src/ansibug/_debuggee.py:AnsibleDebugger.next_variable_id"]}
{"id": "C43", "title": "Scopes of a frame", "statement": "A scopes request on an existing frame returns the scopes Module Options, Task Variables, Host Variables, Global Variables (preceded by Module Result after an exception stop), each with a new reference that resolves; on a missing frame it fails and changes nothing.", "quantifier": "every state", "why_tests_cant": "universal over states", "anchors": ["src/ansibug/ansible_collections/ansibug/dap/plugins/strategy/debug.py:AnsibleDebugState.get_scopes"]}
{"id": "C44", "title": "A variable that was set reads back", "statement": "After a successful setVariable on a container, listing that container shows the new value under that name and every other entry unchanged, and every other view of the same container shows the same.", "quantifier": "every container, name and value, every aliasing of views", "why_tests_cant": "aliasing and values unbounded; violated for mappings with non-string keys", "anchors": ["src/ansibug/ansible_collections/ansibug/dap/plugins/strategy/debug.py:AnsibleDebugState.set_variable", "src/ansibug/ansible_collections/ansibug/dap/plugins/strategy/debug.py:AnsibleDebugState.get_variables", "src/ansibug/ansible_collections/ansibug/dap/plugins/strategy/debug.py:AnsibleDictVariable", "src/ansibug/ansible_collections/ansibug/dap/plugins/strategy/debug.py:AnsibleListVariable"]}
{"id": "C45", "title": "Thread events are paired", "statement": "Each thread id is announced started at most once, exits at most once and only after it started, thread 1 never exits, and at the end of each play every started thread has exited.", "quantifier": "every history of plays", "why_tests_cant": "history", "anchors": ["src/ansibug/ansible_collections/ansibug/dap/plugins/strategy/debug.py:AnsibleDebugState._add_thread", "src/ansibug/ansible_collections/ansibug/dap/plugins/strategy/debug.py:AnsibleDebugState.exit_threads"]}
{"id": "C46", "title": "Console commands keep the expression verbatim", "statement": "For '! template E', '! set_option NAME E' and '! set_hostvar NAME E' (and the aliases) the expression evaluated is exactly the text E the user typed, and NAME is the option/variable name.", "quantifier": "every expression text and name", "why_tests_cant": "arbitrary text", "anchors": ["src/ansibug/ansible_collections/ansibug/dap/plugins/plugin_utils/_repl_util.py:parse_repl_args"]}
{"id": "C47", "title": "Exactly one terminated event", "statement": "For every interleaving of the debuggee connection closing and the server stopping, the client receives exactly one terminated event.", "quantifier": "every interleaving and every order of stop causes", "why_tests_cant": "schedules", "anchors": ["src/ansibug/_debug_adapter.py:DAServer.stop"]}
{"id": "C48", "title": "A crash of the adapter answers every outstanding request", "statement": "If the adapter stops because of an exception every request that was not answered yet gets exactly one response (an error, or the disconnect response), and none that was answered gets another.", "quantifier": "every history and every failure point", "why_tests_cant": "every crash point", "anchors": ["src/ansibug/_debug_adapter.py:DAServer.stop", "src/ansibug/_debug_adapter.py:DAServer.send_to_client"]}
{"id": "C49", "title": "A disconnect request is always answered, before the terminated event", "statement": "Whenever a disconnect request was received, its response is sent exactly once and before the terminated event (unless that was already sent).", "quantifier": "every history and interleaving", "why_tests_cant": "histories", "anchors": ["src/ansibug/_debug_adapter.py:DAServer.stop", "src/ansibug/_debug_adapter.py:DAServer._send_disconnect"]}
{"id": "C50", "title": "Relayed responses carry the client's request seq", "statement": "A response produced by the debuggee for a request reaches the client with request_seq equal to the seq the client gave that request, with the adapter's own consecutive seq, in the order the debuggee sent them.", "quantifier": "every history of relayed requests", "why_tests_cant": "end to end over two processes and unbounded histories", "anchors": ["src/ansibug/_debug_adapter.py:DAServer.start", "src/ansibug/_debug_adapter.py:DAServer.send_to_client", "src/ansibug/_debuggee.py:AnsibleDebugger.process_message"]}
{"id": "C51", "title": "Concurrent sends do not corrupt the client stream", "statement": "If the main thread and the debuggee receive thread send messages to the client at the same time, the client still receives each frame exactly once with distinct consecutive seq.", "quantifier": "every interleaving of two senders", "why_tests_cant": "schedules; violated: no lock around queue_msg/data_to_send", "anchors": ["src/ansibug/_debug_adapter.py:DAServer.send_to_client"]}
{"id": "C52", "title": "The adapter exits when the client goes away", "statement": "If the client closes the adapter's standard input without a disconnect request the adapter process ends.", "quantifier": "every history before the end of input", "why_tests_cant": "non-termination cannot be observed by a test; violated", "anchors": ["src/ansibug/_debug_adapter.py:DAServer.start"]}
{"id": "C53", "title": "Debug logging does not change behaviour", "statement": "The messages processed from standard input do not depend on the log level.", "quantifier": "every byte stream and chunking", "why_tests_cant": "needs all chunk boundaries; violated when a chunk ends inside a multi-byte character", "anchors": ["src/ansibug/_debug_adapter.py:DAServer.start"]}
{"id": "C54", "title": "Launch handshake", "statement": "A launch request leads to exactly one runInTerminal request; when the client answers it and the playbook connects, exactly one launch response for the original request is sent followed by the debug configuration; if the launched process ends first the session terminates.", "quantifier": "every history around the handshake", "why_tests_cant": "histories", "anchors": ["src/ansibug/_debug_adapter.py:DAServer._process_msg(LaunchRequest)", "src/ansibug/_debug_adapter.py:DAServer._process_msg(RunInTerminalResponse)"]}
{"id": "C55", "title": "Requests are routed to the debuggee exactly when it is there", "statement": "Every request received while a debuggee is set is forwarded to it unchanged and not handled by the adapter; before that it is handled by the adapter.", "quantifier": "every history", "why_tests_cant": "histories; between launch and connection the forward fails and ends the session", "anchors": ["src/ansibug/_debug_adapter.py:DAServer.start"]}
{"id": "C56", "title": "Attach target selection", "statement": "An attach request connects to the address and TLS setting recorded for processId if one is given, otherwise to the given address with the given useTls, and fails if neither is given or the process is unknown.", "quantifier": "every argument dictionary and file system content", "why_tests_cant": "arbitrary argument data", "anchors": ["src/ansibug/_debug_adapter.py:AttachArguments.get_connection_tuple", "src/ansibug/_debug_adapter.py:AttachArguments.from_json", "src/ansibug/_debuggee.py:PlaybookProcessInfo"]}
{"id": "C57", "title": "The playbook starts only after configuration is done", "statement": "Unless told not to wait, no task runs before configurationDone was received and answered or the connection ended.", "quantifier": "every interleaving of playbook thread and receive thread", "why_tests_cant": "schedules", "anchors": ["src/ansibug/ansible_collections/ansibug/dap/plugins/callback/debug.py:CallbackModule.v2_playbook_on_start", "src/ansibug/_debuggee.py:AnsibleDebugger.wait_for_config_done", "src/ansibug/_debuggee.py:AnsibleDebugger.shutdown"]}
{"id": "C58", "title": "Shutdown completes", "statement": "When the playbook has finished, the shutdown of the debugger returns.", "quantifier": "every schedule of playbook, send and receive threads and every request the client sends", "why_tests_cant": "schedules; violated when a request that needs the strategy arrives after the last play ended", "anchors": ["src/ansibug/_debuggee.py:AnsibleDebugger.shutdown", "src/ansibug/_debuggee.py:AnsibleDebugger._get_strategy", "src/ansibug/_mp_queue.py:MPQueue.stop"]}
{"id": "C59", "title": "Debuggee messages are sent in the order they were queued, and none after the end mark", "statement": "The messages put on the wire are exactly the queued messages before the first end mark, in queue order.", "quantifier": "every history of queueing threads", "why_tests_cant": "histories", "anchors": ["src/ansibug/_debuggee.py:AnsibleDebugger._send_task", "src/ansibug/_debuggee.py:AnsibleDebugger.queue_msg"]}
{"id": "C60", "title": "The process info file exists exactly while a listening debuggee is up", "statement": "In listen mode the info file for the process exists from start until shutdown, contains the address and TLS flag the attach request will use, and is removed by shutdown.", "quantifier": "every history", "why_tests_cant": "histories and JSON round-trip over all addresses", "anchors": ["src/ansibug/_debuggee.py:AnsibleDebugger.start", "src/ansibug/_debuggee.py:AnsibleDebugger.shutdown", "src/ansibug/_debuggee.py:PlaybookProcessInfo"]}
{"id": "C61", "title": "The user's environment and configuration are kept", "statement": "The debugged playbook runs with the user's environment except for the variables ansibug sets; the user's enabled callbacks, collection paths and python path follow ansibug's own, in their original order.", "quantifier": "every environment and configuration", "why_tests_cant": "arbitrary environments", "anchors": ["src/ansibug/_exec_playbook.py:_exec_playbook", "src/ansibug/_exec_playbook.py:_configure_ansible_env"]}
{"id": "C62", "title": "The launch script runs exactly the intended command", "statement": "The shell command line in the launch script is split by the shell into exactly the python executable and the ansibug arguments, whatever characters the paths contain, and the socket name embedded in it cannot break out of its quotes.", "quantifier": "every executable path, socket path and log file name", "why_tests_cant": "arbitrary strings, injection safety", "anchors": ["src/ansibug/_debug_adapter.py:DAServer._process_msg(LaunchRequest)"]}
{"id": "C63", "title": "TLS verification is off only on request", "statement": "The attach TLS context does not verify the server only if tlsVerification is 'ignore'; a custom CA path that does not exist is an error; the listening side demands a client certificate iff a client CA was given; TLS is used by the debuggee iff requested in listen mode.", "quantifier": "every setting", "why_tests_cant": "arbitrary strings and file systems", "anchors": ["src/ansibug/_tls.py:create_client_tls_context", "src/ansibug/_tls.py:create_server_tls_context", "src/ansibug/ansible_collections/ansibug/dap/plugins/callback/debug.py:CallbackModule.v2_playbook_on_start"]}
{"id": "C64", "title": "Variable types shown are the friendly ones", "statement": "The type shown for a variable is bool for booleans although they are integers, str for any string, tuple for tuples although they are sequences, dict/list for any mapping/sequence, and the class name otherwise.", "quantifier": "every class hierarchy position", "why_tests_cant": "arbitrary subclasses", "anchors": ["src/ansibug/ansible_collections/ansibug/dap/plugins/plugin_utils/_variables.py:get_canonicalized_variable_type"]}
{"id": "C65", "title": "Disconnect with terminateDebuggee ends the run", "statement": "After a disconnect request with terminateDebuggee=true a playbook that is stopped ends instead of running on, whenever the connection closes.", "quantifier": "all reachable states with a stopped host, all later schedules of the end of the connection and of the playbook thread", "why_tests_cant": "Depends on the order in which the playbook thread wakes up and the connection's shutdown handler runs.", "anchors": ["src/ansibug/_debuggee.py: AnsibleDebugger._disconnect, AnsibleDebugger.shutdown, DAProtocol.connection_closed", "src/ansibug/ansible_collections/ansibug/dap/plugins/strategy/debug.py: AnsibleDebugState.disconnect, AnsibleDebugState.start_task"]}
{"id": "C66", "title": "Console changes take effect", "statement": "After a successful set_option command the option has the new value both in the Module Options shown and in the arguments the task will be run with; after a successful set_hostvar command the variable has the new value in the Task Variables and Host Variables shown and was given to Ansible's variable manager for that host; nothing else changes.", "quantifier": "all heaps, frames, option/variable names and templated values", "why_tests_cant": "ranges over all contents and aliasing of the variable containers", "anchors": ["src/ansibug/ansible_collections/ansibug/dap/plugins/strategy/debug.py: evaluate, AnsibleDictWithRawStoreVariable, AnsibleHostVarsVariable"]}
{"id": "C67", "title": "The debuggee answers every request once", "statement": "The debuggee answers the requests it receives in their order, each exactly once, with the command and the sequence number of the request; a handler's exception and an unknown request give an error response; disconnect is answered by the adapter only.", "quantifier": "every interleaving of the debuggee's threads, every sequence of requests, every outcome of the handlers", "why_tests_cant": "schedules and histories", "anchors": ["src/ansibug/_debuggee.py:AnsibleDebugger.process_message", "src/ansibug/_debuggee.py:DAProtocol.on_msg_received"]}
{"id": "C68", "title": "The playbook does not wait for a configuration that cannot come", "statement": "A playbook that waits for configurationDone goes on once it was received, the connection has ended or cannot be made.", "quantifier": "every fair execution of the debuggee's threads, every failure of the connection", "why_tests_cant": "liveness over all schedules; violated when the connection cannot be made", "anchors": ["src/ansibug/_debuggee.py:AnsibleDebugger._send_task", "src/ansibug/_debuggee.py:AnsibleDebugger.wait_for_config_done", "src/ansibug/_debuggee.py:DAProtocol.connection_closed"]}
{"id": "C69", "title": "Launch arguments reach ansible-playbook unchanged", "statement": "The process started by a launch request ends up executing ansible-playbook with the playbook and the arguments of the request, in order and unchanged (arguments that look like ansibug's own options, '--' and empty ones included), told to connect to the adapter's socket and to wait for the configuration, provided the playbook's name does not start with a dash and no argument is an ambiguous abbreviation of ansibug's own options.", "quantifier": "every playbook name, argument list, log option, interpreter path and socket path", "why_tests_cant": "arbitrary strings through a shell, an argument parser and a second execve", "anchors": ["src/ansibug/_debug_adapter.py:DAServer._process_msg(LaunchRequest)", "src/ansibug/__main__.py:parse_args", "src/ansibug/_exec_playbook.py:_exec_playbook"]}
{"id": "C70", "title": "Command line options reach the debuggee", "statement": "The debugger in the playbook process starts with the mode, address, waiting, TLS and log settings given on the command line; options end at the playbook: nothing after it changes them.", "quantifier": "every combination of options, every inherited environment, every argument list", "why_tests_cant": "arbitrary environments and strings through two processes", "anchors": ["src/ansibug/__main__.py:parse_args", "src/ansibug/_exec_playbook.py:_exec_playbook", "src/ansibug/ansible_collections/ansibug/dap/plugins/callback/debug.py:CallbackModule.v2_playbook_on_start"]}
{"id": "C71", "title": "A launch request becomes one terminal request", "statement": "An accepted launch request asks the client to run the launch script with the playbook and the arguments of the request, in the requested directory, environment and terminal kind; a request without a playbook or with an unknown console is rejected.", "quantifier": "every launch request body", "why_tests_cant": "arbitrary JSON bodies", "anchors": ["src/ansibug/_debug_adapter.py:LaunchArguments", "src/ansibug/_debug_adapter.py:DAServer._process_msg(LaunchRequest)"]}
{"id": "C72", "title": "Conditional breakpoints", "statement": "A freely running host stops at a task iff some kept breakpoint whose lines contain the task's has no condition or one that holds there; the event names such a breakpoint. If the conditions of all of them are false or fail, it does not stop.", "quantifier": "every history, every set of breakpoints and every outcome of their conditions", "why_tests_cant": "the claim is about every combination of breakpoints on a line, every outcome of the conditions and every history of the host", "anchors": ["src/ansibug/ansible_collections/ansibug/dap/plugins/strategy/debug.py:AnsibleDebugState.start_task", "src/ansibug/_debuggee.py:AnsibleDebugger.get_breakpoint"]}
{"id": "C73", "title": "Child counts and paging of variables", "statement": "The named and indexed counts sent with a reference are the numbers of children a variables request for it returns (indexed children being named 0..n-1), and a variables request with start and count returns that part of them only.", "quantifier": "every history, every reference in every answer, every paging request", "why_tests_cant": "counts are sent at one time and the children fetched at another, after arbitrary other requests", "anchors": ["src/ansibug/ansible_collections/ansibug/dap/plugins/strategy/debug.py:AnsibleDebugState.get_variables", "src/ansibug/ansible_collections/ansibug/dap/plugins/strategy/debug.py:AnsibleListVariable", "src/ansibug/ansible_collections/ansibug/dap/plugins/strategy/debug.py:AnsibleDictVariable"]}
{"id": "C74", "title": "Inspecting does not influence the run", "statement": "Requests for the stack, threads, scopes, variables, evaluations and variable changes can be sent at any time and never change where the playbook stops, waits, resumes or ends, nor the thread, stop and breakpoint events and their order.", "quantifier": "every history with such requests anywhere in it", "why_tests_cant": "needs comparison of two unbounded executions", "anchors": ["src/ansibug/ansible_collections/ansibug/dap/plugins/strategy/debug.py:AnsibleDebugState.get_scopes", "src/ansibug/ansible_collections/ansibug/dap/plugins/strategy/debug.py:AnsibleDebugState.get_variables", "src/ansibug/ansible_collections/ansibug/dap/plugins/strategy/debug.py:AnsibleDebugState.set_variable", "src/ansibug/ansible_collections/ansibug/dap/plugins/strategy/debug.py:AnsibleDebugState.evaluate"]}
{"id": "C75", "title": "Connecting to the other side", "statement": "Connecting tries the addresses a name resolves to in order, once each, uses the first that accepts and closes the sockets of those that failed; if all fail the last error is raised and no socket stays open; cancelling ends it at once; it returns only when the other side took the connection.", "quantifier": "every list of resolved addresses and every outcome of every system call", "why_tests_cant": "the number of addresses is unbounded and every attempt can fail in several places", "anchors": ["src/ansibug/_mp_queue.py:MPQueue.start", "src/ansibug/_mp_queue.py:ClientMPQueue.start", "src/ansibug/_mp_queue.py:SocketCancellationToken.connect"]}
{"id": "C76", "title": "Encryption is not bypassed", "statement": "With TLS configured no byte of the protocol is sent or received on a connection before the handshake succeeded on it, on either side; a failed handshake on the client is an error and never falls back to clear text; the name checked is the host that was asked for.", "quantifier": "every sequence of connection attempts, clients and outcomes", "why_tests_cant": "an adversary decides the outcomes; no list of them is complete", "anchors": ["src/ansibug/_mp_queue.py:ClientMPQueue.start", "src/ansibug/_mp_queue.py:ServerMPQueue.start"]}
{"id": "C77", "title": "Listening survives clients that fail the handshake", "statement": "With TLS, a client whose handshake fails does not end the listening: its connection is closed and the next client is served, however many there are; listening returns with the first client that succeeds, and waiting is bounded by the timeout.", "quantifier": "every number and kind of failing clients before a good one", "why_tests_cant": "the number of clients is unbounded", "anchors": ["src/ansibug/_mp_queue.py:ServerMPQueue.start", "src/ansibug/_mp_queue.py:SocketCancellationToken.accept"]}
{"id": "C78", "title": "The unix socket is private and cleaned up", "statement": "The socket file of a server is never accessible to group or others, at no time and under no umask; the process umask is left as it was; failure leaves no file; stopping removes the file and nothing else.", "quantifier": "every umask, path, platform behaviour and failure point", "why_tests_cant": "the window between creation and chmod is not observable by tests; umasks and failure points are many", "anchors": ["src/ansibug/_mp_queue.py:create_uds_with_mode", "src/ansibug/_mp_queue.py:ServerMPQueue.stop"]}
{"id": "C79", "title": "Tasks, results and stops in order", "statement": "Every task is announced to the debugger exactly once directly before it is handed to Ansible for execution; while a host is stopped no task begins or is executed and no result is passed on until the client resumes that host; results are passed on in the order and number Ansible delivers them.", "quantifier": "every sequence of calls from Ansible, interleaved with every sequence of requests", "why_tests_cant": "schedules of hooks and requests are unbounded", "anchors": ["src/ansibug/ansible_collections/ansibug/dap/plugins/strategy/debug.py:StrategyModule._queue_task", "src/ansibug/ansible_collections/ansibug/dap/plugins/strategy/debug.py:StrategyModule._execute_meta", "src/ansibug/ansible_collections/ansibug/dap/plugins/strategy/debug.py:StrategyModule._process_pending_results", "src/ansibug/ansible_collections/ansibug/dap/plugins/strategy/debug.py:AnsibleDebugState.start_task"]}
{"id": "C80", "title": "How a play ends", "statement": "A play is left once; afterwards nothing starts, stops or exits; whatever the reason only the main thread remains; its result is Ansible's own, or the break-play code if the client asked for the end during the play.", "quantifier": "every history of a play, including exceptions at any point", "why_tests_cant": "every point of a play can be the last", "anchors": ["src/ansibug/ansible_collections/ansibug/dap/plugins/strategy/debug.py:StrategyModule.run", "src/ansibug/ansible_collections/ansibug/dap/plugins/strategy/debug.py:AnsibleDebugState.exit_threads"]}
{"id": "C81", "title": "The debugger does not fail the playbook", "statement": "However the client uses it, the debugger raises nothing into Ansible but the requested end: an exception that leaves the play is one of Ansible's own.", "quantifier": "every history of a play under Ansible's linear strategy and every request", "why_tests_cant": "needs every combination of includes, stops, requests and results", "anchors": ["src/ansibug/ansible_collections/ansibug/dap/plugins/strategy/debug.py:AnsibleDebugState.start_task", "src/ansibug/ansible_collections/ansibug/dap/plugins/strategy/debug.py:AnsibleDebugState.end_task", "src/ansibug/ansible_collections/ansibug/dap/plugins/strategy/debug.py:StrategyModule.run"]}
{"id": "C82", "title": "Edits made while stopped reach the task", "statement": "Whenever a set_option or remove_option command, or an edit under a Module Options scope handed out at any earlier time for a frame, is answered without an error, the arguments the task of that frame is run with have the change and keep everything else; an edit under Host Variables is given to the variable manager for the host of that frame.", "quantifier": "every reachable state of a session, every earlier scopes answer and everything that happened since", "why_tests_cant": "the reference may have been handed out arbitrarily long ago, with any requests, tasks and edits since", "anchors": ["src/ansibug/ansible_collections/ansibug/dap/plugins/strategy/debug.py:AnsibleDictWithRawStoreVariable", "src/ansibug/ansible_collections/ansibug/dap/plugins/strategy/debug.py:AnsibleHostVarsVariable", "src/ansibug/ansible_collections/ansibug/dap/plugins/strategy/debug.py:AnsibleDebugState.evaluate", "src/ansibug/ansible_collections/ansibug/dap/plugins/strategy/debug.py:AnsibleDebugState.get_scopes"]}
{"id": "C83", "title": "Sent messages conform to the protocol's schema", "statement": "Every response and event, and the runInTerminal request, whose attributes have the annotated types is written as JSON text that, parsed by a client, conforms to the published DAP schema: every required member is there and every member has the type the schema gives it, at any depth.", "quantifier": "every message class and every well-typed value of its attributes, with lists, dictionaries and texts of any size", "why_tests_cant": "messages carry arbitrary variables, stack frames and breakpoints; the schema must hold for all of them", "anchors": ["src/ansibug/dap/_messages.py:DAPObjectMeta", "src/ansibug/dap/_types.py", "src/ansibug/dap/_responses.py", "src/ansibug/dap/_events.py"]}
{"id": "C84", "title": "Conforming requests are understood", "statement": "Every request that conforms to the published DAP schema, with any additional members, is accepted, becomes an object of the class of its command, and says what the document says: every argument given is found in the attribute of its name, at any depth, and an argument not given has the value the protocol prescribes for it.", "quantifier": "every request document that conforms to the schema, of any size and nesting", "why_tests_cant": "clients differ in which optional members they send and in what order; the space of conforming documents is infinite", "anchors": ["src/ansibug/dap/_messages.py:DAPObjectMeta", "src/ansibug/dap/_messages.py:ProtocolMessage.unpack", "src/ansibug/dap/_requests.py", "src/ansibug/dap/_types.py"]}
{"id": "C85", "title": "Every request gets its own answer on the wire", "statement": "A request that conforms to the protocol, read by the debuggee in any state of the session, gets exactly one response; its document conforms to the schema of a response, its request_seq is the seq of the request's document and its command the one there; success is false exactly for an error response. The request is carried out for the thread, frame or variable the document names. Disconnect gets no answer from the debuggee.", "quantifier": "every conforming request document, every state of the session and every behaviour of templating", "why_tests_cant": "the answer is assembled from the state of the session; a missed branch is an unanswered request, which hangs the client", "anchors": ["src/ansibug/_debuggee.py:AnsibleDebugger", "src/ansibug/ansible_collections/ansibug/dap/plugins/strategy/debug.py:AnsibleDebugState", "src/ansibug/dap/_requests.py", "src/ansibug/dap/_responses.py"]}
{"id": "C86", "title": "Stops are reported as what they are", "statement": "Whenever a host stops the client is sent a stopped event for the thread of that host which says why: step with the kind of step, breakpoint with the number of the breakpoint that was hit, exception with its description and text. Threads are announced when they start and end. No stopped event is sent without a stop.", "quantifier": "every state of a session, every task, result and breakpoint", "why_tests_cant": "which events are sent depends on the whole history of stepping", "anchors": ["src/ansibug/ansible_collections/ansibug/dap/plugins/strategy/debug.py:AnsibleDebugState.start_task", "src/ansibug/ansible_collections/ansibug/dap/plugins/strategy/debug.py:AnsibleDebugState.end_task", "src/ansibug/dap/_events.py"]}
{"id": "C87", "title": "Evaluation is in the frame asked for and changes nothing else", "statement": "An expression is templated with the task variables of the frame the request names; the answer has the repr of the value and its type, or the error. Only the set and remove commands change the session, and hovering, or a request without a frame, evaluates nothing.", "quantifier": "every state of a session, every request and every behaviour of templating", "why_tests_cant": "expressions are arbitrary, and templating may fail in any way", "anchors": ["src/ansibug/ansible_collections/ansibug/dap/plugins/strategy/debug.py:AnsibleDebugState.evaluate"]}
{"id": "C88", "title": "Threads and stack as shown to the client", "statement": "A threads request is answered with exactly the threads of the session, named after their hosts, thread 1 being main; a stackTrace request with exactly the frames of the thread, the innermost first, each with the number, name, file and line of its task.", "quantifier": "every reachable state of a session", "why_tests_cant": "stacks are of any depth, and are changed by the playbook between requests", "anchors": ["src/ansibug/ansible_collections/ansibug/dap/plugins/strategy/debug.py:AnsibleDebugState.get_threads", "src/ansibug/ansible_collections/ansibug/dap/plugins/strategy/debug.py:AnsibleDebugState.get_stacktrace"]}
{"id": "C89", "title": "Variables as shown to the client", "statement": "A scopes request for a frame is answered with its scopes (Module Result only once there is one, Module Options, Task, Host and Global Variables), a variables request with the entries of the container in their order: name, repr and type of the value, and for a container a new nonzero reference to it together with the number of its named or indexed entries. A setVariable request that succeeds is answered with the repr and type of the new value. Asking never changes a value, nor what an earlier reference shows; a frame or reference that does not exist is an error and changes nothing.", "quantifier": "every reachable state of a session, every container in it, every request and every behaviour of templating", "why_tests_cant": "containers nest arbitrarily and are shared; references are handed out over a whole history of requests", "anchors": ["src/ansibug/ansible_collections/ansibug/dap/plugins/strategy/debug.py:AnsibleDebugState.get_scopes", "src/ansibug/ansible_collections/ansibug/dap/plugins/strategy/debug.py:AnsibleDebugState.get_variables", "src/ansibug/ansible_collections/ansibug/dap/plugins/strategy/debug.py:AnsibleDebugState.set_variable"]}
{"id": "C90", "title": "Breakpoint, disconnect and terminate requests on the wire", "statement": "A setBreakpoints document is carried out for the file and the lines it names, in their order, and its answer shows one breakpoint for each, with the number, verification, line and message of the breakpoint kept; setExceptionBreakpoints turns on exactly the filters of its document; disconnect ends the playbook exactly if terminateDebuggee is true; terminate ends it. When loading a task moves breakpoints, each of them is sent to the client in a breakpoint event with reason changed.", "quantifier": "every conforming document, every state of the session", "why_tests_cant": "the documents are of any size, have optional members that may be absent or null, and are handled in any state", "anchors": ["src/ansibug/_debuggee.py:AnsibleDebugger.process_message", "src/ansibug/ansible_collections/ansibug/dap/plugins/strategy/debug.py:AnsibleDebugState", "src/ansibug/dap/_requests.py", "src/ansibug/dap/_types.py:Breakpoint"]}
{"id": "C91", "title": "A debugging session from end to end", "statement": "Once the debuggee is connected, however the bytes on standard input, on the socket and on standard output are cut into pieces and however the threads of adapter and debuggee and the playbook take turns: the debuggee does exactly what it would do if the path mappings and the client's requests were given to it directly, in the order in which the client wrote them; what the client reads are the first of the debuggee's messages, unchanged except for their numbers, in order and numbered without a gap; and nothing gets stuck: every request can be delivered, and unless the client ended the session every message can come to be read.", "quantifier": "every sequence of requests, every schedule, every cut of the three byte streams into pieces, every playbook, every state the debuggee starts in", "why_tests_cant": "The interleavings of five threads and the cuts of the byte streams are unbounded; a test sees one of them.", "anchors": ["src/ansibug/_debug_adapter.py:DAServer.start", "src/ansibug/_debug_adapter.py:DAServer.send_to_client", "src/ansibug/_debug_adapter.py:DAServer.on_msg_received", "src/ansibug/dap/_adapter.py:DebugAdapterConnection", "src/ansibug/_mp_queue.py:MPQueue.send", "src/ansibug/_mp_queue.py:MPQueue._recv_handler", "src/ansibug/_debuggee.py:AnsibleDebugger._send_handler", "src/ansibug/_debuggee.py:AnsibleDebugger.process_message"]}
{"id": "C92", "title": "Responses answer requests one by one", "statement": "In every such session the i-th response the client reads answers its i-th request (disconnect requests aside, which the adapter answers at the end): it carries the request's number and command and is of the response class of that command or an error response. When all requests have been handled there are as many responses as requests.", "quantifier": "every sequence of requests, every schedule, every cut of the byte streams, every playbook", "why_tests_cant": "The pairing must survive every interleaving of the playbook's events with the handling of the requests.", "anchors": ["src/ansibug/_debug_adapter.py:DAServer.start", "src/ansibug/_debug_adapter.py:DAServer.send_to_client", "src/ansibug/_debuggee.py:AnsibleDebugger.process_message", "src/ansibug/_debuggee.py:AnsibleDebugger._send_handler"]}
{"id": "C93", "title": "Requests never make the playbook fail", "statement": "Whatever requests the client sends and at whatever moment they are handled relative to the playbook thread, the playbook is never ended by an exception (KeyError, IndexError, RuntimeError) inside the debug strategy: it is left only because the play is over, the inventory is refreshed or an end was requested.", "quantifier": "every sequence of requests, every sequence of tasks and results, every interleaving of the playbook thread and the request thread at the accesses to what they share", "why_tests_cant": "The failing schedules are windows of a few bytecodes; a test hits them by luck.", "anchors": ["src/ansibug/ansible_collections/ansibug/dap/plugins/strategy/debug.py:AnsibleDebugState.start_task", "src/ansibug/ansible_collections/ansibug/dap/plugins/strategy/debug.py:AnsibleDebugState.end_task", "src/ansibug/_debuggee.py:AnsibleDebugger.get_breakpoint", "src/ansibug/_debuggee.py:AnsibleDebugger.register_path_breakpoint", "src/ansibug/_debuggee.py:AnsibleDebugger._process_msg (SetBreakpointsRequest)"]}
{"id": "C94", "title": "No lost wake-up and no deadlock", "statement": "A request that resumes a stopped host wakes the playbook: when it has been answered, the playbook is not stopped, unless it announced another stop. A stopped playbook never blocks a request, and if neither thread can go on there is no request left to be handled and the playbook is stopped, in Ansible, or has left the play.", "quantifier": "every reachable state, every request, every interleaving", "why_tests_cant": "A lost wake-up needs a thread switch between checking the state and going to sleep.", "anchors": ["src/ansibug/ansible_collections/ansibug/dap/plugins/strategy/debug.py:AnsibleDebugState.start_task", "src/ansibug/ansible_collections/ansibug/dap/plugins/strategy/debug.py:AnsibleDebugState.end_task", "src/ansibug/ansible_collections/ansibug/dap/plugins/strategy/debug.py:AnsibleDebugState._set_thread_state"]}
{"id": "C95", "title": "Requests while stopped are answered from the state shown", "statement": "A request that is handled while the playbook is stopped for a host gets exactly one answer, and it is the one the debug state at that moment prescribes (threads, frames, new references, success or error), whatever else happens meanwhile.", "quantifier": "every reachable state in which the playbook is stopped, every request, every continuation", "why_tests_cant": "The state space of threads, frames and variables is unbounded.", "anchors": ["src/ansibug/ansible_collections/ansibug/dap/plugins/strategy/debug.py:AnsibleDebugState.get_threads", "src/ansibug/ansible_collections/ansibug/dap/plugins/strategy/debug.py:AnsibleDebugState.get_stacktrace", "src/ansibug/ansible_collections/ansibug/dap/plugins/strategy/debug.py:AnsibleDebugState.get_scopes", "src/ansibug/ansible_collections/ansibug/dap/plugins/strategy/debug.py:AnsibleDebugState.get_variables", "src/ansibug/ansible_collections/ansibug/dap/plugins/strategy/debug.py:AnsibleDebugState.continue_request", "src/ansibug/ansible_collections/ansibug/dap/plugins/strategy/debug.py:AnsibleDebugState._set_thread_state"]}
{"id": "C96", "title": "Disconnect and terminate at any moment", "statement": "A disconnect or terminate request succeeds at any moment; once it has been answered, with no exception filter set and no further request, no host is ever announced as stopped; and a stopped playbook that is terminated ends.", "quantifier": "every reachable state (the playbook at any point of starting or ending a task), every interleaving", "why_tests_cant": "The request must be harmless at each of the points the playbook can be at.", "anchors": ["src/ansibug/ansible_collections/ansibug/dap/plugins/strategy/debug.py:AnsibleDebugState.disconnect", "src/ansibug/ansible_collections/ansibug/dap/plugins/strategy/debug.py:AnsibleDebugState._set_thread_state", "src/ansibug/_debuggee.py:AnsibleDebugger._process_msg (DisconnectRequest, TerminateRequest)"]}
{"id": "C97", "title": "Requests while the playbook runs", "statement": "Requests for threads, frames, scopes and variables and continue requests that are handled while the playbook runs are answered without an internal error; the references they hand out are new and belong to a frame that exists.", "quantifier": "every sequence of requests, every interleaving with the playbook", "why_tests_cant": "The outcome depends on the schedule.", "anchors": ["src/ansibug/ansible_collections/ansibug/dap/plugins/strategy/debug.py:AnsibleDebugState.get_threads", "src/ansibug/ansible_collections/ansibug/dap/plugins/strategy/debug.py:AnsibleDebugState.get_stacktrace", "src/ansibug/ansible_collections/ansibug/dap/plugins/strategy/debug.py:AnsibleDebugState.get_scopes", "src/ansibug/ansible_collections/ansibug/dap/plugins/strategy/debug.py:AnsibleDebugState.get_variables", "src/ansibug/ansible_collections/ansibug/dap/plugins/strategy/debug.py:AnsibleDebugState._add_variable", "src/ansibug/ansible_collections/ansibug/dap/plugins/strategy/debug.py:AnsibleDebugState.continue_request"]}
{"id": "C98", "title": "Breakpoints in roles that are included at run time", "statement": "A breakpoint set in a role that is only known once include_role runs is verified, with an event to the client, when the first task of the role begins, and before it is decided whether that task stops the host: a breakpoint on the very first task of the role is hit. The scan of the role covers every task and handler of it at any depth of blocks, it happens only for tasks of an included role, and repeating it for each further task changes nothing and sends nothing.", "quantifier": "every history before, every set of breakpoints, every tree of blocks of the role's tasks and handlers, every host state", "why_tests_cant": "The trees and histories are unbounded; the repeated scan is only visible as spurious events.", "anchors": ["src/ansibug/ansible_collections/ansibug/dap/plugins/strategy/debug.py:AnsibleDebugState.start_task", "src/ansibug/ansible_collections/ansibug/dap/plugins/plugin_utils/_breakpoints.py:register_block_breakpoints", "src/ansibug/_debuggee.py:AnsibleDebugger.register_path_breakpoint"]}
{"id": "C99", "title": "Announced capabilities are honoured", "statement": "The initialize response announces exactly the capabilities ansibug has. A request the protocol allows only with a capability is understood in every state if the capability is announced, and refused otherwise; an attribute that belongs to a capability that is not announced has no influence on the effect or the answer of any request. The exception filters offered are exactly the ones that decide about exception stops, each for its own kind of result; evaluation for the clipboard works.", "quantifier": "every initialize request, every capability name, every request of the protocol, every state and history of the debuggee, every filter list", "why_tests_cant": "The announcement and its fulfilment are in two processes; the claim ranges over every request and every later history.", "anchors": ["src/ansibug/_debug_adapter.py:DAServer._process_msg (InitializeRequest)", "src/ansibug/_debuggee.py:ExceptionBreakpointType", "src/ansibug/_debuggee.py:AnsibleDebugger.process_message", "src/ansibug/dap/_types.py:Capabilities", "src/ansibug/ansible_collections/ansibug/dap/plugins/strategy/debug.py:AnsibleDebugState.evaluate"]}
{"id": "C100", "title": "What the client says about itself is respected", "statement": "Line numbers in answers follow the way of counting (from 0 or from 1) that the client announced in its initialize request.", "quantifier": "every initialize request, every reachable state, every thread and frame", "why_tests_cant": "The claim relates the first message of a session to every later answer.", "anchors": ["src/ansibug/_debug_adapter.py:DAServer._process_msg (InitializeRequest)", "src/ansibug/ansible_collections/ansibug/dap/plugins/strategy/debug.py:AnsibleStackFrame.to_dap"]}
{"id": "C101", "title": "One debugger per process", "statement": "However often and wherever a debugger is asked for in a process, it is the same one: the constructor of a singleton class succeeds at most once and every call returns that object; a constructor that raised is tried again by the next call; the instances of different classes are kept apart.", "quantifier": "every sequence of calls of every class, every interleaving of threads, constructors that raise", "why_tests_cant": "The claim ranges over every history of calls and, for several threads, over every schedule.", "anchors": ["src/ansibug/_singleton.py:Singleton.__call__", "src/ansibug/ansible_collections/ansibug/dap/plugins/callback/debug.py:CallbackModule.__init__", "src/ansibug/ansible_collections/ansibug/dap/plugins/strategy/debug.py:StrategyModule.run"]}
{"id": "C102", "title": "Conditions belong to their breakpoints", "statement": "The condition that is evaluated for a breakpoint is the one the client gave for that very entry of its setBreakpoints request, whatever happens afterwards (files loaded and lines registered, breakpoints of other files set, reconnects, path mappings): a host stops at a task only for a breakpoint whose entry carried no condition, an empty one, or one that evaluates to true there; a condition that cannot be evaluated does not stop the host; a host comes to a stop at a task if the entries of all the kept breakpoints on it pass. A null condition in the document is no condition.", "quantifier": "every history of requests, registrations and reconnects; every conforming setBreakpoints document; every outcome of the evaluation", "why_tests_cant": "The claim ranges over every history between setting a breakpoint and reaching it and over every outcome of the conditions.", "anchors": ["src/ansibug/_debuggee.py:AnsibleDebugger._process_message", "src/ansibug/_debuggee.py:AnsibleDebugger.get_breakpoint", "src/ansibug/ansible_collections/ansibug/dap/plugins/strategy/debug.py:AnsibleDebugState.process_task"]}
{"id": "C103", "title": "Breakpoints do not make the playbook fail", "statement": "Whatever breakpoints the client requests, and whenever it does, loading a playbook file, an included file or a role afterwards does not end the run of the playbook with an exception: the kept breakpoints of the file are recomputed and the client is told of those that changed. No request by itself ends the playbook.", "quantifier": "every history of requests and loaded files, every requested line", "why_tests_cant": "The lines are arbitrary numbers sent before the file is known, and the failure shows only when the file is loaded later.", "anchors": ["src/ansibug/_debuggee.py:AnsibleDebugger.register_path_breakpoint", "src/ansibug/_debuggee.py:AnsibleDebugger._calculate_breakpoint", "src/ansibug/ansible_collections/ansibug/dap/plugins/strategy/debug.py:StrategyModule._load_included_file"]}
{"id": "C104", "title": "An edit that fails changes nothing", "statement": "A setVariable request, or a set_option, remove_option or set_hostvar console command, that is answered with an error has changed no variable, no argument of the task and no variable of a host. A setVariable request fails exactly if the reference is unknown, the text does not evaluate, the item of a list is not named by an index of it, or the container cannot be assigned to.", "quantifier": "every state of the debuggee, every reference, name, value and outcome of templating", "why_tests_cant": "The containers are arbitrary, shared and nested, and one edit may write to two of them and to the variable manager.", "anchors": ["src/ansibug/ansible_collections/ansibug/dap/plugins/strategy/debug.py:AnsibleDebugState.set_variable", "src/ansibug/ansible_collections/ansibug/dap/plugins/strategy/debug.py:AnsibleDebugState.evaluate", "src/ansibug/ansible_collections/ansibug/dap/plugins/strategy/debug.py:AnsibleDictWithRawStoreVariable.set", "src/ansibug/ansible_collections/ansibug/dap/plugins/strategy/debug.py:AnsibleHostVarsVariable.set"]}
{"id": "C105", "title": "A debuggee listens where it was told to", "statement": "A playbook told to listen on a TCP address takes connections on the given port at the addresses the given host stands for (all addresses of the machine if no host is given) and at no others, and the address it reports leads a client to it.", "quantifier": "every host text, port, resolver, set of sockets on the machine, with and without dual stack", "why_tests_cant": "The outcome depends on the address families of the machine and of the names; the tests bind only the unspecified address.", "anchors": ["src/ansibug/_mp_queue.py:ServerMPQueue.__init__", "src/ansibug/_mp_queue.py:MPQueue.address", "src/ansibug/__main__.py:main"]}
{"id": "C106", "title": "A listening address belongs to one playbook", "statement": "While a playbook listens on a TCP address, the connections to it go to this playbook and to nothing else; a second playbook told to listen there fails.", "quantifier": "every history of sockets bound and closed on the machine by anyone", "why_tests_cant": "Which of two sockets a connection reaches is decided by the kernel, and differs from run to run.", "anchors": ["src/ansibug/_mp_queue.py:ServerMPQueue.__init__"]}
{"id": "C107", "title": "Attaching by process id reaches that playbook", "statement": "An attach request with a process id reaches the playbook with this process id if it waits for a client, and fails if there is none; it never reaches anything else.", "quantifier": "every history of playbooks starting, ending and being killed on a machine, of process ids and ports used again, of sockets of other programs and of files in the temporary directory", "why_tests_cant": "Needs crashes, reuse of ids and ports and other users; the tests start one playbook at a time.", "anchors": ["src/ansibug/_debuggee.py:AnsibleDebugger.start", "src/ansibug/_debuggee.py:AnsibleDebugger.shutdown", "src/ansibug/_debuggee.py:get_pid_info_path", "src/ansibug/_debug_adapter.py:AttachArguments.get_connection_tuple"]}
{"id": "C108", "title": "Every playbook of a run can be debugged", "statement": "When several playbooks are run by one ansible-playbook process with the debugger enabled, each of them waits for its client, can be attached to and debugged like the first.", "quantifier": "every pair of runs of two playbooks one after the other in one process: all interleavings of the threads, messages of the client, failures and settings of both", "why_tests_cant": "The tests run one playbook per process; the claim is about the state every possible first run leaves behind.", "anchors": ["src/ansibug/_singleton.py:Singleton", "src/ansibug/_debuggee.py:AnsibleDebugger.start", "src/ansibug/_debuggee.py:AnsibleDebugger.shutdown", "src/ansibug/ansible_collections/ansibug/dap/plugins/callback/debug.py:CallbackModule"]}
{"id": "C109", "title": "An interrupted playbook ends", "statement": "When the playbook is interrupted or ends because of an error of Ansible, the process ends, too, whatever the state of the debug session.", "quantifier": "every run of the three threads up to any point at which the playbook thread goes away, and every continuation by the other threads and the client", "why_tests_cant": "Needs the interruption at every point of every interleaving; the tests let playbooks end normally.", "anchors": ["src/ansibug/_debuggee.py:AnsibleDebugger._send_task", "src/ansibug/_debuggee.py:AnsibleDebugger.shutdown", "src/ansibug/_mp_queue.py:MPQueue.start", "src/ansibug/ansible_collections/ansibug/dap/plugins/callback/debug.py:CallbackModule.v2_playbook_on_stats"]}
{"id": "C110", "title": "Stepping goes on across plays", "statement": "A host that was told to step at the last task of a play stops at its first task of the next play.", "quantifier": "every history of tasks, results, plays, inventory refreshes and requests, every task stepped from and every task of the next play", "why_tests_cant": "Ranges over all histories before and between the two plays; the tests step within one play.", "anchors": ["src/ansibug/ansible_collections/ansibug/dap/plugins/strategy/debug.py:StrategyModule.run", "src/ansibug/ansible_collections/ansibug/dap/plugins/strategy/debug.py:AnsibleDebugState.exit_threads", "src/ansibug/ansible_collections/ansibug/dap/plugins/strategy/debug.py:AnsibleDebugState._add_thread"]}
{"id": "C111", "title": "The client's view of breakpoints while Ansible is loading a file", "statement": "When a setBreakpoints request is handled while Ansible loads files, a client that handles the answer and the breakpoint events in the order they were sent ends up with exactly the breakpoints (id, verified, line, end_line) the debuggee keeps.", "quantifier": "every history before, every request, any number of registrations, every interleaving of the two threads", "why_tests_cant": "depends on the thread schedule", "anchors": ["src/ansibug/_debuggee.py:AnsibleDebugger.register_path_breakpoint", "src/ansibug/_debuggee.py:AnsibleDebugger.process_message(SetBreakpointsRequest)", "src/ansibug/_debuggee.py:AnsibleDebugger.queue_msg"]}
