{
 "C01": "JSON writer and reader on code points; sender and receiver as arbitrary histories; induction over frames with prefix stability of next_message",
 "C02": "induction over histories of queueing and draining, slices with negative n",
 "C03": "prefix stability of the parser; any two cuttings of a stream give the same messages",
 "C04": "computation of the frame for every payload",
 "C05": "induction over histories",
 "C06": "case analysis of next_message on incomplete buffers, all states",
 "C07": "counterexample for all later messages by induction; recovery proved for wrong seq",
 "C08": "structural induction over JSON values, decoder inverse to encoder",
 "C09": "generic round trip from a condition on class tables; the condition is evaluated by the kernel on the complete finite table; values arbitrary",
 "C10": "symbolic evaluation of unpack; counterexample with targetId",
 "C11": "relation Ext between JSON values, induction over nesting",
 "C12": "dispatch over the whole table and arbitrary JSON",
 "C13": "symbolic evaluation of pack and unpack",
 "C14": "framing over a stream with adversarial short reads, abstract pickle codec, induction over messages",
 "C15": "the same with the stream cut at every offset, reset or cancel",
 "C16": "induction over the read loop",
 "C17": "token as a transition system, arbitrary interleavings of locked sections",
 "C18": "the same system with raising actions; counterexample",
 "C19": "model of urlsplit; characterisation of every documented form, all strings",
 "C20": "composition of formatting and parsing; exact condition on unix paths",
 "C21": "specification 'last entry at or before the line'; invariant of the line table, search loop by induction",
 "C22": "invariant of breakpoints and line tables over histories",
 "C23": "refinement: client mirror of responses and events, induction over histories",
 "C24": "induction over request entries, id counter invariant",
 "C25": "frame property of the request over all states",
 "C26": "characterisation of get_breakpoint in terms of snapping",
 "C27": "permutation invariance of registrations",
 "C28": "structural induction over nested blocks",
 "C29": "two threads of micro-steps, invariant of the healing scan; counterexample interleavings; induction over the interleaving with the registrations since the lookup as ghost",
 "C30": "induction over histories",
 "C31": "prefix reasoning on paths; counterexamples",
 "C32": "ghost control invariant (thread level, last stop) over all histories of playbook steps and requests",
 "C33": "the same control invariant",
 "C34": "the same; exact characterisation and counterexamples",
 "C35": "the same",
 "C36": "case analysis of result handling, all states",
 "C37": "no transition of the playbook is enabled until a request for the thread, induction over runs",
 "C38": "invariant 'terminating' over runs; counterexamples",
 "C39": "invariant 'no breakpoints, all threads running' over runs; counterexamples",
 "C40": "reachability invariant tying thread frame lists and frame table",
 "C41": "specification of include chains; invariant for nested histories; counterexamples",
 "C42": "reachability invariant of references, monotone counters",
 "C43": "symbolic evaluation of the scopes handler in all reachable states",
 "C44": "heap update lemmas; counterexample with a non-string key",
 "C45": "event history invariant",
 "C46": "grammar of shell words proved equivalent to the shlex model; recovery of the text by search; counterexamples",
 "C47": "two-thread transition system of the adapter, weight function for progress, invariant for the event count",
 "C48": "history invariant of outstanding requests; counterexample interleavings",
 "C49": "history invariant; counterexample interleaving",
 "C50": "relation between the observations of both sides (prefix), invariant",
 "C51": "send_to_client split into reads and writes of shared state; counterexamples; proofs under atomicity",
 "C52": "model of the main loop; infinite execution as counterexample",
 "C53": "two-run comparison with and without logging",
 "C54": "handshake phases as an invariant of the transition system",
 "C55": "history invariant; counterexample",
 "C56": "evaluation of the attach arguments for all JSON and directory contents",
 "C57": "history invariant of three threads",
 "C58": "well-founded weight under fairness; deadlock as the only obstacle; fair executions shown to exist",
 "C59": "history invariant of the queue",
 "C60": "history invariant of the process file",
 "C61": "folds over the environment; counterexamples",
 "C62": "script text run through the shell model; quoting proved inverse to lexing",
 "C63": "context settings as functions of options",
 "C64": "class hierarchy as arbitrary MRO with one builtin layout",
 "C65": "control invariant over runs",
 "C66": "heap update lemmas, frame conditions",
 "C67": "history invariant relating received requests and queued answers; liveness under fairness",
 "C68": "fairness argument; counterexample state with no transition",
 "C69": "composition script → shell → argparse → execve",
 "C70": "composition options → environment → callback options; grammar of given options for the meaning of the command line",
 "C71": "evaluation of the launch handler for all accepted arguments",
 "C72": "case analysis with arbitrary condition outcomes; counterexample",
 "C73": "invariant that counts describe the container; counterexample for paging",
 "C74": "two-run simulation (non-interference)",
 "C75": "trace semantics of connecting against a nondeterministic kernel, induction over candidate addresses",
 "C76": "the same trace semantics: no bytes before the handshake",
 "C77": "the same, induction over clients",
 "C78": "evaluation of bind and stop over umasks (bit vectors, all values) and outcomes",
 "C79": "refinement of the hooks by a small order automaton, all call sequences",
 "C80": "exception-safe hook model, all points of failure",
 "C81": "safety invariant under the specification Orderly; counterexamples",
 "C82": "reachability invariant IdsOk linking scopes and task arguments; induction over later requests",
 "C83": "decidable check of the generated class tables against the transcribed schema, proved sufficient by induction over well-typed values; counterexamples",
 "C84": "decidable check of the class tables, proved sufficient by induction over the depth of the document; specification relation Reads; counterexamples",
 "C85": "composition of C84 (reading), the debug state's request and C83 (writing); every class of requests",
 "C86": "C32–C37 composed with the event objects",
 "C87": "case analysis of the routing, for arbitrary templating",
 "C88": "invariant of the reachable states (Strat) composed with the response objects",
 "C89": "invariant of the reachable states (Strat), induction over the entries listed, composed with the response objects",
 "C90": "C84 (reading of documents) composed with the breakpoint state (C21–C25) and the response objects",
 "C91": "composition of the models Conn, Transport and Wire in one transition system; invariant relating each byte stream to the messages still in it; forward simulation to the debuggee given the messages directly; progress by induction over what is under way",
 "C92": "C91 and C85, induction over the operations of the debuggee",
 "C93": "transition system with the playbook and the request thread interleaved at every shared access; inductive invariants for lock and waiting, for frames and variables, for the breakpoint iterators; counterexample executions",
 "C94": "invariant of the lock and the waiting; stages of a resume, by induction over the execution",
 "C95": "a function predicts the answer from the state in the middle of handling; it is invariant while the playbook sleeps; a measure for termination; a simulation takes each history of `Strat` within one play to an execution of `Race` with the same inputs, events and ids (`Race/Sim*`)",
 "C96": "invariant over the stages of a disconnect and afterwards; counterexample execution",
 "C97": "invariant on the references collected so far; counterexample executions",
 "C98": "refinement: start_task with the scan equals registrations followed by start_task without; then the breakpoint theorems C22, C26, C27 over the extended history",
 "C99": "the response as a message object and document; the specification's table of gated requests against the message registry and the handlers; filters: the wire theorem C90, the history theorem C30 and the stop theorem C36 composed over every later run",
 "C100": "the response does not depend on the request; wire theorem C88 for counting from 1; counterexample run for counting from 0",
 "C101": "`Singleton.__call__` as a transition system of threads (test, construct, store, look up); invariants over all executions; counterexample for simultaneous first calls",
 "C102": "the breakpoint state with the conditions of the entries kept; simulation onto the model without them (`eraseRun`); invariant over all histories that each kept number carries the condition of the entry it answered",
 "C103": "the exceptions of the index operations are kept in the model and end the run; the search of a table that begins with an entry fails exactly if it begins below it; induction over the kept breakpoints, and over histories for the length of the tables",
 "C104": "the heap of containers with mutability, the exceptions of item assignment; case analysis over the four kinds of variables, and the fact that an assignment keeps every dict a dict",
 "C105": "a model of name resolution by family and of bound sockets; case analysis over families and wildcards, and C20 for the reported text",
 "C106": "invariant over all histories of binding and closing: no two sockets exclude each other; two sockets taking the same address overlap",
 "C107": "a machine of processes, sockets and files; invariant over all histories: the file of a running playbook holds its address, sockets do not exclude each other; composed with C20, C56, C105, C106",
 "C108": "the state a first playbook leaves (Debuggee/Again.lean), invariant over all runs from every such state",
 "C109": "invariant of the states with nobody to queue the end mark; a measure for the others",
 "C110": "invariant: no thread of the host after a new play until its first task; with C35 for new hosts",
 "C111": "C29's micro-steps with the client's mirror; a scan does to the kept breakpoints what its events do to the mirror; induction over the interleaving; counterexample closed under further loads"
}