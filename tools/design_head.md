# Formal model of ansibug in Lean 4 — design

Source: `/repo` (jborean93/ansibug, Python). Nothing of it is executed; the model was written by
reading it. Every definition of the model cites the file and lines it models, and says where it
simplifies. `tools/coverage.py -v` lists the source lines no definition cites.

This file is generated by `tools/design.py` from `tools/design_head.md`, `tools/approach.json`,
`tools/axioms.tsv` and `MANIFEST.json`.

## Layout

| directory of `lean/Verif` | what it models | properties |
|---|---|---|
| `Py` | Python primitives: strings as code points, byte strings, insertion-ordered dicts, slices, `find`, `split`, `int()` | all |
| `Json` | `json.dumps` (ensure_ascii) and `json.loads` on code points | C01, C08 |
| `Dap` | class tables of `dap/_messages, _requests, _responses, _events, _types`, `default_pack`, `default_unpack`, dispatch; the protocol's published schema | C09–C13, C83, C84 |
| `Conn` | `DebugAdapterConnection` (`dap/_adapter.py`) | C01–C07 |
| `Transport` | `MPQueue` framing, `SocketHelper.recv`, `SocketCancellationToken` | C14–C18 |
| `Addr` | `urlsplit` and the address functions | C19, C20 |
| `Bp` | breakpoints of the debuggee and of the client, playbook scan, path mappings, races | C21–C31 |
| `Strat` | debug strategy: threads, stepping, stack, variables, console requests, the hooks called by Ansible's linear strategy | C32–C45, C65, C66, C72–C74, C79–C82 |
| `Repl` | console commands: `shlex`, `argparse` part, expression recovery | C46 |
| `Server` | `DAServer`, both threads; client socket writes; attach | C47–C56 |
| `Debuggee` | `AnsibleDebugger`: three threads, start and shutdown | C57–C60, C67, C68 |
| `Launch` | command line, environment, launch script and a POSIX shell to run it, TLS settings | C61–C64, C69–C71 |
| `Sock` | connecting, listening, TLS wrapping, unix sockets over a nondeterministic kernel | C75–C78, C105, C106 |
| `Wire` | `AnsibleDebugger.process_message` and the DAP objects the debug state builds: from request objects to answers and events | C85–C90, C99, C100 |
| `Bp.Cond` | the breakpoint functions with the conditions of the entries; erasing them gives `Bp` | C102 |
| `Single` | `Singleton.__call__`, thread switches between any two dictionary operations | C101 |
| `E2e` | client, adapter and debuggee in one transition system with the bytes between them (composition of `Conn`, `Transport`, `Wire`) | C91, C92 |
| `Race` | the debug state with the playbook thread and the request thread interleaved at every access to what they share | C93–C97 |
| `Props` | the property theorems `Cnn_…`, their vocabulary, non-vacuity examples | all |

In each directory `Model` (or the files named after the code) holds the model, `Spec` the vocabulary of
the statements that is not part of the code, the other files lemmas. A theorem named `Cnn_…_refuted` proves that
the English property does *not* hold of the code, with a concrete reachable witness; `Cnn_…_partial` proves
the part that holds. The rest hold as stated.

## Trusted base

* **Kernel.** Lean 4.33.0's kernel. No `sorry`-like placeholder, no compiled evaluation, no own axioms.
* **Axioms.** Every claim theorem depends on at most `propext`, `Classical.choice`, `Quot.sound`; the list per theorem
  is at the end.
* **The reading.** That the Lean definitions say what the cited Python lines do. No tool checks this. It is helped by:
  line citations, example runs of the models checked by the kernel, and the seeded edits in `seeded/LOG.jsonl`.
* **Differential test of library models** (not a proof): `tools/difftest` runs the Lean models of shlex, argparse (repl and command line), `json.loads`/`dumps`, `int()`, UTF-8,
  base64, `shlex.quote` and `urlsplit` against CPython 3.11 on generated inputs; about 268 000 cases over four seeds differed only where stated: lower-casing of
  non-ASCII letters is a parameter, non-ASCII digits are not digits, and the check of bracketed hosts is that of later patch releases.
* **The DAP schema.** `Dap/Schema.lean` transcribes the published debugAdapterProtocol.json (members, required, types) for C83 and C84, from memory: there is no copy
  of it in /repo or in this sandbox.
* **Python library behaviour that is modelled** (from the CPython sources, versions 3.9 to 3.13 where they differ):
  `json`, UTF-8, `bytes.find/split`, `int()`, dict order, slices, `urllib.parse.urlsplit`, `shlex.split`, the parts of `argparse` in use,
  `shlex.quote`, `os.path.join/abspath` on POSIX, `socketserver`-free socket use, `contextlib.ExitStack`, `threading.Condition/Event`,
  `queue.Queue`; a POSIX shell (quoting, simple commands, `exec`) for the launch script.
* **Behaviour that is a parameter with stated laws or fully arbitrary**: `pickle` (round trip, no proper prefix loads),
  outcomes of system calls, Ansible's templating and conditions, IPv6 and NFKC tables, TLS handshakes, the order in which the kernel
  delivers bytes, the scheduler.
* **Request attributes.** In `Wire` a request attribute of a wrong Python type is an error answer; a breakpoint source is echoed with name and path only.
* **Atomicity.** The adapter, the debuggee's life cycle, the client's writes, breakpoint registration and the cancellation token are
  modelled as interleavings of steps with at most one shared access each (or one locked section). The strategy's request
  handlers (`Strat`, `Wire`, `E2e`) are atomic with respect to the playbook thread there; `Race` models the same code (without the values) with thread
  switches at every access to shared state, and says when atomic handling is justified (C95: while the playbook is stopped) and when not (C93, C96, C97).
  The two are not only written from the same lines: `C95_agrees_with_one_step` (`Race/Sim*`) proves that each history of `Strat` within one play is an execution of
  `Race` with the same inputs, events, thread, frame and reference ids, in which nothing overlaps.

## What is not modelled

* Floating point values (a JSON float is its literal text), Python recursion limits, memory exhaustion, signals except where stated
  (KeyboardInterrupt in the adapter's main loop), wall-clock time (timeouts may expire at any moment they are armed).
* Output of logging (`_logging.py`): only its effect on control flow (C53) is modelled.
* `__init__`, `_version.py`, imports and type annotations.
* TLS records, certificates and OpenSSL: contexts are their settings (C63), handshakes succeed or fail (C76, C77).
* Ansible: the linear strategy, the variable manager and the templating engine are environments whose calls and results are
  arbitrary, restricted only where a theorem says so (`Orderly` and `RolesOnly` for C81, nested includes for C41).
* Windows.

## Findings: where the code does not have the property

Each has a theorem `…_refuted` (or is the proviso of a `…_partial` theorem).

* C03: a negative Content-Length that reaches back before its header makes parsing depend on how the stream was cut.
* C07: after one undecodable message every later, correctly numbered message is rejected for ever.
* C09, C10: `stepIn` with a `targetId`: the target id is taken for the thread id.
* C11: a member named `__types` in a client message raises.
* C18: if a cancel action raises, the operations behind it are never cancelled.
* C20: unix paths containing `?`, `#`, tab, CR, LF, or relative paths, are reported as addresses that mean something else.
* C29: a breakpoint set while Ansible registers lines of the same file can be left with an outdated location.
* C31: path mappings with overlapping roots are not inverse.
* C32, C34: after an exception stop the step level is the one of the last start stop; step out of a nested include stops inside it; with no enclosing include the host never stops again.
* C38: terminate is undone by an exception stop (hangs), a following disconnect, or a refresh of the inventory.
* C39: exception filters survive a disconnect; the playbook then waits for a client that is gone.
* C41: blocks inside included files and leaving two include levels at once give a wrong stack.
* C44: setting an entry whose key is not a string adds a second entry.
* C46: expressions with unbalanced quotes or words like `-h` are not evaluated verbatim; the command word is looked up as the first occurrence in the text, so `! -t t a` evaluates `t a`.
* C48, C49: a request may get two responses when both threads of the adapter stop at once or a relayed response is noted late; a disconnect response may follow the terminated event.
* C51: `send_to_client` is not synchronised: duplicate sequence numbers, duplicated, lost or reordered frames.
* C52: at the end of the client's input the adapter reads again for ever (busy loop).
* C53: with debug logging on, a chunk boundary inside a UTF-8 character stops the adapter.
* C55: a request between launch and the debuggee's connection stops the adapter. Also seen while modelling: a race on `_launch_queue`; a second disconnect in the same buffer raises CancelledError; disconnect after a failed launch raises NotImplementedError (still answered).
* C58: a request for the strategy after the last play deadlocks shutdown; a TLS handshake is not cancellable.
* C60: if shutdown raises, the process file stays.
* C61: a configuration dump with a repeated entry raises KeyError; empty PYTHONPATH entries are dropped.
* C63: a custom CA is added to the system's CAs instead of replacing them; inherited `ANSIBUG_TLS_*` variables apply when an option is absent.
* C64: bytes are shown as `list`.
* C65: if the connection ends before the playbook thread has woken up, the termination is lost.
* C68: the playbook waits for ever if the connection cannot be made; if `start()` fails Ansible swallows the exception and runs the tasks without waiting; if `v2_playbook_on_stats` is never called the send thread keeps the process alive.
* C69: a playbook argument that begins with `-` is rejected; ambiguous abbreviations are rejected on Python up to 3.11.
* C72: only the first of several breakpoints on a task counts, so its false condition hides the others.
* C73: `start` and `count` of a variables request are ignored.
* C75: a failing `socket.socket()` (no IPv6) ends connecting without trying the other addresses; a cancelled attempt leaves its socket open; a connection closed by the server counts as confirmed.
* C77: a connection reset during the handshake ends listening; the timeout restarts with each failed client.
* C78: a umask that denies the owner makes the socket file unusable; a failing unlink leaves stop before the socket is closed.
* C81: an include_role inside an included file or an explicit block, followed by another task, raises AttributeError in the strategy (the next task's `_role` is None); a task in no block on a host inside an include raises AttributeError; a refresh of the inventory with outstanding results raises StopIteration.
* C82: `set_option`/`remove_option` before the client has asked for the scopes of the frame answer with a KeyError.
* C83: optional members without a value are sent as null, which the DAP schema does not allow (clients tolerate it); `progressId` of cancel is a number instead of a text; `hex` of a stack frame format is not read.
* C84: `continue` without `singleThread` is taken as `singleThread: true` (the protocol says false: the other threads should continue); exception options without `path` raise a TypeError.
* C93: setBreakpoints handled while the playbook goes through the breakpoints raises RuntimeError in the playbook thread and ends it.
* C96: disconnect or terminate handled while the playbook removes its threads fails with KeyError.
* C97: stackTrace, threads and continue requests handled while the playbook runs may fail with KeyError or RuntimeError; scopes may add references to a frame that was just removed, which then stay for ever.
* C100: a client that counts lines from 0 (linesStartAt1 false) is shown and understood with lines counted from 1; nothing of the initialize request is looked at.
* C101: two threads that ask for the first instance at the same time get two debuggers (the plugins ask from one thread only).
* C98: a role with an explicit block and a task on one line makes every task of the role send two spurious breakpoint events.
* C81, C103: a breakpoint requested far below line 0 of a file that is not loaded yet is accepted and kills the playbook (IndexError) when the file is loaded.
* C104: `set_hostvar` in a frame whose scopes request failed half-way is answered with an error although the variable of the task has been changed.
* C105: with dual stack (every usual Linux host) listening on an IPv4 address fails, including `tcp://127.0.0.1:0` of the help text: an IPv6 socket is made for every TCP address.
* C106: with a port given by the user `SO_REUSEPORT` is set, and two playbooks of one user share the address without an error; a client reaches either.
* C107: the process file of a killed playbook stays, and an attach request with its id reaches whatever has got the port since; the file is looked for in the shared temporary directory and its owner is not checked, so another user can direct attach requests elsewhere and keep a playbook from being debugged.
* C108: `ansible-playbook a.yml b.yml`: the debugger object is shared and its cancel token is never renewed, so the second playbook announces an address, does not wait for the client and can never be debugged.
* C109: a playbook that is interrupted (Ctrl-C) or fails with an error of Ansible never calls shutdown; the send thread is not a daemon and waits for messages, so the process hangs and disconnect requests are not answered.
* C110: a step at the last task of a play (or before a `meta: refresh_inventory`) is forgotten: the playbook runs on to the next breakpoint.
* C111: if a file is scanned after a setBreakpoints request has stored a breakpoint and before its answer is sent, the `changed` event precedes the answer and the answer carries the old data: the client shows the breakpoint as unverified for good although the debuggee stops there.
