import Verif.Py.Basic

/-!
# The debug adapter server

Models `DAServer` (/repo/src/ansibug/_debug_adapter.py:244-582) as a transition system of two
threads: the main thread (`start()`, the message handlers, `__exit__`) and the receive thread of
the debuggee's queue (`MPQueue._recv_handler`, _mp_queue.py:101-123, whose callbacks are the
methods of `DAProtocol`, _debug_adapter.py:224-241).

The work a thread still has to do is a list of actions; a step executes the first action of one
of the threads, so every interleaving of the actions is an execution. An action is a part of the
code that touches the shared state once. One call of `send_to_client` is two actions: queueing
and writing the message, and forgetting the request it answers; that the first of them is not
atomic in the code either is the subject of `Server/Race.lean`.

Messages are abstract: of a client's message the model keeps the kind the server distinguishes,
the sequence number and an opaque content; the sequence number is the one
`DebugAdapterConnection.next_message` checked, i.e. the number of messages before it plus one
(C06). Not modelled: failures of writing to standard output, the contents of the launch script (see
`Launch`), logging (see `C53`).
-/

namespace Verif.Server

/-- The kinds of requests `DAServer` distinguishes (singledispatch of `_process_msg`, _debug_adapter.py:387-582). -/
inductive ReqKind where
  | initialize | attach | launch | disconnect | other
deriving DecidableEq, Repr

/-- A message of the client: a request, a response to the runInTerminal request with the given
number, or anything else (for which `_process_msg` raises NotImplementedError, _debug_adapter.py:387-390). -/
inductive CMsg where
  | req (k : ReqKind) (body : Nat)
  | runInResp (requestSeq : Nat)
  | bad
deriving DecidableEq, Repr

/-- A message of the debuggee: a response to the request with the given number, or anything else. -/
inductive DMsg where
  | resp (requestSeq : Nat) (body : Nat)
  | event (body : Nat)
deriving DecidableEq, Repr

/-- A message sent to the debuggee: a client's request as it was received, or the configuration
(OutputEvent with the path mappings, _debug_adapter.py:455-461, _debug_adapter.py:576-582). -/
inductive ToDeb where
  | req (k : ReqKind) (seq : Nat) (body : Nat)
  | config
deriving DecidableEq, Repr

/-- A message written to the client. -/
inductive Body where
  | initResp (rseq : Nat)      -- InitializeResponse
  | attachResp (rseq : Nat)    -- AttachResponse
  | launchResp (rseq : Nat)    -- LaunchResponse
  | discResp (rseq : Nat)      -- DisconnectResponse
  | errResp (rseq : Nat)       -- ErrorResponse "Critical DAServer exception received"
  | runIn (launchSeq : Nat)    -- RunInTerminalRequest (for the launch request with that number)
  | terminated                 -- TerminatedEvent
  | relay (m : DMsg)           -- a message of the debuggee
deriving DecidableEq, Repr

/-- The request a message answers (`msg.request_seq` if it is a `Response`). -/
def Body.answers : Body → Option Nat
  | .initResp q | .attachResp q | .launchResp q | .discResp q | .errResp q => some q
  | .relay (.resp q _) => some q
  | _ => none

/-- What a thread has to do next. -/
inductive Act where
  | snapD                      -- _debug_adapter.py:323-325, the outstanding disconnect requests
  | snapE                      -- _debug_adapter.py:327-336, the outstanding requests
  | write (b : Body)           -- _debug_adapter.py:358-364, queue_msg + data_to_send + write
  | pop (q : Nat)              -- _debug_adapter.py:366-367, _incoming_requests.pop
  | stopDeb                    -- _debug_adapter.py:338, the test
  | cancel                     -- MPQueue.stop: cancel_token.cancel()
  | join                       -- MPQueue.stop: recv_thread.join()
  | clearDeb                   -- _debug_adapter.py:340
  | chkLaunch                  -- _debug_adapter.py:342, the test
  | callLaunch                 -- _debug_adapter.py:343
  | clearLaunch                -- _debug_adapter.py:344
  | chkTerm                    -- _debug_adapter.py:346, the test
  | setTerm                    -- _debug_adapter.py:350
  | send (m : ToDeb)           -- debuggee.send(msg)
  | sendQuiet (m : ToDeb)      -- _debug_adapter.py:376-380, errors of the socket are ignored
  | mkDeb                      -- _debug_adapter.py:447-451, _debug_adapter.py:467-470: self._debuggee = ...
  | connect                    -- _debug_adapter.py:453 self._debuggee.start(): the receive thread starts
  | mkLaunch                   -- _debug_adapter.py:492-531 the launch queue and script
  | writeRunIn (q : Nat)       -- _debug_adapter.py:538-546
  | register (r q : Nat)       -- _debug_adapter.py:549-554
  | accept (q : Nat)           -- _debug_adapter.py:560-564, _debug_adapter.py:575 start(cancel_queue) until it returns
  | closeLaunch                -- _debug_adapter.py:572-573
deriving DecidableEq, Repr

/-- `stop(exp, from_debuggee)` (_debug_adapter.py:305-350). -/
def stopProg (exp fromDebuggee : Bool) : List Act :=
  .snapD :: ((bif exp then [.snapE] else []) ++ ((bif fromDebuggee then [] else [.stopDeb]) ++ [.chkLaunch, .chkTerm]))

/-- `send_to_client(msg)` (_debug_adapter.py:352-369). -/
def sendProg (b : Body) : List Act :=
  .write b :: (match b.answers with | some q => [.pop q] | none => [])

/-- The state of the main thread: in `start()` (is_connected, what is left of the handling of the
current message), in `__exit__` (was there an exception, what is left of `stop`), after it, or
killed by an exception of `stop` itself. -/
inductive Main where
  | run (connected : Bool) (prog : List Act)
  | exiting (exp : Bool) (prog : List Act)
  | done (exp : Bool)
  | dead
deriving DecidableEq, Repr

/-- The receive thread: not started, waiting for/handling a message, in `connection_closed`,
ended. -/
inductive Recv where
  | none
  | loop (prog : List Act)
  | closing (prog : List Act)
  | ended
deriving DecidableEq, Repr

/-- The state of the server, plus the history of what was sent to and received from the debuggee. -/
structure S where
  nextIn : Nat                       -- DebugAdapterConnection.__seq_no_in
  outs : List Body                   -- what was written to the client; the i-th has seq i + 1
  incoming : List (Nat × ReqKind)    -- _incoming_requests
  runIn : List (Nat × Nat)           -- _run_in_response_data: runInTerminal seq ↦ launch seq
  debSet : Bool                      -- _debuggee is not None
  cancelled : Bool                   -- the cancel token of the debuggee's queue
  launchQ : Bool                     -- _launch_queue is not None
  flag : Bool                        -- _terminated_sent
  main : Main
  recv : Recv
  reqs : List (Nat × ReqKind × Nat)  -- history: the requests received
  toDeb : List ToDeb                 -- history: what the debuggee was sent
  fromDeb : List DMsg                -- history: what the debuggee sent
deriving DecidableEq, Repr

/-- `DAServer()` and the entry of `start()`. -/
def init : S := ⟨1, [], [], [], false, false, false, false, .run true [], .none, [], [], []⟩

/-- Is the receive thread alive? -/
def Recv.alive : Recv → Bool
  | .loop _ | .closing _ => true
  | _ => false

/-- Sending to the debuggee fails for certain: the token of its queue is cancelled, or nobody has
connected to it yet. -/
def S.cut (s : S) : Bool := s.cancelled || s.recv == .none

/-- The result of an action: the actions to do before the rest, and the new state; `raise` is an
exception, `blocked` means the thread has to wait. -/
inductive Res where
  | go (more : List Act) (s : S)
  | raise
  | blocked

/-- The normal outcome of an action. -/
def exec (s : S) : Act → Res
  | .snapD => .go ((s.incoming.filter (fun e => e.2 == .disconnect)).flatMap fun e => sendProg (.discResp e.1)) s
  | .snapE => .go (s.incoming.flatMap fun e => sendProg (.errResp e.1)) s
  | .write b => .go [] { s with outs := s.outs ++ [b] }
  | .pop q => .go [] { s with incoming := Dict.erase s.incoming q }
  | .stopDeb => .go (bif s.debSet then [.cancel, .join, .clearDeb] else []) s
  | .cancel => .go [] { s with cancelled := true }
  | .join => bif s.recv.alive then .blocked else .go [] s
  | .clearDeb => .go [] { s with debSet := false }
  | .chkLaunch => .go (bif s.launchQ then [.callLaunch] else []) s
  | .callLaunch => bif s.launchQ then .go [.clearLaunch] s else .raise
  | .clearLaunch => .go [] { s with launchQ := false }
  | .chkTerm => .go (bif s.flag then [] else [.write .terminated, .setTerm]) s
  | .setTerm => .go [] { s with flag := true }
  -- a cancelled token raises CancelledError, a socket without a peer OSError (ENOTCONN)
  | .send m => bif s.cut then .raise else .go [] { s with toDeb := s.toDeb ++ [m] }
  | .sendQuiet m =>
    bif s.cancelled then .raise
    else .go [] { s with toDeb := s.toDeb ++ (bif s.recv == .none then [] else [m]) }
  | .mkDeb => .go [] { s with debSet := true, cancelled := false, recv := .none }
  | .connect => .go [] { s with recv := .loop [] }
  | .mkLaunch => .go [] { s with launchQ := true }
  | .writeRunIn q => .go [.register (s.outs.length + 1) q] { s with outs := s.outs ++ [.runIn q] }
  | .register r q => .go [] { s with runIn := Dict.set s.runIn r q }
  | .accept q =>
    -- a cancelled token makes accept() raise CancelledError: only the alternative outcome is left
    bif s.cancelled then .blocked
    else .go (.closeLaunch :: (sendProg (.launchResp q) ++ [.send .config])) { s with recv := .loop [] }
  | .closeLaunch => .go [] { s with launchQ := false }

/-- Can the action raise an exception although nothing prevents it from working? Sockets and
files may fail at any time, arguments may be invalid. -/
def canRaise : Act → Bool
  | .send _ | .sendQuiet _ | .cancel | .mkDeb | .connect | .mkLaunch | .accept _ => true
  | _ => false

/-- The alternative outcome of an action that is handled by the code: an `OSError` in
`_send_disconnect` (_debug_adapter.py:378-380) is ignored; a `CancelledError` in the wait for the launched process
(_debug_adapter.py:566-568: the launched process has ended, or the queue was cancelled) stops the session. (After a
cancel every send raises CancelledError instead, which is not an OSError.) -/
def altProg (s : S) : Act → Option (List Act)
  | .sendQuiet _ => bif s.cancelled then none else some []
  | .accept _ => some (stopProg false false)
  | _ => none

/-- What the main thread does with a message (_debug_adapter.py:289-303, _debug_adapter.py:387-582): the new value of
`is_connected` and the actions, or `none` for an exception. -/
def handle (s : S) (seq : Nat) (connected : Bool) : CMsg → Option (S × Bool × List Act)
  | .req k b =>
    -- `self._incoming_requests[msg.seq] = msg` (_debug_adapter.py:292-293)
    let s := { s with incoming := Dict.set s.incoming seq k, reqs := s.reqs ++ [(seq, k, b)] }
    bif s.debSet then
      match k with
      | .disconnect => some (s, false, [.sendQuiet (.req k seq b), .cancel, .join])   -- _debug_adapter.py:296-298, _debug_adapter.py:371-385
      | _ => some (s, connected, [.send (.req k seq b)])                              -- _debug_adapter.py:299-300
    else
      match k with
      | .initialize => some (s, connected, sendProg (.initResp seq))                  -- _debug_adapter.py:392-431
      | .attach => some (s, connected, .mkDeb :: .connect :: (sendProg (.attachResp seq) ++ [.send .config]))
      | .launch => some (s, connected, [.mkDeb, .mkLaunch, .writeRunIn seq])
      | _ => none                                                                     -- _debug_adapter.py:387-390
  | .runInResp r =>
    match Dict.get? s.runIn r with
    | none => none                                                                    -- KeyError (_debug_adapter.py:558)
    | some q => some ({ s with runIn := Dict.erase s.runIn r }, connected, [.accept q])
  | .bad => none

/-- The state after the main thread has received a message: if the handling raises an exception
at once, the request has still been recorded. -/
def received (s : S) (seq : Nat) : CMsg → S
  | .req k b => { s with incoming := Dict.set s.incoming seq k, reqs := s.reqs ++ [(seq, k, b)] }
  | _ => s

/-- What happens next. -/
inductive Lbl where
  /-- the main thread takes the next message of the client out of its buffer -/
  | client (m : CMsg)
  /-- reading or decoding the input raises an exception (or the process is interrupted) -/
  | badInput
  /-- standard input is at its end: `read` returns no data (_debug_adapter.py:283) -/
  | eof
  /-- the loop of `start()` ends since `is_connected` is false (_debug_adapter.py:282) -/
  | leave
  /-- the main thread executes its next action -/
  | main
  /-- the next action of the main thread has its handled alternative outcome -/
  | mainAlt
  /-- the next action of the main thread raises an exception -/
  | mainRaise
  /-- `__exit__` returns -/
  | finish
  /-- the receive thread receives a message of the debuggee -/
  | deb (m : DMsg)
  /-- the receive thread notices the end of the connection (with or without an exception) -/
  | close (exp : Bool)
  /-- the receive thread executes its next action -/
  | recv
deriving DecidableEq, Repr

/-- An exception in the main thread: `start()` is left through `__exit__` with the exception; in
`__exit__` itself it ends the main thread. -/
def mainThrow (s : S) : S :=
  match s.main with
  | .run _ _ => { s with main := .exiting true (stopProg true false) }
  | .exiting _ _ => { s with main := .dead }
  | m => { s with main := m }

/-- One step of the server. -/
def step (s : S) : Lbl → Option S
  | .client m =>
    match s.main with
    | .run c [] =>
      let s1 := { s with nextIn := s.nextIn + 1 }
      match handle s1 s.nextIn c m with
      | some (s2, c', p) => some { s2 with main := .run c' p }
      | none => some (mainThrow (received s1 s.nextIn m))
    | _ => none
  | .badInput =>
    match s.main with
    | .run _ [] => some (mainThrow s)
    | _ => none
  | .eof =>
    match s.main with
    | .run true [] => some s
    | _ => none
  | .leave =>
    match s.main with
    | .run false [] => some { s with main := .exiting false (stopProg false false) }
    | _ => none
  | .main =>
    match s.main with
    | .run c (a :: p) =>
      match exec s a with
      | .go more s' => some { s' with main := .run c (more ++ p) }
      | .raise => some (mainThrow s)
      | .blocked => none
    | .exiting e (a :: p) =>
      match exec s a with
      | .go more s' => some { s' with main := .exiting e (more ++ p) }
      | .raise => some (mainThrow s)
      | .blocked => none
    | _ => none
  | .mainAlt =>
    match s.main with
    | .run c (a :: p) =>
      match altProg s a with
      | some more => some { s with main := .run c (more ++ p) }
      | none => none
    | _ => none
  | .mainRaise =>
    match s.main with
    | .run _ (a :: _) => bif canRaise a then some (mainThrow s) else none
    | .exiting _ (a :: _) => bif canRaise a then some (mainThrow s) else none
    | _ => none
  | .finish =>
    match s.main with
    | .exiting e [] => some { s with main := .done e }
    | _ => none
  | .deb m =>
    match s.recv with
    | .loop [] =>
      bif s.cancelled then none
      else some { s with recv := .loop (sendProg (.relay m)), fromDeb := s.fromDeb ++ [m] }
    | _ => none
  | .close e =>
    match s.recv with
    | .loop [] => some { s with recv := .closing (stopProg e true) }
    | _ => none
  | .recv =>
    match s.recv with
    | .loop (a :: p) =>
      match exec s a with
      | .go more s' => some { s' with recv := .loop (more ++ p) }
      | _ => none
    | .closing (a :: p) =>
      match exec s a with
      | .go more s' => some { s' with recv := .closing (more ++ p) }
      | .raise => some { s with recv := .ended }
      | .blocked => none
    | .closing [] => some { s with recv := .ended }
    | _ => none

/-- A run of the server. -/
def run : S → List Lbl → Option S
  | s, [] => some s
  | s, l :: ls => (step s l).bind fun s' => run s' ls

end Verif.Server
