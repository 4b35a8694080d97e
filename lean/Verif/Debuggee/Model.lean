import Verif.Server.Attach

/-!
# The life of the debuggee: playbook thread, send thread, receive thread

Models `AnsibleDebugger.start`, `shutdown`, `wait_for_config_done`, `with_strategy`, `_get_strategy`,
`process_message`, `_disconnect`, `_send_task`, `DAProtocol` (/repo/src/ansibug/_debuggee.py:111-147,
290-313, 333-346, 377-504, 589-820, 859-902), the callback plugin that drives them
(/repo/src/ansibug/ansible_collections/ansibug/dap/plugins/callback/debug.py:162-209) and the parts of
`MPQueue` they use (/repo/src/ansibug/_mp_queue.py:75-123, 140-301) as a transition system of three
threads: any interleaving of their steps is a run.

Simplifications.
* A step is a piece of code with at most one access to state shared between the threads, or the body
  of a `with self._strategy_connected` block.
* The bodies of the requests are in `Verif/Bp` and `Verif/Strat`; here they succeed or raise.
* Ansible runs plays; inside a play the strategy is set, tasks run and messages are queued. That a
  play can wait for the client is in `Verif/Strat`.
* A socket operation that can be cancelled is entered (which fails once the token is cancelled) and
  then succeeds or fails. Sending succeeds or fails; a peer that never reads is not modelled.
* Exceptions in `AnsibleDebugger.start` are swallowed by Ansible, which runs on.
-/

namespace Verif.Debuggee
open Verif

/-- The messages the adapter sends to the debuggee, by class. -/
inductive Kind where
  | configurationDone | continue_ | disconnect | evaluate | next | scopes | setExceptionBreakpoints
  | setBreakpoints | setVariable | stackTrace | stepIn | stepOut | terminate | threads | variables
  | debugConfig              -- OutputEvent with the debug configuration
  | otherOutput              -- any other OutputEvent
  | unsupported (name : Str) -- a request without a handler
deriving DecidableEq, Repr

structure Req where
  kind : Kind
  seq : Int
deriving DecidableEq, Repr

/-- The messages the debuggee queues. `resp k n ok`: the response (or ErrorResponse, `ok = false`) for
command `k` with request_seq `n`. -/
inductive Out where
  | resp (k : Kind) (requestSeq : Int) (ok : Bool)
  | initialized
  | event (n : Nat)
deriving DecidableEq, Repr

/-- Handlers that ask for the strategy (`_get_strategy`, _debuggee.py:589-592). -/
def needsStrategy : Kind → Bool
  | .continue_ | .disconnect | .evaluate | .next | .scopes | .setVariable | .stackTrace | .stepIn | .stepOut
  | .terminate | .threads | .variables => true
  | _ => false

/-- Where the playbook thread is. -/
inductive P where
  | pre        -- before v2_playbook_on_start
  | wait       -- callback/debug.py:199-202
  | between    -- no play is running
  | play       -- inside with_strategy
  | check      -- shutdown, _debuggee.py:457-462
  | cancel     -- _debuggee.py:463
  | put        -- _debuggee.py:463
  | join       -- _debuggee.py:466
  | clear | conf | strat | unlink  -- _debuggee.py:471-472, 475, 478-486, 488
  | done       -- shutdown has returned
  | failed     -- shutdown has raised
deriving DecidableEq, Repr

/-- Where the send thread is (`_send_task`, _debuggee.py:869-902). -/
inductive S where
  | off
  | conn (entered : Bool)   -- accept/connect, _mp_queue.py:167-182, 248-252
  | tls                     -- wrap_tls, _mp_queue.py:184-189, 262-265
  | greet (entered : Bool)  -- the first byte, _mp_queue.py:193, 197, 270, 288
  | flag                    -- _debuggee.py:886
  | get                     -- _debuggee.py:888
  | send (m : Out) (entered : Bool) -- _debuggee.py:890
  | cancel                  -- stop(): _mp_queue.py:94
  | joinR                   -- _mp_queue.py:95-97
  | close                   -- _mp_queue.py:99-100
  | unflag                  -- _debuggee.py:900
  | ended
deriving DecidableEq, Repr

/-- Where the receive thread is (`_recv_handler`, _mp_queue.py:102-123, `DAProtocol`). -/
inductive R where
  | off
  | idle
  | got (r : Req)      -- on_msg_received
  | need (r : Req)     -- in _get_strategy
  | call (r : Req)     -- in the strategy's method
  | setConf            -- _debuggee.py:608
  | putNone            -- _debuggee.py:625, 784
  | clear | conf | strat | unlink  -- shutdown(from_send_thread=True)
  | ended
deriving DecidableEq, Repr

/-- The settings of the callback plugin, and what `start` writes to the process file. -/
structure Cfg where
  listen : Bool
  noWait : Bool
  tls : Bool
  info : Server.ProcInfo

structure St where
  p : P := .pre
  s : S := .off
  r : R := .off
  queue : List (Option Out) := []
  confDone : Bool := false
  connected : Bool := false
  cancelled : Bool := false
  strategy : Bool := false
  terminated : Bool := false
  file : Option Str := none

/-- The initial state: `AnsibleDebugger.__init__` (_debuggee.py:229-240). A file of an earlier process
with this id may exist. -/
def init (old : Option Str) : St := { file := old }

inductive Act where
  -- the playbook thread
  | pStart | pStartFail | pGo | pPlay | pTask (ev : Option Nat) | pEndPlay | pStats
  | pCheck | pCancel | pCancelRaise | pPut | pJoin | pClear | pConf | pStrat | pUnlink
  -- the send thread
  | sEnter | sAccept | sTls | sTlsFail | sGreet | sFail | sFlag | sGet | sSent | sCancel | sCancelRaise | sJoin | sClose | sUnflag
  -- the receive thread
  | rMsg (r : Req) | rEof | rCancelled | rDirect (ok : Bool) | rAsk | rGet | rCall (ok : Bool) | rSetConf | rPutNone
  | rClear | rConf | rStrat | rUnlink
deriving DecidableEq, Repr

/-- What can be observed. -/
inductive Obs where
  | put (x : Option Out)   -- a message (or None) is put on the send queue
  | wire (m : Out)         -- a message has been sent
  | stopped (ok : Bool)    -- the send loop has ended: because of None, or of an exception
  | received (r : Req)     -- a message has been received
  | closed                 -- the connection has ended (connection_closed is called)
  | started (ok : Bool)    -- start() has set up the socket, or failed
  | task                   -- a task runs
  | configured             -- wait_for_config_done lets the playbook go on
  | shutdown               -- a call of shutdown() returns
deriving DecidableEq, Repr

/-- The contents of the process file (_debuggee.py:422-429). -/
def fileText (c : Cfg) : Str := dumps (Server.infoToJson c.info)

/-- A step of the playbook thread. -/
def stepP (c : Cfg) (s : St) : Act → Option (St × List Obs)
  -- callback/debug.py:189-194, _debuggee.py:406-440
  | .pStart => if s.p = .pre then some ({ s with p := .wait, s := .conn false, file := bif c.listen then some (fileText c) else s.file }, [.started true]) else none
  -- an exception in start before the thread is started
  | .pStartFail => if s.p = .pre then some ({ s with p := .between }, [.started false]) else none
  -- callback/debug.py:199-202, _debuggee.py:333-346
  | .pGo => if s.p = .wait ∧ (c.noWait = true ∨ s.confDone = true) then some ({ s with p := .between }, [.configured]) else none
  -- with_strategy, _debuggee.py:303-305
  | .pPlay => if s.p = .between then some ({ s with p := .play, strategy := true }, []) else none
  -- a task of the play; it may queue a message
  | .pTask ev => if s.p = .play then (match ev with
      | none => some (s, [.task])
      | some n => some ({ s with queue := s.queue ++ [some (.event n)] }, [.task, .put (some (.event n))])) else none
  -- with_strategy, _debuggee.py:310-313
  | .pEndPlay => if s.p = .play then some ({ s with p := .between, strategy := false }, []) else none
  -- v2_playbook_on_stats, callback/debug.py:204-209
  | .pStats => if s.p = .between then some ({ s with p := .check }, []) else none
  -- _debuggee.py:457-462
  | .pCheck => if s.p = .check then some ({ s with p := (if s.s = .off then .clear else if s.connected then .put else .cancel) }, []) else none
  -- _debuggee.py:463
  | .pCancel => if s.p = .cancel then some ({ s with p := .put, cancelled := true }, []) else none
  -- _debuggee.py:463, an exception of a cancel function
  | .pCancelRaise => if s.p = .cancel then some ({ s with p := .failed, cancelled := true }, []) else none
  -- _debuggee.py:465
  | .pPut => if s.p = .put then some ({ s with p := .join, queue := s.queue ++ [none] }, [.put none]) else none
  -- _debuggee.py:466-467
  | .pJoin => if s.p = .join ∧ s.s = .ended then some ({ s with p := .clear }, []) else none
  -- _debuggee.py:471-472 (the debug configuration and breakpoints: `Verif/Bp`)
  | .pClear => if s.p = .clear then some ({ s with p := .conf }, []) else none
  -- _debuggee.py:475
  | .pConf => if s.p = .conf then some ({ s with p := .strat, confDone := true }, []) else none
  -- _debuggee.py:478-486 (the strategy's disconnect: `Verif/Strat`)
  | .pStrat => if s.p = .strat then some ({ s with p := .unlink }, []) else none
  -- _debuggee.py:488
  | .pUnlink => if s.p = .unlink then some ({ s with p := .done, file := none }, [.shutdown]) else none
  | _ => none

/-- A step of the send thread. -/
def stepS (c : Cfg) (s : St) : Act → Option (St × List Obs)
  -- with_cancel, _socket_helper.py:346-362
  | .sEnter => if s.cancelled then none else (match s.s with
      | .conn false => some ({ s with s := .conn true }, [])
      | .greet false => some ({ s with s := .greet true }, [])
      | .send m false => some ({ s with s := .send m true }, [])
      | _ => none)
  | .sAccept => if s.s = .conn true then some ({ s with s := bif c.tls then .tls else .greet false }, []) else none
  | .sTls => if s.s = .tls then some ({ s with s := .greet false }, []) else none
  -- _mp_queue.py:272-279: the listening side accepts again; the connecting side raises
  | .sTlsFail => if s.s = .tls then (if c.listen then some ({ s with s := .conn false }, []) else some ({ s with s := .cancel }, [.stopped false])) else none
  -- the receive thread is started, _mp_queue.py:83-91
  | .sGreet => if s.s = .greet true then some ({ s with s := .flag, r := .idle }, []) else none
  -- an exception in accept/connect/greet/send; entering a cancelled operation
  | .sFail => (match s.s with
      | .conn _ => some ({ s with s := .cancel }, [.stopped false])
      | .greet _ => some ({ s with s := .cancel }, [.stopped false])
      | .send _ _ => some ({ s with s := .cancel }, [.stopped false])
      | _ => none)
  -- _debuggee.py:886
  | .sFlag => if s.s = .flag then some ({ s with s := .get, connected := true }, []) else none
  -- _debuggee.py:888
  | .sGet => if s.s = .get then (match s.queue with
      | some m :: q => some ({ s with s := .send m false, queue := q }, [])
      | none :: q => some ({ s with s := .cancel, queue := q }, [.stopped true])
      | [] => none) else none
  -- _debuggee.py:890
  | .sSent => (match s.s with
      | .send m true => some ({ s with s := .get }, [.wire m])
      | _ => none)
  -- _debuggee.py:899, _mp_queue.py:94
  | .sCancel => if s.s = .cancel then some ({ s with s := .joinR, cancelled := true }, []) else none
  -- an exception of a cancel function leaves stop() and the thread ends
  | .sCancelRaise => if s.s = .cancel then some ({ s with s := .ended, cancelled := true }, []) else none
  -- _mp_queue.py:95-97
  | .sJoin => if s.s = .joinR ∧ (s.r = .off ∨ s.r = .ended) then some ({ s with s := .close }, []) else none
  -- _mp_queue.py:99-100
  | .sClose => if s.s = .close then some ({ s with s := .unflag }, []) else none
  -- _debuggee.py:900
  | .sUnflag => if s.s = .unflag then some ({ s with s := .ended, connected := false }, []) else none
  | _ => none

/-- A step of the receive thread. -/
def stepR (s : St) : Act → Option (St × List Obs)
  -- _mp_queue.py:105-114; recv_into raises after cancel (_socket_helper.py:315-320)
  | .rMsg r => if s.r = .idle ∧ s.cancelled = false then some ({ s with r := .got r }, [.received r]) else none
  -- the end of the stream or an exception, _mp_queue.py:106-107, 119-123
  | .rEof => if s.r = .idle then some ({ s with r := .clear }, [.closed]) else none
  -- _mp_queue.py:116-117
  | .rCancelled => if s.r = .idle ∧ s.cancelled = true then some ({ s with r := .clear }, [.closed]) else none
  -- process_message of the requests that do not ask for the strategy
  | .rDirect ok => (match s.r with
      | .got ⟨.configurationDone, n⟩ => -- _debuggee.py:602-608
          some ({ s with r := .setConf, queue := s.queue ++ [some (.resp .configurationDone n true)] }, [.put (some (.resp .configurationDone n true))])
      | .got ⟨.setExceptionBreakpoints, n⟩ => -- _debuggee.py:656-665
          some ({ s with r := .idle, queue := s.queue ++ [some (.resp .setExceptionBreakpoints n ok)] }, [.put (some (.resp .setExceptionBreakpoints n ok))])
      | .got ⟨.setBreakpoints, n⟩ => -- _debuggee.py:668-738
          some ({ s with r := .idle, queue := s.queue ++ [some (.resp .setBreakpoints n ok)] }, [.put (some (.resp .setBreakpoints n ok))])
      | .got ⟨.debugConfig, _⟩ => -- _debuggee.py:805-820
          some ({ s with r := .idle, queue := s.queue ++ [some .initialized] }, [.put (some .initialized)])
      | .got ⟨.otherOutput, _⟩ => some ({ s with r := .idle }, []) -- _debuggee.py:811-814
      | .got ⟨.unsupported c, n⟩ => -- _debuggee.py:594-599, 123-136
          some ({ s with r := .idle, queue := s.queue ++ [some (.resp (.unsupported c) n false)] }, [.put (some (.resp (.unsupported c) n false))])
      | _ => none)
  -- up to _get_strategy; terminate marks the debugger first (_debuggee.py:781)
  | .rAsk => (match s.r with
      | .got r => if needsStrategy r.kind then some ({ s with r := .need r, terminated := s.terminated || r.kind = .terminate }, []) else none
      | _ => none)
  -- wait_for(lambda: self._strategy is not None), _debuggee.py:591
  | .rGet => (match s.r with
      | .need r => if s.strategy then some ({ s with r := .call r }, []) else none
      | _ => none)
  -- the strategy's method and the queueing of the response; an exception becomes an ErrorResponse (_debuggee.py:123-136)
  | .rCall ok => (match s.r with
      | .call r =>
          if r.kind = .disconnect ∧ ok = true then some ({ s with r := .putNone }, [])
          else some ({ s with r := if r.kind = .terminate ∧ ok = true then .putNone else .idle, queue := s.queue ++ [some (.resp r.kind r.seq ok)] },
            [.put (some (.resp r.kind r.seq ok))])
      | _ => none)
  -- _debuggee.py:608
  | .rSetConf => if s.r = .setConf then some ({ s with r := .idle, confDone := true }, []) else none
  -- _debuggee.py:625, 784
  | .rPutNone => if s.r = .putNone then some ({ s with r := .idle, queue := s.queue ++ [none] }, [.put none]) else none
  -- connection_closed -> shutdown(from_send_thread=True), _debuggee.py:138-147, 471-488
  | .rClear => if s.r = .clear then some ({ s with r := .conf }, []) else none
  | .rConf => if s.r = .conf then some ({ s with r := .strat, confDone := true }, []) else none
  | .rStrat => if s.r = .strat then some ({ s with r := .unlink }, []) else none
  | .rUnlink => if s.r = .unlink then some ({ s with r := .ended, file := none }, [.shutdown]) else none
  | _ => none

/-- The thread an action belongs to. -/
inductive Thread where
  | playbook | send | recv
deriving DecidableEq, Repr

def Act.thread : Act → Thread
  | .pStart | .pStartFail | .pGo | .pPlay | .pTask _ | .pEndPlay | .pStats | .pCheck | .pCancel | .pCancelRaise | .pPut
  | .pJoin | .pClear | .pConf | .pStrat | .pUnlink => .playbook
  | .sEnter | .sAccept | .sTls | .sTlsFail | .sGreet | .sFail | .sFlag | .sGet | .sSent | .sCancel | .sCancelRaise | .sJoin
  | .sClose | .sUnflag => .send
  | .rMsg _ | .rEof | .rCancelled | .rDirect _ | .rAsk | .rGet | .rCall _ | .rSetConf | .rPutNone | .rClear | .rConf
  | .rStrat | .rUnlink => .recv

/-- A step of the system: a step of one of the threads. -/
def step (c : Cfg) (s : St) (a : Act) : Option (St × List Obs) :=
  match a.thread with
  | .playbook => stepP c s a
  | .send => stepS c s a
  | .recv => stepR s a

/-- `Run c s as s' os`: from `s`, the actions `as` lead to `s'` with the observations `os`. -/
inductive Run (c : Cfg) : St → List Act → St → List Obs → Prop
  | nil (s) : Run c s [] s []
  | cons {s s1 s2 : St} {a : Act} {as : List Act} {o os : List Obs} : step c s a = some (s1, o) → Run c s1 as s2 os → Run c s (a :: as) s2 (o ++ os)

/-- The same, computed. -/
def exec (c : Cfg) : St → List Act → Option (St × List Obs)
  | s, [] => some (s, [])
  | s, a :: as => match step c s a with
    | none => none
    | some (s1, o) => match exec c s1 as with
      | none => none
      | some (s2, os) => some (s2, o ++ os)

theorem run_of_exec {c : Cfg} {as : List Act} : ∀ {s s' : St} {os : List Obs}, exec c s as = some (s', os) → Run c s as s' os := by
  induction as with
  | nil => intro s s' os h; simp only [exec, Option.some.injEq, Prod.mk.injEq] at h; obtain ⟨rfl, rfl⟩ := h; exact .nil _
  | cons a as ih =>
    intro s s' os h
    simp only [exec] at h
    split at h
    · cases h
    · rename_i s1 o h1
      split at h
      · cases h
      · rename_i s2 os2 h2
        simp only [Option.some.injEq, Prod.mk.injEq] at h
        obtain ⟨rfl, rfl⟩ := h
        exact .cons h1 (ih h2)

/-- The states reachable from the start. -/
def Reach (c : Cfg) (s : St) : Prop := ∃ old as os, Run c (init old) as s os

end Verif.Debuggee
