import Verif.Py.Basic
/-!
# The debug state with requests at any time

In `Strat` a request is handled in one step. Here the same code is cut at every access to something both threads use: the playbook
thread (`start_task`, `end_task`, `exit_threads`, `register_path_breakpoint`) and the thread that handles requests (`_mp_queue.py:104-113`,
`_debuggee.py:118-136`) take turns between any two steps.

What is shared: the dictionaries `threads`, `stackframes`, `variables` and the objects in them, the number of the next variable, the dictionary of
breakpoints, and the lock of `_waiting_condition`. Line numbers without a file refer to
/repo/src/ansibug/ansible_collections/ansibug/dap/plugins/strategy/debug.py.

Python. A thread switch is possible between any two of these steps. `fine` says whether one is possible inside of `next_variable_id`, between reading and
writing the counter: the language does not exclude it (an interpreter without a global lock does it), CPython with its global lock does not
switch there. A dictionary iterator raises RuntimeError when it is advanced and the number of entries is not the one it started with.

Simplifications. Values and templating are left out: what a variables request lists is a number of containers. Whether a step, a breakpoint or a result
stops a host is a choice of the environment, within what the state allows (`decide`, `decideE`). Setting the state of a thread found in `threads` is one
step. When entries were removed and as many added, a dictionary iterator goes on at its position among the entries there are. One play (one
`AnsibleDebugState`); the tasks and results are those of Ansible: a result is processed for a host whose task was started (`endTask`).
The AttributeErrors of `start_task` that do not depend on the other thread (`C81_begin_fails`) are left out.
-/

namespace Verif.Race

/-- `ThreadState` (debug.py:83-101); `step` stands for the three kinds of steps. -/
inductive TS where
  | cont | step | wait | fin
deriving DecidableEq, Repr

/-- Exceptions. -/
inductive Err where
  | key       -- KeyError
  | index     -- IndexError
  | runtime   -- RuntimeError: dictionary changed size during iteration
deriving DecidableEq, Repr

/-- What both threads see. Objects that left their dictionary keep their attributes. -/
structure Sh where
  /-- keys of `threads`, in order -/
  threads : List Nat := [1]
  /-- `AnsibleThread.host` -/
  host : Nat → Option Nat := fun _ => none
  /-- `AnsibleThread.stack_frames` -/
  stack : Nat → List Nat := fun _ => []
  /-- `AnsibleThread.state` -/
  state : Nat → TS := fun _ => .cont
  /-- keys of `stackframes` -/
  live : List Nat := []
  /-- `AnsibleStackFrame.variables` -/
  fvars : Nat → List Nat := fun _ => []
  /-- `AnsibleStackFrame.variables_result_id` -/
  result : Nat → Nat := fun _ => 0
  /-- `variables`: the frame of each -/
  vars : Nat → Option Nat := fun _ => none
  nextT : Nat := 2
  nextF : Nat := 1
  nextV : Nat := 1
  /-- `_breakpoints`: which dictionary object, and its number of entries -/
  bpObj : Nat := 0
  bpLen : Nat := 0
  /-- is an exception filter set -/
  exc : Bool := false
  /-- who has the lock of `_waiting_condition`: `true` for the playbook -/
  lock : Option Bool := none

/-- Assignment to one entry. -/
def upd {α : Type} (f : Nat → α) (k : Nat) (v : α) : Nat → α := fun x => if x = k then v else f x

/-- A dictionary iterator: the object, the number of entries at the start, the position. -/
structure It where
  obj : Nat
  size : Nat
  pos : Nat
deriving DecidableEq, Repr

/-- Why the playbook leaves the threads: inventory refreshed, play over, end requested, or an exception. -/
inductive Why where
  | refresh | over | ended
  | crashed (e : Err)
deriving DecidableEq, Repr

/-- Where a wait or a removal of a frame belongs: to `start_task`, or to `end_task` (of an include task or not). -/
inductive Ctx where
  | start
  | fin (incl : Bool)
deriving DecidableEq, Repr

/-- The playbook thread: what it does next. -/
inductive P where
  /-- in Ansible -/
  | idle
  /-- the thread of the host is looked for (debug.py:510-515) -/
  | find (h : Nat)
  /-- thread added (debug.py:967-970), to be announced (debug.py:971-976) -/
  | announce (tid : Nat)
  /-- to compare the task with the top frame (debug.py:517-522) -/
  | sync (tid : Nat)
  /-- `stack_frames.pop(0)` (debug.py:523, debug.py:644) -/
  | popStack (tid : Nat) (k : Ctx)
  /-- `stackframes.pop` (debug.py:524, debug.py:645) -/
  | popFrame (tid f : Nat) (k : Ctx)
  /-- the variables of the frame from the `i`-th on (debug.py:525-526, debug.py:646-647) -/
  | del (tid f i : Nat) (k : Ctx)
  /-- the role of an include_role may have to be scanned (debug.py:528-539) -/
  | role (tid : Nat)
  | roleIter (tid : Nat) (it : It)
  /-- `stackframes[sfid] = …` (debug.py:541-548) -/
  | push (tid : Nat)
  /-- `stack_frames.insert(0, sfid)` (debug.py:549) -/
  | pushStack (tid f : Nat)
  /-- `if not task_path: return` (debug.py:553-555) -/
  | path (tid : Nat)
  /-- `with self._waiting_condition` (debug.py:584) -/
  | lockS (tid : Nat)
  /-- `get_breakpoint` (debug.py:587, _debuggee.py:367-375): the iterator is made, then advanced -/
  | bps (tid : Nat)
  | bpsIter (tid : Nat) (it : It)
  /-- `should_break` (debug.py:588-595); a breakpoint with a true condition was found or not -/
  | decide (tid : Nat) (found : Bool)
  /-- `queue_msg(stopped_event)` (debug.py:598, debug.py:637) -/
  | emit (tid : Nat) (k : Ctx)
  /-- the predicate of `wait_for` (debug.py:599, debug.py:638) -/
  | pred (tid : Nat) (k : Ctx)
  /-- `Condition.wait`: about to release the lock and to sleep -/
  | sleep (tid : Nat) (k : Ctx)
  | asleep (tid : Nat) (k : Ctx) (notified : Bool)
  /-- `if thread.state == ThreadState.END` (debug.py:603, debug.py:640) -/
  | check (tid : Nat) (k : Ctx)
  /-- the end of the `with` block -/
  | unlock (tid : Nat) (k : Ctx)
  /-- `with self._waiting_condition` (debug.py:623) -/
  | lockE (tid : Nat) (incl : Bool)
  /-- `should_stop_on_exception` (debug.py:624-629) -/
  | decideE (tid : Nat) (incl : Bool)
  /-- `sf = self.stackframes[sf_id]` (debug.py:631-632) -/
  | frameE (tid : Nat) (incl : Bool)
  /-- `_add_variable` (debug.py:634, debug.py:986-998): number read, counter written, entry, list -/
  | addRead (tid f : Nat) (incl : Bool)
  | addWrite (tid f v : Nat) (incl : Bool)
  | addEntry (tid f v : Nat) (incl : Bool)
  | addList (tid f v : Nat) (incl : Bool)
  /-- `sf.variables_result_id = …` (debug.py:635) -/
  | setResult (tid f v : Nat) (incl : Bool)
  /-- `for breakpoint in self._breakpoints.values()` of `register_path_breakpoint` (_debuggee.py:553-577) -/
  | reg
  | regIter (it : It)
  /-- `exit_threads` (debug.py:649-666): threads still to be removed -/
  | exit (todo : List Nat) (w : Why)
  | exitEvent (tid : Nat) (todo : List Nat) (w : Why)
  /-- the play has been left -/
  | gone (w : Why)
deriving DecidableEq, Repr

/-- Requests. -/
inductive Req where
  /-- continue, next, step in, step out for one thread (debug.py:672-674, debug.py:943-959) -/
  | one (tid : Nat) (step : Bool)
  /-- continue of all threads (debug.py:675-677) -/
  | continueAll
  /-- disconnect (false) and terminate or disconnect with terminateDebuggee (true) (debug.py:684-689, _debuggee.py:859-867) -/
  | disconnect (terminate : Bool)
  /-- scopes of a frame (debug.py:691-781) -/
  | scopes (f : Nat)
  /-- variables of a reference, with `n` containers among them (debug.py:878-917), and setVariable with `n` ≤ 1 (debug.py:919-941) -/
  | variables (v n : Nat)
  | stackTrace (tid : Nat)
  | threads
  /-- setBreakpoints: `kept` breakpoints of other files stay, `n` new ones (_debuggee.py:666-737) -/
  | setBreakpoints (kept n : Nat)
  | setExceptions (on : Bool)
deriving DecidableEq, Repr

/-- Answers: successful (with the references or frames it names), or an error response. -/
inductive Ans where
  | ok (ids : List Nat)
  | error (e : Err)
deriving DecidableEq, Repr

/-- The thread that handles requests: what it does next. -/
inductive R where
  | idle
  /-- `self._breakpoints = {}` (_debuggee.py:864) -/
  | clear (st : TS)
  /-- `list(self.threads.keys())` (debug.py:689) -/
  | copy (st : TS)
  /-- `with self._waiting_condition` (debug.py:1007), for a list of threads or for `threads.keys()` itself -/
  | lock (ids : Option (List Nat)) (st : TS)
  /-- `for tid in thread_ids: self.threads[tid].set_state(thread_state)` (debug.py:1008-1009) -/
  | each (ids : List Nat) (st : TS)
  | iter (it : It) (st : TS)
  | setOne (tid : Nat) (it : It) (st : TS)
  /-- `notify_all` (debug.py:1011) -/
  | notify
  | unlock (a : Ans)
  /-- `self.stackframes[request.frame_id]` (debug.py:695) -/
  | frame (f : Nat)
  /-- `self.variables[request.variables_reference]` (debug.py:882, debug.py:923) -/
  | variable (v n : Nat)
  /-- `_add_variable` (debug.py:986-998), `n` times; `got` are the references so far; a scopes request (`sc`) looks at the result afterwards -/
  | addRead (f n : Nat) (got : List Nat) (sc : Bool)
  | addWrite (f v n : Nat) (got : List Nat) (sc : Bool)
  | addEntry (f v n : Nat) (got : List Nat) (sc : Bool)
  | addList (f v n : Nat) (got : List Nat) (sc : Bool)
  /-- `if sf.variables_result_id: self.variables[sf.variables_result_id]` (debug.py:766-767) -/
  | result (f : Nat) (got : List Nat)
  | resultVar (v : Nat) (got : List Nat)
  /-- `self.threads[request.thread_id]` (debug.py:858) -/
  | thread (tid : Nat)
  /-- `for sfid in thread.stack_frames: sf = self.stackframes[sfid]` (debug.py:859-861) -/
  | frames (tid i : Nat) (got : List Nat)
  | frameOf (tid i f : Nat) (got : List Nat)
  /-- `[t.to_dap() for t in self.threads.values()]` (debug.py:875) -/
  | threads (it : It) (got : List Nat)
  /-- `self._breakpoints = {…}` (_debuggee.py:688) -/
  | bpClear (kept n : Nat)
  /-- `self._breakpoints[bp_id] = …` (_debuggee.py:724-731) -/
  | bpAdd (n : Nat)
  | setExc (on : Bool)
  /-- `queue_msg(resp)` (_debuggee.py:118-136, 584-803) -/
  | answer (a : Ans)
deriving DecidableEq, Repr

/-- Everything. -/
structure S extends Sh where
  p : P := .idle
  r : R := .idle

/-- Messages for the client, and the beginning and end of what Ansible asks for. -/
inductive Obs where
  | started (tid : Nat)
  | exited (tid : Nat)
  | stopped (tid : Nat)
  | answer (a : Ans)
deriving DecidableEq, Repr

/-- Who moves. -/
inductive Lbl where
  /-- Ansible calls into the strategy plugin (debug.py:1075-1172) -/
  | startTask (h : Nat)
  | endTask (h : Nat) (incl : Bool)
  | register
  | refresh
  | finish
  /-- the playbook goes on; a choice where there is one -/
  | play (b : Bool)
  /-- a request arrives -/
  | req (q : Req)
  /-- its handling goes on -/
  | go
deriving DecidableEq, Repr

/-- The thread of a host: the first of `self.threads.values()` with that host (debug.py:510-513, debug.py:621). -/
def threadOf (s : Sh) (h : Nat) : Option Nat := s.threads.find? fun t => s.host t == some h

/-- `finally: exit_threads()` (debug.py:1166-1169, debug.py:656-658): the keys are copied, thread 1 stays. -/
def leave (s : S) (w : Why) : S := { s with p := .exit (s.threads.filter (· ≠ 1)) w }

/-- An exception leaves the playbook's `with` block and the play. -/
def raiseIn (s : S) (w : Why) : S := leave { s with lock := none } w

/-- One step of the playbook thread. -/
def pstep (fine : Bool) (s : S) (b : Bool) : Option (S × List Obs) :=
  match s.p with
  | .idle => none
  | .find h => match threadOf s.toSh h with
    | some t => some ({ s with p := .sync t }, [])
    | none => some ({ s with threads := s.threads ++ [s.nextT], host := upd s.host s.nextT (some h), nextT := s.nextT + 1, p := .announce s.nextT }, [])
  | .announce t => some ({ s with p := .sync t }, [.started t])
  | .sync t => match s.stack t with
    | [] => some ({ s with p := .push t }, [])
    | f :: _ =>
      if f ∈ s.live then some ({ s with p := if b = true then .popStack t .start else .role t }, [])
      else some (leave s (.crashed .key), [])
  | .popStack t k => match s.stack t with
    | [] => some (leave s (.crashed .index), [])
    | f :: fs => some ({ s with stack := upd s.stack t fs, p := .popFrame t f k }, [])
  | .popFrame t f k =>
    if f ∈ s.live then some ({ s with live := s.live.filter (· ≠ f), p := .del t f 0 k }, [])
    else some (leave s (.crashed .key), [])
  | .del t f i k => match (s.fvars f)[i]? with
    | none => some ({ s with p := match k with | .start => .role t | .fin _ => .idle }, [])
    | some v => match s.vars v with
      | none => some (leave s (.crashed .key), [])
      | some _ => some ({ s with vars := upd s.vars v none, p := .del t f (i + 1) k }, [])
  | .role t => some ({ s with p := if b = true then .roleIter t ⟨s.bpObj, s.bpLen, 0⟩ else .push t }, [])
  | .roleIter t it =>
    if it.obj = s.bpObj ∧ s.bpLen ≠ it.size then some (leave s (.crashed .runtime), [])
    else if it.pos < it.size then some ({ s with p := .roleIter t { it with pos := it.pos + 1 } }, [])
    -- one line was registered, there may be more
    else some ({ s with p := .role t }, [])
  | .push t => some ({ s with live := s.live ++ [s.nextF], nextF := s.nextF + 1, p := .pushStack t s.nextF }, [])
  | .pushStack t f => some ({ s with stack := upd s.stack t (f :: s.stack t), p := .path t }, [])
  | .path t => some ({ s with p := if b = true then .lockS t else .idle }, [])
  | .lockS t => if s.lock = none then some ({ s with lock := some true, p := .bps t }, []) else none
  | .bps t => some ({ s with p := .bpsIter t ⟨s.bpObj, s.bpLen, 0⟩ }, [])
  | .bpsIter t it =>
    if it.obj = s.bpObj ∧ s.bpLen ≠ it.size then some (raiseIn s (.crashed .runtime), [])
    else if it.pos < it.size then
      -- this breakpoint is returned, or the next one is looked at
      some ({ s with p := if b = true then .decide t true else .bpsIter t { it with pos := it.pos + 1 } }, [])
    else some ({ s with p := .decide t false }, [])
  | .decide t found =>
    if b = true then
      if s.state t = .step ∨ found = true then some ({ s with state := upd s.state t .wait, p := .emit t .start }, []) else none
    -- a breakpoint may have a condition that is false; breakpoints are passed while stepping out
    else some ({ s with p := .unlock t .start }, [])
  | .emit t k => some ({ s with p := .pred t k }, [.stopped t])
  | .pred t k => if s.state t = .wait then some ({ s with p := .sleep t k }, []) else some ({ s with p := .check t k }, [])
  | .sleep t k => some ({ s with lock := none, p := .asleep t k false }, [])
  | .asleep t k n => if n = true ∧ s.lock = none then some ({ s with lock := some true, p := .pred t k }, []) else none
  | .check t k => if s.state t = .fin then some (raiseIn s .ended, []) else some ({ s with p := .unlock t k }, [])
  | .unlock t k => some ({ s with lock := none, p := match k with | .start => .idle | .fin incl => if incl = true then .idle else .popStack t k }, [])
  | .lockE t incl => if s.lock = none then some ({ s with lock := some true, p := .decideE t incl }, []) else none
  | .decideE t incl =>
    if b = true then
      if s.exc = true then some ({ s with state := upd s.state t .wait, p := .frameE t incl }, []) else none
    else some ({ s with p := .check t (.fin incl) }, [])
  | .frameE t incl => match s.stack t with
    | [] => some (raiseIn s (.crashed .index), [])
    | f :: _ => if f ∈ s.live then some ({ s with p := .addRead t f incl }, []) else some (raiseIn s (.crashed .key), [])
  | .addRead t f incl =>
    if fine = true then some ({ s with p := .addWrite t f s.nextV incl }, [])
    else some ({ s with nextV := s.nextV + 1, p := .addEntry t f s.nextV incl }, [])
  | .addWrite t f v incl => some ({ s with nextV := s.nextV + 1, p := .addEntry t f v incl }, [])
  | .addEntry t f v incl => some ({ s with vars := upd s.vars v (some f), p := .addList t f v incl }, [])
  | .addList t f v incl => some ({ s with fvars := upd s.fvars f (s.fvars f ++ [v]), p := .setResult t f v incl }, [])
  | .setResult t f v incl => some ({ s with result := upd s.result f v, p := .emit t (.fin incl) }, [])
  | .reg => some ({ s with p := .regIter ⟨s.bpObj, s.bpLen, 0⟩ }, [])
  | .regIter it =>
    if it.obj = s.bpObj ∧ s.bpLen ≠ it.size then some (leave s (.crashed .runtime), [])
    else if it.pos < it.size then some ({ s with p := .regIter { it with pos := it.pos + 1 } }, [])
    else some ({ s with p := .idle }, [])
  | .exit [] w => some ({ s with p := match w with | .refresh => .idle | _ => .gone w }, [])
  | .exit (t :: ts) w => some ({ s with threads := s.threads.filter (· ≠ t), p := .exitEvent t ts w }, [])
  | .exitEvent t ts w => some ({ s with p := .exit ts w }, [.exited t])
  | .gone _ => none

/-- After the last variable was added. -/
def added (f : Nat) (got : List Nat) (sc : Bool) : R := if sc = true then .result f got else .answer (.ok got)

/-- The next variable, or the end of the loop. -/
def addNext (f n : Nat) (got : List Nat) (sc : Bool) : R :=
  match n with
  | 0 => added f got sc
  | n + 1 => .addRead f n got sc

/-- One step of the thread that handles requests. -/
def rstep (fine : Bool) (s : S) : Option (S × List Obs) :=
  match s.r with
  | .idle => none
  | .clear st => some ({ s with bpObj := s.bpObj + 1, bpLen := 0, r := .copy st }, [])
  | .copy st => some ({ s with r := .lock (some s.threads) st }, [])
  | .lock ids st =>
    if s.lock = none then
      some ({ s with lock := some false, r := match ids with | some l => .each l st | none => .iter ⟨0, s.threads.length, 0⟩ st }, [])
    else none
  | .each [] _ => some ({ s with r := .notify }, [])
  | .each (t :: ts) st =>
    if t ∈ s.threads then some ({ s with state := upd s.state t st, r := .each ts st }, []) else some ({ s with r := .unlock (.error .key) }, [])
  | .iter it st =>
    if s.threads.length ≠ it.size then some ({ s with r := .unlock (.error .runtime) }, [])
    else match s.threads[it.pos]? with
      | none => some ({ s with r := .notify }, [])
      | some t => some ({ s with r := .setOne t { it with pos := it.pos + 1 } st }, [])
  | .setOne t it st =>
    if t ∈ s.threads then some ({ s with state := upd s.state t st, r := .iter it st }, []) else some ({ s with r := .unlock (.error .key) }, [])
  | .notify => some ({ s with p := match s.p with | .asleep t k _ => .asleep t k true | p => p, r := .unlock (.ok []) }, [])
  | .unlock a => some ({ s with lock := none, r := .answer a }, [])
  | .frame f => if f ∈ s.live then some ({ s with r := .addRead f 3 [] true }, []) else some ({ s with r := .answer (.error .key) }, [])
  | .variable v n => match s.vars v with
    | none => some ({ s with r := .answer (.error .key) }, [])
    | some f => some ({ s with r := addNext f n [] false }, [])
  | .addRead f n got sc =>
    if fine = true then some ({ s with r := .addWrite f s.nextV n got sc }, [])
    else some ({ s with nextV := s.nextV + 1, r := .addEntry f s.nextV n got sc }, [])
  | .addWrite f v n got sc => some ({ s with nextV := s.nextV + 1, r := .addEntry f v n got sc }, [])
  | .addEntry f v n got sc => some ({ s with vars := upd s.vars v (some f), r := .addList f v n got sc }, [])
  | .addList f v n got sc => some ({ s with fvars := upd s.fvars f (s.fvars f ++ [v]), r := addNext f n (got ++ [v]) sc }, [])
  | .result f got => some ({ s with r := if s.result f = 0 then .answer (.ok got) else .resultVar (s.result f) got }, [])
  | .resultVar v got => match s.vars v with
    | none => some ({ s with r := .answer (.error .key) }, [])
    | some _ => some ({ s with r := .answer (.ok (v :: got)) }, [])
  | .thread t => if t ∈ s.threads then some ({ s with r := .frames t 0 [] }, []) else some ({ s with r := .answer (.error .key) }, [])
  | .frames t i got => match (s.stack t)[i]? with
    | none => some ({ s with r := .answer (.ok got) }, [])
    | some f => some ({ s with r := .frameOf t i f got }, [])
  | .frameOf t i f got =>
    if f ∈ s.live then some ({ s with r := .frames t (i + 1) (got ++ [f]) }, []) else some ({ s with r := .answer (.error .key) }, [])
  | .threads it got =>
    if s.threads.length ≠ it.size then some ({ s with r := .answer (.error .runtime) }, [])
    else match s.threads[it.pos]? with
      | none => some ({ s with r := .answer (.ok got) }, [])
      | some t => some ({ s with r := .threads { it with pos := it.pos + 1 } (got ++ [t]) }, [])
  | .bpClear kept n => some ({ s with bpObj := s.bpObj + 1, bpLen := kept, r := .bpAdd n }, [])
  | .bpAdd 0 => some ({ s with r := .answer (.ok []) }, [])
  | .bpAdd (n + 1) => some ({ s with bpLen := s.bpLen + 1, r := .bpAdd n }, [])
  | .setExc on => some ({ s with exc := on, r := .answer (.ok []) }, [])
  | .answer a => some ({ s with r := .idle }, [.answer a])

/-- The beginning of the handling of a request (debug.py:667-959, _debuggee.py:584-803). -/
def startReq (s : Sh) : Req → R
  | .one t st => .lock (some [t]) (if st = true then .step else .cont)
  | .continueAll => .lock none .cont
  | .disconnect term => .clear (if term = true then .fin else .cont)
  | .scopes f => .frame f
  | .variables v n => .variable v n
  | .stackTrace t => .thread t
  | .threads => .threads ⟨0, s.threads.length, 0⟩ []
  | .setBreakpoints kept n => .bpClear kept n
  | .setExceptions on => .setExc on

/-- One step. -/
def step (fine : Bool) (s : S) : Lbl → Option (S × List Obs)
  -- `_queue_task`, `_execute_meta` (debug.py:1088, debug.py:1126)
  | .startTask h => if s.p = .idle then some ({ s with p := .find h }, []) else none
  -- `_process_pending_results`, `_execute_meta` (debug.py:1102, debug.py:1139)
  | .endTask h incl => if s.p = .idle then
      match threadOf s.toSh h with
      | some t => if s.stack t = [] then none else some ({ s with p := .lockE t incl }, [])
      | none => none
    else none
  -- `_load_included_file` (debug.py:1106-1116)
  | .register => if s.p = .idle then some ({ s with p := .reg }, []) else none
  -- meta: refresh_inventory (debug.py:1091-1097)
  | .refresh => if s.p = .idle then some (leave s .refresh, []) else none
  -- the end of the play (debug.py:1165-1169)
  | .finish => if s.p = .idle then some (leave s .over, []) else none
  | .play b => pstep fine s b
  | .req q => if s.r = .idle then some ({ s with r := startReq s.toSh q }, []) else none
  | .go => rstep fine s

end Verif.Race
