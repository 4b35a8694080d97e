import Verif.Strat.Thread
import Verif.Bp.Model
/-!
# The debug state of a strategy

Model of `AnsibleDebugState` and of the calls `StrategyModule` makes into it
(/repo/src/ansibug/ansible_collections/ansibug/dap/plugins/strategy/debug.py:283-1172), together
with the handlers of `AnsibleDebugger` that reach it (/repo/src/ansibug/_debuggee.py:314-333,
459-490, 584-803, 859-867). Line numbers without a file refer to strategy/debug.py.

Simplifications. Each request is handled in one step (the handlers run in the receive thread; only
`start_task`/`end_task` are split, where they wait). The results of templating are parameters of
the requests, because Jinja is outside the model. Values are references into a heap or opaque
atoms; dataclass values are treated as atoms. The lines scanned for include_role (debug.py:530-539) are
separate `bp` steps before the task begins; `Strat/Role.lean` has the call as it is and relates the two.
-/

namespace Verif.Strat
open Verif

/-- Index of an object in the heap (Python object identity). -/
abbrev Addr := Nat

/-- A Python value: a reference to a Mapping or a non-string Sequence, or anything else, by its
`repr`. -/
inductive Val where
  | atom (repr : Str)
  | ref (a : Addr)
deriving DecidableEq, Repr

/-- A dictionary key: a string, or another hashable with its `str()`. -/
inductive Key where
  | str (s : Str)
  | other (n : Nat) (text : Str)
deriving DecidableEq, Repr

/-- `str(k)`. -/
def Key.text : Key → Str
  | .str s => s
  | .other _ t => t

/-- A container. `mutable = false`: HostVars, tuples, bytes, ... whose items cannot be assigned. -/
inductive Obj where
  | dict (mutable : Bool) (es : Dict Key Val)
  | seq (mutable : Bool) (xs : List Val)
deriving DecidableEq, Repr

/-- The containers, by address. -/
abbrev Heap := List Obj

/-- The four subclasses of `AnsibleVariable` (debug.py:357-459). -/
inductive Kind where
  | list
  | dict
  | rawStore (raw : Addr)
  | hostVars (host : Str)
deriving DecidableEq, Repr

/-- An `AnsibleVariable` (debug.py:321-355): its frame and its datastore. -/
structure Var where
  frame : Nat
  kind : Kind
  addr : Addr
deriving DecidableEq, Repr

/-- `AnsibleStackFrame` (debug.py:283-302). `task.args` is the object at `args`. `scopes` is never used. -/
structure Frame where
  task : Task
  taskVars : Addr
  args : Addr
  variables : List Nat := []
  optionsId : Nat := 0
  taskvarId : Nat := 0
  hostvarsId : Nat := 0
  resultId : Nat := 0
deriving DecidableEq, Repr

/-- Why a stopped event is sent. -/
inductive Stop where
  | brk (w : Why)
  | exc (e : Exc)
deriving DecidableEq, Repr

/-- Messages for the client. -/
inductive Out where
  | started (tid : Nat)
  | exited (tid : Nat)
  | stopped (tid : Nat) (why : Stop)
  | ok
  | continued (all : Bool)
  | error (e : PyErr)
  | stack (frames : List (Nat × Str × Int))
  | threads (ids : List Nat)
  | scopes (ss : List (Str × Nat))
  | variables (vs : List (Str × Val × Nat))
  | setVar (ref : Nat)
  | bp (o : Bp.Out)
deriving DecidableEq, Repr

/-- Where the playbook thread is: outside of the debug state, waiting for a thread in `start_task`
or in `end_task` (with whether the finished task is an include), or past its end: because of
`EndStrategy` or of another exception. -/
inductive Pc where
  | running
  | waitStart (tid : Nat)
  | waitEnd (tid : Nat) (isInclude : Bool)
  | ended
  | crashed (e : PyErr)
deriving DecidableEq, Repr

/-- `AnsibleDebugState.__init__` (debug.py:478-491) and the counters and flags of the debugger
(_debuggee.py:236-249). `hostStore` records the calls of `set_host_variable`. -/
structure DS where
  threads : Dict Nat Thread := [(1, { id := 1 })]
  frames : Dict Nat Frame := []
  vars : Dict Nat Var := []
  heap : Heap := []
  hostStore : List (Str × Str × Val) := []
  nextT : Nat := 2
  nextF : Nat := 1
  nextV : Nat := 1
  dbg : Bp.Dbg := {}
  terminated : Bool := false
  pc : Pc := .running

/-! ## Threads and frames -/

/-- The thread of a host (debug.py:510-513, debug.py:621). -/
def threadOf (s : DS) (host : Nat) : Option Thread := (s.threads.map (·.2)).find? fun t => t.host == some host

/-- `_add_thread` (debug.py:961-978). -/
def addThread (s : DS) (host : Nat) : DS × Thread × List Out :=
  let th : Thread := { id := s.nextT, host := some host }
  ({ s with threads := s.threads.set s.nextT th, nextT := s.nextT + 1 }, th, [.started s.nextT])

/-- `del self.variables[variable_id]` for each (debug.py:525-526, debug.py:646-647); `none` stands for KeyError. -/
def delVars : List Nat → Dict Nat Var → Option (Dict Nat Var)
  | [], d => some d
  | v :: vs, d => match d.get? v with
    | none => none
    | some _ => delVars vs (d.erase v)

/-- `thread.stack_frames.pop(0)` with its frame and variables (debug.py:523-526, debug.py:643-647). -/
def popFrame (s : DS) (th : Thread) : Except PyErr (DS × Thread) :=
  match th.frames with
  | [] => .error .index
  | f :: fs => match s.frames.get? f with
    | none => .error .key
    | some fr => match delVars fr.variables s.vars with
      | none => .error .key
      | some vs =>
        let th' := { th with frames := fs }
        .ok ({ s with frames := s.frames.erase f, vars := vs, threads := s.threads.set th.id th' }, th')

/-- Will the role of the task be scanned, and is there none? `fr` is the frame on top before the
synchronisation, `ps` what is above the task's block (debug.py:530-536). -/
def roleMissing (fr : Frame) (ps : List Node) (t : Task) : Bool := !ps.isEmpty && fr.task.node.isRole && !t.inRole

/-- The synchronisation of the frames of a thread with the task to start (debug.py:517-536). A task
without a role, where that role is to be scanned, gives an AttributeError; the frame on top has been
removed then, which is left out here as the run ends. The scan itself is in `Strat/Role.lean`. -/
def syncFrames (s : DS) (th : Thread) (t : Task) : Except PyErr (DS × Thread) :=
  match th.frames with
  | [] => .ok (s, th)
  | f :: _ => match t.parents with
    | [] => .error .attribute
    | _ :: ps => match s.frames.get? f with
      | none => .error .key
      | some fr => if roleMissing fr ps t = true then .error .attribute else match ps with
        | [] => popFrame s th
        | p :: _ => if fr.task.node.uuid ≠ p.uuid then popFrame s th else .ok (s, th)

/-- A new frame on top of the stack of a thread (debug.py:541-549). -/
def pushFrame (s : DS) (th : Thread) (t : Task) (taskVars args : Addr) : DS × Thread :=
  let th' := { th with frames := s.nextF :: th.frames }
  ({ s with frames := s.frames.set s.nextF { task := t, taskVars := taskVars, args := args }
            nextF := s.nextF + 1
            threads := s.threads.set th.id th' }, th')

/-- `exit_threads` (debug.py:649-666): everything but thread 1; the frames stay. -/
def exitThreads (s : DS) : DS × List Out :=
  ({ s with threads := s.threads.filter fun e => decide (e.1 = 1) },
    ((s.threads.map (·.1)).filter fun t => decide (t ≠ 1)).map .exited)

/-- The run ends: the `finally` of `run` (debug.py:1164-1173). -/
def finish (s : DS) (pc : Pc) : DS × List Out :=
  ({ (exitThreads s).1 with pc := pc }, (exitThreads s).2)

/-- A playbook step that failed with an exception after some output. -/
def crash (s : DS) (o : List Out) (e : PyErr) : DS × List Out := ((finish s (.crashed e)).1, o ++ (finish s (.crashed e)).2)

/-- The breakpoint that applies to a task: `get_breakpoint`, dropped if it has a condition that
does not hold (debug.py:587-593). `cond` gives the outcome of a breakpoint's condition (true if it has
none). -/
def bpFor (s : DS) (t : Task) (cond : Nat → Bool) : Option Nat :=
  match t.path with
  | none => none
  | some (p, l) => match Bp.getBreakpoint s.dbg p l with
    | none => none
    | some b => if cond b.id = true then some b.id else none

/-- The decision to stop, after the frame was pushed (debug.py:556-604). -/
def decideStop (s : DS) (th : Thread) (t : Task) (cond : Nat → Bool) : DS × List Out :=
  match t.path with
  | none => (s, [])
  | some _ => match whyBreak th (t.node, t.parents) (bpFor s t cond) with
    | none => (s, [])
    | some w =>
      ({ s with threads := s.threads.set th.id (afterBreak th (t.node, t.parents) (bpFor s t cond))
                pc := .waitStart th.id }, [.stopped th.id (.brk w)])

/-- `start_task` (debug.py:493-604) up to its end or to the wait. -/
def startTask (s : DS) (host : Nat) (t : Task) (taskVars args : Addr) (cond : Nat → Bool) : DS × List Out :=
  let (s, th, o) := match threadOf s host with
    | some th => (s, th, [])
    | none => addThread s host
  match syncFrames s th t with
  | .error e => crash s o e
  | .ok (s, th) =>
    let (s, th) := pushFrame s th t taskVars args
    let r := decideStop s th t cond
    (r.1, o ++ r.2)

/-- The filters now set (_debuggee.py:278-287). -/
def filters (s : DS) : Filters :=
  { onError := Bp.shouldStop s.dbg py!"on_error"
    onUnreachable := Bp.shouldStop s.dbg py!"on_unreachable"
    onSkipped := Bp.shouldStop s.dbg py!"on_skipped" }

/-! ## Variables -/

/-- `_add_variable` (debug.py:980-1000). -/
def addVar (s : DS) (frame : Nat) (kind : Kind) (addr : Addr) : DS × Nat :=
  ({ s with vars := s.vars.set s.nextV { frame := frame, kind := kind, addr := addr }
            nextV := s.nextV + 1
            frames := match s.frames.get? frame with
              | none => s.frames
              | some fr => s.frames.set frame { fr with variables := fr.variables ++ [s.nextV] } }, s.nextV)

/-- The kind of variable for a container (debug.py:988-995). -/
def kindOf (h : Heap) (a : Addr) : Kind :=
  match h[a]? with
  | some (.dict _ _) => .dict
  | _ => .list

/-- The part of `end_task` after the wait (debug.py:639-647). -/
def endAfter (s : DS) (tid : Nat) (isInclude : Bool) : DS × List Out :=
  match s.threads.get? tid with
  | none => crash s [] .key
  | some th =>
    if th.state = .fin then finish s .ended
    else if isInclude = true then ({ s with pc := .running }, [])
    else match popFrame s th with
      | .error e => crash s [] e
      | .ok (s, _) => ({ s with pc := .running }, [])

/-- `end_task` (debug.py:606-647); `res` is the address of the result dictionary. -/
def endTask (s : DS) (host : Nat) (t : Task) (r : Result) (res : Addr) : DS × List Out :=
  match threadOf s host with
  | none => crash s [] .stopIter
  | some th => match whyException t.parents r (filters s) with
    | none => endAfter s th.id t.node.isInclude
    | some e =>
      let s := { s with threads := s.threads.set th.id (afterException th t.parents r (filters s)) }
      match th.frames with
      | [] => crash s [] .index
      | f :: _ => match s.frames.get? f with
        | none => crash s [] .key
        | some _ =>
          let (s, v) := addVar s f (kindOf s.heap res) res
          let s := { s with frames := match s.frames.get? f with
              | none => s.frames
              | some fr => s.frames.set f { fr with resultId := v } }
          ({ s with pc := .waitEnd th.id t.node.isInclude }, [.stopped th.id (.exc e)])

/-! ## Requests -/

/-- `_resume_threads` (debug.py:1002-1011): an unknown thread raises KeyError after the ones before it were
set. -/
def resume : List Nat → TState → Dict Nat Thread → Dict Nat Thread × Bool
  | [], _, d => (d, true)
  | t :: ts, st, d => match d.get? t with
    | none => (d, false)
    | some th => resume ts st (d.set t (setState th st))

/-- A request that resumes threads and the answer to it. -/
def resumeReq (s : DS) (ts : List Nat) (st : TState) (o : Out) : DS × List Out :=
  let r := resume ts st s.threads
  ({ s with threads := r.1 }, [if r.2 = true then o else .error .key])

/-- `StackFrame.to_dap` (debug.py:304-319): fails for a task without a path. -/
def frameDap (s : DS) (fid : Nat) : Except PyErr (Nat × Str × Int) :=
  match s.frames.get? fid with
  | none => .error .key
  | some fr => match fr.task.path with
    | none => .error .attribute
    | some (p, l) => .ok (fid, Bp.toClient s.dbg.mappings p, l)

/-- `get_stacktrace` (debug.py:853-867). -/
def stackTrace (s : DS) (tid : Nat) : Out :=
  match s.threads.get? tid with
  | none => .error .key
  | some th => match th.frames.mapM (frameDap s) with
    | .error e => .error e
    | .ok fs => .stack fs

/-- `variable.get()` (debug.py:373-374, debug.py:400-401): the shown names and the values. -/
def listing (h : Heap) (a : Addr) : List (Str × Val) :=
  match h[a]? with
  | some (.dict _ es) => es.map fun e => (e.1.text, e.2)
  | some (.seq _ xs) => xs.zipIdx.map fun e => (natDec e.2, e.1)
  | none => []

/-- The loop of `get_variables` (debug.py:886-912): a child variable for each container. -/
def listVars (frame : Nat) : List (Str × Val) → DS → DS × List (Str × Val × Nat)
  | [], s => (s, [])
  | (n, .atom r) :: es, s =>
    let r' := listVars frame es s
    (r'.1, (n, .atom r, 0) :: r'.2)
  | (n, .ref a) :: es, s =>
    let c := addVar s frame (kindOf s.heap a) a
    let r' := listVars frame es c.1
    (r'.1, (n, .ref a, c.2) :: r'.2)

/-- `get_variables` (debug.py:878-917). -/
def getVariables (s : DS) (ref : Nat) : DS × List Out :=
  match s.vars.get? ref with
  | none => (s, [.error .key])
  | some v =>
    let r := listVars v.frame (listing s.heap v.addr) s
    (r.1, [.variables r.2])

/-- `ds[key] = value` for a string key on a dictionary (debug.py:410-415); TypeError if items cannot be
assigned. -/
def setItem (h : Heap) (a : Addr) (name : Str) (v : Val) : Except PyErr Heap :=
  match h[a]? with
  | some (.dict true es) => .ok (h.set a (.dict true (es.set (.str name) v)))
  | _ => .error .type

/-- `ds[int(name)] = value` on a sequence (debug.py:376-381). -/
def setIndex (h : Heap) (a : Addr) (name : Str) (v : Val) : Except PyErr Heap :=
  match pyInt name with
  | none => .error .value
  | some i => match h[a]? with
    | some (.seq true xs) => match Bp.pySet xs i v with
      | none => .error .index
      | some xs' => .ok (h.set a (.seq true xs'))
    | _ => .error .type

/-- `variable.set(name, value)` for the four classes (debug.py:376-381, debug.py:410-415, debug.py:435-437, debug.py:455-458): the
heap and the host variables afterwards, and whether it raised. The raw store is a plain dict. -/
def setVal (h : Heap) (hs : List (Str × Str × Val)) (v : Var) (name : Str) (x : Val) :
    Heap × List (Str × Str × Val) × Option PyErr :=
  match v.kind with
  | .list => match setIndex h v.addr name x with
    | .error e => (h, hs, some e)
    | .ok h' => (h', hs, none)
  | .dict => match setItem h v.addr name x with
    | .error e => (h, hs, some e)
    | .ok h' => (h', hs, none)
  | .rawStore raw => match setItem h v.addr name x with
    | .error e => (h, hs, some e)
    | .ok h' => match setItem h' raw name x with
      | .error e => (h', hs, some e)
      | .ok h'' => (h'', hs, none)
  | .hostVars host => match setItem h v.addr name x with
    | .error e => (h, hs, some e)
    | .ok h' => (h', hs ++ [(host, name, x)], none)

/-- What templating yields: nothing (it raised), or new objects and a value. -/
abbrev Templated := Option (List Obj × Val)

/-- `set_variable` (debug.py:919-941). -/
def setVariable (s : DS) (ref : Nat) (name : Str) (t : Templated) : DS × List Out :=
  match s.vars.get? ref with
  | none => (s, [.error .key])
  | some v => match t with
    | none => (s, [.error .other])
    | some (objs, x) =>
      let r := setVal (s.heap ++ objs) s.hostStore v name x
      let s := { s with heap := r.1, hostStore := r.2.1 }
      match r.2.2 with
      | some e => (s, [.error e])
      | none => match x with
        | .atom _ => (s, [.setVar 0])
        | .ref a =>
          let c := addVar s v.frame (kindOf s.heap a) a
          (c.1, [.setVar c.2])

/-- Dictionary entry by string key. -/
def entry (h : Heap) (a : Addr) (name : Str) : Option Val :=
  match h[a]? with
  | some (.dict _ es) => es.get? (.str name)
  | _ => none

/-- The host variables shown (debug.py:718-721): those of the host, then the task variables under names not
there yet. -/
def amalgamate (hv tv : List (Str × Val)) : Dict Key Val :=
  tv.foldl (fun d e => match d.get? (.str e.1) with | some _ => d | none => d.set (.str e.1) e.2)
    (hv.map fun e => (Key.str e.1, e.2))

/-- Set one of the remembered ids of a frame. -/
def updFrame (s : DS) (fid : Nat) (f : Frame → Frame) : DS :=
  match s.frames.get? fid with
  | none => s
  | some fr => { s with frames := s.frames.set fid (f fr) }

/-- `get_scopes` (debug.py:691-781). `args`: the templated arguments; `hv`: the variables of the host, with
its name, if they can be obtained. -/
def getScopes (s : DS) (fid : Nat) (args : Option (Dict Key Val)) (hv : Option (Str × List (Str × Val))) :
    DS × List Out :=
  match s.frames.get? fid with
  | none => (s, [.error .key])
  | some fr => match args with
    | none => (s, [.error .other])
    | some es =>
      let a := s.heap.length
      let s := { s with heap := s.heap ++ [.dict true es] }
      let (s, m) := addVar s fid (.rawStore fr.args) a
      let s := updFrame s fid fun f => { f with optionsId := m }
      let (s, tv) := addVar s fid (kindOf s.heap fr.taskVars) fr.taskVars
      let s := updFrame s fid fun f => { f with taskvarId := tv }
      match hv with
      | none => (s, [.error .key])
      | some (host, hvs) =>
        let b := s.heap.length
        let s := { s with heap := s.heap ++ [.dict true (amalgamate hvs (listing s.heap fr.taskVars))] }
        let (s, h) := addVar s fid (.hostVars host) b
        let s := updFrame s fid fun f => { f with hostvarsId := h }
        match entry s.heap fr.taskVars py!"vars" with
        | some (.ref g) =>
          let (s, gv) := addVar s fid (kindOf s.heap g) g
          (s, [.scopes ((if fr.resultId = 0 then [] else [(py!"Module Result", fr.resultId)]) ++
            [(py!"Module Options", m), (py!"Task Variables", tv), (py!"Host Variables", h), (py!"Global Variables", gv)])])
        | _ => (s, [.error .key])

/-- `variable.remove(name)` (debug.py:343-347, debug.py:403-408, debug.py:431-433); the raw store is a plain dict. -/
def removeVal (h : Heap) (v : Var) (name : Str) : Except PyErr Heap :=
  let del (h : Heap) (a : Addr) : Except PyErr Heap := match h[a]? with
    | some (.dict m es) =>
      if (es.get? (.str name)).isNone = true then .ok h
      else if m = true then .ok (h.set a (.dict m (es.erase (.str name)))) else .error .type
    | _ => .error .type
  match v.kind with
  | .list => .error .notImpl
  | .rawStore raw => match del h v.addr with
    | .error e => .error e
    | .ok h' => del h' raw
  | _ => del h v.addr

/-- What an evaluate request asks for (debug.py:783-851), after parsing: an expression (or a `template`
command), or one of the console commands with the outcome of templating its expression. -/
inductive Eval where
  | expr
  | removeOption (name : Str)
  | setOption (name : Str) (t : Templated)
  | setHostvar (name : Str) (t : Templated)
  | text
deriving DecidableEq, Repr

/-- The loop of a set command over variable ids (debug.py:832-834). -/
def setAll (s : DS) (name : Str) (x : Val) : List Nat → DS × List Out
  | [] => (s, [.ok])
  | i :: is => match s.vars.get? i with
    | none => (s, [.error .key])
    | some v =>
      let r := setVal s.heap s.hostStore v name x
      let s := { s with heap := r.1, hostStore := r.2.1 }
      match r.2.2 with
      | some e => (s, [.error e])
      | none => setAll s name x is

/-- `evaluate` (debug.py:783-851) for a request with a frame id. -/
def evaluate (s : DS) (fid : Nat) (e : Eval) : DS × List Out :=
  match s.frames.get? fid with
  | none => (s, [.error .key])
  | some fr => match e with
    | .expr => (s, [.ok])
    | .text => (s, [.ok])
    | .removeOption n => match s.vars.get? fr.optionsId with
      | none => (s, [.error .key])
      | some v => match removeVal s.heap v n with
        | .error e => (s, [.error e])
        | .ok h => ({ s with heap := h }, [.ok])
    | .setOption n t => match t with
      | none => (s, [.error .other])
      | some (objs, x) => setAll { s with heap := s.heap ++ objs } n x [fr.optionsId]
    | .setHostvar n t => match t with
      | none => (s, [.error .other])
      | some (objs, x) => setAll { s with heap := s.heap ++ objs } n x [fr.taskvarId, fr.hostvarsId]

/-! ## Steps -/

/-- The requests of the client that reach the debug state, and what the connection does. -/
inductive Req where
  | cont (tid : Nat) (single : Bool)
  | stepIn (tid : Nat)
  | stepOut (tid : Nat)
  | next (tid : Nat)
  | stackTrace (tid : Nat)
  | threads
  | scopes (fid : Nat) (args : Option (Dict Key Val)) (hv : Option (Str × List (Str × Val)))
  | variables (ref : Nat)
  | setVariable (ref : Nat) (name : Str) (t : Templated)
  | evaluate (fid : Nat) (e : Eval)
  | disconnect (terminate : Bool)
  | terminate
  | closed
  | setBps (seq : Nat) (src : Bp.Source) (modified : Bool) (lines : List Int)
  | setExc (seq : Nat) (filters : List Str)
  | config (ms : List (Str × Str))

/-- What happens: the playbook starts or finishes a task, its inventory is refreshed, a new play
begins, lines are registered, Ansible changes its variables (any objects may be there afterwards),
the playbook thread wakes up, or a request is handled. -/
inductive Label where
  | start (host : Nat) (t : Task) (taskVars args : Addr) (cond : Nat → Bool)
  | done (host : Nat) (t : Task) (r : Result) (res : Addr)
  | refresh
  | newPlay
  | reg (path : Str) (line : Int) (ty : Nat)
  | env (h : Heap)
  | wake
  | req (r : Req)

/-- A step of the breakpoint part. -/
def bpStep (s : DS) (a : Bp.Act) : DS × List Out :=
  ({ s with dbg := (Bp.step s.dbg a).1 }, (Bp.step s.dbg a).2.map .bp)

/-- A line is registered by the playbook thread while a file or a role is loaded (debug.py:536-539, debug.py:1114 and
_debuggee.py:530-577). An exception goes on to the end of the run; the messages queued before it are sent. -/
def registerLine (s : DS) (p : Str) (l : Int) (ty : Nat) : DS × List Out :=
  match (Bp.register p l ty s.dbg).2.2 with
  | none => bpStep s (.reg p l ty)
  | some e => crash (bpStep s (.reg p l ty)).1 (bpStep s (.reg p l ty)).2 e

/-- Disconnection of the client (_debuggee.py:859-867 and strategy/debug.py:684-689). -/
def disconnect (s : DS) (st : TState) : DS :=
  { s with dbg := Bp.forget s.dbg, threads := (resume (s.threads.map (·.1)) st s.threads).1 }

/-- Handling of a request (_debuggee.py:594-820; debug.py:668-1000). `terminate` is _debuggee.py:776-784 and `closed`
is `connection_closed` with `shutdown` (_debuggee.py:138-147, 468-490). The answers that a
disconnect gets are sent by the adapter. -/
def request (s : DS) : Req → DS × List Out
  | .cont t true => resumeReq s [t] .cont (.continued false)
  | .cont _ false => resumeReq s (s.threads.map (·.1)) .cont (.continued true)
  | .stepIn t => resumeReq s [t] .stepIn .ok
  | .stepOut t => resumeReq s [t] .stepOut .ok
  | .next t => resumeReq s [t] .stepOver .ok
  | .stackTrace t => (s, [stackTrace s t])
  | .threads => (s, [.threads (s.threads.map (·.1))])
  | .scopes f a h => getScopes s f a h
  | .variables r => getVariables s r
  | .setVariable r n t => setVariable s r n t
  | .evaluate f e => evaluate s f e
  | .disconnect term => (disconnect s (if term = true then .fin else .cont), [])
  | .terminate => (disconnect { s with terminated := true } .fin, [.ok])
  | .closed => (if s.terminated = true then { s with dbg := Bp.forget s.dbg } else disconnect s .cont, [])
  | .setBps seq src m ls => bpStep s (.setBps seq src m ls)
  | .setExc seq fs => bpStep s (.setExc seq fs)
  | .config ms => bpStep s (.config ms)

/-- One step; `none` if it is not possible now. The playbook thread only runs when it does not wait
(`wait_for`, debug.py:599 and debug.py:638) and has not ended. -/
def step (s : DS) : Label → Option (DS × List Out)
  | .start h t tv args c => if s.pc = .running then some (startTask s h t tv args c) else none
  | .done h t r res => if s.pc = .running then some (endTask s h t r res) else none
  | .refresh => if s.pc = .running then some (exitThreads s) else none
  | .newPlay => if s.pc = .running then
      some ({ (exitThreads s).1 with threads := [(1, { id := 1 })], frames := [], vars := [] }, (exitThreads s).2) else none
  | .reg p l ty => if s.pc = .running then some (registerLine s p l ty) else none
  | .env h => some ({ s with heap := h }, [])
  | .wake => match s.pc with
    | .waitStart tid => match s.threads.get? tid with
      | none => some (crash s [] .key)
      | some th =>
        if th.state = .wait then none
        else if th.state = .fin then some (finish s .ended)
        else some ({ s with pc := .running }, [])
    | .waitEnd tid inc => match s.threads.get? tid with
      | none => some (crash s [] .key)
      | some th => if th.state = .wait then none else some (endAfter s tid inc)
    | _ => none
  | .req r => some (request s r)

/-- Histories: `Run s ls s' os` if the labels `ls` lead from `s` to `s'` with the messages `os`. -/
inductive Run : DS → List Label → DS → List Out → Prop where
  | nil (s) : Run s [] s []
  | cons {s s₁ s₂ l ls o os} : step s l = some (s₁, o) → Run s₁ ls s₂ os → Run s (l :: ls) s₂ (o ++ os)

end Verif.Strat
