import Verif.Strat.State
import Verif.Repl.Model
import Verif.Dap.Spec
/-!
# The messages of the debuggee

Model of `AnsibleDebugger.process_message` and `DAProtocol.on_msg_received`
(/repo/src/ansibug/_debuggee.py:118-136, 594-802), and of the DAP objects that the debug state builds for its
answers and events (/repo/src/ansibug/ansible_collections/ansibug/dap/plugins/strategy/debug.py:116-319, 668-1030,
and plugin_utils/_breakpoints.py:22-98), on top of the debug state of `Verif.Strat.State`. Line numbers without a file
refer to strategy/debug.py.

Simplifications. A request attribute of a wrong Python type is an error answer (in the code it is one for
most attributes: a failed lookup). A breakpoint's source is sent back with its name and its path only. The
DebugConfiguration event and the closing of the connection are labels of the debug state, not messages here.
-/

namespace Verif.Wire
open Verif Verif.Strat

/-- `cls(**kwargs)` where all arguments without default are given (`Dap.construct`): the attributes of the new object. -/
def fieldValue (c : Dap.Cls) (asg : Dict Str Dap.Val) (f : Dap.Field) : Dap.Val :=
  match Dict.get? asg f.name with
  | some v => v
  | none => match f.dflt with
    | some d => d
    | none => (c.attr? f.name).getD .null

/-- `cls(**kwargs)`. -/
def build (c : Dap.Cls) (asg : Dict Str Dap.Val) : Dap.Val := .obj c (c.fields.map fun f => (f.name, fieldValue c asg f))

/-- What Python and Ansible give during the handling of one message or hook: names of hosts and tasks, `str`,
`repr`, truth value and friendly type of values, `format_message` of an ErrorSummary, the arguments and host variables for a scopes
request, the outcome of templating an expression with the task variables of a frame (the text of the error if it fails), the usage text of a
console command and the traceback text of an exception. -/
structure Env where
  hostName : Nat → Str
  taskName : Nat → Str
  strOf : Heap → Val → Str
  reprRef : Heap → Addr → Str
  typeOf : Heap → Val → Str
  truthy : Heap → Val → Bool
  summary : Heap → Val → Option Str
  args : Option (Dict Key Val)
  hostVars : Option (Str × List (Str × Val))
  template : Option Addr → Str → Except Str (List Obj × Val)
  usage : Str → Str
  trace : PyErr → Str

/-- `repr(v)`. -/
def reprOf (e : Env) (h : Heap) : Val → Str
  | .atom r => r
  | .ref a => e.reprRef h a

/-- Text attribute of a request. -/
def strAttr (m : Dap.Val) (a : Str) : Option Str :=
  match m.attr? a with
  | some (.str s) => some s
  | _ => none

/-- Number attribute of a request. -/
def intAttr (m : Dap.Val) (a : Str) : Option Int :=
  match m.attr? a with
  | some (.int i) => some i
  | _ => none

/-- Truth value of an attribute. -/
def boolAttr (m : Dap.Val) (a : Str) : Bool :=
  match m.attr? a with
  | some (.bool b) => b
  | _ => false

/-- The elements of a list attribute. -/
def listAttr (m : Dap.Val) (a : Str) : List Dap.Val :=
  match m.attr? a with
  | some (.list l) => l
  | _ => []

/-! ## From messages to calls -/

/-- What the handler of a message comes down to. -/
inductive Call where
  /-- a call into the debug state or the breakpoint part -/
  | req (r : Req)
  /-- it raises without doing anything -/
  | raises (e : PyErr)
  /-- `_configuration_done.set()` -/
  | configDone
  /-- evaluation in a context that is not implemented -/
  | noEval

/-- A call with the number of an attribute as key of one of the tables; negative numbers are no keys. -/
def keyed (m : Dap.Val) (a : Str) (f : Nat → Req) : Call :=
  match intAttr m a with
  | none => .raises .type
  | some i => if i < 0 then .raises .key else .req (f i.toNat)

/-- `sf.task_vars` of the frame (debug.py:811, debug.py:841). -/
def frameVars (s : DS) (f : Nat) : Option Addr := (s.frames.get? f).map (·.taskVars)

/-- `variable.stackframe.task_vars` (debug.py:923-925). -/
def varVars (s : DS) (ref : Nat) : Option Addr := (s.vars.get? ref).bind fun v => frameVars s v.frame

/-- `repl_command` and templating (debug.py:811-834), for a frame. -/
def commandCall (e : Env) (s : DS) (f : Nat) : Option Repl.Res → Call
  | none => .raises .value
  | some .text => .req (.evaluate f .text)
  | some (.template _) => .req (.evaluate f .expr)
  | some (.remove n) => .req (.evaluate f (.removeOption n))
  | some (.setOption n x) => .req (.evaluate f (.setOption n (e.template (frameVars s f) x).toOption))
  | some (.setHostvar n x) => .req (.evaluate f (.setHostvar n (e.template (frameVars s f) x).toOption))

/-- The route of an evaluate request. -/
def route (m : Dap.Val) : Repl.Action :=
  Repl.evalRoute (strAttr m py!"context") ((strAttr m py!"expression").getD []) (intAttr m py!"frame_id")

/-- `evaluate` (debug.py:783-845). -/
def evalCall (e : Env) (s : DS) (m : Dap.Val) : Call :=
  match route m with
  | .notImplemented => .noEval
  | .expression f _ => if f < 0 then .raises .key else .req (.evaluate f.toNat .expr)
  | .command f r => if f < 0 then .raises .key else commandCall e s f.toNat r

/-- `msg.source` (_debuggee.py:673, 701). -/
def sourceOf (m : Dap.Val) : Bp.Source :=
  match m.attr? py!"source" with
  | some v => { name := strAttr v py!"name", path := strAttr v py!"path" }
  | none => { name := none, path := none }

/-- The lines of `msg.breakpoints` (_debuggee.py:691, 713, 720). -/
def linesOf (m : Dap.Val) : List Int := (listAttr m py!"breakpoints").map fun b => (intAttr b py!"line").getD 0

/-- `msg.filters` (_debuggee.py:661). -/
def filtersOf (m : Dap.Val) : List Str :=
  (listAttr m py!"filters").filterMap fun
    | .str s => some s
    | _ => none

/-- The registered handlers (_debuggee.py:601-802): which call a message of each class leads to. A message of
any other class is a NotImplementedError (_debuggee.py:599). -/
def callOf (e : Env) (s : DS) (c : Dap.Cls) (m : Dap.Val) : Call :=
  match c with
  | .ConfigurationDoneRequest => .configDone
  | .ContinueRequest =>
    if boolAttr m py!"single_thread" = true then keyed m py!"thread_id" (.cont · true) else .req (.cont 0 false)
  | .DisconnectRequest => .req (.disconnect (boolAttr m py!"terminate_debuggee"))
  | .EvaluateRequest => evalCall e s m
  | .NextRequest => keyed m py!"thread_id" .next
  | .ScopesRequest => keyed m py!"frame_id" (.scopes · e.args e.hostVars)
  | .SetExceptionBreakpointsRequest => .req (.setExc 0 (filtersOf m))
  | .SetBreakpointsRequest => .req (.setBps 0 (sourceOf m) (boolAttr m py!"source_modified") (linesOf m))
  | .SetVariableRequest =>
    keyed m py!"variables_reference" fun r =>
      .setVariable r ((strAttr m py!"name").getD []) (e.template (varVars s r) ((strAttr m py!"value").getD [])).toOption
  | .StackTraceRequest => keyed m py!"thread_id" .stackTrace
  | .StepInRequest => keyed m py!"thread_id" .stepIn
  | .StepOutRequest => keyed m py!"thread_id" .stepOut
  | .TerminateRequest => .req .terminate
  | .ThreadsRequest => .req .threads
  | .VariablesRequest => keyed m py!"variables_reference" .variables
  | _ => .raises .notImpl

/-! ## From outcomes to messages -/

/-- A response to `m`: `request_seq=msg.seq`. -/
def respond (c : Dap.Cls) (m : Dap.Val) (asg : Dict Str Dap.Val) : Dap.Val :=
  build c ((py!"request_seq", .int ((intAttr m py!"seq").getD 0)) :: asg)

/-- The answer to a request whose handler raised (_debuggee.py:131-136). -/
def errorResponse (e : Env) (m : Dap.Val) (x : PyErr) : Dap.Val :=
  respond .ErrorResponse m [(py!"command", (m.attr? py!"command").getD .null),
    (py!"message", .str (py!"Critical Debuggee exception received\n" ++ e.trace x))]

/-- `os.path.basename` (posixpath): what follows the last slash. -/
def basename (p : Str) : Str := (p.reverse.takeWhile (· != 47)).reverse

/-- `None` or a text. -/
def optStr : Option Str → Dap.Val
  | none => .null
  | some s => .str s

/-- `None` or a number. -/
def optInt : Option Int → Dap.Val
  | none => .null
  | some i => .int i

/-- `len(self._ds)` (debug.py:370-371, debug.py:397-398). -/
def sizeOf (h : Heap) (a : Addr) : Nat :=
  match h[a]? with
  | some (.dict _ es) => es.length
  | some (.seq _ xs) => xs.length
  | none => 0

/-- `named_variables` (debug.py:332-334, debug.py:396-398) of the variable with an id; 0 without one. -/
def named (s : DS) (ref : Nat) : Nat :=
  match s.vars.get? ref with
  | none => 0
  | some v => if v.kind = .list then 0 else sizeOf s.heap v.addr

/-- `indexed_variables` (debug.py:336-338, debug.py:369-371). -/
def indexed (s : DS) (ref : Nat) : Nat :=
  match s.vars.get? ref with
  | none => 0
  | some v => if v.kind = .list then sizeOf s.heap v.addr else 0

/-- `AnsibleThread.to_dap` (debug.py:116-120). -/
def threadVal (e : Env) (s : DS) (id : Nat) : Dap.Val :=
  build .Thread [(py!"id", .int id), (py!"name", .str (match (s.threads.get? id).bind (·.host) with
    | none => py!"main"
    | some h => e.hostName h))]

/-- `AnsibleStackFrame.to_dap` (debug.py:304-318). -/
def frameVal (e : Env) (s : DS) (f : Nat × Str × Int) : Dap.Val :=
  build .StackFrame [(py!"id", .int f.1),
    (py!"name", .str (match s.frames.get? f.1 with
      | none => []
      | some fr => e.taskName fr.task.node.uuid)),
    (py!"source", build .Source [(py!"name", .str (basename f.2.1)), (py!"path", .str f.2.1)]),
    (py!"line", .int f.2.2)]

/-- A scope (debug.py:733-776). -/
def scopeVal (s : DS) (x : Str × Nat) : Dap.Val :=
  build .Scope [(py!"name", .str x.1), (py!"variables_reference", .int x.2), (py!"named_variables", .int (named s x.2)),
    (py!"indexed_variables", .int (indexed s x.2)),
    (py!"expensive", .bool (x.1 == py!"Host Variables" || x.1 == py!"Global Variables"))]

/-- A variable (debug.py:903-912). -/
def variableVal (e : Env) (s : DS) (x : Str × Val × Nat) : Dap.Val :=
  build .Variable [(py!"name", .str x.1), (py!"value", .str (reprOf e s.heap x.2.1)), (py!"type", .str (e.typeOf s.heap x.2.1)),
    (py!"named_variables", .int (named s x.2.2)), (py!"indexed_variables", .int (indexed s x.2.2)), (py!"variables_reference", .int x.2.2)]

/-- A breakpoint (_debuggee.py:697-722, 850-857). -/
def bpVal (b : Bp.Bp) : Dap.Val :=
  build .Breakpoint [(py!"id", .int b.id), (py!"verified", .bool b.verified), (py!"message", optStr b.message),
    (py!"source", build .Source [(py!"name", optStr b.source.name), (py!"path", optStr b.source.path)]),
    (py!"line", optInt b.line), (py!"end_line", optInt b.endLine)]

/-- `_safe_evaluate_expression` (debug.py:1013-1030): the value or the text of the error, and the type. -/
def safeEvaluate (e : Env) (h : Heap) (tv : Option Addr) (x : Str) : Str × Option Str :=
  match e.template tv x with
  | .error t => (t, none)
  | .ok (objs, v) => (reprOf e (h ++ objs) v, some (e.typeOf (h ++ objs) v))

/-- `value` and `value_type` of `evaluate` (debug.py:787-845). -/
def evalValue (e : Env) (s : DS) (m : Dap.Val) : Str × Option Str :=
  match route m with
  | .expression f x => safeEvaluate e s.heap (frameVars s f.toNat) x
  | .command f (some (.template x)) => safeEvaluate e s.heap (frameVars s f.toNat) x
  | .command _ (some .text) => (e.usage ((strAttr m py!"expression").getD []), none)
  | .command _ _ => ([], none)
  | .notImplemented => (py!"Evaluation for " ++ (strAttr m py!"context").getD py!"None" ++ py!" is not implemented", none)

/-- `EvaluateResponse` (debug.py:847-851). -/
def evalResponse (e : Env) (s : DS) (m : Dap.Val) : Dap.Val :=
  respond .EvaluateResponse m [(py!"result", .str (evalValue e s m).1), (py!"type", optStr (evalValue e s m).2)]

/-- `SetVariableResponse` (debug.py:934-941). -/
def setVarResponse (e : Env) (s : DS) (m : Dap.Val) (ref : Nat) : Dap.Val :=
  let v := match e.template (varVars s ((intAttr m py!"variables_reference").getD 0).toNat) ((strAttr m py!"value").getD []) with
    | .ok (_, v) => v
    | .error t => .atom t
  respond .SetVariableResponse m [(py!"value", .str (reprOf e s.heap v)), (py!"type", .str (e.typeOf s.heap v)),
    (py!"variables_reference", .int ref), (py!"named_variables", .int (named s ref)), (py!"indexed_variables", .int (indexed s ref))]

/-- The class of the answer without a body (_debuggee.py:644, 765, 774, 783). -/
def plainResponse : Dap.Cls → Dap.Cls
  | .NextRequest => .NextResponse
  | .StepInRequest => .StepInResponse
  | .StepOutRequest => .StepOutResponse
  | _ => .TerminateResponse

/-- `ThreadEvent` (debug.py:661-666, debug.py:971-976). -/
def threadEvent (reason : Str) (tid : Nat) : Dap.Val := build .ThreadEvent [(py!"reason", .str reason), (py!"thread_id", .int tid)]

/-- `_format_exception` (_breakpoints.py:22-32). -/
def formatException (e : Env) (h : Heap) (get : Str → Option Val) : Str :=
  let text := match get py!"msg" with
    | some v => e.strOf h v
    | none => match get py!"stdout" with
      | some v => e.strOf h v
      | none => py!"Unknown error"
  match get py!"exception" with
  | none => text
  | some x => if e.truthy h x = true then
      match e.summary h x with
      | some t => t
      | none => text ++ py!"\n\n" ++ e.strOf h x
    else text

/-- `get_on_skipped_details` (_breakpoints.py:92-98). `None` is an atom with the text `None`. -/
def formatSkipped (e : Env) (h : Heap) (get : Str → Option Val) : Str :=
  let text := py!"Task skipped\n" ++ match get py!"skip_reason" with
    | some v => e.strOf h v
    | none => py!"Unknown reason"
  match get py!"false_condition" with
  | none => text
  | some v => if v = .atom py!"None" then text else text ++ py!"\n\nFalse condition: " ++ e.strOf h v

/-- The two parts of the details of an exception stop (_breakpoints.py:40-98). -/
def details (e : Env) (h : Heap) (get : Str → Option Val) : Exc → Str × Str
  | .failed => (py!"Task failed", formatException e h get)
  | .unreachable => (py!"Host unreachable", formatException e h get)
  | .skipped => (py!"Task skipped", formatSkipped e h get)

/-- `StoppedEvent` (debug.py:157-193, debug.py:226-236). -/
def stoppedEvent (e : Env) (h : Heap) (get : Str → Option Val) (tid : Nat) : Stop → Dap.Val
  | .brk .over => build .StoppedEvent [(py!"reason", .enum .StoppedReason py!"step"), (py!"description", .str py!"Step over"), (py!"thread_id", .int tid)]
  | .brk .out => build .StoppedEvent [(py!"reason", .enum .StoppedReason py!"step"), (py!"description", .str py!"Step out"), (py!"thread_id", .int tid)]
  | .brk .into => build .StoppedEvent [(py!"reason", .enum .StoppedReason py!"step"), (py!"description", .str py!"Step in"), (py!"thread_id", .int tid)]
  | .brk (.bp b) => build .StoppedEvent [(py!"reason", .enum .StoppedReason py!"breakpoint"), (py!"description", .str py!"Breakpoint hit"),
      (py!"hit_breakpoint_ids", .list [.int b]), (py!"thread_id", .int tid)]
  | .exc x => build .StoppedEvent [(py!"reason", .enum .StoppedReason py!"exception"), (py!"description", .str (details e h get x).1), (py!"thread_id", .int tid),
      (py!"preserve_focus_hint", .bool false), (py!"text", .str (details e h get x).2), (py!"all_threads_stopped", .bool false), (py!"hit_breakpoint_ids", .list [])]

/-- The message for an outcome. `s` is the debug state afterwards; `m` the request being handled, of class `c`
(for events of the playbook: none); `get` reads the result of the task that ended. -/
def render (e : Env) (s : DS) (c : Dap.Cls) (m : Dap.Val) (get : Str → Option Val) : Out → Dap.Val
  | .started t => threadEvent py!"started" t
  | .exited t => threadEvent py!"exited" t
  | .stopped t w => stoppedEvent e s.heap get t w
  | .ok => if c = .EvaluateRequest then evalResponse e s m else respond (plainResponse c) m []
  | .continued all => respond .ContinueResponse m [(py!"all_threads_continued", .bool all)]
  | .error x => errorResponse e m x
  | .stack fs => respond .StackTraceResponse m [(py!"stack_frames", .list (fs.map (frameVal e s))), (py!"total_frames", .int fs.length)]
  | .threads ids => respond .ThreadsResponse m [(py!"threads", .list (ids.map (threadVal e s)))]
  | .scopes ss => respond .ScopesResponse m [(py!"scopes", .list (ss.map (scopeVal s)))]
  | .variables vs => respond .VariablesResponse m [(py!"variables", .list (vs.map (variableVal e s)))]
  | .setVar ref => setVarResponse e s m ref
  | .bp (.setBpsResp _ bs) => respond .SetBreakpointsResponse m [(py!"breakpoints", .list (bs.map bpVal))]
  | .bp (.bpChanged b) => build .BreakpointEvent [(py!"reason", .str py!"changed"), (py!"breakpoint", bpVal b)]
  | .bp (.setExcResp _) => respond .SetExceptionBreakpointsResponse m []
  | .bp .initialized => build .InitializedEvent []
  | .bp (.error _) => errorResponse e m .other

/-- `on_msg_received` with `process_message` (_debuggee.py:118-136, 594-802): the debug state afterwards and the
messages queued for the adapter. -/
def handle (e : Env) (s : DS) : Dap.Val → DS × List Dap.Val
  | .obj c attrs =>
    let m := Dap.Val.obj c attrs
    match callOf e s c m with
    | .req r => ((request s r).1, (request s r).2.map (render e (request s r).1 c m fun _ => none))
    | .raises x => (s, [errorResponse e m x])
    | .configDone => (s, [respond .ConfigurationDoneResponse m []])
    | .noEval => (s, [evalResponse e s m])
  | _ => (s, [])

/-- `result.get(k)` for the result at an address of the heap. -/
def resultGet (h : Heap) (res : Addr) (k : Str) : Option Val := entry h res k

/-- The result a playbook step reports. -/
def labelGet (h : Heap) : Label → Str → Option Val
  | .done _ _ _ res => resultGet h res
  | _ => fun _ => none

/-- A step of the playbook, or of the connection, with the messages it queues. -/
def play (e : Env) (s : DS) (l : Label) : Option (DS × List Dap.Val) :=
  (step s l).map fun r => (r.1, r.2.map (render e r.1 .ProtocolMessage .null (labelGet s.heap l)))

end Verif.Wire
