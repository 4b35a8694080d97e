import Verif.Json.Model
/-!
# DAP classes: values and the shape of the class tables

`EnumId` and `Cls` (generated by tools/gen_dap.py) name the enumerations and classes of
/repo/src/ansibug/dap. `Val` are the Python values that DAP objects are made of.
-/

namespace Verif.Dap

/-- The enumerations (/repo/src/ansibug/dap/_messages.py:15-59, _events.py:14-23). -/
inductive EnumId where
  | MessageType
  | Command
  | EventType
  | StoppedReason
deriving DecidableEq, Repr

/-- The classes created by `DAPObjectMeta`. -/
inductive Cls where
  | ProtocolMessage
  | Request
  | Event
  | Response
  | Breakpoint
  | Capabilities
  | Checksum
  | ExceptionBreakpointsFilter
  | ExceptionFilterOptions
  | ExceptionOptions
  | ExceptionPathSegment
  | Message
  | Scope
  | Source
  | SourceBreakpoint
  | StackFrame
  | StackFrameFormat
  | Thread
  | ValueFormat
  | Variable
  | VariablePresentationHint
  | AttachRequest
  | CancelRequest
  | ConfigurationDoneRequest
  | ContinueRequest
  | DisconnectRequest
  | EvaluateRequest
  | InitializeRequest
  | LaunchRequest
  | NextRequest
  | RunInTerminalRequest
  | ScopesRequest
  | SetBreakpointsRequest
  | SetExceptionBreakpointsRequest
  | SetVariableRequest
  | StackTraceRequest
  | StepInRequest
  | StepOutRequest
  | TerminateRequest
  | ThreadsRequest
  | VariablesRequest
  | AttachResponse
  | CancelResponse
  | ConfigurationDoneResponse
  | ContinueResponse
  | DisconnectResponse
  | EvaluateResponse
  | InitializeResponse
  | LaunchResponse
  | NextResponse
  | RunInTerminalResponse
  | ScopesResponse
  | SetBreakpointsResponse
  | SetExceptionBreakpointsResponse
  | SetVariableResponse
  | StackTraceResponse
  | StepInResponse
  | StepOutResponse
  | TerminateResponse
  | ThreadsResponse
  | VariablesResponse
  | ErrorResponse
  | BreakpointEvent
  | ExitedEvent
  | InitializedEvent
  | OutputEvent
  | StoppedEvent
  | TerminatedEvent
  | ThreadEvent
deriving DecidableEq, Repr

/-- A Python value held by a DAP object. A float is its literal text (as in `Json`);
dictionaries have string keys; an object is its class and its attributes in field order. -/
inductive Val where
  | null
  | bool (b : Bool)
  | int (i : Int)
  | flt (lit : Str)
  | str (s : Str)
  | list (l : List Val)
  | dict (l : List (Str × Val))
  | enum (e : EnumId) (value : Str)
  | obj (c : Cls) (attrs : List (Str × Val))
deriving Repr, Inhabited

/-- Entry of a DAP key mapping: an attribute name or a nested mapping (no mapping in the
code nests deeper than this, so the nested one maps to attribute names only). -/
inductive Entry where
  | attr (name : Str)
  | sub (m : List (Str × Str))
deriving DecidableEq, Repr

/-- A DAP key mapping (`_dap`). -/
abbrev DapMap := List (Str × Entry)

/-- Type annotations that occur in the DAP dataclasses. `tlist`/`tdict` are `typing.List` and
`typing.Dict`, `list` is the builtin `list[...]`, `pipeNone` is `X | None`. -/
inductive Ann where
  | int | str | bool | any
  | literal (vals : List Str)
  | optional (a : Ann)
  | union (as : List Ann)
  | pipeNone (a : Ann)
  | tlist (a : Ann)
  | list (a : Ann)
  | tdict (a : Ann)
  | enum (e : EnumId)
  | cls (c : Cls)
deriving Repr

/-- A dataclass field: name, `init` flag, default (`none`: no default) and annotation. -/
structure Field where
  name : Str
  init : Bool
  dflt : Option Val
  ann : Ann
deriving Repr

end Verif.Dap
