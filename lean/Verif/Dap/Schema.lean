import Verif.Dap.Base
/-!
# The Debug Adapter Protocol, as its published schema states it

Transcribed from the protocol's JSON schema (debugAdapterProtocol.json), not from /repo: which
members each message and type has, which of them are required, and their types. Only the names
of the classes in `Cls` are used, as names of the schema's definitions. Optional members that
/repo does not know are left out; a document may have any members in addition to those listed.
-/

namespace Verif.Dap.Schema
open Verif Verif.Dap

/-- A definition of the schema: a message or type, or the `body` / `arguments` object of a
message. -/
inductive Def where
  | top (c : Cls)
  | body (c : Cls)
deriving DecidableEq, Repr

/-- The type of a member. `oneOf` is a closed enumeration (`enum` in the schema; the open ones,
`_enum`, are `str`), `orNull` a type list that includes null, `alt` a type list, `map` an object
with `additionalProperties`. -/
inductive Sch where
  | any | int | str | bool
  | oneOf (vals : List Str)
  | orNull (s : Sch)
  | alt (s t : Sch)
  | arr (s : Sch)
  | map (s : Sch)
  | obj (d : Def)
deriving DecidableEq, Repr

/-- A member: its key, whether it is required, and its type. -/
structure Member where
  key : Str
  required : Bool
  sch : Sch
deriving DecidableEq, Repr

/-- A required and an optional member. -/
def req (k : Str) (s : Sch) : Member := ⟨k, true, s⟩
def opt (k : Str) (s : Sch) : Member := ⟨k, false, s⟩

/-- An object of another definition. -/
def ref (c : Cls) : Sch := .obj (.top c)

/-- The members every request has. -/
def request (command : Str) : List Member :=
  [req py!"seq" .int, req py!"type" (.oneOf [py!"request"]), req py!"command" (.oneOf [command])]

/-- The members every response has. A response that is no error is successful. -/
def response (command : Str) : List Member :=
  [req py!"seq" .int, req py!"type" (.oneOf [py!"response"]), req py!"request_seq" .int, req py!"success" .bool,
    req py!"command" (.oneOf [command])]

/-- The members every event has. -/
def event (name : Str) : List Member :=
  [req py!"seq" .int, req py!"type" (.oneOf [py!"event"]), req py!"event" (.oneOf [name])]

/-- `ChecksumAlgorithm`. -/
def checksumAlgorithm : Sch := .oneOf [py!"MD5", py!"SHA1", py!"SHA256", py!"timestamp"]
/-- `SteppingGranularity`. -/
def granularity : Sch := .oneOf [py!"statement", py!"line", py!"instruction"]

/-- The members of a type, and of a message. -/
def topMembers : Cls → List Member
  -- abstract
  | .ProtocolMessage => []
  | .Request => []
  | .Event => []
  | .Response => []
  -- types
  | .Breakpoint => [opt py!"id" .int, req py!"verified" .bool, opt py!"message" .str, opt py!"source" (ref .Source), opt py!"line" .int,
      opt py!"column" .int, opt py!"endLine" .int, opt py!"endColumn" .int, opt py!"instructionReference" .str, opt py!"offset" .int]
  | .Capabilities => [opt py!"supportsConfigurationDoneRequest" .bool, opt py!"supportsFunctionBreakpoints" .bool,
      opt py!"supportsConditionalBreakpoints" .bool, opt py!"supportsHitConditionalBreakpoints" .bool, opt py!"supportsEvaluateForHovers" .bool,
      opt py!"exceptionBreakpointFilters" (.arr (ref .ExceptionBreakpointsFilter)), opt py!"supportsStepBack" .bool,
      opt py!"supportsSetVariable" .bool, opt py!"supportsRestartFrame" .bool, opt py!"supportsGotoTargetsRequest" .bool,
      opt py!"supportsStepInTargetsRequest" .bool, opt py!"supportsCompletionsRequest" .bool, opt py!"supportTerminateDebuggee" .bool,
      opt py!"supportSuspendDebuggee" .bool, opt py!"supportsTerminateRequest" .bool, opt py!"supportsClipboardContext" .bool]
  | .Checksum => [req py!"algorithm" checksumAlgorithm, req py!"checksum" .str]
  | .ExceptionBreakpointsFilter => [req py!"filter" .str, req py!"label" .str, opt py!"description" .str, opt py!"default" .bool,
      opt py!"supportsCondition" .bool, opt py!"conditionDescription" .str]
  | .ExceptionFilterOptions => [req py!"filterId" .str, opt py!"condition" .str]
  | .ExceptionOptions => [opt py!"path" (.arr (ref .ExceptionPathSegment)),
      req py!"breakMode" (.oneOf [py!"never", py!"always", py!"unhandled", py!"userUnhandled"])]
  | .ExceptionPathSegment => [opt py!"negate" .bool, req py!"names" (.arr .str)]
  | .Message => [req py!"id" .int, req py!"format" .str, opt py!"variables" (.map .str), opt py!"sendTelemetry" .bool,
      opt py!"showUser" .bool, opt py!"url" .str, opt py!"urlLabel" .str]
  | .Scope => [req py!"name" .str, opt py!"presentationHint" .str, req py!"variablesReference" .int, opt py!"namedVariables" .int,
      opt py!"indexedVariables" .int, req py!"expensive" .bool, opt py!"source" (ref .Source), opt py!"line" .int, opt py!"column" .int,
      opt py!"endLine" .int, opt py!"endColumn" .int]
  | .Source => [opt py!"name" .str, opt py!"path" .str, opt py!"sourceReference" .int,
      opt py!"presentationHint" (.oneOf [py!"normal", py!"emphasize", py!"deemphasize"]), opt py!"origin" .str,
      opt py!"sources" (.arr (ref .Source)), opt py!"adapterData" .any, opt py!"checksums" (.arr (ref .Checksum))]
  | .SourceBreakpoint => [req py!"line" .int, opt py!"column" .int, opt py!"condition" .str, opt py!"hitCondition" .str, opt py!"logMessage" .str]
  | .StackFrame => [req py!"id" .int, req py!"name" .str, opt py!"source" (ref .Source), req py!"line" .int, req py!"column" .int,
      opt py!"endLine" .int, opt py!"endColumn" .int, opt py!"canRestart" .bool, opt py!"instructionPointerReference" .str,
      opt py!"moduleId" (.alt .int .str), opt py!"presentationHint" (.oneOf [py!"normal", py!"label", py!"subtle"])]
  | .StackFrameFormat => [opt py!"parameters" .bool, opt py!"parameterTypes" .bool, opt py!"parameterNames" .bool,
      opt py!"parameterValues" .bool, opt py!"line" .bool, opt py!"module" .bool, opt py!"includeAll" .bool]
  | .Thread => [req py!"id" .int, req py!"name" .str]
  | .ValueFormat => [opt py!"hex" .bool]
  | .Variable => [req py!"name" .str, req py!"value" .str, opt py!"type" .str, opt py!"presentationHint" (ref .VariablePresentationHint),
      opt py!"evaluateName" .str, req py!"variablesReference" .int, opt py!"namedVariables" .int, opt py!"indexedVariables" .int,
      opt py!"memoryReference" .str]
  | .VariablePresentationHint => [opt py!"kind" .str, opt py!"attributes" (.arr .str), opt py!"visibility" .str, opt py!"lazy" .bool]
  -- requests
  | .AttachRequest => request py!"attach" ++ [req py!"arguments" (.obj (.body .AttachRequest))]
  | .CancelRequest => request py!"cancel" ++ [opt py!"arguments" (.obj (.body .CancelRequest))]
  | .ConfigurationDoneRequest => request py!"configurationDone" ++ [opt py!"arguments" (.obj (.body .ConfigurationDoneRequest))]
  | .ContinueRequest => request py!"continue" ++ [req py!"arguments" (.obj (.body .ContinueRequest))]
  | .DisconnectRequest => request py!"disconnect" ++ [opt py!"arguments" (.obj (.body .DisconnectRequest))]
  | .EvaluateRequest => request py!"evaluate" ++ [req py!"arguments" (.obj (.body .EvaluateRequest))]
  | .InitializeRequest => request py!"initialize" ++ [req py!"arguments" (.obj (.body .InitializeRequest))]
  | .LaunchRequest => request py!"launch" ++ [req py!"arguments" (.obj (.body .LaunchRequest))]
  | .NextRequest => request py!"next" ++ [req py!"arguments" (.obj (.body .NextRequest))]
  | .RunInTerminalRequest => request py!"runInTerminal" ++ [req py!"arguments" (.obj (.body .RunInTerminalRequest))]
  | .ScopesRequest => request py!"scopes" ++ [req py!"arguments" (.obj (.body .ScopesRequest))]
  | .SetBreakpointsRequest => request py!"setBreakpoints" ++ [req py!"arguments" (.obj (.body .SetBreakpointsRequest))]
  | .SetExceptionBreakpointsRequest => request py!"setExceptionBreakpoints" ++
      [req py!"arguments" (.obj (.body .SetExceptionBreakpointsRequest))]
  | .SetVariableRequest => request py!"setVariable" ++ [req py!"arguments" (.obj (.body .SetVariableRequest))]
  | .StackTraceRequest => request py!"stackTrace" ++ [req py!"arguments" (.obj (.body .StackTraceRequest))]
  | .StepInRequest => request py!"stepIn" ++ [req py!"arguments" (.obj (.body .StepInRequest))]
  | .StepOutRequest => request py!"stepOut" ++ [req py!"arguments" (.obj (.body .StepOutRequest))]
  | .TerminateRequest => request py!"terminate" ++ [opt py!"arguments" (.obj (.body .TerminateRequest))]
  | .ThreadsRequest => request py!"threads"
  | .VariablesRequest => request py!"variables" ++ [req py!"arguments" (.obj (.body .VariablesRequest))]
  -- responses
  | .AttachResponse => response py!"attach"
  | .CancelResponse => response py!"cancel"
  | .ConfigurationDoneResponse => response py!"configurationDone"
  | .ContinueResponse => response py!"continue" ++ [req py!"body" (.obj (.body .ContinueResponse))]
  | .DisconnectResponse => response py!"disconnect"
  | .EvaluateResponse => response py!"evaluate" ++ [req py!"body" (.obj (.body .EvaluateResponse))]
  | .InitializeResponse => response py!"initialize" ++ [opt py!"body" (ref .Capabilities)]
  | .LaunchResponse => response py!"launch"
  | .NextResponse => response py!"next"
  | .RunInTerminalResponse => response py!"runInTerminal" ++ [req py!"body" (.obj (.body .RunInTerminalResponse))]
  | .ScopesResponse => response py!"scopes" ++ [req py!"body" (.obj (.body .ScopesResponse))]
  | .SetBreakpointsResponse => response py!"setBreakpoints" ++ [req py!"body" (.obj (.body .SetBreakpointsResponse))]
  | .SetExceptionBreakpointsResponse => response py!"setExceptionBreakpoints" ++
      [opt py!"body" (.obj (.body .SetExceptionBreakpointsResponse))]
  | .SetVariableResponse => response py!"setVariable" ++ [req py!"body" (.obj (.body .SetVariableResponse))]
  | .StackTraceResponse => response py!"stackTrace" ++ [req py!"body" (.obj (.body .StackTraceResponse))]
  | .StepInResponse => response py!"stepIn"
  | .StepOutResponse => response py!"stepOut"
  | .TerminateResponse => response py!"terminate"
  | .ThreadsResponse => response py!"threads" ++ [req py!"body" (.obj (.body .ThreadsResponse))]
  | .VariablesResponse => response py!"variables" ++ [req py!"body" (.obj (.body .VariablesResponse))]
  | .ErrorResponse => [req py!"seq" .int, req py!"type" (.oneOf [py!"response"]), req py!"request_seq" .int, req py!"success" .bool,
      req py!"command" .str, opt py!"message" .str, req py!"body" (.obj (.body .ErrorResponse))]
  -- events
  | .BreakpointEvent => event py!"breakpoint" ++ [req py!"body" (.obj (.body .BreakpointEvent))]
  | .ExitedEvent => event py!"exited" ++ [req py!"body" (.obj (.body .ExitedEvent))]
  | .InitializedEvent => event py!"initialized"
  | .OutputEvent => event py!"output" ++ [req py!"body" (.obj (.body .OutputEvent))]
  | .StoppedEvent => event py!"stopped" ++ [req py!"body" (.obj (.body .StoppedEvent))]
  | .TerminatedEvent => event py!"terminated" ++ [opt py!"body" (.obj (.body .TerminatedEvent))]
  | .ThreadEvent => event py!"thread" ++ [req py!"body" (.obj (.body .ThreadEvent))]

/-- The members of the `arguments` of a request and of the `body` of a response or event. -/
def bodyMembers : Cls → List Member
  | .AttachRequest => [opt py!"__restart" .any]
  | .CancelRequest => [opt py!"requestId" .int, opt py!"progressId" .str]
  | .ContinueRequest => [req py!"threadId" .int, opt py!"singleThread" .bool]
  | .DisconnectRequest => [opt py!"restart" .bool, opt py!"terminateDebuggee" .bool, opt py!"suspendDebuggee" .bool]
  | .EvaluateRequest => [req py!"expression" .str, opt py!"frameId" .int, opt py!"context" .str, opt py!"format" (ref .ValueFormat)]
  | .InitializeRequest => [opt py!"clientID" .str, opt py!"clientName" .str, req py!"adapterID" .str, opt py!"locale" .str,
      opt py!"linesStartAt1" .bool, opt py!"columnsStartAt1" .bool, opt py!"pathFormat" .str, opt py!"supportsVariableType" .bool,
      opt py!"supportsVariablePaging" .bool, opt py!"supportsRunInTerminalRequest" .bool, opt py!"supportsMemoryReferences" .bool,
      opt py!"supportsProgressReporting" .bool, opt py!"supportsInvalidatedEvent" .bool, opt py!"supportsMemoryEvent" .bool]
  | .LaunchRequest => [opt py!"noDebug" .bool, opt py!"__restart" .any]
  | .NextRequest => [req py!"threadId" .int, opt py!"singleThread" .bool, opt py!"granularity" granularity]
  | .RunInTerminalRequest => [opt py!"kind" (.oneOf [py!"integrated", py!"external"]), opt py!"title" .str, req py!"cwd" .str,
      req py!"args" (.arr .str), opt py!"env" (.map (.orNull .str))]
  | .ScopesRequest => [req py!"frameId" .int]
  | .SetBreakpointsRequest => [req py!"source" (ref .Source), opt py!"breakpoints" (.arr (ref .SourceBreakpoint)), opt py!"lines" (.arr .int),
      opt py!"sourceModified" .bool]
  | .SetExceptionBreakpointsRequest => [req py!"filters" (.arr .str), opt py!"filterOptions" (.arr (ref .ExceptionFilterOptions)),
      opt py!"exceptionOptions" (.arr (ref .ExceptionOptions))]
  | .SetVariableRequest => [req py!"variablesReference" .int, req py!"name" .str, req py!"value" .str, opt py!"format" (ref .ValueFormat)]
  | .StackTraceRequest => [req py!"threadId" .int, opt py!"startFrame" .int, opt py!"levels" .int, opt py!"format" (ref .StackFrameFormat)]
  | .StepInRequest => [req py!"threadId" .int, opt py!"singleThread" .bool, opt py!"targetId" .int, opt py!"granularity" granularity]
  | .StepOutRequest => [req py!"threadId" .int, opt py!"singleThread" .bool, opt py!"granularity" granularity]
  | .TerminateRequest => [opt py!"restart" .bool]
  | .VariablesRequest => [req py!"variablesReference" .int, opt py!"filter" (.oneOf [py!"indexed", py!"named"]), opt py!"start" .int,
      opt py!"count" .int, opt py!"format" (ref .ValueFormat)]
  | .ContinueResponse => [opt py!"allThreadsContinued" .bool]
  | .EvaluateResponse => [req py!"result" .str, opt py!"type" .str, opt py!"presentationHint" (ref .VariablePresentationHint),
      req py!"variablesReference" .int, opt py!"namedVariables" .int, opt py!"indexedVariables" .int, opt py!"memoryReference" .str]
  | .RunInTerminalResponse => [opt py!"processId" .int, opt py!"shellProcessId" .int]
  | .ScopesResponse => [req py!"scopes" (.arr (ref .Scope))]
  | .SetBreakpointsResponse => [req py!"breakpoints" (.arr (ref .Breakpoint))]
  | .SetExceptionBreakpointsResponse => [opt py!"breakpoints" (.arr (ref .Breakpoint))]
  | .SetVariableResponse => [req py!"value" .str, opt py!"type" .str, opt py!"variablesReference" .int, opt py!"namedVariables" .int,
      opt py!"indexedVariables" .int]
  | .StackTraceResponse => [req py!"stackFrames" (.arr (ref .StackFrame)), opt py!"totalFrames" .int]
  | .ThreadsResponse => [req py!"threads" (.arr (ref .Thread))]
  | .VariablesResponse => [req py!"variables" (.arr (ref .Variable))]
  | .ErrorResponse => [opt py!"error" (ref .Message)]
  | .BreakpointEvent => [req py!"reason" .str, req py!"breakpoint" (ref .Breakpoint)]
  | .ExitedEvent => [req py!"exitCode" .int]
  | .OutputEvent => [opt py!"category" .str, req py!"output" .str, opt py!"group" (.oneOf [py!"start", py!"startCollapsed", py!"end"]),
      opt py!"variablesReference" .int, opt py!"source" (ref .Source), opt py!"line" .int, opt py!"column" .int, opt py!"data" .any]
  | .StoppedEvent => [req py!"reason" .str, opt py!"description" .str, opt py!"threadId" .int, opt py!"preserveFocusHint" .bool,
      opt py!"text" .str, opt py!"allThreadsStopped" .bool, opt py!"hitBreakpointIds" (.arr .int)]
  | .TerminatedEvent => [opt py!"restart" .any]
  | .ThreadEvent => [req py!"reason" .str, req py!"threadId" .int]
  | _ => []

/-- The members of a definition. -/
def Def.members : Def → List Member
  | .top c => topMembers c
  | .body c => bodyMembers c

/-- The document conforms to the schema. With `strict = false` an optional member may also be
present with the value null (which the schema itself does not allow). -/
inductive Valid (strict : Bool) : Sch → Json → Prop
  | any (j) : Valid strict .any j
  | int (i) : Valid strict .int (.int i)
  | str (s) : Valid strict .str (.str s)
  | bool (b) : Valid strict .bool (.bool b)
  | oneOf (vals s) (h : s ∈ vals) : Valid strict (.oneOf vals) (.str s)
  | null (s) : Valid strict (.orNull s) .null
  | nonNull (s j) (h : Valid strict s j) : Valid strict (.orNull s) j
  | altL (s t j) (h : Valid strict s j) : Valid strict (.alt s t) j
  | altR (s t j) (h : Valid strict t j) : Valid strict (.alt s t) j
  | arr (s) (l : List Json) (h : ∀ j ∈ l, Valid strict s j) : Valid strict (.arr s) (.arr l)
  | map (s) (l : List (Str × Json)) (h : ∀ kv ∈ l, Valid strict s kv.2) : Valid strict (.map s) (.obj l)
  | obj (d : Def) (l : List (Str × Json)) (hn : (l.map (·.1)).Nodup)
      (hreq : ∀ m ∈ d.members, m.required = true → (Dict.get? l m.key).isSome = true)
      (h : ∀ m ∈ d.members, ∀ v, Dict.get? l m.key = some v → ¬ (strict = false ∧ m.required = false ∧ v = .null) → Valid strict m.sch v) :
      Valid strict (.obj d) (.obj l)

end Verif.Dap.Schema
