import Verif.Dap.Base
/-!
# The DAP class tables (generated by tools/gen_dap.py from the text of /repo/src/ansibug/dap)

One constructor per class; per class its base class, its own `dap=` key mapping, its own
dataclass fields (name, init flag, default, annotation) and the class attributes it assigns.
-/

namespace Verif.Dap

-- enum MessageType: _messages.py:14-17
-- enum Command: _messages.py:20-40
-- enum EventType: _messages.py:43-60
-- enum StoppedReason: _events.py:14-23
/-- The enumeration's values, in definition order. -/
def EnumId.values : EnumId → List Str
  | .MessageType => [py!"request", py!"response", py!"event"]
  | .Command => [py!"attach", py!"cancel", py!"configurationDone", py!"continue", py!"disconnect", py!"evaluate", py!"initialize", py!"launch", py!"next", py!"runInTerminal", py!"setBreakpoints", py!"setExceptionBreakpoints", py!"setVariable", py!"stackTrace", py!"stepIn", py!"stepOut", py!"terminate", py!"threads", py!"scopes", py!"variables"]
  | .EventType => [py!"initialized", py!"stopped", py!"continued", py!"exited", py!"terminated", py!"thread", py!"output", py!"breakpoint", py!"module", py!"loadedSource", py!"process", py!"capabilities", py!"progressStart", py!"progressUpdate", py!"progressEnd", py!"invalidated", py!"memory"]
  | .StoppedReason => [py!"step", py!"breakpoint", py!"exception", py!"pause", py!"entry", py!"goto", py!"function breakpoint", py!"data breakpoint", py!"instruction breakpoint"]

/-- Base class (`none`: created directly from the metaclass). -/
def Cls.base : Cls → Option Cls
  | .Request => some .ProtocolMessage
  | .Event => some .ProtocolMessage
  | .Response => some .ProtocolMessage
  | .AttachRequest => some .Request
  | .CancelRequest => some .Request
  | .ConfigurationDoneRequest => some .Request
  | .ContinueRequest => some .Request
  | .DisconnectRequest => some .Request
  | .EvaluateRequest => some .Request
  | .InitializeRequest => some .Request
  | .LaunchRequest => some .Request
  | .NextRequest => some .Request
  | .RunInTerminalRequest => some .Request
  | .ScopesRequest => some .Request
  | .SetBreakpointsRequest => some .Request
  | .SetExceptionBreakpointsRequest => some .Request
  | .SetVariableRequest => some .Request
  | .StackTraceRequest => some .Request
  | .StepInRequest => some .Request
  | .StepOutRequest => some .Request
  | .TerminateRequest => some .Request
  | .ThreadsRequest => some .Request
  | .VariablesRequest => some .Request
  | .AttachResponse => some .Response
  | .CancelResponse => some .Response
  | .ConfigurationDoneResponse => some .Response
  | .ContinueResponse => some .Response
  | .DisconnectResponse => some .Response
  | .EvaluateResponse => some .Response
  | .InitializeResponse => some .Response
  | .LaunchResponse => some .Response
  | .NextResponse => some .Response
  | .RunInTerminalResponse => some .Response
  | .ScopesResponse => some .Response
  | .SetBreakpointsResponse => some .Response
  | .SetExceptionBreakpointsResponse => some .Response
  | .SetVariableResponse => some .Response
  | .StackTraceResponse => some .Response
  | .StepInResponse => some .Response
  | .StepOutResponse => some .Response
  | .TerminateResponse => some .Response
  | .ThreadsResponse => some .Response
  | .VariablesResponse => some .Response
  | .ErrorResponse => some .Response
  | .BreakpointEvent => some .Event
  | .ExitedEvent => some .Event
  | .InitializedEvent => some .Event
  | .OutputEvent => some .Event
  | .StoppedEvent => some .Event
  | .TerminatedEvent => some .Event
  | .ThreadEvent => some .Event
  | _ => none

/-- The `dap=` argument of the class statement. -/
def Cls.ownDap : Cls → DapMap
  -- _messages.py:277-335
  | .ProtocolMessage => [(py!"seq", .attr py!"seq"),
      (py!"type", .attr py!"message_type")]
  -- _messages.py:339-344
  | .Request => [(py!"command", .attr py!"command")]
  -- _messages.py:348-353
  | .Event => [(py!"event", .attr py!"event")]
  -- _messages.py:357-364
  | .Response => [(py!"request_seq", .attr py!"request_seq"),
      (py!"success", .attr py!"success"),
      (py!"command", .attr py!"command")]
  -- _types.py:13-59
  | .Breakpoint => [(py!"id", .attr py!"id"),
      (py!"verified", .attr py!"verified"),
      (py!"message", .attr py!"message"),
      (py!"source", .attr py!"source"),
      (py!"line", .attr py!"line"),
      (py!"column", .attr py!"column"),
      (py!"endLine", .attr py!"end_line"),
      (py!"endColumn", .attr py!"end_column"),
      (py!"instructionReference", .attr py!"instruction_reference"),
      (py!"offset", .attr py!"offset")]
  -- _types.py:63-156
  | .Capabilities => [(py!"supportsConfigurationDoneRequest", .attr py!"supports_configuration_done_request"),
      (py!"supportsFunctionBreakpoints", .attr py!"supports_function_breakpoints"),
      (py!"supportsConditionalBreakpoints", .attr py!"supports_conditional_breakpoints"),
      (py!"supportsHitConditionalBreakpoints", .attr py!"supports_hit_conditional_breakpoints"),
      (py!"supportsEvaluateForHovers", .attr py!"supports_evaluate_for_hovers"),
      (py!"exceptionBreakpointFilters", .attr py!"exception_breakpoints_filters"),
      (py!"supportsStepBack", .attr py!"supports_step_back"),
      (py!"supportsSetVariable", .attr py!"supports_set_variable"),
      (py!"supportsRestartFrame", .attr py!"supports_restart_frame"),
      (py!"supportsGotoTargetsRequest", .attr py!"supports_goto_targets_request"),
      (py!"supportsStepInTargetsRequest", .attr py!"supports_step_in_targets_request"),
      (py!"supportsCompletionsRequest", .attr py!"supports_completions_request"),
      (py!"supportTerminateDebuggee", .attr py!"supports_terminate_debuggee"),
      (py!"supportSuspendDebuggee", .attr py!"supports_suspend_debuggee"),
      (py!"supportsTerminateRequest", .attr py!"supports_terminate_request"),
      (py!"supportsClipboardContext", .attr py!"supports_clipboard_context")]
  -- _types.py:164-176
  | .Checksum => [(py!"algorithm", .attr py!"algorithm"),
      (py!"checksum", .attr py!"checksum")]
  -- _types.py:180-213
  | .ExceptionBreakpointsFilter => [(py!"filter", .attr py!"filter"),
      (py!"label", .attr py!"label"),
      (py!"description", .attr py!"description"),
      (py!"default", .attr py!"default"),
      (py!"supportsCondition", .attr py!"supports_condition"),
      (py!"conditionDescription", .attr py!"condition_description")]
  -- _types.py:217-229
  | .ExceptionFilterOptions => [(py!"filterId", .attr py!"filter_id"),
      (py!"condition", .attr py!"condition")]
  -- _types.py:233-246
  | .ExceptionOptions => [(py!"path", .attr py!"path"),
      (py!"breakMode", .attr py!"break_mode")]
  -- _types.py:250-262
  | .ExceptionPathSegment => [(py!"negate", .attr py!"negate"),
      (py!"names", .attr py!"names")]
  -- _types.py:266-289
  | .Message => [(py!"id", .attr py!"id"),
      (py!"format", .attr py!"format"),
      (py!"variables", .attr py!"variables"),
      (py!"sendTelemetry", .attr py!"send_telemetry"),
      (py!"showUser", .attr py!"show_user"),
      (py!"url", .attr py!"url"),
      (py!"urlLabel", .attr py!"url_label")]
  -- _types.py:293-338
  | .Scope => [(py!"name", .attr py!"name"),
      (py!"presentationHint", .attr py!"presentation_hint"),
      (py!"variablesReference", .attr py!"variables_reference"),
      (py!"namedVariables", .attr py!"named_variables"),
      (py!"indexedVariables", .attr py!"indexed_variables"),
      (py!"expensive", .attr py!"expensive"),
      (py!"source", .attr py!"source"),
      (py!"line", .attr py!"line"),
      (py!"column", .attr py!"column"),
      (py!"endLine", .attr py!"end_line"),
      (py!"endColumn", .attr py!"end_column")]
  -- _types.py:342-385
  | .Source => [(py!"name", .attr py!"name"),
      (py!"path", .attr py!"path"),
      (py!"sourceReference", .attr py!"source_reference"),
      (py!"presentationHint", .attr py!"presentation_hint"),
      (py!"origin", .attr py!"origin"),
      (py!"sources", .attr py!"sources"),
      (py!"adapterData", .attr py!"adapter_data"),
      (py!"checksums", .attr py!"checksums")]
  -- _types.py:389-417
  | .SourceBreakpoint => [(py!"line", .attr py!"line"),
      (py!"column", .attr py!"column"),
      (py!"condition", .attr py!"condition"),
      (py!"hitCondition", .attr py!"hit_condition"),
      (py!"logMessage", .attr py!"log_message")]
  -- _types.py:421-468
  | .StackFrame => [(py!"id", .attr py!"id"),
      (py!"name", .attr py!"name"),
      (py!"source", .attr py!"source"),
      (py!"line", .attr py!"line"),
      (py!"column", .attr py!"column"),
      (py!"endLine", .attr py!"end_line"),
      (py!"endColumn", .attr py!"end_column"),
      (py!"canRestart", .attr py!"can_restart"),
      (py!"instructionPointerReference", .attr py!"instruction_pointer_reference"),
      (py!"moduleId", .attr py!"module_id"),
      (py!"presentationHint", .attr py!"presentation_hint")]
  -- _types.py:472-505
  | .StackFrameFormat => [(py!"parameters", .attr py!"parameters"),
      (py!"parameterTypes", .attr py!"parameter_types"),
      (py!"parameterNames", .attr py!"parameter_names"),
      (py!"parameterValues", .attr py!"parameter_values"),
      (py!"line", .attr py!"line"),
      (py!"module", .attr py!"module"),
      (py!"includeAll", .attr py!"include_all")]
  -- _types.py:509-520
  | .Thread => [(py!"id", .attr py!"id"),
      (py!"name", .attr py!"name")]
  -- _types.py:524-531
  | .ValueFormat => [(py!"hex", .attr py!"hex")]
  -- _types.py:535-578
  | .Variable => [(py!"name", .attr py!"name"),
      (py!"value", .attr py!"value"),
      (py!"type", .attr py!"type"),
      (py!"presentationHint", .attr py!"presentation_hint"),
      (py!"evaluateName", .attr py!"evaluate_name"),
      (py!"variablesReference", .attr py!"variables_reference"),
      (py!"namedVariables", .attr py!"named_variables"),
      (py!"indexedVariables", .attr py!"indexed_variables"),
      (py!"memoryReference", .attr py!"memory_reference")]
  -- _types.py:582-637
  | .VariablePresentationHint => [(py!"kind", .attr py!"kind"),
      (py!"attributes", .attr py!"attributes"),
      (py!"visibility", .attr py!"visibility"),
      (py!"lazy", .attr py!"lazy")]
  -- _requests.py:21-54
  | .AttachRequest => [(py!"arguments", .sub [(py!"__restart", py!"restart")])]
  -- _requests.py:58-73
  | .CancelRequest => [(py!"arguments", .sub [(py!"requestId", py!"request_id"), (py!"progressId", py!"progress_id")])]
  -- _requests.py:77-84
  | .ConfigurationDoneRequest => []
  -- _requests.py:88-102
  | .ContinueRequest => [(py!"arguments", .sub [(py!"threadId", py!"thread_id"), (py!"singleThread", py!"single_thread")])]
  -- _requests.py:106-134
  | .DisconnectRequest => [(py!"arguments", .sub [(py!"restart", py!"restart"), (py!"terminateDebuggee", py!"terminate_debuggee"), (py!"suspendDebuggee", py!"suspend_debuggee")])]
  -- _requests.py:138-166
  | .EvaluateRequest => [(py!"arguments", .sub [(py!"expression", py!"expression"), (py!"frameId", py!"frame_id"), (py!"context", py!"context"), (py!"format", py!"format")])]
  -- _requests.py:170-231
  | .InitializeRequest => [(py!"arguments", .sub [(py!"clientID", py!"client_id"), (py!"clientName", py!"client_name"), (py!"adapterID", py!"adapter_id"), (py!"locale", py!"locale"), (py!"linesStartAt1", py!"lines_start_at_1"), (py!"columnsStartAt1", py!"columns_start_at_1"), (py!"pathFormat", py!"path_format"), (py!"supportsVariableType", py!"supports_variable_type"), (py!"supportsVariablePaging", py!"supports_variable_paging"), (py!"supportsRunInTerminalRequest", py!"supports_run_in_terminal_request"), (py!"supportsMemoryReferences", py!"supports_memory_references"), (py!"supportsProgressReporting", py!"supports_progress_reporting"), (py!"supportsInvalidatedEvent", py!"supports_invalidated_event"), (py!"supportsMemoryEvent", py!"supports_memory_event")])]
  -- _requests.py:235-272
  | .LaunchRequest => [(py!"arguments", .sub [(py!"noDebug", py!"no_debug"), (py!"__restart", py!"restart")])]
  -- _requests.py:276-301
  | .NextRequest => [(py!"arguments", .sub [(py!"threadId", py!"thread_id"), (py!"singleThread", py!"single_thread"), (py!"granularity", py!"granularity")])]
  -- _requests.py:305-339
  | .RunInTerminalRequest => [(py!"arguments", .sub [(py!"kind", py!"kind"), (py!"title", py!"title"), (py!"cwd", py!"cwd"), (py!"args", py!"args"), (py!"env", py!"env")])]
  -- _requests.py:343-354
  | .ScopesRequest => [(py!"arguments", .sub [(py!"frameId", py!"frame_id")])]
  -- _requests.py:358-387
  | .SetBreakpointsRequest => [(py!"arguments", .sub [(py!"source", py!"source"), (py!"breakpoints", py!"breakpoints"), (py!"lines", py!"lines"), (py!"sourceModified", py!"source_modified")])]
  -- _requests.py:391-418
  | .SetExceptionBreakpointsRequest => [(py!"arguments", .sub [(py!"filters", py!"filters"), (py!"filterOptions", py!"filter_options"), (py!"exceptionOptions", py!"exception_options")])]
  -- _requests.py:422-449
  | .SetVariableRequest => [(py!"arguments", .sub [(py!"variablesReference", py!"variables_reference"), (py!"name", py!"name"), (py!"value", py!"value"), (py!"format", py!"format")])]
  -- _requests.py:453-481
  | .StackTraceRequest => [(py!"arguments", .sub [(py!"threadId", py!"thread_id"), (py!"startFrame", py!"start_frame"), (py!"levels", py!"levels"), (py!"format", py!"format")])]
  -- _requests.py:485-513
  | .StepInRequest => [(py!"arguments", .sub [(py!"threadId", py!"thread_id"), (py!"singleThread", py!"single_thread"), (py!"targetId", py!"thread_id"), (py!"granularity", py!"granularity")])]
  -- _requests.py:517-542
  | .StepOutRequest => [(py!"arguments", .sub [(py!"threadId", py!"thread_id"), (py!"singleThread", py!"single_thread"), (py!"granularity", py!"granularity")])]
  -- _requests.py:546-559
  | .TerminateRequest => [(py!"arguments", .sub [(py!"restart", py!"restart")])]
  -- _requests.py:563-569
  | .ThreadsRequest => []
  -- _requests.py:573-605
  | .VariablesRequest => [(py!"arguments", .sub [(py!"variablesReference", py!"variables_reference"), (py!"filter", py!"filter"), (py!"start", py!"start"), (py!"count", py!"count"), (py!"format", py!"format")])]
  -- _responses.py:23-26
  | .AttachResponse => []
  -- _responses.py:30-33
  | .CancelResponse => []
  -- _responses.py:37-40
  | .ConfigurationDoneResponse => []
  -- _responses.py:44-49
  | .ContinueResponse => [(py!"body", .sub [(py!"allThreadsContinued", py!"all_threads_continued")])]
  -- _responses.py:53-56
  | .DisconnectResponse => []
  -- _responses.py:60-84
  | .EvaluateResponse => [(py!"body", .sub [(py!"result", py!"result"), (py!"type", py!"type"), (py!"presentationHint", py!"presentation_hint"), (py!"variablesReference", py!"variables_reference"), (py!"namedVariables", py!"named_variables"), (py!"indexedVariables", py!"indexed_variables"), (py!"memoryReference", py!"memory_reference")])]
  -- _responses.py:88-99
  | .InitializeResponse => [(py!"body", .attr py!"capabilities")]
  -- _responses.py:103-106
  | .LaunchResponse => []
  -- _responses.py:110-113
  | .NextResponse => []
  -- _responses.py:117-131
  | .RunInTerminalResponse => [(py!"body", .sub [(py!"processId", py!"process_id"), (py!"shellProcessId", py!"shell_process_id")])]
  -- _responses.py:135-147
  | .ScopesResponse => [(py!"body", .sub [(py!"scopes", py!"scopes")])]
  -- _responses.py:151-164
  | .SetBreakpointsResponse => [(py!"body", .sub [(py!"breakpoints", py!"breakpoints")])]
  -- _responses.py:168-181
  | .SetExceptionBreakpointsResponse => [(py!"body", .sub [(py!"breakpoints", py!"breakpoints")])]
  -- _responses.py:185-205
  | .SetVariableResponse => [(py!"body", .sub [(py!"value", py!"value"), (py!"type", py!"type"), (py!"variablesReference", py!"variables_reference"), (py!"namedVariables", py!"named_variables"), (py!"indexedVariables", py!"indexed_variables")])]
  -- _responses.py:209-223
  | .StackTraceResponse => [(py!"body", .sub [(py!"stackFrames", py!"stack_frames"), (py!"totalFrames", py!"total_frames")])]
  -- _responses.py:227-230
  | .StepInResponse => []
  -- _responses.py:234-237
  | .StepOutResponse => []
  -- _responses.py:241-244
  | .TerminateResponse => []
  -- _responses.py:248-259
  | .ThreadsResponse => [(py!"body", .sub [(py!"threads", py!"threads")])]
  -- _responses.py:263-274
  | .VariablesResponse => [(py!"body", .sub [(py!"variables", py!"variables")])]
  -- _responses.py:278-293
  | .ErrorResponse => [(py!"message", .attr py!"message"),
      (py!"body", .sub [(py!"error", py!"error")])]
  -- _events.py:27-42
  | .BreakpointEvent => [(py!"body", .sub [(py!"reason", py!"reason"), (py!"breakpoint", py!"breakpoint")])]
  -- _events.py:46-58
  | .ExitedEvent => [(py!"body", .sub [(py!"exitCode", py!"exit_code")])]
  -- _events.py:62-69
  | .InitializedEvent => []
  -- _events.py:73-113
  | .OutputEvent => [(py!"body", .sub [(py!"category", py!"category"), (py!"output", py!"output"), (py!"group", py!"group"), (py!"variablesReference", py!"variables_reference"), (py!"source", py!"source"), (py!"line", py!"line"), (py!"column", py!"column"), (py!"data", py!"data")])]
  -- _events.py:117-154
  | .StoppedEvent => [(py!"body", .sub [(py!"reason", py!"reason"), (py!"description", py!"description"), (py!"threadId", py!"thread_id"), (py!"preserveFocusHint", py!"preserve_focus_hint"), (py!"text", py!"text"), (py!"allThreadsStopped", py!"all_threads_stopped"), (py!"hitBreakpointIds", py!"hit_breakpoint_ids")])]
  -- _events.py:158-171
  | .TerminatedEvent => [(py!"body", .sub [(py!"restart", py!"restart")])]
  -- _events.py:175-188
  | .ThreadEvent => [(py!"body", .sub [(py!"reason", py!"reason"), (py!"threadId", py!"thread_id")])]

/-- The dataclass fields annotated in the class body itself. -/
def Cls.ownFields : Cls → List Field
  -- _messages.py:277-335
  | .ProtocolMessage => [⟨py!"seq", false, (some (.int 0)), .int⟩,
      ⟨py!"message_type", false, none, (.enum .MessageType)⟩]
  -- _messages.py:339-344
  | .Request => [⟨py!"command", false, none, (.enum .Command)⟩]
  -- _messages.py:348-353
  | .Event => [⟨py!"event", false, none, (.enum .EventType)⟩]
  -- _messages.py:357-364
  | .Response => [⟨py!"success", false, (some (.bool true)), .bool⟩,
      ⟨py!"command", false, none, (.enum .Command)⟩,
      ⟨py!"request_seq", true, none, .int⟩]
  -- _types.py:13-59
  | .Breakpoint => [⟨py!"id", true, (some .null), (.optional .int)⟩,
      ⟨py!"verified", true, (some (.bool false)), .bool⟩,
      ⟨py!"message", true, (some .null), (.optional .str)⟩,
      ⟨py!"source", true, (some .null), (.optional (.cls .Source))⟩,
      ⟨py!"line", true, (some .null), (.optional .int)⟩,
      ⟨py!"column", true, (some .null), (.optional .int)⟩,
      ⟨py!"end_line", true, (some .null), (.optional .int)⟩,
      ⟨py!"end_column", true, (some .null), (.optional .int)⟩,
      ⟨py!"instruction_reference", true, (some .null), (.optional .str)⟩,
      ⟨py!"offset", true, (some .null), (.optional .int)⟩]
  -- _types.py:63-156
  | .Capabilities => [⟨py!"supports_configuration_done_request", true, (some (.bool false)), .bool⟩,
      ⟨py!"supports_function_breakpoints", true, (some (.bool false)), .bool⟩,
      ⟨py!"supports_conditional_breakpoints", true, (some (.bool false)), .bool⟩,
      ⟨py!"supports_hit_conditional_breakpoints", true, (some (.bool false)), .bool⟩,
      ⟨py!"supports_evaluate_for_hovers", true, (some (.bool false)), .bool⟩,
      ⟨py!"exception_breakpoints_filters", true, (some (.list [])), (.list (.cls .ExceptionBreakpointsFilter))⟩,
      ⟨py!"supports_step_back", true, (some (.bool false)), .bool⟩,
      ⟨py!"supports_set_variable", true, (some (.bool false)), .bool⟩,
      ⟨py!"supports_restart_frame", true, (some (.bool false)), .bool⟩,
      ⟨py!"supports_goto_targets_request", true, (some (.bool false)), .bool⟩,
      ⟨py!"supports_step_in_targets_request", true, (some (.bool false)), .bool⟩,
      ⟨py!"supports_completions_request", true, (some (.bool false)), .bool⟩,
      ⟨py!"supports_terminate_debuggee", true, (some (.bool false)), .bool⟩,
      ⟨py!"supports_suspend_debuggee", true, (some (.bool false)), .bool⟩,
      ⟨py!"supports_terminate_request", true, (some (.bool false)), .bool⟩,
      ⟨py!"supports_clipboard_context", true, (some (.bool false)), .bool⟩]
  -- _types.py:164-176
  | .Checksum => [⟨py!"algorithm", true, none, (.literal [py!"MD5", py!"SHA1", py!"SHA256", py!"timestamp"])⟩,
      ⟨py!"checksum", true, none, .str⟩]
  -- _types.py:180-213
  | .ExceptionBreakpointsFilter => [⟨py!"filter", true, none, .str⟩,
      ⟨py!"label", true, none, .str⟩,
      ⟨py!"description", true, (some .null), (.pipeNone .str)⟩,
      ⟨py!"default", true, (some (.bool false)), .bool⟩,
      ⟨py!"supports_condition", true, (some (.bool false)), .bool⟩,
      ⟨py!"condition_description", true, (some .null), (.pipeNone .str)⟩]
  -- _types.py:217-229
  | .ExceptionFilterOptions => [⟨py!"filter_id", true, none, .str⟩,
      ⟨py!"condition", true, (some .null), (.optional .str)⟩]
  -- _types.py:233-246
  | .ExceptionOptions => [⟨py!"path", true, none, (.tlist (.cls .ExceptionPathSegment))⟩,
      ⟨py!"break_mode", true, none, (.literal [py!"never", py!"always", py!"unhandled", py!"userUnhandled"])⟩]
  -- _types.py:250-262
  | .ExceptionPathSegment => [⟨py!"negate", true, (some (.bool false)), .bool⟩,
      ⟨py!"names", true, (some (.list [])), (.tlist .str)⟩]
  -- _types.py:266-289
  | .Message => [⟨py!"id", true, none, .int⟩,
      ⟨py!"format", true, none, .str⟩,
      ⟨py!"variables", true, (some (.dict [])), (.tdict .str)⟩,
      ⟨py!"send_telemetry", true, (some (.bool false)), .bool⟩,
      ⟨py!"show_user", true, (some (.bool false)), .bool⟩,
      ⟨py!"url", true, (some .null), (.optional .str)⟩,
      ⟨py!"url_label", true, (some .null), (.optional .str)⟩]
  -- _types.py:293-338
  | .Scope => [⟨py!"name", true, none, .str⟩,
      ⟨py!"variables_reference", true, none, .int⟩,
      ⟨py!"presentation_hint", true, (some .null), (.optional (.union [.str, (.literal [py!"arguments", py!"locals", py!"registers"])]))⟩,
      ⟨py!"named_variables", true, (some .null), (.optional .int)⟩,
      ⟨py!"indexed_variables", true, (some .null), (.optional .int)⟩,
      ⟨py!"expensive", true, (some (.bool false)), .bool⟩,
      ⟨py!"source", true, (some .null), (.optional (.cls .Source))⟩,
      ⟨py!"line", true, (some .null), (.optional .int)⟩,
      ⟨py!"column", true, (some .null), (.optional .int)⟩,
      ⟨py!"end_line", true, (some .null), (.optional .int)⟩,
      ⟨py!"end_column", true, (some .null), (.optional .int)⟩]
  -- _types.py:342-385
  | .Source => [⟨py!"name", true, (some .null), (.optional .str)⟩,
      ⟨py!"path", true, (some .null), (.optional .str)⟩,
      ⟨py!"source_reference", true, (some (.int 0)), .int⟩,
      ⟨py!"presentation_hint", true, (some (.str py!"normal")), (.literal [py!"normal", py!"emphasize", py!"deemphasize"])⟩,
      ⟨py!"origin", true, (some .null), (.optional .str)⟩,
      ⟨py!"sources", true, (some (.list [])), (.tlist (.cls .Source))⟩,
      ⟨py!"adapter_data", true, (some .null), .any⟩,
      ⟨py!"checksums", true, (some (.list [])), (.tlist (.cls .Checksum))⟩]
  -- _types.py:389-417
  | .SourceBreakpoint => [⟨py!"line", true, none, .int⟩,
      ⟨py!"column", true, (some .null), (.optional .int)⟩,
      ⟨py!"condition", true, (some .null), (.optional .str)⟩,
      ⟨py!"hit_condition", true, (some .null), (.optional .str)⟩,
      ⟨py!"log_message", true, (some .null), (.optional .str)⟩]
  -- _types.py:421-468
  | .StackFrame => [⟨py!"id", true, none, .int⟩,
      ⟨py!"name", true, none, .str⟩,
      ⟨py!"source", true, (some .null), (.optional (.cls .Source))⟩,
      ⟨py!"line", true, (some (.int 0)), .int⟩,
      ⟨py!"column", true, (some (.int 0)), .int⟩,
      ⟨py!"end_line", true, (some .null), (.optional .int)⟩,
      ⟨py!"end_column", true, (some .null), (.optional .int)⟩,
      ⟨py!"can_restart", true, (some (.bool false)), .bool⟩,
      ⟨py!"instruction_pointer_reference", true, (some .null), (.optional .str)⟩,
      ⟨py!"module_id", true, (some .null), (.optional (.union [.int, .str]))⟩,
      ⟨py!"presentation_hint", true, (some (.str py!"normal")), (.literal [py!"normal", py!"label", py!"subtle"])⟩]
  -- _types.py:472-505
  | .StackFrameFormat => [⟨py!"parameters", true, (some (.bool false)), .bool⟩,
      ⟨py!"parameter_types", true, (some (.bool false)), .bool⟩,
      ⟨py!"parameter_names", true, (some (.bool false)), .bool⟩,
      ⟨py!"parameter_values", true, (some (.bool false)), .bool⟩,
      ⟨py!"line", true, (some (.bool false)), .bool⟩,
      ⟨py!"module", true, (some (.bool false)), .bool⟩,
      ⟨py!"include_all", true, (some (.bool false)), .bool⟩]
  -- _types.py:509-520
  | .Thread => [⟨py!"id", true, none, .int⟩,
      ⟨py!"name", true, none, .str⟩]
  -- _types.py:524-531
  | .ValueFormat => [⟨py!"hex", true, (some (.bool false)), .bool⟩]
  -- _types.py:535-578
  | .Variable => [⟨py!"name", true, none, .str⟩,
      ⟨py!"value", true, none, .str⟩,
      ⟨py!"type", true, (some .null), (.optional .str)⟩,
      ⟨py!"presentation_hint", true, (some .null), (.optional (.cls .VariablePresentationHint))⟩,
      ⟨py!"evaluate_name", true, (some .null), (.optional .str)⟩,
      ⟨py!"variables_reference", true, (some (.int 0)), .int⟩,
      ⟨py!"named_variables", true, (some .null), (.optional .int)⟩,
      ⟨py!"indexed_variables", true, (some .null), (.optional .int)⟩,
      ⟨py!"memory_reference", true, (some .null), (.optional .str)⟩]
  -- _types.py:582-637
  | .VariablePresentationHint => [⟨py!"kind", true, (some .null), (.optional (.union [.str, (.literal [py!"property", py!"method", py!"class", py!"data", py!"event", py!"baseClass", py!"innerClass", py!"interface", py!"mostDerivedClass", py!"virtual", py!"dataBreakpoint"])]))⟩,
      ⟨py!"attributes", true, (some (.list [])), (.tlist (.union [.str, (.literal [py!"static", py!"constant", py!"readOnly", py!"rawString", py!"hasObjectId", py!"canHaveObjectId", py!"hasSideEffect", py!"hasDataBreakpoint"])]))⟩,
      ⟨py!"visibility", true, (some .null), (.optional (.union [.str, (.literal [py!"public", py!"private", py!"protected", py!"internal"])]))⟩,
      ⟨py!"lazy", true, (some (.bool false)), .bool⟩]
  -- _requests.py:21-54
  | .AttachRequest => [⟨py!"arguments", true, none, (.tdict .any)⟩,
      ⟨py!"restart", true, (some .null), .any⟩]
  -- _requests.py:58-73
  | .CancelRequest => [⟨py!"request_id", true, (some .null), (.optional .int)⟩,
      ⟨py!"progress_id", true, (some .null), (.optional .int)⟩]
  -- _requests.py:77-84
  | .ConfigurationDoneRequest => []
  -- _requests.py:88-102
  | .ContinueRequest => [⟨py!"thread_id", true, none, .int⟩,
      ⟨py!"single_thread", true, (some (.bool true)), .bool⟩]
  -- _requests.py:106-134
  | .DisconnectRequest => [⟨py!"restart", true, (some (.bool false)), .bool⟩,
      ⟨py!"terminate_debuggee", true, (some .null), (.optional .bool)⟩,
      ⟨py!"suspend_debuggee", true, (some (.bool false)), .bool⟩]
  -- _requests.py:138-166
  | .EvaluateRequest => [⟨py!"expression", true, none, .str⟩,
      ⟨py!"frame_id", true, (some .null), (.optional .int)⟩,
      ⟨py!"context", true, (some .null), (.optional (.union [.str, (.literal [py!"variables", py!"watch", py!"repl", py!"hover", py!"clipboard"])]))⟩,
      ⟨py!"format", true, (some .null), (.optional (.cls .ValueFormat))⟩]
  -- _requests.py:170-231
  | .InitializeRequest => [⟨py!"adapter_id", true, none, .str⟩,
      ⟨py!"client_id", true, (some .null), (.optional .str)⟩,
      ⟨py!"client_name", true, (some .null), (.optional .str)⟩,
      ⟨py!"locale", true, (some .null), (.optional .str)⟩,
      ⟨py!"lines_start_at_1", true, (some (.bool true)), .bool⟩,
      ⟨py!"columns_start_at_1", true, (some (.bool true)), .bool⟩,
      ⟨py!"path_format", true, (some (.str py!"path")), (.literal [py!"path", py!"uri"])⟩,
      ⟨py!"supports_variable_type", true, (some (.bool false)), .bool⟩,
      ⟨py!"supports_variable_paging", true, (some (.bool false)), .bool⟩,
      ⟨py!"supports_run_in_terminal_request", true, (some (.bool false)), .bool⟩,
      ⟨py!"supports_memory_references", true, (some (.bool false)), .bool⟩,
      ⟨py!"supports_progress_reporting", true, (some (.bool false)), .bool⟩,
      ⟨py!"supports_invalidated_event", true, (some (.bool false)), .bool⟩,
      ⟨py!"supports_memory_event", true, (some (.bool false)), .bool⟩]
  -- _requests.py:235-272
  | .LaunchRequest => [⟨py!"arguments", true, none, (.tdict .any)⟩,
      ⟨py!"no_debug", true, (some (.bool false)), .bool⟩,
      ⟨py!"restart", true, (some .null), .any⟩]
  -- _requests.py:276-301
  | .NextRequest => [⟨py!"thread_id", true, none, .int⟩,
      ⟨py!"single_thread", true, (some (.bool false)), .bool⟩,
      ⟨py!"granularity", true, (some (.str py!"statement")), (.literal [py!"statement", py!"line", py!"instruction"])⟩]
  -- _requests.py:305-339
  | .RunInTerminalRequest => [⟨py!"kind", true, (some (.str py!"integrated")), (.literal [py!"integrated", py!"external"])⟩,
      ⟨py!"title", true, (some .null), (.optional .str)⟩,
      ⟨py!"cwd", true, (some (.str py!"")), .str⟩,
      ⟨py!"args", true, (some (.list [])), (.tlist .str)⟩,
      ⟨py!"env", true, (some (.dict [])), (.tdict (.optional .str))⟩]
  -- _requests.py:343-354
  | .ScopesRequest => [⟨py!"frame_id", true, none, .int⟩]
  -- _requests.py:358-387
  | .SetBreakpointsRequest => [⟨py!"source", true, none, (.cls .Source)⟩,
      ⟨py!"breakpoints", true, (some (.list [])), (.tlist (.cls .SourceBreakpoint))⟩,
      ⟨py!"lines", true, (some (.list [])), (.tlist .int)⟩,
      ⟨py!"source_modified", true, (some (.bool false)), .bool⟩]
  -- _requests.py:391-418
  | .SetExceptionBreakpointsRequest => [⟨py!"filters", true, (some (.list [])), (.tlist .str)⟩,
      ⟨py!"filter_options", true, (some (.list [])), (.tlist (.cls .ExceptionFilterOptions))⟩,
      ⟨py!"exception_options", true, (some (.list [])), (.tlist (.cls .ExceptionOptions))⟩]
  -- _requests.py:422-449
  | .SetVariableRequest => [⟨py!"variables_reference", true, none, .int⟩,
      ⟨py!"name", true, none, .str⟩,
      ⟨py!"value", true, none, .str⟩,
      ⟨py!"format", true, (some .null), (.optional (.cls .ValueFormat))⟩]
  -- _requests.py:453-481
  | .StackTraceRequest => [⟨py!"thread_id", true, none, .int⟩,
      ⟨py!"start_frame", true, (some .null), (.optional .int)⟩,
      ⟨py!"levels", true, (some .null), (.optional .int)⟩,
      ⟨py!"format", true, (some .null), (.optional (.cls .StackFrameFormat))⟩]
  -- _requests.py:485-513
  | .StepInRequest => [⟨py!"thread_id", true, none, .int⟩,
      ⟨py!"single_thread", true, (some (.bool false)), .bool⟩,
      ⟨py!"target_id", true, (some .null), (.optional .int)⟩,
      ⟨py!"granularity", true, (some (.str py!"statement")), (.literal [py!"statement", py!"line", py!"instruction"])⟩]
  -- _requests.py:517-542
  | .StepOutRequest => [⟨py!"thread_id", true, none, .int⟩,
      ⟨py!"single_thread", true, (some (.bool false)), .bool⟩,
      ⟨py!"granularity", true, (some (.str py!"statement")), (.literal [py!"statement", py!"line", py!"instruction"])⟩]
  -- _requests.py:546-559
  | .TerminateRequest => [⟨py!"restart", true, (some (.bool false)), .bool⟩]
  -- _requests.py:563-569
  | .ThreadsRequest => []
  -- _requests.py:573-605
  | .VariablesRequest => [⟨py!"variables_reference", true, none, .int⟩,
      ⟨py!"filter", true, (some .null), (.optional (.literal [py!"indexed", py!"named"]))⟩,
      ⟨py!"start", true, (some .null), (.optional .int)⟩,
      ⟨py!"count", true, (some .null), (.optional .int)⟩,
      ⟨py!"format", true, (some .null), (.optional (.cls .ValueFormat))⟩]
  -- _responses.py:23-26
  | .AttachResponse => []
  -- _responses.py:30-33
  | .CancelResponse => []
  -- _responses.py:37-40
  | .ConfigurationDoneResponse => []
  -- _responses.py:44-49
  | .ContinueResponse => [⟨py!"all_threads_continued", true, (some (.bool true)), .bool⟩]
  -- _responses.py:53-56
  | .DisconnectResponse => []
  -- _responses.py:60-84
  | .EvaluateResponse => [⟨py!"result", true, none, .str⟩,
      ⟨py!"type", true, (some .null), (.optional .str)⟩,
      ⟨py!"presentation_hint", true, (some .null), (.optional (.cls .VariablePresentationHint))⟩,
      ⟨py!"variables_reference", true, (some (.int 0)), .int⟩,
      ⟨py!"named_variables", true, (some .null), (.optional .int)⟩,
      ⟨py!"indexed_variables", true, (some .null), (.optional .int)⟩,
      ⟨py!"memory_reference", true, (some .null), (.optional .str)⟩]
  -- _responses.py:88-99
  | .InitializeResponse => [⟨py!"capabilities", true, none, (.cls .Capabilities)⟩]
  -- _responses.py:103-106
  | .LaunchResponse => []
  -- _responses.py:110-113
  | .NextResponse => []
  -- _responses.py:117-131
  | .RunInTerminalResponse => [⟨py!"process_id", true, (some .null), (.optional .int)⟩,
      ⟨py!"shell_process_id", true, (some .null), (.optional .int)⟩]
  -- _responses.py:135-147
  | .ScopesResponse => [⟨py!"scopes", true, (some (.list [])), (.tlist (.cls .Scope))⟩]
  -- _responses.py:151-164
  | .SetBreakpointsResponse => [⟨py!"breakpoints", true, (some (.list [])), (.tlist (.cls .Breakpoint))⟩]
  -- _responses.py:168-181
  | .SetExceptionBreakpointsResponse => [⟨py!"breakpoints", true, (some (.list [])), (.tlist (.cls .Breakpoint))⟩]
  -- _responses.py:185-205
  | .SetVariableResponse => [⟨py!"value", true, none, .str⟩,
      ⟨py!"type", true, (some .null), (.optional .str)⟩,
      ⟨py!"variables_reference", true, (some .null), (.optional .int)⟩,
      ⟨py!"named_variables", true, (some .null), (.optional .int)⟩,
      ⟨py!"indexed_variables", true, (some .null), (.optional .int)⟩]
  -- _responses.py:209-223
  | .StackTraceResponse => [⟨py!"stack_frames", true, (some (.list [])), (.tlist (.cls .StackFrame))⟩,
      ⟨py!"total_frames", true, (some .null), (.optional .int)⟩]
  -- _responses.py:227-230
  | .StepInResponse => []
  -- _responses.py:234-237
  | .StepOutResponse => []
  -- _responses.py:241-244
  | .TerminateResponse => []
  -- _responses.py:248-259
  | .ThreadsResponse => [⟨py!"threads", true, (some (.list [])), (.tlist (.cls .Thread))⟩]
  -- _responses.py:263-274
  | .VariablesResponse => [⟨py!"variables", true, (some (.list [])), (.tlist (.cls .Variable))⟩]
  -- _responses.py:278-293
  | .ErrorResponse => [⟨py!"success", false, (some (.bool false)), .bool⟩,
      ⟨py!"command", true, none, (.enum .Command)⟩,
      ⟨py!"message", true, (some .null), (.optional .str)⟩,
      ⟨py!"error", true, (some .null), (.optional (.cls .Message))⟩]
  -- _events.py:27-42
  | .BreakpointEvent => [⟨py!"reason", true, none, (.union [.str, (.literal [py!"changed", py!"new", py!"removed"])])⟩,
      ⟨py!"breakpoint", true, none, (.cls .Breakpoint)⟩]
  -- _events.py:46-58
  | .ExitedEvent => [⟨py!"exit_code", true, none, .int⟩]
  -- _events.py:62-69
  | .InitializedEvent => []
  -- _events.py:73-113
  | .OutputEvent => [⟨py!"category", true, none, (.union [(.literal [py!"console", py!"important", py!"stdout", py!"stderr", py!"telemetry"]), .str])⟩,
      ⟨py!"output", true, none, .str⟩,
      ⟨py!"group", true, (some .null), (.optional (.literal [py!"start", py!"startCollapsed", py!"end"]))⟩,
      ⟨py!"variables_reference", true, (some .null), (.optional .int)⟩,
      ⟨py!"source", true, (some .null), (.optional (.cls .Source))⟩,
      ⟨py!"line", true, (some .null), (.optional .int)⟩,
      ⟨py!"column", true, (some .null), (.optional .int)⟩,
      ⟨py!"data", true, (some .null), .any⟩]
  -- _events.py:117-154
  | .StoppedEvent => [⟨py!"reason", true, none, (.enum .StoppedReason)⟩,
      ⟨py!"description", true, (some .null), (.optional .str)⟩,
      ⟨py!"thread_id", true, (some .null), (.optional .int)⟩,
      ⟨py!"preserve_focus_hint", true, (some (.bool false)), .bool⟩,
      ⟨py!"text", true, (some .null), (.optional .str)⟩,
      ⟨py!"all_threads_stopped", true, (some (.bool false)), .bool⟩,
      ⟨py!"hit_breakpoint_ids", true, (some (.list [])), (.list .int)⟩]
  -- _events.py:158-171
  | .TerminatedEvent => [⟨py!"restart", true, (some .null), .any⟩]
  -- _events.py:175-188
  | .ThreadEvent => [⟨py!"reason", true, none, (.literal [py!"started", py!"exited"])⟩,
      ⟨py!"thread_id", true, none, .int⟩]

/-- Class attributes assigned in the class body (without annotation). -/
def Cls.ownAttrs : Cls → List (Str × Val)
  | .Request => [(py!"message_type", (.enum .MessageType py!"request"))] -- _messages.py:342
  | .Event => [(py!"message_type", (.enum .MessageType py!"event"))] -- _messages.py:351
  | .Response => [(py!"message_type", (.enum .MessageType py!"response"))] -- _messages.py:360
  | .AttachRequest => [(py!"command", (.enum .Command py!"attach"))] -- _requests.py:33
  | .CancelRequest => [(py!"command", (.enum .Command py!"cancel"))] -- _requests.py:70
  | .ConfigurationDoneRequest => [(py!"command", (.enum .Command py!"configurationDone"))] -- _requests.py:84
  | .ContinueRequest => [(py!"command", (.enum .Command py!"continue"))] -- _requests.py:99
  | .DisconnectRequest => [(py!"command", (.enum .Command py!"disconnect"))] -- _requests.py:130
  | .EvaluateRequest => [(py!"command", (.enum .Command py!"evaluate"))] -- _requests.py:161
  | .InitializeRequest => [(py!"command", (.enum .Command py!"initialize"))] -- _requests.py:216
  | .LaunchRequest => [(py!"command", (.enum .Command py!"launch"))] -- _requests.py:248
  | .NextRequest => [(py!"command", (.enum .Command py!"next"))] -- _requests.py:297
  | .RunInTerminalRequest => [(py!"command", (.enum .Command py!"runInTerminal"))] -- _requests.py:333
  | .ScopesRequest => [(py!"command", (.enum .Command py!"scopes"))] -- _requests.py:352
  | .SetBreakpointsRequest => [(py!"command", (.enum .Command py!"setBreakpoints"))] -- _requests.py:382
  | .SetExceptionBreakpointsRequest => [(py!"command", (.enum .Command py!"setExceptionBreakpoints"))] -- _requests.py:414
  | .SetVariableRequest => [(py!"command", (.enum .Command py!"setVariable"))] -- _requests.py:444
  | .StackTraceRequest => [(py!"command", (.enum .Command py!"stackTrace"))] -- _requests.py:476
  | .StepInRequest => [(py!"command", (.enum .Command py!"stepIn"))] -- _requests.py:508
  | .StepOutRequest => [(py!"command", (.enum .Command py!"stepOut"))] -- _requests.py:538
  | .TerminateRequest => [(py!"command", (.enum .Command py!"terminate"))] -- _requests.py:557
  | .ThreadsRequest => [(py!"command", (.enum .Command py!"threads"))] -- _requests.py:569
  | .VariablesRequest => [(py!"command", (.enum .Command py!"variables"))] -- _requests.py:599
  | .AttachResponse => [(py!"command", (.enum .Command py!"attach"))] -- _responses.py:26
  | .CancelResponse => [(py!"command", (.enum .Command py!"cancel"))] -- _responses.py:33
  | .ConfigurationDoneResponse => [(py!"command", (.enum .Command py!"configurationDone"))] -- _responses.py:40
  | .ContinueResponse => [(py!"command", (.enum .Command py!"continue"))] -- _responses.py:47
  | .DisconnectResponse => [(py!"command", (.enum .Command py!"disconnect"))] -- _responses.py:56
  | .EvaluateResponse => [(py!"command", (.enum .Command py!"evaluate"))] -- _responses.py:76
  | .InitializeResponse => [(py!"command", (.enum .Command py!"initialize"))] -- _responses.py:97
  | .LaunchResponse => [(py!"command", (.enum .Command py!"launch"))] -- _responses.py:106
  | .NextResponse => [(py!"command", (.enum .Command py!"next"))] -- _responses.py:113
  | .RunInTerminalResponse => [(py!"command", (.enum .Command py!"runInTerminal"))] -- _responses.py:128
  | .ScopesResponse => [(py!"command", (.enum .Command py!"scopes"))] -- _responses.py:145
  | .SetBreakpointsResponse => [(py!"command", (.enum .Command py!"setBreakpoints"))] -- _responses.py:162
  | .SetExceptionBreakpointsResponse => [(py!"command", (.enum .Command py!"setExceptionBreakpoints"))] -- _responses.py:179
  | .SetVariableResponse => [(py!"command", (.enum .Command py!"setVariable"))] -- _responses.py:199
  | .StackTraceResponse => [(py!"command", (.enum .Command py!"stackTrace"))] -- _responses.py:220
  | .StepInResponse => [(py!"command", (.enum .Command py!"stepIn"))] -- _responses.py:230
  | .StepOutResponse => [(py!"command", (.enum .Command py!"stepOut"))] -- _responses.py:237
  | .TerminateResponse => [(py!"command", (.enum .Command py!"terminate"))] -- _responses.py:244
  | .ThreadsResponse => [(py!"command", (.enum .Command py!"threads"))] -- _responses.py:257
  | .VariablesResponse => [(py!"command", (.enum .Command py!"variables"))] -- _responses.py:272
  | .BreakpointEvent => [(py!"event", (.enum .EventType py!"breakpoint"))] -- _events.py:39
  | .ExitedEvent => [(py!"event", (.enum .EventType py!"exited"))] -- _events.py:56
  | .InitializedEvent => [(py!"event", (.enum .EventType py!"initialized"))] -- _events.py:69
  | .OutputEvent => [(py!"event", (.enum .EventType py!"output"))] -- _events.py:104
  | .StoppedEvent => [(py!"event", (.enum .EventType py!"stopped"))] -- _events.py:146
  | .TerminatedEvent => [(py!"event", (.enum .EventType py!"terminated"))] -- _events.py:169
  | .ThreadEvent => [(py!"event", (.enum .EventType py!"thread"))] -- _events.py:185
  | _ => []

/-- All classes, in the order they are created. -/
def allCls : List Cls := [.ProtocolMessage, .Request, .Event, .Response, .Breakpoint, .Capabilities, .Checksum, .ExceptionBreakpointsFilter, .ExceptionFilterOptions, .ExceptionOptions, .ExceptionPathSegment, .Message, .Scope, .Source, .SourceBreakpoint, .StackFrame, .StackFrameFormat, .Thread, .ValueFormat, .Variable, .VariablePresentationHint, .AttachRequest, .CancelRequest, .ConfigurationDoneRequest, .ContinueRequest, .DisconnectRequest, .EvaluateRequest, .InitializeRequest, .LaunchRequest, .NextRequest, .RunInTerminalRequest, .ScopesRequest, .SetBreakpointsRequest, .SetExceptionBreakpointsRequest, .SetVariableRequest, .StackTraceRequest, .StepInRequest, .StepOutRequest, .TerminateRequest, .ThreadsRequest, .VariablesRequest, .AttachResponse, .CancelResponse, .ConfigurationDoneResponse, .ContinueResponse, .DisconnectResponse, .EvaluateResponse, .InitializeResponse, .LaunchResponse, .NextResponse, .RunInTerminalResponse, .ScopesResponse, .SetBreakpointsResponse, .SetExceptionBreakpointsResponse, .SetVariableResponse, .StackTraceResponse, .StepInResponse, .StepOutResponse, .TerminateResponse, .ThreadsResponse, .VariablesResponse, .ErrorResponse, .BreakpointEvent, .ExitedEvent, .InitializedEvent, .OutputEvent, .StoppedEvent, .TerminatedEvent, .ThreadEvent]

theorem mem_allCls (c : Cls) : c ∈ allCls := by cases c <;> decide

end Verif.Dap
