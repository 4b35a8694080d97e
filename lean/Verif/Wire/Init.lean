import Verif.Wire.Model
/-!
# The answer to the initialize request

Model of the handler of `InitializeRequest` in the debug adapter (/repo/src/ansibug/_debug_adapter.py:392-431). The
handler sends this response and stores nothing of the request.
-/

namespace Verif.Wire
open Verif

/-- `dap.ExceptionBreakpointsFilter(filter=..., label=..., description=..., default=...)` (_debug_adapter.py:399-416). -/
def filterVal (id label desc : Str) (dflt : Bool) : Dap.Val :=
  build .ExceptionBreakpointsFilter [(py!"filter", .str id), (py!"label", .str label), (py!"description", .str desc), (py!"default", .bool dflt)]

/-- The filters offered to the client (_debug_adapter.py:398-417), with the values of `ExceptionBreakpointType` (_debuggee.py:36-45). -/
def initFilters : List Dap.Val :=
  [filterVal py!"on_error" py!"Uncaught Failures" py!"Break when the play will fail due to an unhandled failure." true,
   filterVal py!"on_unreachable" py!"Unreachable Hosts" py!"Break when the play will fail due to an unreachable host error." true,
   filterVal py!"on_skipped" py!"Skipped Tasks" py!"Break when the preceding task was skipped" false]

/-- `dap.Capabilities(...)` (_debug_adapter.py:397-428). -/
def initCapabilities : Dap.Val :=
  build .Capabilities [(py!"exception_breakpoints_filters", .list initFilters), (py!"supports_clipboard_context", .bool true),
    (py!"supports_conditional_breakpoints", .bool true), (py!"supports_configuration_done_request", .bool true),
    (py!"supports_set_variable", .bool true), (py!"supports_suspend_debuggee", .bool false),
    (py!"supports_terminate_debuggee", .bool true), (py!"supports_terminate_request", .bool true)]

/-- `dap.InitializeResponse(request_seq=msg.seq, capabilities=...)` (_debug_adapter.py:394-431). The sequence number of the response itself is
given by the connection (C05). -/
def initResponse (m : Dap.Val) : Dap.Val := respond .InitializeResponse m [(py!"capabilities", initCapabilities)]

end Verif.Wire
