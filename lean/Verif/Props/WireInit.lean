import Verif.Wire.Init
import Verif.Props.WireBps
import Verif.Props.WireStops
import Verif.Strat.Role
import Verif.Props.Bp
import Verif.Props.Dap
/-!
# The capabilities announced to the client (C99)

`initResponse m` is the response of the adapter to the initialize request `m`, `toJson` the document written for it. What
a client may rely on is said by the protocol: a request or attribute may be used exactly if the capability it belongs to is announced.
-/

namespace Verif.Props.WireInit
open Verif Verif.Wire Verif.Strat Verif.Props.Strat Verif.Props.WireEval Verif.Props.WireVars Verif.Props.WireBps
open Verif.Dap (Cls Instance toJson unpack)
open Verif.Dap.Schema (Valid ref)
open Verif.Props.DapSchema (Without)

/-! ## What the protocol says -/

/-- A member of a document. -/
def member : Json → Str → Option Json
  | .obj l, k => Dict.get? l k
  | _, _ => none

/-- The response announces a boolean capability. -/
def Announces (j : Json) (cap : Str) : Prop := ((member j py!"body").bind fun b => member b cap) = some (.bool true)

/-- The id and the initial state of a filter in a document. -/
def filterOf (j : Json) : Option (Str × Bool) :=
  match member j py!"filter", member j py!"default" with
  | some (.str i), some (.bool b) => some (i, b)
  | _, _ => none

/-- The exception filters a document offers. -/
def offered (j : Json) : Option (List (Str × Bool)) :=
  match (member j py!"body").bind fun b => member b py!"exceptionBreakpointFilters" with
  | some (.arr l) => l.mapM filterOf
  | _ => none

/-- The requests of the protocol that a client may send only if a capability is announced (`Capabilities` in the specification of the
Debug Adapter Protocol), with that capability. -/
def gated : List (Str × Str) :=
  [(py!"configurationDone", py!"supportsConfigurationDoneRequest"),
   (py!"setFunctionBreakpoints", py!"supportsFunctionBreakpoints"),
   (py!"setDataBreakpoints", py!"supportsDataBreakpoints"),
   (py!"dataBreakpointInfo", py!"supportsDataBreakpoints"),
   (py!"setInstructionBreakpoints", py!"supportsInstructionBreakpoints"),
   (py!"breakpointLocations", py!"supportsBreakpointLocationsRequest"),
   (py!"stepBack", py!"supportsStepBack"), (py!"reverseContinue", py!"supportsStepBack"),
   (py!"setVariable", py!"supportsSetVariable"), (py!"setExpression", py!"supportsSetExpression"),
   (py!"restartFrame", py!"supportsRestartFrame"), (py!"restart", py!"supportsRestartRequest"),
   (py!"goto", py!"supportsGotoTargetsRequest"), (py!"gotoTargets", py!"supportsGotoTargetsRequest"),
   (py!"stepInTargets", py!"supportsStepInTargetsRequest"), (py!"completions", py!"supportsCompletionsRequest"),
   (py!"modules", py!"supportsModulesRequest"), (py!"exceptionInfo", py!"supportsExceptionInfoRequest"),
   (py!"loadedSources", py!"supportsLoadedSourcesRequest"), (py!"terminateThreads", py!"supportsTerminateThreadsRequest"),
   (py!"terminate", py!"supportsTerminateRequest"), (py!"readMemory", py!"supportsReadMemoryRequest"),
   (py!"writeMemory", py!"supportsWriteMemoryRequest"), (py!"disassemble", py!"supportsDisassembleRequest"),
   (py!"cancel", py!"supportsCancelRequest")]

/-- The attributes of requests that only mean something if a capability is announced which is not among those of `C99_document`, with that
capability: `suspendDebuggee` (supportSuspendDebuggee), `restart` (supportsRestartRequest), `filterOptions` (supportsExceptionFilterOptions),
`exceptionOptions` (supportsExceptionOptions), `singleThread` of a step (supportsSingleThreadExecutionRequests), `granularity`
(supportsSteppingGranularity), `targetId` (supportsStepInTargetsRequest), `format` (supportsValueFormattingOptions). -/
def unannounced : Cls → List Str
  | .DisconnectRequest => [py!"suspend_debuggee", py!"restart"]
  | .TerminateRequest => [py!"restart"]
  | .SetExceptionBreakpointsRequest => [py!"filter_options", py!"exception_options"]
  | .NextRequest | .StepOutRequest => [py!"single_thread", py!"granularity"]
  | .StepInRequest => [py!"single_thread", py!"granularity", py!"target_id"]
  | .EvaluateRequest | .SetVariableRequest | .StackTraceRequest | .VariablesRequest => [py!"format"]
  | _ => []

/-! ## The document -/

theorem caps_doc (m : Dap.Val) : member (toJson (initResponse m)) py!"body" = some (.obj [
    (py!"supportsConfigurationDoneRequest", .bool true), (py!"supportsFunctionBreakpoints", .bool false),
    (py!"supportsConditionalBreakpoints", .bool true), (py!"supportsHitConditionalBreakpoints", .bool false),
    (py!"supportsEvaluateForHovers", .bool false),
    (py!"exceptionBreakpointFilters", .arr (initFilters.map toJson)),
    (py!"supportsStepBack", .bool false), (py!"supportsSetVariable", .bool true), (py!"supportsRestartFrame", .bool false),
    (py!"supportsGotoTargetsRequest", .bool false), (py!"supportsStepInTargetsRequest", .bool false),
    (py!"supportsCompletionsRequest", .bool false), (py!"supportTerminateDebuggee", .bool true), (py!"supportSuspendDebuggee", .bool false),
    (py!"supportsTerminateRequest", .bool true), (py!"supportsClipboardContext", .bool true)]) := by
  rfl

/-- The boolean capabilities announced. -/
def announced : List Str := [py!"supportsConfigurationDoneRequest", py!"supportsConditionalBreakpoints", py!"supportsSetVariable", py!"supportTerminateDebuggee",
  py!"supportsTerminateRequest", py!"supportsClipboardContext"]

theorem init_instance (m : Dap.Val) : Instance .InitializeResponse (initResponse m) :=
  respond_instance _ _ _ (by decide +kernel) (show restOk .InitializeResponse [py!"request_seq", py!"capabilities"] = true by decide +kernel) rfl
    (tcons rfl (Verif.Dap.instance_of (by decide +kernel)) tnil)

theorem announces_iff (m : Dap.Val) (cap : Str) : Announces (toJson (initResponse m)) cap ↔ cap ∈ announced := by
  unfold Announces
  rw [caps_doc m]
  simp only [Option.bind_some, member]
  constructor
  · intro hc
    have hm := Dict.mem_of_get? _ _ _ hc
    simp only [List.mem_cons, List.not_mem_nil, or_false, Prod.mk.injEq] at hm
    rcases hm with ⟨rfl, hv⟩ | ⟨rfl, hv⟩ | ⟨rfl, hv⟩ | ⟨rfl, hv⟩ | ⟨rfl, hv⟩ | ⟨rfl, hv⟩ | ⟨rfl, hv⟩ | ⟨rfl, hv⟩ | ⟨rfl, hv⟩ | ⟨rfl, hv⟩ | ⟨rfl, hv⟩ |
      ⟨rfl, hv⟩ | ⟨rfl, hv⟩ | ⟨rfl, hv⟩ | ⟨rfl, hv⟩ | ⟨rfl, hv⟩ <;> first | (cases hv; done) | decide +kernel
  · intro hc
    simp only [announced, List.mem_cons, List.not_mem_nil, or_false] at hc
    rcases hc with rfl | rfl | rfl | rfl | rfl | rfl <;> rfl

/-- **C99.** The response to every initialize request, as a client parses it, conforms to the protocol's schema (but for null, C83), names the
request, and announces exactly these: the configurationDone, setVariable and terminate requests, conditional breakpoints, ending the
debuggee on disconnect and evaluation for the clipboard; no other capability, whatever its name. The exception filters offered are the three
ids with `on_error` and `on_unreachable` on at first and `on_skipped` off. -/
theorem C99_document (m : Dap.Val) (q : Int) (hq : m.attr? py!"seq" = some (.int q)) :
    ∃ j, loads (dumps (toJson (initResponse m))) = some j ∧ Valid false (ref .InitializeResponse) j ∧
      member j py!"request_seq" = some (.int q) ∧ member j py!"command" = some (.str py!"initialize") ∧ member j py!"success" = some (.bool true) ∧
      (∀ cap, Announces j cap ↔ cap ∈ [py!"supportsConfigurationDoneRequest", py!"supportsConditionalBreakpoints", py!"supportsSetVariable",
        py!"supportTerminateDebuggee", py!"supportsTerminateRequest", py!"supportsClipboardContext"]) ∧
      offered j = some [(py!"on_error", true), (py!"on_unreachable", true), (py!"on_skipped", false)] := by
  have hok : (initResponse m).Ok := by
    have hf : ∀ i l d b, StrOk i = true → StrOk l = true → StrOk d = true → (filterVal i l d b).Ok := fun i l d b h1 h2 h3 =>
      ⟨h1, h2, h3, trivial, trivial, trivial, trivial⟩
    have h1 : initCapabilities.Ok :=
      ⟨trivial, trivial, trivial, trivial, trivial, ⟨hf _ _ _ _ (by decide +kernel) (by decide +kernel) (by decide +kernel),
        hf _ _ _ _ (by decide +kernel) (by decide +kernel) (by decide +kernel), hf _ _ _ _ (by decide +kernel) (by decide +kernel) (by decide +kernel), trivial⟩,
        trivial, trivial, trivial, trivial, trivial, trivial, trivial, trivial, trivial, trivial, trivial⟩
    have hm : StrOk py!"response" = true := by decide +kernel
    have hc : StrOk py!"initialize" = true := by decide +kernel
    simp only [initResponse, respond, build, Dap.Val.Ok]
    exact ⟨trivial, hm, trivial, hc, trivial, h1, trivial⟩
  refine ⟨toJson (initResponse m), loads_dumps _ (Dap.toJson_wf _ hok), ?_, ?_, rfl, rfl, announces_iff m, rfl⟩
  · obtain ⟨j, h1, h2⟩ := Verif.Props.DapSchema.C83_sent_conforms_partial _ _ (init_instance m) hok (by simp)
    rw [loads_dumps _ (Dap.toJson_wf _ hok)] at h1
    cases h1
    exact h2
  · have : member (toJson (initResponse m)) py!"request_seq" = some (.int ((intAttr m py!"seq").getD 0)) := rfl
    rw [this]
    simp only [intAttr, hq, Option.getD_some]

/-- The filters offered, with what the client shows for them. -/
theorem C99_filter_texts (m : Dap.Val) : ((member (toJson (initResponse m)) py!"body").bind fun b => member b py!"exceptionBreakpointFilters").map (fun l => match l with
      | .arr l => l.map fun f => (member f py!"filter", member f py!"label", member f py!"description", member f py!"default", member f py!"supportsCondition")
      | _ => []) = some [
    (some (.str py!"on_error"), some (.str py!"Uncaught Failures"), some (.str py!"Break when the play will fail due to an unhandled failure."), some (.bool true),
      some (.bool false)),
    (some (.str py!"on_unreachable"), some (.str py!"Unreachable Hosts"), some (.str py!"Break when the play will fail due to an unreachable host error."), some (.bool true),
      some (.bool false)),
    (some (.str py!"on_skipped"), some (.str py!"Skipped Tasks"), some (.str py!"Break when the preceding task was skipped"), some (.bool false), some (.bool false))] := by
  rfl

/-! ## The requests -/

/-- **C99.** A request that belongs to an announced capability is understood by the debuggee, in every state: its command is the one of a
class of messages, and the handler of that class is not the one for unknown requests. -/
theorem C99_announced_requests (m : Dap.Val) (cmd cap : Str) (h : (cmd, cap) ∈ gated) (ha : Announces (toJson (initResponse m)) cap) :
    ∃ c : Cls, c.base = some .Request ∧ c.attr? py!"command" = some (.enum .Command cmd) ∧
      ∀ e s r, callOf e s c r ≠ .raises .notImpl := by
  rw [announces_iff] at ha
  have : (cmd, cap) ∈ gated.filter fun x => decide (x.2 ∈ announced) := List.mem_filter.2 ⟨h, by simpa using ha⟩
  have e : (gated.filter fun x => decide (x.2 ∈ announced)) = [(py!"configurationDone", py!"supportsConfigurationDoneRequest"),
    (py!"setVariable", py!"supportsSetVariable"), (py!"terminate", py!"supportsTerminateRequest")] := by decide +kernel
  rw [e] at this
  simp only [List.mem_cons, List.not_mem_nil, or_false, Prod.mk.injEq] at this
  rcases this with ⟨rfl, rfl⟩ | ⟨rfl, rfl⟩ | ⟨rfl, rfl⟩
  · exact ⟨.ConfigurationDoneRequest, rfl, rfl, fun e s r h => by simp [callOf] at h⟩
  · refine ⟨.SetVariableRequest, rfl, rfl, fun e s r h => ?_⟩
    simp only [callOf, keyed] at h
    (repeat' (split at h)) <;> cases h
  · exact ⟨.TerminateRequest, rfl, rfl, fun e s r h => by simp [callOf] at h⟩

/-- **C99.** A request that belongs to a capability which is not announced is refused: its document is rejected as a whole, or, for a cancel
request, the debuggee changes nothing and answers with an error. -/
theorem C99_other_requests (m : Dap.Val) (cmd cap : Str) (h : (cmd, cap) ∈ gated) (ha : ¬ Announces (toJson (initResponse m)) cap) :
    (∀ j, Dap.getItem j py!"type" = .ok (.str py!"request") → Dap.getItem j py!"command" = .ok (.str cmd) → unpack j = .error .value) ∨
    (cmd = py!"cancel" ∧ ∀ e s r, Instance .CancelRequest r → (handle e s r).1 = s ∧ ∃ a, (handle e s r).2 = [a] ∧ Instance .ErrorResponse a) := by
  rw [announces_iff] at ha
  by_cases hc : cmd = py!"cancel"
  · exact .inr ⟨hc, fun e s r hr => Verif.Props.Wire.C85_unknown e s .CancelRequest (by simp) r hr⟩
  · left
    intro j h1 h2
    refine Verif.Props.Dap.C12_unknown_command j cmd h1 h2 fun c _ hcc => ?_
    have hall : (gated.all fun x => decide (x.2 ∈ announced) || decide (x.1 = py!"cancel") ||
        Dap.allCls.all fun c => match c.attr? py!"command" with | some (.enum .Command w) => decide (w ≠ x.1) | _ => true) = true := by decide +kernel
    have := List.all_eq_true.1 hall _ h
    simp only [Bool.or_eq_true, decide_eq_true_eq, ha, hc, false_or, List.all_eq_true] at this
    have := this c (Dap.mem_allCls c)
    rw [hcc] at this
    simp at this

/-- **C99.** What belongs to a capability that is not announced has no influence: two requests of the same class that differ in such attributes only
have the same effect and the same answer, in every state. -/
theorem C99_unannounced_ignored (e : Env) (s : DS) (c : Cls) (as bs : List (Str × Dap.Val))
    (h : ∀ a, a ∉ unannounced c → (Dap.Val.obj c as).attr? a = (Dap.Val.obj c bs).attr? a) :
    handle e s (.obj c as) = handle e s (.obj c bs) := by
  have hs : ∀ a, a ∉ unannounced c → strAttr (.obj c as) a = strAttr (.obj c bs) a := fun a ha => by simp only [strAttr, h a ha]
  have hi : ∀ a, a ∉ unannounced c → intAttr (.obj c as) a = intAttr (.obj c bs) a := fun a ha => by simp only [intAttr, h a ha]
  have hb : ∀ a, a ∉ unannounced c → boolAttr (.obj c as) a = boolAttr (.obj c bs) a := fun a ha => by simp only [boolAttr, h a ha]
  have hl : ∀ a, a ∉ unannounced c → listAttr (.obj c as) a = listAttr (.obj c bs) a := fun a ha => by simp only [listAttr, h a ha]
  have q : py!"seq" ∉ unannounced c := by cases c <;> decide +kernel
  have k : py!"command" ∉ unannounced c := by cases c <;> decide +kernel
  have x1 : py!"expression" ∉ unannounced c := by cases c <;> decide +kernel
  have x2 : py!"context" ∉ unannounced c := by cases c <;> decide +kernel
  have x3 : py!"frame_id" ∉ unannounced c := by cases c <;> decide +kernel
  have x4 : py!"variables_reference" ∉ unannounced c := by cases c <;> decide +kernel
  have x5 : py!"value" ∉ unannounced c := by cases c <;> decide +kernel
  have x6 : py!"name" ∉ unannounced c := by cases c <;> decide +kernel
  have x7 : py!"thread_id" ∉ unannounced c := by cases c <;> decide +kernel
  have hroute : route (.obj c as) = route (.obj c bs) := by simp only [route, hs _ x1, hs _ x2, hi _ x3]
  have hcall : callOf e s c (.obj c as) = callOf e s c (.obj c bs) := by
    cases c <;> simp only [callOf, keyed, hi _ x7, hi _ x3, hi _ x4, hs _ x5, hs _ x6, filtersOf, sourceOf, linesOf, evalCall, hroute]
    case ContinueRequest => rw [hb _ (show py!"single_thread" ∉ unannounced .ContinueRequest by decide +kernel)]
    case DisconnectRequest => rw [hb _ (show py!"terminate_debuggee" ∉ unannounced .DisconnectRequest by decide +kernel)]
    case SetExceptionBreakpointsRequest => rw [hl _ (show py!"filters" ∉ unannounced .SetExceptionBreakpointsRequest by decide +kernel)]
    case SetBreakpointsRequest =>
      rw [h _ (show py!"source" ∉ unannounced .SetBreakpointsRequest by decide +kernel), hb _ (show py!"source_modified" ∉ unannounced .SetBreakpointsRequest by decide +kernel),
        hl _ (show py!"breakpoints" ∉ unannounced .SetBreakpointsRequest by decide +kernel)]
  have hresp : ∀ d asg, respond d (.obj c as) asg = respond d (.obj c bs) asg := fun d asg => by simp only [respond, hi _ q]
  have herr : ∀ x, errorResponse e (.obj c as) x = errorResponse e (.obj c bs) x := fun x => by simp only [errorResponse, hresp, h _ k]
  have heval : ∀ s, evalResponse e s (.obj c as) = evalResponse e s (.obj c bs) := fun s => by
    simp only [evalResponse, hresp, evalValue, hroute, hs _ x1, hs _ x2]
  have hset : ∀ s ref, setVarResponse e s (.obj c as) ref = setVarResponse e s (.obj c bs) ref := fun s ref => by
    simp only [setVarResponse, hresp, hi _ x4, hs _ x5]
  have hrender : ∀ s get, render e s c (.obj c as) get = render e s c (.obj c bs) get := fun s get => by
    funext o
    unfold render
    split <;> first | rfl | simp only [hresp, herr, heval, hset]
  simp only [handle, hcall, herr, hresp, heval]
  split <;> first | rfl | simp only [hrender]

/-! ## The filters -/

theorem setExc_mem (q : Nat) (gs : List Str) : ∀ ls : List Label, Bp.Act.setExc q gs ∈ bpActs ls → Label.req (.setExc q gs) ∈ ls := by
  intro ls
  induction ls with
  | nil => intro h; cases h
  | cons l ls ih =>
    intro h
    rw [bpActs_cons] at h
    rcases List.mem_append.1 h with h | h
    · cases l with
      | req r => cases r <;> simp_all [bpActs]
      | _ => simp_all [bpActs]
    · exact List.mem_cons_of_mem _ (ih h)

/-- **C99.** The filters offered are the ones the debuggee acts on. After a setExceptionBreakpoints request with the filters `fs`, as a document, whatever
happened before it and whatever happens after it until the next such request: when a host finishes a task, it stops exactly if the task failed, the failure is
neither ignored nor rescued and the first filter offered is in `fs`; or the host was unreachable, which is not ignored, and the second one is; or the task
was skipped and the third one is. So a filter that is not offered never matters. -/
theorem C99_filters (m : Dap.Val) (fE fU fS : Str × Bool) (hoff : offered (toJson (initResponse m)) = some [fE, fU, fS])
    (strict : Bool) (e : Env) (s : DS) (l args : List (Str × Json)) (hv : Valid strict (ref .SetExceptionBreakpointsRequest) (.obj l))
    (ht : Without py!"__types" (.obj l)) (he : Without py!"exceptionOptions" (.obj l)) (ha : Dict.get? l py!"arguments" = some (.obj args))
    (fs : List Str) (hf : said args py!"filters" = some (.arr (fs.map Json.str))) (r : Dap.Val) (hm : unpack (.obj l) = .ok r)
    (hs : Reachable s) {ls : List Label} {s1 : DS} {os : List Out} (hrun : Run (handle e s r).1 ls s1 os)
    (hno : ∀ q gs, Label.req (.setExc q gs) ∉ ls)
    {h : Nat} {t : Task} {x : Result} {res : Addr} {s2 : DS} {o : List Out} {th : Thread}
    (hth : threadOf s1 h = some th) (hfr : th.frames ≠ []) (hx : Exclusive x) (hst : step s1 (.done h t x res) = some (s2, o)) :
    Stops th.id o ↔
      (x.failed = true ∧ x.ignoreErrors = false ∧ fE.1 ∈ fs ∧ ¬ ∃ n ∈ t.parents, n.isTask = false ∧ n.hasRescue = true) ∨
      (x.unreachable = true ∧ x.ignoreUnreachable = false ∧ fU.1 ∈ fs) ∨ (x.skipped = true ∧ fS.1 ∈ fs) := by
  have e0 : offered (toJson (initResponse m)) = some [(py!"on_error", true), (py!"on_unreachable", true), (py!"on_skipped", false)] := rfl
  rw [e0] at hoff
  simp only [Option.some.injEq, List.cons.injEq, and_true] at hoff
  obtain ⟨rfl, rfl, rfl⟩ := hoff
  obtain ⟨h1, h2, -⟩ := C90_set_exceptions_partial strict e s l args hv ht he ha fs hf r hm
  obtain ⟨attrs, rfl⟩ := Verif.Props.Wire.unpack_cls (c := .SetExceptionBreakpointsRequest) rfl hv (by simp) (by simp) hm
  have hr0 : Reachable (handle e s (.obj .SetExceptionBreakpointsRequest attrs)).1 := by
    obtain ⟨ls0, os0, hrun0⟩ := hs
    exact ⟨_, _, run_snoc hrun0 (l := .req (.setExc 0 (filtersOf (.obj .SetExceptionBreakpointsRequest attrs)))) rfl⟩
  have hi := reach_inv hr0
  have hr1 : Reachable s1 := by
    obtain ⟨ls0, os0, hrun0⟩ := hr0
    exact ⟨_, _, run_append hrun0 hrun⟩
  have hlast : ∀ (acts : List Bp.Act), (∀ q gs, Bp.Act.setExc q gs ∉ acts) → Verif.Props.Bp.lastFilters acts fs = fs := by
    intro acts
    induction acts with
    | nil => intro _; rfl
    | cons a as ih =>
      intro hn
      have := ih fun q gs hm => hn q gs (List.mem_cons_of_mem _ hm)
      cases a with
      | setExc q gs => exact absurd (List.mem_cons_self ..) (hn q gs)
      | _ => exact this
  have hacts : ∀ q gs, Bp.Act.setExc q gs ∉ bpActs ls := by
    intro q gs hmem
    exact hno q gs (setExc_mem q gs ls hmem)
  have hflt : ∀ f, FilterOn s1 f ↔ f ∈ fs := by
    intro f
    unfold FilterOn
    rw [dbg_run hi hrun, Verif.Props.Bp.exc_run (bpActs ls) f _ fs h1, hlast _ hacts]
    simp
  rw [(C36_exception_stops hr1 hth hfr hx hst).1]
  simp only [MustStop, hflt]

/-! ## Evaluation -/

/-- **C99.** Evaluation for the clipboard is announced and does work, as in the watch list: in a frame that exists the answer is the templated expression, and
nothing changes. Evaluation for hovers is not announced, and is not done. -/
theorem C99_clipboard (m0 : Dap.Val) (e : Env) (s : DS) (m : Dap.Val) (hm : Instance .EvaluateRequest m) (x : Str) (f : Nat) (fr : Frame)
    (hx : m.attr? py!"expression" = some (.str x)) (hf : m.attr? py!"frame_id" = some (.int f)) (hf0 : f ≠ 0) (hfr : s.frames.get? f = some fr) :
    (Announces (toJson (initResponse m0)) py!"supportsClipboardContext" ∧ (m.attr? py!"context" = some (.str py!"clipboard") →
      (handle e s m).1 = s ∧ ∃ a, (handle e s m).2 = [a] ∧
      (∀ objs v, e.template (some fr.taskVars) x = .ok (objs, v) → EvalAnswer m a (reprOf e (s.heap ++ objs) v) (some (e.typeOf (s.heap ++ objs) v))) ∧
      (∀ t, e.template (some fr.taskVars) x = .error t → EvalAnswer m a t none))) ∧
    (¬ Announces (toJson (initResponse m0)) py!"supportsEvaluateForHovers" ∧ (m.attr? py!"context" = some (.str py!"hover") →
      (handle e s m).1 = s ∧ ∃ a, (handle e s m).2 = [a] ∧ EvalAnswer m a py!"Evaluation for hover is not implemented" none)) := by
  refine ⟨⟨(announces_iff _ _).2 (by decide +kernel), fun hc => ?_⟩, fun h => absurd ((announces_iff _ _).1 h) (by decide +kernel), fun hc => ?_⟩
  · exact C87_expression e s m hm _ x f fr hx hc hf (by decide +kernel) hf0 (fun h => absurd h.1 (by decide +kernel)) hfr
  · obtain ⟨h1, a, h2, h3⟩ := C87_not_evaluated e s m hm (.inr (.inr (.inr ⟨_, hc, by decide +kernel⟩)))
    refine ⟨h1, a, h2, ?_⟩
    rw [hc] at h3
    exact h3

/-! ### Non-vacuity -/

def initReq (base : Bool) : Dap.Val := build .InitializeRequest [(py!"seq", .int 1), (py!"adapter_id", .str py!"ansibug"), (py!"lines_start_at_1", .bool base)]

example : (initReq true).attr? py!"seq" = some (.int 1) ∧ Instance .InitializeRequest (initReq true) := ⟨rfl, Verif.Dap.instance_of (by decide +kernel)⟩

/-- The start of the text sent. -/
example : (py!"{\"seq\": 0, \"type\": \"response\", \"request_seq\": 1, \"success\": true, \"command\": \"initialize\", \"body\": {\"supportsConfigurationDoneRequest\": true, \"supportsFunctionB").isPrefixOf (dumps (toJson (initResponse (initReq true)))) = true := by
  decide +kernel

example : (py!"goto", py!"supportsGotoTargetsRequest") ∈ gated ∧ ¬ Announces (toJson (initResponse (initReq true))) py!"supportsGotoTargetsRequest" ∧
    (py!"terminate", py!"supportsTerminateRequest") ∈ gated ∧ Announces (toJson (initResponse (initReq true))) py!"supportsTerminateRequest" := by
  simp only [announces_iff]; decide +kernel

/-- The filter of `excDoc` (on_error), sent in the initial state; a task of host 7 fails, and one is skipped. -/
example : offered (toJson (initResponse (initReq true))) = some [(py!"on_error", true), (py!"on_unreachable", true), (py!"on_skipped", false)] ∧ Reachable {} ∧
    ((unpack (.obj excDoc)).toOption.map fun r => ouF (stF (handle Verif.Props.Wire.env0 {} r).1 [.start 7 (tk 10 1) 0 0 yes]) [.done 7 (tk 10 1) bad 0]) =
      some [.stopped 2 (.exc .failed)] ∧
    ((unpack (.obj excDoc)).toOption.map fun r => ouF (stF (handle Verif.Props.Wire.env0 {} r).1 [.start 7 (tk 10 1) 0 0 yes]) [.done 7 (tk 10 1) { fine with skipped := true } 0]) =
      some [] :=
  ⟨rfl, ⟨[], [], .nil _⟩, by decide +kernel, by decide +kernel⟩

/-- Two disconnect requests that differ in `suspendDebuggee`. -/
example : ∀ a, a ∉ unannounced .DisconnectRequest → (build .DisconnectRequest [(py!"suspend_debuggee", .bool true)]).attr? a = (build .DisconnectRequest []).attr? a := by
  intro a ha
  simp only [unannounced, List.mem_cons, List.not_mem_nil, or_false, not_or] at ha
  have e1 : build .DisconnectRequest [(py!"suspend_debuggee", .bool true)] = .obj .DisconnectRequest [(py!"seq", .int 0), (py!"message_type", .enum .MessageType py!"request"),
    (py!"command", .enum .Command py!"disconnect"), (py!"restart", .bool false), (py!"terminate_debuggee", .null), (py!"suspend_debuggee", .bool true)] := rfl
  have e2 : build .DisconnectRequest [] = .obj .DisconnectRequest [(py!"seq", .int 0), (py!"message_type", .enum .MessageType py!"request"),
    (py!"command", .enum .Command py!"disconnect"), (py!"restart", .bool false), (py!"terminate_debuggee", .null), (py!"suspend_debuggee", .bool false)] := rfl
  rw [e1, e2]
  simp only [Dap.Val.attr?, Dict.get?, if_neg (Ne.symm ha.1)]

/-! ## C100 what the client says about itself -/

/-- The line number by which a client means the line of a file, counted from 1. -/
def clientLine (startAt1 : Bool) (line : Int) : Int := if startAt1 = true then line else line - 1

/-- C100, the part that holds: a client that counts lines from 1 (it says so, or says nothing about it: the default of the protocol) is shown
the lines of the tasks, by its own way of counting. -/
theorem C100_from_one_partial (base : Bool) (m0 : Dap.Val) (h0 : m0.attr? py!"lines_start_at_1" = some (.bool base)) (hb : base = true)
    (e : Env) (s : DS) (hr : Reachable s) (m : Dap.Val) (hm : Instance .StackTraceRequest m) (k : Nat) (th : Thread)
    (hk : m.attr? py!"thread_id" = some (.int k)) (ht : s.threads.get? k = some th) (hl : Located s th) :
    ∃ a l, (handle e s m).2 = [a] ∧ a.attr? py!"stack_frames" = some (.list l) ∧ l.length = th.frames.length ∧
      ∀ (i f : Nat) (fr : Frame) (p : Str) (n : Int), th.frames[i]? = some f → s.frames.get? f = some fr → fr.task.path = some (p, n) →
        ∃ v, l[i]? = some v ∧ v.attr? py!"line" = some (.int (clientLine base n)) := by
  obtain ⟨-, a, l, h1, -, h2, -, h3, h4⟩ := C88_stack e s hr m hm k th hk ht hl
  refine ⟨a, l, h1, h2, h3, fun i f fr p n hf hfr hp => ?_⟩
  obtain ⟨v, hv, hs⟩ := h4 i f hf
  obtain ⟨fr', p', n', e1, e2, -, -, e3, -⟩ := hs
  rw [hfr] at e1
  cases e1
  rw [hp] at e2
  cases e2
  exact ⟨v, hv, by rw [e3, hb]; rfl⟩

/-- A stackTrace request for thread 2. -/
def stackReq : Dap.Val := build .StackTraceRequest [(py!"seq", .int 5), (py!"thread_id", .int 2)]

/-- What the frames of an answer say of their lines. -/
def linesIn (a : Dap.Val) : List (Option Int) := (listAttr a py!"stack_frames").map (intAttr · py!"line")

/-- C100: what the client says about itself in the initialize request makes no difference: the adapter answers two requests with the same number alike, and this is
all it does (the debuggee never gets to see the request). -/
theorem C100_ignored (m m' : Dap.Val) (h : m.attr? py!"seq" = m'.attr? py!"seq") : initResponse m = initResponse m' := by
  simp only [initResponse, respond, intAttr, h]

/-- **C100 is false** for a client that counts lines from 0. Such a client attaches; host 7 is stopped at the task of line 1 of its file, which is line 0 for the client. It
is shown line 1. -/
theorem C100_lines_refuted : ∃ (m0 : Dap.Val) (base : Bool) (s : DS) (line : Int) (a : Dap.Val) (shown : Int),
    Instance .InitializeRequest m0 ∧ m0.attr? py!"lines_start_at_1" = some (.bool base) ∧ Reachable s ∧ s.pc = .waitStart 2 ∧
    ((s.threads.get? 2).map fun th => th.frames.map fun f => ((s.frames.get? f).bind (·.task.path)).map (·.2)) = some [some line] ∧
    Instance .StackTraceRequest stackReq ∧ (handle Verif.Props.Wire.env0 s stackReq).2 = [a] ∧ linesIn a = [some shown] ∧ shown ≠ clientLine base line :=
  ⟨initReq false, false, e1, 1, _, 1, Verif.Dap.instance_of (by decide +kernel), rfl,
    reach_append ⟨_, _, run_of (ls := setup) (by decide +kernel)⟩ (run_of (ls := [.start 7 (tinc 50 1) 0 0 yes]) (by decide +kernel)), by decide +kernel,
    by decide +kernel, Verif.Dap.instance_of (by decide +kernel), rfl, by decide +kernel, by decide⟩

end Verif.Props.WireInit
