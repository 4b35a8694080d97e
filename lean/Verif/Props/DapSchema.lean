import Verif.Dap.Accept
import Verif.Dap.Inst
import Verif.Dap.CheckDoc
/-!
# The Debug Adapter Protocol's schema (C83, C84)

`Valid strict s j` (Dap/Schema.lean) says that the document `j` conforms to the type `s` of the published
protocol schema, transcribed there independently of /repo; `ref c` is the message or type named `c`.
With `strict = false` an optional member may also be present with the value null. `Reads s j v`
(Dap/Reads.lean) says that the Python value `v` is what the document says. `toJson v` is the document
written for a Python value, `dumps`/`loads` the text, `unpack` is `ProtocolMessage.unpack`, and
`Instance c v` says that `v` is an object of class `c` whose attributes have the annotated types.
-/

namespace Verif.Props.DapSchema
open Verif Verif.Dap Verif.Dap.Schema

/-! ## C83 what is sent conforms to the schema -/

/-- The classes whose packed form conforms if a null optional member is tolerated: all but attach and
launch (whose arguments are the user's) and cancel. -/
def conforming : List Cls := allCls.filter fun c => c != .AttachRequest && c != .LaunchRequest && c != .CancelRequest

theorem conforming_fits : ∀ c ∈ conforming, clsFits conforming false c = true := by
  have : conforming.all (clsFits conforming false) = true := by decide +kernel
  exact fun c hc => List.all_eq_true.1 this c hc

/-- C83: every well-typed response and event, the runInTerminal request and every type nested in them,
written as JSON text and parsed by a client, conforms to the protocol's schema: every required member is
there, and every member has its type. Optional members without a value are there as null (C83_null_refuted:
the schema itself does not allow that). -/
theorem C83_sent_conforms_partial (c : Cls) (v : Val) (h : Instance c v) (hok : v.Ok)
    (hc : c ≠ .AttachRequest ∧ c ≠ .LaunchRequest ∧ c ≠ .CancelRequest) :
    ∃ j, loads (dumps (toJson v)) = some j ∧ Valid false (ref c) j :=
  ⟨toJson v, loads_dumps _ (toJson_wf v hok), instance_valid conforming_fits (by
    simp only [conforming, List.mem_filter, mem_allCls, true_and, Bool.and_eq_true, bne_iff_ne]
    exact ⟨⟨hc.1, hc.2.1⟩, hc.2.2⟩) h⟩

/-- The messages and types without optional attributes. -/
def exact : List Cls := [.Checksum, .ExceptionOptions, .ExceptionPathSegment, .StackFrameFormat, .Thread, .ValueFormat,
  .AttachResponse, .CancelResponse, .ConfigurationDoneResponse, .ContinueResponse, .DisconnectResponse, .LaunchResponse, .NextResponse,
  .StepInResponse, .StepOutResponse, .TerminateResponse, .ThreadsResponse, .ExitedEvent, .InitializedEvent, .TerminatedEvent, .ThreadEvent]

/-- C83: the attach, cancel, configurationDone, continue, disconnect, launch, next, stepIn, stepOut,
terminate and threads responses and the exited, initialized, terminated and thread events conform to the
schema as published, without the tolerance for null. -/
theorem C83_exact (c : Cls) (hc : c ∈ exact) (v : Val) (h : Instance c v) (hok : v.Ok) :
    ∃ j, loads (dumps (toJson v)) = some j ∧ Valid true (ref c) j := by
  have : ∀ c ∈ exact, clsFits exact true c = true := by
    have : exact.all (clsFits exact true) = true := by decide +kernel
    exact fun c hc => List.all_eq_true.1 this c hc
  exact ⟨toJson v, loads_dumps _ (toJson_wf v hok), instance_valid this hc h⟩

/-- A stopped event for a step, as the debuggee sends it. -/
def stopped : Val := .obj .StoppedEvent [(py!"seq", .int 3), (py!"message_type", .enum .MessageType py!"event"), (py!"event", .enum .EventType py!"stopped"),
  (py!"reason", .enum .StoppedReason py!"step"), (py!"description", .str py!"Step over"), (py!"thread_id", .int 2), (py!"preserve_focus_hint", .bool false),
  (py!"text", .null), (py!"all_threads_stopped", .bool false), (py!"hit_breakpoint_ids", .list [])]

theorem stopped_instance : Instance .StoppedEvent stopped := instance_of (by decide +kernel)

example : stopped.Ok := by simp only [stopped, Val.Ok, Val.OkA, Val.OkL]; decide +kernel

/-- The schema as published does not allow what is sent: a stopped event without a text has `"text": null`. -/
theorem C83_null_refuted : ∃ v, Instance .StoppedEvent v ∧ ¬ Valid true (ref .StoppedEvent) (toJson v) := by
  refine ⟨stopped, stopped_instance, ?_⟩
  intro h
  obtain ⟨b, hb, hbv⟩ := valid_required (d := .top .StoppedEvent) (m := req py!"body" (.obj (.body .StoppedEvent))) (l := members (toJson stopped)) h
    (by decide +kernel) rfl
  have e : Dict.get? (members (toJson stopped)) py!"body" = some (.obj [(py!"reason", .str py!"step"), (py!"description", .str py!"Step over"),
    (py!"threadId", .int 2), (py!"preserveFocusHint", .bool false), (py!"text", .null), (py!"allThreadsStopped", .bool false),
    (py!"hitBreakpointIds", .arr [])]) := by rfl
  simp only [req] at hb
  rw [e] at hb
  cases hb
  cases hbv with
  | obj _ _ hn hr hm =>
    have := hm (opt py!"text" .str) (by decide +kernel) .null (by rfl) (by simp)
    cases this

/-- A cancel request with a progress id. -/
def cancel : Val := .obj .CancelRequest [(py!"seq", .int 3), (py!"message_type", .enum .MessageType py!"request"), (py!"command", .enum .Command py!"cancel"),
  (py!"request_id", .null), (py!"progress_id", .int 2)]

/-- The progress id of a cancel request is a text in the protocol, a number in the class. -/
theorem C83_cancel_refuted : ∃ v, Instance .CancelRequest v ∧ ¬ Valid false (ref .CancelRequest) (toJson v) := by
  refine ⟨cancel, instance_of (by decide +kernel), ?_⟩
  intro h
  have e : toJson cancel = .obj [(py!"seq", .int 3), (py!"type", .str py!"request"), (py!"command", .str py!"cancel"),
    (py!"arguments", .obj [(py!"requestId", .null), (py!"progressId", .int 2)])] := by rfl
  rw [e] at h
  cases h with
  | obj _ _ _ _ hm =>
    have := hm (opt py!"arguments" (.obj (.body .CancelRequest))) (by decide +kernel) _ (by rfl) (by simp)
    cases this with
    | obj _ _ _ _ hm =>
      have := hm (opt py!"progressId" .str) (by decide +kernel) _ (by rfl) (by simp)
      cases this

example : ∃ v, Instance .ThreadsResponse v ∧ v.Ok ∧ toJson v = .obj [(py!"seq", .int 4), (py!"type", .str py!"response"), (py!"request_seq", .int 9), (py!"success", .bool true),
    (py!"command", .str py!"threads"), (py!"body", .obj [(py!"threads", .arr [.obj [(py!"id", .int 1), (py!"name", .str py!"main")]])])] :=
  ⟨.obj .ThreadsResponse [(py!"seq", .int 4), (py!"message_type", .enum .MessageType py!"response"), (py!"success", .bool true),
    (py!"command", .enum .Command py!"threads"), (py!"request_seq", .int 9), (py!"threads", .list [.obj .Thread [(py!"id", .int 1), (py!"name", .str py!"main")]])],
   instance_of (by decide +kernel), by simp only [Val.Ok, Val.OkA, Val.OkL]; decide +kernel, rfl⟩

/-! ## C84 what a conforming client sends is understood -/

/-- The document has no member with the key, at any depth. -/
def Without (k : Str) (j : Json) : Prop := noKey k j = true

theorem clean1 {j : Json} (h : Without py!"__types" j) : Clean [py!"__types"] j := by
  intro k hk; rw [List.mem_singleton.1 hk]; exact h

theorem clean2 {j : Json} (h : Without py!"__types" j) (h' : Without py!"exceptionOptions" j) : Clean [py!"__types", py!"exceptionOptions"] j := by
  intro k hk
  simp only [List.mem_cons, List.not_mem_nil, or_false] at hk
  rcases hk with rfl | rfl
  · exact h
  · exact h'

theorem clean3 {j : Json} (h : Without py!"__types" j) (h' : Without py!"targetId" j) : Clean [py!"__types", py!"targetId"] j := by
  intro k hk
  simp only [List.mem_cons, List.not_mem_nil, or_false] at hk
  rcases hk with rfl | rfl
  · exact h
  · exact h'

theorem unpackCls_default {c : Cls} (h1 : c ≠ .AttachRequest) (h2 : c ≠ .LaunchRequest) (j : Json) : unpackCls c j = defaultUnpack c j := by
  cases c <;> first | rfl | exact absurd rfl h1 | exact absurd rfl h2

theorem request_cases (c : Cls) (h : c.base = some .Request) :
    c = .AttachRequest ∨ c = .LaunchRequest ∨ c = .StepInRequest ∨ c = .SetExceptionBreakpointsRequest ∨ c ∈ plainRequests := by
  cases c <;> simp [Cls.base] at h <;> simp [plainRequests]

theorem read_sub : ∀ c ∈ readRequests, c ∈ Cls.StepInRequest :: readRequests := fun _ h => List.mem_cons_of_mem _ h

theorem plain_sub {c : Cls} (h : c ∈ plainRequests) : c ∈ readRequests := by
  simp only [readRequests, List.mem_append]; exact .inl (.inr h)

theorem attach_ok {c : Cls} (h : c = .AttachRequest ∨ c = .LaunchRequest) {strict : Bool} {l : List (Str × Json)} (hv : Valid strict (ref c) (.obj l)) :
    ∃ attrs, unpackCls c (.obj l) = .ok (.obj c attrs) := by
  have key : ∀ sch, (sch = Sch.obj (.body c)) → req py!"arguments" sch ∈ topMembers c → req py!"seq" Sch.int ∈ topMembers c →
      ∃ args i, Dict.get? l py!"arguments" = some (.obj args) ∧ Dict.get? l py!"seq" = some (.int i) := by
    intro sch hs h1 h2
    obtain ⟨a, ha, hav⟩ := valid_required (d := .top c) hv h1 rfl
    obtain ⟨i, hi, hiv⟩ := valid_required (d := .top c) hv h2 rfl
    simp only [req] at hav hiv ha hi
    rw [hs] at hav
    obtain ⟨l', rfl⟩ := valid_obj hav
    cases hiv with
    | int i => exact ⟨l', i, ha, hi⟩
  rcases h with rfl | rfl
  · obtain ⟨args, i, ha, hi⟩ := key _ rfl (by decide +kernel) (by decide +kernel)
    simp only [unpackCls, unpackAttach, getItem, ha, hi, popItem, bind, Except.bind]
    exact ⟨_, rfl⟩
  · obtain ⟨args, i, ha, hi⟩ := key _ rfl (by decide +kernel) (by decide +kernel)
    simp only [unpackCls, unpackLaunch, getItem, ha, hi, popItem, bind, Except.bind]
    exact ⟨_, rfl⟩

/-- C84: every request that conforms to the protocol's schema, with any additional members at any depth
but a `__types` one (C11_types_key_refuted), is accepted and becomes an object of its command's class. For
setExceptionBreakpoints only without `exceptionOptions` (C84_exception_options_refuted; the adapter does
not declare support for them, so that a client must not send them). -/
theorem C84_accepted_partial (strict : Bool) (c : Cls) (hc : c.base = some .Request) (j : Json) (hv : Valid strict (ref c) j)
    (ht : Without py!"__types" j) (he : c = .SetExceptionBreakpointsRequest → Without py!"exceptionOptions" j) :
    ∃ attrs, unpack j = .ok (.obj c attrs) := by
  obtain ⟨l, rfl⟩ := valid_obj hv
  rw [request_dispatch hc hv]
  have fin : ∀ {x : Val}, c ≠ .AttachRequest → c ≠ .LaunchRequest → unpackF (depth (.obj l) + 1) c (.obj l) = .ok x →
      ∃ attrs, unpackCls c (.obj l) = .ok (.obj c attrs) := by
    intro x h1 h2 hx
    obtain ⟨attrs, rfl⟩ := defaultUnpack_cls (c := c) hx
    exact ⟨attrs, by rw [unpackCls_default h1 h2]; exact hx⟩
  have read1 : ∀ c', c' ∈ Cls.StepInRequest :: readRequests → c = c' → c ≠ .AttachRequest → c ≠ .LaunchRequest →
      ∃ attrs, unpackCls c (.obj l) = .ok (.obj c attrs) := by
    rintro c' hm rfl h1 h2
    obtain ⟨x, hx, _⟩ := unpackF_ok (strict := strict) (List.mem_singleton.2 rfl) read_sub read_acc read_read read_dflt1 (depth (.obj l) + 1) c hm (.obj l) hv
      (clean1 ht) (Nat.lt_succ_self _)
    exact fin h1 h2 hx
  rcases request_cases c hc with rfl | rfl | rfl | rfl | h
  · exact attach_ok (.inl rfl) hv
  · exact attach_ok (.inr rfl) hv
  · exact read1 _ (List.mem_cons_self ..) rfl (by simp) (by simp)
  · obtain ⟨x, hx, _⟩ := unpackF_ok (strict := strict) (List.mem_cons_self ..) (fun c h => h) exc_acc exc_read read_dflt2 (depth (.obj l) + 1) _
      (List.mem_cons_self ..) (.obj l) hv (clean2 ht (he rfl)) (Nat.lt_succ_self _)
    exact fin (by simp) (by simp) hx
  · have := plain_sub h
    refine read1 c (List.mem_cons_of_mem _ this) rfl ?_ ?_ <;> (rintro rfl; revert h; decide)

/-- C84: and the object says what the document says (`Reads`): every member, at any depth, is found in the
attribute of its name. For stepIn only without `targetId` (C10: a target is taken for the thread; the adapter does not
declare support for targets). Excluded are attach and launch, whose
arguments are kept as they are (C13). -/
theorem C84_read_partial (strict : Bool) (c : Cls) (hc : c.base = some .Request) (j : Json) (hv : Valid strict (ref c) j)
    (ht : Without py!"__types" j) (he : c = .SetExceptionBreakpointsRequest → Without py!"exceptionOptions" j)
    (hx : (c = .StepInRequest → Without py!"targetId" j) ∧ c ≠ .AttachRequest ∧ c ≠ .LaunchRequest) :
    ∃ v, unpack j = .ok v ∧ Reads (ref c) j v := by
  obtain ⟨l, rfl⟩ := valid_obj hv
  rw [request_dispatch hc hv, unpackCls_default hx.2.1 hx.2.2]
  rcases request_cases c hc with rfl | rfl | rfl | rfl | h
  · exact absurd rfl hx.2.1
  · exact absurd rfl hx.2.2
  · obtain ⟨x, hxx, hr⟩ := unpackF_ok (strict := strict) (List.mem_cons_self ..) (fun c h => h) step_acc step_read read_dflt3 (depth (.obj l) + 1) _
      (List.mem_cons_self ..) (.obj l) hv (clean3 ht (hx.1 rfl)) (Nat.lt_succ_self _)
    exact ⟨x, hxx, hr (List.mem_cons_self ..)⟩
  · obtain ⟨x, hx, hr⟩ := unpackF_ok (strict := strict) (List.mem_cons_self ..) (fun c h => h) exc_acc exc_read read_dflt2 (depth (.obj l) + 1) _
      (List.mem_cons_self ..) (.obj l) hv (clean2 ht (he rfl)) (Nat.lt_succ_self _)
    exact ⟨x, hx, hr (List.mem_cons_self ..)⟩
  · have := plain_sub h
    obtain ⟨x, hx, hr⟩ := unpackF_ok (strict := strict) (List.mem_singleton.2 rfl) read_sub read_acc read_read read_dflt1 (depth (.obj l) + 1) c
      (List.mem_cons_of_mem _ this) (.obj l) hv (clean1 ht) (Nat.lt_succ_self _)
    exact ⟨x, hx, hr this⟩

/-- What `Reads` means for one argument: a number, text or truth value that the request gives is the
attribute of that name. -/
theorem C84_argument_partial (strict : Bool) (c : Cls) (hc : c.base = some .Request) (l args : List (Str × Json)) (hv : Valid strict (ref c) (.obj l))
    (ht : Without py!"__types" (.obj l)) (he : c = .SetExceptionBreakpointsRequest → Without py!"exceptionOptions" (.obj l))
    (hx : (c = .StepInRequest → Without py!"targetId" (.obj l)) ∧ c ≠ .AttachRequest ∧ c ≠ .LaunchRequest) (ha : Dict.get? l py!"arguments" = some (.obj args))
    (m : Member) (hm : m ∈ bodyMembers c) (hs : m.sch = .int ∨ m.sch = .str ∨ m.sch = .bool) (x : Json) (hg : Dict.get? args m.key = some x)
    (hne : x ≠ .null) (v : Val) (h : unpack (.obj l) = .ok v) : v.attr? (attrName c m.key) = some (ofJson x) := by
  obtain ⟨v', h', hr⟩ := C84_read_partial strict c hc (.obj l) hv ht he hx
  rw [h] at h'
  cases h'
  have hargs : ∃ mm ∈ topMembers c, mm.key = py!"arguments" ∧ mm.sch = .obj (.body c) := by
    have : allCls.all (fun c => c.base != some .Request || (bodyMembers c).isEmpty ||
      (topMembers c).any fun mm => mm.key == py!"arguments" && mm.sch == .obj (.body c)) = true := by decide +kernel
    have := List.all_eq_true.1 this c (mem_allCls c)
    simp only [hc, bne_self_eq_false, Bool.false_or, Bool.or_eq_true, List.isEmpty_iff, List.any_eq_true, Bool.and_eq_true, beq_iff_eq] at this
    rcases this with h | h
    · rw [h] at hm; cases hm
    · exact h
  obtain ⟨mm, hmm, hk, hsch⟩ := hargs
  cases hr with
  | obj _ _ attrs top body h1 h2 h3 h4 _ =>
    have g := h3 mm hmm args (by rw [hk]; exact ha) hsch m hm x hg hne
    have r := h4 mm hmm args (by rw [hk]; exact ha) hsch m hm x hg hne
    simp only [Val.attr?, g]
    rcases hs with hs | hs | hs <;> rw [hs] at r <;> generalize body m.key = b at * <;> cases r <;> rfl

/-- C84: an argument that the request does not give (or gives as null) has the value the protocol says it
then has (`unsaid`): no value, an empty list, `false`, lines and columns starting at 1. Excluded is
`singleThread` of continue (C84_single_thread_refuted). -/
theorem C84_unsaid_partial (strict : Bool) (c : Cls) (hc : c ∈ plainRequests) (l : List (Str × Json)) (hv : Valid strict (ref c) (.obj l))
    (ht : Without py!"__types" (.obj l)) (m : Member) (hm : m ∈ bodyMembers c) (ho : m.required = false)
    (hx : ¬ (c = .ContinueRequest ∧ m.key = py!"singleThread")) (hu : Unsaid l m.key) :
    ∃ v, unpack (.obj l) = .ok v ∧ v.attr? (attrName c m.key) = some (unsaid m) := by
  have hb : c.base = some .Request := by revert hc; cases c <;> simp [plainRequests, Cls.base]
  have h12 : c ≠ .AttachRequest ∧ c ≠ .LaunchRequest := by constructor <;> (rintro rfl; revert hc; decide)
  rw [request_dispatch hb hv, unpackCls_default h12.1 h12.2]
  have hacc := read_acc c (List.mem_cons_of_mem _ (plain_sub hc))
  obtain ⟨attrs, asg, h1, h2, _, _, h5⟩ := unpackF_spec (strict := strict) (cs := Cls.StepInRequest :: readRequests) (List.mem_singleton.2 rfl)
    read_sub (unpackF_ok (List.mem_singleton.2 rfl) read_sub read_acc read_read read_dflt1 (depth (.obj l))) hacc hv (clean1 ht) (Nat.lt_succ_self _)
  refine ⟨_, h1, ?_⟩
  have hd := dfltOk_all c hc
  simp only [dfltOk, List.all_eq_true] at hd
  have := hd m hm
  simp only [ho, Bool.false_or, Bool.or_eq_true, Bool.and_eq_true, beq_iff_eq] at this
  rcases this with h | ⟨⟨hin, hdf⟩, hdap⟩
  · exact absurd h hx
  simp only [decide_eq_true_eq, List.all_eq_true, Bool.or_eq_true, bne_iff_ne] at hin hdf hdap
  obtain ⟨f, hf, hname, hget⟩ := h2 _ hin
  have hnone : Dict.get? asg (attrName c m.key) = none := by
    apply h5
    · intro k v hg _
      have := hdap _ (Dict.mem_of_get? _ _ _ hg)
      simp at this
    · intro k sm l' k' v hg hml hgs hmv
      have := hdap _ (Dict.mem_of_get? _ _ _ hg)
      simp only [Bool.and_eq_true, beq_iff_eq, List.all_eq_true, Bool.or_eq_true, bne_iff_ne] at this
      obtain ⟨rfl, hall⟩ := this
      have hk' := (hall _ (Dict.mem_of_get? _ _ _ hgs)).resolve_left (fun h => h rfl)
      simp only at hk'
      subst hk'
      have hn : (l.map (·.1)).Nodup := by cases hv; assumption
      have hvl : (l'.map (·.1)).Nodup := by
        have hs : schOf (topMembers c) py!"arguments" = some (.obj (.body c)) := by
          simp only [accOk, Bool.and_eq_true, List.all_eq_true] at hacc
          have := hacc.1 _ (Dict.mem_of_get? _ _ _ hg)
          simp only [Bool.and_eq_true, beq_iff_eq] at this
          exact this.1
        have := valid_schOf (strict := strict) (d := .top c) hv hml (by simp) hs
        cases this; assumption
      exact hu l' v (Dict.get?_of_mem _ _ _ hn hml) (Dict.get?_of_mem _ _ _ hvl hmv)
  simp only [Val.attr?]
  rw [hget, hnone]
  simp only [Option.getD_none, Option.some.injEq]
  exact unsaidIs_eq ((hdf f hf).resolve_left (fun h => h hname))

/-- A continue request without `singleThread`. -/
def continueDoc : Json := .obj [(py!"seq", .int 7), (py!"type", .str py!"request"), (py!"command", .str py!"continue"),
  (py!"arguments", .obj [(py!"threadId", .int 2)])]

/-- The exclusion is needed: a continue request that says nothing about `singleThread` is taken to say
`true`, so that the other threads stay stopped; in the protocol it means `false`. -/
theorem C84_single_thread_refuted : ∃ v, Valid true (ref .ContinueRequest) continueDoc ∧ unpack continueDoc = .ok v ∧
    v.attr? py!"single_thread" = some (.bool true) := by
  refine ⟨_, validB_ok 6 _ _ (by decide +kernel), rfl, rfl⟩

/-- A setExceptionBreakpoints request with exception options for all exceptions. -/
def exceptionsDoc : Json := .obj [(py!"seq", .int 7), (py!"type", .str py!"request"), (py!"command", .str py!"setExceptionBreakpoints"),
  (py!"arguments", .obj [(py!"filters", .arr []), (py!"exceptionOptions", .arr [.obj [(py!"breakMode", .str py!"always")]])])]

/-- The exclusion is needed: exception options without a path conform to the schema, but raise a TypeError. -/
theorem C84_exception_options_refuted : Valid true (ref .SetExceptionBreakpointsRequest) exceptionsDoc ∧ unpack exceptionsDoc = .error .type :=
  ⟨validB_ok 8 _ _ (by decide +kernel), rfl⟩

/-- A setBreakpoints request with members the code does not know, and with a null member. -/
def breakpointsDoc : Json := .obj [(py!"seq", .int 7), (py!"type", .str py!"request"), (py!"command", .str py!"setBreakpoints"), (py!"extra", .bool true),
  (py!"arguments", .obj [(py!"source", .obj [(py!"path", .str py!"/play.yml"), (py!"name", .null), (py!"checksums", .arr [.obj [(py!"algorithm", .str py!"MD5"),
    (py!"checksum", .str py!"00")]])]), (py!"breakpoints", .arr [.obj [(py!"line", .int 3), (py!"condition", .str py!"x")], .obj [(py!"line", .int 9), (py!"mode", .null)]])])]

example : Valid false (ref .SetBreakpointsRequest) breakpointsDoc ∧ Without py!"__types" breakpointsDoc :=
  ⟨validB_ok 9 _ _ (by decide +kernel), by unfold Without; decide +kernel⟩

example : (unpack breakpointsDoc).toOption.bind (·.attr? py!"lines") = some (.list []) := rfl

/-- An initialize request. -/
def initDoc : List (Str × Json) := [(py!"seq", .int 1), (py!"type", .str py!"request"), (py!"command", .str py!"initialize"),
  (py!"arguments", .obj [(py!"adapterID", .str py!"ansibug"), (py!"clientID", .str py!"vscode"), (py!"linesStartAt1", .bool false)])]

example : Valid true (ref .InitializeRequest) (.obj initDoc) ∧ Unsaid initDoc py!"columnsStartAt1" ∧
    ∃ m ∈ bodyMembers .InitializeRequest, m.key = py!"columnsStartAt1" ∧ m.required = false ∧ unsaid m = .bool true ∧
      attrName .InitializeRequest m.key = py!"columns_start_at_1" := by
  refine ⟨validB_ok 6 _ _ (by decide +kernel), ?_, opt py!"columnsStartAt1" .bool, by decide +kernel, rfl, rfl, rfl, rfl⟩
  intro l' v h1 h2
  have e : Dict.get? initDoc py!"arguments" = some (.obj [(py!"adapterID", .str py!"ansibug"), (py!"clientID", .str py!"vscode"), (py!"linesStartAt1", .bool false)]) := rfl
  rw [e] at h1; cases h1
  revert h2
  rw [show Dict.get? [(py!"adapterID", Json.str py!"ansibug"), (py!"clientID", .str py!"vscode"), (py!"linesStartAt1", .bool false)] py!"columnsStartAt1" = none from rfl]
  intro h; cases h

example : attrName .InitializeRequest py!"clientID" = py!"client_id" ∧ attrName .InitializeRequest py!"linesStartAt1" = py!"lines_start_at_1" ∧
    attrName .SetBreakpointsRequest py!"sourceModified" = py!"source_modified" := by decide +kernel

end Verif.Props.DapSchema
