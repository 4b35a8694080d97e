import Verif.Props.DapSchema
import Verif.Props.Strat
import Verif.Wire.One
import Verif.Wire.Doc
/-!
# Answers to requests, as messages (C85)

`handle e s m` is the debuggee's handling of the message object `m` in the debug state `s`: the state afterwards and the
messages queued for the adapter. `e` says what Python and Ansible do in between (names, `repr`, templating, ...) and is
arbitrary. `unpack` is `ProtocolMessage.unpack`, `toJson` the document written for a message, `Valid` conformance to the
protocol's published schema and `Instance c m` says that `m` is an object of class `c` with attributes of the annotated types.
-/

namespace Verif.Props.Wire
open Verif Verif.Wire Verif.Strat
open Verif.Dap (Cls Instance unpack toJson)
open Verif.Dap.Schema (Valid ref)
open Verif.Props.DapSchema (Without)

/-! ## C85 every request gets its own answer -/

/-- `a` is a well-typed answer, of class `d`, to a request with sequence number and command as given: a response that carries both, and
that reports success unless it is an error response. A successful one is of the response class of the command. -/
structure IsAnswer (seq cmd : Option Dap.Val) (a : Dap.Val) (d : Cls) : Prop where
  inst : Instance d a
  response : d.base = some .Response
  request_seq : a.attr? py!"request_seq" = seq
  command : a.attr? py!"command" = cmd
  success : a.attr? py!"success" = some (.bool (d != .ErrorResponse))
  own : d ≠ .ErrorResponse → d.attr? py!"command" = cmd

theorem inst_val {c : Cls} {v : Dap.Val} (h : Instance c v) : ∃ val : Str → Dap.Val, v = .obj c (c.fields.map fun f => (f.name, val f.name)) ∧
    (∀ f ∈ c.fields, Dap.Typed f.ann (val f.name)) ∧ ∀ f ∈ c.fields, ∀ w, Dap.fixedVal c f = some w → val f.name = w := by
  cases h with
  | obj _ val h1 h2 => exact ⟨val, rfl, h1, h2⟩

theorem val_attr (c : Cls) (val : Str → Dap.Val) {n : Str} (hn : n ∈ c.fields.map (·.name)) :
    (Dap.Val.obj c (c.fields.map fun f => (f.name, val f.name))).attr? n = some (val n) := by
  simp only [Dap.Val.attr?]
  revert hn
  induction c.fields with
  | nil => intro hn; cases hn
  | cons f l ih =>
    intro hn
    simp only [List.map_cons, Dict.get?]
    split
    · rename_i e; rw [e]
    · rename_i e
      rcases List.mem_cons.1 hn with h | h
      · exact absurd h.symm e
      · exact ih h

/-- What every response class has. -/
def respHead (d : Cls) : Bool :=
  d.base != some .Response || ((d.fields.any fun f => f.name == py!"success" && !f.init && (match f.dflt with | some (.bool x) => x == (d != .ErrorResponse) | _ => false)) &&
    decide (py!"request_seq" ∈ d.fields.map (·.name)) && decide (py!"command" ∈ d.fields.map (·.name)) &&
    decide (Dict.get? d.dap py!"request_seq" = some (.attr py!"request_seq")) && decide (Dict.get? d.dap py!"command" = some (.attr py!"command")) &&
    decide (Dict.get? d.dap py!"success" = some (.attr py!"success")))

theorem respHead_all (d : Cls) : respHead d = true := by
  have : Dap.allCls.all respHead = true := by decide +kernel
  exact List.all_eq_true.1 this d (Dap.mem_allCls d)

/-- What every request class has. -/
def reqHead (c : Cls) : Bool :=
  c.base != some .Request || ((c.fields.any fun f => f.name == py!"seq" && (match f.ann with | .int => true | _ => false)) &&
    (c.fields.any fun f => f.name == py!"command" && !f.init && f.dflt.isNone) &&
    (match c.attr? py!"command" with
    | some (.enum .Command w) => decide (w ∈ Dap.EnumId.Command.values)
    | _ => false))

theorem reqHead_all (c : Cls) : reqHead c = true := by
  have : Dap.allCls.all reqHead = true := by decide +kernel
  exact List.all_eq_true.1 this c (Dap.mem_allCls c)

theorem resp_of {c : Cls} {m a : Dap.Val} {d : Cls} {q : Int} (h : Answers c m a d) (hs : m.attr? py!"seq" = some (.int q)) (hc : m.attr? py!"command" = c.attr? py!"command") :
    IsAnswer (m.attr? py!"seq") (m.attr? py!"command") a d := by
  have hb : d.base = some .Response := by
    rcases h.kind with rfl | ⟨_, h, _⟩
    · rfl
    · exact h
  have hh := respHead_all d
  simp only [respHead, hb, bne_self_eq_false, Bool.false_or, Bool.and_eq_true, decide_eq_true_eq] at hh
  refine ⟨h.inst, hb, ?_, by rw [h.cmd, hc], ?_, ?_⟩
  · rw [h.seq]; simp only [intAttr, hs]; rfl
  · obtain ⟨val, e, _, hf⟩ := inst_val h.inst
    obtain ⟨h1, h2⟩ := Dap.fixed_dflt hf (a := py!"success") (by decide) hh.1.1.1.1.1
    rw [e, val_attr _ _ h2, h1]
  · intro hne
    rcases h.kind with h' | ⟨_, _, h'⟩
    · exact absurd h' hne
    · rw [h', hc]

/-- C85: whatever the state of the debug session, a request of any class but disconnect gets exactly one message: a response, well
typed, with the request's sequence number and command, reporting success unless it is the error response. -/
theorem C85_answered_partial (e : Env) (s : DS) (c : Cls) (hc : c.base = some .Request) (hd : c ≠ .DisconnectRequest) (m : Dap.Val) (hm : Instance c m) :
    ∃ a d, (handle e s m).2 = [a] ∧ IsAnswer (m.attr? py!"seq") (m.attr? py!"command") a d := by
  obtain ⟨val, rfl, ht, hf⟩ := inst_val hm
  have hh := reqHead_all c
  simp only [reqHead, hc, bne_self_eq_false, Bool.false_or, Bool.and_eq_true] at hh
  obtain ⟨⟨h1, h2⟩, h3⟩ := hh
  split at h3
  · rename_i w hw
    obtain ⟨k1, k2⟩ := Dap.fixed_attr hf (by decide) h2 hw
    simp only [List.any_eq_true, Bool.and_eq_true, beq_iff_eq] at h1
    obtain ⟨f, hff, hfn, hfa⟩ := h1
    have hfa : f.ann = .int := by
      split at hfa
      · assumption
      · cases hfa
    obtain ⟨q, hq⟩ : ∃ q, val py!"seq" = .int q := by
      have := ht f hff
      rw [hfa, hfn] at this
      generalize val py!"seq" = x at this
      cases this with | int i => exact ⟨i, rfl⟩
    have hcm : (Dap.Val.obj c (c.fields.map fun f => (f.name, val f.name))).attr? py!"command" = c.attr? py!"command" := by
      rw [val_attr _ _ k2, k1, hw]
    have hsq : (Dap.Val.obj c (c.fields.map fun f => (f.name, val f.name))).attr? py!"seq" = some (.int q) := by
      rw [val_attr _ _ (List.mem_map.2 ⟨f, hff, hfn⟩), hq]
    obtain ⟨a, d, ha, hA⟩ := handle_answers e s c _ hd w (by simpa using h3) hw hcm
    exact ⟨a, d, ha, resp_of hA hsq hcm⟩
  · cases h3

/-- C85: a disconnect is not answered by the debuggee (the adapter answers it). -/
theorem C85_disconnect_silent (e : Env) (s : DS) (m : Dap.Val) (hm : Instance .DisconnectRequest m) : (handle e s m).2 = [] := by
  obtain ⟨val, rfl, _, _⟩ := inst_val hm
  simp only [handle, callOf]
  simp only [request]
  split <;> rfl

/-- The member of an object document. -/
def Member (j : Json) (k : Str) (x : Json) : Prop := ∃ l, j = .obj l ∧ Dict.get? l k = some x

/-- The answer's document: it conforms to the schema of its class, and has the members. -/
theorem doc_of {seq : Int} {cmd : Str} {a : Dap.Val} {d : Cls} (h : IsAnswer (some (.int seq)) (some (.enum .Command cmd)) a d) :
    Valid false (ref d) (toJson a) ∧ Member (toJson a) py!"request_seq" (.int seq) ∧ Member (toJson a) py!"command" (.str cmd) ∧
      Member (toJson a) py!"success" (.bool (d != .ErrorResponse)) := by
  obtain ⟨h1, hb, h2, h3, h4, _⟩ := h
  have hh := respHead_all d
  simp only [respHead, hb, bne_self_eq_false, Bool.false_or, Bool.and_eq_true, decide_eq_true_eq] at hh
  obtain ⟨⟨⟨⟨⟨g1, g2⟩, g3⟩, g4⟩, g5⟩, g6⟩ := hh
  have hv : Valid false (ref d) (toJson a) := Dap.Schema.instance_valid Verif.Props.DapSchema.conforming_fits (by
    simp only [Verif.Props.DapSchema.conforming, List.mem_filter, Dap.mem_allCls, true_and, Bool.and_eq_true, bne_iff_ne]
    refine ⟨⟨?_, ?_⟩, ?_⟩ <;> (rintro rfl; cases hb)) h1
  obtain ⟨l, hl⟩ := Dap.Schema.valid_obj hv
  have mem : ∀ k x, Dap.getItem (toJson a) k = .ok x → Member (toJson a) k x := by
    intro k x hx
    rw [hl] at hx
    refine ⟨l, hl, ?_⟩
    simp only [Dap.getItem] at hx
    split at hx
    · rename_i y hy; cases hx; exact hy
    · cases hx
  refine ⟨hv, ?_, ?_, ?_⟩
  all_goals
    apply mem
    obtain ⟨val, rfl, _, hf⟩ := inst_val h1
  · rw [Dap.getItem_pack d val _ _ (by decide) g4 g2]
    rw [val_attr _ _ g2] at h2; rw [Option.some.inj h2]; rfl
  · rw [Dap.getItem_pack d val _ _ (by decide) g5 g3]
    rw [val_attr _ _ g3] at h3; rw [Option.some.inj h3]; rfl
  · obtain ⟨k1, k2⟩ := Dap.fixed_dflt hf (a := py!"success") (by decide) g1
    rw [Dap.getItem_pack d val _ _ (by decide) g6 k2, k1]; rfl

/-- The classes with regular unpacking. -/
theorem headOk_all : ∀ c ∈ Cls.SetExceptionBreakpointsRequest :: .StepInRequest :: Dap.Schema.plainRequests, headOk c = true := by
  have : (Cls.SetExceptionBreakpointsRequest :: .StepInRequest :: Dap.Schema.plainRequests).all headOk = true := by decide +kernel
  exact fun c hc => List.all_eq_true.1 this c hc

/-- An attach or launch request that conforms is read, with its number and command. -/
theorem attach_head {c : Cls} (h : c = .AttachRequest ∨ c = .LaunchRequest) {strict : Bool} {l : List (Str × Json)} (hv : Valid strict (ref c) (.obj l)) :
    ∃ attrs i w, Dap.unpackCls c (.obj l) = .ok (.obj c attrs) ∧ Dict.get? l py!"seq" = some (.int i) ∧
      (Dap.Val.obj c attrs).attr? py!"seq" = some (.int i) ∧ (Dap.Val.obj c attrs).attr? py!"command" = c.attr? py!"command" ∧
      c.attr? py!"command" = some (.enum .Command w) ∧ w ∈ Dap.EnumId.Command.values ∧ Dict.get? l py!"command" = some (.str w) := by
  have key : ∀ sch w, sch = Dap.Schema.Sch.obj (.body c) → Dap.Schema.req py!"arguments" sch ∈ Dap.Schema.topMembers c →
      Dap.Schema.req py!"seq" Dap.Schema.Sch.int ∈ Dap.Schema.topMembers c → Dap.Schema.req py!"command" (.oneOf [w]) ∈ Dap.Schema.topMembers c →
      ∃ args i, Dict.get? l py!"arguments" = some (.obj args) ∧ Dict.get? l py!"seq" = some (.int i) ∧ Dict.get? l py!"command" = some (.str w) := by
    intro sch w hs h1 h2 h3
    obtain ⟨a, ha, hav⟩ := Dap.Schema.valid_required (d := .top c) hv h1 rfl
    obtain ⟨i, hi, hiv⟩ := Dap.Schema.valid_required (d := .top c) hv h2 rfl
    obtain ⟨x, hx, hxv⟩ := Dap.Schema.valid_required (d := .top c) hv h3 rfl
    simp only [Dap.Schema.req] at hav hiv ha hi hx hxv
    rw [hs] at hav
    obtain ⟨l', rfl⟩ := Dap.Schema.valid_obj hav
    cases hiv with
    | int i => cases hxv with
      | oneOf _ _ hm => exact ⟨l', i, ha, hi, by rw [hx, List.mem_singleton.1 hm]⟩
  rcases h with rfl | rfl
  · obtain ⟨args, i, ha, hi, hw⟩ := key _ py!"attach" rfl (by decide +kernel) (by decide +kernel) (by decide +kernel)
    simp only [Dap.unpackCls, Dap.unpackAttach, Dap.getItem, ha, hi, Dap.popItem, Bind.bind, Except.bind]
    exact ⟨_, i, _, rfl, rfl, rfl, rfl, rfl, by decide +kernel, hw⟩
  · obtain ⟨args, i, ha, hi, hw⟩ := key _ py!"launch" rfl (by decide +kernel) (by decide +kernel) (by decide +kernel)
    simp only [Dap.unpackCls, Dap.unpackLaunch, Dap.getItem, ha, hi, Dap.popItem, Bind.bind, Except.bind]
    exact ⟨_, i, _, rfl, rfl, rfl, rfl, rfl, by decide +kernel, hw⟩

/-- What C85 says of a document: it is read, carried out and gets exactly one answer; the document written for the answer conforms to the schema of a response, its
`request_seq` is the `seq` of the request's document and its `command` the one there, and it reports success unless it is the error response. -/
def AnsweredDoc (e : Env) (s : DS) (j : Json) : Prop :=
  ∃ m a d q w, unpack j = .ok m ∧ (handle e s m).2 = [a] ∧ d.base = some .Response ∧ Valid false (ref d) (toJson a) ∧
    Member j py!"seq" (.int q) ∧ Member (toJson a) py!"request_seq" (.int q) ∧
    Member j py!"command" (.str w) ∧ Member (toJson a) py!"command" (.str w) ∧
    Member (toJson a) py!"success" (.bool (d != .ErrorResponse))

/-- C85 on documents: a request that conforms to the protocol's schema, read as JSON object and handled by the debuggee in any state of
the session, gets exactly one answer (`AnsweredDoc`). Excluded: disconnect (C85_disconnect_silent), and the exclusions of C84, of
which C85_refuted shows that they are needed. -/
theorem C85_document_partial (strict : Bool) (c : Cls) (hc : c.base = some .Request) (hx : c ≠ .DisconnectRequest) (j : Json) (hv : Valid strict (ref c) j)
    (ht : Without py!"__types" j) (he : c = .SetExceptionBreakpointsRequest → Without py!"exceptionOptions" j) (e : Env) (s : DS) :
    AnsweredDoc e s j := by
  obtain ⟨l, rfl⟩ := Dap.Schema.valid_obj hv
  have fin0 : (∃ attrs i w, Dap.unpackCls c (.obj l) = .ok (.obj c attrs) ∧ Dict.get? l py!"seq" = some (.int i) ∧
      (Dap.Val.obj c attrs).attr? py!"seq" = some (.int i) ∧ (Dap.Val.obj c attrs).attr? py!"command" = c.attr? py!"command" ∧
      c.attr? py!"command" = some (.enum .Command w) ∧ w ∈ Dap.EnumId.Command.values ∧ Dict.get? l py!"command" = some (.str w)) →
      AnsweredDoc e s (.obj l) := by
    rintro ⟨attrs, q, w, h1, h2, h3, h4, h5, h6, h7⟩
    obtain ⟨a, d, ha, hA⟩ := handle_answers e s c attrs hx w h6 h5 h4
    have hI := resp_of hA h3 h4
    rw [h3, h4, h5] at hI
    obtain ⟨k1, k2, k3, k4⟩ := doc_of hI
    refine ⟨_, a, d, q, w, ?_, ha, hI.response, k1, ⟨l, rfl, h2⟩, k2, ⟨l, rfl, h7⟩, k3, k4⟩
    rw [Dap.Schema.request_dispatch hc hv]
    exact h1
  have fin : c ≠ .AttachRequest → c ≠ .LaunchRequest → (∃ attrs i w, Dap.defaultUnpack c (.obj l) = .ok (.obj c attrs) ∧ Dict.get? l py!"seq" = some (.int i) ∧
      (Dap.Val.obj c attrs).attr? py!"seq" = some (.int i) ∧ (Dap.Val.obj c attrs).attr? py!"command" = c.attr? py!"command" ∧
      c.attr? py!"command" = some (.enum .Command w) ∧ w ∈ Dap.EnumId.Command.values ∧ Dict.get? l py!"command" = some (.str w)) →
      AnsweredDoc e s (.obj l) := by
    intro n1 n2 h
    apply fin0
    rw [Verif.Props.DapSchema.unpackCls_default n1 n2]
    exact h
  rcases Verif.Props.DapSchema.request_cases c hc with rfl | rfl | rfl | rfl | h
  · exact fin0 (attach_head (.inl rfl) hv)
  · exact fin0 (attach_head (.inr rfl) hv)
  · exact fin (by simp) (by simp) (head_of (List.mem_singleton.2 rfl) Verif.Props.DapSchema.read_sub Dap.Schema.read_acc Dap.Schema.read_read Dap.Schema.read_dflt1 (List.mem_cons_self ..)
      (headOk_all _ (by simp)) hv (Verif.Props.DapSchema.clean1 ht))
  · exact fin (by simp) (by simp) (head_of (List.mem_cons_self ..) (fun c h => h) Dap.Schema.exc_acc Dap.Schema.exc_read Dap.Schema.read_dflt2 (List.mem_cons_self ..)
      (headOk_all _ (by simp)) hv (Verif.Props.DapSchema.clean2 ht (he rfl)))
  · exact fin (by rintro rfl; revert h; decide) (by rintro rfl; revert h; decide) (head_of (List.mem_singleton.2 rfl) Verif.Props.DapSchema.read_sub
      Dap.Schema.read_acc Dap.Schema.read_read Dap.Schema.read_dflt1
      (List.mem_cons_of_mem _ (Verif.Props.DapSchema.plain_sub h)) (headOk_all _ (by simp [h])) hv (Verif.Props.DapSchema.clean1 ht))

/-- The full C85 fails: a setExceptionBreakpoints request with exception options without a path conforms to the schema and is never answered, because it cannot be read;
the debuggee's receive thread ends (see C07). -/
theorem C85_refuted : ∃ j, Valid true (ref .SetExceptionBreakpointsRequest) j ∧ ∀ e s, ¬ AnsweredDoc e s j := by
  refine ⟨Verif.Props.DapSchema.exceptionsDoc, Verif.Props.DapSchema.C84_exception_options_refuted.1, ?_⟩
  rintro e s ⟨m, _, _, _, _, h, _⟩
  rw [Verif.Props.DapSchema.C84_exception_options_refuted.2] at h
  cases h

/-! ### What a request does -/

/-- The requests with one number that says which thread, frame or variable is meant: the name of that argument in the protocol, and the call of
the debug session. -/
def numbered (e : Env) : Cls → Option (Str × (Nat → Req))
  | .NextRequest => some (py!"threadId", .next)
  | .StepInRequest => some (py!"threadId", .stepIn)
  | .StepOutRequest => some (py!"threadId", .stepOut)
  | .StackTraceRequest => some (py!"threadId", .stackTrace)
  | .ScopesRequest => some (py!"frameId", fun f => .scopes f e.args e.hostVars)
  | .VariablesRequest => some (py!"variablesReference", .variables)
  | _ => none

/-- The argument is one of the protocol's, a number. -/
theorem numbered_member (e : Env) (s : DS) {c : Cls} {k : Str} {f : Nat → Req} (h : numbered e c = some (k, f)) :
    Dap.Schema.req k .int ∈ Dap.Schema.bodyMembers c ∧ c.base = some .Request ∧ c ≠ .AttachRequest ∧ c ≠ .LaunchRequest ∧
      c ≠ .SetExceptionBreakpointsRequest ∧ ∀ m, callOf e s c m = keyed m (Dap.Schema.attrName c k) f := by
  unfold numbered at h
  split at h <;> cases h
  all_goals exact ⟨by decide +kernel, rfl, by simp, by simp, by simp, fun _ => rfl⟩

theorem unpack_cls {c : Cls} {l : List (Str × Json)} {strict : Bool} (hc : c.base = some .Request) (hv : Valid strict (ref c) (.obj l)) (h2 : c ≠ .AttachRequest)
    (h3 : c ≠ .LaunchRequest) {m : Dap.Val} (h : unpack (.obj l) = .ok m) : ∃ attrs, m = .obj c attrs := by
  rw [Dap.Schema.request_dispatch hc hv, Verif.Props.DapSchema.unpackCls_default h2 h3] at h
  exact Dap.defaultUnpack_cls (c := c) h

/-- C85: a next, stepIn (without `targetId`), stepOut, stackTrace, scopes or variables request is carried out for the thread, frame or variable whose number its
document gives: the state afterwards is the one of the call with that number (what these do is said by C33 to C46). A negative number is an
error and changes nothing. -/
theorem C85_routed_partial (strict : Bool) (e : Env) (c : Cls) (k : Str) (f : Nat → Req) (hk : numbered e c = some (k, f)) (l args : List (Str × Json))
    (hv : Valid strict (ref c) (.obj l)) (ht : Without py!"__types" (.obj l)) (hg : c = .StepInRequest → Without py!"targetId" (.obj l))
    (ha : Dict.get? l py!"arguments" = some (.obj args)) (n : Int) (hn : Dict.get? args k = some (.int n)) (m : Dap.Val) (hm : unpack (.obj l) = .ok m) (s : DS) :
    (∀ i : Nat, n = i → (handle e s m).1 = (request s (f i)).1 ∧ ∃ o, (request s (f i)).2 = [o] ∧ (handle e s m).2 = [render e (request s (f i)).1 c m (fun _ => none) o]) ∧
    (n < 0 → (handle e s m).1 = s ∧ ∃ x, (handle e s m).2 = [errorResponse e m x]) := by
  obtain ⟨h1, h2, h3, h3', h4, h5⟩ := numbered_member e s hk
  have hattr := Verif.Props.DapSchema.C84_argument_partial strict c h2 l args hv ht (fun h => absurd h h4) ⟨hg, h3, h3'⟩ ha _ h1 (.inl rfl) _ hn (by simp) m hm
  obtain ⟨attrs, rfl⟩ := unpack_cls h2 hv h3 h3' hm
  have hi : intAttr (.obj c attrs) (Dap.Schema.attrName c k) = some n := by
    simp only [intAttr]
    rw [show (Dap.Val.obj c attrs).attr? (Dap.Schema.attrName c k) = some (Dap.ofJson (.int n)) from hattr]
    rfl
  constructor
  · rintro i rfl
    have hcall : callOf e s c (.obj c attrs) = .req (f i) := by
      rw [h5]; simp only [keyed, hi]
      rw [if_neg (by omega)]; rfl
    have hd : c ≠ .DisconnectRequest := by rintro rfl; cases hk
    obtain ⟨o, ho, -⟩ := one_out e s c _ _ hcall hd
    simp only [handle, hcall, ho]
    exact ⟨trivial, o, rfl, rfl⟩
  · intro hneg
    have hcall : callOf e s c (.obj c attrs) = .raises .key := by
      rw [h5]; simp only [keyed, hi]
      rw [if_pos hneg]
    simp only [handle, hcall]
    exact ⟨trivial, _, rfl⟩

/-- C85: a continue request that says `singleThread` resumes that thread only, or all threads, and the answer says which; it is an error only if
that thread does not exist. -/
theorem C85_continue_partial (strict : Bool) (e : Env) (l args : List (Str × Json)) (hv : Valid strict (ref .ContinueRequest) (.obj l))
    (ht : Without py!"__types" (.obj l)) (ha : Dict.get? l py!"arguments" = some (.obj args)) (n : Nat) (hn : Dict.get? args py!"threadId" = some (.int n))
    (b : Bool) (hb : Dict.get? args py!"singleThread" = some (.bool b)) (m : Dap.Val) (hm : unpack (.obj l) = .ok m) (s : DS) :
    (handle e s m).1 = (request s (.cont n b)).1 ∧ (Reachable s → (b = true → (s.threads.get? n).isSome = true) →
      ∃ a, (handle e s m).2 = [a] ∧ Instance .ContinueResponse a ∧ a.attr? py!"all_threads_continued" = some (.bool !b)) := by
  have h1 := Verif.Props.DapSchema.C84_argument_partial strict .ContinueRequest rfl l args hv ht (by simp) (by simp) ha (Dap.Schema.req py!"threadId" .int)
    (by decide +kernel) (.inl rfl) _ hn (by simp) m hm
  have h2 := Verif.Props.DapSchema.C84_argument_partial strict .ContinueRequest rfl l args hv ht (by simp) (by simp) ha (Dap.Schema.opt py!"singleThread" .bool)
    (by decide +kernel) (.inr (.inr rfl)) _ hb (by simp) m hm
  obtain ⟨attrs, rfl⟩ := unpack_cls (c := .ContinueRequest) rfl hv (by simp) (by simp) hm
  have hi : intAttr (.obj .ContinueRequest attrs) py!"thread_id" = some (n : Int) := by
    simp only [intAttr]
    rw [show (Dap.Val.obj Cls.ContinueRequest attrs).attr? py!"thread_id" = some (Dap.ofJson (.int n)) from h1]
    rfl
  have hb' : boolAttr (.obj .ContinueRequest attrs) py!"single_thread" = b := by
    simp only [boolAttr]
    rw [show (Dap.Val.obj Cls.ContinueRequest attrs).attr? py!"single_thread" = some (Dap.ofJson (.bool b)) from h2]
    rfl
  cases b with
  | true =>
    have hcall : callOf e s .ContinueRequest (.obj .ContinueRequest attrs) = .req (.cont n true) := by
      simp only [callOf, hb', if_true, keyed, hi]
      rw [if_neg (by omega)]; rfl
    refine ⟨by simp only [handle, hcall], fun _ hex => ?_⟩
    obtain ⟨th, hth⟩ := Option.isSome_iff_exists.1 (hex rfl)
    refine ⟨respond .ContinueResponse (.obj .ContinueRequest attrs) [(py!"all_threads_continued", .bool false)], ?_, ?_, build_given (by decide +kernel) rfl⟩
    · simp only [handle, hcall, request, resumeReq, resume, hth]; rfl
    · exact respond_instance .ContinueResponse _ _ (by decide +kernel) (show restOk .ContinueResponse [py!"request_seq", py!"all_threads_continued"] = true by decide +kernel) rfl
        (tcons rfl (.bool _) tnil)
  | false =>
    have hcall : callOf e s .ContinueRequest (.obj .ContinueRequest attrs) = .req (.cont 0 false) := by
      simp only [callOf, hb']; rfl
    refine ⟨by simp only [handle, hcall]; rfl, fun hr _ => ?_⟩
    have hall : (resume (s.threads.map (·.1)) .cont s.threads).2 = true :=
      (resume_all .cont _ s.threads (reach_inv hr).core.tnd (fun _ hk => DL.get_some_key.2 hk)).1
    refine ⟨respond .ContinueResponse (.obj .ContinueRequest attrs) [(py!"all_threads_continued", .bool true)], ?_, ?_, build_given (by decide +kernel) rfl⟩
    · simp only [handle, hcall, request, resumeReq, hall]; rfl
    · exact respond_instance .ContinueResponse _ _ (by decide +kernel) (show restOk .ContinueResponse [py!"request_seq", py!"all_threads_continued"] = true by decide +kernel) rfl
        (tcons rfl (.bool _) tnil)

/-- C85: a request the debuggee has no handler for changes nothing and is answered with an error. -/
theorem C85_unknown (e : Env) (s : DS) (c : Cls) (hc : c ∈ [Cls.AttachRequest, .CancelRequest, .InitializeRequest, .LaunchRequest, .RunInTerminalRequest])
    (m : Dap.Val) (hm : Instance c m) : (handle e s m).1 = s ∧ ∃ a, (handle e s m).2 = [a] ∧ Instance .ErrorResponse a := by
  have hb : c.base = some .Request := by revert hc; cases c <;> simp [Cls.base]
  have hd : c ≠ .DisconnectRequest := by rintro rfl; simp at hc
  obtain ⟨a, d, h1, h2⟩ := C85_answered_partial e s c hb hd m hm
  obtain ⟨val, rfl, -, -⟩ := inst_val hm
  have hcall : callOf e s c (.obj c (c.fields.map fun f => (f.name, val f.name))) = .raises .notImpl := by
    simp only [List.mem_cons, List.not_mem_nil, or_false] at hc
    rcases hc with rfl | rfl | rfl | rfl | rfl <;> rfl
  have hst : (handle e s (.obj c (c.fields.map fun f => (f.name, val f.name)))).1 = s := by simp only [handle, hcall]
  have ha : a = errorResponse e (.obj c (c.fields.map fun f => (f.name, val f.name))) .notImpl := by
    simp only [handle, hcall] at h1
    exact (List.singleton_inj.1 h1).symm
  refine ⟨hst, a, h1, ?_⟩
  have := h2.inst
  obtain ⟨v2, e2, -, -⟩ := inst_val this
  rw [ha, errorResponse, respond, build] at e2
  injection e2 with e3 _
  rw [e3]; exact this

/-! ### Non-vacuity -/

/-- An environment for the examples: templating gives the text itself, but for one name. -/
def env0 : Env where
  hostName := fun n => py!"web" ++ natDec n
  taskName := fun n => py!"Task " ++ natDec n
  strOf := fun _ v => match v with | .atom r => r | .ref _ => py!"..."
  reprRef := fun _ _ => py!"[...]"
  typeOf := fun _ _ => py!"str"
  truthy := fun _ _ => true
  summary := fun _ _ => none
  args := none
  hostVars := none
  template := fun _ x => if x = py!"nope" then .error py!"AnsibleUndefinedVariable: 'nope' is undefined" else .ok ([], .atom x)
  usage := fun _ => []
  trace := fun _ => py!"KeyError"

/-- The texts of the messages. -/
def texts (l : List Dap.Val) : List Str := l.map fun a => dumps (toJson a)

/-- A next request for thread 2, as it is sent. -/
def nextDoc : List (Str × Json) := [(py!"seq", .int 7), (py!"type", .str py!"request"), (py!"command", .str py!"next"), (py!"arguments", .obj [(py!"threadId", .int 2)])]

example : Valid true (ref .NextRequest) (.obj nextDoc) ∧ Without py!"__types" (.obj nextDoc) ∧ Dict.get? nextDoc py!"arguments" = some (.obj [(py!"threadId", .int 2)]) ∧
    (numbered env0 .NextRequest).map (·.1) = some py!"threadId" :=
  ⟨Dap.Schema.validB_ok 6 _ _ (by decide +kernel), by unfold Without; decide +kernel, rfl, rfl⟩

/-- Handled while host 7 is stopped. -/
example : (unpack (.obj nextDoc)).toOption.map (fun m => texts (handle env0 Verif.Props.Strat.e1 m).2) =
    some [py!"{\"seq\": 0, \"type\": \"response\", \"request_seq\": 7, \"success\": true, \"command\": \"next\"}"] := by decide +kernel

/-- Handled before there is a thread 2. -/
example : (unpack (.obj nextDoc)).toOption.map (fun m => texts (handle env0 {} m).2) =
    some [py!"{\"seq\": 0, \"type\": \"response\", \"request_seq\": 7, \"success\": false, \"command\": \"next\", \"message\": \"Critical Debuggee exception received\\nKeyError\", \"body\": {\"error\": null}}"] := by
  decide +kernel

/-- A stepIn request. -/
def stepInDoc : List (Str × Json) := [(py!"seq", .int 9), (py!"type", .str py!"request"), (py!"command", .str py!"stepIn"), (py!"arguments", .obj [(py!"threadId", .int 2)])]

example : Valid true (ref .StepInRequest) (.obj stepInDoc) ∧ Without py!"__types" (.obj stepInDoc) ∧ Without py!"targetId" (.obj stepInDoc) :=
  ⟨Dap.Schema.validB_ok 6 _ _ (by decide +kernel), by unfold Without; decide +kernel, by unfold Without; decide +kernel⟩

/-- A continue request for one thread. -/
def continueOne : List (Str × Json) := [(py!"seq", .int 8), (py!"type", .str py!"request"), (py!"command", .str py!"continue"),
  (py!"arguments", .obj [(py!"threadId", .int 2), (py!"singleThread", .bool false)])]

example : Valid true (ref .ContinueRequest) (.obj continueOne) ∧ Without py!"__types" (.obj continueOne) :=
  ⟨Dap.Schema.validB_ok 6 _ _ (by decide +kernel), by unfold Without; decide +kernel⟩

example : Instance .CancelRequest (build .CancelRequest [(py!"request_id", .int 3)]) ∧ Instance .DisconnectRequest (build .DisconnectRequest []) :=
  ⟨Dap.instance_of (by decide +kernel), Dap.instance_of (by decide +kernel)⟩

end Verif.Props.Wire
