import Verif.Wire.Lemmas
/-!
# Every message of the debuggee is well typed (proofs)
-/

namespace Verif.Wire
open Verif Verif.Strat
open Verif.Dap (Cls Field Ann Typed Instance typedB fixedB)

/-- The assignments are well typed. -/
def AsgOk (c : Cls) (asg : Dict Str Dap.Val) : Prop := ∀ x ∈ asg, ∃ a, annOf c x.1 = some a ∧ Typed a x.2

theorem tnil {c : Cls} : AsgOk c [] := by intro x hx; cases hx

theorem tcons {c : Cls} {k : Str} {v : Dap.Val} {a : Ann} {asg : Dict Str Dap.Val} (h : annOf c k = some a) (hv : Typed a v) (hr : AsgOk c asg) :
    AsgOk c ((k, v) :: asg) := by
  intro x hx
  rcases List.mem_cons.1 hx with rfl | hx
  · exact ⟨a, h, hv⟩
  · exact hr x hx

theorem typed_optStr (o : Option Str) : Typed (.optional .str) (optStr o) := by
  cases o with
  | none => exact .optNone _
  | some s => exact .optSome _ _ (.str s)

theorem typed_optInt (o : Option Int) : Typed (.optional .int) (optInt o) := by
  cases o with
  | none => exact .optNone _
  | some s => exact .optSome _ _ (.int s)

theorem thread_typed (e : Env) (s : DS) (id : Nat) : Instance .Thread (threadVal e s id) :=
  build_instance _ _ (by decide +kernel) (show restOk .Thread [py!"id", py!"name"] = true by decide +kernel)
    (tcons rfl (.int _) (tcons rfl (.str _) tnil))

theorem source_typed (a b : Dap.Val) (ha : Typed (.optional .str) a) (hb : Typed (.optional .str) b) :
    Instance .Source (build .Source [(py!"name", a), (py!"path", b)]) :=
  build_instance _ _ (by decide +kernel) (show restOk .Source [py!"name", py!"path"] = true by decide +kernel)
    (tcons rfl ha (tcons rfl hb tnil))

theorem frame_typed (e : Env) (s : DS) (f : Nat × Str × Int) : Instance .StackFrame (frameVal e s f) :=
  build_instance _ _ (by decide +kernel) (show restOk .StackFrame [py!"id", py!"name", py!"source", py!"line"] = true by decide +kernel)
    (tcons rfl (.int _) (tcons rfl (.str _) (tcons rfl (.optSome _ _ (source_typed _ _ (.optSome _ _ (.str _)) (.optSome _ _ (.str _)))) (tcons rfl (.int _) tnil))))

theorem scope_typed (s : DS) (x : Str × Nat) : Instance .Scope (scopeVal s x) :=
  build_instance _ _ (by decide +kernel)
    (show restOk .Scope [py!"name", py!"variables_reference", py!"named_variables", py!"indexed_variables", py!"expensive"] = true by decide +kernel)
    (tcons rfl (.str _) (tcons rfl (.int _) (tcons rfl (.optSome _ _ (.int _)) (tcons rfl (.optSome _ _ (.int _)) (tcons rfl (.bool _) tnil)))))

theorem variable_typed (e : Env) (s : DS) (x : Str × Val × Nat) : Instance .Variable (variableVal e s x) :=
  build_instance _ _ (by decide +kernel)
    (show restOk .Variable [py!"name", py!"value", py!"type", py!"named_variables", py!"indexed_variables", py!"variables_reference"] = true by decide +kernel)
    (tcons rfl (.str _) (tcons rfl (.str _) (tcons rfl (.optSome _ _ (.str _)) (tcons rfl (.optSome _ _ (.int _)) (tcons rfl (.optSome _ _ (.int _)) (tcons rfl (.int _) tnil))))))

theorem bp_typed (b : Bp.Bp) : Instance .Breakpoint (bpVal b) :=
  build_instance _ _ (by decide +kernel)
    (show restOk .Breakpoint [py!"id", py!"verified", py!"message", py!"source", py!"line", py!"end_line"] = true by decide +kernel)
    (tcons rfl (.optSome _ _ (.int _)) (tcons rfl (.bool _) (tcons rfl (typed_optStr _) (tcons rfl (.optSome _ _ (source_typed _ _ (typed_optStr _) (typed_optStr _)))
      (tcons rfl (typed_optInt _) (tcons rfl (typed_optInt _) tnil))))))

theorem list_typed {α : Type} {c : Cls} (f : α → Dap.Val) (l : List α) (h : ∀ x, Instance c (f x)) : Typed (.tlist (.cls c)) (.list (l.map f)) :=
  .tlist _ _ fun v hv => by
    obtain ⟨x, _, rfl⟩ := List.mem_map.1 hv
    exact h x

/-- The assignments of a response: its own ones, and the sequence number of the request. -/
theorem respond_instance (c : Cls) (m : Dap.Val) (asg : Dict Str Dap.Val) (hn : namesOk c = true)
    (hr : restOk c (py!"request_seq" :: asg.map (·.1)) = true) (hs : annOf c py!"request_seq" = some .int) (ha : AsgOk c asg) :
    Instance c (respond c m asg) :=
  build_instance c _ hn hr (tcons hs (.int _) ha)

/-- An answer to a request of class `c`: a response, with the request's sequence number and command; an error response or a
response of the class with that command. -/
structure Answers (c : Cls) (m a : Dap.Val) (d : Cls) : Prop where
  inst : Instance d a
  seq : a.attr? py!"request_seq" = some (.int ((intAttr m py!"seq").getD 0))
  cmd : a.attr? py!"command" = c.attr? py!"command"
  kind : d = .ErrorResponse ∨ (d ≠ .ErrorResponse ∧ d.base = some .Response ∧ d.attr? py!"command" = c.attr? py!"command")

theorem error_answers (e : Env) (c : Cls) (m : Dap.Val) (x : PyErr) (w : Str) (hw : w ∈ Dap.EnumId.Command.values)
    (hc : c.attr? py!"command" = some (.enum .Command w)) (hm : m.attr? py!"command" = c.attr? py!"command") :
    Answers c m (errorResponse e m x) .ErrorResponse := by
  have hm' : (m.attr? py!"command").getD .null = .enum .Command w := by rw [hm, hc]; rfl
  unfold errorResponse
  rw [hm']
  refine ⟨respond_instance _ _ _ (by decide +kernel)
    (show restOk .ErrorResponse [py!"request_seq", py!"command", py!"message"] = true by decide +kernel) rfl
    (tcons rfl (.enum _ _ hw) (tcons rfl (.optSome _ _ (.str _)) tnil)), build_given (by decide +kernel) rfl, ?_, .inl rfl⟩
  rw [hc]
  exact build_given (by decide +kernel) rfl

theorem respond_answers (c d : Cls) (m : Dap.Val) (asg : Dict Str Dap.Val) (hn : namesOk d = true)
    (hr : restOk d (py!"request_seq" :: asg.map (·.1)) = true) (hs : annOf d py!"request_seq" = some .int) (ha : AsgOk d asg)
    (hd : d ≠ .ErrorResponse ∧ d.base = some .Response ∧ d.attr? py!"command" = c.attr? py!"command")
    (hg : Dict.get? asg py!"command" = none) (hb : (build d []).attr? py!"command" = c.attr? py!"command") (hsome : (c.attr? py!"command").isSome = true) :
    Answers c m (respond d m asg) d := by
  refine ⟨respond_instance _ _ _ hn hr hs ha, build_given (by rw [hs]; rfl) rfl, ?_, .inr hd⟩
  obtain ⟨w, hw⟩ := Option.isSome_iff_exists.1 hsome
  rw [hw]
  exact build_rest (by simp only [Dict.get?]; rw [if_neg (by decide)]; exact hg) (by rw [hb, hw])

/-- The outcomes a request of a class can have. -/
def outOk (c : Cls) : Out → Bool
  | .ok => match c with
    | .EvaluateRequest | .NextRequest | .StepInRequest | .StepOutRequest | .TerminateRequest => true
    | _ => false
  | .continued _ => c == .ContinueRequest
  | .error _ => true
  | .stack _ => c == .StackTraceRequest
  | .threads _ => c == .ThreadsRequest
  | .scopes _ => c == .ScopesRequest
  | .variables _ => c == .VariablesRequest
  | .setVar _ => c == .SetVariableRequest
  | .bp (.setBpsResp _ _) => c == .SetBreakpointsRequest
  | .bp (.setExcResp _) => c == .SetExceptionBreakpointsRequest
  | .bp (.error _) => true
  | _ => false

theorem eval_answers (e : Env) (s : DS) (m : Dap.Val) : Answers .EvaluateRequest m (evalResponse e s m) .EvaluateResponse :=
  respond_answers _ _ _ _ (by decide +kernel) (show restOk .EvaluateResponse [py!"request_seq", py!"result", py!"type"] = true by decide +kernel) rfl
    (tcons rfl (.str _) (tcons rfl (typed_optStr _) tnil)) ⟨by decide, rfl, rfl⟩ rfl rfl rfl

theorem bare_answers {c d : Cls} (m : Dap.Val) (hn : namesOk d = true) (hr : restOk d [py!"request_seq"] = true) (hs : annOf d py!"request_seq" = some .int)
    (hd : d ≠ .ErrorResponse ∧ d.base = some .Response ∧ d.attr? py!"command" = c.attr? py!"command")
    (hb : (build d []).attr? py!"command" = c.attr? py!"command") (hsome : (c.attr? py!"command").isSome = true) : Answers c m (respond d m []) d :=
  respond_answers _ _ _ _ hn hr hs tnil hd rfl hb hsome

theorem render_answers (e : Env) (s : DS) (c : Cls) (m : Dap.Val) (get : Str → Option Val) (o : Out) (h : outOk c o = true) (w : Str)
    (hw : w ∈ Dap.EnumId.Command.values) (hc : c.attr? py!"command" = some (.enum .Command w)) (hm : m.attr? py!"command" = c.attr? py!"command") :
    ∃ d, Answers c m (render e s c m get o) d := by
  cases o with
  | started | exited | stopped => cases h
  | ok =>
    cases c <;> first | cases h | skip
    · exact ⟨_, eval_answers e s m⟩
    · exact ⟨_, bare_answers (d := .NextResponse) m (by decide +kernel) (by decide +kernel) rfl ⟨by decide, rfl, rfl⟩ rfl rfl⟩
    · exact ⟨_, bare_answers (d := .StepInResponse) m (by decide +kernel) (by decide +kernel) rfl ⟨by decide, rfl, rfl⟩ rfl rfl⟩
    · exact ⟨_, bare_answers (d := .StepOutResponse) m (by decide +kernel) (by decide +kernel) rfl ⟨by decide, rfl, rfl⟩ rfl rfl⟩
    · exact ⟨_, bare_answers (d := .TerminateResponse) m (by decide +kernel) (by decide +kernel) rfl ⟨by decide, rfl, rfl⟩ rfl rfl⟩
  | continued all =>
    have := eq_of_beq h; subst this
    exact ⟨_, respond_answers _ _ _ _ (by decide +kernel) (show restOk .ContinueResponse [py!"request_seq", py!"all_threads_continued"] = true by decide +kernel) rfl
      (tcons rfl (.bool _) tnil) ⟨by decide, rfl, rfl⟩ rfl rfl rfl⟩
  | error x => exact ⟨_, error_answers e c m x w hw hc hm⟩
  | stack fs =>
    have := eq_of_beq h; subst this
    exact ⟨_, respond_answers _ _ _ _ (by decide +kernel) (show restOk .StackTraceResponse [py!"request_seq", py!"stack_frames", py!"total_frames"] = true by decide +kernel) rfl
      (tcons rfl (list_typed _ _ (frame_typed e s)) (tcons rfl (.optSome _ _ (.int _)) tnil)) ⟨by decide, rfl, rfl⟩ rfl rfl rfl⟩
  | threads ids =>
    have := eq_of_beq h; subst this
    exact ⟨_, respond_answers _ _ _ _ (by decide +kernel) (show restOk .ThreadsResponse [py!"request_seq", py!"threads"] = true by decide +kernel) rfl
      (tcons rfl (list_typed _ _ (thread_typed e s)) tnil) ⟨by decide, rfl, rfl⟩ rfl rfl rfl⟩
  | scopes ss =>
    have := eq_of_beq h; subst this
    exact ⟨_, respond_answers _ _ _ _ (by decide +kernel) (show restOk .ScopesResponse [py!"request_seq", py!"scopes"] = true by decide +kernel) rfl
      (tcons rfl (list_typed _ _ (scope_typed s)) tnil) ⟨by decide, rfl, rfl⟩ rfl rfl rfl⟩
  | variables vs =>
    have := eq_of_beq h; subst this
    exact ⟨_, respond_answers _ _ _ _ (by decide +kernel) (show restOk .VariablesResponse [py!"request_seq", py!"variables"] = true by decide +kernel) rfl
      (tcons rfl (list_typed _ _ (variable_typed e s)) tnil) ⟨by decide, rfl, rfl⟩ rfl rfl rfl⟩
  | setVar ref =>
    have := eq_of_beq h; subst this
    exact ⟨_, respond_answers _ _ _ _ (by decide +kernel)
      (show restOk .SetVariableResponse [py!"request_seq", py!"value", py!"type", py!"variables_reference", py!"named_variables", py!"indexed_variables"] = true by decide +kernel) rfl
      (tcons rfl (.str _) (tcons rfl (.optSome _ _ (.str _)) (tcons rfl (.optSome _ _ (.int _)) (tcons rfl (.optSome _ _ (.int _)) (tcons rfl (.optSome _ _ (.int _)) tnil)))))
      ⟨by decide, rfl, rfl⟩ rfl rfl rfl⟩
  | bp b =>
    cases b with
    | setBpsResp q bs =>
      have := eq_of_beq h; subst this
      exact ⟨_, respond_answers _ _ _ _ (by decide +kernel) (show restOk .SetBreakpointsResponse [py!"request_seq", py!"breakpoints"] = true by decide +kernel) rfl
        (tcons rfl (list_typed _ _ bp_typed) tnil) ⟨by decide, rfl, rfl⟩ rfl rfl rfl⟩
    | bpChanged => cases h
    | setExcResp q =>
      have := eq_of_beq h; subst this
      exact ⟨_, bare_answers (d := .SetExceptionBreakpointsResponse) m (by decide +kernel) (by decide +kernel) rfl ⟨by decide, rfl, rfl⟩ rfl rfl⟩
    | initialized => cases h
    | error q => exact ⟨_, error_answers e c m .other w hw hc hm⟩

end Verif.Wire
