import Verif.Wire.Typed
/-!
# A request has one outcome; events are well typed (proofs)
-/

namespace Verif.Wire
open Verif Verif.Strat
open Verif.Dap (Cls Field Ann Typed Instance typedB fixedB)

theorem resumeReq_out (s : DS) (ts : List Nat) (st : TState) (o : Out) :
    ∃ o', (resumeReq s ts st o).2 = [o'] ∧ (o' = o ∨ o' = .error .key) := by
  unfold resumeReq
  refine ⟨_, rfl, ?_⟩
  split
  · exact .inl rfl
  · exact .inr rfl

theorem getScopes_out (s : DS) (f : Nat) (a : Option (Dict Key Val)) (h : Option (Str × List (Str × Val))) :
    ∃ o, (getScopes s f a h).2 = [o] ∧ ((∃ ss, o = .scopes ss) ∨ ∃ x, o = .error x) := by
  unfold getScopes
  split
  · exact ⟨_, rfl, .inr ⟨_, rfl⟩⟩
  · split
    · exact ⟨_, rfl, .inr ⟨_, rfl⟩⟩
    · split
      · exact ⟨_, rfl, .inr ⟨_, rfl⟩⟩
      · simp only
        split
        · exact ⟨_, rfl, .inl ⟨_, rfl⟩⟩
        · exact ⟨_, rfl, .inr ⟨_, rfl⟩⟩

theorem setVariable_out (s : DS) (r : Nat) (n : Str) (t : Templated) :
    ∃ o, (setVariable s r n t).2 = [o] ∧ ((∃ v, o = .setVar v) ∨ ∃ x, o = .error x) := by
  unfold setVariable
  split
  · exact ⟨_, rfl, .inr ⟨_, rfl⟩⟩
  · split
    · exact ⟨_, rfl, .inr ⟨_, rfl⟩⟩
    · simp only
      split
      · exact ⟨_, rfl, .inr ⟨_, rfl⟩⟩
      · split <;> exact ⟨_, rfl, .inl ⟨_, rfl⟩⟩

theorem setAll_out (n : Str) (x : Val) : ∀ (is : List Nat) (s : DS), ∃ o, (setAll s n x is).2 = [o] ∧ (o = .ok ∨ ∃ x, o = .error x)
  | [], s => ⟨_, rfl, .inl rfl⟩
  | i :: is, s => by
    unfold setAll
    split
    · exact ⟨_, rfl, .inr ⟨_, rfl⟩⟩
    · simp only
      split
      · exact ⟨_, rfl, .inr ⟨_, rfl⟩⟩
      · exact setAll_out n x is _

theorem evaluate_out (s : DS) (f : Nat) (e : Eval) : ∃ o, (evaluate s f e).2 = [o] ∧ (o = .ok ∨ ∃ x, o = .error x) := by
  unfold evaluate
  split
  · exact ⟨_, rfl, .inr ⟨_, rfl⟩⟩
  · split
    · exact ⟨_, rfl, .inl rfl⟩
    · exact ⟨_, rfl, .inl rfl⟩
    · split
      · exact ⟨_, rfl, .inr ⟨_, rfl⟩⟩
      · split
        · exact ⟨_, rfl, .inr ⟨_, rfl⟩⟩
        · exact ⟨_, rfl, .inl rfl⟩
    · split
      · exact ⟨_, rfl, .inr ⟨_, rfl⟩⟩
      · exact setAll_out _ _ _ _
    · split
      · exact ⟨_, rfl, .inr ⟨_, rfl⟩⟩
      · exact setAll_out _ _ _ _

theorem keyed_req {m : Dap.Val} {a : Str} {f : Nat → Req} {r : Req} (h : keyed m a f = .req r) : ∃ i : Nat, intAttr m a = some (i : Int) ∧ r = f i := by
  unfold keyed at h
  split at h
  · cases h
  · rename_i i hi
    split at h
    · cases h
    · rename_i hn
      cases h
      exact ⟨i.toNat, by rw [hi]; congr 1; omega, rfl⟩

theorem commandCall_req {e : Env} {s : DS} {f : Nat} {x : Option Repl.Res} {r : Req} (h : commandCall e s f x = .req r) : ∃ ev, r = .evaluate f ev := by
  unfold commandCall at h
  split at h <;> first | cases h | skip
  all_goals exact ⟨_, rfl⟩

theorem evalCall_req {e : Env} {s : DS} {m : Dap.Val} {r : Req} (h : evalCall e s m = .req r) : ∃ f ev, r = .evaluate f ev := by
  unfold evalCall at h
  split at h
  · cases h
  · split at h
    · cases h
    · cases h; exact ⟨_, _, rfl⟩
  · split at h
    · cases h
    · obtain ⟨ev, he⟩ := commandCall_req h; exact ⟨_, ev, he⟩

/-- Every request but a disconnect has exactly one outcome, of its own kind. -/
theorem one_out (e : Env) (s : DS) (c : Cls) (m : Dap.Val) (r : Req) (h : callOf e s c m = .req r) (hc : c ≠ .DisconnectRequest) :
    ∃ o, (request s r).2 = [o] ∧ outOk c o = true := by
  unfold callOf at h
  split at h
  · cases h
  · split at h
    · obtain ⟨i, _, rfl⟩ := keyed_req h
      obtain ⟨o, h1, h2⟩ := resumeReq_out s [i] .cont (.continued false)
      refine ⟨o, h1, ?_⟩
      rcases h2 with rfl | rfl <;> rfl
    · cases h
      obtain ⟨o, h1, h2⟩ := resumeReq_out s (s.threads.map (·.1)) .cont (.continued true)
      refine ⟨o, h1, ?_⟩
      rcases h2 with rfl | rfl <;> rfl
  · exact absurd rfl hc
  · obtain ⟨f, ev, rfl⟩ := evalCall_req h
    obtain ⟨o, h1, h2⟩ := evaluate_out s f ev
    refine ⟨o, h1, ?_⟩
    rcases h2 with rfl | ⟨x, rfl⟩ <;> rfl
  · obtain ⟨i, _, rfl⟩ := keyed_req h
    obtain ⟨o, h1, h2⟩ := resumeReq_out s [i] .stepOver .ok
    refine ⟨o, h1, ?_⟩
    rcases h2 with rfl | rfl <;> rfl
  · obtain ⟨i, _, rfl⟩ := keyed_req h
    obtain ⟨o, h1, h2⟩ := getScopes_out s i e.args e.hostVars
    refine ⟨o, h1, ?_⟩
    rcases h2 with ⟨x, rfl⟩ | ⟨x, rfl⟩ <;> rfl
  · cases h
    exact ⟨_, rfl, rfl⟩
  · cases h
    simp only [request, bpStep, Bp.step, Bp.setBreakpoints]
    split
    · exact ⟨_, rfl, rfl⟩
    · exact ⟨_, rfl, rfl⟩
  · obtain ⟨i, _, rfl⟩ := keyed_req h
    obtain ⟨o, h1, h2⟩ := setVariable_out s i ((strAttr m py!"name").getD []) (e.template (varVars s i) ((strAttr m py!"value").getD [])).toOption
    refine ⟨o, h1, ?_⟩
    rcases h2 with ⟨x, rfl⟩ | ⟨x, rfl⟩ <;> rfl
  · obtain ⟨i, _, rfl⟩ := keyed_req h
    simp only [request, stackTrace]
    split
    · exact ⟨_, rfl, rfl⟩
    · split
      · exact ⟨_, rfl, rfl⟩
      · exact ⟨_, rfl, rfl⟩
  · obtain ⟨i, _, rfl⟩ := keyed_req h
    obtain ⟨o, h1, h2⟩ := resumeReq_out s [i] .stepIn .ok
    refine ⟨o, h1, ?_⟩
    rcases h2 with rfl | rfl <;> rfl
  · obtain ⟨i, _, rfl⟩ := keyed_req h
    obtain ⟨o, h1, h2⟩ := resumeReq_out s [i] .stepOut .ok
    refine ⟨o, h1, ?_⟩
    rcases h2 with rfl | rfl <;> rfl
  · cases h; exact ⟨_, rfl, rfl⟩
  · cases h; exact ⟨_, rfl, rfl⟩
  · obtain ⟨i, _, rfl⟩ := keyed_req h
    simp only [request, getVariables]
    split
    · exact ⟨_, rfl, rfl⟩
    · exact ⟨_, rfl, rfl⟩
  · cases h

/-- The handlers that set nothing but an event, or nothing. -/
theorem callOf_configDone {e : Env} {s : DS} {c : Cls} {m : Dap.Val} (h : callOf e s c m = .configDone) : c = .ConfigurationDoneRequest := by
  cases c <;> first | rfl | (exfalso; revert h; simp only [callOf, keyed, evalCall]; intro h; (repeat' (split at h)); all_goals first | (cases h; done) | (revert h; unfold commandCall; split <;> intro h <;> cases h))

theorem callOf_noEval {e : Env} {s : DS} {c : Cls} {m : Dap.Val} (h : callOf e s c m = .noEval) : c = .EvaluateRequest := by
  cases c <;> first | rfl | (exfalso; revert h; simp only [callOf, keyed]; intro h; (repeat' (split at h)); all_goals cases h)

theorem config_answers (m : Dap.Val) : Answers .ConfigurationDoneRequest m (respond .ConfigurationDoneResponse m []) .ConfigurationDoneResponse :=
  bare_answers m (by decide +kernel) (by decide +kernel) rfl ⟨by decide, rfl, rfl⟩ rfl rfl

/-- Every request but a disconnect gets one answer. -/
theorem handle_answers (e : Env) (s : DS) (c : Cls) (attrs : List (Str × Dap.Val)) (hc : c ≠ .DisconnectRequest) (w : Str)
    (hw : w ∈ Dap.EnumId.Command.values) (hcmd : c.attr? py!"command" = some (.enum .Command w))
    (hm : (Dap.Val.obj c attrs).attr? py!"command" = c.attr? py!"command") :
    ∃ a d, (handle e s (.obj c attrs)).2 = [a] ∧ Answers c (.obj c attrs) a d := by
  unfold handle
  simp only
  split
  · rename_i r hr
    obtain ⟨o, h1, h2⟩ := one_out e s c _ r hr hc
    obtain ⟨d, hd⟩ := render_answers e (request s r).1 c (.obj c attrs) (fun _ => none) o h2 w hw hcmd hm
    exact ⟨_, d, by rw [h1]; rfl, hd⟩
  · exact ⟨_, _, rfl, error_answers e c _ _ w hw hcmd hm⟩
  · rename_i h
    have := callOf_configDone h; subst this
    exact ⟨_, _, rfl, config_answers _⟩
  · rename_i h
    have := callOf_noEval h; subst this
    exact ⟨_, _, rfl, eval_answers e s _⟩

/-! ## Events -/

theorem threadEvent_typed (r : Str) (t : Nat) (h : r ∈ [py!"started", py!"exited"]) : Instance .ThreadEvent (threadEvent r t) :=
  build_instance _ _ (by decide +kernel) (show restOk .ThreadEvent [py!"reason", py!"thread_id"] = true by decide +kernel)
    (tcons rfl (.literal _ _ h) (tcons rfl (.int _) tnil))

theorem stopped_typed (e : Env) (h : Heap) (get : Str → Option Val) (t : Nat) (w : Strat.Stop) : Instance .StoppedEvent (stoppedEvent e h get t w) := by
  have hs : ∀ d : Str, Instance .StoppedEvent (build .StoppedEvent [(py!"reason", .enum .StoppedReason py!"step"), (py!"description", .str d), (py!"thread_id", .int t)]) :=
    fun d => build_instance _ _ (by decide +kernel) (show restOk .StoppedEvent [py!"reason", py!"description", py!"thread_id"] = true by decide +kernel)
      (tcons rfl (.enum _ _ (by decide)) (tcons rfl (.optSome _ _ (.str _)) (tcons rfl (.optSome _ _ (.int _)) tnil)))
  cases w with
  | brk w =>
    cases w with
    | over => exact hs _
    | out => exact hs _
    | into => exact hs _
    | bp b =>
      exact build_instance _ _ (by decide +kernel) (show restOk .StoppedEvent [py!"reason", py!"description", py!"hit_breakpoint_ids", py!"thread_id"] = true by decide +kernel)
        (tcons rfl (.enum _ _ (by decide)) (tcons rfl (.optSome _ _ (.str _)) (tcons rfl (.list _ _ (by intro v hv; rw [List.mem_singleton.1 hv]; exact .int _))
          (tcons rfl (.optSome _ _ (.int _)) tnil))))
  | exc x =>
    exact build_instance _ _ (by decide +kernel) (show restOk .StoppedEvent [py!"reason", py!"description", py!"thread_id", py!"preserve_focus_hint", py!"text",
        py!"all_threads_stopped", py!"hit_breakpoint_ids"] = true by decide +kernel)
      (tcons rfl (.enum _ _ (by decide)) (tcons rfl (.optSome _ _ (.str _)) (tcons rfl (.optSome _ _ (.int _)) (tcons rfl (.bool _) (tcons rfl (.optSome _ _ (.str _))
        (tcons rfl (.bool _) (tcons rfl (.list _ _ (by intro v hv; cases hv)) tnil)))))))

theorem bpEvent_typed (b : Bp.Bp) : Instance .BreakpointEvent (build .BreakpointEvent [(py!"reason", .str py!"changed"), (py!"breakpoint", bpVal b)]) :=
  build_instance _ _ (by decide +kernel) (show restOk .BreakpointEvent [py!"reason", py!"breakpoint"] = true by decide +kernel)
    (tcons rfl (.union _ _ _ (List.mem_cons_self ..) (.str _)) (tcons rfl (bp_typed b) tnil))

theorem initialized_typed : Instance .InitializedEvent (build .InitializedEvent []) :=
  build_instance _ _ (by decide +kernel) (by decide +kernel) tnil

end Verif.Wire
