import Verif.Props.Wire
import Verif.Props.StratStack
import Verif.Props.StratVars
/-!
# Evaluations, threads and stacks as the client sees them (C87, C88)

`handle e s m` is the debuggee's handling of the message object `m` in the debug state `s`. `e.template tv x` is what templating the
expression `x` with the task variables `tv` gives: a value (with the new containers in it), or the text that describes the error.
-/

namespace Verif.Props.WireEval
open Verif Verif.Wire Verif.Strat Verif.Props.Strat
open Verif.Dap (Cls Instance)

/-! ## C87 evaluate -/

/-- The contexts in which expressions are evaluated. -/
def contexts : List Str := [py!"repl", py!"watch", py!"clipboard", py!"variables"]

/-- An evaluation answer to the request `m`. -/
structure EvalAnswer (m a : Dap.Val) (result : Str) (type : Option Str) : Prop where
  inst : Instance .EvaluateResponse a
  request_seq : a.attr? py!"request_seq" = m.attr? py!"seq"
  result : a.attr? py!"result" = some (.str result)
  type : a.attr? py!"type" = some (match type with | none => .null | some t => .str t)

theorem inst_obj {c : Cls} {m : Dap.Val} (h : Instance c m) : ∃ attrs, m = .obj c attrs := by
  obtain ⟨val, rfl, -, -⟩ := Verif.Props.Wire.inst_val h
  exact ⟨_, rfl⟩

theorem seq_of {c : Cls} (hc : c.base = some .Request) {m : Dap.Val} (h : Instance c m) : ∃ q, m.attr? py!"seq" = some (.int q) ∧ intAttr m py!"seq" = some q := by
  obtain ⟨val, rfl, ht, -⟩ := Verif.Props.Wire.inst_val h
  have hh := Verif.Props.Wire.reqHead_all c
  simp only [Verif.Props.Wire.reqHead, hc, bne_self_eq_false, Bool.false_or, Bool.and_eq_true] at hh
  have h1 := hh.1.1
  simp only [List.any_eq_true, Bool.and_eq_true, beq_iff_eq] at h1
  obtain ⟨f, hff, hfn, hfa⟩ := h1
  have hfa : f.ann = .int := by
    split at hfa
    · assumption
    · cases hfa
  obtain ⟨q, hq⟩ : ∃ q, val py!"seq" = .int q := by
    have := ht f hff
    rw [hfa, hfn] at this
    generalize val py!"seq" = x at this
    cases this with | int i => exact ⟨i, rfl⟩
  have : (Dap.Val.obj c (c.fields.map fun f => (f.name, val f.name))).attr? py!"seq" = some (.int q) := by
    rw [Verif.Props.Wire.val_attr _ _ (List.mem_map.2 ⟨f, hff, hfn⟩), hq]
  exact ⟨q, this, by simp only [intAttr, this]⟩

theorem eval_answer (e : Env) (s : DS) {m : Dap.Val} (h : Instance .EvaluateRequest m) :
    EvalAnswer m (evalResponse e s m) (evalValue e s m).1 (evalValue e s m).2 := by
  have hA := eval_answers e s m
  obtain ⟨q, hq, hq'⟩ := seq_of rfl h
  refine ⟨hA.inst, by rw [hA.seq, hq', hq]; rfl, build_given (by decide +kernel) rfl, ?_⟩
  have : (evalResponse e s m).attr? py!"type" = some (optStr (evalValue e s m).2) := build_given (by decide +kernel) rfl
  rw [this]
  cases (evalValue e s m).2 <;> rfl

theorem attrs_of {m : Dap.Val} {x ctx : Str} {f : Int} (hx : m.attr? py!"expression" = some (.str x)) (hctx : m.attr? py!"context" = some (.str ctx))
    (hf : m.attr? py!"frame_id" = some (.int f)) : route m = Repl.evalRoute (some ctx) x (some f) := by
  simp only [route, strAttr, intAttr, hx, hctx, hf, Option.getD_some]

theorem route_expr {ctx x : Str} {f : Nat} (hin : ctx ∈ contexts) (hf : f ≠ 0) (hn : ¬ (ctx = py!"repl" ∧ x.head? = some 33)) :
    Repl.evalRoute (some ctx) x (some (f : Int)) = .expression f x := by
  unfold Repl.evalRoute
  simp only
  rw [if_neg (by omega), if_neg (by simpa using hn), if_pos (by simpa [contexts] using hin)]

theorem route_cmd {x : Str} {f : Nat} (hf : f ≠ 0) (hh : x.head? = some 33) :
    Repl.evalRoute (some py!"repl") x (some (f : Int)) = .command f (Repl.parseRepl (x.drop 1)) := by
  unfold Repl.evalRoute
  simp only
  rw [if_neg (by omega), if_pos ⟨trivial, hh⟩]

/-- C87: an expression that is evaluated in a frame that exists is templated with that frame's task variables. The answer holds the `repr`
of the value and its type, or the description of the error and no type. Nothing else happens: no variable, thread, frame or breakpoint of the session
changes. -/
theorem C87_expression (e : Env) (s : DS) (m : Dap.Val) (hm : Instance .EvaluateRequest m) (ctx x : Str) (f : Nat) (fr : Frame)
    (hx : m.attr? py!"expression" = some (.str x)) (hctx : m.attr? py!"context" = some (.str ctx)) (hf : m.attr? py!"frame_id" = some (.int f))
    (hin : ctx ∈ contexts) (hf0 : f ≠ 0) (hn : ¬ (ctx = py!"repl" ∧ x.head? = some 33)) (hfr : s.frames.get? f = some fr) :
    (handle e s m).1 = s ∧ ∃ a, (handle e s m).2 = [a] ∧
      (∀ objs v, e.template (some fr.taskVars) x = .ok (objs, v) → EvalAnswer m a (reprOf e (s.heap ++ objs) v) (some (e.typeOf (s.heap ++ objs) v))) ∧
      (∀ t, e.template (some fr.taskVars) x = .error t → EvalAnswer m a t none) := by
  have hr := attrs_of hx hctx hf
  rw [route_expr hin hf0 hn] at hr
  have hans := eval_answer e s hm
  obtain ⟨attrs, rfl⟩ := inst_obj hm
  have hcall : callOf e s .EvaluateRequest (.obj .EvaluateRequest attrs) = .req (.evaluate f .expr) := by
    simp only [callOf, evalCall, hr]
    rw [if_neg (by omega)]; rfl
  have hreq : request s (.evaluate f .expr) = (s, [.ok]) := by simp only [request, evaluate, hfr]
  have hfv : frameVars s ((f : Int).toNat) = some fr.taskVars := by
    rw [Int.toNat_natCast]; simp only [frameVars, hfr, Option.map_some]
  have hev : evalValue e s (.obj .EvaluateRequest attrs) = safeEvaluate e s.heap (some fr.taskVars) x := by
    simp only [evalValue, hr, hfv]
  rw [hev] at hans
  simp only [handle, hcall, hreq]
  refine ⟨trivial, _, rfl, ?_, ?_⟩
  · intro objs v hv
    simp only [safeEvaluate, hv] at hans
    exact hans
  · intro t ht
    simp only [safeEvaluate, ht] at hans
    exact hans

/-- C87: so is the expression of the console's template command. -/
theorem C87_template_command (e : Env) (s : DS) (m : Dap.Val) (hm : Instance .EvaluateRequest m) (line x : Str) (f : Nat) (fr : Frame)
    (hx : m.attr? py!"expression" = some (.str (33 :: line))) (hctx : m.attr? py!"context" = some (.str py!"repl")) (hf : m.attr? py!"frame_id" = some (.int f))
    (hf0 : f ≠ 0) (hl : Repl.parseRepl line = some (.template x)) (hfr : s.frames.get? f = some fr) :
    (handle e s m).1 = s ∧ ∃ a, (handle e s m).2 = [a] ∧
      (∀ objs v, e.template (some fr.taskVars) x = .ok (objs, v) → EvalAnswer m a (reprOf e (s.heap ++ objs) v) (some (e.typeOf (s.heap ++ objs) v))) ∧
      (∀ t, e.template (some fr.taskVars) x = .error t → EvalAnswer m a t none) := by
  have hr := attrs_of hx hctx hf
  have hr : route m = .command f (some (.template x)) := by
    rw [hr, route_cmd hf0 rfl, List.drop_one, List.tail_cons, hl]
  have hans := eval_answer e s hm
  obtain ⟨attrs, rfl⟩ := inst_obj hm
  have hcall : callOf e s .EvaluateRequest (.obj .EvaluateRequest attrs) = .req (.evaluate f .expr) := by
    simp only [callOf, evalCall, hr]
    rw [if_neg (by omega)]; rfl
  have hreq : request s (.evaluate f .expr) = (s, [.ok]) := by simp only [request, evaluate, hfr]
  have hfv : frameVars s ((f : Int).toNat) = some fr.taskVars := by
    rw [Int.toNat_natCast]; simp only [frameVars, hfr, Option.map_some]
  have hev : evalValue e s (.obj .EvaluateRequest attrs) = safeEvaluate e s.heap (some fr.taskVars) x := by
    simp only [evalValue, hr, hfv]
  rw [hev] at hans
  simp only [handle, hcall, hreq]
  refine ⟨trivial, _, rfl, ?_, ?_⟩
  · intro objs v hv
    simp only [safeEvaluate, hv] at hans
    exact hans
  · intro t ht
    simp only [safeEvaluate, ht] at hans
    exact hans

/-- C87: the console's set commands put what the expression gives, templated with the task variables of the frame, under the name given (what
that does is said by C44). An expression that fails is an error and changes nothing. -/
theorem C87_set_command (e : Env) (s : DS) (m : Dap.Val) (hm : Instance .EvaluateRequest m) (line n x : Str) (f : Nat) (fr : Frame) (option : Bool)
    (hx : m.attr? py!"expression" = some (.str (33 :: line))) (hctx : m.attr? py!"context" = some (.str py!"repl")) (hf : m.attr? py!"frame_id" = some (.int f))
    (hf0 : f ≠ 0) (hl : Repl.parseRepl line = some (if option = true then .setOption n x else .setHostvar n x)) (hfr : s.frames.get? f = some fr) :
    (∀ objs v, e.template (some fr.taskVars) x = .ok (objs, v) →
      (handle e s m).1 = (request s (.evaluate f (if option = true then .setOption n (some (objs, v)) else .setHostvar n (some (objs, v))))).1) ∧
    (∀ t, e.template (some fr.taskVars) x = .error t → (handle e s m).1 = s ∧ ∃ a, (handle e s m).2 = [a] ∧ Instance .ErrorResponse a) := by
  have hr := attrs_of hx hctx hf
  have hr : route m = .command f (some (if option = true then .setOption n x else .setHostvar n x)) := by
    rw [hr, route_cmd hf0 rfl, List.drop_one, List.tail_cons, hl]
  obtain ⟨a, d, ha, hA⟩ := Verif.Props.Wire.C85_answered_partial e s .EvaluateRequest rfl (by simp) m hm
  obtain ⟨attrs, rfl⟩ := inst_obj hm
  have hfv : frameVars s f = some fr.taskVars := by simp only [frameVars, hfr, Option.map_some]
  have hcall : callOf e s .EvaluateRequest (.obj .EvaluateRequest attrs) = .req (.evaluate f (if option = true
      then .setOption n (e.template (some fr.taskVars) x).toOption else .setHostvar n (e.template (some fr.taskVars) x).toOption)) := by
    simp only [callOf, evalCall, hr]
    rw [if_neg (by omega), Int.toNat_natCast]
    cases option <;> simp only [commandCall, hfv, if_true] <;> rfl
  constructor
  · intro objs v hv
    rw [hv] at hcall
    simp only [handle, hcall]; rfl
  · intro t ht
    rw [ht] at hcall
    have hreq : request s (.evaluate f (if option = true then .setOption n (Except.error t : Except Str (List Obj × Val)).toOption else
        .setHostvar n (Except.error t : Except Str (List Obj × Val)).toOption)) = (s, [.error .other]) := by
      cases option <;> simp only [request, evaluate, hfr, Except.toOption] <;> rfl
    have h1 : (handle e s (.obj .EvaluateRequest attrs)).1 = s := by simp only [handle, hcall, hreq]
    refine ⟨h1, a, ha, ?_⟩
    have h2 : a = errorResponse e (.obj .EvaluateRequest attrs) .other := by
      simp only [handle, hcall, hreq] at ha
      exact (List.singleton_inj.1 ha).symm
    obtain ⟨v2, e2, -, -⟩ := Verif.Props.Wire.inst_val hA.inst
    rw [h2, errorResponse, respond, build] at e2
    injection e2 with e3 _
    rw [e3]; exact hA.inst

/-- C87: the console's remove_option command removes the option with that name (what that does is said by C82). -/
theorem C87_remove_command (e : Env) (s : DS) (m : Dap.Val) (hm : Instance .EvaluateRequest m) (line n : Str) (f : Nat)
    (hx : m.attr? py!"expression" = some (.str (33 :: line))) (hctx : m.attr? py!"context" = some (.str py!"repl")) (hf : m.attr? py!"frame_id" = some (.int f))
    (hf0 : f ≠ 0) (hl : Repl.parseRepl line = some (.remove n)) :
    (handle e s m).1 = (request s (.evaluate f (.removeOption n))).1 := by
  have hr := attrs_of hx hctx hf
  have hr : route m = .command f (some (.remove n)) := by
    rw [hr, route_cmd hf0 rfl, List.drop_one, List.tail_cons, hl]
  obtain ⟨attrs, rfl⟩ := inst_obj hm
  have hcall : callOf e s .EvaluateRequest (.obj .EvaluateRequest attrs) = .req (.evaluate f (.removeOption n)) := by
    simp only [callOf, evalCall, hr]
    rw [if_neg (by omega), Int.toNat_natCast]
    rfl
  simp only [handle, hcall]

/-- C87: a set or remove command is answered with an empty result if it succeeds, and with an error if not; a line that is no command (`parseRepl` fails: unbalanced
quotes) is an error and changes nothing; a line that asks for help, or is no valid command, is answered with the text of its usage, and changes nothing. -/
theorem C87_command_answer (e : Env) (s : DS) (m : Dap.Val) (hm : Instance .EvaluateRequest m) (line : Str) (f : Nat) (fr : Frame)
    (hx : m.attr? py!"expression" = some (.str (33 :: line))) (hctx : m.attr? py!"context" = some (.str py!"repl")) (hf : m.attr? py!"frame_id" = some (.int f))
    (hf0 : f ≠ 0) (hfr : s.frames.get? f = some fr) :
    (∀ r, Repl.parseRepl line = some r → r ≠ .text → (∀ x, r ≠ .template x) →
      ∃ a, (handle e s m).2 = [a] ∧ (EvalAnswer m a [] none ∨ Instance .ErrorResponse a)) ∧
    (Repl.parseRepl line = none → (handle e s m).1 = s ∧ ∃ a, (handle e s m).2 = [a] ∧ Instance .ErrorResponse a) ∧
    (Repl.parseRepl line = some .text → (handle e s m).1 = s ∧ ∃ a, (handle e s m).2 = [a] ∧ EvalAnswer m a (e.usage (33 :: line)) none) := by
  have hr0 := attrs_of hx hctx hf
  have hr : route m = .command f (Repl.parseRepl line) := by
    rw [hr0, route_cmd hf0 rfl, List.drop_one, List.tail_cons]
  have hexpr : (strAttr m py!"expression").getD [] = 33 :: line := by simp only [strAttr, hx]; rfl
  obtain ⟨a, d, ha, hA⟩ := Verif.Props.Wire.C85_answered_partial e s .EvaluateRequest rfl (by simp) m hm
  have hans := fun s' => eval_answer e s' hm
  obtain ⟨attrs, rfl⟩ := inst_obj hm
  have err : ∀ x, a = errorResponse e (.obj .EvaluateRequest attrs) x → Instance .ErrorResponse a := by
    intro x h2
    obtain ⟨v2, e2, -, -⟩ := Verif.Props.Wire.inst_val hA.inst
    rw [h2, errorResponse, respond, build] at e2
    injection e2 with e3 _
    rw [e3]; exact hA.inst
  refine ⟨?_, ?_, ?_⟩
  · intro r hl h1 h2
    rw [hl] at hr
    obtain ⟨ev, hcall⟩ : ∃ ev, callOf e s .EvaluateRequest (.obj .EvaluateRequest attrs) = .req (.evaluate f ev) := by
      simp only [callOf, evalCall, hr]
      rw [if_neg (by omega), Int.toNat_natCast]
      cases r with
      | text => exact absurd rfl h1
      | template x => exact absurd rfl (h2 x)
      | remove n => exact ⟨_, rfl⟩
      | setOption n x => exact ⟨_, rfl⟩
      | setHostvar n x => exact ⟨_, rfl⟩
    have hval : ∀ s', evalValue e s' (.obj .EvaluateRequest attrs) = ([], none) := by
      intro s'
      unfold evalValue
      rw [hr]
      cases r with
      | text => exact absurd rfl h1
      | template x => exact absurd rfl (h2 x)
      | remove n => rfl
      | setOption n x => rfl
      | setHostvar n x => rfl
    obtain ⟨o, ho, hcase⟩ : ∃ o, (request s (.evaluate f ev)).2 = [o] ∧ (o = .ok ∨ ∃ x, o = .error x) := by
      have setall : ∀ (n : Str) (x : Val) (is : List Nat) (s : DS), ∃ o, (setAll s n x is).2 = [o] ∧ (o = .ok ∨ ∃ x, o = .error x) := by
        intro n x is
        induction is with
        | nil => intro s; exact ⟨_, rfl, .inl rfl⟩
        | cons i is ih =>
          intro s
          simp only [setAll]
          split
          · exact ⟨_, rfl, .inr ⟨_, rfl⟩⟩
          · split
            · exact ⟨_, rfl, .inr ⟨_, rfl⟩⟩
            · exact ih _
      simp only [request, evaluate, hfr]
      (repeat' split)
      all_goals first
        | exact ⟨_, rfl, .inl rfl⟩
        | exact ⟨_, rfl, .inr ⟨_, rfl⟩⟩
        | exact setall _ _ _ _
    refine ⟨a, ha, ?_⟩
    have hall : a = render e (request s (.evaluate f ev)).1 .EvaluateRequest (.obj .EvaluateRequest attrs) (fun _ => none) o := by
      simp only [handle, hcall, ho] at ha
      exact (List.singleton_inj.1 ha).symm
    rcases hcase with rfl | ⟨x, rfl⟩
    · left
      have := hans (request s (.evaluate f ev)).1
      rw [hval] at this
      rw [hall]; exact this
    · right; exact err x hall
  · intro hl
    rw [hl] at hr
    have hcall : callOf e s .EvaluateRequest (.obj .EvaluateRequest attrs) = .raises .value := by
      simp only [callOf, evalCall, hr]
      rw [if_neg (by omega)]; rfl
    simp only [handle, hcall] at ha
    refine ⟨by simp only [handle, hcall], a, by simp only [handle, hcall]; exact ha, err _ (List.singleton_inj.1 ha).symm⟩
  · intro hl
    rw [hl] at hr
    have hcall : callOf e s .EvaluateRequest (.obj .EvaluateRequest attrs) = .req (.evaluate f .text) := by
      simp only [callOf, evalCall, hr]
      rw [if_neg (by omega)]; rfl
    have hreq : request s (.evaluate f .text) = (s, [.ok]) := by simp only [request, evaluate, hfr]
    refine ⟨by simp only [handle, hcall, hreq], evalResponse e s (.obj .EvaluateRequest attrs), by simp only [handle, hcall, hreq]; rfl, ?_⟩
    have := hans s
    have hval : evalValue e s (.obj .EvaluateRequest attrs) = (e.usage (33 :: line), none) := by
      simp only [evalValue, hr, hexpr]
    rw [hval] at this
    exact this

/-- C87: evaluation in a frame that is gone, or never was, is an error and changes nothing. -/
theorem C87_gone (e : Env) (s : DS) (m : Dap.Val) (hm : Instance .EvaluateRequest m) (ctx x : Str) (f : Nat)
    (hx : m.attr? py!"expression" = some (.str x)) (hctx : m.attr? py!"context" = some (.str ctx)) (hf : m.attr? py!"frame_id" = some (.int f))
    (hin : ctx ∈ contexts) (hf0 : f ≠ 0) (hfr : s.frames.get? f = none) :
    (handle e s m).1 = s ∧ ∃ a, (handle e s m).2 = [a] ∧ Instance .ErrorResponse a := by
  have hr := attrs_of hx hctx hf
  obtain ⟨a, d, ha, hA⟩ := Verif.Props.Wire.C85_answered_partial e s .EvaluateRequest rfl (by simp) m hm
  obtain ⟨attrs, rfl⟩ := inst_obj hm
  have key : ∃ y, callOf e s .EvaluateRequest (.obj .EvaluateRequest attrs) = .raises y ∨
      ∃ ev, callOf e s .EvaluateRequest (.obj .EvaluateRequest attrs) = .req (.evaluate f ev) := by
    by_cases hc : ctx = py!"repl" ∧ x.head? = some 33
    · have hr : route (.obj .EvaluateRequest attrs) = .command f (Repl.parseRepl (x.drop 1)) := by
        rw [hr, hc.1, route_cmd hf0 hc.2]
      simp only [callOf, evalCall, hr]
      rw [if_neg (by omega), Int.toNat_natCast]
      unfold commandCall
      split
      · exact ⟨_, .inl rfl⟩
      all_goals exact ⟨.key, .inr ⟨_, rfl⟩⟩
    · rw [route_expr hin hf0 hc] at hr
      simp only [callOf, evalCall, hr]
      rw [if_neg (by omega), Int.toNat_natCast]
      exact ⟨.key, .inr ⟨_, rfl⟩⟩
  have fin : ∀ y, handle e s (.obj .EvaluateRequest attrs) = (s, [errorResponse e (.obj .EvaluateRequest attrs) y]) →
      (handle e s (.obj .EvaluateRequest attrs)).1 = s ∧ ∃ a, (handle e s (.obj .EvaluateRequest attrs)).2 = [a] ∧ Instance .ErrorResponse a := by
    intro y hy
    refine ⟨by rw [hy], a, ha, ?_⟩
    rw [hy] at ha
    have h2 := (List.singleton_inj.1 ha).symm
    obtain ⟨v2, e2, -, -⟩ := Verif.Props.Wire.inst_val hA.inst
    rw [h2, errorResponse, respond, build] at e2
    injection e2 with e3 _
    rw [e3]; exact hA.inst
  obtain ⟨y, hc | ⟨ev, hc⟩⟩ := key
  · exact fin y (by simp only [handle, hc])
  · have hreq : request s (.evaluate f ev) = (s, [.error .key]) := by simp only [request, evaluate, hfr]
    exact fin .key (by simp only [handle, hc, hreq]; rfl)

/-- C87: without a frame, or in any other context (hovering, for one), nothing is evaluated: whatever the expression and whatever
templating would do, the session stays as it is and the answer is a fixed text. -/
theorem C87_not_evaluated (e : Env) (s : DS) (m : Dap.Val) (hm : Instance .EvaluateRequest m)
    (h : m.attr? py!"frame_id" = some .null ∨ m.attr? py!"frame_id" = some (.int 0) ∨ m.attr? py!"context" = some .null ∨
      ∃ c, m.attr? py!"context" = some (.str c) ∧ c ∉ contexts) :
    (handle e s m).1 = s ∧ ∃ a, (handle e s m).2 = [a] ∧
      EvalAnswer m a (py!"Evaluation for " ++ (match m.attr? py!"context" with | some (.str c) => c | _ => py!"None") ++ py!" is not implemented") none := by
  have hr : route m = .notImplemented := by
    unfold route Repl.evalRoute
    rcases h with h | h | h | ⟨c, h, hc⟩
    · simp only [intAttr, h]
    · simp only [intAttr, h]; rfl
    · simp only [strAttr, h]
      cases intAttr m py!"frame_id" with
      | none => rfl
      | some i => simp
    · simp only [strAttr, h]
      cases intAttr m py!"frame_id" with
      | none => rfl
      | some i =>
        simp only [contexts, List.mem_cons, List.not_mem_nil, or_false, not_or] at hc
        simp [hc.1, hc.2.1, hc.2.2.1, hc.2.2.2]
  have hans := eval_answer e s hm
  have hev : evalValue e s m = (py!"Evaluation for " ++ (match m.attr? py!"context" with | some (.str c) => c | _ => py!"None") ++ py!" is not implemented", none) := by
    simp only [evalValue, hr, strAttr]
    cases hc : m.attr? py!"context" with
    | none => rfl
    | some v => cases v <;> rfl
  rw [hev] at hans
  obtain ⟨attrs, rfl⟩ := inst_obj hm
  have hcall : callOf e s .EvaluateRequest (.obj .EvaluateRequest attrs) = .noEval := by simp only [callOf, evalCall, hr]
  simp only [handle, hcall]
  exact ⟨trivial, _, rfl, hans⟩

/-! ## C88 threads and stacks -/

/-- What a threads answer says of one thread. -/
def ThreadShows (e : Env) (k : Nat) (th : Thread) (v : Dap.Val) : Prop :=
  v.attr? py!"id" = some (.int k) ∧ v.attr? py!"name" = some (.str (match th.host with | none => py!"main" | some h => e.hostName h))

/-- C88: a threads request is answered with one entry for each thread of the session, by its number, named after its host; thread 1 is always
there and named `main`. The session stays as it is. -/
theorem C88_threads (e : Env) (s : DS) (hr : Reachable s) (m : Dap.Val) (hm : Instance .ThreadsRequest m) :
    (handle e s m).1 = s ∧ ∃ a l, (handle e s m).2 = [a] ∧ Instance .ThreadsResponse a ∧ a.attr? py!"threads" = some (.list l) ∧
      (∀ k th, s.threads.get? k = some th → ∃ v ∈ l, ThreadShows e k th v) ∧
      (∀ v ∈ l, ∃ k th, s.threads.get? k = some th ∧ ThreadShows e k th v) ∧ l.length = s.threads.length ∧
      ∃ v ∈ l, v.attr? py!"id" = some (.int 1) ∧ v.attr? py!"name" = some (.str py!"main") := by
  have hi := reach_inv hr
  obtain ⟨a, d, ha, hA⟩ := Verif.Props.Wire.C85_answered_partial e s .ThreadsRequest rfl (by simp) m hm
  obtain ⟨attrs, rfl⟩ := inst_obj hm
  have shows : ∀ k th, s.threads.get? k = some th → ThreadShows e k th (threadVal e s k) := by
    intro k th hk
    refine ⟨build_given (by decide +kernel) rfl, ?_⟩
    have : (threadVal e s k).attr? py!"name" = some (.str (match (s.threads.get? k).bind (·.host) with
      | none => py!"main"
      | some h => e.hostName h)) := build_given (by decide +kernel) rfl
    rw [this, hk]
    simp only [Option.bind_some]
  have hcall : callOf e s .ThreadsRequest (.obj .ThreadsRequest attrs) = .req .threads := rfl
  have hh : handle e s (.obj .ThreadsRequest attrs) = (s, [respond .ThreadsResponse (.obj .ThreadsRequest attrs)
      [(py!"threads", .list ((s.threads.map (·.1)).map (threadVal e s)))]]) := by
    simp only [handle, hcall, request, List.map_cons, List.map_nil, render]
  rw [hh] at ha
  have hae := (List.singleton_inj.1 ha).symm
  refine ⟨by rw [hh], a, (s.threads.map (·.1)).map (threadVal e s), by rw [hh, hae], ?_, ?_, ?_, ?_, by simp, ?_⟩
  · have := hA.inst
    obtain ⟨v2, e2, -, -⟩ := Verif.Props.Wire.inst_val this
    rw [hae, respond, build] at e2
    injection e2 with e3 _
    rw [e3]; exact this
  · rw [hae]; exact build_given (by decide +kernel) rfl
  · intro k th hk
    exact ⟨_, List.mem_map.2 ⟨k, DL.get_some_key.1 ⟨th, hk⟩, rfl⟩, shows k th hk⟩
  · intro v hv
    obtain ⟨k, hk, rfl⟩ := List.mem_map.1 hv
    obtain ⟨th, hth⟩ := DL.get_some_key.2 hk
    exact ⟨k, th, hth, shows k th hth⟩
  · obtain ⟨th, h1, h2, -⟩ := hi.core.tmain
    obtain ⟨g1, g2⟩ := shows 1 th h1
    rw [h2] at g2
    exact ⟨_, List.mem_map.2 ⟨1, DL.get_some_key.1 ⟨th, h1⟩, rfl⟩, g1, g2⟩

/-- The last component of a path: what follows its last slash. -/
def LastComponent (p n : Str) : Prop := (47 : Nat) ∉ n ∧ ∃ d, p = d ++ n ∧ (d = [] ∨ d.getLast? = some 47)

theorem notin_takeWhile : ∀ (l : Str), (47 : Nat) ∉ l.takeWhile (· != 47)
  | [] => by simp
  | x :: xs => by
    rw [List.takeWhile_cons]
    split
    · rename_i h
      intro hm
      rcases List.mem_cons.1 hm with hm | hm
      · subst hm; simp at h
      · exact notin_takeWhile xs hm
    · simp

theorem basename_last (p : Str) : LastComponent p (basename p) := by
  unfold LastComponent basename
  refine ⟨?_, (p.reverse.dropWhile (· != 47)).reverse, ?_, ?_⟩
  · intro h
    rw [List.mem_reverse] at h
    exact notin_takeWhile _ h
  · rw [← List.reverse_append, List.takeWhile_append_dropWhile, List.reverse_reverse]
  · cases h : p.reverse.dropWhile (· != 47) with
    | nil => left; rfl
    | cons x xs =>
      right
      have := List.head?_dropWhile_not (· != 47) p.reverse
      rw [h] at this
      simp at this
      simp [this]

/-- What a stack answer says of one frame: its number, the name and line of its task, and the file, by the path the client knows it by and the
last component of that. -/
def FrameShows (e : Env) (s : DS) (f : Nat) (v : Dap.Val) : Prop :=
  ∃ fr p line, s.frames.get? f = some fr ∧ fr.task.path = some (p, line) ∧ v.attr? py!"id" = some (.int f) ∧
    v.attr? py!"name" = some (.str (e.taskName fr.task.node.uuid)) ∧ v.attr? py!"line" = some (.int line) ∧
    ∃ src n, v.attr? py!"source" = some src ∧ src.attr? py!"path" = some (.str (Bp.toClient s.dbg.mappings p)) ∧
      src.attr? py!"name" = some (.str n) ∧ LastComponent (Bp.toClient s.dbg.mappings p) n

/-- C88: a stackTrace request for a thread whose tasks all have a location is answered with its frames, innermost first, and their number.
The session stays as it is. -/
theorem C88_stack (e : Env) (s : DS) (hr : Reachable s) (m : Dap.Val) (hm : Instance .StackTraceRequest m) (k : Nat) (th : Thread)
    (hk : m.attr? py!"thread_id" = some (.int k)) (ht : s.threads.get? k = some th) (hl : Located s th) :
    (handle e s m).1 = s ∧ ∃ a l, (handle e s m).2 = [a] ∧ Instance .StackTraceResponse a ∧ a.attr? py!"stack_frames" = some (.list l) ∧
      a.attr? py!"total_frames" = some (.int l.length) ∧ l.length = th.frames.length ∧
      ∀ (i f : Nat), th.frames[i]? = some f → ∃ v, l[i]? = some v ∧ FrameShows e s f v := by
  obtain ⟨a, d, ha, hA⟩ := Verif.Props.Wire.C85_answered_partial e s .StackTraceRequest rfl (by simp) m hm
  obtain ⟨attrs, rfl⟩ := inst_obj hm
  obtain ⟨l, e1, e2, e3⟩ := ((C40_stack hr k).1 th ht).2.2.2.1 hl
  simp only [step, Option.some.injEq] at e1
  have hcall : callOf e s .StackTraceRequest (.obj .StackTraceRequest attrs) = .req (.stackTrace k) := by
    simp only [callOf, keyed, intAttr, hk]
    rw [if_neg (by omega)]; rfl
  have hh : handle e s (.obj .StackTraceRequest attrs) = (s, [respond .StackTraceResponse (.obj .StackTraceRequest attrs)
      [(py!"stack_frames", .list (l.map (frameVal e s))), (py!"total_frames", .int l.length)]]) := by
    simp only [handle, hcall, e1, List.map_cons, List.map_nil, render]
  rw [hh] at ha
  have hae := (List.singleton_inj.1 ha).symm
  refine ⟨by rw [hh], a, l.map (frameVal e s), by rw [hh, hae], ?_, ?_, ?_, by simp [e2], ?_⟩
  · have := hA.inst
    obtain ⟨v2, e2, -, -⟩ := Verif.Props.Wire.inst_val this
    rw [hae, respond, build] at e2
    injection e2 with e3 _
    rw [e3]; exact this
  · rw [hae]; exact build_given (by decide +kernel) rfl
  · rw [hae, List.length_map]; exact build_given (by decide +kernel) rfl
  · intro i f hf
    obtain ⟨hlt, hf'⟩ := List.getElem?_eq_some_iff.1 hf
    obtain ⟨fr, p, ln, g1, g2, g3⟩ := e3 i hlt
    rw [hf'] at g1 g3
    refine ⟨frameVal e s (f, Bp.toClient s.dbg.mappings p, ln), by rw [List.getElem?_map, g3]; rfl, fr, p, ln, g1, g2,
      build_given (by decide +kernel) rfl, ?_, build_given (by decide +kernel) rfl, build .Source [(py!"name", .str (basename (Bp.toClient s.dbg.mappings p))), (py!"path", .str (Bp.toClient s.dbg.mappings p))],
      basename (Bp.toClient s.dbg.mappings p), build_given (by decide +kernel) rfl, build_given (by decide +kernel) rfl, build_given (by decide +kernel) rfl, basename_last _⟩
    have : (frameVal e s (f, Bp.toClient s.dbg.mappings p, ln)).attr? py!"name" = some (.str (match s.frames.get? f with
      | none => []
      | some fr => e.taskName fr.task.node.uuid)) := build_given (by decide +kernel) rfl
    rw [this, g1]

/-! ### Non-vacuity -/

open Verif.Props.Wire (env0 texts)

/-- An evaluate request. -/
def evalMsg (ctx x : Str) (f : Int) : Dap.Val := build .EvaluateRequest [(py!"seq", .int 9), (py!"expression", .str x), (py!"context", .str ctx), (py!"frame_id", .int f)]

/-- Host 7 is stopped in frame 1 (`v0`): an expression of the watch pane, and one of the console. -/
example : Instance .EvaluateRequest (evalMsg py!"watch" py!"nope" 1) ∧ (evalMsg py!"watch" py!"nope" 1).attr? py!"frame_id" = some (.int 1) ∧
    (v0.frames.get? 1).isSome = true ∧ texts (handle env0 v0 (evalMsg py!"watch" py!"nope" 1)).2 =
      [py!"{\"seq\": 0, \"type\": \"response\", \"request_seq\": 9, \"success\": true, \"command\": \"evaluate\", \"body\": {\"result\": \"AnsibleUndefinedVariable: 'nope' is undefined\", \"type\": null, \"presentationHint\": null, \"variablesReference\": 0, \"namedVariables\": null, \"indexedVariables\": null, \"memoryReference\": null}}"] ∧
    texts (handle env0 v0 (evalMsg py!"repl" py!"!t a" 1)).2 =
      [py!"{\"seq\": 0, \"type\": \"response\", \"request_seq\": 9, \"success\": true, \"command\": \"evaluate\", \"body\": {\"result\": \"a\", \"type\": \"str\", \"presentationHint\": null, \"variablesReference\": 0, \"namedVariables\": null, \"indexedVariables\": null, \"memoryReference\": null}}"] :=
  ⟨Dap.instance_of (by decide +kernel), rfl, by decide +kernel, by decide +kernel, by decide +kernel⟩

/-- The set commands and a context that is not evaluated. -/
example : Repl.parseRepl py!"so name nope" = some (.setOption py!"name" py!"nope") ∧ Repl.parseRepl py!"sh name v" = some (.setHostvar py!"name" py!"v") ∧
    Repl.parseRepl py!"t a" = some (.template py!"a") ∧ Repl.parseRepl py!"ro name" = some (.remove py!"name") ∧ Repl.parseRepl py!"'" = none ∧ Repl.parseRepl py!"x" = some .text ∧ v0.frames.get? 5 = none ∧ py!"hover" ∉ contexts ∧
    (handle env0 v0 (evalMsg py!"hover" py!"a" 1)).2.length = 1 := by decide +kernel

/-- The threads and the stack of host 7. -/
example : texts (handle env0 v0 (build .ThreadsRequest [])).2 =
      [py!"{\"seq\": 0, \"type\": \"response\", \"request_seq\": 0, \"success\": true, \"command\": \"threads\", \"body\": {\"threads\": [{\"id\": 1, \"name\": \"main\"}, {\"id\": 2, \"name\": \"web7\"}]}}"] ∧
    texts (handle env0 v0 (build .StackTraceRequest [(py!"seq", .int 9), (py!"thread_id", .int 2)])).2 =
      [py!"{\"seq\": 0, \"type\": \"response\", \"request_seq\": 9, \"success\": true, \"command\": \"stackTrace\", \"body\": {\"stackFrames\": [{\"id\": 1, \"name\": \"Task 50\", \"source\": {\"name\": \"a.yml\", \"path\": \"a.yml\", \"sourceReference\": 0, \"presentationHint\": \"normal\", \"origin\": null, \"sources\": [], \"adapterData\": null, \"checksums\": []}, \"line\": 1, \"column\": 0, \"endLine\": null, \"endColumn\": null, \"canRestart\": false, \"instructionPointerReference\": null, \"moduleId\": null, \"presentationHint\": \"normal\"}], \"totalFrames\": 1}}"] := by
  decide +kernel

example : Reachable v0 ∧ Instance .StackTraceRequest (build .StackTraceRequest [(py!"seq", .int 9), (py!"thread_id", .int 2)]) ∧ basename py!"/a/b.yml" = py!"b.yml" :=
  ⟨v0_reachable, Dap.instance_of (by decide +kernel), by decide +kernel⟩

end Verif.Props.WireEval
