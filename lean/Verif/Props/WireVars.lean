import Verif.Props.WireEval
/-!
# Variables as shown to the client (C89)

What a scopes, variables or setVariable answer says. `shown s ref` is what a variables request for `ref` is answered with in the state `s`
(the names and the values); `listing h a` is the contents of the container at `a`.
-/

namespace Verif.Props.WireVars
open Verif Verif.Wire Verif.Strat Verif.Props.Strat Verif.Props.WireEval
open Verif.Dap (Cls Instance)

/-- An entry with a reference: `ref` and the numbers of named and of indexed variables. -/
def Refers (v : Dap.Val) (ref n i : Nat) : Prop :=
  v.attr? py!"variables_reference" = some (.int ref) ∧ v.attr? py!"named_variables" = some (.int n) ∧ v.attr? py!"indexed_variables" = some (.int i)

/-- The entry has a new reference to the container at `a`, whose contents now are its listing: as many named variables as the dictionary has, or as many indexed ones as
the list has. -/
def RefersTo (s s' : DS) (v : Dap.Val) (a : Addr) : Prop :=
  ∃ ref n i, Refers v ref n i ∧ ref ≠ 0 ∧ s.vars.get? ref = none ∧ shown s' ref = some (listing s'.heap a) ∧ n + i = (listing s'.heap a).length ∧
    (∀ m es, s'.heap[a]? = some (.dict m es) → i = 0) ∧ (∀ m xs, s'.heap[a]? = some (.seq m xs) → n = 0)

/-- What a variables answer says of one entry: its name, the `repr` and the type of its value; for a container, a new reference to it. -/
def VariableShows (e : Env) (s s' : DS) (name : Str) (x : Val) (v : Dap.Val) : Prop :=
  v.attr? py!"name" = some (.str name) ∧ v.attr? py!"value" = some (.str (reprOf e s'.heap x)) ∧ v.attr? py!"type" = some (.str (e.typeOf s'.heap x)) ∧
    (∀ t, x = .atom t → Refers v 0 0 0) ∧ (∀ a, x = .ref a → RefersTo s s' v a)

theorem inst_respond {seq cmd : Option Dap.Val} {a : Dap.Val} {c d : Cls} {m : Dap.Val} {asg : Dict Str Dap.Val}
    (h : Verif.Props.Wire.IsAnswer seq cmd a d) (ha : a = respond c m asg) : Instance c a := by
  have := h.inst
  obtain ⟨v2, e2, -, -⟩ := Verif.Props.Wire.inst_val this
  rw [ha, respond, build] at e2
  injection e2 with e3 _
  rw [e3]; exact this

theorem length_listing (h : Heap) (a : Addr) : (listing h a).length = Wire.sizeOf h a := by
  unfold listing Wire.sizeOf
  cases h[a]? with
  | none => rfl
  | some o => cases o <;> simp

theorem listVars_heap (f : Nat) (es : List (Str × Val)) : ∀ s : DS, (listVars f es s).1.heap = s.heap := by
  induction es with
  | nil => intro s; rfl
  | cons e es ih =>
    intro s
    obtain ⟨n, v⟩ := e
    cases v with
    | atom r => exact ih s
    | ref a => exact (ih _).trans rfl

theorem listVars_at (f : Nat) (es : List (Str × Val)) : ∀ (s : DS), s.core → (∃ fr, s.frames.get? f = some fr) → ∀ (i : Nat) (n : Str) (x : Val), es[i]? = some (n, x) →
    ∃ k, (listVars f es s).2[i]? = some (n, x, k) ∧ (∀ t, x = .atom t → k = 0) ∧
      (∀ a, x = .ref a → s.nextV ≤ k ∧ (listVars f es s).1.vars.get? k = some { frame := f, kind := kindOf s.heap a, addr := a }) := by
  induction es with
  | nil => intro s _ _ i n x h; simp at h
  | cons e es ih =>
    intro s c ⟨fr, hf⟩ i n x h
    obtain ⟨n', v⟩ := e
    cases v with
    | atom r =>
      cases i with
      | zero =>
        simp only [List.getElem?_cons_zero, Option.some.injEq, Prod.mk.injEq] at h
        obtain ⟨rfl, rfl⟩ := h
        exact ⟨0, rfl, fun _ _ => rfl, fun a ha => by cases ha⟩
      | succ i =>
        simp only [List.getElem?_cons_succ] at h
        exact ih s c ⟨fr, hf⟩ i n x h
    | ref b =>
      have e1 := addVar_ext s hf (kindOf s.heap b) b
      have hf1 : ∃ fr, (addVar s f (kindOf s.heap b) b).1.frames.get? f = some fr := ⟨_, addVar_variables s hf _ _⟩
      cases i with
      | zero =>
        simp only [List.getElem?_cons_zero, Option.some.injEq, Prod.mk.injEq] at h
        obtain ⟨rfl, rfl⟩ := h
        refine ⟨s.nextV, rfl, fun t ht => (by cases ht), fun a ha => ?_⟩
        cases ha
        refine ⟨Nat.le_refl _, ?_⟩
        exact (listVars_ext f es _ hf1).vars (addVar_get s f (kindOf s.heap b) b) (by show s.nextV < s.nextV + 1; omega)
      | succ i =>
        simp only [List.getElem?_cons_succ] at h
        obtain ⟨k, h1, h2, h3⟩ := ih _ (e1.core c) hf1 i n x h
        refine ⟨k, h1, h2, fun a ha => ?_⟩
        obtain ⟨g1, g2⟩ := h3 a ha
        exact ⟨Nat.le_trans e1.nv g1, g2⟩

/-- Numbers of a reference to a container that was just made for it. -/
theorem counts_of {s s' : DS} {v : Dap.Val} {ref f : Nat} {a : Addr} {k : Kind}
    (hv : Refers v ref (named s' ref) (indexed s' ref)) (h0 : ref ≠ 0) (hn : s.vars.get? ref = none)
    (hg : s'.vars.get? ref = some { frame := f, kind := k, addr := a })
    (hk : (∀ m es, s'.heap[a]? = some (.dict m es) → k ≠ .list) ∧ ∀ m xs, s'.heap[a]? = some (.seq m xs) → k = .list) : RefersTo s s' v a := by
  refine ⟨ref, _, _, hv, h0, hn, by rw [shown_eq, hg]; rfl, ?_, ?_, ?_⟩
  · rw [length_listing]
    simp only [named, indexed, hg]
    split <;> simp
  · intro m es he
    simp only [indexed, hg]
    rw [if_neg (hk.1 m es he)]
  · intro m xs he
    simp only [named, hg]
    rw [if_pos (hk.2 m xs he)]

theorem kindOf_kind (h : Heap) (a : Addr) : (∀ m es, h[a]? = some (.dict m es) → kindOf h a ≠ .list) ∧ ∀ m xs, h[a]? = some (.seq m xs) → kindOf h a = .list := by
  unfold kindOf
  constructor
  · intro m es he; rw [he]; simp
  · intro m xs he; rw [he]

/-- C89: a variables request for a reference is answered with the contents of its container, entry by entry in their order: name, `repr` and
type of the value, and for a container a new reference to it with the numbers of its entries. What any reference showed before it shows
afterwards; no value, thread or breakpoint changes. -/
theorem C89_variables (e : Env) (s : DS) (hr : Reachable s) (m : Dap.Val) (hm : Instance .VariablesRequest m) (ref : Nat) (es : List (Str × Val))
    (hk : m.attr? py!"variables_reference" = some (.int ref)) (hs : shown s ref = some es) :
    ∃ s' a l, handle e s m = (s', [a]) ∧ Instance .VariablesResponse a ∧ a.attr? py!"variables" = some (.list l) ∧ l.length = es.length ∧
      (∀ (i : Nat) n x, es[i]? = some (n, x) → ∃ v, l[i]? = some v ∧ VariableShows e s s' n x v) ∧
      s'.heap = s.heap ∧ s'.threads = s.threads ∧ s'.dbg = s.dbg ∧ ∀ r l, shown s r = some l → shown s' r = some l := by
  have hi := reach_inv hr
  obtain ⟨a, d, ha, hA⟩ := Verif.Props.Wire.C85_answered_partial e s .VariablesRequest rfl (by simp) m hm
  obtain ⟨attrs, rfl⟩ := inst_obj hm
  rw [shown_eq] at hs
  cases hv : s.vars.get? ref with
  | none => rw [hv] at hs; cases hs
  | some v =>
    rw [hv] at hs
    simp only [Option.map_some, Option.some.injEq] at hs
    subst hs
    obtain ⟨fr, hf, -⟩ := hi.core.vf hv
    have hcall : callOf e s .VariablesRequest (.obj .VariablesRequest attrs) = .req (.variables ref) := by
      simp only [callOf, keyed, intAttr, hk]
      rw [if_neg (by omega)]; rfl
    let R := listVars v.frame (listing s.heap v.addr) s
    have hreq : request s (.variables ref) = (R.1, [.variables R.2]) := by simp only [request, getVariables, hv, R]
    have hh : handle e s (.obj .VariablesRequest attrs) = (R.1, [respond .VariablesResponse (.obj .VariablesRequest attrs)
        [(py!"variables", .list (R.2.map (variableVal e R.1)))]]) := by
      simp only [handle, hcall, hreq, List.map_cons, List.map_nil, render]
    have hheap : R.1.heap = s.heap := listVars_heap _ _ s
    have hext : VarExt s R.1 := listVars_ext v.frame (listing s.heap v.addr) s ⟨fr, hf⟩
    rw [hh] at ha
    have hae := (List.singleton_inj.1 ha).symm
    refine ⟨R.1, a, R.2.map (variableVal e R.1), by rw [hh, hae], inst_respond hA hae, ?_, ?_, ?_, hheap, hext.thr, hext.dbg, ?_⟩
    · rw [hae]; exact build_given (by decide +kernel) rfl
    · have := congrArg List.length (listVars_names v.frame (listing s.heap v.addr) s)
      rw [List.length_map] at this ⊢
      exact this
    · intro i n x hx
      obtain ⟨k, h1, h2, h3⟩ := listVars_at v.frame _ s hi.core ⟨fr, hf⟩ i n x hx
      have hrf : Refers (variableVal e R.1 (n, x, k)) k (named R.1 k) (indexed R.1 k) :=
        ⟨build_given (by decide +kernel) rfl, build_given (by decide +kernel) rfl, build_given (by decide +kernel) rfl⟩
      refine ⟨variableVal e R.1 (n, x, k), by rw [List.getElem?_map, h1]; rfl, build_given (by decide +kernel) rfl,
        build_given (by decide +kernel) rfl, build_given (by decide +kernel) rfl, ?_, ?_⟩
      · intro t ht
        have hk0 := h2 t ht
        subst hk0
        have h0 : R.1.vars.get? 0 = none := by
          cases h : R.1.vars.get? 0 with
          | none => rfl
          | some y => have := ((hext.core hi.core).vlt h).1; omega
        have e1 : named R.1 0 = 0 := by simp only [named, h0]
        have e2 : indexed R.1 0 = 0 := by simp only [indexed, h0]
        rw [e1, e2] at hrf
        exact hrf
      · intro b hb
        obtain ⟨g1, g2⟩ := h3 b hb
        refine counts_of hrf (by have := hi.core.nv1; omega) ?_ g2 ?_
        · cases h : s.vars.get? k with
          | none => rfl
          | some y => have := (hi.core.vlt h).2; omega
        · rw [hheap]; exact kindOf_kind _ _
    · intro r l hl
      rw [shown_eq] at hl ⊢
      cases hx : s.vars.get? r with
      | none => rw [hx] at hl; cases hl
      | some y =>
        rw [hx] at hl
        rw [hext.vars hx (hi.core.vlt hx).2, hheap]; exact hl

/-- What a scopes answer says of one scope: its name, whether it is expensive, and a reference whose contents are `c`, with their number. -/
def ScopeShows (s' : DS) (name : Str) (expensive : Bool) (c : List (Str × Val)) (v : Dap.Val) : Prop :=
  v.attr? py!"name" = some (.str name) ∧ v.attr? py!"expensive" = some (.bool expensive) ∧
    ∃ ref n i, Refers v ref n i ∧ ref ≠ 0 ∧ shown s' ref = some c ∧ n + i = c.length

theorem scope_shows {s' : DS} {name : Str} {ref : Nat} {y : Var} (h0 : ref ≠ 0) (hg : s'.vars.get? ref = some y) :
    ScopeShows s' name (name == py!"Host Variables" || name == py!"Global Variables") (listing s'.heap y.addr) (scopeVal s' (name, ref)) := by
  refine ⟨build_given (by decide +kernel) rfl, build_given (by decide +kernel) rfl, ref, named s' ref, indexed s' ref,
    ⟨build_given (by decide +kernel) rfl, build_given (by decide +kernel) rfl, build_given (by decide +kernel) rfl⟩, h0, by rw [shown_eq, hg]; rfl, ?_⟩
  rw [length_listing]
  simp only [named, indexed, hg]
  split <;> simp

/-- C89: a scopes request for a frame, if the arguments of its task can be templated (to `es`), the variables of the host are there and the
task variables have the mapping `vars`, is answered with Module Result (only if the task has a result), Module Options, Task Variables, Host Variables and
Global Variables, in this order, the last two marked expensive, each with the number of its entries: the templated arguments, the task variables of
the frame, the variables of the host completed with the task variables, the mapping `vars`. -/
theorem C89_scopes (e : Env) (s : DS) (hr : Reachable s) (m : Dap.Val) (hm : Instance .ScopesRequest m) (fid : Nat) (fr : Frame) (es : Dict Key Val)
    (host : Str) (hvs : List (Str × Val)) (g : Addr) (hk : m.attr? py!"frame_id" = some (.int fid)) (hf : s.frames.get? fid = some fr)
    (ha : e.args = some es) (hh : e.hostVars = some (host, hvs)) (hg : entry s.heap fr.taskVars py!"vars" = some (.ref g)) (hlt : g < s.heap.length) :
    ∃ s' a res mo tv hv gv, ∃ hd : Dict Key Val, handle e s m = (s', [a]) ∧ Instance .ScopesResponse a ∧ a.attr? py!"scopes" = some (.list (res ++ [mo, tv, hv, gv])) ∧
      ScopeShows s' py!"Module Options" false (shows es) mo ∧ ScopeShows s' py!"Task Variables" false (listing s.heap fr.taskVars) tv ∧
      ScopeShows s' py!"Host Variables" true (shows hd) hv ∧ ScopeShows s' py!"Global Variables" true (listing s.heap g) gv ∧
      (∀ n, hd.get? (.str n) = match lookupName n hvs with | some v => some v | none => lookupName n (listing s.heap fr.taskVars)) ∧
      (fr.resultId = 0 → res = []) ∧
      (fr.resultId ≠ 0 → ∃ r c, res = [r] ∧ ScopeShows s' py!"Module Result" false c r ∧ r.attr? py!"variables_reference" = some (.int fr.resultId)) := by
  have hi := reach_inv hr
  obtain ⟨a, d, hans, hA⟩ := Verif.Props.Wire.C85_answered_partial e s .ScopesRequest rfl (by simp) m hm
  obtain ⟨attrs, rfl⟩ := inst_obj hm
  have hcall : callOf e s .ScopesRequest (.obj .ScopesRequest attrs) = .req (.scopes fid e.args e.hostVars) := by
    simp only [callOf, keyed, intAttr, hk]
    rw [if_neg (by omega)]; rfl
  obtain ⟨s', mo, tv, h, gv, hd, g1, g2, g3, g4, g5, g6, g7, g8⟩ := (C43_scopes hr fid e.args e.hostVars).2 fr es host hvs g hf ha hh hg hlt
  simp only [step, Option.some.injEq] at g1
  have hhd : handle e s (.obj .ScopesRequest attrs) = (s', [respond .ScopesResponse (.obj .ScopesRequest attrs)
      [(py!"scopes", .list (((if fr.resultId = 0 then [] else [(py!"Module Result", fr.resultId)]) ++
          [(py!"Module Options", mo), (py!"Task Variables", tv), (py!"Host Variables", h), (py!"Global Variables", gv)]).map (scopeVal s')))]]) := by
    simp only [handle, hcall, g1, List.map_cons, List.map_nil, render]
  rw [hhd] at hans
  have hae := (List.singleton_inj.1 hans).symm
  have core : s'.core := by
    have : s' = (request s (.scopes fid e.args e.hostVars)).1 := by rw [g1]
    rw [this]
    exact (getScopes_ext s fid e.args e.hostVars).core hi.core
  have one : ∀ {name ref c}, shown s' ref = some c →
      ScopeShows s' name (name == py!"Host Variables" || name == py!"Global Variables") c (scopeVal s' (name, ref)) := by
    intro name ref c hc
    rw [shown_eq] at hc
    cases hx : s'.vars.get? ref with
    | none => rw [hx] at hc; cases hc
    | some y =>
      rw [hx] at hc
      simp only [Option.map_some, Option.some.injEq] at hc
      rw [← hc]
      exact scope_shows (by have := (core.vlt hx).1; omega) hx
  refine ⟨s', a, (if fr.resultId = 0 then [] else [(py!"Module Result", fr.resultId)]).map (scopeVal s'), scopeVal s' (py!"Module Options", mo), scopeVal s' (py!"Task Variables", tv),
    scopeVal s' (py!"Host Variables", h), scopeVal s' (py!"Global Variables", gv), hd, by rw [hhd, hae], inst_respond hA hae, ?_, one g3, one g4, one g6, one g5, g7, ?_, ?_⟩
  · rw [hae]
    have : (respond .ScopesResponse (.obj .ScopesRequest attrs) [(py!"scopes", .list (((if fr.resultId = 0 then [] else [(py!"Module Result", fr.resultId)]) ++
          [(py!"Module Options", mo), (py!"Task Variables", tv), (py!"Host Variables", h), (py!"Global Variables", gv)]).map (scopeVal s')))]).attr? py!"scopes" = _ :=
      build_given (by decide +kernel) rfl
    rw [this, List.map_append]; rfl
  · intro h0; rw [if_pos h0]; rfl
  · intro h0
    obtain ⟨x, hx, -⟩ := g8 h0
    refine ⟨scopeVal s' (py!"Module Result", fr.resultId), listing s'.heap x.addr, by rw [if_neg h0]; rfl, scope_shows h0 hx, build_given (by decide +kernel) rfl⟩

/-- C89: a setVariable request that succeeds is answered with the `repr` and the type of the new value, and a new reference to it if it is a container. What it does is said by
C44: the state is the one of that call with the templated value. A value that cannot be templated is an error and changes nothing. -/
theorem C89_set_variable (e : Env) (s : DS) (hr : Reachable s) (m : Dap.Val) (hm : Instance .SetVariableRequest m) (ref : Nat) (v : Var) (fr : Frame) (name text : Str)
    (hk : m.attr? py!"variables_reference" = some (.int ref)) (hname : m.attr? py!"name" = some (.str name)) (htext : m.attr? py!"value" = some (.str text))
    (hv : s.vars.get? ref = some v) (hf : s.frames.get? v.frame = some fr) :
    (∀ objs x, e.template (some fr.taskVars) text = .ok (objs, x) →
      (handle e s m).1 = (request s (.setVariable ref name (some (objs, x)))).1 ∧
      ∀ a, (handle e s m).2 = [a] → Instance .SetVariableResponse a →
        a.attr? py!"value" = some (.str (reprOf e (handle e s m).1.heap x)) ∧ a.attr? py!"type" = some (.str (e.typeOf (handle e s m).1.heap x)) ∧
        (∀ t, x = .atom t → Refers a 0 0 0) ∧ (∀ b, x = .ref b → RefersTo s (handle e s m).1 a b)) ∧
    (∀ t, e.template (some fr.taskVars) text = .error t → (handle e s m).1 = s ∧ ∃ a, (handle e s m).2 = [a] ∧ Instance .ErrorResponse a) := by
  have hi := reach_inv hr
  obtain ⟨a', d, hans, hA⟩ := Verif.Props.Wire.C85_answered_partial e s .SetVariableRequest rfl (by simp) m hm
  obtain ⟨attrs, rfl⟩ := inst_obj hm
  have hvv : varVars s ref = some fr.taskVars := by simp only [varVars, frameVars, hv, hf, Option.bind_some, Option.map_some]
  have hcall : callOf e s .SetVariableRequest (.obj .SetVariableRequest attrs) = .req (.setVariable ref name (e.template (some fr.taskVars) text).toOption) := by
    simp only [callOf, keyed, intAttr, hk, strAttr, hname, htext, Option.getD_some]
    rw [if_neg (by omega), Int.toNat_natCast, hvv]
  constructor
  · intro objs x ht
    rw [ht] at hcall
    have hst : (handle e s (.obj .SetVariableRequest attrs)).1 = (request s (.setVariable ref name (some (objs, x)))).1 := by
      simp only [handle, hcall]; rfl
    refine ⟨hst, ?_⟩
    intro a ha hinst
    have hout : ∃ k, (setVariable s ref name (some (objs, x))).2 = [.setVar k] := by
      have hone : ∃ o, (setVariable s ref name (some (objs, x))).2 = [o] ∧ ((∃ k, o = .setVar k) ∨ ∃ y, o = .error y) := by
        unfold setVariable
        rw [hv]
        simp only
        split
        · exact ⟨_, rfl, .inr ⟨_, rfl⟩⟩
        · split
          · exact ⟨_, rfl, .inl ⟨_, rfl⟩⟩
          · exact ⟨_, rfl, .inl ⟨_, rfl⟩⟩
      obtain ⟨o, ho, ⟨k, rfl⟩ | ⟨y, rfl⟩⟩ := hone
      · exact ⟨k, ho⟩
      · exfalso
        simp only [handle, hcall, Except.toOption, request, ho, List.map_cons, List.map_nil, render] at ha
        have hae := (List.singleton_inj.1 ha).symm
        obtain ⟨v2, e2, -, -⟩ := Verif.Props.Wire.inst_val hinst
        rw [hae, errorResponse, respond, build] at e2
        injection e2 with e3 _
        cases e3
    obtain ⟨k, hk'⟩ := hout
    obtain ⟨v', hv', h1, h2, h3, h4, h5⟩ := setVariable_ok hk'
    rw [hv] at hv'; cases hv'
    rw [hst]
    have hext := setVariable_ext hi.core ref name (some (objs, x))
    have hvv' : varVars (setVariable s ref name (some (objs, x))).1 ref = some fr.taskVars := by
      have := hext.frames v.frame
      rw [hf] at this
      cases hx : (setVariable s ref name (some (objs, x))).1.frames.get? v.frame with
      | none => rw [hx] at this; cases this
      | some fr' =>
        rw [hx] at this
        simp only [Option.map_some, Option.some.injEq, Prod.mk.injEq] at this
        simp only [varVars, frameVars, hext.vars hv (hi.core.vlt hv).2, Option.bind_some, hx, Option.map_some, this.2.1]
    have hae : a = setVarResponse e (setVariable s ref name (some (objs, x))).1 (.obj .SetVariableRequest attrs) k := by
      simp only [handle, hcall, Except.toOption, request, hk', List.map_cons, List.map_nil, render] at ha
      exact (List.singleton_inj.1 ha).symm
    have hval : setVarResponse e (setVariable s ref name (some (objs, x))).1 (.obj .SetVariableRequest attrs) k =
        respond .SetVariableResponse (.obj .SetVariableRequest attrs) [(py!"value", .str (reprOf e (setVariable s ref name (some (objs, x))).1.heap x)),
          (py!"type", .str (e.typeOf (setVariable s ref name (some (objs, x))).1.heap x)),
          (py!"variables_reference", .int k), (py!"named_variables", .int (named (setVariable s ref name (some (objs, x))).1 k)),
          (py!"indexed_variables", .int (indexed (setVariable s ref name (some (objs, x))).1 k))] := by
      simp only [setVarResponse, intAttr, hk, strAttr, htext, Option.getD_some, Int.toNat_natCast, hvv', ht]
    rw [hval] at hae
    have hrf : Refers a k (named (setVariable s ref name (some (objs, x))).1 k) (indexed (setVariable s ref name (some (objs, x))).1 k) := by
      rw [hae]
      exact ⟨build_given (by decide +kernel) rfl, build_given (by decide +kernel) rfl, build_given (by decide +kernel) rfl⟩
    refine ⟨by rw [hae]; exact build_given (by decide +kernel) rfl, by rw [hae]; exact build_given (by decide +kernel) rfl, ?_, ?_⟩
    · intro t hx
      have hk0 := h5 t hx
      subst hk0
      have h0 : (setVariable s ref name (some (objs, x))).1.vars.get? 0 = none := by
        cases h : (setVariable s ref name (some (objs, x))).1.vars.get? 0 with
        | none => rfl
        | some y => have := ((hext.core hi.core).vlt h).1; omega
      have e1 : named (setVariable s ref name (some (objs, x))).1 0 = 0 := by simp only [named, h0]
      have e2 : indexed (setVariable s ref name (some (objs, x))).1 0 = 0 := by simp only [indexed, h0]
      rw [e1, e2] at hrf
      exact hrf
    · intro b hb
      obtain ⟨g1, g2⟩ := h4 b hb
      refine counts_of (s := s) hrf (by have := hi.core.nv1; omega) ?_ g2 ?_
      · cases h : s.vars.get? k with
        | none => rfl
        | some y => have := (hi.core.vlt h).2; omega
      · rw [← h2]; exact kindOf_kind _ _
  · intro t ht
    rw [ht] at hcall
    have hreq : request s (.setVariable ref name none) = (s, [.error .other]) := by simp only [request, setVariable, hv]
    have hh : handle e s (.obj .SetVariableRequest attrs) = (s, [errorResponse e (.obj .SetVariableRequest attrs) .other]) := by
      simp only [handle, hcall, Except.toOption, hreq, List.map_cons, List.map_nil, render]
    rw [hh] at hans
    exact ⟨by rw [hh], a', by rw [hh]; exact hans, inst_respond hA (List.singleton_inj.1 hans).symm⟩

/-- C89: a scopes request for a frame, or a variables or setVariable request for a reference, that does not exist is an error and changes nothing. -/
theorem C89_gone (e : Env) (s : DS) (c : Cls) (m : Dap.Val) (hm : Instance c m) (k : Nat)
    (h : (c = .ScopesRequest ∧ m.attr? py!"frame_id" = some (.int k) ∧ s.frames.get? k = none) ∨
      ((c = .VariablesRequest ∨ c = .SetVariableRequest) ∧ m.attr? py!"variables_reference" = some (.int k) ∧ s.vars.get? k = none)) :
    (handle e s m).1 = s ∧ ∃ a, (handle e s m).2 = [a] ∧ Instance .ErrorResponse a := by
  have hc : c.base = some .Request ∧ c ≠ .DisconnectRequest := by
    rcases h with ⟨rfl, _⟩ | ⟨rfl | rfl, _⟩ <;> exact ⟨rfl, by simp⟩
  obtain ⟨a, d, hans, hA⟩ := Verif.Props.Wire.C85_answered_partial e s c hc.1 hc.2 m hm
  obtain ⟨attrs, rfl⟩ := inst_obj hm
  have hh : ∃ y, handle e s (.obj c attrs) = (s, [errorResponse e (.obj c attrs) y]) := by
    rcases h with ⟨rfl, hk, hn⟩ | ⟨rfl | rfl, hk, hn⟩
    · have hcall : callOf e s .ScopesRequest (.obj .ScopesRequest attrs) = .req (.scopes k e.args e.hostVars) := by
        simp only [callOf, keyed, intAttr, hk]
        rw [if_neg (by omega)]; rfl
      have : request s (.scopes k e.args e.hostVars) = (s, [.error .key]) := by simp only [request, getScopes, hn]
      exact ⟨.key, by simp only [handle, hcall, this, List.map_cons, List.map_nil, render]⟩
    · have hcall : callOf e s .VariablesRequest (.obj .VariablesRequest attrs) = .req (.variables k) := by
        simp only [callOf, keyed, intAttr, hk]
        rw [if_neg (by omega)]; rfl
      have : request s (.variables k) = (s, [.error .key]) := by simp only [request, getVariables, hn]
      exact ⟨.key, by simp only [handle, hcall, this, List.map_cons, List.map_nil, render]⟩
    · have hcall : ∃ n t, callOf e s .SetVariableRequest (.obj .SetVariableRequest attrs) = .req (.setVariable k n t) := by
        simp only [callOf, keyed, intAttr, hk]
        rw [if_neg (by omega)]; exact ⟨_, _, rfl⟩
      obtain ⟨n, t, hcall⟩ := hcall
      have : request s (.setVariable k n t) = (s, [.error .key]) := by simp only [request, setVariable, hn]
      exact ⟨.key, by simp only [handle, hcall, this, List.map_cons, List.map_nil, render]⟩
  obtain ⟨y, hh⟩ := hh
  rw [hh] at hans
  exact ⟨by rw [hh], a, by rw [hh]; exact hans, inst_respond hA (List.singleton_inj.1 hans).symm⟩

/-! ### Non-vacuity -/

open Verif.Props.Wire (env0 texts)

/-- An environment in which the scopes of host 7 can be had, and a templated list (new in the heap of six objects after the scopes). -/
def env1 : Env := { env0 with
  args := some [(.str py!"name", .atom py!"'x'")]
  hostVars := some (py!"web7", [(py!"y", .atom py!"3")])
  template := fun _ x => if x = py!"[1]" then .ok ([.seq true [.atom py!"1"]], .ref 6) else .ok ([], .atom x) }

def scopesMsg : Dap.Val := build .ScopesRequest [(py!"seq", .int 9), (py!"frame_id", .int 1)]
def varsMsg (r : Int) : Dap.Val := build .VariablesRequest [(py!"seq", .int 9), (py!"variables_reference", .int r)]
def setMsg (r : Int) (n x : Str) : Dap.Val := build .SetVariableRequest [(py!"seq", .int 9), (py!"variables_reference", .int r), (py!"name", .str n), (py!"value", .str x)]

example : Reachable v0 ∧ Instance .ScopesRequest scopesMsg ∧ Instance .VariablesRequest (varsMsg 4) ∧ Instance .SetVariableRequest (setMsg 2 py!"x" py!"[1]") ∧
    scopesMsg.attr? py!"frame_id" = some (.int 1) ∧ (v0.frames.get? 1).map (·.taskVars) = some 0 ∧ entry v0.heap 0 py!"vars" = some (.ref 1) ∧ 1 < v0.heap.length :=
  ⟨v0_reachable, Dap.instance_of (by decide +kernel), Dap.instance_of (by decide +kernel), Dap.instance_of (by decide +kernel), rfl, by decide +kernel, by decide +kernel, by decide +kernel⟩

/-- After the scopes request: the task variables, one of them a container. -/
example : texts (handle env1 (handle env1 v0 scopesMsg).1 (varsMsg 2)).2 =
    [py!"{\"seq\": 0, \"type\": \"response\", \"request_seq\": 9, \"success\": true, \"command\": \"variables\", \"body\": {\"variables\": [{\"name\": \"vars\", \"value\": \"[...]\", \"type\": \"str\", \"presentationHint\": null, \"evaluateName\": null, \"variablesReference\": 5, \"namedVariables\": 1, \"indexedVariables\": 0, \"memoryReference\": null}, {\"name\": \"x\", \"value\": \"1\", \"type\": \"str\", \"presentationHint\": null, \"evaluateName\": null, \"variablesReference\": 0, \"namedVariables\": 0, \"indexedVariables\": 0, \"memoryReference\": null}, {\"name\": \"5\", \"value\": \"2\", \"type\": \"str\", \"presentationHint\": null, \"evaluateName\": null, \"variablesReference\": 0, \"namedVariables\": 0, \"indexedVariables\": 0, \"memoryReference\": null}]}}"] := by
  decide +kernel

/-- A list for `x`. -/
example : texts (handle env1 (handle env1 v0 scopesMsg).1 (setMsg 2 py!"x" py!"[1]")).2 =
    [py!"{\"seq\": 0, \"type\": \"response\", \"request_seq\": 9, \"success\": true, \"command\": \"setVariable\", \"body\": {\"value\": \"[...]\", \"type\": \"str\", \"variablesReference\": 5, \"namedVariables\": 0, \"indexedVariables\": 1}}"] ∧ (v0.vars.get? 2).isNone = true := by
  decide +kernel

end Verif.Props.WireVars
