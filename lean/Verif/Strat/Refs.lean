import Verif.Strat.Mono
/-!
# References handed to the client
-/

namespace Verif.Strat
open Verif

/-- The nonzero references among the children of a listing. -/
def childRefs (vs : List (Str × Val × Nat)) : List Nat := (vs.map fun e => e.2.2).filter fun r => decide (r ≠ 0)

/-- The references in a message that were made for it: all but that of Module Result, which was made when the task ended. -/
def given : Out → List Nat
  | .variables vs => childRefs vs
  | .setVar r => if r = 0 then [] else [r]
  | .scopes ss => (ss.filter fun e => decide (e.1 ≠ py!"Module Result")).map (·.2)
  | _ => []

/-- The reference of Module Result in a message. -/
def resultRefs : Out → List Nat
  | .scopes ss => (ss.filter fun e => decide (e.1 = py!"Module Result")).map (·.2)
  | _ => []

/-- All references in a message. -/
def refsOf (o : Out) : List Nat := given o ++ resultRefs o

theorem given_nil {o : List Out} (h : o.flatMap refsOf = []) : o.flatMap given = [] := by
  rw [List.flatMap_eq_nil_iff] at h ⊢
  exact fun x hx => (List.append_eq_nil_iff.1 (h x hx)).1

theorem result_nil {o : List Out} (h : o.flatMap refsOf = []) : o.flatMap resultRefs = [] := by
  rw [List.flatMap_eq_nil_iff] at h ⊢
  exact fun x hx => (List.append_eq_nil_iff.1 (h x hx)).2

/-- References a message brings: from `a` on, increasing, below `b`, and there in `V`. -/
def Fresh (V : Dict Nat Var) (a b : Nat) (l : List Nat) : Prop :=
  l.Pairwise (· < ·) ∧ ∀ v ∈ l, a ≤ v ∧ v < b ∧ ∃ x, V.get? v = some x

theorem Fresh.nil (V : Dict Nat Var) (a b : Nat) : Fresh V a b [] := ⟨List.Pairwise.nil, fun _ h => by cases h⟩

theorem listVars_fresh (f : Nat) (es : List (Str × Val)) : ∀ (s : DS), s.core → (∃ fr, s.frames.get? f = some fr) →
    Fresh (listVars f es s).1.vars s.nextV (listVars f es s).1.nextV (childRefs (listVars f es s).2) := by
  induction es with
  | nil => intro s _ _; exact Fresh.nil _ _ _
  | cons e es ih =>
    intro s c ⟨fr, hf⟩
    obtain ⟨n, v⟩ := e
    cases v with
    | atom r => simpa [listVars, childRefs] using ih s c ⟨fr, hf⟩
    | ref a =>
      have e1 := addVar_ext s hf (kindOf s.heap a) a
      have c1 := e1.core c
      have hf1 : ∃ fr, (addVar s f (kindOf s.heap a) a).1.frames.get? f = some fr := ⟨_, addVar_variables s hf _ _⟩
      obtain ⟨p, q⟩ := ih _ c1 hf1
      have e2 := listVars_ext f es _ hf1
      have hnv : (addVar s f (kindOf s.heap a) a).1.nextV = s.nextV + 1 := rfl
      have hpos : s.nextV ≠ 0 := by have := c.nv1; omega
      have hch : childRefs (listVars f ((n, .ref a) :: es) s).2 = s.nextV :: childRefs (listVars f es (addVar s f (kindOf s.heap a) a).1).2 := by
        show List.filter _ (s.nextV :: _) = _
        rw [List.filter_cons_of_pos (by simpa using hpos)]
        rfl
      rw [hch]
      show Fresh (listVars f es (addVar s f (kindOf s.heap a) a).1).1.vars s.nextV (listVars f es (addVar s f (kindOf s.heap a) a).1).1.nextV _
      refine ⟨List.pairwise_cons.2 ⟨fun v hv => ?_, p⟩, fun v hv => ?_⟩
      · have := (q v hv).1; omega
      · rcases List.mem_cons.1 hv with rfl | hv
        · have hg := addVar_get s f (kindOf s.heap a) a
          have := e2.nv
          exact ⟨Nat.le_refl _, by omega, _, e2.vars hg (by omega)⟩
        · obtain ⟨q1, q2, q3⟩ := q v hv
          exact ⟨by omega, q2, q3⟩

theorem addVar_fresh {s0 s : DS} (c : s.core) (h : s0.nextV ≤ s.nextV) (f : Nat) (k : Kind) (a : Addr) :
    Fresh (addVar s f k a).1.vars s0.nextV (addVar s f k a).1.nextV [s.nextV] := by
  refine ⟨by simp, fun v hv => ?_⟩
  rw [List.mem_singleton.1 hv]
  exact ⟨h, Nat.lt_succ_self _, _, addVar_get s f k a⟩

theorem updFrame_vars (s : DS) (f : Nat) (g : Frame → Frame) : (updFrame s f g).vars = s.vars ∧ (updFrame s f g).nextV = s.nextV ∧
    (updFrame s f g).heap = s.heap ∧ (updFrame s f g).threads = s.threads ∧ (updFrame s f g).hostStore = s.hostStore := by
  unfold updFrame; split <;> exact ⟨rfl, rfl, rfl, rfl, rfl⟩

/-- What a scopes request that succeeds does. -/
theorem scopes_ok {s : DS} {fid : Nat} {args : Option (Dict Key Val)} {hv : Option (Str × List (Str × Val))} {ss : List (Str × Nat)}
    (h : (getScopes s fid args hv).2 = [.scopes ss]) :
    ∃ fr es host hvs g, s.frames.get? fid = some fr ∧ args = some es ∧ hv = some (host, hvs) ∧
      (getScopes s fid args hv).1.heap = s.heap ++ [.dict true es] ++ [.dict true (amalgamate hvs (listing (s.heap ++ [.dict true es]) fr.taskVars))] ∧
      entry (getScopes s fid args hv).1.heap fr.taskVars py!"vars" = some (.ref g) ∧
      ss = (if fr.resultId = 0 then [] else [(py!"Module Result", fr.resultId)]) ++
        [(py!"Module Options", s.nextV), (py!"Task Variables", s.nextV + 1), (py!"Host Variables", s.nextV + 2), (py!"Global Variables", s.nextV + 3)] ∧
      (getScopes s fid args hv).1.nextV = s.nextV + 4 ∧
      (∀ v, (getScopes s fid args hv).1.vars.get? v =
        if v = s.nextV then some { frame := fid, kind := .rawStore fr.args, addr := s.heap.length }
        else if v = s.nextV + 1 then some { frame := fid, kind := kindOf (s.heap ++ [.dict true es]) fr.taskVars, addr := fr.taskVars }
        else if v = s.nextV + 2 then some { frame := fid, kind := .hostVars host, addr := s.heap.length + 1 }
        else if v = s.nextV + 3 then some { frame := fid, kind := kindOf (getScopes s fid args hv).1.heap g, addr := g }
        else s.vars.get? v) ∧
      (getScopes s fid args hv).1.hostStore = s.hostStore := by
  unfold getScopes at h ⊢
  cases hf : s.frames.get? fid with
  | none => rw [hf] at h; cases h
  | some fr =>
    cases args with
    | none => rw [hf] at h; cases h
    | some es =>
      cases hv with
      | none => rw [hf] at h; cases h
      | some p =>
        obtain ⟨host, hvs⟩ := p
        simp only [hf] at h ⊢
        generalize e1 : updFrame (addVar { s with heap := s.heap ++ [.dict true es] } fid (.rawStore fr.args) s.heap.length).1 fid _ = s1 at h ⊢
        have a1 := updFrame_vars (addVar { s with heap := s.heap ++ [.dict true es] } fid (.rawStore fr.args) s.heap.length).1 fid
          (fun f => { f with optionsId := (addVar { s with heap := s.heap ++ [.dict true es] } fid (.rawStore fr.args) s.heap.length).2 })
        rw [e1] at a1
        generalize e2 : updFrame (addVar s1 fid (kindOf s1.heap fr.taskVars) fr.taskVars).1 fid _ = s2 at h ⊢
        have a2 := updFrame_vars (addVar s1 fid (kindOf s1.heap fr.taskVars) fr.taskVars).1 fid
          (fun f => { f with taskvarId := (addVar s1 fid (kindOf s1.heap fr.taskVars) fr.taskVars).2 })
        rw [e2] at a2
        generalize e3 : updFrame (addVar { s2 with heap := s2.heap ++ [.dict true (amalgamate hvs (listing s2.heap fr.taskVars))] } fid (.hostVars host) s2.heap.length).1 fid _ = s3 at h ⊢
        have a3 := updFrame_vars (addVar { s2 with heap := s2.heap ++ [.dict true (amalgamate hvs (listing s2.heap fr.taskVars))] } fid (.hostVars host) s2.heap.length).1 fid
          (fun f => { f with hostvarsId := (addVar { s2 with heap := s2.heap ++ [.dict true (amalgamate hvs (listing s2.heap fr.taskVars))] } fid (.hostVars host) s2.heap.length).2 })
        rw [e3] at a3
        obtain ⟨v1, n1, h1, -, o1⟩ := a1
        obtain ⟨v2, n2, h2, -, o2⟩ := a2
        obtain ⟨v3, n3, h3, -, o3⟩ := a3
        have n1' : s1.nextV = s.nextV + 1 := n1
        have n2' : s2.nextV = s.nextV + 2 := by rw [n2]; show s1.nextV + 1 = _; rw [n1']
        have n3' : s3.nextV = s.nextV + 3 := by rw [n3]; show s2.nextV + 1 = _; rw [n2']
        have h1' : s1.heap = s.heap ++ [.dict true es] := h1
        have h2' : s2.heap = s.heap ++ [.dict true es] := by rw [h2]; exact h1'
        have h3' : s3.heap = s.heap ++ [.dict true es] ++ [.dict true (amalgamate hvs (listing (s.heap ++ [.dict true es]) fr.taskVars))] := by
          rw [h3]; show s2.heap ++ _ = _; rw [h2']
        split at h
        · rename_i g hg
          refine ⟨fr, es, host, hvs, g, rfl, rfl, rfl, ?_, hg, ?_, ?_, ?_, ?_⟩
          · exact h3'
          · have := h
            simp only [List.cons.injEq, Out.scopes.injEq, and_true] at this
            rw [← this]
            show _ ++ [(_, s.nextV), (_, s1.nextV), (_, s2.nextV), (_, s3.nextV)] = _
            rw [n1', n2', n3']
          · show s3.nextV + 1 = _; omega
          · intro v
            show (s3.vars.set s3.nextV _).get? v = _
            rw [DL.get_set, v3]
            show (if s3.nextV = v then _ else (s2.vars.set s2.nextV _).get? v) = _
            rw [DL.get_set, v2]
            show (if s3.nextV = v then _ else if s2.nextV = v then _ else (s1.vars.set s1.nextV _).get? v) = _
            rw [DL.get_set, v1]
            show (if s3.nextV = v then _ else if s2.nextV = v then _ else if s1.nextV = v then _ else (s.vars.set s.nextV _).get? v) = _
            rw [DL.get_set, n1', n2', n3']
            rw [h2', h1']
            by_cases g0 : v = s.nextV
            · simp [g0]
            · by_cases g1 : v = s.nextV + 1
              · simp [g1]
              · by_cases g2 : v = s.nextV + 2
                · subst g2; simp
                · by_cases g3 : v = s.nextV + 3
                  · simp [g3]; rfl
                  · rw [if_neg (Ne.symm g3), if_neg (Ne.symm g2), if_neg (Ne.symm g1), if_neg (Ne.symm g0), if_neg g0, if_neg g1, if_neg g2, if_neg g3]
          · show s3.hostStore = _
            rw [o3]
            show s2.hostStore = _
            rw [o2]
            show s1.hostStore = _
            rw [o1]; rfl
        · cases h

/-! ## Steps -/

theorem norefs_exits (s : DS) : (exitThreads s).2.flatMap refsOf = [] := by
  simp only [exitThreads, List.flatMap_map]
  exact List.flatMap_eq_nil_iff.2 fun _ _ => rfl

theorem norefs_crash (s : DS) (o : List Out) (e : PyErr) (h : o.flatMap refsOf = []) : (crash s o e).2.flatMap refsOf = [] := by
  simp only [crash, finish, List.flatMap_append, h, norefs_exits, List.append_nil]

theorem norefs_decide (s : DS) (th : Thread) (t : Task) (c : Nat → Bool) : (decideStop s th t c).2.flatMap refsOf = [] := by
  unfold decideStop
  split
  · rfl
  · split <;> rfl

theorem norefs_host (s : DS) (h : Nat) : (hostThread s h).2.2.flatMap refsOf = [] := by
  unfold hostThread; split <;> rfl

theorem norefs_start (s : DS) (h : Nat) (t : Task) (tv a : Addr) (c : Nat → Bool) : (startTask s h t tv a c).2.flatMap refsOf = [] := by
  rw [startTask_eq]
  split
  · exact norefs_crash _ _ _ (norefs_host s h)
  · simp only [List.flatMap_append, norefs_decide, norefs_host, List.append_nil]

theorem norefs_endAfter (s : DS) (tid : Nat) (i : Bool) : (endAfter s tid i).2.flatMap refsOf = [] := by
  unfold endAfter
  split
  · exact norefs_crash _ _ _ rfl
  · split
    · exact norefs_exits s
    · split
      · rfl
      · split
        · exact norefs_crash _ _ _ rfl
        · rfl

theorem norefs_end (s : DS) (h : Nat) (t : Task) (r : Result) (res : Addr) : (endTask s h t r res).2.flatMap refsOf = [] := by
  unfold endTask
  split
  · exact norefs_crash _ _ _ rfl
  · split
    · exact norefs_endAfter _ _ _
    · split
      · exact norefs_crash _ _ _ rfl
      · simp only
        split
        · exact norefs_crash _ _ _ rfl
        · rfl

theorem norefs_bp (s : DS) (a : Bp.Act) : (bpStep s a).2.flatMap refsOf = [] := by
  simp only [bpStep, List.flatMap_map]
  exact List.flatMap_eq_nil_iff.2 fun _ _ => rfl

theorem norefs_resume (s : DS) (ts : List Nat) (st : TState) (o : Out) (h : refsOf o = []) : (resumeReq s ts st o).2.flatMap refsOf = [] := by
  simp only [resumeReq, List.flatMap_cons, List.flatMap_nil, List.append_nil]
  split
  · exact h
  · rfl

theorem norefs_setAll (n : Str) (x : Val) (is : List Nat) : ∀ s : DS, (setAll s n x is).2.flatMap refsOf = [] := by
  induction is with
  | nil => intro s; rfl
  | cons i is ih =>
    intro s
    unfold setAll
    split
    · rfl
    · simp only
      split
      · rfl
      · exact ih _

theorem norefs_eval (s : DS) (f : Nat) (e : Eval) : (evaluate s f e).2.flatMap refsOf = [] := by
  unfold evaluate
  split
  · rfl
  · split
    · rfl
    · rfl
    · split
      · rfl
      · split <;> rfl
    · split
      · rfl
      · exact norefs_setAll _ _ _ _
    · split
      · rfl
      · exact norefs_setAll _ _ _ _

theorem norefs_stack (s : DS) (t : Nat) : refsOf (stackTrace s t) = [] := by
  unfold stackTrace
  split
  · rfl
  · split <;> rfl

/-- Steps of the playbook hand out no references. -/
theorem step_norefs {s s' : DS} {l : Label} {o : List Out} (h : step s l = some (s', o)) (hr : ∀ r, l ≠ .req r) : o.flatMap refsOf = [] := by
  cases l with
  | req r => exact absurd rfl (hr r)
  | start host t tv a c =>
    simp only [step] at h
    split at h
    · rw [snd_eq h]; exact norefs_start _ _ _ _ _ _
    · cases h
  | done host t r res =>
    simp only [step] at h
    split at h
    · rw [snd_eq h]; exact norefs_end _ _ _ _ _
    · cases h
  | refresh =>
    simp only [step] at h
    split at h
    · rw [snd_eq h]; exact norefs_exits _
    · cases h
  | newPlay =>
    simp only [step] at h
    split at h
    · rw [snd_eq h]; exact norefs_exits _
    · cases h
  | reg p l ty =>
    simp only [step] at h
    split at h
    · rw [snd_eq h]
      rcases registerLine_cases s p l ty with hr | ⟨e, -, hr⟩ <;> rw [hr]
      · exact norefs_bp _ _
      · exact norefs_crash _ _ _ (norefs_bp _ _)
    · cases h
  | env hp => cases h; rfl
  | wake =>
    simp only [step] at h
    split at h
    · split at h
      · rw [snd_eq h]; exact norefs_crash _ _ _ rfl
      · split at h
        · cases h
        · split at h
          · rw [snd_eq h]; exact norefs_exits _
          · rw [snd_eq h]; rfl
    · split at h
      · rw [snd_eq h]; exact norefs_crash _ _ _ rfl
      · split at h
        · cases h
        · rw [snd_eq h]; exact norefs_endAfter _ _ _
    · cases h

/-- Requests other than for scopes, variables and setting a variable hand out no references. -/
theorem request_norefs (s : DS) (r : Req) (h1 : ∀ f a hv, r ≠ .scopes f a hv) (h2 : ∀ v, r ≠ .variables v)
    (h3 : ∀ v n t, r ≠ .setVariable v n t) : (request s r).2.flatMap refsOf = [] := by
  cases r with
  | cont t single => cases single <;> exact norefs_resume _ _ _ _ rfl
  | stepIn t => exact norefs_resume _ _ _ _ rfl
  | stepOut t => exact norefs_resume _ _ _ _ rfl
  | next t => exact norefs_resume _ _ _ _ rfl
  | stackTrace t => simp [request, norefs_stack]
  | threads => rfl
  | disconnect t => rfl
  | terminate => rfl
  | closed => rfl
  | setBps a b c d => exact norefs_bp _ _
  | setExc a b => exact norefs_bp _ _
  | config a => exact norefs_bp _ _
  | evaluate f e => exact norefs_eval _ _ _
  | scopes f a hv => exact absurd rfl (h1 f a hv)
  | variables v => exact absurd rfl (h2 v)
  | setVariable v n t => exact absurd rfl (h3 v n t)

/-- References of an answer to a variables or setVariable request are never of a Module Result. -/
theorem request_result (s : DS) (r : Req) (h1 : ∀ f a hv, r ≠ .scopes f a hv) : (request s r).2.flatMap resultRefs = [] := by
  by_cases h2 : ∀ v, r ≠ .variables v
  · by_cases h3 : ∀ v n t, r ≠ .setVariable v n t
    · exact result_nil (request_norefs s r h1 h2 h3)
    · simp only [Classical.not_forall, Classical.not_not] at h3
      obtain ⟨v, n, t, rfl⟩ := h3
      simp only [request, setVariable]
      split
      · rfl
      · split
        · rfl
        · split
          · rfl
          · split <;> rfl
  · simp only [Classical.not_forall, Classical.not_not] at h2
    obtain ⟨v, rfl⟩ := h2
    simp only [request, getVariables]
    split <;> rfl

theorem getScopes_out (s : DS) (f : Nat) (a : Option (Dict Key Val)) (hv : Option (Str × List (Str × Val))) :
    (∃ e, (getScopes s f a hv).2 = [.error e]) ∨ ∃ ss, (getScopes s f a hv).2 = [.scopes ss] := by
  unfold getScopes
  split
  · exact .inl ⟨_, rfl⟩
  · split
    · exact .inl ⟨_, rfl⟩
    · simp only
      split
      · exact .inl ⟨_, rfl⟩
      · split
        · exact .inr ⟨_, rfl⟩
        · exact .inl ⟨_, rfl⟩

theorem scopes_fresh (s : DS) (f : Nat) (a : Option (Dict Key Val)) (hv : Option (Str × List (Str × Val))) :
    Fresh (getScopes s f a hv).1.vars s.nextV (getScopes s f a hv).1.nextV ((getScopes s f a hv).2.flatMap given) := by
  rcases getScopes_out s f a hv with ⟨e, h⟩ | ⟨ss, h⟩
  · rw [h]; exact Fresh.nil _ _ _
  · obtain ⟨fr, es, host, hvs, g, -, -, -, -, -, h1, h2, h3, -⟩ := scopes_ok h
    have hl : (getScopes s f a hv).2.flatMap given = [s.nextV, s.nextV + 1, s.nextV + 2, s.nextV + 3] := by
      rw [h, h1]
      simp only [List.flatMap_cons, List.flatMap_nil, List.append_nil, given]
      split <;> rfl
    rw [hl]
    refine ⟨by simp, fun v hv => ?_⟩
    rw [h2, h3 v]
    simp only [List.mem_cons, List.not_mem_nil, or_false] at hv
    rcases hv with rfl | rfl | rfl | rfl <;> refine ⟨by omega, by omega, ?_⟩ <;> simp

/-- Every reference a step hands out is new, and there afterwards. -/
theorem step_fresh {s s' : DS} {l : Label} {o : List Out} (hi : Inv s) (h : step s l = some (s', o)) :
    Fresh s'.vars s.nextV s'.nextV (o.flatMap given) := by
  have nilc : ∀ {o : List Out} {V : Dict Nat Var} {a b : Nat}, o.flatMap refsOf = [] → Fresh V a b (o.flatMap given) := by
    intro o V a b e; rw [given_nil e]; exact Fresh.nil _ _ _
  by_cases hq : ∀ r, l ≠ .req r
  · exact nilc (step_norefs h hq)
  · simp only [Classical.not_forall, Classical.not_not] at hq
    obtain ⟨r, rfl⟩ := hq
    rw [snd_eq h, fst_eq h]
    cases r with
    | scopes f a hv => exact scopes_fresh _ _ _ _
    | variables r =>
      simp only [request, getVariables]
      cases hr : s.vars.get? r with
      | none => exact Fresh.nil _ _ _
      | some v =>
        obtain ⟨fr, hf, -⟩ := hi.core.vf hr
        simpa [given] using listVars_fresh v.frame (listing s.heap v.addr) s hi.core ⟨fr, hf⟩
    | setVariable r n t =>
      simp only [request, setVariable]
      cases hr : s.vars.get? r with
      | none => exact Fresh.nil _ _ _
      | some v =>
        cases t with
        | none => exact Fresh.nil _ _ _
        | some p =>
          obtain ⟨objs, x⟩ := p
          simp only
          split
          · exact Fresh.nil _ _ _
          · cases x with
            | atom _ => exact Fresh.nil _ _ _
            | ref a =>
              have e := VarExt.heap s (setVal (s.heap ++ objs) s.hostStore v n (.ref a)).1 (setVal (s.heap ++ objs) s.hostStore v n (.ref a)).2.1
              have hn := hi.core.nv1
              have := addVar_fresh (s0 := s) (e.core hi.core) (Nat.le_refl _) v.frame (kindOf (setVal (s.heap ++ objs) s.hostStore v n (.ref a)).1 a) a
              simp only [List.flatMap_cons, List.flatMap_nil, List.append_nil, given]
              rw [if_neg (by show s.nextV ≠ 0; omega)]
              exact this
    | _ => exact nilc (request_norefs s _ (by simp) (by simp) (by simp))

/-! ## The reference of Module Result -/

/-- The result reference of a frame. -/
def resId (s : DS) (f : Nat) : Option Nat := (s.frames.get? f).map (·.resultId)

theorem addVar_res (s : DS) (f : Nat) (k : Kind) (a : Addr) (f' : Nat) : resId (addVar s f k a).1 f' = resId s f' := by
  simp only [resId, addVar]
  split
  · rfl
  · rename_i fr h
    rw [DL.get_set]
    split
    · rename_i e; subst e; rw [h]; rfl
    · rfl

theorem updFrame_res (s : DS) (f : Nat) (g : Frame → Frame) (hg : ∀ r, (g r).resultId = r.resultId) (f' : Nat) :
    resId (updFrame s f g) f' = resId s f' := by
  simp only [resId, updFrame]
  split
  · rfl
  · rename_i fr h
    rw [DL.get_set]
    split
    · rename_i e; subst e; rw [h]; simp [hg]
    · rfl

theorem listVars_res (f : Nat) (es : List (Str × Val)) : ∀ (s : DS) (f' : Nat), resId (listVars f es s).1 f' = resId s f' := by
  induction es with
  | nil => intro s f'; rfl
  | cons e es ih =>
    intro s f'
    obtain ⟨n, v⟩ := e
    cases v with
    | atom r => exact ih s f'
    | ref a => exact (ih _ f').trans (addVar_res _ _ _ _ _)

theorem setAll_res (n : Str) (x : Val) (is : List Nat) : ∀ (s : DS) (f' : Nat), resId (setAll s n x is).1 f' = resId s f' := by
  induction is with
  | nil => intro s f'; rfl
  | cons i is ih =>
    intro s f'
    unfold setAll
    split
    · rfl
    · simp only
      split
      · rfl
      · exact ih _ f'

theorem heap_res (s : DS) (h : Heap) (f' : Nat) : resId { s with heap := h } f' = resId s f' := rfl

theorem updFrame_res1 (s : DS) (f m f' : Nat) : resId (updFrame s f fun r => { r with optionsId := m }) f' = resId s f' :=
  updFrame_res s f (fun r => { r with optionsId := m }) (fun _ => rfl) _

theorem updFrame_res2 (s : DS) (f m f' : Nat) : resId (updFrame s f fun r => { r with taskvarId := m }) f' = resId s f' :=
  updFrame_res s f (fun r => { r with taskvarId := m }) (fun _ => rfl) _

theorem updFrame_res3 (s : DS) (f m f' : Nat) : resId (updFrame s f fun r => { r with hostvarsId := m }) f' = resId s f' :=
  updFrame_res s f (fun r => { r with hostvarsId := m }) (fun _ => rfl) _

theorem getScopes_res (s : DS) (f : Nat) (a : Option (Dict Key Val)) (hv : Option (Str × List (Str × Val))) (f' : Nat) :
    resId (getScopes s f a hv).1 f' = resId s f' := by
  unfold getScopes
  split
  · rfl
  · split
    · rfl
    · simp only
      split
      · rw [updFrame_res2, addVar_res, updFrame_res1, addVar_res, heap_res]
      · split
        · rw [addVar_res, updFrame_res3, addVar_res, heap_res, updFrame_res2, addVar_res, updFrame_res1, addVar_res, heap_res]
        · rw [updFrame_res3, addVar_res, heap_res, updFrame_res2, addVar_res, updFrame_res1, addVar_res, heap_res]

theorem request_res (s : DS) (r : Req) (f' : Nat) : resId (request s r).1 f' = resId s f' := by
  cases r with
  | cont t single => cases single <;> rfl
  | scopes f a hv => exact getScopes_res _ _ _ _ _
  | variables r =>
    simp only [request, getVariables]
    split
    · rfl
    · exact listVars_res _ _ _ _
  | setVariable r n t =>
    simp only [request, setVariable]
    split
    · rfl
    · split
      · rfl
      · split
        · rfl
        · split
          · rfl
          · exact (addVar_res _ _ _ _ _).trans rfl
  | evaluate f e =>
    simp only [request, evaluate]
    split
    · rfl
    · split
      · rfl
      · rfl
      · split
        · rfl
        · split <;> rfl
      · split
        · rfl
        · exact (setAll_res _ _ _ _ _).trans rfl
      · split
        · rfl
        · exact (setAll_res _ _ _ _ _).trans rfl
  | closed => simp only [request]; split <;> rfl
  | _ => rfl

/-- Result references come from before, or are new. -/
def ResOld (s s' : DS) : Prop := ∀ f r, resId s' f = some r → resId s f = some r ∨ r = 0 ∨ s.nextV ≤ r

theorem ResOld.same {s s' : DS} (h : s'.frames = s.frames) : ResOld s s' := fun f r hr => .inl (by
  simpa only [resId, h] using hr)

theorem ResOld.trans {a b c : DS} (h : ResOld a b) (g : ResOld b c) (n : a.nextV ≤ b.nextV) : ResOld a c := by
  intro f r hr
  rcases g f r hr with h1 | h1 | h1
  · exact h f r h1
  · exact .inr (.inl h1)
  · exact .inr (.inr (Nat.le_trans n h1))

theorem res_pop {s s' : DS} {th th' : Thread} (h : popFrame s th = .ok (s', th')) : ResOld s s' := by
  unfold popFrame at h
  split at h
  · cases h
  · split at h
    · cases h
    · split at h
      · cases h
      · cases h
        intro f r hr
        simp only [resId, DL.get_erase] at hr
        split at hr
        · cases hr
        · exact .inl hr

theorem res_start {s : DS} (hi : Inv s) (h : Nat) (t : Task) (tv a : Addr) (cond : Nat → Bool) : ResOld s (startTask s h t tv a cond).1 := by
  obtain ⟨c1, h1, h2, h3⟩ := hostThread_spec hi.core h
  rw [startTask_eq]
  have m0 : ResOld s (hostThread s h).1 ∧ (hostThread s h).1.nextV = s.nextV := by
    unfold hostThread
    split
    · exact ⟨ResOld.same rfl, rfl⟩
    · exact ⟨ResOld.same rfl, rfl⟩
  cases hs : syncFrames (hostThread s h).1 (hostThread s h).2.1 t with
  | error e => exact m0.1.trans (ResOld.same rfl) (Nat.le_of_eq m0.2.symm)
  | ok p =>
    obtain ⟨s', th'⟩ := p
    have m1 : ResOld (hostThread s h).1 s' ∧ (hostThread s h).1.nextV ≤ s'.nextV := by
      rcases syncFrames_cases c1 h1 t with ⟨e, he⟩ | he | ⟨f, fs, hf, s1, g1, he⟩
      · rw [hs] at he; cases he
      · rw [hs] at he; cases he; exact ⟨ResOld.same rfl, Nat.le_refl _⟩
      · rw [hs] at he; cases he; exact ⟨res_pop g1, (pop_mono c1 h1 g1).nv⟩
    have m2 : ResOld s' (pushFrame s' th' t tv a).1 := by
      intro f r hr
      simp only [resId, pushFrame, DL.get_set] at hr
      split at hr
      · cases hr; exact .inr (.inl rfl)
      · exact .inl hr
    have m3 : ResOld (pushFrame s' th' t tv a).1 (decideStop (pushFrame s' th' t tv a).1 (pushFrame s' th' t tv a).2 t cond).1 := by
      unfold decideStop
      split
      · exact ResOld.same rfl
      · split <;> exact ResOld.same rfl
    exact (m0.1.trans m1.1 (Nat.le_of_eq m0.2.symm)).trans (m2.trans m3 (Nat.le_refl _)) (by have := m0.2; have := m1.2; omega)

theorem res_endAfter (s : DS) (tid : Nat) (inc : Bool) : ResOld s (endAfter s tid inc).1 := by
  unfold endAfter
  split
  · exact ResOld.same rfl
  · split
    · exact ResOld.same rfl
    · split
      · exact ResOld.same rfl
      · split
        · exact ResOld.same rfl
        · rename_i hp
          exact (res_pop hp).trans (ResOld.same rfl) (by
            unfold popFrame at hp
            split at hp
            · cases hp
            · split at hp
              · cases hp
              · split at hp <;> cases hp; exact Nat.le_refl _)

theorem res_end (s : DS) (h : Nat) (t : Task) (r : Result) (res : Addr) : ResOld s (endTask s h t r res).1 := by
  unfold endTask
  split
  · exact ResOld.same rfl
  · split
    · exact res_endAfter _ _ _
    · split
      · exact ResOld.same rfl
      · rename_i th _ _ _ _ _ f _ _
        simp only
        split
        · exact ResOld.same rfl
        · rename_i fr hf
          intro f' r' hr
          have ha := addVar_res { s with threads := s.threads.set th.id (afterException th t.parents r (filters s)) } f (kindOf s.heap res) res f'
          have hv := addVar_variables { s with threads := s.threads.set th.id (afterException th t.parents r (filters s)) } hf (kindOf s.heap res) res
          simp only [resId, hv, DL.get_set] at hr
          split at hr
          · cases hr; exact .inr (.inr (Nat.le_refl _))
          · left
            rw [← (show resId _ f' = resId s f' from ha)]
            exact hr

theorem res_step {s s' : DS} {l : Label} {o : List Out} (hi : Inv s) (h : step s l = some (s', o)) : ResOld s s' := by
  cases l with
  | start host t tv a c =>
    simp only [step] at h
    split at h
    · rw [fst_eq h]; exact res_start hi host t tv a c
    · cases h
  | done host t r res =>
    simp only [step] at h
    split at h
    · rw [fst_eq h]; exact res_end s host t r res
    · cases h
  | refresh =>
    simp only [step] at h
    split at h
    · rw [fst_eq h]; exact ResOld.same rfl
    · cases h
  | newPlay =>
    simp only [step] at h
    split at h
    · rw [fst_eq h]; intro f r hr; cases hr
    · cases h
  | reg p l ty =>
    simp only [step] at h
    split at h
    · rw [fst_eq h]
      rcases registerLine_cases s p l ty with hr | ⟨e, -, hr⟩ <;> rw [hr] <;> exact ResOld.same rfl
    · cases h
  | env hp => cases h; exact ResOld.same rfl
  | wake =>
    simp only [step] at h
    split at h
    · split at h
      · rw [fst_eq h]; exact ResOld.same rfl
      · split at h
        · cases h
        · split at h <;> (rw [fst_eq h]; exact ResOld.same rfl)
    · split at h
      · rw [fst_eq h]; exact ResOld.same rfl
      · split at h
        · cases h
        · rw [fst_eq h]; exact res_endAfter _ _ _
    · cases h
  | req r =>
    rw [fst_eq h]
    intro f r' hr
    rw [request_res] at hr
    exact .inl hr

/-- The references handed out so far. -/
structure Handed (os : List Out) (s : DS) : Prop where
  inc : (os.flatMap given).Pairwise (· < ·)
  lt : ∀ v ∈ os.flatMap given, v < s.nextV
  pos : ∀ v ∈ os.flatMap given, 0 < v
  res : ∀ f r, resId s f = some r → r ∉ os.flatMap given

theorem handed_step {s s' : DS} {l : Label} {o os : List Out} (hi : Inv s) (hd : Handed os s) (h : step s l = some (s', o)) :
    Handed (os ++ o) s' := by
  obtain ⟨p, q⟩ := step_fresh hi h
  have hm := mono_step hi h
  have hn := hi.core.nv1
  have hpos : ∀ v ∈ (os ++ o).flatMap given, 0 < v := by
    intro v hv
    rw [List.flatMap_append, List.mem_append] at hv
    rcases hv with hv | hv
    · exact hd.pos v hv
    · have := (q v hv).1; omega
  refine ⟨?_, ?_, hpos, ?_⟩
  · rw [List.flatMap_append]
    refine List.pairwise_append.2 ⟨hd.inc, p, fun a ha b hb => ?_⟩
    have := hd.lt a ha
    have := (q b hb).1
    omega
  · intro v hv
    rw [List.flatMap_append, List.mem_append] at hv
    rcases hv with hv | hv
    · exact Nat.lt_of_lt_of_le (hd.lt v hv) hm.nv
    · exact (q v hv).2.1
  · intro f r hr hm'
    have hp := hpos r hm'
    rw [List.flatMap_append, List.mem_append] at hm'
    by_cases hreq : ∃ q, l = .req q
    · obtain ⟨q', rfl⟩ := hreq
      rw [fst_eq h, request_res] at hr
      rcases hm' with hm' | hm'
      · exact hd.res f r hr hm'
      · obtain ⟨fr, hf, rfl⟩ := Option.map_eq_some_iff.1 hr
        rcases hi.core.fids hf fr.resultId (.inl rfl) with e | e
        · omega
        · obtain ⟨x, hx, -⟩ := (hi.core.fv hf).2 _ e
          have := (hi.core.vlt hx).2
          have := (q _ hm').1
          omega
    · have hnil : o.flatMap given = [] := given_nil (step_norefs h (fun q e => hreq ⟨q, e⟩))
      rw [hnil] at hm'
      rcases hm' with hm' | hm'
      · rcases res_step hi h f r hr with e | e | e
        · exact hd.res f r e hm'
        · omega
        · have := hd.lt r hm'; omega
      · cases hm'

theorem handed_run {s s' : DS} {ls : List Label} {o : List Out} (h : Run s ls s' o) :
    ∀ {os : List Out}, Inv s → Handed os s → Handed (os ++ o) s' := by
  induction h with
  | nil => intro os _ hd; simpa using hd
  | cons h1 _ ih =>
    intro os hi hd
    have := ih (inv_step hi h1) (handed_step hi hd h1)
    rwa [List.append_assoc] at this

theorem handed_init : Handed [] {} := ⟨List.Pairwise.nil, (by simp), (by simp), (by simp)⟩

end Verif.Strat
