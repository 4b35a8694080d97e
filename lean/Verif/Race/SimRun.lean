import Verif.Race.SimReq
/-!
# A history of `Strat` is an execution of `Race`
-/

namespace Verif.Race.Sim
open Verif
open Verif.Strat (DS Thread Frame Var TState Task)

/-- The scopes of a frame. -/
theorem scopes_runs {d d' : DS} {s : S} (i : Strat.Inv d) (hs : Sim d s) {f : Nat} {args : Option (Dict Strat.Key Strat.Val)} {hv : Option (Str × List (Str × Strat.Val))}
    {ss : List (Str × Nat)} (h : Strat.getScopes d f args hv = (d', [.scopes ss])) :
    ∃ s', Runs s [.req (.scopes f)] s' [.answer (.ok (ss.map (·.2)))] ∧ Sim d' s' := by
  have pc : d'.pc = d.pc := by
    have := Strat.request_pc d i (.scopes f args hv)
    rw [show Strat.request d (.scopes f args hv) = Strat.getScopes d f args hv from rfl, h] at this
    exact this
  unfold Strat.getScopes at h
  cases hfr : d.frames.get? f with
  | none => rw [hfr] at h; simp at h
  | some fr =>
    simp only [hfr] at h
    cases args with
    | none => simp at h
    | some es =>
      simp only at h
      cases hv with
      | none => simp at h
      | some x =>
        obtain ⟨host, hvs⟩ := x
        simp only at h
        split at h
        · rename_i g _
          have hl : f ∈ s.live := by rw [hs.dat.live]; exact DL.get_some_key.1 ⟨fr, hfr⟩
          have s0 : step false s (.req (.scopes f)) = some ({ s with r := .frame f }, []) := by simp [step, hs.r, startReq]
          have b1 : rstep false { s with r := .frame f } = some ({ s with r := .addRead f 3 [] true }, []) := by simp [rstep, hl]
          -- the four variables
          have sd0 : SimD { d with heap := d.heap ++ [.dict true es] } s.toSh := hs.dat.congr rfl rfl rfl rfl rfl rfl rfl rfl
          obtain ⟨s1, r1, q1, sd1, nf1, f1, p1, l1, t1, v1⟩ := stage_runs (s := { s with r := .addRead f 3 [] true }) (n := 3) sd0 (i.core.fid hfr) ⟨fr, hfr, rfl⟩ rfl
            (.rawStore fr.args) d.heap.length (fun y => { y with optionsId := (Strat.addVar { d with heap := d.heap ++ [.dict true es] } f (.rawStore fr.args) d.heap.length).2 }) (fun _ => ⟨rfl, rfl⟩)
          generalize hD1 : Strat.updFrame (Strat.addVar { d with heap := d.heap ++ [.dict true es] } f (.rawStore fr.args) d.heap.length).1 f
            (fun y => { y with optionsId := (Strat.addVar { d with heap := d.heap ++ [.dict true es] } f (.rawStore fr.args) d.heap.length).2 }) = D1 at *
          obtain ⟨s2, r2, q2, sd2, nf2, f2, p2, l2, t2, v2⟩ := stage_runs (n := 2) sd1 (by rw [nf1]; exact i.core.fid hfr) f1 q1
            (Strat.kindOf D1.heap fr.taskVars) fr.taskVars (fun y => { y with taskvarId := (Strat.addVar D1 f (Strat.kindOf D1.heap fr.taskVars) fr.taskVars).2 }) (fun _ => ⟨rfl, rfl⟩)
          generalize hD2 : Strat.updFrame (Strat.addVar D1 f (Strat.kindOf D1.heap fr.taskVars) fr.taskVars).1 f (fun y => { y with taskvarId := (Strat.addVar D1 f (Strat.kindOf D1.heap fr.taskVars) fr.taskVars).2 }) = D2 at *
          have sd2' : SimD { D2 with heap := D2.heap ++ [.dict true (Strat.amalgamate hvs (Strat.listing D2.heap fr.taskVars))] } s2.toSh :=
            sd2.congr rfl rfl rfl rfl rfl rfl rfl rfl
          obtain ⟨s3, r3, q3, sd3, nf3, f3, p3, l3, t3, v3⟩ := stage_runs (n := 1) sd2' (by show f < D2.nextF; rw [nf2, nf1]; exact i.core.fid hfr) f2 q2
            (.hostVars host) D2.heap.length (fun y => { y with hostvarsId := (Strat.addVar { D2 with heap := D2.heap ++ [.dict true (Strat.amalgamate hvs (Strat.listing D2.heap fr.taskVars))] } f (.hostVars host) D2.heap.length).2 }) (fun _ => ⟨rfl, rfl⟩)
          generalize hD3 : Strat.updFrame (Strat.addVar { D2 with heap := D2.heap ++ [.dict true (Strat.amalgamate hvs (Strat.listing D2.heap fr.taskVars))] } f
            (.hostVars host) D2.heap.length).1 f (fun y => { y with hostvarsId := (Strat.addVar { D2 with heap := D2.heap ++ [.dict true (Strat.amalgamate hvs (Strat.listing D2.heap fr.taskVars))] } f (.hostVars host) D2.heap.length).2 }) = D3 at *
          obtain ⟨fr3, hf3, hρ⟩ := f3
          have sd4 := sd3.addVar hf3 (by rw [nf3]; show f < D2.nextF; rw [nf2, nf1]; exact i.core.fid hfr) (Strat.kindOf D3.heap g) g
          have r4 := add_one (n := 0) q3
          have e1 := congrArg Prod.fst h
          have e2 := congrArg Prod.snd h
          simp only at e1 e2
          have ids : ss.map (·.2) = (if fr.resultId = 0 then [] else [fr.resultId]) ++ [d.nextV, D1.nextV, D2.nextV, D3.nextV] := by
            simp only [List.cons.injEq, Strat.Out.scopes.injEq, and_true] at e2
            rw [← e2]
            by_cases h0 : fr.resultId = 0 <;> simp [h0, Strat.addVar]
          have r4' : Runs s3 [] { s3 with nextV := s3.nextV + 1, vars := upd s3.vars s3.nextV (some f), fvars := upd s3.fvars f (s3.fvars f ++ [s3.nextV]), r := .result f [d.nextV, D1.nextV, D2.nextV, D3.nextV] } [] := by
            rw [← sd3.nV]
            exact r4
          have runs := Runs.input (l := .req (.scopes f)) rfl s0 (Runs.go b1 (r1.trans (r2.trans (r3.trans r4'))))
          have hres : s3.result f = fr.resultId := by rw [(sd3.fr _ _ hf3).2, hρ]
          by_cases h0 : fr.resultId = 0
          · have b2 : rstep false { s3 with nextV := s3.nextV + 1, vars := upd s3.vars s3.nextV (some f), fvars := upd s3.fvars f (s3.fvars f ++ [s3.nextV]), r := .result f [d.nextV, D1.nextV, D2.nextV, D3.nextV] } =
                some ({ s3 with nextV := s3.nextV + 1, vars := upd s3.vars s3.nextV (some f), fvars := upd s3.fvars f (s3.fvars f ++ [s3.nextV]), r := .answer (.ok [d.nextV, D1.nextV, D2.nextV, D3.nextV]) }, []) := by
              simp [rstep, hres, h0]
            obtain ⟨s', g1, g2⟩ := answer_runs (s1 := { s3 with nextV := s3.nextV + 1, vars := upd s3.vars s3.nextV (some f), fvars := upd s3.fvars f (s3.fvars f ++ [s3.nextV]), r := .answer (.ok [d.nextV, D1.nextV, D2.nextV, D3.nextV]) })
              hs pc rfl (by rw [← e1]; exact sd4) (l3.trans (l2.trans l1)) (p3.trans (p2.trans p1)) (t3.trans (t2.trans t1))
            refine ⟨s', ?_, g2⟩
            rw [ids, if_pos h0]
            exact runs.trans (Runs.go b2 g1)
          · have hv : s3.vars fr.resultId ≠ none := by
              apply v3
              apply v2
              apply v1
              show s.vars fr.resultId ≠ none
              rw [hs.dat.vars]
              rcases i.core.fids hfr fr.resultId (.inl rfl) with h' | h'
              · exact absurd h' h0
              · obtain ⟨x, hx, -⟩ := (i.core.fv hfr).2 _ h'
                simp [hx]
            have b2 : rstep false { s3 with nextV := s3.nextV + 1, vars := upd s3.vars s3.nextV (some f), fvars := upd s3.fvars f (s3.fvars f ++ [s3.nextV]), r := .result f [d.nextV, D1.nextV, D2.nextV, D3.nextV] } =
                some ({ s3 with nextV := s3.nextV + 1, vars := upd s3.vars s3.nextV (some f), fvars := upd s3.fvars f (s3.fvars f ++ [s3.nextV]), r := .resultVar fr.resultId [d.nextV, D1.nextV, D2.nextV, D3.nextV] }, []) := by
              simp [rstep, hres, h0]
            have b3 : rstep false { s3 with nextV := s3.nextV + 1, vars := upd s3.vars s3.nextV (some f), fvars := upd s3.fvars f (s3.fvars f ++ [s3.nextV]), r := .resultVar fr.resultId [d.nextV, D1.nextV, D2.nextV, D3.nextV] } =
                some ({ s3 with nextV := s3.nextV + 1, vars := upd s3.vars s3.nextV (some f), fvars := upd s3.fvars f (s3.fvars f ++ [s3.nextV]), r := .answer (.ok (fr.resultId :: [d.nextV, D1.nextV, D2.nextV, D3.nextV])) }, []) := by
              have : upd s3.vars s3.nextV (some f) fr.resultId ≠ none := by
                simp only [upd]; split
                · simp
                · exact hv
              obtain ⟨w, hw⟩ := Option.ne_none_iff_exists'.1 this
              simp [rstep, hw]
            obtain ⟨s', g1, g2⟩ := answer_runs (s1 := { s3 with nextV := s3.nextV + 1, vars := upd s3.vars s3.nextV (some f), fvars := upd s3.fvars f (s3.fvars f ++ [s3.nextV]), r := .answer (.ok (fr.resultId :: [d.nextV, D1.nextV, D2.nextV, D3.nextV])) })
              hs pc rfl (by rw [← e1]; exact sd4) (l3.trans (l2.trans l1)) (p3.trans (p2.trans p1)) (t3.trans (t2.trans t1))
            refine ⟨s', ?_, g2⟩
            rw [ids, if_neg h0]
            exact runs.trans (Runs.go b2 (Runs.go b3 g1))
        · simp at h

/-- A reference is looked up and `n` variables are added. -/
theorem vars_runs {d d0 : DS} {s : S} (i : Strat.Inv d) (hs : Sim d s) {v : Nat} {x : Var} (hv : d.vars.get? v = some x) (es : List (Str × Strat.Val))
    (h0 : d0.vars = d.vars ∧ d0.frames = d.frames ∧ d0.nextF = d.nextF ∧ d0.nextV = d.nextV) (sd : SimD d0 s.toSh) (hpc : (Strat.listVars x.frame es d0).1.pc = d.pc) :
    ∃ s', Runs s [.req (.variables v (containers es))] s' [.answer (.ok (((Strat.listVars x.frame es d0).2.map (·.2.2)).filter (· ≠ 0)))] ∧
      Sim (Strat.listVars x.frame es d0).1 s' := by
  obtain ⟨fr, hfr, -⟩ := i.core.vf hv
  have s0 : step false s (.req (.variables v (containers es))) = some ({ s with r := .variable v (containers es) }, []) := by simp [step, hs.r, startReq]
  have b1 : rstep false { s with r := .variable v (containers es) } = some ({ s with r := addNext x.frame (containers es) [] false }, []) := by
    have : s.vars v = some x.frame := by rw [hs.dat.vars, hv]; rfl
    simp [rstep, this]
  obtain ⟨s1, h1, h2, h3, h4, h5, h6⟩ := list_runs es d0 { s with r := addNext x.frame (containers es) [] false } [] sd
    ⟨fr, by rw [h0.2.1]; exact hfr⟩ (by rw [h0.2.2.1]; exact i.core.fid hfr) (by rw [h0.2.2.2]; exact i.core.nv1) rfl
  obtain ⟨s', g1, g2⟩ := answer_runs hs hpc h2 h3 h5 h4 h6
  exact ⟨s', Runs.input (l := .req (.variables v (containers es))) rfl s0 (Runs.go b1 (h1.trans g1)), g2⟩

/-- Values that are set leave the rest alone. -/
theorem setAll_same (n : Str) (x : Strat.Val) : ∀ (is : List Nat) (s : DS), ∃ h hst, (Strat.setAll s n x is).1 = { s with heap := h, hostStore := hst } := by
  intro is
  induction is with
  | nil => intro s; exact ⟨s.heap, s.hostStore, rfl⟩
  | cons k is ih =>
    intro s
    unfold Strat.setAll
    split
    · exact ⟨s.heap, s.hostStore, rfl⟩
    · dsimp only
      split
      · exact ⟨_, _, rfl⟩
      · obtain ⟨h, hst, e⟩ := ih { s with heap := (Strat.setVal s.heap s.hostStore ‹_› n x).1, hostStore := (Strat.setVal s.heap s.hostStore ‹_› n x).2.1 }
        exact ⟨h, hst, e⟩

theorem evaluate_same (d : DS) (f : Nat) (e : Strat.Eval) : ∃ h hst, (Strat.evaluate d f e).1 = { d with heap := h, hostStore := hst } := by
  unfold Strat.evaluate
  split
  · exact ⟨d.heap, d.hostStore, rfl⟩
  · split
    · exact ⟨d.heap, d.hostStore, rfl⟩
    · exact ⟨d.heap, d.hostStore, rfl⟩
    · split
      · exact ⟨d.heap, d.hostStore, rfl⟩
      · split
        · exact ⟨d.heap, d.hostStore, rfl⟩
        · exact ⟨_, d.hostStore, rfl⟩
    · split
      · exact ⟨d.heap, d.hostStore, rfl⟩
      · obtain ⟨h, hst, e⟩ := setAll_same ‹_› ‹_› [_] { d with heap := d.heap ++ ‹_› }
        exact ⟨h, hst, e⟩
    · split
      · exact ⟨d.heap, d.hostStore, rfl⟩
      · obtain ⟨h, hst, e⟩ := setAll_same ‹_› ‹_› [_, _] { d with heap := d.heap ++ ‹_› }
        exact ⟨h, hst, e⟩

/-! ## Translation -/

/-- Is one of the filters set? -/
def anyFilter (d : DS) : Bool := (Strat.filters d).onError || (Strat.filters d).onUnreachable || (Strat.filters d).onSkipped

/-- The request of `Race` for one of `Strat`: the debug configuration and console commands are not there, and a
client that is gone after a termination only clears the breakpoints. -/
def reqIn (d : DS) (q : Strat.Req) : List Req :=
  match q with
  | .cont t true => [.one t false]
  | .cont _ false => [.continueAll]
  | .stepIn t => [.one t true]
  | .stepOut t => [.one t true]
  | .next t => [.one t true]
  | .stackTrace t => [.stackTrace t]
  | .threads => [.threads]
  | .scopes f _ _ => [.scopes f]
  | .variables v => match d.vars.get? v with
    | none => []
    | some x => [.variables v (containers (Strat.listing d.heap x.addr))]
  | .setVariable v _ t => match t with
    | some (_, .ref _) => [.variables v 1]
    | _ => [.variables v 0]
  | .evaluate _ _ => []
  | .disconnect term => [.disconnect term]
  | .terminate => [.disconnect true]
  | .closed => if d.terminated = true then [.setBreakpoints 0 0] else [.disconnect false]
  | .setBps .. => [.setBreakpoints (Strat.request d q).1.dbg.bps.length 0]
  | .setExc .. => [.setExceptions (anyFilter (Strat.request d q).1)]
  | .config _ => []

/-- Is it an error response? -/
def isErr : Strat.Out → Bool
  | .error _ => true
  | _ => false

/-- The inputs of `Race` for a step of `Strat`; requests answered with an error are left out. -/
def inputs (d : DS) : Strat.Label → List Lbl
  | .start h _ _ _ _ => [.startTask h]
  | .done h t _ _ => [.endTask h t.node.isInclude]
  | .refresh => [.refresh]
  | .newPlay => []
  | .reg _ _ _ => [.register]
  | .env _ => []
  | .wake => []
  | .req q => bif (Strat.request d q).2.any isErr then [] else (reqIn d q).map .req

/-- A step that is within what `Race` covers: one play, without an exception that ends it, a result only for a host with a task begun,
and no request that fails after it made variables. -/
def Covered (d : DS) (l : Strat.Label) (d' : DS) : Prop :=
  (∀ e, d'.pc ≠ .crashed e) ∧
  match l with
  | .newPlay => False
  | .done h _ _ _ => ∃ th, Strat.threadOf d h = some th ∧ th.frames ≠ []
  | .req q => (Strat.request d q).2.any isErr = true → (Strat.request d q).1.nextV = d.nextV
  | _ => True

/-- Histories of such steps, with the inputs. -/
inductive SRun : DS → List Strat.Label → List Lbl → DS → List Strat.Out → Prop where
  | nil (d) : SRun d [] [] d []
  | cons {d d1 d2 l ls is o os} : Strat.step d l = some (d1, o) → Covered d l d1 → SRun d1 ls is d2 os → SRun d (l :: ls) (inputs d l ++ is) d2 (o ++ os)

/-- A step that does not show in `Race`. -/
theorem Sim.congr {d d' : DS} {s : S} (h : Sim d s) (h1 : d'.threads = d.threads) (h2 : d'.frames = d.frames) (h3 : d'.vars = d.vars)
    (h4 : d'.nextT = d.nextT) (h5 : d'.nextF = d.nextF) (h6 : d'.nextV = d.nextV) (h7 : d'.dbg.bps.length = d.dbg.bps.length)
    (h8 : d'.dbg.exc = d.dbg.exc) (h9 : d'.pc = d.pc) : Sim d' s :=
  ⟨h.dat.congr h1 h2 h3 h4 h5 h6 h7 h8, h.lock, h.r, by rw [h9]; exact h.pc⟩

theorem vis_ok (os : List Strat.Out) (h : ∀ o ∈ os, seen o = none) : Vis [.answer (.ok [])] os := by
  unfold Vis
  rw [List.filterMap_eq_nil_iff.2 h]
  rfl

theorem vis_named (ids : List Nat) (o : Strat.Out) (h : seen o = named ids) : Vis [.answer (.ok ids)] [o] := by
  unfold Vis
  rw [kept_named]
  simp only [List.filterMap_cons, List.filterMap_nil, h]
  cases named ids <;> rfl

theorem vis_err {os : List Strat.Out} (h : ∀ o ∈ os, seen o = none) : Vis [] os := by
  unfold Vis
  rw [List.filterMap_eq_nil_iff.2 h]
  rfl

/-- The ids of a stack trace. -/
theorem frames_ids (d : DS) : ∀ (fs : List Nat) (xs : List (Nat × Str × Int)), fs.mapM (Strat.frameDap d) = .ok xs → xs.map (·.1) = fs := by
  intro fs
  induction fs with
  | nil => intro xs h; cases h; rfl
  | cons f fs ih =>
    intro xs h
    rw [List.mapM_cons] at h
    cases hf : Strat.frameDap d f with
    | error e => rw [hf] at h; cases h
    | ok y =>
      rw [hf] at h
      cases hr : fs.mapM (Strat.frameDap d) with
      | error e => rw [hr] at h; cases h
      | ok ys =>
        rw [hr] at h
        cases h
        have hy : y.1 = f := by
          unfold Strat.frameDap at hf
          split at hf
          · cases hf
          · split at hf
            · cases hf
            · cases hf; rfl
        simp [hy, ih ys hr]

/-- One of the four requests for one thread. -/
theorem resume_runs {d : DS} {s : S} (i : Strat.Inv d) (hs : Sim d s) (t : Nat) (b : Bool) {st : TState} (hst : absS st = if b = true then .step else .cont)
    {o : Strat.Out} (ho : seen o = none) (ho' : isErr o = false) :
    ∃ s' O, Runs s (bif (Strat.resumeReq d [t] st o).2.any isErr then [] else [.req (.one t b)]) s' O ∧ Vis O (Strat.resumeReq d [t] st o).2 ∧ Sim (Strat.resumeReq d [t] st o).1 s' := by
  cases ht : d.threads.get? t with
  | none =>
    refine ⟨s, [], ?_, ?_, ?_⟩
    · simp [Strat.resumeReq, Strat.resume, ht, isErr]; exact Runs.nil _
    · simp only [Strat.resumeReq, Strat.resume, ht]; exact vis_err (by simp [seen])
    · simp only [Strat.resumeReq, Strat.resume, ht]; exact hs
  | some th =>
    obtain ⟨s', h1, h2⟩ := one_runs i hs b hst ht
    refine ⟨s', [.answer (.ok [])], ?_, ?_, h2⟩
    · simp [Strat.resumeReq, Strat.resume, ht, ho']; exact h1
    · simp only [Strat.resumeReq, Strat.resume, ht, if_true]; exact vis_ok _ (by simp [ho])

theorem updFrame_nextV (d : DS) (f : Nat) (g : Frame → Frame) : (Strat.updFrame d f g).nextV = d.nextV := by
  unfold Strat.updFrame
  split <;> rfl

/-- A scopes request is answered, or it fails at once or after it made variables. -/
theorem scopes_cases (d : DS) (f : Nat) (args : Option (Dict Strat.Key Strat.Val)) (hv : Option (Str × List (Str × Strat.Val))) :
    (∃ ss, (Strat.getScopes d f args hv).2 = [.scopes ss]) ∨
      ∃ e, (Strat.getScopes d f args hv).2 = [.error e] ∧ ((Strat.getScopes d f args hv).1 = d ∨ d.nextV < (Strat.getScopes d f args hv).1.nextV) := by
  unfold Strat.getScopes
  split
  · exact .inr ⟨_, rfl, .inl rfl⟩
  · split
    · exact .inr ⟨_, rfl, .inl rfl⟩
    · simp only
      split
      · refine .inr ⟨_, rfl, .inr ?_⟩
        simp only [updFrame_nextV, Strat.addVar]
        omega
      · split
        · exact .inl ⟨_, rfl⟩
        · refine .inr ⟨_, rfl, .inr ?_⟩
          simp only [updFrame_nextV, Strat.addVar]
          omega

theorem evaluate_out (d : DS) (f : Nat) (e : Strat.Eval) : (Strat.evaluate d f e).2 = [.ok] ∨ ∃ x, (Strat.evaluate d f e).2 = [.error x] := by
  have all : ∀ (s : DS) n x is, (Strat.setAll s n x is).2 = [.ok] ∨ ∃ y, (Strat.setAll s n x is).2 = [.error y] := by
    intro s n x is
    obtain ⟨o, h, h' | ⟨y, h'⟩⟩ := Strat.setAll_out n x is s
    · exact .inl (by rw [h, h'])
    · exact .inr ⟨y, by rw [h, h']⟩
  unfold Strat.evaluate
  split
  · exact .inr ⟨_, rfl⟩
  · split
    · exact .inl rfl
    · exact .inl rfl
    · split
      · exact .inr ⟨_, rfl⟩
      · split
        · exact .inr ⟨_, rfl⟩
        · exact .inl rfl
    · split
      · exact .inr ⟨_, rfl⟩
      · exact all _ _ _ _
    · split
      · exact .inr ⟨_, rfl⟩
      · exact all _ _ _ _

/-- A request. -/
theorem request_runs {d : DS} {s : S} (i : Strat.Inv d) (hs : Sim d s) (q : Strat.Req)
    (hcov : (Strat.request d q).2.any isErr = true → (Strat.request d q).1.nextV = d.nextV) :
    ∃ s' O, Runs s (inputs d (.req q)) s' O ∧ Vis O (Strat.request d q).2 ∧ Sim (Strat.request d q).1 s' := by
  have hpc := Strat.request_pc d i q
  simp only [inputs]
  cases q with
  | cont t single =>
    cases single with
    | true => exact resume_runs i hs t false rfl rfl rfl
    | false =>
      obtain ⟨s', h1, h2⟩ := all_runs i hs
      have ok := (Strat.resume_all .cont _ d.threads i.core.tnd (fun _ hk => DL.get_some_key.2 hk)).1
      refine ⟨s', [.answer (.ok [])], ?_, ?_, h2⟩
      · simp only [Strat.request, Strat.resumeReq, ok]; exact h1
      · simp only [Strat.request, Strat.resumeReq, ok]; exact vis_ok _ (by simp [seen])
  | stepIn t => exact resume_runs i hs t true rfl rfl rfl
  | stepOut t => exact resume_runs i hs t true rfl rfl rfl
  | next t => exact resume_runs i hs t true rfl rfl rfl
  | stackTrace t =>
    simp only [Strat.request, Strat.stackTrace]
    cases ht : d.threads.get? t with
    | none => exact ⟨s, [], by simpa [isErr] using Runs.nil s, vis_err (by simp [seen]), hs⟩
    | some th =>
      simp only
      cases hm : th.frames.mapM (Strat.frameDap d) with
      | error e => exact ⟨s, [], by simpa [isErr] using Runs.nil s, vis_err (by simp [seen]), hs⟩
      | ok xs =>
        obtain ⟨s', h1, h2⟩ := stack_runs i hs ht
        refine ⟨s', _, h1, vis_named _ _ ?_, h2⟩
        simp only [seen, frames_ids d _ _ hm]
  | threads =>
    obtain ⟨s', h1, h2⟩ := threads_runs hs
    exact ⟨s', _, h1, vis_named _ _ rfl, h2⟩
  | scopes f args hv =>
    simp only [Strat.request] at hcov ⊢
    rcases scopes_cases d f args hv with ⟨ss, hss⟩ | ⟨e, he, hd⟩
    · obtain ⟨s', h1, h2⟩ := scopes_runs (d' := (Strat.getScopes d f args hv).1) i hs (by rw [← hss])
      refine ⟨s', [.answer (.ok (ss.map (·.2)))], ?_, ?_, h2⟩
      · rw [hss]; exact h1
      · rw [hss]; exact vis_named _ _ rfl
    · rw [he] at hcov ⊢
      have := hcov rfl
      rcases hd with hd | hd
      · rw [hd]
        exact ⟨s, [], Runs.nil s, vis_err (by simp [seen]), hs⟩
      · omega
  | variables v =>
    simp only [Strat.request, Strat.getVariables] at hpc ⊢
    cases hv : d.vars.get? v with
    | none => exact ⟨s, [], by simpa [isErr] using Runs.nil s, vis_err (by simp [seen]), hs⟩
    | some x =>
      simp only [hv] at hpc
      obtain ⟨s', h1, h2⟩ := vars_runs i hs hv (Strat.listing d.heap x.addr) ⟨rfl, rfl, rfl, rfl⟩ hs.dat hpc
      exact ⟨s', _, by simpa [isErr, reqIn, hv] using h1, vis_named _ _ rfl, h2⟩
  | setVariable v n t =>
    simp only [Strat.request, Strat.setVariable] at hpc ⊢
    cases hv : d.vars.get? v with
    | none => exact ⟨s, [], by simpa [isErr] using Runs.nil s, vis_err (by simp [seen]), hs⟩
    | some x =>
      simp only [hv] at hpc ⊢
      cases t with
      | none => exact ⟨s, [], by simpa [isErr] using Runs.nil s, vis_err (by simp [seen]), hs⟩
      | some y =>
        obtain ⟨objs, val⟩ := y
        simp only at hpc ⊢
        split
        · rename_i e he
          refine ⟨s, [], by simpa [isErr] using Runs.nil s, vis_err (by simp [seen]), hs.congr rfl rfl rfl rfl rfl rfl rfl rfl rfl⟩
        · rename_i he
          simp only [he] at hpc
          cases val with
          | atom r =>
            obtain ⟨s', h1, h2⟩ := vars_runs (d0 := { d with heap := (Strat.setVal (d.heap ++ objs) d.hostStore x n (.atom r)).1, hostStore := (Strat.setVal (d.heap ++ objs) d.hostStore x n (.atom r)).2.1 })
              i hs hv [] ⟨rfl, rfl, rfl, rfl⟩ (hs.dat.congr rfl rfl rfl rfl rfl rfl rfl rfl) rfl
            exact ⟨s', _, h1, vis_named _ _ rfl, h2⟩
          | ref a =>
            obtain ⟨s', h1, h2⟩ := vars_runs (d0 := { d with heap := (Strat.setVal (d.heap ++ objs) d.hostStore x n (.ref a)).1, hostStore := (Strat.setVal (d.heap ++ objs) d.hostStore x n (.ref a)).2.1 })
              i hs hv [([], .ref a)] ⟨rfl, rfl, rfl, rfl⟩ (hs.dat.congr rfl rfl rfl rfl rfl rfl rfl rfl) rfl
            exact ⟨s', _, h1, vis_named _ _ rfl, h2⟩
  | evaluate f e =>
    obtain ⟨h, hst, he⟩ := evaluate_same d f e
    refine ⟨s, [], ?_, ?_, ?_⟩
    · simp only [reqIn, List.map_nil, Bool.cond_self]; exact Runs.nil _
    · apply vis_err
      intro o ho
      rcases evaluate_out d f e with h' | ⟨x, h'⟩ <;> (simp only [Strat.request] at ho; rw [h'] at ho; simp only [List.mem_singleton] at ho; subst ho; rfl)
    · simp only [Strat.request, he]; exact hs.congr rfl rfl rfl rfl rfl rfl rfl rfl rfl
  | disconnect term =>
    obtain ⟨s', h1, h2⟩ := disc_runs i hs term (st := if term = true then .fin else .cont) (by cases term <;> rfl)
    exact ⟨s', _, h1, vis_ok _ (by simp [Strat.request]), h2⟩
  | terminate =>
    have hs' : Sim { d with terminated := true } s := hs.congr rfl rfl rfl rfl rfl rfl rfl rfl rfl
    obtain ⟨s', h1, h2⟩ := disc_runs (d := { d with terminated := true }) ⟨i.core, i.pc⟩ hs' true (st := .fin) rfl
    exact ⟨s', _, h1, vis_ok _ (by simp [Strat.request, seen]), h2⟩
  | closed =>
    simp only [Strat.request, reqIn, List.any_nil, cond_false]
    by_cases ht : d.terminated = true
    · simp only [ht, if_true]
      obtain ⟨s', h1, h2⟩ := bp_runs (d' := { d with dbg := Bp.forget d.dbg }) hs rfl (by
        intro o
        have h := hs.dat
        exact ⟨h.thr, h.th, h.live, h.fr, h.vars, h.nT, h.nF, h.nV, h.newT, h.newF, rfl, h.exc⟩)
      exact ⟨s', _, h1, vis_ok _ (by simp), h2.congr rfl rfl rfl rfl rfl rfl rfl rfl rfl⟩
    · simp only [ht, Bool.false_eq_true, if_false]
      obtain ⟨s', h1, h2⟩ := disc_runs i hs false (st := .cont) rfl
      exact ⟨s', _, h1, vis_ok _ (by simp), h2⟩
  | setBps seq src m ls =>
    have hexc : (Bp.step d.dbg (.setBps seq src m ls)).1.exc = d.dbg.exc := rfl
    obtain ⟨s', h1, h2⟩ := bp_runs (d' := (Strat.request d (.setBps seq src m ls)).1) hs hpc (by
      intro o
      have h := hs.dat
      exact ⟨h.thr, h.th, h.live, h.fr, h.vars, h.nT, h.nF, h.nV, h.newT, h.newF, rfl, h.exc⟩)
    refine ⟨s', _, ?_, vis_ok _ ?_, h2⟩
    · have : (Strat.request d (.setBps seq src m ls)).2.any isErr = false := by
        simp [Strat.request, Strat.bpStep, isErr]
      rw [this]
      exact h1
    · intro o ho
      simp only [Strat.request, Strat.bpStep, List.mem_map] at ho
      obtain ⟨_, _, rfl⟩ := ho
      rfl
  | setExc seq fs =>
    obtain ⟨s', h1, h2⟩ := exc_runs (d' := (Strat.request d (.setExc seq fs)).1) hs hpc (anyFilter (Strat.request d (.setExc seq fs)).1) (by
      have h := hs.dat
      refine ⟨h.thr, h.th, h.live, h.fr, h.vars, h.nT, h.nF, h.nV, h.newT, h.newF, h.bp, ?_⟩
      intro ho
      simp only [anyFilter, Bool.or_eq_true]
      rcases ho with ho | ho | ho
      · exact .inl (.inl ho)
      · exact .inl (.inr ho)
      · exact .inr ho)
    refine ⟨s', _, ?_, vis_ok _ ?_, h2⟩
    · have : (Strat.request d (.setExc seq fs)).2.any isErr = false := by
        simp [Strat.request, Strat.bpStep, isErr]
      rw [this]
      exact h1
    · intro o ho
      simp only [Strat.request, Strat.bpStep, List.mem_map] at ho
      obtain ⟨_, _, rfl⟩ := ho
      rfl
  | config ms =>
    refine ⟨s, [], ?_, vis_err ?_, ?_⟩
    · simp only [reqIn, List.map_nil, Bool.cond_self]; exact Runs.nil _
    · intro o ho
      simp only [Strat.request, Strat.bpStep, List.mem_map] at ho
      obtain ⟨_, _, rfl⟩ := ho
      rfl
    · exact hs.congr rfl rfl rfl rfl rfl rfl rfl rfl rfl

/-- A step. -/
theorem step_runs {d d' : DS} {s : S} {l : Strat.Label} {o : List Strat.Out} (i : Strat.Inv d) (hs : Sim d s) (h : Strat.step d l = some (d', o)) (hc : Covered d l d') :
    ∃ s' O, Runs s (inputs d l) s' O ∧ Vis O o ∧ Sim d' s' := by
  have fine : ∀ O' : List Obs, O' = o.filterMap seen → Vis O' o := by
    intro O' e
    unfold Vis
    rw [e, List.filter_eq_self]
    intro x hx
    obtain ⟨y, -, hy⟩ := List.mem_filterMap.1 hx
    have nm : ∀ ids, named ids = some x → kept x = true := by
      intro ids h
      unfold named at h
      split at h
      · cases h
      · rename_i hne
        cases h
        cases ids
        · exact absurd rfl hne
        · rfl
    cases y <;> simp only [seen] at hy
    · cases hy; rfl
    · cases hy; rfl
    · cases hy; rfl
    · cases hy
    · cases hy
    · cases hy
    · exact nm _ hy
    · exact nm _ hy
    · exact nm _ hy
    · exact nm _ hy
    · exact nm _ hy
    · cases hy
  obtain ⟨hc1, hc2⟩ := hc
  cases l with
  | start host t tv a c =>
    obtain ⟨s', h1, h2⟩ := start_runs i hs h hc1
    exact ⟨s', _, h1, fine _ rfl, h2⟩
  | done host t r res =>
    obtain ⟨s', h1, h2⟩ := done_runs i hs h hc1 hc2
    exact ⟨s', _, h1, fine _ rfl, h2⟩
  | refresh =>
    obtain ⟨s', h1, h2⟩ := refresh_runs hs h
    exact ⟨s', _, h1, fine _ rfl, h2⟩
  | newPlay => exact absurd hc2 id
  | reg p l ty =>
    obtain ⟨s', h1, h2⟩ := reg_runs hs h hc1
    exact ⟨s', _, h1, fine _ rfl, h2⟩
  | env x =>
    simp only [Strat.step, Option.some.injEq] at h
    cases h
    exact ⟨s, [], Runs.nil s, rfl, hs.congr rfl rfl rfl rfl rfl rfl rfl rfl rfl⟩
  | wake =>
    obtain ⟨s', h1, h2⟩ := wake_runs i hs h hc1
    exact ⟨s', _, h1, fine _ rfl, h2⟩
  | req q =>
    simp only [Strat.step, Option.some.injEq] at h
    obtain ⟨s', O, h1, h2, h3⟩ := request_runs i hs q hc2
    rw [h] at h2 h3
    exact ⟨s', O, h1, h2, h3⟩

theorem sim_init : Sim {} {} := by
  refine ⟨?_, rfl, rfl, rfl⟩
  refine ⟨rfl, ?_, rfl, ?_, fun _ => rfl, rfl, rfl, rfl, fun _ _ => ⟨rfl, rfl⟩, fun _ _ => ⟨rfl, rfl⟩, rfl, ?_⟩
  · intro t x hx
    simp only [Dict.get?] at hx
    split at hx
    · cases hx; exact ⟨rfl, rfl, rfl⟩
    · cases hx
  · intro f x hx; cases hx
  · intro h
    simp [Strat.filters, Bp.shouldStop, Dict.get?] at h

/-- The two models agree: each history of `Strat` within what `Race` covers is an execution of `Race` with the same inputs, in which each
call and each request runs to its end (or to its wait), and the client gets the same events, with the same numbers, in the same
order, and answers with the same ids. The states correspond afterwards, so the correspondence goes on for any continuation. -/
theorem agree {d d' : DS} {s : S} {ls : List Strat.Label} {is : List Lbl} {os : List Strat.Out} (h : SRun d ls is d' os) :
    Strat.Inv d → Sim d s → ∃ s' O, Runs s is s' O ∧ Vis O os ∧ Sim d' s' := by
  induction h generalizing s with
  | nil d => intro _ hs; exact ⟨s, [], Runs.nil s, rfl, hs⟩
  | cons h1 h2 _ ih =>
    intro i hs
    obtain ⟨s1, O1, r1, v1, m1⟩ := step_runs i hs h1 h2
    obtain ⟨s2, O2, r2, v2, m2⟩ := ih (Strat.inv_step i h1) m1
    refine ⟨s2, O1 ++ O2, r1.trans r2, ?_, m2⟩
    unfold Vis at v1 v2 ⊢
    rw [List.filter_append, List.filterMap_append, v1, v2]

end Verif.Race.Sim
