import Verif.Strat.Inv
/-!
# What each step changes
-/

namespace Verif.Strat
open Verif

/-- `s'` has what `s` has, and possibly more variables and other contents of objects. -/
structure VarExt (s s' : DS) : Prop where
  thr : s'.threads = s.threads
  nt : s'.nextT = s.nextT
  nf : s'.nextF = s.nextF
  dbg : s'.dbg = s.dbg
  pc : s'.pc = s.pc
  term : s'.terminated = s.terminated
  nv : s.nextV ≤ s'.nextV
  vars : ∀ {v x}, s.vars.get? v = some x → v < s.nextV → s'.vars.get? v = some x
  new : ∀ {v x}, s'.vars.get? v = some x → s.vars.get? v = some x ∨ s.nextV ≤ v
  frames : ∀ f, (s'.frames.get? f).map (fun r => (r.task, r.taskVars, r.args)) =
    (s.frames.get? f).map (fun r => (r.task, r.taskVars, r.args))
  core : s.core → s'.core

theorem VarExt.refl (s : DS) : VarExt s s :=
  ⟨rfl, rfl, rfl, rfl, rfl, rfl, Nat.le_refl _, fun h _ => h, .inl, fun _ => rfl, id⟩

theorem VarExt.trans {a b c : DS} (h : VarExt a b) (g : VarExt b c) : VarExt a c where
  thr := g.thr.trans h.thr
  nt := g.nt.trans h.nt
  nf := g.nf.trans h.nf
  dbg := g.dbg.trans h.dbg
  pc := g.pc.trans h.pc
  term := g.term.trans h.term
  nv := Nat.le_trans h.nv g.nv
  vars := fun hx hv => g.vars (h.vars hx hv) (Nat.lt_of_lt_of_le hv h.nv)
  new := fun hx => by
    rcases g.new hx with hx | hx
    · exact h.new hx
    · exact .inr (Nat.le_trans h.nv hx)
  frames := fun f => (g.frames f).trans (h.frames f)
  core := g.core ∘ h.core

theorem VarExt.heap (s : DS) (h : Heap) (hs : List (Str × Str × Val)) : VarExt s { s with heap := h, hostStore := hs } :=
  ⟨rfl, rfl, rfl, rfl, rfl, rfl, Nat.le_refl _, fun h _ => h, .inl, fun _ => rfl, id⟩

theorem VarExt.frame {s s' : DS} (h : VarExt s s') {f : Nat} {fr : Frame} (hf : s.frames.get? f = some fr) :
    ∃ fr', s'.frames.get? f = some fr' := by
  have := h.frames f
  rw [hf] at this
  cases h' : s'.frames.get? f with
  | none => simp [h'] at this
  | some x => exact ⟨x, rfl⟩

theorem addVar_ext (s : DS) {f : Nat} {fr : Frame} (hf : s.frames.get? f = some fr) (k : Kind) (a : Addr) :
    VarExt s (addVar s f k a).1 where
  thr := rfl
  nt := rfl
  nf := rfl
  dbg := rfl
  pc := rfl
  term := rfl
  nv := by simp [addVar]
  vars := by
    intro v x hx hv
    simp only [addVar, DL.get_set]
    rw [if_neg (by omega), hx]
  new := by
    intro v x hx
    simp only [addVar, DL.get_set] at hx
    split at hx
    · right; omega
    · left; exact hx
  frames := by
    intro g
    simp only [addVar, hf, DL.get_set]
    split
    · rename_i e; subst e; rw [hf]; rfl
    · rfl
  core := by
    intro c
    have := Core.addVar c hf k a
    simpa [DS.core, addVar, hf] using this

theorem addVar_get (s : DS) (f : Nat) (k : Kind) (a : Addr) :
    (addVar s f k a).1.vars.get? s.nextV = some { frame := f, kind := k, addr := a } := by
  simp [addVar, DL.get_set]

theorem addVar_variables (s : DS) {f : Nat} {fr : Frame} (hf : s.frames.get? f = some fr) (k : Kind) (a : Addr) :
    (addVar s f k a).1.frames.get? f = some { fr with variables := fr.variables ++ [s.nextV] } := by
  simp [addVar, DL.get_set, hf]

/-- Adding a variable and remembering its id in the frame. -/
theorem addUpd_ext (s : DS) {f : Nat} {fr : Frame} (hf : s.frames.get? f = some fr) (k : Kind) (a : Addr) (g : Frame → Frame)
    (hg : ∀ r : Frame, (g r).task = r.task ∧ (g r).taskVars = r.taskVars ∧ (g r).args = r.args ∧ (g r).variables = r.variables)
    (hi : ∀ r : Frame, ∀ i, (i = (g r).resultId ∨ i = (g r).optionsId ∨ i = (g r).taskvarId ∨ i = (g r).hostvarsId) →
      i = s.nextV ∨ (i = r.resultId ∨ i = r.optionsId ∨ i = r.taskvarId ∨ i = r.hostvarsId)) :
    VarExt s (updFrame (addVar s f k a).1 f g) := by
  have e1 := addVar_ext s hf k a
  have hv := addVar_variables s hf k a
  refine ⟨?_, ?_, ?_, ?_, ?_, ?_, ?_, ?_, ?_, ?_, ?_⟩
  all_goals try (simp only [updFrame, hv]; first | exact e1.thr | exact e1.nt | exact e1.nf | exact e1.dbg | exact e1.pc | exact e1.term | exact e1.nv)
  · intro v x hx hv'; simp only [updFrame, hv]; exact e1.vars hx hv'
  · intro v x hx; simp only [updFrame, hv] at hx; exact e1.new hx
  · intro j
    have := e1.frames j
    simp only [updFrame, hv, DL.get_set]
    split
    · rename_i e
      subst e
      rw [hv] at this
      rw [← this]
      simp [(hg _).1, (hg _).2.1, (hg _).2.2.1]
    · exact this
  · intro c
    have c1 := e1.core c
    have := Core.updFrame c1 (fr' := g { fr with variables := fr.variables ++ [s.nextV] }) hv (by rw [(hg _).2.2.2]) (by
      intro i h
      rcases hi _ i h with h | h
      · right; rw [h]; simp
      · exact c1.fids hv i h)
    simpa [DS.core, updFrame, hv] using this

/-! ## Requests -/

theorem listVars_ext (f : Nat) (es : List (Str × Val)) : ∀ (s : DS), (∃ fr, s.frames.get? f = some fr) →
    VarExt s (listVars f es s).1 := by
  induction es with
  | nil => intro s _; exact VarExt.refl s
  | cons e es ih =>
    intro s ⟨fr, hf⟩
    obtain ⟨n, v⟩ := e
    cases v with
    | atom r => exact ih s ⟨fr, hf⟩
    | ref a =>
      have e1 := addVar_ext s hf (kindOf s.heap a) a
      exact e1.trans (ih _ ⟨_, addVar_variables s hf _ _⟩)

theorem getVariables_ext {s : DS} (c : s.core) (r : Nat) : VarExt s (getVariables s r).1 := by
  unfold getVariables
  cases h : s.vars.get? r with
  | none => exact VarExt.refl s
  | some v =>
    obtain ⟨fr, hf, -⟩ := c.vf h
    exact listVars_ext _ _ s ⟨fr, hf⟩

theorem setVariable_ext {s : DS} (c : s.core) (r : Nat) (n : Str) (t : Templated) : VarExt s (setVariable s r n t).1 := by
  unfold setVariable
  cases h : s.vars.get? r with
  | none => exact VarExt.refl s
  | some v =>
    cases t with
    | none => exact VarExt.refl s
    | some p =>
      obtain ⟨objs, x⟩ := p
      obtain ⟨fr, hf, -⟩ := c.vf h
      simp only
      split
      · exact VarExt.heap s _ _
      · cases x with
        | atom _ => exact VarExt.heap s _ _
        | ref a =>
          have e := VarExt.heap s (setVal (s.heap ++ objs) s.hostStore v n (.ref a)).1 (setVal (s.heap ++ objs) s.hostStore v n (.ref a)).2.1
          obtain ⟨fr', hf'⟩ := e.frame hf
          exact e.trans (addVar_ext _ hf' _ _)

theorem setAll_ext (n : Str) (x : Val) (is : List Nat) : ∀ s : DS, VarExt s (setAll s n x is).1 := by
  induction is with
  | nil => intro s; exact VarExt.refl s
  | cons i is ih =>
    intro s
    unfold setAll
    cases h : s.vars.get? i with
    | none => exact VarExt.refl s
    | some v =>
      simp only
      split
      · exact VarExt.heap s _ _
      · exact (VarExt.heap s _ _).trans (ih _)

theorem evaluate_ext (s : DS) (f : Nat) (e : Eval) : VarExt s (evaluate s f e).1 := by
  unfold evaluate
  cases h : s.frames.get? f with
  | none => exact VarExt.refl s
  | some fr =>
    cases e with
    | expr => exact VarExt.refl s
    | text => exact VarExt.refl s
    | removeOption n =>
      simp only
      split
      · exact VarExt.refl s
      · split
        · exact VarExt.refl s
        · exact VarExt.heap s _ _
    | setOption n t =>
      cases t with
      | none => exact VarExt.refl s
      | some p => exact (VarExt.heap s _ _).trans (setAll_ext _ _ _ _)
    | setHostvar n t =>
      cases t with
      | none => exact VarExt.refl s
      | some p => exact (VarExt.heap s _ _).trans (setAll_ext _ _ _ _)

theorem updFrame_get (s : DS) {f : Nat} {fr : Frame} (hf : s.frames.get? f = some fr) (g : Frame → Frame) :
    (updFrame s f g).frames.get? f = some (g fr) := by
  simp [updFrame, hf, DL.get_set]

theorem getScopes_ext (s : DS) (f : Nat) (args : Option (Dict Key Val)) (hv : Option (Str × List (Str × Val))) :
    VarExt s (getScopes s f args hv).1 := by
  unfold getScopes
  cases h : s.frames.get? f with
  | none => exact VarExt.refl s
  | some fr =>
    cases args with
    | none => exact VarExt.refl s
    | some es =>
      simp only
      have e0 := VarExt.heap s (s.heap ++ [.dict true es]) s.hostStore
      have h0 : ({ s with heap := s.heap ++ [.dict true es] } : DS).frames.get? f = some fr := h
      have e1 := e0.trans (addUpd_ext { s with heap := s.heap ++ [.dict true es] } h0 (.rawStore fr.args) s.heap.length
        (fun r => { r with optionsId := s.nextV }) (fun r => ⟨rfl, rfl, rfl, rfl⟩)
        (fun r i hi => by rcases hi with h | h | h | h <;> simp_all))
      obtain ⟨fr1, h1⟩ := e1.frame h
      generalize hs1 : updFrame (addVar { s with heap := s.heap ++ [.dict true es] } f (.rawStore fr.args) s.heap.length).1 f
        (fun r => { r with optionsId := s.nextV }) = s1 at e1 h1
      have hm : (addVar { s with heap := s.heap ++ [.dict true es] } f (.rawStore fr.args) s.heap.length).2 = s.nextV := rfl
      rw [hm, hs1]
      have e2 := e1.trans (addUpd_ext s1 h1 (kindOf s1.heap fr.taskVars) fr.taskVars
        (fun r => { r with taskvarId := s1.nextV }) (fun r => ⟨rfl, rfl, rfl, rfl⟩)
        (fun r i hi => by rcases hi with h | h | h | h <;> simp_all))
      obtain ⟨fr2, h2⟩ := e2.frame h
      have hm2 : (addVar s1 f (kindOf s1.heap fr.taskVars) fr.taskVars).2 = s1.nextV := rfl
      rw [hm2]
      generalize hs2 : updFrame (addVar s1 f (kindOf s1.heap fr.taskVars) fr.taskVars).1 f
        (fun r => { r with taskvarId := s1.nextV }) = s2 at e2 h2
      cases hv with
      | none => exact e2
      | some p =>
        obtain ⟨host, hvs⟩ := p
        simp only
        have e3' := VarExt.heap s2 (s2.heap ++ [.dict true (amalgamate hvs (listing s2.heap fr.taskVars))]) s2.hostStore
        have h3' : ({ s2 with heap := s2.heap ++ [.dict true (amalgamate hvs (listing s2.heap fr.taskVars))] } : DS).frames.get? f = some fr2 := h2
        have e3 := (e2.trans e3').trans (addUpd_ext _ h3' (.hostVars host) s2.heap.length
          (fun r => { r with hostvarsId := s2.nextV }) (fun r => ⟨rfl, rfl, rfl, rfl⟩)
          (fun r i hi => by rcases hi with h | h | h | h <;> simp_all))
        obtain ⟨fr3, h3⟩ := e3.frame h
        have hm3 : (addVar { s2 with heap := s2.heap ++ [.dict true (amalgamate hvs (listing s2.heap fr.taskVars))] } f (.hostVars host) s2.heap.length).2 = s2.nextV := rfl
        rw [hm3]
        generalize hs3 : updFrame (addVar { s2 with heap := s2.heap ++ [.dict true (amalgamate hvs (listing s2.heap fr.taskVars))] } f (.hostVars host) s2.heap.length).1 f
          (fun r => { r with hostvarsId := s2.nextV }) = s3 at e3 h3
        split
        · exact e3.trans (addVar_ext s3 h3 _ _)
        · exact e3

/-! ## Threads -/

theorem threadOf_some {s : DS} (c : s.core) {h : Nat} {th : Thread} (ht : threadOf s h = some th) :
    th.host = some h ∧ s.threads.get? th.id = some th := by
  unfold threadOf at ht
  have h1 := List.find?_some ht
  have h2 := List.mem_of_find?_eq_some ht
  obtain ⟨⟨k, th'⟩, hm, rfl⟩ := List.mem_map.1 h2
  have := DL.get_of_mem c.tnd hm
  refine ⟨by simpa using h1, ?_⟩
  rw [(c.tid this).1]
  exact this

theorem threadOf_none {s : DS} {h : Nat} (ht : threadOf s h = none) {k : Nat} {th : Thread} (hk : s.threads.get? k = some th) :
    th.host ≠ some h := by
  unfold threadOf at ht
  rw [List.find?_eq_none] at ht
  have := ht th (List.mem_map.2 ⟨_, DL.mem_of_get hk, rfl⟩)
  simpa using this

theorem threadOf_of_get {s : DS} (c : s.core) {h k : Nat} {th : Thread} (hk : s.threads.get? k = some th) (hh : th.host = some h) :
    threadOf s h = some th := by
  cases ht : threadOf s h with
  | none => exact absurd hh (threadOf_none ht hk)
  | some th' =>
    obtain ⟨h1, h2⟩ := threadOf_some c ht
    have := c.thost hk h2 (by rw [hh, h1]) (by rw [hh]; simp)
    rw [this, h2] at hk
    cases hk; rfl

theorem setState_keeps (th : Thread) (st : TState) :
    (setState th st).id = th.id ∧ (setState th st).host = th.host ∧ (setState th st).frames = th.frames := by
  unfold setState
  split
  · exact ⟨rfl, rfl, rfl⟩
  · split
    · exact ⟨rfl, rfl, rfl⟩
    · split <;> exact ⟨rfl, rfl, rfl⟩

theorem afterBreak_keeps (th : Thread) (t : TaskRef) (b : Option Nat) :
    (afterBreak th t b).id = th.id ∧ (afterBreak th t b).host = th.host ∧ (afterBreak th t b).frames = th.frames := by
  unfold afterBreak
  split <;> exact ⟨rfl, rfl, rfl⟩

theorem afterException_keeps (th : Thread) (ps : List Node) (r : Result) (f : Filters) :
    (afterException th ps r f).id = th.id ∧ (afterException th ps r f).host = th.host ∧ (afterException th ps r f).frames = th.frames := by
  unfold afterException
  split <;> exact ⟨rfl, rfl, rfl⟩

/-- Resuming keeps everything but the states. -/
theorem resume_core {F : Dict Nat Frame} {V : Dict Nat Var} {nt nf nv : Nat} (st : TState) (ts : List Nat) :
    ∀ T : Dict Nat Thread, Core T F V nt nf nv → Core (resume ts st T).1 F V nt nf nv := by
  induction ts with
  | nil => intro T c; exact c
  | cons t ts ih =>
    intro T c
    unfold resume
    cases h : T.get? t with
    | none => exact c
    | some th =>
      have k := setState_keeps th st
      exact ih _ (c.setCtl h k.1 k.2.1 k.2.2)

/-- The threads after a resume: each is unchanged, or in the new state if it was named. -/
theorem resume_get (st : TState) (ts : List Nat) : ∀ (T : Dict Nat Thread) (k : Nat), ts.Nodup →
    (resume ts st T).1.get? k = T.get? k ∨ (k ∈ ts ∧ ∃ th, T.get? k = some th ∧ (resume ts st T).1.get? k = some (setState th st)) := by
  induction ts with
  | nil => intro T k _; left; rfl
  | cons t ts ih =>
    intro T k hn
    simp only [List.nodup_cons] at hn
    unfold resume
    cases h : T.get? t with
    | none => left; rfl
    | some th =>
      simp only
      rcases ih (T.set t (setState th st)) k hn.2 with h' | ⟨h1, th', h2, h3⟩
      · rw [h', DL.get_set]
        split
        · rename_i e; subst e
          exact .inr ⟨by simp, th, h, rfl⟩
        · exact .inl rfl
      · right
        refine ⟨by simp [h1], th', ?_, h3⟩
        rw [DL.get_set, if_neg (by rintro rfl; exact hn.1 h1)] at h2
        exact h2

/-- If all named threads exist they are all set. -/
theorem resume_all (st : TState) (ts : List Nat) : ∀ (T : Dict Nat Thread), ts.Nodup → (∀ t ∈ ts, ∃ th, T.get? t = some th) →
    (resume ts st T).2 = true ∧ ∀ k ∈ ts, ∀ th, T.get? k = some th → (resume ts st T).1.get? k = some (setState th st) := by
  induction ts with
  | nil => intro T _ _; exact ⟨rfl, by simp⟩
  | cons t ts ih =>
    intro T hn hex
    simp only [List.nodup_cons] at hn
    obtain ⟨th, h⟩ := hex t (by simp)
    have := ih (T.set t (setState th st)) hn.2 (by
      intro k hk
      rw [DL.get_set]
      split
      · exact ⟨_, rfl⟩
      · exact hex k (by simp [hk]))
    simp only [resume, h]
    refine ⟨this.1, ?_⟩
    intro k hk th' hth'
    by_cases hkt : k = t
    · subst hkt
      rw [h] at hth'; cases hth'
      rcases resume_get st ts (T.set k (setState th st)) k hn.2 with e | ⟨e, -⟩
      · rw [e, DL.get_set]; simp
      · exact absurd e hn.1
    · have hk' : k ∈ ts := by simpa [hkt] using hk
      exact this.2 k hk' th' (by rw [DL.get_set, if_neg (Ne.symm hkt), hth'])

theorem resume_keys (st : TState) (ts : List Nat) : ∀ (T : Dict Nat Thread), (resume ts st T).1.map (·.1) = T.map (·.1) := by
  induction ts with
  | nil => intro T; rfl
  | cons t ts ih =>
    intro T
    unfold resume
    cases h : T.get? t with
    | none => rfl
    | some th =>
      simp only
      rw [ih, DL.keys_set, if_pos (DL.get_some_key.1 ⟨_, h⟩)]

/-! ## Frames -/

theorem popFrame_ok {s : DS} (c : s.core) {th : Thread} (ht : s.threads.get? th.id = some th) {f : Nat} {fs : List Nat}
    (hf : th.frames = f :: fs) :
    ∃ s', popFrame s th = .ok (s', { th with frames := fs }) ∧ s'.core ∧
      s'.threads = s.threads.set th.id { th with frames := fs } ∧ s'.frames = s.frames.erase f ∧
      (∀ v, s'.vars.get? v = match s.frames.get? f with
        | some fr => if v ∈ fr.variables then none else s.vars.get? v
        | none => s.vars.get? v) ∧
      s'.nextT = s.nextT ∧ s'.nextF = s.nextF ∧ s'.nextV = s.nextV ∧ s'.dbg = s.dbg ∧ s'.pc = s.pc ∧ s'.terminated = s.terminated ∧
      s'.heap = s.heap := by
  obtain ⟨fr, hfr⟩ := c.tf ht (f := f) (by rw [hf]; simp)
  obtain ⟨hnd, hvs⟩ := c.fv hfr
  obtain ⟨V', h1, h2⟩ := delVars_spec fr.variables s.vars hnd (fun v hv => by
    obtain ⟨x, hx, -⟩ := hvs v hv; exact ⟨x, hx⟩)
  refine ⟨{ s with frames := s.frames.erase f, vars := V', threads := s.threads.set th.id { th with frames := fs } }, ?_, ?_, rfl, rfl, ?_, rfl, rfl, rfl, rfl, rfl, rfl, rfl⟩
  · simp [popFrame, hf, hfr, h1]
  · have hnf := c.tfnd ht
    rw [hf, List.nodup_cons] at hnf
    have hne1 : th.id ≠ 1 := by
      intro e
      obtain ⟨m, m1, -, m3⟩ := c.tmain
      rw [e, m1] at ht; cases ht
      rw [m3] at hf; cases hf
    have c1 : Core (s.threads.set th.id { th with frames := fs }) s.frames s.vars s.nextT s.nextF s.nextV :=
      c.setThread ht rfl rfl hnf.2 (fun g hg => .inl (by rw [hf]; simp [hg])) (fun e => absurd e hne1)
    exact c1.dropFrame hfr (by
      intro k thk hk
      rw [DL.get_set] at hk
      split at hk
      · cases hk; exact hnf.1
      · rename_i hne
        intro hm
        exact hne (c.tfd ht hk (f := f) (by rw [hf]; simp) hm)) h2
  · intro v; rw [hfr]; exact h2 v

theorem popFrame_cases {s : DS} (c : s.core) {th : Thread} (ht : s.threads.get? th.id = some th) :
    (th.frames = [] ∧ popFrame s th = .error .index) ∨
    ∃ f fs, th.frames = f :: fs ∧ ∃ s', popFrame s th = .ok (s', { th with frames := fs }) := by
  cases hf : th.frames with
  | nil => left; exact ⟨rfl, by simp [popFrame, hf]⟩
  | cons f fs =>
    right
    obtain ⟨s', h, -⟩ := popFrame_ok c ht hf
    exact ⟨f, fs, rfl, s', h⟩

theorem pushFrame_core {s : DS} (c : s.core) {th : Thread} (ht : s.threads.get? th.id = some th) (h1 : th.id ≠ 1)
    (t : Task) (a b : Addr) : (pushFrame s th t a b).1.core := by
  have c1 := Core.addFrame c t a b
  exact c1.setThread ht rfl rfl
    (by
      simp only [List.nodup_cons]
      refine ⟨fun hm => ?_, c.tfnd ht⟩
      obtain ⟨fr, hfr⟩ := c.tf ht hm
      have := c.fid hfr; omega)
    (by
      intro f hf
      rcases List.mem_cons.1 hf with rfl | hf
      · right
        refine ⟨⟨_, by rw [DL.get_set]; simp; rfl⟩, ?_⟩
        intro k th' hk hm
        obtain ⟨fr, hfr⟩ := c.tf hk hm
        have := c.fid hfr; omega
      · exact .inl hf)
    (fun e => absurd e h1)

theorem exitThreads_core {s : DS} (c : s.core) : (exitThreads s).1.core := Core.exit c

theorem crash_inv {s : DS} (c : s.core) (o : List Out) (e : PyErr) : Inv (crash s o e).1 :=
  ⟨Core.exit c, trivial⟩

theorem finish_inv {s : DS} (c : s.core) : Inv (finish s .ended).1 := ⟨Core.exit c, trivial⟩

/-- Synchronising the frames: an exception, or the thread with its frames or all but the newest. -/
theorem syncFrames_cases {s : DS} (c : s.core) {th : Thread} (ht : s.threads.get? th.id = some th) (t : Task) :
    (∃ e, syncFrames s th t = .error e) ∨
    (syncFrames s th t = .ok (s, th)) ∨
    ∃ f fs, th.frames = f :: fs ∧ ∃ s', popFrame s th = .ok (s', { th with frames := fs }) ∧
      syncFrames s th t = .ok (s', { th with frames := fs }) := by
  unfold syncFrames
  cases hf : th.frames with
  | nil => right; left; rfl
  | cons f fs =>
    simp only
    cases t.parents with
    | nil => left; exact ⟨_, rfl⟩
    | cons p ps =>
      simp only
      obtain ⟨fr, hfr⟩ := c.tf ht (f := f) (by rw [hf]; simp)
      obtain ⟨s', h, -⟩ := popFrame_ok c ht hf
      simp only [hfr]
      by_cases hm : roleMissing fr ps t = true
      · left; exact ⟨_, if_pos hm⟩
      rw [if_neg hm]
      cases ps with
      | nil => right; right; exact ⟨f, fs, rfl, s', h, h⟩
      | cons q qs =>
        simp only
        split
        · right; right; exact ⟨f, fs, rfl, s', h, h⟩
        · right; left; rfl

/-- A host's thread before its task: found or added. -/
def hostThread (s : DS) (host : Nat) : DS × Thread × List Out :=
  match threadOf s host with
  | some th => (s, th, [])
  | none => addThread s host

theorem hostThread_spec {s : DS} (c : s.core) (h : Nat) :
    (hostThread s h).1.core ∧ (hostThread s h).1.threads.get? (hostThread s h).2.1.id = some (hostThread s h).2.1 ∧
      (hostThread s h).2.1.host = some h ∧ (hostThread s h).2.1.id ≠ 1 := by
  unfold hostThread
  cases ht : threadOf s h with
  | some th =>
    obtain ⟨h1, h2⟩ := threadOf_some c ht
    refine ⟨c, h2, h1, ?_⟩
    intro e
    obtain ⟨m, m1, m2, -⟩ := c.tmain
    simp only at e
    rw [e, m1] at h2; cases h2
    rw [m2] at h1; cases h1
  | none =>
    refine ⟨Core.addThread c (fun hk => threadOf_none ht hk), ?_, rfl, ?_⟩
    · simp [addThread, DL.get_set]
    · have := c.t2
      simp only [addThread]; omega

theorem startTask_eq (s : DS) (h : Nat) (t : Task) (tv a : Addr) (cond : Nat → Bool) :
    startTask s h t tv a cond =
      match syncFrames (hostThread s h).1 (hostThread s h).2.1 t with
      | .error e => crash (hostThread s h).1 (hostThread s h).2.2 e
      | .ok (s', th) =>
        ((decideStop (pushFrame s' th t tv a).1 (pushFrame s' th t tv a).2 t cond).1,
          (hostThread s h).2.2 ++ (decideStop (pushFrame s' th t tv a).1 (pushFrame s' th t tv a).2 t cond).2) := by
  unfold startTask hostThread
  rfl

theorem sync_ok {s : DS} (c : s.core) {th : Thread} (ht : s.threads.get? th.id = some th) {t : Task} {s' : DS} {th' : Thread}
    (h : syncFrames s th t = .ok (s', th')) :
    s'.core ∧ s'.threads.get? th.id = some th' ∧ th'.id = th.id ∧ th'.host = th.host ∧ th'.state = th.state ∧ th'.stopped = th.stopped ∧
      (∀ k, k ≠ th.id → s'.threads.get? k = s.threads.get? k) ∧ s'.dbg = s.dbg ∧ s'.pc = s.pc ∧ s'.terminated = s.terminated ∧
      s'.nextT = s.nextT ∧ s'.nextF = s.nextF ∧ s'.nextV = s.nextV ∧ s'.threads.map (·.1) = s.threads.map (·.1) := by
  rcases syncFrames_cases c ht t with ⟨e, he⟩ | he | ⟨f, fs, hf, s1, h1, he⟩
  · rw [he] at h; cases h
  · rw [he] at h; cases h
    exact ⟨c, ht, rfl, rfl, rfl, rfl, fun _ _ => rfl, rfl, rfl, rfl, rfl, rfl, rfl, rfl⟩
  · rw [he] at h; cases h
    obtain ⟨s2, g0, g1, g2, -, -, g5, g6, g7, g8, g9, g10, -⟩ := popFrame_ok c ht hf
    rw [h1] at g0; cases g0
    refine ⟨g1, ?_, rfl, rfl, rfl, rfl, ?_, g8, g9, g10, g5, g6, g7, ?_⟩
    · rw [g2, DL.get_set]; simp
    · intro k hk; rw [g2, DL.get_set, if_neg (Ne.symm hk)]
    · rw [g2, DL.keys_set, if_pos (DL.get_some_key.1 ⟨_, ht⟩)]

theorem pushFrame_get (s : DS) (th : Thread) (t : Task) (a b : Addr) :
    (pushFrame s th t a b).1.threads.get? th.id = some (pushFrame s th t a b).2 := by
  simp [pushFrame, DL.get_set]

theorem decideStop_inv {s : DS} (c : s.core) (hp : s.pc = .running) {th : Thread} (ht : s.threads.get? th.id = some th) (t : Task)
    (cond : Nat → Bool) : Inv (decideStop s th t cond).1 := by
  unfold decideStop
  cases t.path with
  | none => exact ⟨c, by simp [PcOk, hp]⟩
  | some p =>
    simp only
    split
    · exact ⟨c, by simp [PcOk, hp]⟩
    · have k := afterBreak_keeps th (t.node, t.parents) (bpFor s t cond)
      refine ⟨c.setCtl ht k.1 k.2.1 k.2.2, ?_⟩
      simp [PcOk, DL.get_set]

theorem startTask_inv {s : DS} (hi : Inv s) (hp : s.pc = .running) (h : Nat) (t : Task) (tv a : Addr) (cond : Nat → Bool) :
    Inv (startTask s h t tv a cond).1 := by
  rw [startTask_eq]
  obtain ⟨c1, h1, h2, h3⟩ := hostThread_spec hi.core h
  have hp1 : (hostThread s h).1.pc = .running := by
    unfold hostThread
    split
    · exact hp
    · exact hp
  cases hs : syncFrames (hostThread s h).1 (hostThread s h).2.1 t with
  | error e => exact crash_inv c1 _ _
  | ok p =>
    obtain ⟨s', th⟩ := p
    obtain ⟨c2, g1, g2, g3, -, -, -, -, g8, -⟩ := sync_ok c1 h1 hs
    have c3 := pushFrame_core c2 (th := th) (by rw [g2]; exact g1) (by rw [g2]; exact h3) t tv a
    exact decideStop_inv c3 (g8.trans hp1) (pushFrame_get s' th t tv a) t cond

theorem endAfter_inv {s : DS} (c : s.core) (tid : Nat) (inc : Bool) : Inv (endAfter s tid inc).1 := by
  unfold endAfter
  cases h : s.threads.get? tid with
  | none => exact crash_inv c _ _
  | some th =>
    simp only
    split
    · exact finish_inv c
    · split
      · exact ⟨c, trivial⟩
      · have ht : s.threads.get? th.id = some th := by rw [(c.tid h).1]; exact h
        cases hf : th.frames with
        | nil => simp only [popFrame, hf]; exact crash_inv c _ _
        | cons f fs =>
          obtain ⟨s', g0, g1, -⟩ := popFrame_ok c ht hf
          rw [g0]
          exact ⟨g1, trivial⟩

theorem endTask_inv {s : DS} (hi : Inv s) (h : Nat) (t : Task) (r : Result) (res : Addr) : Inv (endTask s h t r res).1 := by
  unfold endTask
  cases ht : threadOf s h with
  | none => exact crash_inv hi.core _ _
  | some th =>
    obtain ⟨h1, h2⟩ := threadOf_some hi.core ht
    simp only
    split
    · exact endAfter_inv hi.core _ _
    · have k := afterException_keeps th t.parents r (filters s)
      have c1 : ({ s with threads := s.threads.set th.id (afterException th t.parents r (filters s)) } : DS).core :=
        Core.setCtl hi.core h2 k.1 k.2.1 k.2.2
      split
      · exact crash_inv c1 _ _
      · rename_i f fs hf
        cases hfr : s.frames.get? f with
        | none => exact crash_inv c1 _ _
        | some fr =>
          simp only
          have := (addUpd_ext { s with threads := s.threads.set th.id (afterException th t.parents r (filters s)) } hfr (kindOf s.heap res) res
            (fun r => { r with resultId := s.nextV }) (fun r => ⟨rfl, rfl, rfl, rfl⟩)
            (fun r i hi => by rcases hi with h | h | h | h <;> simp_all)).core c1
          have hv := addVar_variables { s with threads := s.threads.set th.id (afterException th t.parents r (filters s)) } hfr (kindOf s.heap res) res
          simp only [updFrame, hv] at this
          refine ⟨?_, ?_⟩
          · simp only [hv]
            exact this
          · simp only [PcOk, addVar]
            refine ⟨_, by rw [DL.get_set]; simp; rfl, ?_⟩
            rw [k.2.2, hf]; simp

theorem resumeReq_inv {s : DS} (hi : Inv s) (ts : List Nat) (st : TState) (o : Out) (hn : ts.Nodup) : Inv (resumeReq s ts st o).1 := by
  refine ⟨resume_core st ts s.threads hi.core, ?_⟩
  have h := hi.pc
  have key : ∀ t th, s.threads.get? t = some th → ∃ th', (resume ts st s.threads).1.get? t = some th' ∧ th'.frames = th.frames := by
    intro t th ht
    rcases resume_get st ts s.threads t hn with e | ⟨-, th', e1, e2⟩
    · exact ⟨th, by rw [e, ht], rfl⟩
    · rw [ht] at e1; cases e1
      exact ⟨_, e2, (setState_keeps th st).2.2⟩
  unfold PcOk at h ⊢
  simp only [resumeReq]
  cases hp : s.pc with
  | waitStart t =>
    rw [hp] at h; obtain ⟨th, ht⟩ := h
    obtain ⟨th', e, -⟩ := key t th ht
    exact ⟨th', e⟩
  | waitEnd t inc =>
    rw [hp] at h; obtain ⟨th, ht, hf⟩ := h
    obtain ⟨th', e, e'⟩ := key t th ht
    exact ⟨th', e, by rw [e']; exact hf⟩
  | _ => trivial

theorem disconnect_inv {s : DS} (hi : Inv s) (st : TState) : Inv (disconnect s st) := by
  have := resumeReq_inv hi (s.threads.map (·.1)) st .ok hi.core.tnd
  exact ⟨this.core, this.pc⟩

theorem ext_inv {s s' : DS} (h : VarExt s s') (hi : Inv s) : Inv s' := by
  refine ⟨h.core hi.core, ?_⟩
  have := hi.pc
  unfold PcOk at this ⊢
  rw [h.pc, h.thr]
  exact this

theorem request_inv {s : DS} (hi : Inv s) (r : Req) : Inv (request s r).1 := by
  cases r with
  | cont t single =>
    cases single
    · exact resumeReq_inv hi _ _ _ hi.core.tnd
    · exact resumeReq_inv hi _ _ _ (by simp)
  | stepIn t => exact resumeReq_inv hi _ _ _ (by simp)
  | stepOut t => exact resumeReq_inv hi _ _ _ (by simp)
  | next t => exact resumeReq_inv hi _ _ _ (by simp)
  | stackTrace t => exact hi
  | threads => exact hi
  | scopes f a h => exact ext_inv (getScopes_ext s f a h) hi
  | variables r => exact ext_inv (getVariables_ext hi.core r) hi
  | setVariable r n t => exact ext_inv (setVariable_ext hi.core r n t) hi
  | evaluate f e => exact ext_inv (evaluate_ext s f e) hi
  | disconnect b => exact disconnect_inv hi _
  | terminate => exact disconnect_inv (s := { s with terminated := true }) ⟨hi.core, hi.pc⟩ _
  | closed =>
    simp only [request]
    split
    · exact ⟨hi.core, hi.pc⟩
    · exact disconnect_inv hi _
  | setBps _ _ _ _ => exact ⟨hi.core, hi.pc⟩
  | setExc _ _ => exact ⟨hi.core, hi.pc⟩
  | config _ => exact ⟨hi.core, hi.pc⟩

theorem fst_eq {α β : Type} {p : α × β} {a : α} {b : β} (h : some p = some (a, b)) : a = p.1 := by
  cases h; rfl

theorem snd_eq {α β : Type} {p : α × β} {a : α} {b : β} (h : some p = some (a, b)) : b = p.2 := by
  cases h; rfl

/-- Registering a line ends as it should or with an exception. -/
theorem registerLine_cases (s : DS) (p : Str) (l : Int) (ty : Nat) : registerLine s p l ty = bpStep s (.reg p l ty) ∨
    ∃ e, (Bp.register p l ty s.dbg).2.2 = some e ∧ registerLine s p l ty = crash (bpStep s (.reg p l ty)).1 (bpStep s (.reg p l ty)).2 e := by
  unfold registerLine
  split
  · exact .inl rfl
  · rename_i e h; exact .inr ⟨e, h, rfl⟩

/-- Every step keeps the invariant. -/
theorem inv_step {s s' : DS} {l : Label} {o : List Out} (hi : Inv s) (h : step s l = some (s', o)) : Inv s' := by
  cases l with
  | start host t tv a c =>
    simp only [step] at h
    split at h
    · rw [fst_eq h]; exact startTask_inv hi (by assumption) _ _ _ _ _
    · cases h
  | done host t r res =>
    simp only [step] at h
    split at h
    · rw [fst_eq h]; exact endTask_inv hi _ _ _ _
    · cases h
  | refresh =>
    simp only [step] at h
    split at h
    · rename_i hp
      cases h; exact ⟨exitThreads_core hi.core, by simp [PcOk, exitThreads, hp]⟩
    · cases h
  | newPlay =>
    simp only [step] at h
    split at h
    · rename_i hp
      cases h; exact ⟨core_play hi.core.t2 hi.core.nv1, by simp [PcOk, exitThreads, hp]⟩
    · cases h
  | reg p l ty =>
    simp only [step] at h
    split at h
    · rw [fst_eq h]
      rcases registerLine_cases s p l ty with hr | ⟨e, -, hr⟩ <;> rw [hr]
      · exact ⟨hi.core, hi.pc⟩
      · exact crash_inv (s := (bpStep s (.reg p l ty)).1) hi.core _ _
    · cases h
  | env hp => cases h; exact ⟨hi.core, hi.pc⟩
  | wake =>
    simp only [step] at h
    split at h
    · split at h
      · cases h; exact crash_inv hi.core [] .key
      · split at h
        · cases h
        · split at h
          · cases h; exact finish_inv hi.core
          · cases h; exact ⟨hi.core, trivial⟩
    · split at h
      · cases h; exact crash_inv hi.core [] .key
      · split at h
        · cases h
        · rw [fst_eq h]; exact endAfter_inv hi.core _ _
    · cases h
  | req r => rw [fst_eq h]; exact request_inv hi r

theorem inv_run {s s' : DS} {ls : List Label} {o : List Out} (h : Run s ls s' o) (hi : Inv s) : Inv s' := by
  induction h with
  | nil => exact hi
  | cons h1 _ ih => exact ih (inv_step hi h1)

end Verif.Strat
