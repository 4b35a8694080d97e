import Verif.Strat.Steps
/-!
# Two states that differ in variables only
-/

namespace Verif.Strat
open Verif

/-- The states agree on all but the variables. -/
structure Same (a b : DS) : Prop where
  thr : b.threads = a.threads
  nt : b.nextT = a.nextT
  nf : b.nextF = a.nextF
  dbg : b.dbg = a.dbg
  pc : b.pc = a.pc
  term : b.terminated = a.terminated
  frames : ∀ f, (b.frames.get? f).map (·.task) = (a.frames.get? f).map (·.task)

theorem Same.refl (a : DS) : Same a a := ⟨rfl, rfl, rfl, rfl, rfl, rfl, fun _ => rfl⟩

theorem same_of_ext {a b c : DS} (h : Same a b) (e : VarExt a c) : Same c b where
  thr := h.thr.trans e.thr.symm
  nt := h.nt.trans e.nt.symm
  nf := h.nf.trans e.nf.symm
  dbg := h.dbg.trans e.dbg.symm
  pc := h.pc.trans e.pc.symm
  term := h.term.trans e.term.symm
  frames := fun f => by
    have := congrArg (Option.map (fun r : Task × Addr × Addr => r.1)) (e.frames f)
    simp only [Option.map_map] at this
    rw [h.frames f]
    exact this.symm

variable {a b : DS}

theorem same_threadOf (h : Same a b) (k : Nat) : threadOf b k = threadOf a k := by
  unfold threadOf; rw [h.thr]

theorem same_hostThread (h : Same a b) (k : Nat) :
    (hostThread b k).2 = (hostThread a k).2 ∧ Same (hostThread a k).1 (hostThread b k).1 := by
  unfold hostThread
  rw [same_threadOf h]
  cases threadOf a k with
  | some th => exact ⟨rfl, h⟩
  | none =>
    simp only [addThread, h.nt]
    exact ⟨trivial, by rw [h.thr], rfl, h.nf, h.dbg, h.pc, h.term, h.frames⟩

theorem same_setThreads (h : Same a b) (T : Dict Nat Thread) : Same { a with threads := T } { b with threads := T } :=
  ⟨rfl, h.nt, h.nf, h.dbg, h.pc, h.term, h.frames⟩

theorem same_setPc (h : Same a b) (p : Pc) : Same { a with pc := p } { b with pc := p } :=
  ⟨h.thr, h.nt, h.nf, h.dbg, rfl, h.term, h.frames⟩

theorem same_exit (h : Same a b) : (exitThreads b).2 = (exitThreads a).2 ∧ Same (exitThreads a).1 (exitThreads b).1 := by
  unfold exitThreads
  rw [h.thr]
  exact ⟨rfl, same_setThreads h _⟩

theorem same_finish (h : Same a b) (p : Pc) : (finish b p).2 = (finish a p).2 ∧ Same (finish a p).1 (finish b p).1 :=
  ⟨(same_exit h).1, same_setPc (same_exit h).2 p⟩

theorem same_crash (h : Same a b) (o : List Out) (e : PyErr) : (crash b o e).2 = (crash a o e).2 ∧ Same (crash a o e).1 (crash b o e).1 :=
  ⟨by unfold crash; rw [(same_finish h _).1], (same_finish h _).2⟩

/-- Both results are the same exception, or states that agree. -/
def SameRes (x y : Except PyErr (DS × Thread)) : Prop :=
  (∃ e, x = .error e ∧ y = .error e) ∨ ∃ s t th, x = .ok (s, th) ∧ y = .ok (t, th) ∧ Same s t ∧ s.core ∧ t.core ∧ s.threads.get? th.id = some th

theorem same_pop (h : Same a b) (ca : a.core) (cb : b.core) {th : Thread} (ht : a.threads.get? th.id = some th) :
    SameRes (popFrame a th) (popFrame b th) := by
  have ht' : b.threads.get? th.id = some th := by rw [h.thr]; exact ht
  cases hf : th.frames with
  | nil => exact .inl ⟨.index, by simp [popFrame, hf], by simp [popFrame, hf]⟩
  | cons f fs =>
    obtain ⟨s, h1, c1, t1, f1, -, n1, n2, n3, n4, n5, n6, -⟩ := popFrame_ok ca ht hf
    obtain ⟨t, g1, d1, t2, f2, -, m1, m2, m3, m4, m5, m6, -⟩ := popFrame_ok cb ht' hf
    refine .inr ⟨s, t, _, h1, g1, ⟨?_, ?_, ?_, ?_, ?_, ?_, ?_⟩, c1, d1, ?_⟩
    · rw [t1, t2, h.thr]
    · rw [n1, m1, h.nt]
    · rw [n2, m2, h.nf]
    · rw [n4, m4, h.dbg]
    · rw [n5, m5, h.pc]
    · rw [n6, m6, h.term]
    · intro k
      rw [f1, f2, DL.get_erase, DL.get_erase]
      split
      · rfl
      · exact h.frames k
    · rw [t1]; simp only [DL.get_set, if_true]

theorem same_sync (h : Same a b) (ca : a.core) (cb : b.core) {th : Thread} (ht : a.threads.get? th.id = some th) (t : Task) :
    SameRes (syncFrames a th t) (syncFrames b th t) := by
  have stay : SameRes (.ok (a, th)) (.ok (b, th)) := .inr ⟨a, b, th, rfl, rfl, h, ca, cb, ht⟩
  unfold syncFrames
  cases th.frames with
  | nil => exact stay
  | cons f fs =>
    simp only
    cases t.parents with
    | nil => exact .inl ⟨_, rfl, rfl⟩
    | cons p ps =>
      simp only
      have hf := h.frames f
      cases ha : a.frames.get? f with
      | none =>
        cases hb : b.frames.get? f with
        | none => exact .inl ⟨_, rfl, rfl⟩
        | some y => rw [ha, hb] at hf; cases hf
      | some x =>
        cases hb : b.frames.get? f with
        | none => rw [ha, hb] at hf; cases hf
        | some y =>
          rw [ha, hb] at hf
          simp only [Option.map_some, Option.some.injEq] at hf
          simp only
          have hrm : roleMissing y ps t = roleMissing x ps t := by unfold roleMissing; rw [hf]
          rw [hrm]
          by_cases hm : roleMissing x ps t = true
          · rw [if_pos hm, if_pos hm]; exact .inl ⟨_, rfl, rfl⟩
          rw [if_neg hm, if_neg hm]
          cases ps with
          | nil => exact same_pop h ca cb ht
          | cons q qs =>
            simp only [hf]
            split
            · exact same_pop h ca cb ht
            · exact stay

theorem same_push (h : Same a b) (th : Thread) (t : Task) (x y : Addr) :
    (pushFrame b th t x y).2 = (pushFrame a th t x y).2 ∧ Same (pushFrame a th t x y).1 (pushFrame b th t x y).1 := by
  unfold pushFrame
  simp only [h.nf, h.thr, true_and]
  refine ⟨rfl, h.nt, by simp only, h.dbg, h.pc, h.term, ?_⟩
  intro k
  simp only [DL.get_set]
  split
  · rfl
  · exact h.frames k

theorem same_bpFor (h : Same a b) (t : Task) (c : Nat → Bool) : bpFor b t c = bpFor a t c := by
  unfold bpFor; rw [h.dbg]

theorem same_decide (h : Same a b) (th : Thread) (t : Task) (c : Nat → Bool) :
    (decideStop b th t c).2 = (decideStop a th t c).2 ∧ Same (decideStop a th t c).1 (decideStop b th t c).1 := by
  unfold decideStop
  rw [same_bpFor h]
  cases t.path with
  | none => exact ⟨rfl, h⟩
  | some p =>
    simp only
    cases whyBreak th (t.node, t.parents) (bpFor a t c) with
    | none => exact ⟨rfl, h⟩
    | some w =>
      simp only [h.thr]
      exact ⟨trivial, same_setPc (same_setThreads h _) _⟩

theorem startTask_unfold (s : DS) (k : Nat) (t : Task) (x y : Addr) (c : Nat → Bool) :
    startTask s k t x y c = match syncFrames (hostThread s k).1 (hostThread s k).2.1 t with
      | .error e => crash (hostThread s k).1 (hostThread s k).2.2 e
      | .ok (s1, th) => ((decideStop (pushFrame s1 th t x y).1 (pushFrame s1 th t x y).2 t c).1,
          (hostThread s k).2.2 ++ (decideStop (pushFrame s1 th t x y).1 (pushFrame s1 th t x y).2 t c).2) := by
  unfold startTask hostThread
  cases threadOf s k <;> rfl

theorem same_start (h : Same a b) (ca : a.core) (cb : b.core) (k : Nat) (t : Task) (x y : Addr) (c : Nat → Bool) :
    (startTask b k t x y c).2 = (startTask a k t x y c).2 ∧ Same (startTask a k t x y c).1 (startTask b k t x y c).1 := by
  obtain ⟨e1, e2⟩ := same_hostThread h k
  obtain ⟨c1, h1, -⟩ := hostThread_spec ca k
  obtain ⟨c2, h2, -⟩ := hostThread_spec cb k
  rw [startTask_unfold, startTask_unfold, e1]
  rcases same_sync e2 c1 c2 h1 t with ⟨e, g1, g2⟩ | ⟨s, u, th, g1, g2, g3, -⟩
  · rw [g1, g2]; exact same_crash e2 _ _
  · rw [g1, g2]
    simp only
    have hp := same_push g3 th t x y
    rw [hp.1]
    have hd := same_decide hp.2 (pushFrame s th t x y).2 t c
    rw [hd.1]
    exact ⟨rfl, hd.2⟩

theorem same_endAfter (h : Same a b) (ca : a.core) (cb : b.core) (k : Nat) (i : Bool) :
    (endAfter b k i).2 = (endAfter a k i).2 ∧ Same (endAfter a k i).1 (endAfter b k i).1 := by
  unfold endAfter
  rw [show b.threads.get? k = a.threads.get? k by rw [h.thr]]
  cases ht : a.threads.get? k with
  | none => exact same_crash h _ _
  | some th =>
    simp only
    by_cases h1 : th.state = .fin
    · rw [if_pos h1, if_pos h1]; exact same_finish h _
    · rw [if_neg h1, if_neg h1]
      by_cases h2 : i = true
      · rw [if_pos h2, if_pos h2]; exact ⟨rfl, same_setPc h _⟩
      · rw [if_neg h2, if_neg h2]
        have hid := (ca.tid ht).1
        subst hid
        rcases same_pop h ca cb ht with ⟨e, g1, g2⟩ | ⟨s, u, th', g1, g2, g3, -⟩
        · rw [g1, g2]; exact same_crash h _ _
        · rw [g1, g2]; exact ⟨rfl, same_setPc g3 _⟩

theorem same_filters (h : Same a b) : filters b = filters a := by unfold filters; rw [h.dbg]

theorem same_addVar (h : Same a b) (f : Nat) (k k' : Kind) (x y : Addr) : Same (addVar a f k x).1 (addVar b f k' y).1 := by
  refine ⟨h.thr, h.nt, h.nf, h.dbg, h.pc, h.term, ?_⟩
  intro g
  have hf := h.frames f
  have hg := h.frames g
  unfold addVar
  simp only
  cases ha : a.frames.get? f <;> cases hb : b.frames.get? f <;> rw [ha, hb] at hf
  · exact hg
  · cases hf
  · cases hf
  · simp only [DL.get_set]
    split
    · exact hf
    · exact hg

theorem same_setRes (h : Same a b) (f v w : Nat) :
    Same { a with frames := match a.frames.get? f with | none => a.frames | some fr => a.frames.set f { fr with resultId := v } }
      { b with frames := match b.frames.get? f with | none => b.frames | some fr => b.frames.set f { fr with resultId := w } } := by
  refine ⟨h.thr, h.nt, h.nf, h.dbg, h.pc, h.term, ?_⟩
  intro g
  have hf := h.frames f
  have hg := h.frames g
  simp only
  cases ha : a.frames.get? f <;> cases hb : b.frames.get? f <;> rw [ha, hb] at hf
  · exact hg
  · cases hf
  · cases hf
  · simp only [DL.get_set]
    split
    · exact hf
    · exact hg

theorem same_end (h : Same a b) (ca : a.core) (cb : b.core) (k : Nat) (t : Task) (r : Result) (x : Addr) :
    (endTask b k t r x).2 = (endTask a k t r x).2 ∧ Same (endTask a k t r x).1 (endTask b k t r x).1 := by
  unfold endTask
  rw [same_threadOf h, same_filters h]
  cases threadOf a k with
  | none => exact same_crash h _ _
  | some th =>
    simp only
    cases whyException t.parents r (filters a) with
    | none => exact same_endAfter h ca cb _ _
    | some e =>
      simp only [h.thr]
      have hs := same_setThreads h (a.threads.set th.id (afterException th t.parents r (filters a)))
      cases th.frames with
      | nil => exact same_crash hs _ _
      | cons f fs =>
        simp only
        have hf := h.frames f
        cases ha : a.frames.get? f with
        | none =>
          cases hb : b.frames.get? f with
          | none => exact same_crash hs _ _
          | some y => rw [ha, hb] at hf; cases hf
        | some x' =>
          cases hb : b.frames.get? f with
          | none => rw [ha, hb] at hf; cases hf
          | some y =>
            simp only
            exact ⟨trivial, same_setPc (same_setRes (same_addVar hs f _ _ _ _) f _ _) _⟩

theorem same_bpStep (h : Same a b) (x : Bp.Act) : (bpStep b x).2 = (bpStep a x).2 ∧ Same (bpStep a x).1 (bpStep b x).1 := by
  unfold bpStep
  rw [h.dbg]
  exact ⟨rfl, h.thr, h.nt, h.nf, rfl, h.pc, h.term, h.frames⟩

theorem same_registerLine (h : Same a b) (p : Str) (l : Int) (ty : Nat) :
    (registerLine b p l ty).2 = (registerLine a p l ty).2 ∧ Same (registerLine a p l ty).1 (registerLine b p l ty).1 := by
  have hb := same_bpStep h (.reg p l ty)
  unfold registerLine
  rw [h.dbg]
  split
  · exact hb
  · rw [hb.1]; exact same_crash hb.2 _ _

theorem same_resume (h : Same a b) (ts : List Nat) (st : TState) (o : Out) :
    (resumeReq b ts st o).2 = (resumeReq a ts st o).2 ∧ Same (resumeReq a ts st o).1 (resumeReq b ts st o).1 := by
  unfold resumeReq
  rw [h.thr]
  exact ⟨rfl, same_setThreads h _⟩

theorem same_disconnect (h : Same a b) (st : TState) : Same (disconnect a st) (disconnect b st) := by
  unfold disconnect
  rw [h.thr, h.dbg]
  exact ⟨rfl, h.nt, h.nf, rfl, h.pc, h.term, h.frames⟩

/-- Requests that only look at or change variables. -/
def Req.inspects : Req → Bool
  | .stackTrace _ => true
  | .threads => true
  | .scopes _ _ _ => true
  | .variables _ => true
  | .setVariable _ _ _ => true
  | .evaluate _ _ => true
  | _ => false

theorem same_request (h : Same a b) (r : Req) (hr : r.inspects = false) :
    (request b r).2 = (request a r).2 ∧ Same (request a r).1 (request b r).1 := by
  cases r with
  | cont t s => cases s <;> simp only [request, h.thr] <;> exact same_resume h _ _ _
  | stepIn t => exact same_resume h _ _ _
  | stepOut t => exact same_resume h _ _ _
  | next t => exact same_resume h _ _ _
  | disconnect t => exact ⟨rfl, same_disconnect h _⟩
  | terminate => exact ⟨rfl, same_disconnect (a := { a with terminated := true }) (b := { b with terminated := true })
      ⟨h.thr, h.nt, h.nf, h.dbg, h.pc, rfl, h.frames⟩ _⟩
  | closed =>
    refine ⟨rfl, ?_⟩
    simp only [request]
    by_cases ht : a.terminated = true
    · rw [if_pos ht, if_pos (h.term.trans ht)]
      exact ⟨h.thr, h.nt, h.nf, by simp only [h.dbg], h.pc, h.term, h.frames⟩
    · rw [if_neg ht, if_neg (by rw [h.term]; exact ht)]
      exact same_disconnect h _
  | setBps q s m l => exact same_bpStep h _
  | setExc q l => exact same_bpStep h _
  | config m => exact same_bpStep h _
  | _ => cases hr

/-- The same step of two states that agree. -/
theorem same_step {a' : DS} {o : List Out} (h : Same a b) (ia : Inv a) (ib : Inv b) {l : Label} (hl : ∀ r, l = .req r → r.inspects = false)
    (hs : step a l = some (a', o)) : ∃ b', step b l = some (b', o) ∧ Same a' b' := by
  have pack : ∀ {f : DS → DS × List Out}, ((f b).2 = (f a).2 ∧ Same (f a).1 (f b).1) →
      (if a.pc = .running then some (f a) else none) = some (a', o) →
      ∃ b', (if b.pc = .running then some (f b) else none) = some (b', o) ∧ Same a' b' := by
    intro f hf hh
    rw [h.pc]
    split at hh
    · rename_i hp
      rw [if_pos hp]
      cases hfa : f a with
      | mk x y =>
        rw [hfa] at hh hf
        cases hh
        refine ⟨(f b).1, ?_, hf.2⟩
        have e := hf.1
        simp only at e
        rw [← e]
    · cases hh
  have pack1 : ∀ {f : DS → DS × List Out}, ((f b).2 = (f a).2 ∧ Same (f a).1 (f b).1) → some (f a) = some (a', o) →
      ∃ b', some (f b) = some (b', o) ∧ Same a' b' := by
    intro f hf hh
    cases hfa : f a with
    | mk x y =>
      rw [hfa] at hh hf
      cases hh
      refine ⟨(f b).1, ?_, hf.2⟩
      have e := hf.1
      simp only at e
      rw [← e]
  cases l with
  | start k t x y c => exact pack (f := fun s => startTask s k t x y c) (same_start h ia.core ib.core k t x y c) hs
  | done k t r x => exact pack (f := fun s => endTask s k t r x) (same_end h ia.core ib.core k t r x) hs
  | refresh => exact pack (f := exitThreads) (same_exit h) hs
  | newPlay =>
    exact pack (f := fun s => ({ (exitThreads s).1 with threads := [(1, { id := 1 })], frames := [], vars := [] }, (exitThreads s).2))
      ⟨(same_exit h).1, rfl, h.nt, h.nf, h.dbg, h.pc, h.term, fun _ => rfl⟩ hs
  | reg p l ty => exact pack (f := fun s => registerLine s p l ty) (same_registerLine h p l ty) hs
  | env x =>
    exact pack1 (f := fun s => ({ s with heap := x }, [])) ⟨rfl, h.thr, h.nt, h.nf, h.dbg, h.pc, h.term, h.frames⟩ hs
  | wake =>
    simp only [step] at hs ⊢
    rw [h.pc]
    have hg : ∀ k, b.threads.get? k = a.threads.get? k := by intro k; rw [h.thr]
    cases hp : a.pc with
    | waitStart tid =>
      rw [hp] at hs
      simp only [hg] at hs ⊢
      cases ht : a.threads.get? tid with
      | none => rw [ht] at hs; exact pack1 (f := fun s => crash s [] .key) (same_crash h _ _) hs
      | some th =>
        rw [ht] at hs
        simp only at hs ⊢
        split at hs
        · cases hs
        · rename_i h1
          rw [if_neg h1]
          split at hs
          · rename_i h2; rw [if_pos h2]; exact pack1 (f := fun s => finish s .ended) (same_finish h _) hs
          · rename_i h2; rw [if_neg h2]; exact pack1 (f := fun s => ({ s with pc := .running }, [])) ⟨rfl, same_setPc h _⟩ hs
    | waitEnd tid inc =>
      rw [hp] at hs
      simp only [hg] at hs ⊢
      cases ht : a.threads.get? tid with
      | none => rw [ht] at hs; exact pack1 (f := fun s => crash s [] .key) (same_crash h _ _) hs
      | some th =>
        rw [ht] at hs
        simp only at hs ⊢
        split at hs
        · cases hs
        · rename_i h1
          rw [if_neg h1]
          exact pack1 (f := fun s => endAfter s tid inc) (same_endAfter h ia.core ib.core _ _) hs
    | running => rw [hp] at hs; cases hs
    | ended => rw [hp] at hs; cases hs
    | crashed e => rw [hp] at hs; cases hs
  | req r => exact pack1 (f := fun s => request s r) (same_request h r (hl r rfl)) hs

/-- Inspecting leaves all but the variables. -/
theorem inspect_same {a' : DS} {o : List Out} (h : Same a b) (ia : Inv a) {r : Req} (hr : r.inspects = true)
    (hs : step a (.req r) = some (a', o)) : Same a' b := by
  simp only [step, Option.some.injEq] at hs
  have e : a' = (request a r).1 := by rw [hs]
  subst e
  cases r with
  | stackTrace t => exact h
  | threads => exact h
  | scopes f x y => exact same_of_ext h (getScopes_ext a f x y)
  | variables v => exact same_of_ext h (getVariables_ext ia.core v)
  | setVariable v n t => exact same_of_ext h (setVariable_ext ia.core v n t)
  | evaluate f e => exact same_of_ext h (evaluate_ext a f e)
  | _ => cases hr

/-- Thread events, stops, continue answers and breakpoint messages. -/
def Out.control : Out → Bool
  | .started _ => true
  | .exited _ => true
  | .stopped _ _ => true
  | .continued _ => true
  | .bp _ => true
  | _ => false

theorem inspect_quiet {a' : DS} {o : List Out} {r : Req} (hr : r.inspects = true) (hs : step a (.req r) = some (a', o)) :
    o.filter Out.control = [] := by
  simp only [step, Option.some.injEq] at hs
  have e : o = (request a r).2 := by rw [hs]
  subst e
  have all : ∀ n x is s, (setAll s n x is).2.filter Out.control = [] := by
    intro n x is
    induction is with
    | nil => intro s; rfl
    | cons i is ih =>
      intro s
      simp only [setAll]
      split
      · rfl
      · split
        · rfl
        · exact ih _
  cases r with
  | stackTrace t => simp only [request, stackTrace]; split; rfl; split <;> rfl
  | threads => rfl
  | scopes f x y =>
    simp only [request, getScopes]
    repeat' split
    all_goals rfl
  | variables v => simp only [request, getVariables]; split <;> rfl
  | setVariable v n t =>
    simp only [request, setVariable]
    repeat' split
    all_goals rfl
  | evaluate f e =>
    simp only [request, evaluate]
    repeat' split
    all_goals first | rfl | exact all _ _ _ _
  | _ => cases hr

/-- The label is not an inspecting request. -/
def Label.keeps : Label → Bool
  | .req r => !r.inspects
  | _ => true

theorem same_run {a' : DS} {ls : List Label} {os : List Out} (hrun : Run a ls a' os) :
    ∀ {b : DS}, Same a b → Inv a → Inv b →
    ∃ b' os', Run b (ls.filter Label.keeps) b' os' ∧ Same a' b' ∧ os'.filter Out.control = os.filter Out.control := by
  induction hrun with
  | nil s => intro b h _ _; exact ⟨b, [], .nil _, h, rfl⟩
  | @cons s s1 s2 l ls o os h1 _ ih =>
    intro b h ia ib
    have i1 := inv_step ia h1
    by_cases hk : ∃ r, l = .req r ∧ r.inspects = true
    · obtain ⟨r, rfl, hr⟩ := hk
      obtain ⟨b', os', r1, r2, r3⟩ := ih (inspect_same h ia hr h1) i1 ib
      refine ⟨b', os', ?_, r2, ?_⟩
      · rw [List.filter_cons_of_neg (by simp [Label.keeps, hr])]; exact r1
      · rw [List.filter_append, inspect_quiet hr h1]; exact r3
    · have hl : ∀ r, l = .req r → r.inspects = false := by
        intro r e
        cases hi : r.inspects with
        | false => rfl
        | true => exact absurd ⟨r, e, hi⟩ hk
      obtain ⟨b1, g1, g2⟩ := same_step h ia ib hl h1
      obtain ⟨b', os', r1, r2, r3⟩ := ih g2 i1 (inv_step ib g1)
      refine ⟨b', o ++ os', ?_, r2, ?_⟩
      · have hkeep : l.keeps = true := by
          cases l <;> simp [Label.keeps]
          exact hl _ rfl
        rw [List.filter_cons_of_pos hkeep]
        exact .cons g1 r1
      · rw [List.filter_append, List.filter_append, r3]

theorem Same.symm (h : Same a b) : Same b a :=
  ⟨h.thr.symm, h.nt.symm, h.nf.symm, h.dbg.symm, h.pc.symm, h.term.symm, fun f => (h.frames f).symm⟩

theorem same_insert (ls : List Label) : ∀ {a a' b : DS} {os : List Out}, Run a (ls.filter Label.keeps) a' os → Same a b → Inv a → Inv b →
    ∃ b' os', Run b ls b' os' ∧ Same a' b' ∧ os'.filter Out.control = os.filter Out.control := by
  induction ls with
  | nil =>
    intro a a' b os hrun h _ _
    cases hrun
    exact ⟨b, [], .nil _, h, rfl⟩
  | cons l ls ih =>
    intro a a' b os hrun h ia ib
    by_cases hk : l.keeps = true
    · rw [List.filter_cons_of_pos hk] at hrun
      cases hrun with
      | @cons _ s1 _ _ _ o os h1 h2 =>
        have hl : ∀ r, l = .req r → r.inspects = false := by
          rintro r rfl
          simpa [Label.keeps] using hk
        obtain ⟨b1, g1, g2⟩ := same_step h ia ib hl h1
        obtain ⟨b', os', r1, r2, r3⟩ := ih h2 g2 (inv_step ia h1) (inv_step ib g1)
        exact ⟨b', o ++ os', .cons g1 r1, r2, by rw [List.filter_append, List.filter_append, r3]⟩
    · rw [List.filter_cons_of_neg hk] at hrun
      have : ∃ r, l = .req r ∧ r.inspects = true := by
        cases l with
        | req r => exact ⟨r, rfl, by simpa [Label.keeps] using hk⟩
        | _ => exact absurd rfl hk
      obtain ⟨r, rfl, hr⟩ := this
      have hs : step b (.req r) = some ((request b r).1, (request b r).2) := rfl
      obtain ⟨b', os', r1, r2, r3⟩ := ih hrun (inspect_same h.symm ib hr hs).symm ia (inv_step ib hs)
      exact ⟨b', (request b r).2 ++ os', .cons hs r1, r2, by rw [List.filter_append, inspect_quiet hr hs]; exact r3⟩

end Verif.Strat
