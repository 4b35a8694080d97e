import Verif.Strat.Ctl
/-!
# Resuming and running free

What requests do to the state of threads, and states in which nothing can stop the playbook.
-/

namespace Verif.Strat
open Verif

theorem setState_awake (th : Thread) {st : TState} (h : st ≠ .wait) : (setState th st).state ≠ .wait := by
  unfold setState
  split
  · exact h
  · split
    · simp
    · split
      · simp
      · exact h

theorem setState_fin (th : Thread) {st : TState} (h : st ≠ .fin) : (setState th st).state ≠ .fin := by
  unfold setState
  split
  · exact h
  · split
    · simp
    · split
      · simp
      · exact h

/-- What a request does to a thread: nothing, or a new state that is not "waiting". -/
theorem request_thread {s : DS} (hi : Inv s) (r : Req) {k : Nat} {th : Thread} (h : s.threads.get? k = some th) :
    (request s r).1.threads.get? k = some th ∨
    ∃ st, st ≠ .wait ∧ (¬ Ends r → st ≠ .fin) ∧ (request s r).1.threads.get? k = some (setState th st) := by
  have one : ∀ t st o, st ≠ TState.wait → st ≠ .fin → (resumeReq s [t] st o).1.threads.get? k = some th ∨
      ∃ st', st' ≠ .wait ∧ (¬ Ends r → st' ≠ .fin) ∧ (resumeReq s [t] st o).1.threads.get? k = some (setState th st') := by
    intro t st o h1 h2
    rcases resume_get st [t] s.threads k (by simp) with e | ⟨-, th', e1, e2⟩
    · exact .inl (by simp only [resumeReq]; rw [e, h])
    · rw [h] at e1; cases e1
      exact .inr ⟨st, h1, fun _ => h2, e2⟩
  have all := fun st => resume_every hi h st
  have ext : ∀ {s'}, VarExt s s' → s'.threads.get? k = some th := fun e => by rw [e.thr, h]
  cases r with
  | cont t single =>
    cases single
    · exact .inr ⟨.cont, by simp, by simp, all .cont⟩
    · exact one t .cont (.continued false) (by simp) (by simp)
  | stepIn t => exact one t .stepIn .ok (by simp) (by simp)
  | stepOut t => exact one t .stepOut .ok (by simp) (by simp)
  | next t => exact one t .stepOver .ok (by simp) (by simp)
  | scopes f a g => exact .inl (ext (getScopes_ext s f a g))
  | variables r => exact .inl (ext (getVariables_ext hi.core r))
  | setVariable r n t => exact .inl (ext (setVariable_ext hi.core r n t))
  | evaluate f e => exact .inl (ext (evaluate_ext s f e))
  | disconnect b =>
    cases b
    · exact .inr ⟨.cont, by simp, by simp, all .cont⟩
    · exact .inr ⟨.fin, by simp, fun hn => absurd rfl hn, all .fin⟩
  | terminate => exact .inr ⟨.fin, by simp, fun hn => absurd trivial hn, all .fin⟩
  | closed =>
    simp only [request]
    split
    · exact .inl h
    · exact .inr ⟨.cont, by simp, by simp, all .cont⟩
  | _ => exact .inl h

/-- A request that names the thread sets its state. -/
theorem request_resumes {s : DS} (hi : Inv s) {r : Req} {k : Nat} {th : Thread} (h : s.threads.get? k = some th) (hr : Resumes k r)
    (hc : r = .closed → s.terminated = false) :
    ∃ st, st ≠ .wait ∧ (¬ Ends r → st ≠ .fin) ∧ (request s r).1.threads.get? k = some (setState th st) := by
  have all := fun st => resume_every hi h st
  cases r with
  | cont t single =>
    cases single
    · exact ⟨.cont, by simp, by simp, all .cont⟩
    · rcases hr with hr | rfl
      · cases hr
      · exact ⟨.cont, by simp, by simp, resume_one h _ _⟩
  | stepIn t => cases (show t = k from hr); exact ⟨.stepIn, by simp, by simp, resume_one h _ _⟩
  | stepOut t => cases (show t = k from hr); exact ⟨.stepOut, by simp, by simp, resume_one h _ _⟩
  | next t => cases (show t = k from hr); exact ⟨.stepOver, by simp, by simp, resume_one h _ _⟩
  | disconnect b =>
    cases b
    · exact ⟨.cont, by simp, by simp, all .cont⟩
    · exact ⟨.fin, by simp, fun hn => absurd rfl hn, all .fin⟩
  | terminate => exact ⟨.fin, by simp, fun hn => absurd trivial hn, all .fin⟩
  | closed =>
    simp only [request, hc rfl]
    exact ⟨.cont, by simp, by simp, all .cont⟩
  | _ => exact absurd hr id

/-- While the playbook waits for an awake thread it stays so, until it wakes up. -/
theorem awake_run {s s' : DS} {ls : List Label} {o : List Out} (h : Run s ls s' o) (hi : Inv s) {tid : Nat} (hw : Waits tid s)
    {th : Thread} (ht : s.threads.get? tid = some th) (ha : th.state ≠ .wait) (hl : ∀ l ∈ ls, NotPlaybook l) :
    Waits tid s' ∧ ∃ th', s'.threads.get? tid = some th' ∧ th'.state ≠ .wait ∧
      ((th.state ≠ .fin ∧ ∀ r, Label.req r ∈ ls → ¬ Ends r) → th'.state ≠ .fin) := by
  induction h generalizing th with
  | nil => exact ⟨hw, th, ht, ha, fun h => h.1⟩
  | @cons s s₁ s₂ l ls o os h1 h2 ih =>
    have i1 := inv_step hi h1
    have hl' : ∀ l ∈ ls, NotPlaybook l := fun l hm => hl l (by simp [hm])
    cases l with
    | env hp =>
      cases h1
      obtain ⟨a1, th', a2, a3, a4⟩ := ih i1 hw ht ha hl'
      exact ⟨a1, th', a2, a3, fun g => a4 ⟨g.1, fun r hm => g.2 r (by simp [hm])⟩⟩
    | req r =>
      have hw1 : Waits tid s₁ := by
        unfold Waits at hw ⊢
        rw [fst_eq h1, request_pc s hi r]; exact hw
      rcases request_thread hi r ht with e | ⟨st, e1, e2, e3⟩
      · rw [← fst_eq h1] at e
        obtain ⟨a1, th', a2, a3, a4⟩ := ih i1 hw1 e ha hl'
        exact ⟨a1, th', a2, a3, fun g => a4 ⟨g.1, fun r hm => g.2 r (by simp [hm])⟩⟩
      · rw [← fst_eq h1] at e3
        obtain ⟨a1, th', a2, a3, a4⟩ := ih i1 hw1 e3 (setState_awake _ e1) hl'
        exact ⟨a1, th', a2, a3, fun g => a4 ⟨setState_fin _ (e2 (g.2 r (by simp))), fun r hm => g.2 r (by simp [hm])⟩⟩
    | _ => exact absurd (hl _ List.mem_cons_self) id

/-- The playbook wakes up when its thread is awake. -/
theorem wake_of {s : DS} (hi : Inv s) {tid : Nat} (hw : Waits tid s) {th : Thread} (ht : s.threads.get? tid = some th)
    (ha : th.state ≠ .wait) : ∃ s' o, step s .wake = some (s', o) ∧ (∀ k, ¬ Stops k o) ∧
      bif th.state == .fin then s'.pc = .ended else s'.pc = .running := by
  have nofin : ∀ k, ¬ Stops k (finish s .ended).2 := by
    rintro k ⟨w, hw⟩
    obtain ⟨j, hj⟩ := exit_out _ _ hw; cases hj
  rcases hw with e | ⟨i, e⟩
  · by_cases hf : th.state = .fin
    · exact ⟨_, _, by simp only [step, e, ht]; rw [if_neg ha, if_pos hf], nofin, by rw [hf]; rfl⟩
    · refine ⟨_, _, by simp only [step, e, ht]; rw [if_neg ha, if_neg hf], (by rintro k ⟨w, hw⟩; cases hw), ?_⟩
      have : (th.state == TState.fin) = false := by simp [hf]
      rw [this]; rfl
  · refine ⟨(endAfter s tid i).1, (endAfter s tid i).2, by simp only [step, e, ht]; rw [if_neg ha], (endAfter_spec hi.core tid i).1, ?_⟩
    have hp := hi.pc
    simp only [PcOk, e] at hp
    obtain ⟨th', h1, h2⟩ := hp
    rw [ht] at h1; cases h1
    unfold endAfter
    simp only [ht]
    split
    · rename_i hf; rw [hf]; rfl
    · rename_i hf
      have : (th.state == TState.fin) = false := by simp [hf]
      rw [this]
      split
      · rfl
      · cases hff : th.frames with
        | nil => exact absurd hff h2
        | cons f fs =>
          obtain ⟨s', g0, -⟩ := popFrame_ok hi.core (by rw [(hi.core.tid ht).1]; exact ht) hff
          rw [g0]; rfl

/-! ## Nothing to stop at -/

/-- No breakpoint, the filters `F`, and every thread continues (or is to end, when terminated). -/
structure Free (b : Bool) (F : Filters) (s : DS) : Prop where
  bps : s.dbg.bps = []
  flt : filters s = F
  st : ∀ k c, ctl s k = some c → c.1 = .cont ∨ (b = true ∧ c.1 = .fin)
  term : b = true → s.terminated = true

theorem register_bps {s : Bp.Dbg} (h : s.bps = []) (p : Str) (l : Int) (ty : Nat) :
    (Bp.register p l ty s).1.bps = [] ∧ (Bp.register p l ty s).1.exc = s.exc := by
  unfold Bp.register
  simp only
  split
  · exact ⟨h, rfl⟩
  · simp [h, Bp.refresh]

theorem filters_exc {s s' : DS} (h : s'.dbg.exc = s.dbg.exc) : filters s' = filters s := by
  simp only [filters, Bp.shouldStop, h]

theorem Free.why {b : Bool} {F : Filters} {s : DS} (f : Free b F s) (h : Nat) (t : Task) (c : Nat → Bool) (hi : Inv s) :
    whyStop s (hostThread s h).2.1 t c = none ∧
      ((hostThread s h).2.1.state = .cont ∨ (b = true ∧ (hostThread s h).2.1.state = .fin)) := by
  have hst : (hostThread s h).2.1.state = .cont ∨ (b = true ∧ (hostThread s h).2.1.state = .fin) := by
    unfold hostThread
    cases ht : threadOf s h with
    | none => left; rfl
    | some th =>
      obtain ⟨-, h2⟩ := threadOf_some hi.core ht
      exact f.st th.id _ (by simp only [ctl, h2, Option.map_some]; rfl)
  refine ⟨?_, hst⟩
  have hb : bpFor s t c = none := by
    unfold bpFor
    split
    · rfl
    · simp [Bp.getBreakpoint, f.bps]
  unfold whyStop
  split
  · rfl
  · rw [hb]
    unfold whyBreak breakOver breakOut
    rcases hst with e | ⟨-, e⟩ <;> (rw [e]; cases (hostThread s h).2.1.stopped <;> simp)

theorem ctl_exit {s : DS} {k : Nat} {c} (h : ctl (exitThreads s).1 k = some c) : ctl s k = some c := by
  simp only [ctl, exitThreads] at h ⊢
  rw [DL.get_filter s.threads (fun k => decide (k = 1))] at h
  split at h
  · exact h
  · cases h

theorem Free.finish {b : Bool} {F : Filters} {s : DS} (f : Free b F s) (pc : Pc) : Free b F (Strat.finish s pc).1 :=
  ⟨f.bps, f.flt, fun k c h => f.st k c (ctl_exit h), f.term⟩

theorem Free.request {b : Bool} {F : Filters} {s : DS} (f : Free b F s) (hi : Inv s) {r : Req} (hp : Passive r) :
    Free b F (Strat.request s r).1 ∧ (b = true → ∀ k, ctl (Strat.request s r).1 k = ctl s k) := by
  have ext : ∀ {s'}, VarExt s s' → Free b F s' ∧ (b = true → ∀ k, ctl s' k = ctl s k) := by
    intro s' e
    refine ⟨⟨by rw [e.dbg]; exact f.bps, (filters_exc (by rw [e.dbg])).trans f.flt, ?_, fun hb => by rw [e.term]; exact f.term hb⟩,
      fun _ k => ctl_ext e k⟩
    intro k c h
    rw [ctl_ext e] at h
    exact f.st k c h
  cases r with
  | stackTrace t => exact ⟨f, fun _ _ => rfl⟩
  | threads => exact ⟨f, fun _ _ => rfl⟩
  | scopes x y z => exact ext (getScopes_ext s x y z)
  | variables x => exact ext (getVariables_ext hi.core x)
  | setVariable x n t => exact ext (setVariable_ext hi.core x n t)
  | evaluate x e => exact ext (evaluate_ext s x e)
  | config ms => exact ⟨⟨f.bps, f.flt, f.st, f.term⟩, fun _ _ => rfl⟩
  | closed =>
    simp only [Strat.request]
    split
    · exact ⟨⟨rfl, f.flt, f.st, f.term⟩, fun _ _ => rfl⟩
    · rename_i hn
      have hb : b = false := by
        cases b with
        | false => rfl
        | true => exact absurd (f.term rfl) hn
      refine ⟨⟨rfl, f.flt, ?_, f.term⟩, fun h => by rw [hb] at h; cases h⟩
      intro k c h
      simp only [ctl, disconnect] at h
      cases hk : s.threads.get? k with
      | none =>
        rcases resume_get .cont (s.threads.map (·.1)) s.threads k hi.core.tnd with e | ⟨-, th', e1, -⟩
        · rw [e, hk] at h; cases h
        · rw [hk] at e1; cases e1
      | some th =>
        rw [resume_every hi hk .cont] at h
        simp only [Option.map_some, Option.some.injEq] at h
        left
        rw [← h]
        unfold setState
        split
        · rfl
        · simp
  | _ => exact absurd hp id

/-- In a free state no step stops a host unless a filter applies to the result of a task, and what follows is free. -/
theorem Free.step {b : Bool} {F : Filters} {s s' : DS} {l : Label} {o : List Out} (f : Free b F s) (hi : Inv s) (h : Strat.step s l = some (s', o))
    (hr : ∀ r, l = .req r → Passive r) (hd : ∀ host t r res, l = .done host t r res → whyException t.parents r F = none) :
    Free b F s' ∧ (∀ k, ¬ Stops k o) ∧ ∀ k, b = true → ctl s k ≠ none → ¬ Removes l → ¬ Over s' → ctl s' k = ctl s k := by
  have nil : ∀ k, ¬ Stops k [] := by rintro k ⟨w, hw⟩; cases hw
  cases l with
  | start host t tv a c =>
    simp only [Strat.step] at h
    split at h
    · rename_i hp
      rw [fst_eq h, snd_eq h]
      obtain ⟨w1, w2⟩ := f.why host t c hi
      rcases start_spec hi hp host t tv a c with ⟨e, -, he⟩ | ⟨s1, th1, -, e1, e2, e3, -, e5, e6⟩
      · rw [he]
        obtain ⟨p1, p2, p3, -⟩ := hostThread_pc s host
        have f' : Free b F (hostThread s host).1 := by
          refine ⟨by rw [p2]; exact f.bps, (filters_exc (by rw [p2])).trans f.flt, ?_, fun hb => by rw [p3]; exact f.term hb⟩
          intro k c hk
          by_cases hkk : k = (hostThread s host).2.1.id
          · obtain ⟨-, h1, -⟩ := hostThread_spec hi.core host
            subst hkk
            simp only [ctl, h1, Option.map_some, Option.some.injEq] at hk
            rw [← hk]; exact w2
          · simp only [ctl, hostThread_other s host hkk] at hk
            exact f.st k c hk
        exact ⟨f'.finish _, crash_stops (hostThread_out s host), fun _ _ _ _ ho => absurd (.inr ⟨e, rfl⟩) ho⟩
      · have hns : ∀ k, ¬ Stops k (startTask s host t tv a c).2 := by
          rintro k ⟨w, hw⟩
          rw [e1, w1] at hw
          simp only [List.append_nil] at hw
          obtain ⟨j, hj⟩ := hostThread_out s host _ hw; cases hj
        refine ⟨⟨by rw [e5]; exact f.bps, (filters_exc (by rw [e5])).trans f.flt, ?_, fun hb => by rw [e6]; exact f.term hb⟩, hns, ?_⟩
        · intro k x hk
          by_cases hkk : k = (hostThread s host).2.1.id
          · subst hkk
            rw [e2, w1] at hk
            cases hk; exact w2
          · rw [e3 k hkk] at hk
            exact f.st k x hk
        · intro k _ hex hm ho
          rw [← fst_eq h]
          refine ctl_step hi (l := .start host t tv a c) (o := o) ?_ hex (fun r hr => by cases hr) hm ?_ ?_
          · simp only [Strat.step, hp, if_true]; exact h
          · rw [snd_eq h]; exact hns k
          · rw [fst_eq h]; exact ho
    · cases h
  | done host t r res =>
    have h0 := h
    simp only [Strat.step] at h
    split at h
    · rename_i hp
      have hn : whyException t.parents r (filters s) = none := by
        rw [f.flt]; exact hd _ _ _ _ rfl
      have key : Free b F (endTask s host t r res).1 ∧ ∀ k, ¬ Stops k (endTask s host t r res).2 := by
        unfold endTask
        split
        · exact ⟨f.finish _, crash_stops (by simp)⟩
        · rename_i th hth
          rw [hn]
          simp only
          refine ⟨?_, (endAfter_spec hi.core _ _).1⟩
          unfold endAfter
          split
          · exact f.finish _
          · split
            · exact f.finish _
            · split
              · exact ⟨f.bps, f.flt, f.st, f.term⟩
              · rename_i th2 ht2 _ _
                split
                · exact f.finish _
                · rename_i s2 th3 hpop
                  have hid : th2.id = th.id := (hi.core.tid ht2).1
                  cases hff : th2.frames with
                  | nil => simp [popFrame, hff] at hpop
                  | cons x xs =>
                    obtain ⟨s3, g0, g1, g2, -, -, g5, g6, g7, g8, g9, g10, -⟩ := popFrame_ok hi.core (by rw [hid]; exact ht2) hff
                    rw [g0] at hpop; cases hpop
                    refine ⟨by simp only; rw [g8]; exact f.bps, ?_, ?_, fun hb => g10.trans (f.term hb)⟩
                    · rw [← f.flt]; exact filters_exc (by simp only; rw [g8])
                    · intro k c hk
                      refine f.st k c ?_
                      rw [← hk]
                      simp only [ctl, g2, DL.get_set]
                      split
                      · rename_i e; subst e; rw [hid, ht2]; rfl
                      · rfl
      rw [fst_eq h, snd_eq h]
      refine ⟨key.1, key.2, ?_⟩
      intro k _ hex hm ho
      rw [← fst_eq h]
      refine ctl_step hi h0 hex (fun r hr => by cases hr) hm ?_ ?_
      · rw [snd_eq h]; exact key.2 k
      · rw [fst_eq h]; exact ho
    · cases h
  | refresh =>
    simp only [Strat.step] at h
    split at h
    · rw [fst_eq h, snd_eq h]
      refine ⟨⟨f.bps, f.flt, fun k c hk => f.st k c (ctl_exit hk), f.term⟩, ?_, fun _ _ _ hm => absurd trivial hm⟩
      rintro k ⟨w, hw⟩
      obtain ⟨j, hj⟩ := exit_out _ _ hw; cases hj
    · cases h
  | newPlay =>
    simp only [Strat.step] at h
    split at h
    · rw [fst_eq h, snd_eq h]
      refine ⟨⟨f.bps, f.flt, ?_, f.term⟩, ?_, fun _ _ _ hm => absurd trivial hm⟩
      · intro k c hk
        simp only [ctl, Dict.get?] at hk
        split at hk
        · simp at hk; left; rw [← hk]
        · cases hk
      · rintro k ⟨w, hw⟩
        obtain ⟨j, hj⟩ := exit_out _ _ hw; cases hj
    · cases h
  | reg p l ty =>
    simp only [Strat.step] at h
    split at h
    · rw [fst_eq h, snd_eq h]
      have e := register_bps f.bps p l ty
      have f' : Free b F (bpStep s (.reg p l ty)).1 := ⟨e.1, by rw [← f.flt]; exact filters_exc e.2, f.st, f.term⟩
      have q := registerLine_stops s p l ty
      rcases registerLine_cases s p l ty with hr | ⟨e', -, hr⟩ <;> rw [hr] at q ⊢
      · exact ⟨f', q, fun _ _ _ _ _ => rfl⟩
      · exact ⟨f'.finish _, q, fun _ _ _ _ ho => absurd (.inr ⟨_, rfl⟩) ho⟩
    · cases h
  | env hp => cases h; exact ⟨⟨f.bps, f.flt, f.st, f.term⟩, nil, fun _ _ _ _ _ => rfl⟩
  | wake =>
    have h0 := h
    have key : Free b F s' ∧ ∀ k, ¬ Stops k o := by
      simp only [Strat.step] at h
      have fin : ∀ pc k, ¬ Stops k (Strat.finish s pc).2 := by
        rintro pc k ⟨w, hw⟩
        obtain ⟨j, hj⟩ := exit_out _ _ hw; cases hj
      split at h
      · split at h
        · rw [fst_eq h, snd_eq h]; exact ⟨f.finish _, crash_stops (by simp)⟩
        · split at h
          · cases h
          · split at h
            · rw [fst_eq h, snd_eq h]; exact ⟨f.finish _, fin _⟩
            · rw [fst_eq h, snd_eq h]; exact ⟨⟨f.bps, f.flt, f.st, f.term⟩, nil⟩
      · split at h
        · rw [fst_eq h, snd_eq h]; exact ⟨f.finish _, crash_stops (by simp)⟩
        · split at h
          · cases h
          · rw [fst_eq h, snd_eq h]
            refine ⟨?_, (endAfter_spec hi.core _ _).1⟩
            unfold endAfter
            rename_i tid _ _ _ th ht _
            rw [ht]
            simp only
            split
            · exact f.finish _
            · split
              · exact ⟨f.bps, f.flt, f.st, f.term⟩
              · split
                · exact f.finish _
                · rename_i s2 th3 hpop
                  have hid : th.id = tid := (hi.core.tid ht).1
                  cases hff : th.frames with
                  | nil => simp [popFrame, hff] at hpop
                  | cons x xs =>
                    obtain ⟨s3, g0, g1, g2, -, -, g5, g6, g7, g8, g9, g10, -⟩ := popFrame_ok hi.core (by rw [hid]; exact ht) hff
                    rw [g0] at hpop; cases hpop
                    refine ⟨by simp only; rw [g8]; exact f.bps, ?_, ?_, fun hb => g10.trans (f.term hb)⟩
                    · rw [← f.flt]; exact filters_exc (by simp only; rw [g8])
                    · intro k c hk
                      refine f.st k c ?_
                      rw [← hk]
                      simp only [ctl, g2, DL.get_set]
                      split
                      · rename_i e; subst e; rw [hid, ht]; rfl
                      · rfl
      · cases h
    exact ⟨key.1, key.2, fun k _ hex hm ho => ctl_step hi h0 hex (fun r hr => by cases hr) hm (key.2 k) ho⟩
  | req r =>
    rw [fst_eq h, snd_eq h]
    obtain ⟨a1, a2⟩ := f.request hi (hr r rfl)
    exact ⟨a1, request_stops s r, fun k hb _ _ _ => a2 hb k⟩

theorem Free.run {b : Bool} {F : Filters} {s s' : DS} {ls : List Label} {o : List Out} (h : Run s ls s' o) (f : Free b F s) (hi : Inv s)
    (hr : ∀ r, Label.req r ∈ ls → Passive r) (hd : ∀ host t r res, Label.done host t r res ∈ ls → whyException t.parents r F = none) :
    Free b F s' ∧ (∀ k, ¬ Stops k o) ∧
      ∀ k, b = true → ctl s k ≠ none → (∀ l ∈ ls, ¬ Removes l) → ¬ Over s' → ctl s' k = ctl s k := by
  induction h with
  | nil => exact ⟨f, (by rintro k ⟨w, hw⟩; cases hw), fun _ _ _ _ _ => rfl⟩
  | @cons s s₁ s₂ l ls o os h1 h2 ih =>
    obtain ⟨a1, a2, a3⟩ := f.step hi h1 (fun r hl => hr r (by simp [hl])) (fun host t r res hl => hd host t r res (by simp [hl]))
    have i1 := inv_step hi h1
    obtain ⟨b1, b2, b3⟩ := ih a1 i1 (fun r hl => hr r (by simp [hl])) (fun host t r res hl => hd host t r res (by simp [hl]))
    refine ⟨b1, fun k => by rw [stops_append, not_or]; exact ⟨a2 k, b2 k⟩, ?_⟩
    intro k hb hex hm ho
    have e := a3 k hb hex (hm l (by simp)) (fun h => ho (over_run h2 i1 h))
    rw [b3 k hb (by rw [e]; exact hex) (fun l hl => hm l (by simp [hl])) ho, e]

end Verif.Strat
