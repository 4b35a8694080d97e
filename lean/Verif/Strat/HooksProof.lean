import Verif.Strat.Hooks
import Verif.Strat.Free
/-!
# Lemmas about the hooks of the strategy
-/

namespace Verif.Strat.Hooks
open Verif Verif.Strat

/-! ## Nobody asked for the end -/

/-- The run was not ended by the client, and no thread is marked to end. -/
structure NoEnd (s : DS) : Prop where
  pc : s.pc ≠ .ended
  st : ¬ Over s → ∀ k c, ctl s k = some c → c.1 ≠ .fin

theorem noEnd_init : NoEnd {} := by
  refine ⟨(by intro h; cases h), fun _ k c h => ?_⟩
  have h2 : (DS.threads {}).get? k = some { id := 1, host := none } ∨ (DS.threads {}).get? k = none := by
    by_cases hk : k = 1
    · subst hk; exact .inl rfl
    · right; rw [DL.get_none]; simpa [Dict.keys] using hk
  rcases h2 with e | e
  · simp [ctl, e] at h; rw [← h]; simp
  · simp [ctl, e] at h

theorem crash_noEnd {s : DS} {o : List Out} {e : PyErr} : NoEnd (crash s o e).1 :=
  ⟨(by intro h; cases h), fun ho => absurd (.inr ⟨e, rfl⟩) ho⟩

theorem host_state {s : DS} (hi : Inv s) (hs : ∀ k c, ctl s k = some c → c.1 ≠ .fin) (h : Nat) : (hostThread s h).2.1.state ≠ .fin := by
  unfold hostThread
  cases ht : threadOf s h with
  | none => simp [addThread]
  | some th =>
    obtain ⟨-, h2⟩ := threadOf_some hi.core ht
    exact hs th.id _ (by simp only [ctl, h2, Option.map_some]; rfl)

theorem endAfter_noEnd {s : DS} (hi : Inv s) (hn : NoEnd s) (hno : ¬ Over s) (tid : Nat) (inc : Bool) : NoEnd (endAfter s tid inc).1 := by
  have hs := hn.st hno
  unfold endAfter
  cases h : s.threads.get? tid with
  | none => exact crash_noEnd
  | some th =>
    simp only
    have hf : th.state ≠ .fin := hs tid _ (by simp only [ctl, h, Option.map_some]; rfl)
    rw [if_neg hf]
    split
    · exact ⟨(by intro h; cases h), fun _ => hs⟩
    · cases hp : popFrame s th with
      | error e => exact crash_noEnd
      | ok p =>
        refine ⟨(by intro h; cases h), fun _ k c hc => ?_⟩
        have ht : s.threads.get? th.id = some th := by rw [(hi.core.tid h).1]; exact h
        cases hff : th.frames with
        | nil => simp [popFrame, hff] at hp
        | cons f fs =>
          obtain ⟨s', g0, g1, g2, -⟩ := popFrame_ok hi.core ht hff
          rw [g0] at hp
          cases hp
          simp only [ctl, g2, DL.get_set] at hc
          split at hc
          · simp only [Option.map_some, Option.some.injEq] at hc; rw [← hc]; exact hf
          · exact hs k c hc

theorem noEnd_step {s s' : DS} {l : Label} {o : List Out} (hi : Inv s) (hn : NoEnd s) (h : step s l = some (s', o))
    (hr : ∀ r, l = .req r → ¬ Ends r) : NoEnd s' := by
  have over_of : Over s → s.pc ≠ .running := by
    rintro (e | ⟨x, e⟩) <;> (rw [e]; simp)
  have run_ok : s.pc = .running → ¬ Over s := fun e ho => over_of ho e
  cases l with
  | start host t tv a c =>
    simp only [step] at h
    split at h
    · rename_i hp
      have hs := hn.st (run_ok hp)
      rw [fst_eq h]
      rcases start_spec hi hp host t tv a c with ⟨e, -, h2⟩ | ⟨s1, th1, -, -, h3, h4, h5, -⟩
      · rw [h2]; exact crash_noEnd
      · refine ⟨?_, fun _ k x hk => ?_⟩
        · rw [h5]; split <;> simp
        · by_cases hkk : k = (hostThread s host).2.1.id
          · subst hkk
            rw [h3] at hk
            cases hw : whyStop s (hostThread s host).2.1 t c with
            | none => simp only [hw, Option.some.injEq] at hk; rw [← hk]; exact host_state hi hs host
            | some w => simp only [hw, Option.some.injEq] at hk; rw [← hk]; simp
          · rw [h4 k hkk] at hk; exact hs k x hk
    · cases h
  | done host t r res =>
    simp only [step] at h
    split at h
    · rename_i hp
      have hs := hn.st (run_ok hp)
      rw [fst_eq h]
      have key : NoEnd (endTask s host t r res).1 := by
        unfold endTask
        cases ht : threadOf s host with
        | none => exact crash_noEnd
        | some th =>
          simp only
          split
          · exact endAfter_noEnd hi hn (run_ok hp) _ _
          · rename_i e he
            rcases end_spec hi host t r res with ⟨ho, -⟩ | ⟨h1, -⟩ | ⟨th', e', g1, g2, g3, g4, g5, g6, -⟩
            · unfold endTask at ho
              simp only [ht, he] at ho
              split
              · exact crash_noEnd
              · rename_i f fs hf
                simp only [hf] at ho
                split
                · exact crash_noEnd
                · rename_i fr hfr
                  simp only [hfr] at ho
                  rcases ho with ho | ⟨x, ho⟩ <;> simp at ho
            · unfold endTask at h1
              simp only [ht, he] at h1
              split
              · exact crash_noEnd
              · rename_i f fs hf
                simp only [hf] at h1
                split
                · exact crash_noEnd
                · rename_i fr hfr
                  simp only [hfr] at h1
                  cases h1
            · have heq : (endTask s host t r res) = (endTask s host t r res) := rfl
              unfold endTask at g4 g5 g6
              simp only [ht, he] at g4 g5 g6
              refine ⟨(by rw [g4]; simp), fun _ k x hk => ?_⟩
              by_cases hkk : k = th'.id
              · subst hkk; rw [g5] at hk; cases hk; simp
              · rw [g6 k hkk] at hk; exact hs k x hk
      exact key
    · cases h
  | refresh =>
    simp only [step] at h
    split at h
    · rename_i hp
      rw [fst_eq h]
      refine ⟨(by show s.pc ≠ _; rw [hp]; simp), fun _ k c hc => hn.st (run_ok hp) k c (ctl_exit hc)⟩
    · cases h
  | newPlay =>
    simp only [step] at h
    split at h
    · rename_i hp
      rw [fst_eq h]
      refine ⟨(by show s.pc ≠ _; rw [hp]; simp), fun _ k c hc => ?_⟩
      exact noEnd_init.st (by rintro (e | ⟨x, e⟩) <;> cases e) k c hc
    · cases h
  | reg p ln ty =>
    simp only [step] at h
    split at h
    · rename_i hp
      rw [fst_eq h]
      rcases registerLine_cases s p ln ty with hr | ⟨e, -, hr⟩ <;> rw [hr]
      · exact ⟨hn.pc, fun _ => hn.st (run_ok hp)⟩
      · exact crash_noEnd
    · cases h
  | env hp => cases h; exact ⟨hn.pc, hn.st⟩
  | wake =>
    simp only [step] at h
    split at h
    · rename_i tid hp
      have hs := hn.st (by rintro (e | ⟨x, e⟩) <;> rw [hp] at e <;> cases e)
      split at h
      · rw [fst_eq h]; exact crash_noEnd
      · rename_i th ht
        have hf : th.state ≠ .fin := hs tid _ (by simp only [ctl, ht, Option.map_some]; rfl)
        rw [if_neg hf] at h
        split at h
        · cases h
        · rw [fst_eq h]; exact ⟨(by intro h; cases h), fun _ => hs⟩
    · rename_i tid inc hp
      have hno : ¬ Over s := by rintro (e | ⟨x, e⟩) <;> rw [hp] at e <;> cases e
      split at h
      · rw [fst_eq h]; exact crash_noEnd
      · split at h
        · cases h
        · rw [fst_eq h]; exact endAfter_noEnd hi hn hno _ _
    · cases h
  | req r =>
    rw [fst_eq h]
    refine ⟨(by rw [request_pc s hi r]; exact hn.pc), fun ho k c hc => ?_⟩
    have hno : ¬ Over s := by unfold Over at ho ⊢; rw [request_pc s hi r] at ho; exact ho
    have hs := hn.st hno
    cases hk : s.threads.get? k with
    | some th =>
      have hth : th.state ≠ .fin := hs k _ (by simp only [ctl, hk, Option.map_some]; rfl)
      rcases request_thread hi r hk with e | ⟨st, -, h2, e⟩
      · simp only [ctl, e, Option.map_some, Option.some.injEq] at hc; rw [← hc]; exact hth
      · simp only [ctl, e, Option.map_some, Option.some.injEq] at hc; rw [← hc]
        exact setState_fin th (h2 (hr r rfl))
    | none =>
      by_cases hres : Resumes k r
      · -- a thread that is not there is not made by a request
        exfalso
        have hkeys : (request s r).1.threads.get? k = none := by
          cases r with
          | cont t single =>
            cases single
            · rw [DL.get_none] at hk ⊢; simp only [request, resumeReq, resume_keys]; exact hk
            · rw [DL.get_none] at hk ⊢; simp only [request, resumeReq, resume_keys]; exact hk
          | stepIn t => rw [DL.get_none] at hk ⊢; simp only [request, resumeReq, resume_keys]; exact hk
          | stepOut t => rw [DL.get_none] at hk ⊢; simp only [request, resumeReq, resume_keys]; exact hk
          | next t => rw [DL.get_none] at hk ⊢; simp only [request, resumeReq, resume_keys]; exact hk
          | disconnect b => rw [DL.get_none] at hk ⊢; simp only [request, disconnect, resume_keys]; exact hk
          | terminate => rw [DL.get_none] at hk ⊢; simp only [request, disconnect, resume_keys]; exact hk
          | closed =>
            rw [DL.get_none] at hk ⊢
            simp only [request]
            split
            · exact hk
            · simp only [disconnect, resume_keys]; exact hk
          | _ => exact absurd hres id
        simp [ctl, hkeys] at hc
      · rw [request_ctl hi r hres] at hc; exact hs k c hc

theorem noEnd_run {s s' : DS} {ls : List Label} {o : List Out} (h : Run s ls s' o) (hi : Inv s) (hn : NoEnd s)
    (hr : ∀ r, Label.req r ∈ ls → ¬ Ends r) : NoEnd s' := by
  induction h with
  | nil => exact hn
  | @cons s s₁ s₂ l ls o os h1 h2 ih =>
    exact ih (inv_step hi h1) (noEnd_step hi hn h1 (fun r hl => hr r (by simp [hl]))) (fun r hl => hr r (by simp [hl]))

/-! ## A step of a play is at most one step of the debug state -/

/-- The messages among the events. -/
def msgs (es : List Ev) : List Out := es.filterMap fun e => match e with | .msg o => some o | _ => none

theorem msgs_append (a b : List Ev) : msgs (a ++ b) = msgs a ++ msgs b := by simp [msgs]

theorem msgs_map (o : List Out) : msgs (o.map .msg) = o := by
  induction o with
  | nil => rfl
  | cons a o ih => simp only [msgs, List.map_cons, List.filterMap_cons] at ih ⊢; rw [ih]

theorem dsStep_some {s s' : HS} {l : Label} {c : Cont} {evs es : List Ev} (h : dsStep s l c evs = some (s', es)) :
    ∃ o, step s.ds l = some (s'.ds, o) ∧ s'.cont = c ∧ es = evs ++ o.map .msg := by
  unfold dsStep at h
  split at h
  · cases h
  · rename_i d o hs
    cases h
    exact ⟨o, hs, rfl, rfl⟩

/-- Requests are the requests of the debug state. -/
theorem hstep_ds {s s' : HS} {l : Lbl} {e : List Ev} (h : hstep s l = some (s', e)) :
    (∃ dl o, step s.ds dl = some (s'.ds, o) ∧ msgs e = o ∧ ∀ r, dl = .req r → l = .req r) ∨ (s'.ds = s.ds ∧ msgs e = []) := by
  have key : ∀ {dl : Label} {c : Cont} {evs : List Ev}, dsStep s dl c evs = some (s', e) → msgs evs = [] → (∀ r, dl = .req r → l = .req r) →
      (∃ dl o, step s.ds dl = some (s'.ds, o) ∧ msgs e = o ∧ ∀ r, dl = .req r → l = .req r) := by
    intro dl c evs hd hm hl
    obtain ⟨o, h1, -, h3⟩ := dsStep_some hd
    exact ⟨dl, o, h1, (by rw [h3, msgs_append, hm, msgs_map]; rfl), hl⟩
  cases l with
  | queueTask hst t tv ar c =>
    simp only [hstep] at h; split at h
    · exact .inl (key h rfl (by intro r hr; cases hr))
    · cases h
  | executeMeta hst t tv ar c r a =>
    simp only [hstep] at h; split at h
    · exact .inl (key h rfl (by intro r hr; cases hr))
    · cases h
  | pendingResults rs =>
    simp only [hstep] at h; split at h
    · cases h; exact .inr ⟨rfl, rfl⟩
    · cases h
  | loaded p ln ty =>
    simp only [hstep] at h; split at h
    · exact .inl (key h rfl (by intro r hr; cases hr))
    · cases h
  | runEnds n =>
    simp only [hstep] at h; split at h
    · rename_i hp
      cases h
      exact .inl ⟨.refresh, (exitThreads s.ds).2, (by simp [step, hp.2]), (by rw [msgs_append, msgs_map]; simp [msgs]), (by intro r hr; cases hr)⟩
    · cases h
  | runRaises x =>
    simp only [hstep] at h; split at h
    · rename_i hp
      cases h
      exact .inl ⟨.refresh, (exitThreads s.ds).2, (by simp [step, hp.2]), (by rw [msgs_append, msgs_map]; simp [msgs]), (by intro r hr; cases hr)⟩
    · cases h
  | go =>
    simp only [hstep, goOn] at h; split at h
    · cases h
    · split at h
      · cases h; exact .inr ⟨rfl, rfl⟩
      · cases h; exact .inr ⟨rfl, rfl⟩
      · split at h
        · exact .inl (key h rfl (by intro r hr; cases hr))
        · exact .inl (key h rfl (by intro r hr; cases hr))
      · cases h; exact .inr ⟨rfl, rfl⟩
      · exact .inl (key h rfl (by intro r hr; cases hr))
      · cases h
      · cases h
  | unwind =>
    simp only [hstep, unwindRun] at h; split at h
    · cases h
    · split at h
      · cases h; exact .inr ⟨rfl, rfl⟩
      · cases h; exact .inr ⟨rfl, rfl⟩
      · cases h
  | wake => simp only [hstep] at h; exact .inl (key h rfl (by intro r hr; cases hr))
  | env hp => simp only [hstep] at h; exact .inl (key h rfl (by intro r hr; cases hr))
  | req r => simp only [hstep] at h; exact .inl (key h rfl (by intro r' hr; cases hr; rfl))

/-- A history of a play is a history of its debug state. -/
theorem hrun_ds {s s' : HS} {ls : List Lbl} {es : List Ev} (h : HRun s ls s' es) :
    ∃ dls, Run s.ds dls s'.ds (msgs es) ∧ ∀ r, Label.req r ∈ dls → Lbl.req r ∈ ls := by
  induction h with
  | nil s => exact ⟨[], .nil _, by simp⟩
  | @cons s s₁ s₂ l ls e es h1 h2 ih =>
    obtain ⟨dls, r1, r2⟩ := ih
    rcases hstep_ds h1 with ⟨dl, o, h3, h4, h5⟩ | ⟨h3, h4⟩
    · refine ⟨dl :: dls, ?_, ?_⟩
      · rw [msgs_append, h4]; exact .cons h3 r1
      · intro r hr
        rcases List.mem_cons.1 hr with hr | hr
        · rw [h5 r hr.symm]; simp
        · exact List.mem_cons_of_mem _ (r2 r hr)
    · refine ⟨dls, ?_, fun r hr => List.mem_cons_of_mem _ (r2 r hr)⟩
      rw [msgs_append, h4, ← h3]; exact r1

end Verif.Strat.Hooks
