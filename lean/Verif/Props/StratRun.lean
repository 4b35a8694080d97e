import Verif.Strat.Free
import Verif.Props.Strat
/-!
# Waiting, terminating and disconnecting (C37 - C39, C65)
-/

namespace Verif.Props.Strat
open Verif Verif.Strat

/-! ## C37 -/

/-- What a step that announces a stop leaves behind. -/
theorem stop_waits {s s' : DS} {l : Label} {o : List Out} {tid : Nat} (hi : Inv s) (h : step s l = some (s', o)) (hst : Stops tid o) :
    Waits tid s' ∧ ∃ x y, ctl s' tid = some (.wait, x, y) := by
  cases l with
  | start host t tv a c =>
    obtain ⟨a1, a2⟩ := start_stopped hi h hst
    exact ⟨.inl a1, _, _, a2⟩
  | done host t r res =>
    simp only [step] at h
    split at h
    · rw [fst_eq h]
      rw [snd_eq h] at hst
      rcases end_spec hi host t r res with ⟨-, hn⟩ | ⟨-, e2, -⟩ | ⟨th, e, -, -, e3, e4, e5, -⟩
      · exact absurd hst (hn _)
      · rw [e2] at hst; obtain ⟨w, hw⟩ := hst; cases hw
      · rw [e3] at hst
        obtain ⟨w, hw⟩ := hst
        simp only [List.mem_singleton, Out.stopped.injEq] at hw
        rw [hw.1]
        exact ⟨.inr ⟨_, e4⟩, _, _, e5⟩
    · cases h
  | refresh =>
    simp only [step] at h
    split at h
    · rw [snd_eq h] at hst; obtain ⟨w, hw⟩ := hst; obtain ⟨k, hk⟩ := exit_out _ _ hw; cases hk
    · cases h
  | newPlay =>
    simp only [step] at h
    split at h
    · rw [snd_eq h] at hst; obtain ⟨w, hw⟩ := hst; obtain ⟨k, hk⟩ := exit_out _ _ hw; cases hk
    · cases h
  | reg p l ty =>
    simp only [step] at h
    split at h
    · rw [snd_eq h] at hst; exact absurd hst (registerLine_stops s p l ty _)
    · cases h
  | env hp => cases h; obtain ⟨w, hw⟩ := hst; cases hw
  | wake =>
    exfalso
    simp only [step] at h
    split at h
    · split at h
      · rw [snd_eq h] at hst; exact crash_stops (by simp) _ hst
      · split at h
        · cases h
        · split at h
          · rw [snd_eq h] at hst; obtain ⟨w, hw⟩ := hst; obtain ⟨k, hk⟩ := exit_out _ _ hw; cases hk
          · rw [snd_eq h] at hst; obtain ⟨w, hw⟩ := hst; cases hw
    · split at h
      · rw [snd_eq h] at hst; exact crash_stops (by simp) _ hst
      · split at h
        · cases h
        · rw [snd_eq h] at hst; exact (endAfter_spec hi.core _ _).1 _ hst
    · cases h
  | req r => rw [snd_eq h] at hst; exact absurd hst (request_stops s r tid)

/-- **C37** (waiting). Once a thread was announced stopped, and as long as no request that concerns
it is handled, whatever other requests are: the playbook takes no step (every step is a request or a
change of variables by the user), nothing is announced, and the playbook still waits for that thread. -/
theorem C37_waits {s s1 s2 : DS} {l : Label} {o os : List Out} {ls : List Label} {tid : Nat} (hr : Reachable s)
    (h : step s l = some (s1, o)) (hst : Stops tid o) (h2 : Run s1 ls s2 os) (hn : ∀ r, Label.req r ∈ ls → ¬ Resumes tid r) :
    Waits tid s2 ∧ (∀ m ∈ os, Quiet m) ∧ ∀ l ∈ ls, NotPlaybook l := by
  have hi := reach_inv hr
  obtain ⟨a1, x, y, a2⟩ := stop_waits hi h hst
  obtain ⟨b1, -, b3, b4⟩ := wait_run h2 (inv_step hi h) a1 a2 hn
  refine ⟨?_, b3, b4⟩
  unfold Waits at a1 ⊢
  rw [b1]; exact a1

/-- **C37** (proceeding). After a request that concerns the thread the playbook waits for (the end
of the connection counts unless the client had asked to terminate), whatever requests follow, the
playbook can take its next step, which ends the wait without an error: the playbook goes on, unless
it was told to end, in which case it ends. -/
theorem C37_proceeds {s s1 s2 : DS} {r : Req} {o os : List Out} {ls : List Label} {tid : Nat} (hr : Reachable s) (hw : Waits tid s)
    (h : step s (.req r) = some (s1, o)) (hres : Resumes tid r) (hc : r = .closed → s.terminated = false)
    (h2 : Run s1 ls s2 os) (hl : ∀ l ∈ ls, NotPlaybook l) :
    ∃ s3 o3, step s2 .wake = some (s3, o3) ∧ (s3.pc = .running ∨ s3.pc = .ended) ∧
      ((¬ Ends r ∧ ∀ r', Label.req r' ∈ ls → ¬ Ends r') → s3.pc = .running) := by
  have hi := reach_inv hr
  have hth : ∃ th, s.threads.get? tid = some th := by
    have hp := hi.pc
    unfold PcOk at hp
    rcases hw with e | ⟨i, e⟩
    · rw [e] at hp; exact hp
    · rw [e] at hp; obtain ⟨th, h1, -⟩ := hp; exact ⟨th, h1⟩
  obtain ⟨th, ht⟩ := hth
  obtain ⟨st, a1, a2, a3⟩ := request_resumes hi ht hres hc
  rw [← fst_eq h] at a3
  have i1 := inv_step hi h
  have w1 : Waits tid s1 := by
    unfold Waits at hw ⊢
    rw [fst_eq h, request_pc s hi r]; exact hw
  obtain ⟨b1, th', b2, b3, b4⟩ := awake_run h2 i1 w1 a3 (setState_awake _ a1) hl
  obtain ⟨s3, o3, c1, -, c3⟩ := wake_of (inv_run h2 i1) b1 b2 b3
  refine ⟨s3, o3, c1, ?_, ?_⟩
  · cases e : th'.state == TState.fin <;> (rw [e] at c3; simp at c3)
    · exact .inl c3
    · exact .inr c3
  · rintro ⟨h1, h2⟩
    have := b4 ⟨setState_fin _ (a2 h1), h2⟩
    have e : (th'.state == TState.fin) = false := by simp [this]
    rw [e] at c3; exact c3

/-- Non-vacuity: host 7 stops at a breakpoint; the client looks around, then continues it. -/
example : Reachable (stF {} setup) ∧ Stops 2 (ouF (stF {} setup) [.start 7 (tinc 50 1) 0 0 yes]) ∧
    Run e1 [.req .threads, .req (.stackTrace 2), .req (.next 77)] (stF e1 [.req .threads, .req (.stackTrace 2), .req (.next 77)])
      (ouF e1 [.req .threads, .req (.stackTrace 2), .req (.next 77)]) ∧
    Reachable e1 ∧ Waits 2 e1 ∧ step e1 (.req (.cont 9 false)) = some (stF e1 [.req (.cont 9 false)], ouF e1 [.req (.cont 9 false)]) :=
  ⟨⟨setup, _, run_of (by decide +kernel)⟩, ⟨.brk (.bp 1), by decide +kernel⟩, run_of (by decide +kernel),
    reach_append ⟨setup, _, run_of (by decide +kernel)⟩ (run_of (ls := [.start 7 (tinc 50 1) 0 0 yes]) (by decide +kernel)),
    .inl (by decide +kernel), step_of (by decide +kernel)⟩

/-! ## C38 -/

theorem setState_fin_state (th : Thread) : (setState th .fin).state = .fin := by
  unfold setState; split <;> simp

theorem setState_cont_state (th : Thread) : (setState th .cont).state = .cont := by
  unfold setState; split <;> simp

theorem resume_all_ok (st : TState) : ∀ (ts : List Nat) (d : Dict Nat Thread), (∀ k ∈ ts, (d.get? k).isSome = true) → (resume ts st d).2 = true := by
  intro ts
  induction ts with
  | nil => intro d _; rfl
  | cons t ts ih =>
    intro d h
    have ht := h t (List.mem_cons_self ..)
    unfold resume
    cases hg : d.get? t with
    | none => rw [hg] at ht; cases ht
    | some th =>
      simp only
      apply ih
      intro k hk
      rw [DL.get_set]
      split
      · rfl
      · exact h k (List.mem_cons_of_mem _ hk)

/-- **C37** (the answer). A continue request that is not for a single thread resumes every thread,
whatever thread it names, and its answer says that all threads were continued. -/
theorem C37_continue_all {s s1 : DS} {o : List Out} {tid : Nat} (hr : Reachable s) (h : step s (.req (.cont tid false)) = some (s1, o)) :
    o = [.continued true] ∧ ∀ k th, s.threads.get? k = some th → ∃ th', s1.threads.get? k = some th' ∧ th'.state = .cont := by
  have hi := reach_inv hr
  rw [fst_eq h, snd_eq h]
  refine ⟨?_, ?_⟩
  · simp only [request, resumeReq]
    rw [resume_all_ok]
    · rfl
    · intro k hk
      obtain ⟨p, hp, rfl⟩ := List.mem_map.1 hk
      rw [DL.get_of_mem hi.core.tnd hp]; rfl
  · intro k th hk
    exact ⟨_, resume_every hi hk .cont, setState_cont_state th⟩

/-- **C37** (the answer). A continue request for a single thread resumes that thread and no other,
and its answer says that not all threads were continued; if there is no such thread it is an error
and nothing changes. -/
theorem C37_continue_single {s s1 : DS} {o : List Out} {tid : Nat} (h : step s (.req (.cont tid true)) = some (s1, o)) :
    (∀ k, k ≠ tid → s1.threads.get? k = s.threads.get? k) ∧
    (∀ th, s.threads.get? tid = some th → o = [.continued false] ∧ ∃ th', s1.threads.get? tid = some th' ∧ th'.state = .cont) ∧
    (s.threads.get? tid = none → o = [.error .key] ∧ s1 = s) := by
  rw [fst_eq h, snd_eq h]
  cases hg : s.threads.get? tid with
  | none => simp [request, resumeReq, resume, hg]
  | some th =>
    refine ⟨?_, ?_, fun h => by cases h⟩
    · intro k hk
      simp only [request, resumeReq, resume, hg, DL.get_set]
      simp [Ne.symm hk]
    · intro th' ht'
      simp only [request, resumeReq, resume, hg, DL.get_set]
      exact ⟨rfl, _, by simp, setState_cont_state th⟩

/-- Non-vacuity: two hosts have threads, host 7 is stopped; a continue request for everything and
one for the thread of host 7 alone. -/
example : Reachable e1 ∧ ouF e1 [.req (.cont 2 false)] = [.continued true] ∧ ouF e1 [.req (.cont 2 true)] = [.continued false] ∧
    (stF e1 [.req (.cont 2 true)]).threads ≠ e1.threads :=
  ⟨reach_append ⟨setup, _, run_of (by decide +kernel)⟩ (run_of (ls := [.start 7 (tinc 50 1) 0 0 yes]) (by decide +kernel)),
    by decide +kernel, by decide +kernel, by decide +kernel⟩

theorem filters_off {s : DS} (h : FiltersOff s) : filters s = { onError := false, onUnreachable := false, onSkipped := false } := by
  unfold FiltersOff at h
  simp only [filters, h]

theorem disc_ctl {s : DS} (hi : Inv s) (st : TState) {k : Nat} {c} (h : ctl (disconnect s st) k = some c) :
    ∃ th, s.threads.get? k = some th ∧ c = ((setState th st).state, (setState th st).stopped, (setState th st).host) := by
  simp only [ctl, disconnect] at h
  cases hk : s.threads.get? k with
  | none =>
    rcases resume_get st (s.threads.map (·.1)) s.threads k hi.core.tnd with e | ⟨-, th', e1, -⟩
    · rw [e, hk] at h; cases h
    · rw [hk] at e1; cases e1
  | some th =>
    rw [resume_every hi hk st] at h
    simp only [Option.map_some, Option.some.injEq] at h
    exact ⟨th, rfl, h.symm⟩

theorem terminate_free {s s1 : DS} {o : List Out} (hi : Inv s) (h : step s (.req .terminate) = some (s1, o)) :
    Free true (filters s) s1 ∧ Inv s1 ∧ ∀ k th, s.threads.get? k = some th → ctl s1 k = some (.fin, th.stopped, th.host) := by
  have i0 : Inv { s with terminated := true } := ⟨hi.core, hi.pc⟩
  refine ⟨?_, inv_step hi h, ?_⟩
  · rw [fst_eq h]
    refine ⟨rfl, filters_exc (s' := (request s .terminate).1) rfl, ?_, fun _ => rfl⟩
    intro k c hk
    obtain ⟨th, -, rfl⟩ := disc_ctl (s := { s with terminated := true }) i0 .fin hk
    exact .inr ⟨rfl, setState_fin_state th⟩
  · intro k th hk
    rw [fst_eq h]
    have e := resume_every (s := { s with terminated := true }) i0 hk .fin
    simp only [request, disconnect, ctl]
    rw [e]
    have : setState th .fin = { th with state := .fin } := by unfold setState; split <;> simp
    rw [this]; rfl

theorem request_terminated {s : DS} (hi : Inv s) (h : s.terminated = true) (r : Req) : (request s r).1.terminated = true := by
  have res : ∀ ts st o, (resumeReq s ts st o).1.terminated = true := by
    intro ts st o; unfold resumeReq; simpa using h
  cases r with
  | cont t b => cases b <;> exact res _ _ _
  | stepIn t => exact res _ _ _
  | stepOut t => exact res _ _ _
  | next t => exact res _ _ _
  | stackTrace t => exact h
  | threads => exact h
  | scopes a b c => exact (getScopes_ext s a b c).term.trans h
  | variables a => exact (getVariables_ext hi.core a).term.trans h
  | setVariable a b c => exact (setVariable_ext hi.core a b c).term.trans h
  | evaluate a b => exact (evaluate_ext s a b).term.trans h
  | disconnect b => exact h
  | terminate => rfl
  | closed => simp only [request, h, if_true]
  | setBps a b c d => exact h
  | setExc a b => exact h
  | config m => exact h

/-- After a terminate request the end of the connection wakes nobody: a thread that waits goes on waiting until a request names it or all threads. -/
theorem wait_terminated {s s' : DS} {ls : List Label} {o : List Out} (h : Run s ls s' o) (hi : Inv s) {tid : Nat} {x : Option TaskRef} {y : Option Nat} (hw : Waits tid s)
    (hc : ctl s tid = some (.wait, x, y)) (ht : s.terminated = true) (hr : ∀ r, Label.req r ∈ ls → r = .closed ∨ ¬ Resumes tid r) :
    Waits tid s' ∧ step s' .wake = none := by
  induction h with
  | nil s =>
    refine ⟨hw, ?_⟩
    simp only [ctl, Option.map_eq_some_iff] at hc
    obtain ⟨th, h1, h2⟩ := hc
    simp only [Prod.mk.injEq] at h2
    rcases hw with e | ⟨i, e⟩ <;> simp [step, e, h1, h2.1]
  | @cons s s₁ s₂ l ls o os h1 h2 ih =>
    have key : s₁.pc = s.pc ∧ ctl s₁ tid = ctl s tid ∧ s₁.terminated = true := by
      by_cases hl : l = .req .closed
      · subst hl
        rw [fst_eq h1]
        simp only [request, ht, if_true]
        exact ⟨trivial, rfl, trivial⟩
      · obtain ⟨a1, a2, -, a4⟩ := wait_step hi h1 hw hc (fun r e => by
          rcases hr r (by simp [e]) with e' | e'
          · exact absurd (e'.symm ▸ e) hl
          · exact e')
        refine ⟨a1, a2, ?_⟩
        cases l with
        | req r => rw [fst_eq h1]; exact request_terminated hi ht r
        | env hp => rw [fst_eq h1]; exact ht
        | _ => exact absurd a4 id
    obtain ⟨k1, k2, k3⟩ := key
    exact ih (inv_step hi h1) (by unfold Waits at hw ⊢; rw [k1]; exact hw) (by rw [k2]; exact hc) k3 (fun r hl => hr r (by simp [hl]))

/-- No result of a task which ends in this history is one the filters `F` select. -/
def Unselected (F : Filters) (ls : List Label) : Prop := ∀ host t r res, Label.done host t r res ∈ ls → whyException t.parents r F = none

theorem unselected_off {s : DS} (hf : FiltersOff s) (ls : List Label) : Unselected (filters s) ls := by
  intro host t r res _
  rw [filters_off hf]; unfold whyException; simp

theorem unselected_must {s : DS} {ls : List Label} (h : ∀ host t r res, Label.done host t r res ∈ ls → Exclusive r ∧ ¬ MustStop s t r) :
    Unselected (filters s) ls := by
  intro host t r res hl
  obtain ⟨h1, h2⟩ := h host t r res hl
  rw [← whyException_spec s t r h1] at h2
  exact Classical.not_not.1 h2

theorem mustStop_congr {s s' : DS} (h : filters s' = filters s) (t : Task) (r : Result) : MustStop s' t r ↔ MustStop s t r := by
  simp only [filters, Filters.mk.injEq] at h
  simp only [MustStop, FilterOn, h.1, h.2.1, h.2.2]

theorem done_terminated {s s' : DS} {host : Nat} {t : Task} {r : Result} {res : Addr} {o : List Out} {k : Nat} (hi : Inv s)
    (h : step s (.done host t r res) = some (s', o)) (hst : Stops k o) (ht : s.terminated = true) : s'.terminated = true := by
  simp only [step] at h
  split at h
  · rw [fst_eq h]
    rw [snd_eq h] at hst
    rcases end_spec hi host t r res with ⟨-, hn⟩ | ⟨-, e2, -⟩ | ⟨th, e, -, -, -, -, -, -, -, e5⟩
    · exact absurd hst (hn _)
    · rw [e2] at hst; obtain ⟨w, hw⟩ := hst; cases hw
    · exact e5.trans ht
  · cases h

theorem after_terminate {s s1 : DS} {o : List Out} (hr : Reachable s) (h : step s (.req .terminate) = some (s1, o)) :
    (∀ tid, Waits tid s → ∃ s2 o2, step s1 .wake = some (s2, o2) ∧ s2.pc = .ended) ∧
    ∀ ls s2 os, Run s1 ls s2 os → (∀ r, Label.req r ∈ ls → Passive r) → Unselected (filters s) ls → (∀ k, ¬ Stops k os) ∧ filters s2 = filters s ∧ s2.terminated = true ∧
      ∀ host th t r res s3 o3, threadOf s host = some th → (∀ l ∈ ls, ¬ Removes l) → whyException t.parents r (filters s) = none →
        step s2 (.done host t r res) = some (s3, o3) → Over s3 := by
  have hi := reach_inv hr
  obtain ⟨f1, i1, k1⟩ := terminate_free hi h
  refine ⟨?_, ?_⟩
  · intro tid hw
    have hp := hi.pc
    have : ∃ th, s.threads.get? tid = some th := by
      unfold PcOk at hp
      rcases hw with e | ⟨i, e⟩
      · rw [e] at hp; exact hp
      · rw [e] at hp; obtain ⟨th, h1, -⟩ := hp; exact ⟨th, h1⟩
    obtain ⟨th, ht⟩ := this
    have w1 : Waits tid s1 := by
      unfold Waits at hw ⊢
      rw [fst_eq h, request_pc s hi]; exact hw
    have c1 := k1 tid th ht
    simp only [ctl] at c1
    cases ht1 : s1.threads.get? tid with
    | none => simp [ht1] at c1
    | some th1 =>
      simp only [ht1, Option.map_some, Option.some.injEq, Prod.mk.injEq] at c1
      obtain ⟨s2, o2, d1, -, d3⟩ := wake_of i1 w1 ht1 (by rw [c1.1]; simp)
      exact ⟨s2, o2, d1, by rw [c1.1] at d3; exact d3⟩
  · intro ls s2 os hrun hp hu
    obtain ⟨f2, n2, c2⟩ := f1.run hrun i1 hp hu
    refine ⟨n2, f2.flt, f2.term rfl, ?_⟩
    intro host th t r res s3 o3 hto hm hw3 h3
    have i2 := inv_run hrun i1
    obtain ⟨g1, g2⟩ := threadOf_some hi.core hto
    have e1 := k1 _ _ g2
    simp only [step] at h3
    split at h3
    · rename_i hpc
      have no : ¬ Over s2 := by rintro (e | ⟨e', e⟩) <;> (rw [e] at hpc; cases hpc)
      have e2 := c2 th.id rfl (by rw [e1]; simp) hm no
      rw [e1] at e2
      simp only [ctl] at e2
      cases ht2 : s2.threads.get? th.id with
      | none => simp [ht2] at e2
      | some th2 =>
        simp only [ht2, Option.map_some, Option.some.injEq, Prod.mk.injEq] at e2
        have hto2 := threadOf_of_get i2.core ht2 (e2.2.2.trans g1)
        rw [fst_eq h3]
        rcases end_spec i2 host t r res with ⟨ho, -⟩ | ⟨-, -, -, -, -, -, th', q1, q2⟩ | ⟨th', e, q1, q2, -⟩
        · exact ho
        · rw [hto2] at q1; cases q1; exact absurd e2.1 q2
        · rw [f2.flt, hw3] at q2; cases q2
    · cases h3

/-- **C38.** With no exception filter on: after a terminate request, however the playbook goes on
and whatever requests follow that resume nothing and set no breakpoints (and the connection may
end), no host ever stops, and once a host that was known at the terminate request finishes a task,
the run is over. If the playbook was waiting for a stopped thread, it can go on at once and ends.

Partial: see `C38_exception_refuted`, `C38_disconnect_refuted` and `C38_refresh_refuted` for what
happens otherwise. -/
theorem C38_terminate_partial {s s1 : DS} {o : List Out} (hr : Reachable s) (hf : FiltersOff s)
    (h : step s (.req .terminate) = some (s1, o)) :
    (∀ tid, Waits tid s → ∃ s2 o2, step s1 .wake = some (s2, o2) ∧ s2.pc = .ended) ∧
    ∀ ls s2 os, Run s1 ls s2 os → (∀ r, Label.req r ∈ ls → Passive r) → (∀ k, ¬ Stops k os) ∧
      ∀ host th t r res s3 o3, threadOf s host = some th → (∀ l ∈ ls, ¬ Removes l) →
        step s2 (.done host t r res) = some (s3, o3) → Over s3 := by
  obtain ⟨a1, a2⟩ := after_terminate hr h
  refine ⟨a1, fun ls s2 os hrun hp => ?_⟩
  obtain ⟨b1, -, -, b4⟩ := a2 ls s2 os hrun hp (unselected_off hf ls)
  refine ⟨b1, fun host th t r res s3 o3 h1 h2 h3 => b4 host th t r res s3 o3 h1 h2 ?_ h3⟩
  exact unselected_off hf [.done host t r res] host t r res (by simp)

/-- **C38, exactly.** After a terminate request, with any exception filters: as long as no task ends with a result that the filters select, no host stops; and when a host that was
known at the terminate request finishes a task, then either the result is one the filters select, and the host stops and the playbook waits, or it is not and the run is over. -/
theorem C38_exact_partial {s s1 s2 : DS} {o os : List Out} {ls : List Label} (hr : Reachable s) (h : step s (.req .terminate) = some (s1, o)) (hrun : Run s1 ls s2 os)
    (hp : ∀ r, Label.req r ∈ ls → Passive r) (hd : ∀ host t r res, Label.done host t r res ∈ ls → Exclusive r ∧ ¬ MustStop s t r) :
    (∀ k, ¬ Stops k os) ∧
    ∀ host th t r res s3 o3, threadOf s host = some th → (∀ l ∈ ls, ¬ Removes l) → Exclusive r → step s2 (.done host t r res) = some (s3, o3) →
      (MustStop s t r → ∀ th2, threadOf s2 host = some th2 → th2.frames ≠ [] → Stops th2.id o3 ∧
        ∀ ls' s4 os', Run s3 ls' s4 os' → (∀ r', Label.req r' ∈ ls' → r' = .closed ∨ ¬ Resumes th2.id r') → Waits th2.id s4 ∧ step s4 .wake = none) ∧
      (¬ MustStop s t r → Over s3) := by
  obtain ⟨-, a2⟩ := after_terminate hr h
  obtain ⟨b1, b2, b3, b4⟩ := a2 ls s2 os hrun hp (unselected_must hd)
  refine ⟨b1, fun host th t r res s3 o3 h1 h2 hx h3 => ⟨fun hm => ?_, fun hm => ?_⟩⟩
  · intro th2 g1 g2
    have r2 : Reachable s2 := reach_append (reach_append hr (.cons h (.nil _))) hrun
    have i2 := reach_inv r2
    have hst := (C36_exception_stops r2 g1 g2 hx h3).1.2 ((mustStop_congr b2 t r).2 hm)
    refine ⟨hst, fun ls' s4 os' h4 hr' => ?_⟩
    obtain ⟨w1, x, y, w2⟩ := stop_waits i2 h3 hst
    exact wait_terminated h4 (inv_step i2 h3) w1 w2 (done_terminated i2 h3 hst b3) hr'
  · refine b4 host th t r res s3 o3 h1 h2 ?_ h3
    exact unselected_must (s := s) (ls := [.done host t r res]) (by
      intro _ _ _ _ hl
      simp only [List.mem_singleton, Label.done.injEq] at hl
      obtain ⟨rfl, rfl, rfl, rfl⟩ := hl
      exact ⟨hx, hm⟩) host t r res (by simp)

/-- Non-vacuity: the filter on_error is on, host 7 finishes one task well after the request and fails the next one; the filters select only the second. -/
example : ∃ s : DS, Reachable s ∧ (exec s [.req .terminate, .start 8 (tk 9 1) 0 0 yes, .req .closed]).isSome = true ∧ (threadOf s 7).isSome = true ∧
    (exec s [.req .terminate, .start 8 (tk 9 1) 0 0 yes, .req .closed, .done 7 (tk 10 1) bad 0]).isSome = true ∧ Exclusive bad ∧ Exclusive fine ∧
    MustStop s (tk 10 1) bad ∧ ¬ MustStop s (tk 10 1) fine :=
  ⟨stF {} [.req (.setExc 1 [py!"on_error"]), .start 7 (tk 10 1) 0 0 yes], ⟨_, _, run_of (by decide +kernel)⟩, by decide +kernel, by decide +kernel, by decide +kernel,
    by unfold Exclusive; decide +kernel, by unfold Exclusive; decide +kernel, by unfold MustStop FilterOn; decide +kernel, by unfold MustStop FilterOn; decide +kernel⟩

/-- Non-vacuity: the playbook waits for host 7 when the client terminates; and a known host finishes
a task afterwards. -/
example : (∃ s, Reachable s ∧ FiltersOff s ∧ Waits 2 s ∧ (exec s [.req .terminate]).isSome = true) ∧
    (∃ s, Reachable s ∧ FiltersOff s ∧ (threadOf s 7).isSome = true ∧
      (exec s [.req .terminate, .req .closed, .done 7 (tk 60 3) fine 0]).isSome = true) := by
  refine ⟨⟨e1, reach_append ⟨setup, _, run_of (by decide +kernel)⟩ (run_of (ls := [.start 7 (tinc 50 1) 0 0 yes]) (by decide +kernel)), ?_,
    .inl (by decide +kernel), by decide +kernel⟩, ⟨stF {} [.start 7 (tk 60 3) 0 0 yes], ⟨_, _, run_of (by decide +kernel)⟩, ?_, by decide +kernel,
    by decide +kernel⟩⟩
  · intro f
    have : e1.dbg.exc = [] := by decide +kernel
    simp [Bp.shouldStop, this, Dict.get?]
  · intro f
    have : (stF {} [.start 7 (tk 60 3) 0 0 yes]).dbg.exc = [] := by decide +kernel
    simp [Bp.shouldStop, this, Dict.get?]

/-- **C38** fails when an exception filter is on: after a terminate request the next task that fails
stops the host; the client is gone, and the playbook waits forever (the end of the connection does
not wake it, because the client had asked to terminate). -/
theorem C38_exception_refuted : ∃ s s1 s2 : DS, ∃ o1 o2, Reachable s ∧ step s (.req .terminate) = some (s1, o1) ∧
    Run s1 [.done 7 (tk 10 1) bad 0, .req .closed] s2 o2 ∧ (threadOf s 7).isSome = true ∧ Waits 2 s2 ∧
    step s2 .wake = none ∧ (request s2 .closed).1.threads = s2.threads := by
  refine ⟨stF {} [.req (.setExc 1 [py!"on_error"]), .start 7 (tk 10 1) 0 0 yes], _, _, _, _, ⟨_, _, run_of (by decide +kernel)⟩,
    step_of (by decide +kernel), run_of (by decide +kernel), by decide +kernel, .inr ⟨false, by decide +kernel⟩, ?_, ?_⟩
  · apply Option.isNone_iff_eq_none.1; decide +kernel
  · decide +kernel

/-- **C38** fails when a disconnect request follows before the playbook acts on the terminate
request: it resumes all threads and the run goes on. -/
theorem C38_disconnect_refuted : ∃ s s1 s2 : DS, ∃ o1 o2, Reachable s ∧ Waits 2 s ∧ step s (.req .terminate) = some (s1, o1) ∧
    Run s1 [.req (.disconnect false), .wake, .done 7 (tinc 50 1) fine 0, .start 7 (tsub 51 1) 0 0 yes] s2 o2 ∧ s2.pc = .running :=
  ⟨e1, _, _, _, _, reach_append ⟨setup, _, run_of (by decide +kernel)⟩ (run_of (ls := [.start 7 (tinc 50 1) 0 0 yes]) (by decide +kernel)),
    .inl (by decide +kernel), step_of (by decide +kernel), run_of (by decide +kernel), by decide +kernel⟩

/-- **C38** fails when the inventory is refreshed first: the threads are exited, and the hosts that
run on get new threads that know nothing of the terminate request. -/
theorem C38_refresh_refuted : ∃ s s1 s2 : DS, ∃ o1 o2, Reachable s ∧ (threadOf s 7).isSome = true ∧ step s (.req .terminate) = some (s1, o1) ∧
    Run s1 [.refresh, .start 7 (tk 61 3) 0 0 yes, .done 7 (tk 61 3) fine 0] s2 o2 ∧ s2.pc = .running :=
  ⟨stF {} [.start 7 (tk 60 3) 0 0 yes], _, _, _, _, ⟨_, _, run_of (by decide +kernel)⟩, by decide +kernel, step_of (by decide +kernel),
    run_of (by decide +kernel), by decide +kernel⟩

/-! ## C39 -/

theorem after_disconnect {s s1 s2 : DS} {o os : List Out} {ls : List Label} (hr : Reachable s)
    (h : step s (.req (.disconnect false)) = some (s1, o)) (hrun : Run s1 ls s2 os) (hp : ∀ r, Label.req r ∈ ls → Passive r) (hu : Unselected (filters s) ls) :
    filters s2 = filters s ∧ (∀ k, ¬ Stops k os) ∧ ∀ tid, Waits tid s2 → ∃ s3 o3, step s2 .wake = some (s3, o3) ∧ s3.pc = .running := by
  have hi := reach_inv hr
  have i1 := inv_step hi h
  have f1 : Free false (filters s) s1 := by
    rw [fst_eq h]
    refine ⟨rfl, filters_exc (s' := (request s (.disconnect false)).1) rfl, ?_, fun hb => by cases hb⟩
    intro k c hk
    obtain ⟨th, -, rfl⟩ := disc_ctl hi .cont hk
    exact .inl (setState_cont_state th)
  obtain ⟨f2, n2, -⟩ := f1.run hrun i1 hp hu
  refine ⟨f2.flt, n2, ?_⟩
  intro tid hw
  have i2 := inv_run hrun i1
  have : ∃ th, s2.threads.get? tid = some th := by
    have hp := i2.pc
    unfold PcOk at hp
    rcases hw with e | ⟨i, e⟩
    · rw [e] at hp; exact hp
    · rw [e] at hp; obtain ⟨th, h1, -⟩ := hp; exact ⟨th, h1⟩
  obtain ⟨th, ht⟩ := this
  have hc : th.state = .cont := by
    rcases f2.st tid _ (by simp only [ctl, ht, Option.map_some]; rfl) with e | ⟨e, -⟩
    · exact e
    · cases e
  obtain ⟨s3, o3, d1, -, d3⟩ := wake_of i2 hw ht (by rw [hc]; simp)
  exact ⟨s3, o3, d1, by rw [hc] at d3; exact d3⟩

/-- **C39.** With no exception filter on: once a disconnect request (without terminate) was handled,
whatever the playbook does and whatever requests that resume nothing and set no breakpoints follow
(and the connection may end), no host ever stops again, the playbook can always go on where it
waits, and it is never ended on behalf of the client.

Partial: the exception filters are not reset, see `C39_exception_refuted`. -/
theorem C39_disconnect_partial {s s1 s2 : DS} {o os : List Out} {ls : List Label} (hr : Reachable s) (hf : FiltersOff s)
    (h : step s (.req (.disconnect false)) = some (s1, o)) (hrun : Run s1 ls s2 os) (hp : ∀ r, Label.req r ∈ ls → Passive r) :
    (∀ k, ¬ Stops k os) ∧ ∀ tid, Waits tid s2 → ∃ s3 o3, step s2 .wake = some (s3, o3) ∧ s3.pc = .running :=
  (after_disconnect hr h hrun hp (unselected_off hf ls)).2

/-- **C39, exactly.** With any exception filters: after a disconnect request no host stops as long as no task ends with a result that the filters (those set when the client
disconnected) select; the first task of a host that does ends with the host stopped, and the playbook waits for the client that is gone. -/
theorem C39_exact_partial {s s1 s2 : DS} {o os : List Out} {ls : List Label} (hr : Reachable s) (h : step s (.req (.disconnect false)) = some (s1, o)) (hrun : Run s1 ls s2 os)
    (hp : ∀ r, Label.req r ∈ ls → Passive r) (hd : ∀ host t r res, Label.done host t r res ∈ ls → Exclusive r ∧ ¬ MustStop s t r) :
    (∀ k, ¬ Stops k os) ∧ (∀ tid, Waits tid s2 → ∃ s3 o3, step s2 .wake = some (s3, o3) ∧ s3.pc = .running) ∧
    ∀ host th t r res s3 o3, threadOf s2 host = some th → th.frames ≠ [] → Exclusive r → step s2 (.done host t r res) = some (s3, o3) →
      (MustStop s t r ↔ Stops th.id o3) ∧
      (MustStop s t r → ∀ ls' s4 os', Run s3 ls' s4 os' → (∀ r', Label.req r' ∈ ls' → ¬ Resumes th.id r') → Waits th.id s4 ∧ ∀ l ∈ ls', NotPlaybook l) := by
  obtain ⟨b1, b2, b3⟩ := after_disconnect hr h hrun hp (unselected_must hd)
  refine ⟨b2, b3, fun host th t r res s3 o3 h1 h2 hx h3 => ?_⟩
  have r2 : Reachable s2 := reach_append (reach_append hr (.cons h (.nil _))) hrun
  have e := (C36_exception_stops r2 h1 h2 hx h3).1
  rw [mustStop_congr b1 t r] at e
  refine ⟨e.symm, fun hm ls' s4 os' h4 hr' => ?_⟩
  obtain ⟨c1, -, c3⟩ := C37_waits r2 h3 (e.2 hm) h4 hr'
  exact ⟨c1, c3⟩

/-- Non-vacuity: the filter on_error is on, host 7 finishes one task well after the request and fails the next one; the filters select only the second. -/
example : ∃ s : DS, Reachable s ∧ (exec s [.req (.disconnect false), .start 8 (tk 9 1) 0 0 yes, .req .closed]).isSome = true ∧ (threadOf s 7).isSome = true ∧
    (exec s [.req (.disconnect false), .start 8 (tk 9 1) 0 0 yes, .req .closed, .done 7 (tk 10 1) bad 0]).isSome = true ∧ Exclusive bad ∧ Exclusive fine ∧
    MustStop s (tk 10 1) bad ∧ ¬ MustStop s (tk 10 1) fine :=
  ⟨stF {} [.req (.setExc 1 [py!"on_error"]), .start 7 (tk 10 1) 0 0 yes], ⟨_, _, run_of (by decide +kernel)⟩, by decide +kernel, by decide +kernel, by decide +kernel,
    by unfold Exclusive; decide +kernel, by unfold Exclusive; decide +kernel, by unfold MustStop FilterOn; decide +kernel, by unfold MustStop FilterOn; decide +kernel⟩

/-- Non-vacuity: the client disconnects while host 7 is stopped at a breakpoint; the playbook goes on
past line 1, where the breakpoint was. -/
example : Reachable e1 ∧ FiltersOff e1 ∧ (exec e1 [.req (.disconnect false), .wake, .start 8 (tk 70 1) 0 0 yes, .req .closed]).isSome = true := by
  refine ⟨reach_append ⟨setup, _, run_of (by decide +kernel)⟩ (run_of (ls := [.start 7 (tinc 50 1) 0 0 yes]) (by decide +kernel)), ?_, by decide +kernel⟩
  intro f
  have : e1.dbg.exc = [] := by decide +kernel
  simp [Bp.shouldStop, this, Dict.get?]

/-- **C39** fails when an exception filter is on: it survives the disconnect, and the next failing
task makes the playbook wait for a client that is gone. -/
theorem C39_exception_refuted : ∃ s s1 s2 : DS, ∃ o1 o2, Reachable s ∧ step s (.req (.disconnect false)) = some (s1, o1) ∧
    Run s1 [.req .closed, .done 7 (tk 10 1) bad 0] s2 o2 ∧ Waits 2 s2 ∧ step s2 .wake = none := by
  refine ⟨stF {} [.req (.setExc 1 [py!"on_error"]), .start 7 (tk 10 1) 0 0 yes], _, _, _, _, ⟨_, _, run_of (by decide +kernel)⟩,
    step_of (by decide +kernel), run_of (by decide +kernel), .inr ⟨false, by decide +kernel⟩, ?_⟩
  apply Option.isNone_iff_eq_none.1; decide +kernel

/-! ## C65 -/

/-- **C65.** A disconnect request with terminateDebuggee: as long as the connection has not ended
and nothing else resumes the thread, the playbook waiting for a stopped thread can go on and ends.

Partial: see `C65_closed_refuted`. -/
theorem C65_disconnect_terminate_partial {s s1 s2 : DS} {o os : List Out} {ls : List Label} {tid : Nat} (hr : Reachable s) (hw : Waits tid s)
    (h : step s (.req (.disconnect true)) = some (s1, o)) (hrun : Run s1 ls s2 os) (hl : ∀ l ∈ ls, NotPlaybook l)
    (hn : ∀ r, Label.req r ∈ ls → ¬ Resumes tid r) : ∃ s3 o3, step s2 .wake = some (s3, o3) ∧ s3.pc = .ended := by
  have hi := reach_inv hr
  have i1 := inv_step hi h
  have : ∃ th, s.threads.get? tid = some th := by
    have hp := hi.pc
    unfold PcOk at hp
    rcases hw with e | ⟨i, e⟩
    · rw [e] at hp; exact hp
    · rw [e] at hp; obtain ⟨th, h1, -⟩ := hp; exact ⟨th, h1⟩
  obtain ⟨th, ht⟩ := this
  have g : s1.threads.get? tid = some (setState th .fin) := by
    rw [fst_eq h]; exact resume_every hi ht .fin
  have w1 : Waits tid s1 := by
    unfold Waits at hw ⊢
    rw [fst_eq h, request_pc s hi]; exact hw
  have key : ∀ {a b : DS} {ls os}, Run a ls b os → Inv a → Waits tid a → (∀ l ∈ ls, NotPlaybook l) → (∀ r, Label.req r ∈ ls → ¬ Resumes tid r) →
      Inv b ∧ Waits tid b ∧ ctl b tid = ctl a tid := by
    intro a b ls os hab
    induction hab with
    | nil => intro ia wa _ _; exact ⟨ia, wa, rfl⟩
    | @cons a a1 b l ls o os k1 _ ih =>
      intro ia wa hl hn
      have ia1 := inv_step ia k1
      cases l with
      | env hp =>
        cases k1
        exact ih ia1 wa (fun l hm => hl l (by simp [hm])) (fun r hm => hn r (by simp [hm]))
      | req r =>
        have wa1 : Waits tid a1 := by
          unfold Waits at wa ⊢
          rw [fst_eq k1, request_pc a ia r]; exact wa
        obtain ⟨x1, x2, x3⟩ := ih ia1 wa1 (fun l hm => hl l (by simp [hm])) (fun r hm => hn r (by simp [hm]))
        refine ⟨x1, x2, x3.trans ?_⟩
        rw [fst_eq k1]; exact request_ctl ia r (hn r (by simp))
      | _ => exact absurd (hl _ List.mem_cons_self) id
  obtain ⟨i2, w2, c2⟩ := key hrun i1 w1 hl hn
  simp only [ctl, g, Option.map_some] at c2
  cases ht2 : s2.threads.get? tid with
  | none => simp [ht2] at c2
  | some th2 =>
    simp only [ht2, Option.map_some, Option.some.injEq, Prod.mk.injEq, setState_fin_state] at c2
    obtain ⟨s3, o3, d1, -, d3⟩ := wake_of i2 w2 ht2 (by rw [c2.1]; simp)
    exact ⟨s3, o3, d1, by rw [c2.1] at d3; exact d3⟩

/-- Non-vacuity. -/
example : Reachable e1 ∧ Waits 2 e1 ∧ (exec e1 [.req (.disconnect true), .req .threads, .wake]).isSome = true :=
  ⟨reach_append ⟨setup, _, run_of (by decide +kernel)⟩ (run_of (ls := [.start 7 (tinc 50 1) 0 0 yes]) (by decide +kernel)),
    .inl (by decide +kernel), by decide +kernel⟩

/-- **C65** fails when the connection ends before the playbook thread has woken up, which it does
right after the request: the run goes on as if the client had not asked to terminate. -/
theorem C65_closed_refuted : ∃ s s1 s2 : DS, ∃ o1 o2, Reachable s ∧ Waits 2 s ∧ step s (.req (.disconnect true)) = some (s1, o1) ∧
    Run s1 [.req .closed, .wake, .done 7 (tinc 50 1) fine 0, .start 7 (tsub 51 1) 0 0 yes] s2 o2 ∧ s2.pc = .running :=
  ⟨e1, _, _, _, _, reach_append ⟨setup, _, run_of (by decide +kernel)⟩ (run_of (ls := [.start 7 (tinc 50 1) 0 0 yes]) (by decide +kernel)),
    .inl (by decide +kernel), step_of (by decide +kernel), run_of (by decide +kernel), by decide +kernel⟩

/-- What becomes of the thread `tid`, for which the playbook waits: `none`, it goes on waiting; `some false`, the playbook goes on; `some true`, the run ends. `t`: was a
terminate request handled (then the end of the connection resumes nothing); `e`: the answer so far. The last request that resumes the thread counts. -/
def endsAfter (tid : Nat) : Bool → Option Bool → List Label → Option Bool
  | _, e, [] => e
  | t, e, .req r :: ls => match r with
    | .terminate => endsAfter tid true (some true) ls
    | .disconnect b => endsAfter tid t (some b) ls
    | .closed => endsAfter tid t (if t = true then e else some false) ls
    | .cont k single => endsAfter tid t (if single = false ∨ k = tid then some false else e) ls
    | .stepIn k => endsAfter tid t (if k = tid then some false else e) ls
    | .stepOut k => endsAfter tid t (if k = tid then some false else e) ls
    | .next k => endsAfter tid t (if k = tid then some false else e) ls
    | _ => endsAfter tid t e ls
  | t, e, _ :: ls => endsAfter tid t e ls

theorem get_of_ctl {s : DS} {tid : Nat} {c} (h : ctl s tid = some c) : ∃ th, s.threads.get? tid = some th ∧ th.state = c.1 := by
  simp only [ctl] at h
  cases ht : s.threads.get? tid with
  | none => simp [ht] at h
  | some th =>
    simp only [ht, Option.map_some, Option.some.injEq] at h
    exact ⟨th, rfl, by rw [← h]⟩

/-- The thread waits, goes on or is about to end the run. -/
def Awake (tid : Nat) (e : Option Bool) (s : DS) : Prop :=
  ∃ th, s.threads.get? tid = some th ∧ (th.state = .wait ↔ e = none) ∧ (th.state = .fin ↔ e = some true)

theorem awake_ctl {s s' : DS} {tid : Nat} {e : Option Bool} (h : Awake tid e s) (hc : ctl s' tid = ctl s tid) : Awake tid e s' := by
  obtain ⟨th, h1, h2, h3⟩ := h
  have : ∃ c, ctl s' tid = some (th.state, c) := by rw [hc]; simp only [ctl, h1, Option.map_some]; exact ⟨_, rfl⟩
  obtain ⟨c, this⟩ := this
  obtain ⟨th', g1, g2⟩ := get_of_ctl this
  exact ⟨th', g1, by rw [g2]; exact h2, by rw [g2]; exact h3⟩

theorem awake_set {s : DS} {tid : Nat} {th : Thread} {st : TState} (h : s.threads.get? tid = some (setState th st)) (hw : st ≠ .wait) :
    Awake tid (some (decide (st = .fin))) s := by
  refine ⟨_, h, by simp [setState_awake th hw], ?_⟩
  by_cases hf : st = .fin
  · subst hf; simp [setState_fin_state]
  · simp [hf, setState_fin th hf]

theorem endsAfter_spec {tid : Nat} {ls : List Label} : ∀ {a b : DS} {os : List Out} {e : Option Bool}, Run a ls b os → Inv a → Waits tid a → Awake tid e a →
    (∀ l ∈ ls, NotPlaybook l) → Inv b ∧ Waits tid b ∧ Awake tid (endsAfter tid a.terminated e ls) b := by
  induction ls with
  | nil => intro a b os e h ia wa ha _; cases h; exact ⟨ia, wa, ha⟩
  | cons l ls ih =>
    intro a b os e h ia wa ha hl
    cases h with
    | @cons _ a1 _ _ _ o os' k1 k2 =>
    have ia1 := inv_step ia k1
    have hl' : ∀ l ∈ ls, NotPlaybook l := fun l hm => hl l (by simp [hm])
    cases l with
    | env hp => cases k1; exact ih (a := { a with heap := hp }) k2 ia1 wa ha hl'
    | req r =>
      have wa1 : Waits tid a1 := by
        unfold Waits at wa ⊢
        rw [fst_eq k1, request_pc a ia r]; exact wa
      have e1 : a1 = (request a r).1 := fst_eq k1
      obtain ⟨th, ht, -⟩ := id ha
      have skip : ¬ Resumes tid r → Awake tid e a1 := fun hn => awake_ctl ha (by rw [e1]; exact request_ctl ia r hn)
      have one : ∀ k st (o : Out), k = tid → st ≠ TState.wait → a1 = (resumeReq a [k] st o).1 → Awake tid (some (decide (st = .fin))) a1 := by
        rintro k st o rfl hw rfl
        exact awake_set (resume_one ht st o) hw
      have every : ∀ st, st ≠ TState.wait → a1.threads = (resume (a.threads.map (·.1)) st a.threads).1 → Awake tid (some (decide (st = .fin))) a1 := by
        intro st hw he
        exact awake_set (th := th) (by rw [he]; exact resume_every ia ht st) hw
      cases r with
      | terminate =>
        have := ih k2 ia1 wa1 (every .fin (by simp) (by rw [e1]; rfl)) hl'
        rw [show a1.terminated = true by rw [e1]; rfl] at this
        exact this
      | disconnect b =>
        have := ih k2 ia1 wa1 (every (if b = true then .fin else .cont) (by cases b <;> simp) (by rw [e1]; rfl)) hl'
        rw [show a1.terminated = a.terminated by rw [e1]; rfl] at this
        cases b <;> exact this
      | closed =>
        by_cases htm : a.terminated = true
        · have hc : ctl a1 tid = ctl a tid := by rw [e1]; simp only [request, htm, if_true]; rfl
          have := ih k2 ia1 wa1 (awake_ctl ha hc) hl'
          rw [show a1.terminated = a.terminated by rw [e1]; simp only [request, htm, if_true]] at this
          simpa [endsAfter, htm] using this
        · have := ih k2 ia1 wa1 (every .cont (by simp) (by rw [e1]; simp only [request]; rw [if_neg htm]; rfl)) hl'
          rw [show a1.terminated = a.terminated by rw [e1]; simp only [request]; rw [if_neg htm]; rfl] at this
          simp only [Bool.not_eq_true] at htm
          simpa [endsAfter, htm] using this
      | cont k single =>
        have htm : a1.terminated = a.terminated := by rw [e1]; cases single <;> rfl
        by_cases hc : single = false ∨ k = tid
        · have hA : Awake tid (some false) a1 := by
            cases single with
            | false => exact every .cont (by simp) (by rw [e1]; rfl)
            | true => exact one k .cont _ (by simpa using hc) (by simp) (by rw [e1]; rfl)
          have := ih k2 ia1 wa1 hA hl'
          rw [htm] at this
          simpa only [endsAfter, if_pos hc] using this
        · have := ih k2 ia1 wa1 (skip hc) hl'
          rw [htm] at this
          simpa only [endsAfter, if_neg hc] using this
      | stepIn k =>
        have htm : a1.terminated = a.terminated := by rw [e1]; rfl
        by_cases hc : k = tid
        · have := ih k2 ia1 wa1 (e := some false) (one k .stepIn _ hc (by simp) (by rw [e1]; rfl)) hl'
          rw [htm] at this
          simpa only [endsAfter, if_pos hc] using this
        · have := ih k2 ia1 wa1 (skip hc) hl'
          rw [htm] at this
          simpa only [endsAfter, if_neg hc] using this
      | stepOut k =>
        have htm : a1.terminated = a.terminated := by rw [e1]; rfl
        by_cases hc : k = tid
        · have := ih k2 ia1 wa1 (e := some false) (one k .stepOut _ hc (by simp) (by rw [e1]; rfl)) hl'
          rw [htm] at this
          simpa only [endsAfter, if_pos hc] using this
        · have := ih k2 ia1 wa1 (skip hc) hl'
          rw [htm] at this
          simpa only [endsAfter, if_neg hc] using this
      | next k =>
        have htm : a1.terminated = a.terminated := by rw [e1]; rfl
        by_cases hc : k = tid
        · have := ih k2 ia1 wa1 (e := some false) (one k .stepOver _ hc (by simp) (by rw [e1]; rfl)) hl'
          rw [htm] at this
          simpa only [endsAfter, if_pos hc] using this
        · have := ih k2 ia1 wa1 (skip hc) hl'
          rw [htm] at this
          simpa only [endsAfter, if_neg hc] using this
      | stackTrace t =>
        have := ih k2 ia1 wa1 (skip (fun h => h)) hl'
        rw [show a1.terminated = a.terminated by rw [e1]; exact rfl] at this
        exact this
      | threads =>
        have := ih k2 ia1 wa1 (skip (fun h => h)) hl'
        rw [show a1.terminated = a.terminated by rw [e1]; exact rfl] at this
        exact this
      | scopes x y z =>
        have := ih k2 ia1 wa1 (skip (fun h => h)) hl'
        rw [show a1.terminated = a.terminated by rw [e1]; exact (getScopes_ext a x y z).term] at this
        exact this
      | variables x =>
        have := ih k2 ia1 wa1 (skip (fun h => h)) hl'
        rw [show a1.terminated = a.terminated by rw [e1]; exact (getVariables_ext ia.core x).term] at this
        exact this
      | setVariable x y z =>
        have := ih k2 ia1 wa1 (skip (fun h => h)) hl'
        rw [show a1.terminated = a.terminated by rw [e1]; exact (setVariable_ext ia.core x y z).term] at this
        exact this
      | evaluate x y =>
        have := ih k2 ia1 wa1 (skip (fun h => h)) hl'
        rw [show a1.terminated = a.terminated by rw [e1]; exact (evaluate_ext a x y).term] at this
        exact this
      | setBps _ _ _ _ =>
        have := ih k2 ia1 wa1 (skip (fun h => h)) hl'
        rw [show a1.terminated = a.terminated by rw [e1]; exact rfl] at this
        exact this
      | setExc _ _ =>
        have := ih k2 ia1 wa1 (skip (fun h => h)) hl'
        rw [show a1.terminated = a.terminated by rw [e1]; exact rfl] at this
        exact this
      | config _ =>
        have := ih k2 ia1 wa1 (skip (fun h => h)) hl'
        rw [show a1.terminated = a.terminated by rw [e1]; exact rfl] at this
        exact this
    | _ => exact absurd (hl _ List.mem_cons_self) id

theorem waits_thread {s : DS} {tid : Nat} (hi : Inv s) (hw : Waits tid s) : ∃ th, s.threads.get? tid = some th := by
  have hp := hi.pc
  unfold PcOk at hp
  rcases hw with e | ⟨i, e⟩
  · rw [e] at hp; exact hp
  · rw [e] at hp; obtain ⟨th, h1, -⟩ := hp; exact ⟨th, h1⟩

/-- What the playbook thread can do next. -/
def Next (e : Option Bool) (s : DS) : Prop :=
  match e with
  | none => step s .wake = none
  | some true => ∃ s' o, step s .wake = some (s', o) ∧ s'.pc = .ended
  | some false => ∃ s' o, step s .wake = some (s', o) ∧ s'.pc = .running

theorem next_of {s : DS} {tid : Nat} {e : Option Bool} (hi : Inv s) (hw : Waits tid s) (ha : Awake tid e s) : Next e s := by
  obtain ⟨th, h1, h2, h3⟩ := ha
  cases e with
  | none =>
    have h2 := h2.2 rfl
    rcases hw with e | ⟨i, e⟩ <;> simp [Next, step, e, h1, h2]
  | some e =>
    obtain ⟨s3, o3, d1, -, d3⟩ := wake_of hi hw h1 (by intro h; exact absurd (h2.1 h) (by simp))
    cases e with
    | true => rw [h3.2 rfl] at d3; exact ⟨s3, o3, d1, d3⟩
    | false =>
      have hf : th.state ≠ .fin := fun h => absurd (h3.1 h) (by simp)
      rw [show (th.state == TState.fin) = false by simp [hf]] at d3
      exact ⟨s3, o3, d1, d3⟩

/-- **C37, exactly.** When a thread has stopped, then whatever requests and ends of connections come: the playbook waits on iff none of them resumed the thread; else it can
go on, and the run ends iff the last that resumed the thread asked for it (`endsAfter`; the end of the connection counts as `continue`, unless a terminate request came before). -/
theorem C37_exact {s s1 s2 : DS} {l : Label} {o os : List Out} {ls : List Label} {tid : Nat} (hr : Reachable s) (h : step s l = some (s1, o)) (hst : Stops tid o)
    (hrun : Run s1 ls s2 os) (hl : ∀ l ∈ ls, NotPlaybook l) : Next (endsAfter tid s1.terminated none ls) s2 := by
  have hi := reach_inv hr
  obtain ⟨a1, x, y, a2⟩ := stop_waits hi h hst
  have w1 : Waits tid s1 := a1
  obtain ⟨th, g1, g2⟩ := get_of_ctl a2
  obtain ⟨i2, w2, h2⟩ := endsAfter_spec (e := none) hrun (inv_step hi h) w1 ⟨th, g1, by simp [g2], by simp [g2]⟩ hl
  exact next_of i2 w2 h2

/-- **C38** for a playbook that waits, exactly: after a terminate request the run ends iff the last request that resumes the thread asks for it. -/
theorem C38_waiting_exact_partial {s s1 s2 : DS} {o os : List Out} {ls : List Label} {tid : Nat} (hr : Reachable s) (hw : Waits tid s)
    (h : step s (.req .terminate) = some (s1, o)) (hrun : Run s1 ls s2 os) (hl : ∀ l ∈ ls, NotPlaybook l) :
    Next (endsAfter tid true (some true) ls) s2 := by
  have hi := reach_inv hr
  obtain ⟨th, ht⟩ := waits_thread hi hw
  have g : s1.threads.get? tid = some (setState th .fin) := by
    rw [fst_eq h]; exact resume_every hi ht .fin
  have w1 : Waits tid s1 := by
    unfold Waits at hw ⊢
    rw [fst_eq h, request_pc s hi]; exact hw
  obtain ⟨i2, w2, h2⟩ := endsAfter_spec (e := some true) hrun (inv_step hi h) w1 (awake_set g (by simp)) hl
  rw [show s1.terminated = true by rw [fst_eq h]; rfl] at h2
  exact next_of i2 w2 h2

/-- **C65, exactly.** After a disconnect request with terminateDebuggee, and whatever requests and ends of connections come before the playbook thread wakes up: it
always can wake up, and the run ends iff the last of those that resumes the thread asks for the end too (`endsAfter`; there may be none; the end of the connection
counts as `continue`, unless a terminate request came before it). -/
theorem C65_exact_partial {s s1 s2 : DS} {o os : List Out} {ls : List Label} {tid : Nat} (hr : Reachable s) (hw : Waits tid s)
    (h : step s (.req (.disconnect true)) = some (s1, o)) (hrun : Run s1 ls s2 os) (hl : ∀ l ∈ ls, NotPlaybook l) :
    Next (endsAfter tid s.terminated (some true) ls) s2 := by
  have hi := reach_inv hr
  obtain ⟨th, ht⟩ := waits_thread hi hw
  have g : s1.threads.get? tid = some (setState th .fin) := by
    rw [fst_eq h]; exact resume_every hi ht .fin
  have w1 : Waits tid s1 := by
    unfold Waits at hw ⊢
    rw [fst_eq h, request_pc s hi]; exact hw
  obtain ⟨i2, w2, h2⟩ := endsAfter_spec (e := some true) hrun (inv_step hi h) w1 (awake_set g (by simp)) hl
  rw [show s1.terminated = s.terminated by rw [fst_eq h]; rfl] at h2
  exact next_of i2 w2 h2

example : endsAfter 2 false (some true) [.req .threads, .req (.next 3)] = some true ∧ endsAfter 2 false (some true) [.req .closed] = some false ∧
    endsAfter 2 false (some true) [.req .terminate, .req .closed] = some true ∧ endsAfter 2 true none [.req .closed, .req (.next 3)] = none ∧
    endsAfter 2 false none [.req (.disconnect false), .req .terminate, .req (.cont 2 true)] = some false := by
  decide +kernel

end Verif.Props.Strat
