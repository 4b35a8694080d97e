import Verif.Strat.Free
/-!
# The stacks of the threads, step by step
-/

namespace Verif.Strat
open Verif

/-- The frames of a thread with their tasks, newest first. -/
def viewF (F : Dict Nat Frame) (fs : List Nat) : List (Nat × Option Task) := fs.map fun f => (f, (F.get? f).map (·.task))

/-- Host and stack of a thread. -/
def view (s : DS) (k : Nat) : Option (Option Nat × List (Nat × Option Task)) :=
  (s.threads.get? k).map fun th => (th.host, viewF s.frames th.frames)

/-- What is left of a stack when a task starts (debug.py:517-526). -/
def synced (t : Task) : List (Nat × Option Task) → List (Nat × Option Task)
  | [] => []
  | e :: l => match t.parents with
    | [] => e :: l
    | [_] => l
    | _ :: p :: _ => if (e.2.map fun x => x.node.uuid) = some p.uuid then e :: l else l

theorem viewF_congr {F G : Dict Nat Frame} {fs : List Nat} (h : ∀ f ∈ fs, (G.get? f).map (·.task) = (F.get? f).map (·.task)) :
    viewF G fs = viewF F fs := by
  unfold viewF
  apply List.map_congr_left
  intro f hf
  rw [h f hf]

theorem view_pop {s s' : DS} (c : s.core) {th th' : Thread} (ht : s.threads.get? th.id = some th) (h : popFrame s th = .ok (s', th')) :
    (∀ k, k ≠ th.id → view s' k = view s k) ∧ view s' th.id = some (th.host, (viewF s.frames th.frames).tail) ∧ th' = { th with frames := th.frames.tail } := by
  cases hf : th.frames with
  | nil => simp [popFrame, hf] at h
  | cons f fs =>
    obtain ⟨s1, g0, -, g2, g3, -⟩ := popFrame_ok c ht hf
    rw [h] at g0; cases g0
    have hnf := c.tfnd ht
    rw [hf, List.nodup_cons] at hnf
    refine ⟨?_, ?_, rfl⟩
    · intro k hk
      simp only [view, g2, DL.get_set, if_neg (Ne.symm hk)]
      cases hg : s.threads.get? k with
      | none => rfl
      | some thk =>
        simp only [Option.map_some]
        rw [viewF_congr]
        intro f' hf'
        rw [g3, DL.get_erase]
        split
        · rename_i e; subst e
          exact absurd (c.tfd hg ht hf' (by rw [hf]; simp)) hk
        · rfl
    · simp only [view, g2, DL.get_set, if_true, Option.map_some]
      congr 2
      simp only [viewF, List.map_cons, List.tail_cons]
      apply viewF_congr
      intro f' hf'
      rw [g3, DL.get_erase]
      split
      · rename_i e; subst e; exact absurd hf' hnf.1
      · rfl

theorem view_push {s : DS} (c : s.core) {th : Thread} (ht : s.threads.get? th.id = some th) (t : Task) (a b : Addr) :
    (∀ k, k ≠ th.id → view (pushFrame s th t a b).1 k = view s k) ∧
    view (pushFrame s th t a b).1 th.id = some (th.host, (s.nextF, some t) :: viewF s.frames th.frames) := by
  have old : ∀ {k thk}, s.threads.get? k = some thk → viewF (s.frames.set s.nextF { task := t, taskVars := a, args := b }) thk.frames = viewF s.frames thk.frames := by
    intro k thk hk
    apply viewF_congr
    intro f hf
    obtain ⟨fr, hfr⟩ := c.tf hk hf
    have := c.fid hfr
    rw [DL.get_set, if_neg (by omega)]
  refine ⟨?_, ?_⟩
  · intro k hk
    simp only [view, pushFrame, DL.get_set, if_neg (Ne.symm hk)]
    cases hg : s.threads.get? k with
    | none => rfl
    | some thk => simp only [Option.map_some]; rw [old hg]
  · simp only [view, pushFrame, DL.get_set, if_true, Option.map_some]
    congr 2
    have := old ht
    simp only [viewF, List.map_cons, DL.get_set, if_true, Option.map_some] at this ⊢
    rw [this]

theorem view_sync {s s' : DS} (c : s.core) {th th' : Thread} (ht : s.threads.get? th.id = some th) {t : Task}
    (h : syncFrames s th t = .ok (s', th')) :
    (∀ k, k ≠ th.id → view s' k = view s k) ∧ viewF s'.frames th'.frames = synced t (viewF s.frames th.frames) := by
  unfold syncFrames at h
  cases hf : th.frames with
  | nil =>
    rw [hf] at h; cases h
    refine ⟨fun _ _ => rfl, ?_⟩
    rw [hf]; rfl
  | cons f fs =>
    rw [hf] at h
    simp only at h
    have pop : popFrame s th = .ok (s', th') → (∀ k, k ≠ th.id → view s' k = view s k) ∧ viewF s'.frames th'.frames = viewF s.frames fs := by
      intro hp
      obtain ⟨a1, a2, a3⟩ := view_pop c ht hp
      refine ⟨a1, ?_⟩
      obtain ⟨s1, g0, -, g2, -⟩ := popFrame_ok c ht hf
      rw [hp] at g0; cases g0
      simp only [view, g2, DL.get_set, if_true, Option.map_some, Option.some.injEq, Prod.mk.injEq, true_and] at a2
      rw [a2, hf]; rfl
    cases hpar : t.parents with
    | nil => rw [hpar] at h; cases h
    | cons q ps =>
      rw [hpar] at h
      obtain ⟨fr, hfr⟩ := c.tf ht (f := f) (by rw [hf]; simp)
      simp only [hfr] at h
      by_cases hm : roleMissing fr ps t = true
      · rw [if_pos hm] at h; cases h
      rw [if_neg hm] at h
      cases ps with
      | nil =>
        obtain ⟨a1, a2⟩ := pop h
        exact ⟨a1, by rw [a2]; simp [viewF, synced, hpar]⟩
      | cons p qs =>
        simp only at h
        split at h
        · rename_i hne
          obtain ⟨a1, a2⟩ := pop h
          exact ⟨a1, by rw [a2]; simp [viewF, synced, hpar, hfr, hne]⟩
        · rename_i heq
          cases h
          refine ⟨fun _ _ => rfl, ?_⟩
          rw [hf]
          have : fr.task.node.uuid = p.uuid := by simpa using heq
          simp [viewF, synced, hpar, hfr, this]

theorem view_set {s : DS} {k : Nat} {th th' : Thread} (ht : s.threads.get? k = some th) (h1 : th'.host = th.host)
    (h2 : th'.frames = th.frames) (j : Nat) : view { s with threads := s.threads.set k th' } j = view s j := by
  simp only [view, DL.get_set]
  split
  · rename_i e; subst e
    rw [ht]
    simp [h1, h2]
  · rfl

theorem view_ext {s s' : DS} (e : VarExt s s') (k : Nat) : view s' k = view s k := by
  simp only [view, e.thr]
  cases s.threads.get? k with
  | none => rfl
  | some th =>
    simp only [Option.map_some]
    rw [viewF_congr]
    intro f _
    have := e.frames f
    cases h1 : s'.frames.get? f <;> cases h2 : s.frames.get? f <;> simp_all

theorem view_resume {s : DS} (ts : List Nat) (st : TState) (hn : ts.Nodup) (k : Nat) :
    view { s with threads := (resume ts st s.threads).1 } k = view s k := by
  simp only [view]
  rcases resume_get st ts s.threads k hn with e | ⟨-, th', e1, e2⟩
  · rw [e]
  · rw [e2, e1]
    simp only [Option.map_some]
    have := setState_keeps th' st
    rw [this.2.1, this.2.2]

theorem view_request {s : DS} (hi : Inv s) (r : Req) (k : Nat) : view (request s r).1 k = view s k := by
  cases r with
  | cont t single =>
    cases single
    · exact view_resume _ _ hi.core.tnd k
    · exact view_resume _ _ (by simp) k
  | stepIn t => exact view_resume _ _ (by simp) k
  | stepOut t => exact view_resume _ _ (by simp) k
  | next t => exact view_resume _ _ (by simp) k
  | scopes f a g => exact view_ext (getScopes_ext s f a g) k
  | variables r => exact view_ext (getVariables_ext hi.core r) k
  | setVariable r n t => exact view_ext (setVariable_ext hi.core r n t) k
  | evaluate f e => exact view_ext (evaluate_ext s f e) k
  | disconnect b => exact view_resume _ _ hi.core.tnd k
  | terminate => exact view_resume (s := { s with terminated := true }) _ _ hi.core.tnd k
  | closed =>
    simp only [request]
    split
    · rfl
    · exact view_resume _ _ hi.core.tnd k
  | _ => rfl

/-- The stack of the thread a host will use. -/
def hostStack (s : DS) (h : Nat) : List (Nat × Option Task) :=
  match threadOf s h with
  | none => []
  | some th => viewF s.frames th.frames

/-- The start of a task: the new frame on what is left of the host's stack; other threads keep
theirs. -/
theorem view_start {s : DS} (hi : Inv s) (hp : s.pc = .running) (h : Nat) (t : Task) (tv a : Addr) (cond : Nat → Bool)
    (hov : ¬ Over (startTask s h t tv a cond).1) :
    (∀ k, k ≠ (hostThread s h).2.1.id → view (startTask s h t tv a cond).1 k = view s k) ∧
    view (startTask s h t tv a cond).1 (hostThread s h).2.1.id = some (some h, (s.nextF, some t) :: synced t (hostStack s h)) ∧
    (startTask s h t tv a cond).1.nextF = s.nextF + 1 := by
  obtain ⟨c1, h1, h2, h3⟩ := hostThread_spec hi.core h
  have e := startTask_eq s h t tv a cond
  cases hs : syncFrames (hostThread s h).1 (hostThread s h).2.1 t with
  | error x => rw [hs] at e; exfalso; apply hov; rw [e]; exact .inr ⟨x, rfl⟩
  | ok p =>
    obtain ⟨s', th'⟩ := p
    rw [hs] at e
    simp only at e
    obtain ⟨c2, g1, g2, g3, g4, g5, g6, g7, g8, g9, g10, g11, -⟩ := sync_ok c1 h1 hs
    obtain ⟨v1, v2⟩ := view_sync c1 h1 hs
    have g1' : s'.threads.get? th'.id = some th' := by rw [g2]; exact g1
    obtain ⟨w1, w2⟩ := view_push c2 g1' t tv a
    have hF : (hostThread s h).1.frames = s.frames ∧ (hostThread s h).1.nextF = s.nextF := by
      unfold hostThread; split <;> exact ⟨rfl, rfl⟩
    have hd : ∀ k, view (decideStop (pushFrame s' th' t tv a).1 (pushFrame s' th' t tv a).2 t cond).1 k = view (pushFrame s' th' t tv a).1 k := by
      intro k
      unfold decideStop
      split
      · rfl
      · split
        · rfl
        · have kk := afterBreak_keeps (pushFrame s' th' t tv a).2 (t.node, t.parents) (bpFor (pushFrame s' th' t tv a).1 t cond)
          exact view_set (s := (pushFrame s' th' t tv a).1) (pushFrame_get s' th' t tv a) kk.2.1 kk.2.2 k
    have hd2 : (decideStop (pushFrame s' th' t tv a).1 (pushFrame s' th' t tv a).2 t cond).1.nextF = s'.nextF + 1 := by
      unfold decideStop
      split
      · rfl
      · split <;> rfl
    rw [e]
    refine ⟨?_, ?_, ?_⟩
    · intro k hk
      rw [hd, w1 k (by rw [g2]; exact hk), v1 k hk]
      simp only [view, hF.1]
      rw [hostThread_other s h hk]
    · rw [hd, ← g2, w2, g3, h2, v2]
      have : viewF (hostThread s h).1.frames (hostThread s h).2.1.frames = hostStack s h := by
        rw [hF.1]
        unfold hostStack hostThread
        cases threadOf s h <;> rfl
      rw [this, g11, hF.2]
    · simp only; rw [hd2, g11, hF.2]

/-- After the wait of `end_task`. -/
theorem view_endAfter {s : DS} (c : s.core) (tid : Nat) (inc : Bool) (hov : ¬ Over (endAfter s tid inc).1) :
    (∀ k, k ≠ tid → view (endAfter s tid inc).1 k = view s k) ∧
    view (endAfter s tid inc).1 tid = (view s tid).map (fun v => (v.1, if inc = true then v.2 else v.2.tail)) ∧
    (endAfter s tid inc).1.nextF = s.nextF := by
  unfold endAfter at hov ⊢
  cases h : s.threads.get? tid with
  | none => rw [h] at hov; exact absurd (.inr ⟨_, rfl⟩) hov
  | some th =>
    rw [h] at hov
    have hid := (c.tid h).1
    have ht : s.threads.get? th.id = some th := by rw [hid]; exact h
    simp only at hov ⊢
    split at hov
    · exact absurd (.inl rfl) hov
    · rename_i h1
      rw [if_neg h1]
      cases inc with
      | true =>
        refine ⟨fun _ _ => rfl, ?_, rfl⟩
        simp only [if_true]
        show view s tid = _
        cases view s tid <;> rfl
      | false =>
        simp only [Bool.false_eq_true, if_false] at hov ⊢
        cases hpop : popFrame s th with
        | error e => rw [hpop] at hov; exact absurd (.inr ⟨_, rfl⟩) hov
        | ok p =>
          obtain ⟨s', th'⟩ := p
          simp only
          obtain ⟨a1, a2, a3⟩ := view_pop c ht hpop
          rw [hid] at a1 a2
          refine ⟨a1, ?_, ?_⟩
          · show view s' tid = _
            rw [a2]
            simp only [view, h, Option.map_some]
          · cases hf : th.frames with
            | nil => simp [popFrame, hf] at hpop
            | cons f fs =>
              obtain ⟨s1, g0, -, -, -, -, -, g6, -⟩ := popFrame_ok c ht hf
              rw [hpop] at g0; cases g0; exact g6

/-- The end of a task. -/
theorem view_end {s : DS} (hi : Inv s) (h : Nat) (t : Task) (r : Result) (res : Addr) (hov : ¬ Over (endTask s h t r res).1) :
    ∃ th, threadOf s h = some th ∧ (∀ k, k ≠ th.id → view (endTask s h t r res).1 k = view s k) ∧
      (endTask s h t r res).1.nextF = s.nextF ∧
      (((endTask s h t r res).1.pc = .waitEnd th.id t.node.isInclude ∧ view (endTask s h t r res).1 th.id = view s th.id) ∨
       ((endTask s h t r res).1.pc = .running ∧
        view (endTask s h t r res).1 th.id = (view s th.id).map (fun v => (v.1, if t.node.isInclude = true then v.2 else v.2.tail)))) := by
  have sp := end_spec hi h t r res
  unfold endTask at hov sp ⊢
  cases ht : threadOf s h with
  | none => rw [ht] at hov; exact absurd (.inr ⟨_, rfl⟩) hov
  | some th =>
    rw [ht] at hov sp
    obtain ⟨h1, h2⟩ := threadOf_some hi.core ht
    refine ⟨th, rfl, ?_⟩
    simp only at hov sp ⊢
    cases hw : whyException t.parents r (filters s) with
    | none =>
      rw [hw] at hov sp
      simp only at hov sp ⊢
      obtain ⟨a1, a2, a3⟩ := view_endAfter hi.core th.id t.node.isInclude hov
      refine ⟨a1, a3, .inr ⟨?_, a2⟩⟩
      rcases (endAfter_spec hi.core th.id t.node.isInclude).2 with ho | ho
      · exact absurd ho hov
      · exact ho.1
    | some e =>
      rw [hw] at hov
      simp only at hov ⊢
      cases hf : th.frames with
      | nil => rw [hf] at hov; exact absurd (.inr ⟨_, rfl⟩) hov
      | cons f fs =>
        rw [hf] at hov
        simp only at hov ⊢
        obtain ⟨fr, hfr⟩ := hi.core.tf h2 (f := f) (by rw [hf]; simp)
        rw [hfr] at hov
        simp only [hfr]
        have kk := afterException_keeps th t.parents r (filters s)
        have hv : ∀ k, view { s with threads := s.threads.set th.id (afterException th t.parents r (filters s)) } k = view s k :=
          fun k => view_set h2 kk.2.1 kk.2.2 k
        have ev := addVar_variables { s with threads := s.threads.set th.id (afterException th t.parents r (filters s)) } hfr (kindOf s.heap res) res
        have ex := addUpd_ext { s with threads := s.threads.set th.id (afterException th t.parents r (filters s)) } hfr (kindOf s.heap res) res
            (fun r => { r with resultId := s.nextV }) (fun r => ⟨rfl, rfl, rfl, rfl⟩)
            (fun r i hi => by rcases hi with h | h | h | h <;> simp_all)
        simp only [updFrame, ev] at ex
        simp only [ev]
        refine ⟨?_, ex.nf, .inl ⟨by trivial, ?_⟩⟩
        · intro k _
          rw [← hv k]
          exact view_ext ex k
        · rw [← hv th.id]
          exact view_ext ex th.id

end Verif.Strat
