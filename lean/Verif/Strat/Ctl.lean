import Verif.Strat.Steps
import Verif.Strat.Spec
/-!
# How the control state of a thread changes
-/

namespace Verif.Strat
open Verif

/-- State, remembered task and host of a thread. -/
def ctl (s : DS) (tid : Nat) : Option (TState × Option TaskRef × Option Nat) :=
  (s.threads.get? tid).map fun th => (th.state, th.stopped, th.host)

theorem whyBreak_congr {a b : Thread} (h1 : a.state = b.state) (h2 : a.stopped = b.stopped) (t : TaskRef) (bp : Option Nat) :
    whyBreak a t bp = whyBreak b t bp := by
  simp [whyBreak, breakOver, breakOut, h1, h2]

theorem bpFor_congr {a b : DS} (h : a.dbg = b.dbg) (t : Task) (c : Nat → Bool) : bpFor a t c = bpFor b t c := by
  simp [bpFor, h]

/-- Why a task stops the host, if it does: tasks without a location never do (debug.py:553-555). -/
def whyStop (s : DS) (th : Thread) (t : Task) (cond : Nat → Bool) : Option Why :=
  match t.path with
  | none => none
  | some _ => whyBreak th (t.node, t.parents) (bpFor s t cond)

theorem afterBreak_stop {th : Thread} {t : TaskRef} {b : Option Nat} {w : Why} (h : whyBreak th t b = some w) :
    afterBreak th t b = { th with stopped := some t, state := .wait } := by
  simp [afterBreak, h]

theorem decideStop_eq (s : DS) (th : Thread) (t : Task) (cond : Nat → Bool) :
    decideStop s th t cond =
      match whyStop s th t cond with
      | none => (s, [])
      | some w => ({ s with threads := s.threads.set th.id { th with stopped := some (t.node, t.parents), state := .wait }
                            pc := .waitStart th.id }, [.stopped th.id (.brk w)]) := by
  unfold decideStop whyStop
  cases h : t.path with
  | none => rfl
  | some p =>
    simp only
    cases hw : whyBreak th (t.node, t.parents) (bpFor s t cond) with
    | none => rfl
    | some w => simp only [afterBreak_stop hw]

theorem hostThread_pc (s : DS) (h : Nat) : (hostThread s h).1.pc = s.pc ∧ (hostThread s h).1.dbg = s.dbg ∧
    (hostThread s h).1.terminated = s.terminated ∧ (hostThread s h).1.heap = s.heap ∧ (hostThread s h).1.frames = s.frames ∧ (hostThread s h).1.vars = s.vars ∧
    (hostThread s h).1.nextF = s.nextF ∧ (hostThread s h).1.nextV = s.nextV := by
  unfold hostThread
  split <;> exact ⟨rfl, rfl, rfl, rfl, rfl, rfl, rfl, rfl⟩

theorem hostThread_out (s : DS) (h : Nat) : ∀ o ∈ (hostThread s h).2.2, ∃ k, o = .started k := by
  unfold hostThread
  split
  · simp
  · intro o ho
    simp [addThread] at ho
    exact ⟨_, ho⟩

/-- Threads other than the new one are as before. -/
theorem hostThread_other (s : DS) (h : Nat) {k : Nat} (hk : k ≠ (hostThread s h).2.1.id) :
    (hostThread s h).1.threads.get? k = s.threads.get? k := by
  unfold hostThread at hk ⊢
  split
  · rfl
  · rename_i ht
    simp only [ht, addThread] at hk ⊢
    rw [DL.get_set, if_neg (Ne.symm hk)]

theorem exit_out (s : DS) : ∀ o ∈ (exitThreads s).2, ∃ k, o = .exited k := by
  intro o ho
  simp only [exitThreads, List.mem_map] at ho
  obtain ⟨k, -, rfl⟩ := ho
  exact ⟨k, rfl⟩

/-- Registering a line stops no thread. -/
theorem registerLine_stops (s : DS) (p : Str) (l : Int) (ty tid : Nat) : ¬ Stops tid (registerLine s p l ty).2 := by
  rintro ⟨w, hw⟩
  rcases registerLine_cases s p l ty with hr | ⟨e, -, hr⟩ <;> rw [hr] at hw
  · simp [bpStep] at hw
  · simp only [crash, finish] at hw
    rcases List.mem_append.1 hw with hw | hw
    · simp [bpStep] at hw
    · obtain ⟨k, hk⟩ := exit_out _ _ hw; cases hk

theorem crash_stops {s : DS} {o : List Out} {e : PyErr} (ho : ∀ x ∈ o, ∃ k, x = .started k) (tid : Nat) : ¬ Stops tid (crash s o e).2 := by
  rintro ⟨w, hw⟩
  simp only [crash, finish] at hw
  rcases List.mem_append.1 hw with hw | hw
  · obtain ⟨k, hk⟩ := ho _ hw; cases hk
  · obtain ⟨k, hk⟩ := exit_out _ _ hw; cases hk

/-- A started task: the outcome. -/
theorem start_spec {s : DS} (hi : Inv s) (hp : s.pc = .running) (h : Nat) (t : Task) (tv a : Addr) (cond : Nat → Bool) :
    (∃ e, syncFrames (hostThread s h).1 (hostThread s h).2.1 t = .error e ∧
      startTask s h t tv a cond = crash (hostThread s h).1 (hostThread s h).2.2 e) ∨
    (∃ s' th' , syncFrames (hostThread s h).1 (hostThread s h).2.1 t = .ok (s', th') ∧
      startTask s h t tv a cond = ((decideStop (pushFrame s' th' t tv a).1 (pushFrame s' th' t tv a).2 t cond).1,
        (hostThread s h).2.2 ++ (match whyStop s (hostThread s h).2.1 t cond with
          | none => []
          | some w => [.stopped (hostThread s h).2.1.id (.brk w)])) ∧
      ctl (startTask s h t tv a cond).1 (hostThread s h).2.1.id = some (match whyStop s (hostThread s h).2.1 t cond with
        | none => ((hostThread s h).2.1.state, (hostThread s h).2.1.stopped, some h)
        | some _ => (.wait, some (t.node, t.parents), some h)) ∧
      (∀ k, k ≠ (hostThread s h).2.1.id → ctl (startTask s h t tv a cond).1 k = ctl s k) ∧
      (startTask s h t tv a cond).1.pc = (match whyStop s (hostThread s h).2.1 t cond with
        | none => .running
        | some _ => .waitStart (hostThread s h).2.1.id) ∧
      (startTask s h t tv a cond).1.dbg = s.dbg ∧ (startTask s h t tv a cond).1.terminated = s.terminated) := by
  obtain ⟨c1, h1, h2, h3⟩ := hostThread_spec hi.core h
  obtain ⟨p1, p2, p3, -⟩ := hostThread_pc s h
  have ho := fun {k} => @hostThread_other s h k
  cases hs : syncFrames (hostThread s h).1 (hostThread s h).2.1 t with
  | error e => left; exact ⟨e, rfl, by rw [startTask_eq, hs]⟩
  | ok p =>
    right
    obtain ⟨s', th'⟩ := p
    obtain ⟨c2, g1, g2, g3, g4, g5, g6, g7, g8, g9, -⟩ := sync_ok c1 h1 hs
    refine ⟨s', th', rfl, ?_⟩
    have hw : whyStop (pushFrame s' th' t tv a).1 (pushFrame s' th' t tv a).2 t cond = whyStop s (hostThread s h).2.1 t cond := by
      unfold whyStop
      cases t.path with
      | none => rfl
      | some p =>
        have e1 : bpFor (pushFrame s' th' t tv a).1 t cond = bpFor s t cond := bpFor_congr (g7.trans p2) t cond
        rw [e1]
        exact whyBreak_congr g4 g5 _ _
    have e := startTask_eq s h t tv a cond
    rw [hs] at e
    simp only at e
    have hout : (decideStop (pushFrame s' th' t tv a).1 (pushFrame s' th' t tv a).2 t cond).2 =
        (match whyStop s (hostThread s h).2.1 t cond with
          | none => []
          | some w => [.stopped (hostThread s h).2.1.id (.brk w)]) := by
      rw [decideStop_eq, hw]
      cases whyStop s (hostThread s h).2.1 t cond with
      | none => rfl
      | some w => simp only [pushFrame, g2]
    rw [e, hout]
    refine ⟨rfl, ?_⟩
    simp only
    rw [decideStop_eq, hw]
    cases whyStop s (hostThread s h).2.1 t cond with
    | none =>
      simp only
      refine ⟨?_, ?_, ?_, ?_, ?_⟩
      · simp [ctl, pushFrame, DL.get_set, g2, g4, g5, g3, h2]
      · intro k hk
        simp only [ctl, pushFrame, DL.get_set, g2, if_neg (Ne.symm hk), g6 k hk, ho hk]
      · exact g8.trans (p1.trans hp)
      · exact g7.trans p2
      · exact g9.trans p3
    | some w =>
      simp only
      refine ⟨?_, ?_, ?_, ?_, ?_⟩
      · simp [ctl, pushFrame, DL.get_set, g2, g3, h2]
      · intro k hk
        simp only [ctl, pushFrame, DL.get_set, g2, if_neg (Ne.symm hk), g6 k hk, ho hk]
      · simp [pushFrame, g2]
      · exact g7.trans p2
      · exact g9.trans p3

theorem endAfter_spec {s : DS} (c : s.core) (tid : Nat) (inc : Bool) :
    (∀ k, ¬ Stops k (endAfter s tid inc).2) ∧
    (Over (endAfter s tid inc).1 ∨
      (endAfter s tid inc).1.pc = .running ∧ (endAfter s tid inc).2 = [] ∧ (∀ k, ctl (endAfter s tid inc).1 k = ctl s k) ∧
      (endAfter s tid inc).1.dbg = s.dbg ∧ (endAfter s tid inc).1.terminated = s.terminated ∧
      ∃ th, s.threads.get? tid = some th ∧ th.state ≠ .fin) := by
  unfold endAfter
  have nofin : ∀ k, ¬ Stops k (finish s .ended).2 := by
    rintro k ⟨w, hw⟩
    obtain ⟨j, hj⟩ := exit_out _ _ hw; cases hj
  cases h : s.threads.get? tid with
  | none => exact ⟨crash_stops (by simp), .inl (.inr ⟨_, rfl⟩)⟩
  | some th =>
    have ht : s.threads.get? th.id = some th := by rw [(c.tid h).1]; exact h
    simp only
    split
    · exact ⟨nofin, .inl (.inl rfl)⟩
    · rename_i hne
      split
      · refine ⟨(by rintro k ⟨w, hw⟩; cases hw), .inr ⟨rfl, rfl, fun _ => rfl, rfl, rfl, th, rfl, hne⟩⟩
      · cases hf : th.frames with
        | nil => simp only [popFrame, hf]; exact ⟨crash_stops (by simp), .inl (.inr ⟨_, rfl⟩)⟩
        | cons f fs =>
          obtain ⟨s', g0, g1, g2, -, -, g5, g6, g7, g8, g9, g10, -⟩ := popFrame_ok c ht hf
          rw [g0]
          refine ⟨(by rintro k ⟨w, hw⟩; cases hw), .inr ⟨rfl, rfl, fun k => ?_, g8, g10, th, rfl, hne⟩⟩
          simp only [ctl, g2, DL.get_set]
          split
          · rename_i e; subst e; rw [ht]; rfl
          · rfl

/-- A finished task: the outcome. -/
theorem end_spec {s : DS} (hi : Inv s) (h : Nat) (t : Task) (r : Result) (res : Addr) :
    (Over (endTask s h t r res).1 ∧ ∀ k, ¬ Stops k (endTask s h t r res).2) ∨
    ((endTask s h t r res).1.pc = .running ∧ (endTask s h t r res).2 = [] ∧ (∀ k, ctl (endTask s h t r res).1 k = ctl s k) ∧
      whyException t.parents r (filters s) = none ∧
      (endTask s h t r res).1.dbg = s.dbg ∧ (endTask s h t r res).1.terminated = s.terminated ∧
      ∃ th, threadOf s h = some th ∧ th.state ≠ .fin) ∨
    (∃ th e, threadOf s h = some th ∧ whyException t.parents r (filters s) = some e ∧
      (endTask s h t r res).2 = [.stopped th.id (.exc e)] ∧ (endTask s h t r res).1.pc = .waitEnd th.id t.node.isInclude ∧
      ctl (endTask s h t r res).1 th.id = some (.wait, th.stopped, some h) ∧ (∀ k, k ≠ th.id → ctl (endTask s h t r res).1 k = ctl s k) ∧
      (endTask s h t r res).1.dbg = s.dbg ∧ (endTask s h t r res).1.terminated = s.terminated) := by
  unfold endTask
  cases ht : threadOf s h with
  | none => left; exact ⟨.inr ⟨_, rfl⟩, crash_stops (by simp)⟩
  | some th =>
    obtain ⟨h1, h2⟩ := threadOf_some hi.core ht
    simp only
    split
    · rename_i hw
      obtain ⟨a1, a2⟩ := endAfter_spec hi.core th.id t.node.isInclude
      rcases a2 with a2 | ⟨b1, b2, b3, b4, b5, th', b6, b7⟩
      · exact .inl ⟨a2, a1⟩
      · refine .inr (.inl ⟨b1, b2, b3, hw, b4, b5, th, rfl, ?_⟩)
        rw [h2] at b6; cases b6; exact b7
    · rename_i e hw
      split
      · left; exact ⟨.inr ⟨_, rfl⟩, crash_stops (by simp)⟩
      · rename_i f fs hf
        cases hfr : s.frames.get? f with
        | none => left; exact ⟨.inr ⟨_, rfl⟩, crash_stops (by simp)⟩
        | some fr =>
          right; right
          simp only
          refine ⟨th, e, rfl, hw, rfl, rfl, ?_, ?_, rfl, rfl⟩
          · simp [ctl, addVar, DL.get_set, afterException, hw, h1]
          · intro k hk
            simp only [ctl, addVar, DL.get_set, if_neg (Ne.symm hk)]

theorem ctl_resume {s : DS} (ts : List Nat) (st : TState) (o : Out) (hn : ts.Nodup) {tid : Nat} (h : tid ∉ ts) :
    ctl (resumeReq s ts st o).1 tid = ctl s tid := by
  simp only [ctl, resumeReq]
  rcases resume_get st ts s.threads tid hn with e | ⟨e, -⟩
  · rw [e]
  · exact absurd e h

theorem ctl_ext {s s' : DS} (h : VarExt s s') (tid : Nat) : ctl s' tid = ctl s tid := by
  simp only [ctl, h.thr]

theorem resumeReq_stops (s : DS) (ts : List Nat) (st : TState) (o : Out) (ho : ∀ k w, o ≠ .stopped k w) (tid : Nat) :
    ¬ Stops tid (resumeReq s ts st o).2 := by
  rintro ⟨w, hw⟩
  simp only [resumeReq, List.mem_singleton] at hw
  split at hw
  · exact ho _ _ hw.symm
  · cases hw

theorem setAll_out (n : Str) (x : Val) (is : List Nat) : ∀ s : DS, ∃ o, (setAll s n x is).2 = [o] ∧ (o = .ok ∨ ∃ e, o = .error e) := by
  induction is with
  | nil => intro s; exact ⟨_, rfl, .inl rfl⟩
  | cons i is ih =>
    intro s
    unfold setAll
    cases s.vars.get? i with
    | none => exact ⟨_, rfl, .inr ⟨_, rfl⟩⟩
    | some v =>
      simp only
      split
      · exact ⟨_, rfl, .inr ⟨_, rfl⟩⟩
      · exact ih _

theorem request_quiet (s : DS) (r : Req) : ∀ o ∈ (request s r).2, Quiet o := by
  have hr : ∀ ts st o, Quiet o → ∀ x ∈ (resumeReq s ts st o).2, Quiet x := by
    intro ts st o ho x hx
    simp only [resumeReq, List.mem_singleton] at hx
    split at hx
    · subst hx; exact ho
    · subst hx; trivial
  cases r with
  | cont t single => cases single <;> exact hr _ _ _ trivial
  | stepIn t => exact hr _ _ _ trivial
  | stepOut t => exact hr _ _ _ trivial
  | next t => exact hr _ _ _ trivial
  | stackTrace t =>
    intro o ho
    simp only [request, List.mem_singleton] at ho
    subst ho
    unfold stackTrace
    split
    · trivial
    · split <;> trivial
  | threads => intro o ho; simp only [request, List.mem_singleton] at ho; subst ho; trivial
  | scopes f a h =>
    intro o ho
    simp only [request] at ho
    unfold getScopes at ho
    split at ho
    · simp at ho; subst ho; trivial
    · split at ho
      · simp at ho; subst ho; trivial
      · simp only at ho
        split at ho
        · simp at ho; subst ho; trivial
        · split at ho
          · simp only [List.mem_singleton] at ho; subst ho; trivial
          · simp at ho; subst ho; trivial
  | variables r =>
    intro o ho
    simp only [request] at ho
    unfold getVariables at ho
    split at ho <;> (simp only [List.mem_singleton] at ho; subst ho; trivial)
  | setVariable r n t =>
    intro o ho
    simp only [request] at ho
    unfold setVariable at ho
    split at ho
    · simp at ho; subst ho; trivial
    · split at ho
      · simp at ho; subst ho; trivial
      · simp only at ho
        split at ho
        · simp only [List.mem_singleton] at ho; subst ho; trivial
        · split at ho <;> (simp only [List.mem_singleton] at ho; subst ho; trivial)
  | evaluate f e =>
    intro o ho
    simp only [request] at ho
    unfold evaluate at ho
    have key : ∀ (s' : DS) n x is, ∀ o ∈ (setAll s' n x is).2, Quiet o := by
      intro s' n x is o ho
      obtain ⟨o', h1, h2⟩ := setAll_out n x is s'
      rw [h1, List.mem_singleton] at ho
      subst ho
      rcases h2 with rfl | ⟨e, rfl⟩ <;> trivial
    split at ho
    · simp at ho; subst ho; trivial
    · split at ho
      · simp at ho; subst ho; trivial
      · simp at ho; subst ho; trivial
      · split at ho
        · simp at ho; subst ho; trivial
        · split at ho <;> (simp only [List.mem_singleton] at ho; subst ho; trivial)
      · split at ho
        · simp at ho; subst ho; trivial
        · exact key _ _ _ _ o ho
      · split at ho
        · simp at ho; subst ho; trivial
        · exact key _ _ _ _ o ho
  | disconnect b => intro o ho; cases ho
  | terminate => intro o ho; simp only [request, List.mem_singleton] at ho; subst ho; trivial
  | closed => intro o ho; cases ho
  | setBps _ _ _ _ => intro o ho; simp only [request, bpStep, List.mem_map] at ho; obtain ⟨x, -, rfl⟩ := ho; trivial
  | setExc _ _ => intro o ho; simp only [request, bpStep, List.mem_map] at ho; obtain ⟨x, -, rfl⟩ := ho; trivial
  | config _ => intro o ho; simp only [request, bpStep, List.mem_map] at ho; obtain ⟨x, -, rfl⟩ := ho; trivial

theorem request_stops (s : DS) (r : Req) (tid : Nat) : ¬ Stops tid (request s r).2 := by
  rintro ⟨w, hw⟩
  exact request_quiet s r _ hw

theorem request_pc (s : DS) (hi : Inv s) (r : Req) : (request s r).1.pc = s.pc := by
  cases r with
  | cont t single => cases single <;> rfl
  | scopes f a h => exact (getScopes_ext s f a h).pc
  | variables r => exact (getVariables_ext hi.core r).pc
  | setVariable r n t => exact (setVariable_ext hi.core r n t).pc
  | evaluate f e => exact (evaluate_ext s f e).pc
  | closed => simp only [request]; split <;> rfl
  | _ => rfl

theorem request_ctl {s : DS} (hi : Inv s) (r : Req) {tid : Nat} (h : ¬ Resumes tid r) : ctl (request s r).1 tid = ctl s tid := by
  cases r with
  | cont t single =>
    cases single
    · exact absurd (Or.inl rfl) h
    · exact ctl_resume _ _ _ (by simp) (by simp only [List.mem_singleton]; rintro rfl; exact h (.inr rfl))
  | stepIn t => exact ctl_resume _ _ _ (by simp) (by simp only [List.mem_singleton]; rintro rfl; exact h rfl)
  | stepOut t => exact ctl_resume _ _ _ (by simp) (by simp only [List.mem_singleton]; rintro rfl; exact h rfl)
  | next t => exact ctl_resume _ _ _ (by simp) (by simp only [List.mem_singleton]; rintro rfl; exact h rfl)
  | scopes f a g => exact ctl_ext (getScopes_ext s f a g) tid
  | variables r => exact ctl_ext (getVariables_ext hi.core r) tid
  | setVariable r n t => exact ctl_ext (setVariable_ext hi.core r n t) tid
  | evaluate f e => exact ctl_ext (evaluate_ext s f e) tid
  | disconnect b => exact absurd trivial h
  | terminate => exact absurd trivial h
  | closed => exact absurd trivial h
  | _ => rfl

/-- The control state of a thread changes only by requests that name it and by its own stops. -/
theorem ctl_step {s s' : DS} {l : Label} {o : List Out} (hi : Inv s) (h : step s l = some (s', o)) {tid : Nat}
    (hex : ctl s tid ≠ none) (hr : ∀ r, l = .req r → ¬ Resumes tid r) (hm : ¬ Removes l) (hs : ¬ Stops tid o) (hov : ¬ Over s') :
    ctl s' tid = ctl s tid := by
  cases l with
  | start host t tv a c =>
    simp only [step] at h
    split at h
    · rename_i hp
      rw [fst_eq h] at hov ⊢
      rw [snd_eq h] at hs
      rcases start_spec hi hp host t tv a c with ⟨e, -, he⟩ | ⟨s1, th1, -, e1, e2, e3, -⟩
      · exact absurd (.inr ⟨e, by rw [he]; rfl⟩) hov
      · by_cases hk : tid = (hostThread s host).2.1.id
        · rw [hk, e2]
          cases hw : whyStop s (hostThread s host).2.1 t c with
          | some w =>
            exfalso; apply hs
            rw [e1, hw]
            exact ⟨.brk w, by simp [hk]⟩
          | none =>
            simp only
            obtain ⟨c1, h1, h2, h3⟩ := hostThread_spec hi.core host
            have hh : (hostThread s host).1.threads.get? (hostThread s host).2.1.id = s.threads.get? (hostThread s host).2.1.id := by
              unfold hostThread
              cases ht : threadOf s host with
              | some th => rfl
              | none =>
                exfalso
                apply hex
                rw [hk]
                unfold hostThread
                simp only [ht, addThread, ctl]
                cases hg : s.threads.get? s.nextT with
                | none => rfl
                | some th => have := (hi.core.tid hg).2; omega
            simp only [ctl]
            rw [← hh, h1, Option.map_some, h2]
        · exact e3 tid hk
    · cases h
  | done host t r res =>
    simp only [step] at h
    split at h
    · rw [fst_eq h] at hov ⊢
      rw [snd_eq h] at hs
      rcases end_spec hi host t r res with ⟨ho, -⟩ | ⟨-, -, e3, -⟩ | ⟨th, e, -, -, e4, -, -, e7, -⟩
      · exact absurd ho hov
      · exact e3 tid
      · refine e7 tid ?_
        rintro rfl
        exact hs ⟨_, by rw [e4]; simp; rfl⟩
    · cases h
  | refresh => exact absurd trivial hm
  | newPlay => exact absurd trivial hm
  | reg p l ty =>
    simp only [step] at h
    split at h
    · rw [fst_eq h] at hov ⊢
      rcases registerLine_cases s p l ty with hr | ⟨e, -, hr⟩
      · rw [hr]; rfl
      · rw [hr] at hov; exact absurd (.inr ⟨e, rfl⟩) hov
    · cases h
  | env hp => cases h; rfl
  | wake =>
    simp only [step] at h
    split at h
    · split at h
      · cases h; exact absurd (.inr ⟨_, rfl⟩) hov
      · split at h
        · cases h
        · split at h
          · cases h; exact absurd (.inl rfl) hov
          · cases h; rfl
    · split at h
      · cases h; exact absurd (.inr ⟨_, rfl⟩) hov
      · split at h
        · cases h
        · rw [fst_eq h] at hov ⊢
          rcases (endAfter_spec hi.core _ _).2 with ho | ⟨-, -, e3, -⟩
          · exact absurd ho hov
          · exact e3 tid
    · cases h
  | req r =>
    rw [fst_eq h]
    exact request_ctl hi r (hr r rfl)

theorem over_step {s s' : DS} {l : Label} {o : List Out} (hi : Inv s) (h : step s l = some (s', o)) (ho : Over s) : Over s' := by
  have nr : s.pc ≠ .running := by
    rcases ho with e | ⟨e', e⟩ <;> (intro e2; rw [e] at e2; cases e2)
  cases l with
  | start host t tv a c => simp [step, nr] at h
  | done host t r res => simp [step, nr] at h
  | refresh => simp [step, nr] at h
  | newPlay => simp [step, nr] at h
  | reg p l ty => simp [step, nr] at h
  | env hp => cases h; exact ho
  | wake =>
    simp only [step] at h
    rcases ho with e | ⟨e', e⟩ <;> (rw [e] at h; cases h)
  | req r =>
    rw [fst_eq h]
    unfold Over at ho ⊢
    rw [request_pc s hi r]; exact ho

theorem over_run {s s' : DS} {ls : List Label} {o : List Out} (h : Run s ls s' o) (hi : Inv s) (ho : Over s) : Over s' := by
  induction h with
  | nil => exact ho
  | cons h1 _ ih => exact ih (inv_step hi h1) (over_step hi h1 ho)

theorem stops_append {tid : Nat} {a b : List Out} : Stops tid (a ++ b) ↔ Stops tid a ∨ Stops tid b := by
  constructor
  · rintro ⟨w, hw⟩
    rcases List.mem_append.1 hw with h | h
    · exact .inl ⟨w, h⟩
    · exact .inr ⟨w, h⟩
  · rintro (⟨w, h⟩ | ⟨w, h⟩) <;> exact ⟨w, by simp [h]⟩

/-- Over a history in which the thread is not resumed, does not stop and does not exit, its control
state is the same. -/
theorem ctl_run {s s' : DS} {ls : List Label} {o : List Out} (h : Run s ls s' o) (hi : Inv s) {tid : Nat}
    (hex : ctl s tid ≠ none) (hr : ∀ r, Label.req r ∈ ls → ¬ Resumes tid r) (hm : ∀ l ∈ ls, ¬ Removes l) (hs : ¬ Stops tid o)
    (hov : ¬ Over s') : ctl s' tid = ctl s tid := by
  induction h with
  | nil => rfl
  | @cons s s₁ s₂ l ls o os h1 h2 ih =>
    rw [stops_append, not_or] at hs
    have e1 := ctl_step hi h1 hex (fun r hl => hr r (by simp [hl])) (hm l (by simp)) hs.1
      (fun ho => hov (over_run h2 (inv_step hi h1) ho))
    rw [ih (inv_step hi h1) (by rw [e1]; exact hex) (fun r hl => hr r (by simp [hl])) (fun l hl => hm l (by simp [hl])) hs.2 hov, e1]

/-! ## Waiting -/

theorem wait_step {s s' : DS} {l : Label} {o : List Out} (hi : Inv s) (h : step s l = some (s', o)) {tid : Nat} {x : Option TaskRef}
    {y : Option Nat} (hw : Waits tid s) (hc : ctl s tid = some (.wait, x, y)) (hr : ∀ r, l = .req r → ¬ Resumes tid r) :
    s'.pc = s.pc ∧ ctl s' tid = ctl s tid ∧ (∀ m ∈ o, Quiet m) ∧ NotPlaybook l := by
  have nr : s.pc ≠ .running := by
    rcases hw with e | ⟨i, e⟩ <;> (intro e2; rw [e] at e2; cases e2)
  cases l with
  | start host t tv a c => simp [step, nr] at h
  | done host t r res => simp [step, nr] at h
  | refresh => simp [step, nr] at h
  | newPlay => simp [step, nr] at h
  | reg p l ty => simp [step, nr] at h
  | env hp => cases h; exact ⟨rfl, rfl, by simp, trivial⟩
  | wake =>
    exfalso
    simp only [ctl] at hc
    cases ht : s.threads.get? tid with
    | none => simp [ht] at hc
    | some th =>
      simp only [ht, Option.map_some, Option.some.injEq, Prod.mk.injEq] at hc
      simp only [step] at h
      rcases hw with e | ⟨i, e⟩ <;> simp [e, ht, hc.1] at h
  | req r =>
    rw [fst_eq h, snd_eq h]
    exact ⟨request_pc s hi r, request_ctl hi r (hr r rfl), request_quiet s r, trivial⟩

theorem wait_run {s s' : DS} {ls : List Label} {o : List Out} (h : Run s ls s' o) (hi : Inv s) {tid : Nat} {x : Option TaskRef}
    {y : Option Nat} (hw : Waits tid s) (hc : ctl s tid = some (.wait, x, y)) (hr : ∀ r, Label.req r ∈ ls → ¬ Resumes tid r) :
    s'.pc = s.pc ∧ ctl s' tid = ctl s tid ∧ (∀ m ∈ o, Quiet m) ∧ ∀ l ∈ ls, NotPlaybook l := by
  induction h with
  | nil => exact ⟨rfl, rfl, by simp, by simp⟩
  | @cons s s₁ s₂ l ls o os h1 h2 ih =>
    obtain ⟨a1, a2, a3, a4⟩ := wait_step hi h1 hw hc (fun r hl => hr r (by simp [hl]))
    obtain ⟨b1, b2, b3, b4⟩ := ih (inv_step hi h1) (by unfold Waits at hw ⊢; rw [a1]; exact hw) (by rw [a2]; exact hc)
      (fun r hl => hr r (by simp [hl]))
    refine ⟨b1.trans a1, b2.trans a2, ?_, ?_⟩
    · intro m hm
      rcases List.mem_append.1 hm with hm | hm
      · exact a3 m hm
      · exact b3 m hm
    · intro m hm
      rcases List.mem_cons.1 hm with rfl | hm
      · exact a4
      · exact b4 m hm

theorem reach_inv {s : DS} (h : Reachable s) : Inv s := by
  obtain ⟨ls, os, h⟩ := h
  exact inv_run h inv_init

/-! ## Stops of a start -/

theorem sync_fine {s s' : DS} (hi : Inv s) {h : Nat} {t : Task} {tv a : Addr} {c : Nat → Bool} {o : List Out}
    (hs : step s (.start h t tv a c) = some (s', o)) (hf : ¬ Failed s') :
    ∃ p, syncFrames (hostThread s h).1 (hostThread s h).2.1 t = .ok p := by
  simp only [step] at hs
  split at hs
  · rename_i hr
    rcases start_spec hi hr h t tv a c with ⟨e, he, hc⟩ | ⟨s1, th1, e1, -⟩
    · exact absurd ⟨e, by rw [fst_eq hs, hc]; rfl⟩ hf
    · exact ⟨_, e1⟩
  · cases hs

/-- The stops announced by a start are the one decided for the host's thread. -/
theorem start_stops {s s' : DS} (hi : Inv s) {h : Nat} {t : Task} {tv a : Addr} {c : Nat → Bool} {o : List Out}
    (hs : step s (.start h t tv a c) = some (s', o)) (hf : ¬ Failed s') (tid : Nat) (w : Stop) :
    Out.stopped tid w ∈ o ↔ tid = (hostThread s h).2.1.id ∧ ∃ y, w = .brk y ∧ whyStop s (hostThread s h).2.1 t c = some y := by
  obtain ⟨p, hsy⟩ := sync_fine hi hs hf
  simp only [step] at hs
  split at hs
  · rename_i hr
    rw [snd_eq hs]
    rcases start_spec hi hr h t tv a c with ⟨e, he, -⟩ | ⟨s1, th1, -, e1, -⟩
    · rw [hsy] at he; cases he
    · rw [e1]
      simp only [List.mem_append]
      constructor
      · rintro (hm | hm)
        · obtain ⟨k, hk⟩ := hostThread_out s h _ hm; cases hk
        · split at hm
          · cases hm
          · rename_i y hy
            simp only [List.mem_singleton, Out.stopped.injEq] at hm
            exact ⟨hm.1, y, hm.2, hy⟩
      · rintro ⟨rfl, y, rfl, hy⟩
        right; simp [hy]
  · cases hs

/-- What a stop at a start leaves behind. -/
theorem start_stopped {s s' : DS} (hi : Inv s) {h : Nat} {t : Task} {tv a : Addr} {c : Nat → Bool} {o : List Out} {tid : Nat}
    (hs : step s (.start h t tv a c) = some (s', o)) (hst : Stops tid o) :
    s'.pc = .waitStart tid ∧ ctl s' tid = some (.wait, some (t.node, t.parents), some h) := by
  simp only [step] at hs
  split at hs
  · rename_i hr
    rw [fst_eq hs]
    rw [snd_eq hs] at hst
    rcases start_spec hi hr h t tv a c with ⟨e, -, he⟩ | ⟨s1, th1, -, e1, e2, -, e4, -⟩
    · rw [he] at hst
      exact absurd hst (crash_stops (hostThread_out s h) tid)
    · rw [e1] at hst
      obtain ⟨w, hw⟩ := hst
      rcases List.mem_append.1 hw with hm | hm
      · obtain ⟨k, hk⟩ := hostThread_out s h _ hm; cases hk
      · cases hy : whyStop s (hostThread s h).2.1 t c with
        | none => rw [hy] at hm; cases hm
        | some y =>
          rw [hy] at hm e4 e2
          simp only [List.mem_singleton, Out.stopped.injEq] at hm
          rw [hm.1]
          exact ⟨e4, e2⟩
  · cases hs

/-- The thread after a command to one thread. -/
theorem resume_one {s : DS} {tid : Nat} {th : Thread} (ht : s.threads.get? tid = some th) (st : TState) (o : Out) :
    (resumeReq s [tid] st o).1.threads.get? tid = some (setState th st) := by
  simp [resumeReq, resume, ht, DL.get_set]

theorem resume_every {s : DS} (hi : Inv s) {tid : Nat} {th : Thread} (ht : s.threads.get? tid = some th) (st : TState) :
    (resume (s.threads.map (·.1)) st s.threads).1.get? tid = some (setState th st) :=
  (resume_all st _ s.threads hi.core.tnd (fun _ hk => DL.get_some_key.2 hk)).2 tid (DL.get_some_key.1 ⟨th, ht⟩) th ht

/-- The command a stopped thread was given is its state when it starts its next task. -/
theorem after_ctl {cmd : Req} {h tid : Nat} {a : Task} {s : DS} (hA : After cmd h tid a s) (hp : s.pc = .running)
    {st : TState} (hcmd : ∀ (s : DS) th, Inv s → s.threads.get? tid = some th → (request s cmd).1.threads.get? tid = some (setState th st)) :
    ∃ th, Inv s ∧ hostThread s h = (s, th, []) ∧ th.id = tid ∧ ∃ th0 : Thread, th0.stopped = some (a.node, a.parents) ∧
      th.state = (setState th0 st).state ∧ th.stopped = (setState th0 st).stopped := by
  obtain ⟨s0, s1, s2, s3, ls1, ls2, tv, ar, c, o1, os1, o3, hr, h1, h2, h3, h4, h5, os2, h6, h7, h8, h9⟩ := hA
  have i0 := reach_inv hr
  have i1 := inv_step i0 h1
  obtain ⟨p1, c1⟩ := start_stopped i0 h1 h2
  obtain ⟨-, c2, -, -⟩ := wait_run h3 i1 (.inl p1) c1 h4
  have i2 := inv_run h3 i1
  have i3 := inv_step i2 h5
  have i4 := inv_run h6 i3
  rw [c1] at c2
  simp only [ctl] at c2
  cases ht : s2.threads.get? tid with
  | none => simp [ht] at c2
  | some th2 =>
    simp only [ht, Option.map_some, Option.some.injEq, Prod.mk.injEq] at c2
    have g3 := hcmd s2 th2 i2 ht
    rw [← fst_eq h5] at g3
    have no : ¬ Over s := by
      rintro (e | ⟨e', e⟩) <;> (rw [e] at hp; cases hp)
    have c4 := ctl_run h6 i3 (tid := tid) (by simp [ctl, g3]) h7 h8 h9 no
    have k := setState_keeps th2 st
    simp only [ctl, g3, Option.map_some] at c4
    cases ht4 : s.threads.get? tid with
    | none => simp [ht4] at c4
    | some th =>
      simp only [ht4, Option.map_some, Option.some.injEq, Prod.mk.injEq] at c4
      have hh : th.host = some h := by rw [c4.2.2, k.2.1]; exact c2.2.2
      have hto := threadOf_of_get i4.core ht4 hh
      refine ⟨th, i4, by simp [hostThread, hto], (i4.core.tid ht4).1, th2, c2.2.1, c4.1, c4.2.1⟩

theorem ancestor_uuid (p : Node → Bool) (ps : List Node) : uuidOf (ancestor p ps) = (ps.find? p).map fun n => n.uuid := by
  induction ps with
  | nil => rfl
  | cons n ns ih =>
    simp only [ancestor, List.find?_cons]
    cases p n with
    | true => rfl
    | false => simpa using ih

theorem parentTask_encl (t : Task) : uuidOf (parentTask (t.node, t.parents)) = Encl t := ancestor_uuid _ _

theorem parentInclude_encl (t : Task) : uuidOf (parentInclude (t.node, t.parents)) = EnclInclude t := ancestor_uuid _ _

theorem bpFor_hits (s : DS) (t : Task) (c : Nat → Bool) (i : Nat) : bpFor s t c = some i ↔ BpHits s t c i := by
  unfold bpFor BpHits
  cases hp : t.path with
  | none => simp
  | some p =>
    obtain ⟨p, l⟩ := p
    simp only
    cases hb : Bp.getBreakpoint s.dbg p l with
    | none =>
      simp only [reduceCtorEq, false_iff]
      rintro ⟨p', l', b, e, h, -⟩
      cases e
      rw [hb] at h; cases h
    | some b =>
      simp only
      constructor
      · intro h
        split at h
        · cases h; exact ⟨p, l, b, rfl, hb, rfl, by assumption⟩
        · cases h
      · rintro ⟨p', l', b', e, h, rfl, hc⟩
        cases e
        rw [hb] at h; cases h
        simp [hc]

end Verif.Strat
