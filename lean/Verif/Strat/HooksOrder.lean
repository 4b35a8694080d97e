import Verif.Strat.HooksProof
import Verif.Strat.HooksSpec
/-!
# The order of events of a play
-/

namespace Verif.Strat.Hooks
open Verif Verif.Strat

/-- The task that began and was not handed to Ansible yet. -/
def pend : Cont → Option (Nat × Task)
  | .queued h t => some (h, t)
  | .metaStarted h t _ _ => some (h, t)
  | _ => none

/-- Neither the beginning nor the hand-over of a task. -/
def Plain (e : Ev) : Prop := ¬ IsBegan e ∧ ¬ IsExecuted e

theorem plain_msgs (o : List Out) : ∀ e ∈ o.map Ev.msg, Plain e := by
  intro e he
  obtain ⟨x, -, rfl⟩ := List.mem_map.1 he
  exact ⟨id, id⟩

/-- What a step does to the task that is pending. -/
inductive Succ : Cont → List Ev → Cont → Prop where
  | began {c : Cont} {h : Nat} {t : Task} {o : List Out} {c' : Cont} : c = .ansible → pend c' = some (h, t) → Succ c (.began h t :: o.map Ev.msg) c'
  | executed {c : Cont} {h : Nat} {t : Task} {c' : Cont} : pend c = some (h, t) → pend c' = none → Succ c [.executed h t] c'
  | plain {c : Cont} {es : List Ev} {c' : Cont} : (∀ e ∈ es, Plain e) → (c' = c ∨ (pend c = none ∧ pend c' = none) ∨ c' = .over) → Succ c es c'

theorem at_ansible {s : HS} (h : atAnsible s = true) : s.cont = .ansible := by
  unfold atAnsible at h; split at h
  · assumption
  · cases h

theorem hstep_ord {s s' : HS} {l : Lbl} {e : List Ev} (h : hstep s l = some (s', e)) : Succ s.cont e s'.cont := by
  cases l with
  | queueTask hst t tv ar c =>
    simp only [hstep] at h; split at h
    · rename_i ha
      obtain ⟨o, -, h2, h3⟩ := dsStep_some h
      rw [h3, h2]; exact .began (at_ansible ha) rfl
    · cases h
  | executeMeta hst t tv ar c r a =>
    simp only [hstep] at h; split at h
    · rename_i ha
      obtain ⟨o, -, h2, h3⟩ := dsStep_some h
      rw [h3, h2]; exact .began (at_ansible ha) rfl
    · cases h
  | pendingResults rs =>
    simp only [hstep] at h; split at h
    · rename_i ha
      cases h; rw [at_ansible ha.1]; exact .plain (by simp) (.inr (.inl ⟨rfl, rfl⟩))
    · cases h
  | loaded p ln ty =>
    simp only [hstep] at h; split at h
    · rename_i ha
      obtain ⟨o, -, h2, h3⟩ := dsStep_some h
      rw [h3, h2, at_ansible ha]; exact .plain (plain_msgs o) (.inl rfl)
    · cases h
  | runEnds n =>
    simp only [hstep] at h; split at h
    · cases h
      refine .plain ?_ (.inr (.inr rfl))
      intro e he
      rcases List.mem_append.1 he with he | he
      · exact plain_msgs _ e he
      · simp at he; subst he; exact ⟨id, id⟩
    · cases h
  | runRaises x =>
    simp only [hstep] at h; split at h
    · cases h
      refine .plain ?_ (.inr (.inr rfl))
      intro e he
      rcases List.mem_append.1 he with he | he
      · exact plain_msgs _ e he
      · simp at he; subst he; exact ⟨id, id⟩
    · cases h
  | go =>
    simp only [hstep, goOn] at h; split at h
    · cases h
    · split at h
      · rename_i hc; cases h; rw [hc]; exact .executed rfl rfl
      · rename_i hc; cases h; rw [hc]; exact .executed rfl rfl
      · rename_i hc
        rw [hc]
        split at h
        · obtain ⟨o, -, h2, h3⟩ := dsStep_some h
          rw [h3, h2]; exact .plain (plain_msgs o) (.inr (.inl ⟨rfl, rfl⟩))
        · obtain ⟨o, -, h2, h3⟩ := dsStep_some h
          rw [h3, h2]
          refine .plain ?_ (.inr (.inl ⟨rfl, rfl⟩))
          intro e he
          rcases List.mem_append.1 he with he | he
          · simp at he; subst he; exact ⟨id, id⟩
          · exact plain_msgs _ e he
      · rename_i hc; cases h; rw [hc]; exact .plain (by simp) (.inr (.inl ⟨rfl, rfl⟩))
      · rename_i hc
        rw [hc]
        obtain ⟨o, -, h2, h3⟩ := dsStep_some h
        rw [h3, h2]
        refine .plain ?_ (.inr (.inl ⟨rfl, rfl⟩))
        intro e he
        rcases List.mem_append.1 he with he | he
        · simp at he; subst he; exact ⟨id, id⟩
        · exact plain_msgs _ e he
      · cases h
      · cases h
  | unwind =>
    simp only [hstep, unwindRun] at h; split at h
    · cases h
    · split at h
      · cases h; exact .plain (by intro e he; simp at he; subst he; exact ⟨id, id⟩) (.inr (.inr rfl))
      · cases h; exact .plain (by intro e he; simp at he; subst he; exact ⟨id, id⟩) (.inr (.inr rfl))
      · cases h
  | wake =>
    simp only [hstep] at h
    obtain ⟨o, -, h2, h3⟩ := dsStep_some h
    rw [h3, h2]; exact .plain (plain_msgs o) (.inl rfl)
  | env hp =>
    simp only [hstep] at h
    obtain ⟨o, -, h2, h3⟩ := dsStep_some h
    rw [h3, h2]; exact .plain (plain_msgs o) (.inl rfl)
  | req r =>
    simp only [hstep] at h
    obtain ⟨o, -, h2, h3⟩ := dsStep_some h
    rw [h3, h2]; exact .plain (plain_msgs o) (.inl rfl)

/-- What goes on after `run` was left: messages only. -/
theorem over_hstep {s s' : HS} {l : Lbl} {e : List Ev} (hi : Inv s.ds) (h : hstep s l = some (s', e)) (hc : s.cont = .over)
    (hp : ∀ tid, ¬ Waits tid s.ds) : s'.cont = .over ∧ (∀ tid, ¬ Waits tid s'.ds) ∧ ∀ x ∈ e, IsQuiet x := by
  have na : atAnsible s = false := by simp [atAnsible, hc]
  have ni : inRun s = false := by simp [inRun, hc]
  cases l with
  | queueTask hst t tv ar c => simp [hstep, na] at h
  | executeMeta hst t tv ar c r a => simp [hstep, na] at h
  | pendingResults rs => simp [hstep, na] at h
  | loaded p ln ty => simp [hstep, na] at h
  | runEnds n => simp [hstep, na] at h
  | runRaises x => simp [hstep, ni] at h
  | go => simp [hstep, goOn, hc] at h
  | unwind => simp [hstep, unwindRun, hc] at h
  | wake =>
    exfalso
    simp only [hstep] at h
    obtain ⟨o, h1, -⟩ := dsStep_some h
    simp only [step] at h1
    split at h1
    · rename_i tid e; exact hp tid (.inl e)
    · rename_i tid i e; exact hp tid (.inr ⟨i, e⟩)
    · cases h1
  | env hq =>
    simp only [hstep] at h
    obtain ⟨o, h1, h2, h3⟩ := dsStep_some h
    rw [h3, fst_eq h1, snd_eq h1]
    exact ⟨h2.trans hc, hp, by simp⟩
  | req r =>
    simp only [hstep] at h
    obtain ⟨o, h1, h2, h3⟩ := dsStep_some h
    refine ⟨h2.trans hc, ?_, ?_⟩
    · intro tid hw
      apply hp tid
      unfold Waits at hw ⊢
      rw [fst_eq h1, request_pc s.ds hi r] at hw
      exact hw
    · intro x hx
      rw [h3] at hx
      obtain ⟨m, hm, rfl⟩ := List.mem_map.1 (by simpa using hx)
      rw [snd_eq h1] at hm
      exact request_quiet s.ds r m hm

theorem hinv_step {s s' : HS} {l : Lbl} {e : List Ev} (hi : Inv s.ds) (h : hstep s l = some (s', e)) : Inv s'.ds := by
  rcases hstep_ds h with ⟨dl, o, h1, -⟩ | ⟨h1, -⟩
  · exact inv_step hi h1
  · rw [h1]; exact hi

theorem over_hrun {s s' : HS} {ls : List Lbl} {es : List Ev} (h : HRun s ls s' es) (hi : Inv s.ds) (hc : s.cont = .over)
    (hp : ∀ tid, ¬ Waits tid s.ds) : s'.cont = .over ∧ (∀ tid, ¬ Waits tid s'.ds) ∧ ∀ x ∈ es, IsQuiet x := by
  induction h with
  | nil => exact ⟨hc, hp, by simp⟩
  | @cons s s₁ s₂ l ls e es h1 h2 ih =>
    obtain ⟨a1, a2, a3⟩ := over_hstep hi h1 hc hp
    obtain ⟨b1, b2, b3⟩ := ih (hinv_step hi h1) a1 a2
    refine ⟨b1, b2, ?_⟩
    intro x hx
    rcases List.mem_append.1 hx with hx | hx
    · exact a3 x hx
    · exact b3 x hx

/-- When `run` is left nobody waits. -/
theorem left_hstep {s s' : HS} {l : Lbl} {e : List Ev} (h : hstep s l = some (s', e)) (hc : s.cont ≠ .over)
    (hc' : s'.cont = .over) : (∀ tid, ¬ Waits tid s'.ds) ∧
      ((l = .unwind ∧ s'.ds = s.ds ∧ ((s.ds.pc = .ended ∧ e = [.returned breakPlay]) ∨ ∃ x, s.ds.pc = .crashed x ∧ e = [.raised x])) ∨
       (s'.ds = (exitThreads s.ds).1 ∧ ∃ o : List Out, (∃ n, l = .runEnds n ∧ e = o.map .msg ++ [.returned n]) ∨
          ∃ x, l = .runRaises x ∧ e = o.map .msg ++ [.raised x])) := by
  have hnr : ∀ {d : DS}, d.pc = .running → ∀ tid, ¬ Waits tid d := by
    intro d hd tid hw
    rcases hw with e | ⟨i, e⟩ <;> (rw [hd] at e; cases e)
  cases l with
  | queueTask hst t tv ar c =>
    simp only [hstep] at h; split at h
    · obtain ⟨o, -, h2, -⟩ := dsStep_some h; rw [h2] at hc'; cases hc'
    · cases h
  | executeMeta hst t tv ar c r a =>
    simp only [hstep] at h; split at h
    · obtain ⟨o, -, h2, -⟩ := dsStep_some h; rw [h2] at hc'; cases hc'
    · cases h
  | pendingResults rs =>
    simp only [hstep] at h; split at h
    · cases h; cases hc'
    · cases h
  | loaded p ln ty =>
    simp only [hstep] at h; split at h
    · obtain ⟨o, -, h2, -⟩ := dsStep_some h; rw [h2] at hc'; cases hc'
    · cases h
  | runEnds n =>
    simp only [hstep] at h; split at h
    · rename_i hp
      cases h
      exact ⟨hnr (d := (exitThreads s.ds).1) hp.2, .inr ⟨rfl, _, .inl ⟨n, rfl, rfl⟩⟩⟩
    · cases h
  | runRaises x =>
    simp only [hstep] at h; split at h
    · rename_i hp
      cases h
      exact ⟨hnr (d := (exitThreads s.ds).1) hp.2, .inr ⟨rfl, _, .inr ⟨x, rfl, rfl⟩⟩⟩
    · cases h
  | go =>
    simp only [hstep, goOn] at h; split at h
    · cases h
    · split at h
      · cases h; cases hc'
      · cases h; cases hc'
      · split at h
        · obtain ⟨o, -, h2, -⟩ := dsStep_some h; rw [h2] at hc'; cases hc'
        · obtain ⟨o, -, h2, -⟩ := dsStep_some h; rw [h2] at hc'; cases hc'
      · cases h; cases hc'
      · obtain ⟨o, -, h2, -⟩ := dsStep_some h; rw [h2] at hc'; cases hc'
      · cases h
      · cases h
  | unwind =>
    simp only [hstep, unwindRun] at h
    split at h
    · rename_i hp
      cases h
      refine ⟨?_, .inl ⟨rfl, rfl, .inl ⟨hp, rfl⟩⟩⟩
      intro tid hw
      rcases hw with e | ⟨i, e⟩ <;> (change s.ds.pc = _ at e; rw [hp] at e; cases e)
    · rename_i x hp
      cases h
      refine ⟨?_, .inl ⟨rfl, rfl, .inr ⟨x, hp, rfl⟩⟩⟩
      intro tid hw
      rcases hw with e | ⟨i, e⟩ <;> (change s.ds.pc = _ at e; rw [hp] at e; cases e)
    · cases h
  | wake =>
    simp only [hstep] at h
    obtain ⟨o, -, h2, -⟩ := dsStep_some h; rw [h2] at hc'; exact absurd hc' hc
  | env hp =>
    simp only [hstep] at h
    obtain ⟨o, -, h2, -⟩ := dsStep_some h; rw [h2] at hc'; exact absurd hc' hc
  | req r =>
    simp only [hstep] at h
    obtain ⟨o, -, h2, -⟩ := dsStep_some h; rw [h2] at hc'; exact absurd hc' hc

/-- Beginnings and hand-overs alternate, and are of the same task. -/
inductive Paired : Option (Nat × Task) → List Ev → Prop where
  | nil {p} : Paired p []
  | began {h t es} : Paired (some (h, t)) es → Paired none (.began h t :: es)
  | executed {h t es} : Paired none es → Paired (some (h, t)) (.executed h t :: es)
  | plain {p e es} : Plain e → Paired p es → Paired p (e :: es)

theorem paired_plain {p : Option (Nat × Task)} {a es : List Ev} (ha : ∀ e ∈ a, Plain e) (h : Paired p es) : Paired p (a ++ es) := by
  induction a with
  | nil => exact h
  | cons x a ih => exact .plain (ha x (by simp)) (ih (fun e he => ha e (by simp [he])))

theorem quiet_plain {e : Ev} (h : IsQuiet e) : Plain e := by
  cases e <;> first | exact ⟨id, id⟩ | exact absurd h id

theorem hrun_paired {s s' : HS} {ls : List Lbl} {es : List Ev} (h : HRun s ls s' es) (hi : Inv s.ds) (hc : s.cont ≠ .over) :
    Paired (pend s.cont) es := by
  induction h with
  | nil => exact .nil
  | @cons s s₁ s₂ l ls e es h1 h2 ih =>
    have ho := hstep_ord h1
    by_cases hov : s₁.cont = .over
    · obtain ⟨-, -, hq⟩ := over_hrun h2 (hinv_step hi h1) hov (left_hstep h1 hc hov).1
      have hpl : ∀ x ∈ es, Plain x := fun x hx => quiet_plain (hq x hx)
      have hes : ∀ p, Paired p es := fun p => by
        have := paired_plain hpl (.nil (p := p)); rwa [List.append_nil] at this
      rw [hov] at ho
      generalize s.cont = c at ho
      cases ho with
      | began _ hp => cases hp
      | executed hp _ => rw [hp]; exact .executed (hes _)
      | plain hpl _ => exact paired_plain hpl (hes _)
    · have ih := ih (hinv_step hi h1) hov
      generalize s.cont = c at ho
      cases ho with
      | began hp hp' => rw [hp'] at ih; subst hp; exact .began (paired_plain (plain_msgs _) ih)
      | executed hp hp' => rw [hp'] at ih; rw [hp]; exact .executed ih
      | plain hpl hp =>
        rcases hp with hp | ⟨hp, hp'⟩ | hp
        · rw [hp] at ih; exact paired_plain hpl ih
        · rw [hp'] at ih; rw [hp]; exact paired_plain hpl ih
        · exact absurd hp hov

/-- Between the beginning of a task and its hand-over nothing else begins or is handed over. -/
theorem paired_before {p : Option (Nat × Task)} {es : List Ev} (hp : Paired p es) {a b : List Ev} {h : Nat} {t : Task}
    (he : es = a ++ .executed h t :: b) :
    (∃ a1 a2, a = a1 ++ .began h t :: a2 ∧ ∀ x ∈ a2, Plain x) ∨ (p = some (h, t) ∧ ∀ x ∈ a, Plain x) := by
  induction hp generalizing a with
  | nil => simp at he
  | @began h' t' es hp ih =>
    cases a with
    | nil => simp at he
    | cons x a =>
      simp only [List.cons_append, List.cons.injEq] at he
      obtain ⟨rfl, he⟩ := he
      rcases ih he with ⟨a1, a2, rfl, h2⟩ | ⟨h1, h2⟩
      · exact .inl ⟨_ :: a1, a2, rfl, h2⟩
      · cases h1; exact .inl ⟨[], a, rfl, h2⟩
  | @executed h' t' es hp ih =>
    cases a with
    | nil => simp at he; obtain ⟨⟨rfl, rfl⟩, -⟩ := he; exact .inr ⟨rfl, by simp⟩
    | cons x a =>
      simp only [List.cons_append, List.cons.injEq] at he
      obtain ⟨rfl, he⟩ := he
      rcases ih he with ⟨a1, a2, rfl, h2⟩ | ⟨h1, -⟩
      · exact .inl ⟨_ :: a1, a2, rfl, h2⟩
      · cases h1
  | @plain p e es hpl hp ih =>
    cases a with
    | nil => simp at he; obtain ⟨rfl, -⟩ := he; exact absurd trivial hpl.2
    | cons x a =>
      simp only [List.cons_append, List.cons.injEq] at he
      obtain ⟨rfl, he⟩ := he
      rcases ih he with ⟨a1, a2, rfl, h2⟩ | ⟨h1, h2⟩
      · exact .inl ⟨_ :: a1, a2, rfl, h2⟩
      · refine .inr ⟨h1, fun y hy => ?_⟩
        rcases List.mem_cons.1 hy with rfl | hy
        · exact hpl
        · exact h2 y hy

/-- Before the next task begins the previous one was handed over. -/
theorem paired_between {p : Option (Nat × Task)} {es : List Ev} (hp : Paired p es) {b c : List Ev} {h' : Nat} {t' : Task} :
    (∀ {h t}, p = some (h, t) → es = b ++ .began h' t' :: c → .executed h t ∈ b) ∧
    (∀ {a h t}, es = a ++ .began h t :: (b ++ .began h' t' :: c) → .executed h t ∈ b) := by
  induction hp generalizing b with
  | nil => exact ⟨fun _ he => by simp at he, fun he => by simp at he⟩
  | @began h0 t0 es hp ih =>
    refine ⟨fun hp => by simp at hp, fun {a h t} he => ?_⟩
    cases a with
    | nil =>
      simp only [List.nil_append, List.cons.injEq, Ev.began.injEq] at he
      obtain ⟨⟨rfl, rfl⟩, he⟩ := he
      exact ih.1 rfl he
    | cons x a =>
      simp only [List.cons_append, List.cons.injEq] at he
      exact ih.2 he.2
  | @executed h0 t0 es hp ih =>
    refine ⟨fun hp he => ?_, fun {a h t} he => ?_⟩
    · cases b with
      | nil => simp at he
      | cons x b =>
        simp only [List.cons_append, List.cons.injEq] at he
        cases hp
        rw [← he.1]; simp
    · cases a with
      | nil => simp at he
      | cons x a =>
        simp only [List.cons_append, List.cons.injEq] at he
        exact ih.2 he.2
  | @plain p e es hpl hp ih =>
    refine ⟨fun hp he => ?_, fun {a h t} he => ?_⟩
    · cases b with
      | nil => simp at he; exact absurd (by rw [he.1]; trivial) hpl.1
      | cons x b =>
        simp only [List.cons_append, List.cons.injEq] at he
        exact List.mem_cons_of_mem _ (ih.1 hp he.2)
    · cases a with
      | nil => simp at he; exact absurd (by rw [he.1]; trivial) hpl.1
      | cons x a =>
        simp only [List.cons_append, List.cons.injEq] at he
        exact ih.2 he.2

/-! ## Results -/

/-- The results still to be given to the debugger. -/
def todo : Cont → List (Nat × Task)
  | .metaStarted h t r _ => if r = true then [] else [(h, t)]
  | .metaRan h t r _ => if r = true then [] else [(h, t)]
  | .results rs => rs.map fun r => (r.host, r.task)
  | _ => []

theorem ended_append (a b : List Ev) : endedOf (a ++ b) = endedOf a ++ endedOf b := by simp [endedOf]

theorem ended_msgs (o : List Out) : endedOf (o.map .msg) = [] := by
  induction o with
  | nil => rfl
  | cons a o ih => simpa [endedOf] using ih

theorem hstep_todo {s s' : HS} {l : Lbl} {e : List Ev} (h : hstep s l = some (s', e)) :
    (endedOf e ++ todo s'.cont = todo s.cont ++ handedL l) ∨ (s'.cont = .over ∧ endedOf e = [] ∧ handedL l = []) := by
  cases l with
  | queueTask hst t tv ar c =>
    simp only [hstep] at h; split at h
    · rename_i ha
      obtain ⟨o, -, h2, h3⟩ := dsStep_some h
      left; rw [h3, h2, at_ansible ha, ended_append, ended_msgs]; rfl
    · cases h
  | executeMeta hst t tv ar c r a =>
    simp only [hstep] at h; split at h
    · rename_i ha
      obtain ⟨o, -, h2, h3⟩ := dsStep_some h
      left; rw [h3, h2, at_ansible ha, ended_append, ended_msgs]; rfl
    · cases h
  | pendingResults rs =>
    simp only [hstep] at h; split at h
    · rename_i ha
      cases h; left; rw [at_ansible ha.1]; rfl
    · cases h
  | loaded p ln ty =>
    simp only [hstep] at h; split at h
    · rename_i ha
      obtain ⟨o, -, h2, h3⟩ := dsStep_some h
      left; rw [h3, h2, at_ansible ha, ended_append, ended_msgs]; rfl
    · cases h
  | runEnds n =>
    simp only [hstep] at h; split at h
    · cases h; right; exact ⟨rfl, by rw [ended_append, ended_msgs]; rfl, rfl⟩
    · cases h
  | runRaises x =>
    simp only [hstep] at h; split at h
    · cases h; right; exact ⟨rfl, by rw [ended_append, ended_msgs]; rfl, rfl⟩
    · cases h
  | go =>
    simp only [hstep, goOn] at h; split at h
    · cases h
    · split at h
      · rename_i hc; cases h; rw [hc]; left; rfl
      · rename_i hc; cases h; rw [hc]; left; simp [todo, endedOf, handedL]
      · rename_i hc
        rw [hc]
        split at h
        · rename_i hr
          obtain ⟨o, -, h2, h3⟩ := dsStep_some h
          left; rw [h3, h2, ended_append, ended_msgs]; simp [todo, hr, handedL, endedOf]
        · rename_i hr
          obtain ⟨o, -, h2, h3⟩ := dsStep_some h
          left; rw [h3, h2, ended_append, ended_msgs]; simp [todo, hr, handedL, endedOf]
      · rename_i hc; cases h; rw [hc]; left; rfl
      · rename_i hc
        rw [hc]
        obtain ⟨o, -, h2, h3⟩ := dsStep_some h
        left; rw [h3, h2, ended_append, ended_msgs]; simp [todo, handedL, endedOf]
      · cases h
      · cases h
  | unwind =>
    simp only [hstep, unwindRun] at h; split at h
    · cases h
    · split at h
      · cases h; right; exact ⟨rfl, rfl, rfl⟩
      · cases h; right; exact ⟨rfl, rfl, rfl⟩
      · cases h
  | wake =>
    simp only [hstep] at h
    obtain ⟨o, -, h2, h3⟩ := dsStep_some h
    left; rw [h3, h2, ended_append, ended_msgs]; simp [handedL, endedOf]
  | env hp =>
    simp only [hstep] at h
    obtain ⟨o, -, h2, h3⟩ := dsStep_some h
    left; rw [h3, h2, ended_append, ended_msgs]; simp [handedL, endedOf]
  | req r =>
    simp only [hstep] at h
    obtain ⟨o, -, h2, h3⟩ := dsStep_some h
    left; rw [h3, h2, ended_append, ended_msgs]; simp [handedL, endedOf]

theorem over_handed {s s' : HS} {ls : List Lbl} {es : List Ev} (h : HRun s ls s' es) (hc : s.cont = .over) (hi : Inv s.ds)
    (hp : ∀ tid, ¬ Waits tid s.ds) : handed ls = [] ∧ endedOf es = [] := by
  induction h with
  | nil => exact ⟨rfl, rfl⟩
  | @cons s s₁ s₂ l ls e es h1 h2 ih =>
    obtain ⟨a1, a2, -⟩ := over_hstep hi h1 hc hp
    obtain ⟨b1, b2⟩ := ih a1 (hinv_step hi h1) a2
    rw [ended_append, b2]
    have : handed (l :: ls) = handedL l ++ handed ls := rfl
    rw [this, b1]
    rcases hstep_todo h1 with h3 | ⟨-, h3, h4⟩
    · rw [a1, hc] at h3
      simp only [todo, List.append_nil, List.nil_append] at h3
      have : handedL l = [] := by
        cases l with
        | executeMeta => simp [hstep, atAnsible, hc] at h1
        | pendingResults => simp [hstep, atAnsible, hc] at h1
        | _ => rfl
      rw [h3, this]; exact ⟨rfl, rfl⟩
    · rw [h3, h4]; exact ⟨rfl, rfl⟩

theorem hrun_todo {s s' : HS} {ls : List Lbl} {es : List Ev} (h : HRun s ls s' es) (hi : Inv s.ds) (hc : s.cont ≠ .over) :
    ∃ rest, endedOf es ++ rest = todo s.cont ++ handed ls ∧ (s'.cont ≠ .over → rest = todo s'.cont) := by
  induction h with
  | nil s => exact ⟨todo s.cont, by simp [endedOf, handed], fun _ => rfl⟩
  | @cons s s₁ s₂ l ls e es h1 h2 ih =>
    have hh : handed (l :: ls) = handedL l ++ handed ls := rfl
    rw [hh, ended_append]
    by_cases hov : s₁.cont = .over
    · have hp := (left_hstep h1 hc hov).1
      obtain ⟨b1, b2⟩ := over_handed h2 hov (hinv_step hi h1) hp
      obtain ⟨c1, -, -⟩ := over_hrun h2 (hinv_step hi h1) hov hp
      rw [b1, b2]
      simp only [List.append_nil]
      rcases hstep_todo h1 with h3 | ⟨-, h3, h4⟩
      · exact ⟨todo s₁.cont, h3, fun hn => absurd c1 hn⟩
      · exact ⟨todo s.cont ++ handedL l, by rw [h3]; rfl, fun hn => absurd c1 hn⟩
    · obtain ⟨rest, r1, r2⟩ := ih (hinv_step hi h1) hov
      refine ⟨rest, ?_, r2⟩
      rcases hstep_todo h1 with h3 | ⟨h3, -⟩
      · rw [List.append_assoc, r1, ← List.append_assoc, h3, List.append_assoc]
      · exact absurd h3 hov

end Verif.Strat.Hooks
