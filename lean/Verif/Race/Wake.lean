import Verif.Race.Done
/-! # A request that resumes a stopped thread -/

namespace Verif.Race

/-- The request is on its way to give the thread a state with `g`. -/
def OnWay (g : TS → Prop) (t : Nat) (s : S) : Prop :=
  match s.r with
  | .clear st => g st
  | .copy st => g st
  | .lock (some l) st => g st ∧ t ∈ l ∧ ∀ x ∈ l, x ∈ s.threads
  | .lock none st => g st
  | .each l st => g st ∧ (t ∈ l ∨ g (s.state t)) ∧ ∀ x ∈ l, x ∈ s.threads
  | .iter it st => g st ∧ (t ∈ s.threads.drop it.pos ∨ g (s.state t))
  | .setOne x it st => g st ∧ (t = x ∨ t ∈ s.threads.drop it.pos ∨ g (s.state t))
  | .notify => g (s.state t)
  | _ => False

/-- No step of a request in such a place changes anything but the lock. -/
def late : R → Bool
  | .unlock _ => true
  | .answer _ => true
  | .idle => true
  | _ => false

set_option maxHeartbeats 2000000 in
theorem onway_step {fine : Bool} {g : TS → Prop} {s s' : S} {o : List Obs} {t : Nat} {k : Ctx} (hc : Ctl s) (hp : s.p = .asleep t k false) (hw : OnWay g t s)
    (h : rstep fine s = some (s', o)) :
    o = [] ∧ ((s'.p = .asleep t k false ∧ OnWay g t s') ∨ (s'.p = .asleep t k true ∧ g (s'.state t) ∧ late s'.r = true)) := by
  have ri := hc.ri
  have rs := hc.rs
  have ht := (hc.tp t (by rw [hp]; rfl)).1
  unfold OnWay at hw
  unfold rstep at h
  split at h
  case h_1 => cases h
  all_goals rename_i hr
  all_goals rw [hr] at hw ri rs
  all_goals try simp only at hw
  all_goals (repeat' (split at h))
  all_goals first | (cases h; done) | skip
  all_goals simp only [Option.some.injEq, Prod.mk.injEq] at h
  all_goals obtain ⟨rfl, rfl⟩ := h
  all_goals refine ⟨rfl, ?_⟩
  all_goals try (exact hw.elim)
  all_goals try (refine .inl ⟨hp, ?_⟩ <;> simp_all [OnWay] <;> done)
  all_goals try (refine .inl ⟨hp, ?_⟩ <;> simp only [OnWay] <;> grind [upd])
  all_goals try (refine .inr ⟨?_, ?_, rfl⟩ <;> simp_all <;> done)
  all_goals try (simp_all; done)
  · rename_i hq
    exact absurd (ri _ rfl _ _ _ hp) hq.symm
  · rename_i hq
    refine .inl ⟨hp, ?_⟩
    have := List.getElem?_eq_none_iff.1 hq
    rcases hw.2 with a | a
    · rw [List.drop_eq_nil_of_le this] at a
      cases a
    · exact a
  · rename_i hq
    refine .inl ⟨hp, hw.1, ?_⟩
    obtain ⟨hi, e⟩ := List.getElem?_eq_some_iff.1 hq
    rcases hw.2 with a | a
    · rw [List.drop_eq_getElem_cons hi, e] at a
      rcases List.mem_cons.1 a with a | a
      · exact .inl a
      · exact .inr (.inl a)
    · exact .inr (.inr a)

/-- The playbook is not about to sleep. -/
def up : P → Bool
  | .pred _ _ => false
  | .sleep _ _ => false
  | .asleep _ _ _ => false
  | _ => true

theorem late_step {fine : Bool} {s s' : S} {o : List Obs} (hl : late s.r = true) (h : rstep fine s = some (s', o)) :
    s'.p = s.p ∧ s'.state = s.state ∧ late s'.r = true ∧ stops o = [] := by
  unfold rstep at h
  cases hr : s.r <;> rw [hr] at hl h <;> simp [late] at hl
  all_goals simp only [Option.some.injEq, Prod.mk.injEq, reduceCtorEq] at h
  all_goals
    obtain ⟨rfl, rfl⟩ := h
    exact ⟨rfl, rfl, rfl, rfl⟩

set_option maxHeartbeats 2000000 in
theorem up_step {fine b : Bool} {s s' : S} {o : List Obs} (hu : up s.p = true) (h : pstep fine s b = some (s', o)) : up s'.p = true ∨ stops o ≠ [] := by
  unfold pstep at h
  split at h
  case h_1 => cases h
  all_goals rename_i hr
  all_goals rw [hr] at hu
  all_goals (repeat' (split at h))
  all_goals first | (cases h; done) | skip
  all_goals simp only [Option.some.injEq, Prod.mk.injEq] at h
  all_goals obtain ⟨rfl, rfl⟩ := h
  all_goals first
    | exact .inl rfl
    | (cases hu; done)
    | (right; simp [stops]; done)

theorem up_call {fine : Bool} {s s' : S} {o : List Obs} {l : Lbl} (hq : quiet l = true) (hg : l ≠ .go) (hl : ∀ b, l ≠ .play b)
    (h : step fine s l = some (s', o)) : s.p = .idle ∧ up s'.p = true ∧ stops o = [] := by
  cases l with
  | play b => exact absurd rfl (hl b)
  | go => exact absurd rfl hg
  | req q => cases hq
  | _ =>
    simp only [step] at h
    (repeat' (split at h))
    all_goals first | (cases h; done) | skip
    all_goals simp only [Option.some.injEq, Prod.mk.injEq] at h
    all_goals obtain ⟨rfl, rfl⟩ := h
    all_goals exact ⟨‹_›, rfl, rfl⟩

/-- The stages of a wake-up. -/
inductive Stage (g : TS → Prop) (t : Nat) (k : Ctx) (s : S) : Prop where
  | asleep (hp : s.p = .asleep t k false) (hw : OnWay g t s)
  | woken (hp : s.p = .asleep t k true ∨ s.p = .pred t k) (hg : g (s.state t)) (hl : late s.r = true)
  | up (hp : up s.p = true) (hl : late s.r = true)

theorem stage_step {fine : Bool} {g : TS → Prop} {t : Nat} {k : Ctx} {s s' : S} {o : List Obs} {l : Lbl} (hgw : ¬ g .wait) (hc : Ctl s) (hi : Stage g t k s)
    (hq : quiet l = true) (h : step fine s l = some (s', o)) : Stage g t k s' ∨ stops o ≠ [] := by
  cases hi with
  | asleep hp hw =>
    cases asleep_only hp hq h
    obtain ⟨_, a | ⟨a, b, c⟩⟩ := onway_step hc hp hw h
    · exact .inl (.asleep a.1 a.2)
    · exact .inl (.woken (.inl a) b c)
  | woken hp hg hl =>
    by_cases e : l = .go
    · subst e
      obtain ⟨a, b, c, _⟩ := late_step hl h
      exact .inl (.woken (by rw [a]; exact hp) (by rw [b]; exact hg) c)
    · have hr := (step_r hq e h).1
      cases l with
      | play b =>
        rcases hp with hp | hp
        · simp only [step, pstep, hp, true_and] at h
          split at h
          · simp only [Option.some.injEq, Prod.mk.injEq] at h
            obtain ⟨rfl, rfl⟩ := h
            exact .inl (.woken (.inr rfl) hg hl)
          · cases h
        · simp only [step, pstep, hp] at h
          rw [if_neg (by intro e; rw [e] at hg; exact hgw hg)] at h
          simp only [Option.some.injEq, Prod.mk.injEq] at h
          obtain ⟨rfl, rfl⟩ := h
          exact .inl (.up rfl hl)
      | go => exact absurd rfl e
      | req q => cases hq
      | _ =>
        exfalso
        rcases hp with hp | hp <;> simp [step, hp] at h
  | up hp hl =>
    by_cases e : l = .go
    · subst e
      obtain ⟨a, b, c, _⟩ := late_step hl h
      exact .inl (.up (by rw [a]; exact hp) c)
    · have hr := (step_r hq e h).1
      by_cases e2 : ∃ b, l = .play b
      · obtain ⟨b, rfl⟩ := e2
        rcases up_step hp h with a | a
        · exact .inl (.up a (by rw [hr]; exact hl))
        · exact .inr a
      · obtain ⟨_, a, _⟩ := up_call hq e (fun b hb => e2 ⟨b, hb⟩) h
        exact .inl (.up a (by rw [hr]; exact hl))

theorem stage_run {fine : Bool} {g : TS → Prop} {t : Nat} {k : Ctx} (hgw : ¬ g .wait) : ∀ (ls : List Lbl) (s s' : S) (O : List Obs), Ctl s → Stage g t k s →
    (∀ l ∈ ls, quiet l = true) → run fine s ls = some (s', O) → Stage g t k s' ∨ stops O ≠ []
  | [], s, s', O, hc, hi, _, h => by
    simp only [run, Option.some.injEq, Prod.mk.injEq] at h
    obtain ⟨rfl, rfl⟩ := h
    exact .inl hi
  | l :: ls, s, s', O, hc, hi, hq, h => by
    obtain ⟨s1, o, O', h1, h2, rfl⟩ := run_cons h
    rcases stage_step hgw hc hi (hq l (by simp)) h1 with a | a
    · rcases stage_run hgw ls s1 s' O' (ctl_step hc h1) a (fun l hl => hq l (by simp [hl])) h2 with b | b
      · exact .inl b
      · refine .inr ?_
        rw [stops_append]
        simp [b]
    · refine .inr ?_
      rw [stops_append]
      simp [a]

/-- While the request is on its way it has not been answered. -/
theorem onway_busy {g : TS → Prop} {t : Nat} {s : S} (h : OnWay g t s) : s.r ≠ .idle := by
  intro e
  unfold OnWay at h
  rw [e] at h
  exact h

/-- The state a request gives to threads. -/
def sets : Req → TS
  | .one _ st => if st = true then .step else .cont
  | .disconnect term => if term = true then .fin else .cont
  | _ => .cont

/-- The beginning. -/
theorem onway_start {fine : Bool} {s s' : S} {o : List Obs} {q : Req} {t : Nat} {k : Ctx} {g : TS → Prop} (hc : Ctl s) (hp : s.p = .asleep t k false)
    (hq : resumes s t q) (hg : g (sets q))
    (h : step fine s (.req q) = some (s', o)) : o = [] ∧ s'.p = .asleep t k false ∧ OnWay g t s' := by
  have ht := (hc.tp t (by rw [hp]; rfl)).1
  simp only [step] at h
  split at h
  · simp only [Option.some.injEq, Prod.mk.injEq] at h
    obtain ⟨rfl, rfl⟩ := h
    refine ⟨rfl, hp, ?_⟩
    cases q <;> simp only [resumes] at hq
    · subst hq
      simp only [OnWay, startReq]
      exact ⟨hg, by simp, by simp [ht]⟩
    · exact hg
    · exact hg
  · cases h

/-- The playbook is being ended on request. -/
def ending : P → Bool
  | .exit _ w => w = .ended
  | .exitEvent _ _ w => w = .ended
  | .gone w => w = .ended
  | _ => false

/-- The stages of an end. -/
inductive Ending (t : Nat) (k : Ctx) (s : S) : Prop where
  | asleep (hp : s.p = .asleep t k false) (hw : OnWay (· = .fin) t s)
  | woken (hp : s.p = .asleep t k true ∨ s.p = .pred t k ∨ s.p = .check t k) (hg : s.state t = .fin) (hl : late s.r = true)
  | dead (hp : ending s.p = true) (hl : late s.r = true)

theorem ending_step {fine : Bool} {t : Nat} {k : Ctx} {s s' : S} {o : List Obs} {l : Lbl} (hc : Ctl s) (hi : Ending t k s)
    (hq : quiet l = true) (h : step fine s l = some (s', o)) : Ending t k s' := by
  cases hi with
  | asleep hp hw =>
    cases asleep_only hp hq h
    obtain ⟨_, a | ⟨a, b, c⟩⟩ := onway_step hc hp hw h
    · exact .asleep a.1 a.2
    · exact .woken (.inl a) b c
  | woken hp hg hl =>
    by_cases e : l = .go
    · subst e
      obtain ⟨a, b, c, _⟩ := late_step hl h
      exact .woken (by rw [a]; exact hp) (by rw [b]; exact hg) c
    · have hr := (step_r hq e h).1
      cases l with
      | play b =>
        rcases hp with hp | hp | hp
        · simp only [step, pstep, hp, true_and] at h
          split at h
          · simp only [Option.some.injEq, Prod.mk.injEq] at h
            obtain ⟨rfl, rfl⟩ := h
            exact .woken (.inr (.inl rfl)) hg hl
          · cases h
        · simp only [step, pstep, hp, hg] at h
          simp only [reduceCtorEq, if_false, Option.some.injEq, Prod.mk.injEq] at h
          obtain ⟨rfl, rfl⟩ := h
          exact .woken (.inr (.inr rfl)) hg hl
        · simp only [step, pstep, hp, hg] at h
          simp only [if_true, Option.some.injEq, Prod.mk.injEq] at h
          obtain ⟨rfl, rfl⟩ := h
          exact .dead rfl hl
      | go => exact absurd rfl e
      | req q => cases hq
      | _ =>
        exfalso
        rcases hp with hp | hp | hp <;> simp [step, hp] at h
  | dead hp hl =>
    by_cases e : l = .go
    · subst e
      obtain ⟨a, b, c, _⟩ := late_step hl h
      exact .dead (by rw [a]; exact hp) c
    · have hr := (step_r hq e h).1
      refine .dead ?_ (by rw [hr]; exact hl)
      cases l with
      | play b =>
        simp only [step] at h
        unfold pstep at h
        split at h
        all_goals rename_i hr
        all_goals rw [hr] at hp
        all_goals first | (cases hp; done) | skip
        all_goals simp only [ending, decide_eq_true_eq] at hp
        all_goals first | (cases h; done) | skip
        all_goals subst hp
        all_goals simp only [Option.some.injEq, Prod.mk.injEq] at h
        all_goals obtain ⟨rfl, rfl⟩ := h
        all_goals rfl
      | go => exact absurd rfl e
      | req q => cases hq
      | _ =>
        simp only [step] at h
        exfalso
        rw [if_neg (by intro e; rw [e] at hp; cases hp)] at h
        cases h

theorem ending_run {fine : Bool} {t : Nat} {k : Ctx} : ∀ (ls : List Lbl) (s s' : S) (O : List Obs), Ctl s → Ending t k s →
    (∀ l ∈ ls, quiet l = true) → run fine s ls = some (s', O) → Ending t k s'
  | [], s, s', O, hc, hi, _, h => by
    simp only [run, Option.some.injEq, Prod.mk.injEq] at h
    obtain ⟨rfl, rfl⟩ := h
    exact hi
  | l :: ls, s, s', O, hc, hi, hq, h => by
    obtain ⟨s1, o, O', h1, h2, rfl⟩ := run_cons h
    exact ending_run ls s1 s' O' (ctl_step hc h1) (ending_step hc hi (hq l (by simp)) h1) (fun l hl => hq l (by simp [hl])) h2

end Verif.Race
