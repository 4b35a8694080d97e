import Verif.Race.Spec
/-! # The lock, the waiting and the threads: an invariant -/

namespace Verif.Race

/-- The playbook holds the lock. -/
def pLocked : P → Bool
  | .bps _ => true
  | .bpsIter _ _ => true
  | .decide _ _ => true
  | .emit _ _ => true
  | .pred _ _ => true
  | .sleep _ _ => true
  | .check _ _ => true
  | .unlock _ _ => true
  | .decideE _ _ => true
  | .frameE _ _ => true
  | .addRead _ _ _ => true
  | .addWrite _ _ _ _ => true
  | .addEntry _ _ _ _ => true
  | .addList _ _ _ _ => true
  | .setResult _ _ _ _ => true
  | _ => false

/-- The request holds the lock. -/
def rLocked : R → Bool
  | .each _ _ => true
  | .iter _ _ => true
  | .setOne _ _ _ => true
  | .notify => true
  | .unlock _ => true
  | _ => false

/-- The thread the playbook is going to wait for or waits for. -/
def waits : P → Option Nat
  | .emit t _ => some t
  | .pred t _ => some t
  | .sleep t _ => some t
  | .asleep t _ _ => some t
  | .frameE t _ => some t
  | .addRead t _ _ => some t
  | .addWrite t _ _ _ => some t
  | .addEntry t _ _ _ => some t
  | .addList t _ _ _ => some t
  | .setResult t _ _ _ => some t
  | _ => none

/-- The thread whose task is started or ended. -/
def pTid : P → Option Nat
  | .announce t => some t
  | .sync t => some t
  | .popStack t _ => some t
  | .popFrame t _ _ => some t
  | .del t _ _ _ => some t
  | .role t => some t
  | .roleIter t _ => some t
  | .push t => some t
  | .pushStack t _ => some t
  | .path t => some t
  | .lockS t => some t
  | .bps t => some t
  | .bpsIter t _ => some t
  | .decide t _ => some t
  | .emit t _ => some t
  | .pred t _ => some t
  | .sleep t _ => some t
  | .asleep t _ _ => some t
  | .check t _ => some t
  | .unlock t _ => some t
  | .lockE t _ => some t
  | .decideE t _ => some t
  | .frameE t _ => some t
  | .addRead t _ _ => some t
  | .addWrite t _ _ _ => some t
  | .addEntry t _ _ _ => some t
  | .addList t _ _ _ => some t
  | .setResult t _ _ _ => some t
  | _ => none

/-- The threads `exit_threads` has still to remove. -/
def exiting : P → Option (List Nat)
  | .exit todo _ => some todo
  | .exitEvent _ todo _ => some todo
  | _ => none

/-- The play is being left for good. -/
def dead : P → Bool
  | .exit _ w => w ≠ .refresh
  | .exitEvent _ _ w => w ≠ .refresh
  | .gone _ => true
  | _ => false

/-- The threads a request has still to resume, from a list. -/
def rList : R → Option (List Nat)
  | .lock (some l) _ => some l
  | .each l _ => some l
  | _ => none

/-- The iterator over `threads` of a request that resumes them. -/
def rIter : R → Option It
  | .iter it _ => some it
  | .setOne _ it _ => some it
  | _ => none

/-- The state a request sets. -/
def rTS : R → Option TS
  | .clear st => some st
  | .copy st => some st
  | .lock _ st => some st
  | .each _ st => some st
  | .iter _ st => some st
  | .setOne _ _ st => some st
  | _ => none

/-- A step of the adding of variables. -/
def isAdd : R → Bool
  | .addRead _ _ _ _ => true
  | .result _ _ => true
  | .answer _ => true
  | _ => false

theorem addNext_isAdd (f n : Nat) (got : List Nat) (sc : Bool) : isAdd (addNext f n got sc) = true := by
  unfold addNext
  split
  · unfold added; split <;> rfl
  · rfl

theorem isAdd_plain {r : R} (h : isAdd r = true) : rLocked r = false ∧ rList r = none ∧ rIter r = none ∧ rTS r = none ∧
    (∀ x it st, r ≠ .setOne x it st) := by
  cases r <;> simp_all [isAdd, rLocked, rList, rIter, rTS]

section
variable (f n : Nat) (got : List Nat) (sc : Bool)
theorem addNext_rLocked : rLocked (addNext f n got sc) = false := (isAdd_plain (addNext_isAdd f n got sc)).1
theorem addNext_rList : rList (addNext f n got sc) = none := (isAdd_plain (addNext_isAdd f n got sc)).2.1
theorem addNext_rIter : rIter (addNext f n got sc) = none := (isAdd_plain (addNext_isAdd f n got sc)).2.2.1
theorem addNext_rTS : rTS (addNext f n got sc) = none := (isAdd_plain (addNext_isAdd f n got sc)).2.2.2.1
theorem addNext_setOne (x : Nat) (it : It) (st : TS) : (addNext f n got sc = .setOne x it st) = False := by
  simp [(isAdd_plain (addNext_isAdd f n got sc)).2.2.2.2]
end

theorem upd_same {α : Type} (f : Nat → α) (k : Nat) (v : α) : upd f k v k = v := by simp [upd]
theorem upd_other {α : Type} (f : Nat → α) (k : Nat) (v : α) (x : Nat) (h : x ≠ k) : upd f k v x = f x := by simp [upd, h]

/-- The invariant. -/
structure Ctl (s : S) : Prop where
  pl : s.lock = some true ↔ pLocked s.p = true
  rl : s.lock = some false ↔ rLocked s.r = true
  tn : s.threads.Nodup
  tlt : ∀ t ∈ s.threads, t < s.nextT
  t2 : 2 ≤ s.nextT
  h1 : s.host 1 = none
  hlt : ∀ t, s.nextT ≤ t → s.host t = none
  fresh : ∀ t, s.nextT ≤ t → s.state t = .cont
  tp : ∀ t, pTid s.p = some t → t ∈ s.threads ∧ t ≠ 1
  ex : ∀ l, exiting s.p = some l → ∀ x ∈ s.threads, x = 1 ∨ x ∈ l
  w1 : ∀ t, s.state t = .wait → waits s.p = some t ∨ dead s.p = true
  w2 : ∀ t k, s.p = .sleep t k → s.state t = .wait
  rl1 : ∀ l, rList s.r = some l → l.length ≤ 1 ∨ ((∀ x ∈ l, x < s.nextT) ∧
    (exiting s.p ≠ none ∨ (∀ x ∈ l, x ∈ s.threads) ∨ ∀ x ∈ l, x ∈ s.threads → x = 1))
  ri : ∀ it, rIter s.r = some it → ∀ t k n, s.p = .asleep t k n → it.size = s.threads.length
  rs : ∀ x it st, s.r = .setOne x it st → ∀ t k n, s.p = .asleep t k n → x ∈ s.threads
  w3 : ∀ t k, s.p = .asleep t k false → s.state t = .wait ∨ s.r = .notify ∨ rIter s.r ≠ none ∨
    ∃ l st, s.r = .each l st ∧ ∀ x ∈ l, x ∈ s.threads
  st : ∀ st, rTS s.r = some st → st ≠ .wait

theorem ctl_start : Ctl {} where
  pl := by simp [pLocked]
  rl := by simp [rLocked]
  tn := by simp
  tlt := by simp
  t2 := by simp
  h1 := rfl
  hlt := by simp
  fresh := by simp
  tp := by simp [pTid]
  ex := by simp [exiting]
  w1 := by simp
  w2 := by simp
  rl1 := by simp [rList]
  ri := by simp [rIter]
  rs := by simp
  w3 := by simp
  st := by simp [rTS]

theorem threadOf_some {s : Sh} {h t : Nat} (e : threadOf s h = some t) : t ∈ s.threads ∧ s.host t = some h := by
  unfold threadOf at e
  exact ⟨List.mem_of_find?_eq_some e, by simpa using List.find?_some e⟩

theorem iter_locked {r : R} {it : It} (h : rIter r = some it) : rLocked r = true := by
  unfold rIter at h
  split at h <;> first | rfl | cases h

set_option maxHeartbeats 4000000 in
theorem ctl_pstep {fine b : Bool} {s s' : S} {o : List Obs} (hi : Ctl s) (h : pstep fine s b = some (s', o)) : Ctl s' := by
  obtain ⟨pl, rl, tn, tlt, t2, h1, hlt, fresh, tp, ex, w1, w2, rl1, ri, rs, w3, st⟩ := hi
  have iL : ∀ it, rIter s.r = some it → rLocked s.r = true := fun _ h => iter_locked h
  have sL : ∀ x it st, s.r = .setOne x it st → rLocked s.r = true := by intro x it st h; rw [h]; rfl
  unfold pstep at h
  split at h
  case h_1 => cases h
  all_goals rename_i hp
  all_goals rw [hp] at pl tp ex w1 w2 rl1 ri rs w3
  all_goals simp only [pLocked, pTid, exiting, waits, dead] at pl tp ex w1 rl1
  all_goals (repeat' (split at h))
  all_goals first | (cases h; done) | skip
  all_goals simp only [Option.some.injEq, Prod.mk.injEq] at h
  all_goals obtain ⟨rfl, rfl⟩ := h
  all_goals refine ⟨?_, ?_, ?_, ?_, ?_, ?_, ?_, ?_, ?_, ?_, ?_, ?_, ?_, ?_, ?_, ?_, ?_⟩
  all_goals try assumption
  all_goals try (simp_all [pLocked, pTid, exiting, waits, leave, raiseIn, dead]; done)
  all_goals try (grind [pLocked, pTid, exiting, waits, leave, raiseIn, upd, dead])
  · rename_i t ht
    intro t' e
    simp only [pTid, Option.some.injEq] at e
    subst e
    obtain ⟨a, b⟩ := threadOf_some ht
    exact ⟨a, by rintro rfl; rw [h1] at b; cases b⟩

set_option maxHeartbeats 4000000 in
theorem ctl_rstep {fine : Bool} {s s' : S} {o : List Obs} (hi : Ctl s) (h : rstep fine s = some (s', o)) : Ctl s' := by
  obtain ⟨pl, rl, tn, tlt, t2, h1, hlt, fresh, tp, ex, w1, w2, rl1, ri, rs, w3, st⟩ := hi
  have sL : ∀ t k, s.p = .sleep t k → pLocked s.p = true := by intro t k h; rw [h]; rfl
  have wL : ∀ t, waits s.p = some t → pTid s.p = some t := by
    intro t h
    unfold waits at h
    split at h <;> simp_all [pTid]
  unfold rstep at h
  split at h
  case h_1 => cases h
  all_goals rename_i hp
  all_goals rw [hp] at rl rl1 ri rs w3 st
  all_goals simp only [rLocked, rList, rIter, rTS] at rl rl1 ri st
  all_goals (repeat' (split at h))
  all_goals first | (cases h; done) | skip
  all_goals simp only [Option.some.injEq, Prod.mk.injEq] at h
  all_goals obtain ⟨rfl, rfl⟩ := h
  all_goals refine ⟨?_, ?_, ?_, ?_, ?_, ?_, ?_, ?_, ?_, ?_, ?_, ?_, ?_, ?_, ?_, ?_, ?_⟩
  all_goals try assumption
  all_goals try (simp only [addNext_rLocked, addNext_rList, addNext_rIter, addNext_rTS, addNext_setOne]; simp; done)
  all_goals try (simp_all [rLocked, rList, rIter, rTS, addNext_rLocked, addNext_rList, addNext_rIter, addNext_rTS, addNext_setOne]; done)
  all_goals try (grind [rLocked, rList, rIter, rTS, upd, pLocked, pTid, exiting, waits, dead, addNext_isAdd, isAdd_plain])

set_option maxHeartbeats 4000000 in
theorem ctl_step {fine : Bool} {s s' : S} {o : List Obs} {l : Lbl} (hi : Ctl s) (h : step fine s l = some (s', o)) : Ctl s' := by
  cases l with
  | play b => exact ctl_pstep hi h
  | go => exact ctl_rstep hi h
  | req q =>
    obtain ⟨pl, rl, tn, tlt, t2, h1, hlt, fresh, tp, ex, w1, w2, rl1, ri, rs, w3, st⟩ := hi
    simp only [step] at h
    split at h
    · rename_i hr
      simp only [Option.some.injEq, Prod.mk.injEq] at h
      obtain ⟨rfl, rfl⟩ := h
      rw [hr] at rl rl1 ri rs w3 st
      cases q
      all_goals refine ⟨?_, ?_, ?_, ?_, ?_, ?_, ?_, ?_, ?_, ?_, ?_, ?_, ?_, ?_, ?_, ?_, ?_⟩
      all_goals try assumption
      all_goals simp only [startReq, rLocked, rList, rIter, rTS] at *
      all_goals try assumption
      all_goals try (simp_all; done)
      all_goals try grind
    · cases h
  | _ =>
    obtain ⟨pl, rl, tn, tlt, t2, h1, hlt, fresh, tp, ex, w1, w2, rl1, ri, rs, w3, st⟩ := hi
    simp only [step] at h
    (repeat' (split at h))
    all_goals first | (cases h; done) | skip
    all_goals simp only [Option.some.injEq, Prod.mk.injEq] at h
    all_goals obtain ⟨rfl, rfl⟩ := h
    all_goals refine ⟨?_, ?_, ?_, ?_, ?_, ?_, ?_, ?_, ?_, ?_, ?_, ?_, ?_, ?_, ?_, ?_, ?_⟩
    all_goals try assumption
    all_goals try (simp_all [pLocked, pTid, exiting, waits, leave, dead]; done)
    all_goals try (grind [pLocked, pTid, exiting, waits, leave, dead, startReq, rLocked, rList, rIter, rTS])
    all_goals
      rename_i t ht _
      intro t' e
      simp only [pTid, Option.some.injEq] at e
      subst e
      obtain ⟨a, b⟩ := threadOf_some ht
      exact ⟨a, by rintro rfl; rw [h1] at b; cases b⟩

end Verif.Race
