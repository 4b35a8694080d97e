import Verif.Debuggee.Fair

/-! The playbook's wait for the configuration ends; finite executions as infinite ones. -/

namespace Verif.Debuggee
open Verif

/-- What the receive thread still has to do before it sets the event. -/
def toConf (s : St) : Option Nat :=
  if s.confDone then some 0 else match s.r with
  | .got ⟨.configurationDone, _⟩ => some 2
  | .setConf => some 1
  | .clear => some 2
  | .conf => some 1
  | _ => none

theorem toConf_step {c : Cfg} {s s' : St} {a : Act} {o : List Obs} {k : Nat} (h : step c s a = some (s', o)) (hk : toConf s = some k) (i : Inv c s) :
    (k = 0 ∧ toConf s' = some 0) ∨ (toConf s' = some k ∧ a.thread ≠ .recv) ∨ ∃ k', toConf s' = some k' ∧ k' < k := by
  have i4 := i.pre_r
  by_cases hc : s.confDone = true
  · have e : k = 0 := by simpa [toConf, hc] using hk.symm
    subst e
    left
    refine ⟨rfl, ?_⟩
    step_cases a h
    all_goals simp_all [toConf]
  · step_cases a h
    all_goals first
      | (simp_all [toConf, Act.thread]; done)
      | (rename_i r hr hn
         obtain ⟨k', n⟩ := r
         cases k' <;> simp_all [toConf, needsStrategy]; done)
      | grind [toConf, Act.thread, preLoop]

theorem wait_left {c : Cfg} {s s' : St} {a : Act} {o : List Obs} (h : step c s a = some (s', o)) (ht : a.thread = .playbook)
    (h1 : s.p = .wait) (h2 : s'.p = .wait) : False := by
  step_cases a h
  all_goals first
    | (simp [Act.thread] at ht; done)
    | simp_all

/-- Once configurationDone has been received or the connection has ended, a waiting playbook goes on. -/
theorem wait_ends {c : Cfg} (e : Exec c) (h0 : Inv c (e.st 0)) (hf : Fair e) :
    ∀ (k n : Nat), toConf (e.st n) = some k → ∃ m, n ≤ m ∧ (e.st m).p ≠ .wait := by
  intro k
  induction k using Nat.strongRecOn with
  | _ k ih =>
    intro n hk
    apply Classical.byContradiction
    intro hc
    have hw : ∀ m, n ≤ m → (e.st m).p = .wait := fun m hm => Classical.byContradiction fun h => hc ⟨m, hm, h⟩
    have one : ∀ m, n ≤ m → toConf (e.st m) = some k →
        toConf (e.st (m + 1)) = some k ∧ (k ≠ 0 → ∀ a, e.act m = some a → a.thread ≠ .recv) := by
      intro m hm hk
      have h := e.ok m
      split at h
      · rename_i ha; rw [h]; exact ⟨hk, by simp [ha]⟩
      · rename_i a ha
        obtain ⟨o, h⟩ := h
        rcases toConf_step h hk (exec_inv e h0 m) with ⟨rfl, h1⟩ | ⟨h1, h2⟩ | ⟨k', h1, h2⟩
        · exact ⟨h1, by simp⟩
        · exact ⟨h1, fun _ b hb => by rw [ha] at hb; cases hb; exact h2⟩
        · obtain ⟨q, hq, hne⟩ := ih k' h2 (m + 1) h1
          exact absurd (hw q (by omega)) hne
    have key : ∀ m, n ≤ m → toConf (e.st m) = some k := by
      intro m hm
      induction hm with
      | refl => exact hk
      | step hm ihm => exact (one _ hm ihm).1
    by_cases hz : k = 0
    · subst hz
      have hr : ∀ j, n ≤ j → Ready c (e.st j) .playbook := by
        intro j hj
        have hcd : (e.st j).confDone = true := by
          have := key j hj
          unfold toConf at this
          split at this
          · assumption
          · split at this <;> cases this
        exact ⟨.pGo, rfl, by simp [step, Act.thread, stepP, hw j hj, hcd]⟩
      obtain ⟨j, hj, a, ha, ht⟩ := hf _ n hr
      have h := e.ok j
      rw [ha] at h
      obtain ⟨o, h⟩ := h
      exact wait_left h ht (hw j hj) (hw (j + 1) (by omega))
    · have hr : ∀ j, n ≤ j → Ready c (e.st j) .recv := by
        intro j hj
        have := key j hj
        unfold toConf at this
        split at this
        · cases this; exact absurd rfl hz
        · simp only [Ready]
          split at this <;> simp_all
      obtain ⟨j, hj, a, ha, ht⟩ := hf _ n hr
      exact (one j hj (key j hj)).2 hz a ha ht

/-! ## Finite executions -/

theorem exec_snoc {c : Cfg} {s s1 s2 : St} {a : Act} {as : List Act} {os o : List Obs} (h1 : exec c s as = some (s1, os)) (h2 : step c s1 a = some (s2, o)) :
    exec c s (as ++ [a]) = some (s2, os ++ o) := by
  induction as generalizing s os with
  | nil => simp only [exec, Option.some.injEq, Prod.mk.injEq] at h1; obtain ⟨rfl, rfl⟩ := h1; simp [exec, h2]
  | cons b as ih =>
    simp only [exec, List.cons_append] at h1 ⊢
    split at h1
    · cases h1
    · rename_i s' o' hb
      split at h1
      · cases h1
      · rename_i s3 os3 h3
        simp only [Option.some.injEq, Prod.mk.injEq] at h1
        obtain ⟨rfl, rfl⟩ := h1
        simp [ih h3]

theorem exec_prefix {c : Cfg} {as bs : List Act} : ∀ {s s2 : St} {os : List Obs}, exec c s (as ++ bs) = some (s2, os) →
    ∃ s1 o1 o2, exec c s as = some (s1, o1) ∧ exec c s1 bs = some (s2, o2) ∧ os = o1 ++ o2 := by
  induction as with
  | nil => intro s s2 os h; exact ⟨s, [], os, rfl, h, rfl⟩
  | cons a as ih =>
    intro s s2 os h
    simp only [exec, List.cons_append] at h
    split at h
    · cases h
    · rename_i s' o' ha
      split at h
      · cases h
      · rename_i s3 os3 h3
        simp only [Option.some.injEq, Prod.mk.injEq] at h
        obtain ⟨rfl, rfl⟩ := h
        obtain ⟨s1, o1, o2, e1, e2, rfl⟩ := ih h3
        exact ⟨s1, o' ++ o1, o2, by simp [exec, ha, e1], e2, by simp⟩

/-- The state after a list of actions. -/
def after (c : Cfg) (s : St) (as : List Act) : St := match exec c s as with | some (x, _) => x | none => s

/-- The actions in a row, then nothing. -/
def Exec.ofList (c : Cfg) (s : St) (as : List Act) (h : (exec c s as).isSome = true) : Exec c where
  st i := after c s (as.take i)
  act i := as[i]?
  ok i := by
    by_cases hi : i < as.length
    · simp only [List.getElem?_eq_getElem hi]
      obtain ⟨x, hx⟩ := Option.isSome_iff_exists.1 h
      obtain ⟨sf, osf⟩ := x
      have e : as = as.take (i + 1) ++ as.drop (i + 1) := (List.take_append_drop _ _).symm
      have e1 : as.take (i + 1) = as.take i ++ [as[i]] := by simp
      rw [e] at hx
      obtain ⟨s1, o1, o2, k1, -, -⟩ := exec_prefix hx
      have k0 := k1
      rw [e1] at k1
      obtain ⟨s2, o3, o4, k2, k3, -⟩ := exec_prefix k1
      simp only [exec] at k3
      split at k3
      · cases k3
      · rename_i s' o' hs
        simp only [Option.some.injEq, Prod.mk.injEq] at k3
        obtain ⟨rfl, rfl⟩ := k3
        exact ⟨o', by simp only [after, k2, k0]; exact hs⟩
    · have hn : as[i]? = none := List.getElem?_eq_none (Nat.le_of_not_lt hi)
      simp only [hn, after]
      rw [List.take_of_length_le (by omega), List.take_of_length_le (by omega)]

/-- If no thread is ready at the end, that is fair. -/
theorem Exec.ofList_fair {c : Cfg} {s : St} {as : List Act} (h : (exec c s as).isSome = true)
    (hq : ∀ t, ¬ Ready c (after c s as) t) : Fair (Exec.ofList c s as h) := by
  intro t i hr
  have := hr (i + as.length) (by omega)
  simp only [Exec.ofList] at this
  rw [List.take_of_length_le (by omega)] at this
  exact absurd this (hq t)

end Verif.Debuggee
