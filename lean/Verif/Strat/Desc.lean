import Verif.Strat.Stack
/-!
# Frame ids of a stack go down, and when the run is over only thread 1 is left
-/

namespace Verif.Strat
open Verif

/-- Only thread 1 is left. -/
def OnlyMain (s : DS) : Prop := ∀ k th, s.threads.get? k = some th → k = 1

theorem finish_main (s : DS) (pc : Pc) : OnlyMain (finish s pc).1 := by
  intro k th h
  simp only [finish, exitThreads] at h
  rw [DL.get_filter s.threads (fun k => decide (k = 1))] at h
  split at h
  · rename_i e; simpa using e
  · cases h

theorem not_over_of {s : DS} (h : s.pc = .running ∨ ∃ k, Waits k s) : ¬ Over s := by
  rintro (e | ⟨e', e⟩) <;> rcases h with h | ⟨k, h | ⟨i, h⟩⟩ <;> (rw [e] at h; cases h)

theorem endAfter_main {s : DS} (c : s.core) (tid : Nat) (inc : Bool) (h : Over (endAfter s tid inc).1) : OnlyMain (endAfter s tid inc).1 := by
  unfold endAfter at h ⊢
  split
  · exact finish_main _ _
  · split
    · exact finish_main _ _
    · split
      · rename_i h1 h2 h3
        simp only [h1, h2, h3, if_false, if_true] at h
        exact absurd h (not_over_of (.inl rfl))
      · split
        · exact finish_main _ _
        · rename_i h1 h2 h3 _ _ _ h4
          simp only [h1, h2, h3, if_false, h4] at h
          exact absurd h (not_over_of (.inl rfl))

theorem endTask_main {s : DS} (hi : Inv s) (h : Nat) (t : Task) (r : Result) (res : Addr) (ho : Over (endTask s h t r res).1) :
    OnlyMain (endTask s h t r res).1 := by
  unfold endTask at ho ⊢
  cases ht : threadOf s h with
  | none => exact finish_main _ _
  | some th =>
    rw [ht] at ho
    simp only at ho ⊢
    cases hw : whyException t.parents r (filters s) with
    | none =>
      rw [hw] at ho
      exact endAfter_main hi.core _ _ ho
    | some e =>
      rw [hw] at ho
      simp only at ho ⊢
      split
      · exact finish_main _ _
      · rename_i f fs hf
        rw [hf] at ho
        simp only at ho ⊢
        split
        · exact finish_main _ _
        · rename_i fr hfr
          rw [hfr] at ho
          exact absurd ho (not_over_of (.inr ⟨th.id, .inr ⟨_, rfl⟩⟩))

theorem startTask_main {s : DS} (hi : Inv s) (hp : s.pc = .running) (h : Nat) (t : Task) (tv a : Addr) (c : Nat → Bool)
    (ho : Over (startTask s h t tv a c).1) : OnlyMain (startTask s h t tv a c).1 := by
  rcases start_spec hi hp h t tv a c with ⟨e, -, he⟩ | ⟨s1, th1, -, -, -, -, e4, -⟩
  · rw [he]; exact finish_main _ _
  · exfalso
    refine not_over_of ?_ ho
    split at e4
    · exact .inl e4
    · exact .inr ⟨_, .inl e4⟩

theorem main_step {s s' : DS} {l : Label} {o : List Out} (hi : Inv s) (h : step s l = some (s', o)) (hm : Over s → OnlyMain s)
    (ho : Over s') : OnlyMain s' := by
  cases l with
  | start host t tv a c =>
    simp only [step] at h
    split at h
    · rename_i hp
      rw [fst_eq h] at ho ⊢
      exact startTask_main hi hp host t tv a c ho
    · cases h
  | done host t r res =>
    simp only [step] at h
    split at h
    · rw [fst_eq h] at ho ⊢
      exact endTask_main hi host t r res ho
    · cases h
  | refresh =>
    simp only [step] at h
    split at h
    · rename_i hp
      rw [fst_eq h] at ho
      exact absurd ho (not_over_of (.inl hp))
    · cases h
  | newPlay =>
    simp only [step] at h
    split at h
    · rename_i hp
      rw [fst_eq h] at ho
      exact absurd ho (not_over_of (.inl hp))
    · cases h
  | reg p l ty =>
    simp only [step] at h
    split at h
    · rename_i hp
      rw [fst_eq h] at ho ⊢
      rcases registerLine_cases s p l ty with hr | ⟨e, -, hr⟩ <;> rw [hr] at ho ⊢
      · exact absurd ho (not_over_of (.inl hp))
      · exact finish_main _ _
    · cases h
  | env hp => cases h; exact hm ho
  | wake =>
    simp only [step] at h
    split at h
    · split at h
      · rw [fst_eq h]; exact finish_main _ _
      · split at h
        · cases h
        · split at h
          · rw [fst_eq h]; exact finish_main _ _
          · rw [fst_eq h] at ho; exact absurd ho (not_over_of (.inl rfl))
    · split at h
      · rw [fst_eq h]; exact finish_main _ _
      · split at h
        · cases h
        · rw [fst_eq h] at ho ⊢; exact endAfter_main hi.core _ _ ho
    · cases h
  | req r =>
    rw [fst_eq h] at ho ⊢
    have ho' : Over s := by
      unfold Over at ho ⊢
      rw [request_pc s hi r] at ho; exact ho
    intro k th hk
    have hv := view_request hi r k
    simp only [view, hk, Option.map_some] at hv
    cases hs : s.threads.get? k with
    | none => rw [hs] at hv; cases hv
    | some th' => exact hm ho' k th' hs

theorem main_run {s s' : DS} {ls : List Label} {o : List Out} (h : Run s ls s' o) (hi : Inv s) (hm : Over s → OnlyMain s)
    (ho : Over s') : OnlyMain s' := by
  induction h with
  | nil => exact hm ho
  | cons h1 _ ih => exact ih (inv_step hi h1) (fun h => main_step hi h1 hm h) ho

/-- The frames of a thread are numbered from new to old. -/
def Desc (s : DS) : Prop := ∀ k v, view s k = some v → (v.2.map (·.1)).Pairwise (· > ·)

theorem view_lt {s : DS} (c : s.core) {k : Nat} {v} (h : view s k = some v) : ∀ i ∈ v.2.map (·.1), i < s.nextF := by
  simp only [view] at h
  cases hg : s.threads.get? k with
  | none => rw [hg] at h; cases h
  | some th =>
    rw [hg] at h
    simp only [Option.map_some, Option.some.injEq] at h
    subst h
    intro i hi
    simp only [viewF, List.map_map, List.mem_map, Function.comp] at hi
    obtain ⟨f, hf, rfl⟩ := hi
    obtain ⟨fr, hfr⟩ := c.tf hg hf
    exact c.fid hfr

theorem main_desc {s : DS} (c : s.core) (h : OnlyMain s) : Desc s := by
  intro k v hv
  simp only [view] at hv
  cases hg : s.threads.get? k with
  | none => rw [hg] at hv; cases hv
  | some th =>
    have := h k th hg
    subst this
    obtain ⟨m, m1, -, m3⟩ := c.tmain
    rw [m1] at hg; cases hg
    rw [m1] at hv
    simp only [Option.map_some, Option.some.injEq, m3] at hv
    subst hv
    simp [viewF]

theorem synced_suffix (t : Task) (l : List (Nat × Option Task)) : (synced t l) <:+ l := by
  unfold synced
  split
  · exact List.suffix_refl _
  · split
    · exact List.suffix_refl _
    · exact List.suffix_cons _ _
    · split
      · exact List.suffix_refl _
      · exact List.suffix_cons _ _

theorem hostStack_view {s : DS} (c : s.core) (h : Nat) : hostStack s h = [] ∨ ∃ k, view s k = some (some h, hostStack s h) := by
  unfold hostStack
  cases ht : threadOf s h with
  | none => exact .inl rfl
  | some th =>
    obtain ⟨h1, h2⟩ := threadOf_some c ht
    right
    exact ⟨th.id, by simp [view, h2, h1]⟩

theorem desc_step {s s' : DS} {l : Label} {o : List Out} (hi : Inv s) (hd : Desc s) (h : step s l = some (s', o))
    (hm : Over s → OnlyMain s) : Desc s' := by
  by_cases ho : Over s'
  · exact main_desc (inv_step hi h).core (main_step hi h hm ho)
  · cases l with
    | start host t tv a c =>
      simp only [step] at h
      split at h
      · rename_i hp
        rw [fst_eq h] at ho ⊢
        obtain ⟨a1, a2, -⟩ := view_start hi hp host t tv a c ho
        intro k v hv
        by_cases hk : k = (hostThread s host).2.1.id
        · rw [hk, a2] at hv
          cases hv
          simp only [List.map_cons, List.pairwise_cons]
          have suf := (synced_suffix t (hostStack s host)).map (·.1)
          rcases hostStack_view hi.core host with e | ⟨j, e⟩
          · rw [e]; simp [synced]
          · refine ⟨fun i hi' => view_lt hi.core e i (suf.subset hi'), ?_⟩
            exact (hd j _ e).sublist suf.sublist
        · rw [a1 k hk] at hv
          exact hd k v hv
      · cases h
    | done host t r res =>
      simp only [step] at h
      split at h
      · rw [fst_eq h] at ho ⊢
        obtain ⟨th, b0, b1, b2, b3⟩ := view_end hi host t r res ho
        intro k v hv
        by_cases hk : k = th.id
        · subst hk
          rcases b3 with ⟨-, b3⟩ | ⟨-, b3⟩
          · rw [b3] at hv; exact hd _ v hv
          · rw [b3] at hv
            cases hv0 : view s th.id with
            | none => rw [hv0] at hv; cases hv
            | some w =>
              rw [hv0] at hv
              cases hv
              simp only
              split
              · exact hd _ w hv0
              · rw [List.map_tail]; exact (hd _ w hv0).tail
        · rw [b1 k hk] at hv
          exact hd k v hv
      · cases h
    | refresh =>
      simp only [step] at h
      split at h
      · rename_i hp
        refine main_desc (inv_step hi (l := .refresh) (by simp only [step, hp, if_true]; exact h)).core ?_
        rw [fst_eq h]
        exact finish_main s .running
      · cases h
    | newPlay =>
      simp only [step] at h
      split at h
      · rename_i hp
        refine main_desc (inv_step hi (l := .newPlay) (by simp only [step, hp, if_true]; exact h)).core ?_
        rw [fst_eq h]
        intro k th hk
        simp only [Dict.get?] at hk
        split at hk
        · rename_i e; simpa using Eq.symm e
        · cases hk
      · cases h
    | reg p l ty =>
      simp only [step] at h
      split at h
      · rw [fst_eq h] at ho ⊢
        rcases registerLine_cases s p l ty with hr | ⟨e, -, hr⟩ <;> rw [hr] at ho ⊢
        · exact hd
        · exact absurd (.inr ⟨_, rfl⟩) ho
      · cases h
    | env hp => cases h; exact hd
    | wake =>
      simp only [step] at h
      split at h
      · split at h
        · rw [fst_eq h] at ho; exact absurd (.inr ⟨_, rfl⟩) ho
        · split at h
          · cases h
          · split at h
            · rw [fst_eq h] at ho; exact absurd (.inl rfl) ho
            · rw [fst_eq h]; exact hd
      · split at h
        · rw [fst_eq h] at ho; exact absurd (.inr ⟨_, rfl⟩) ho
        · split at h
          · cases h
          · rename_i tid inc _ _ _ _ _
            rw [fst_eq h] at ho ⊢
            obtain ⟨b1, b2, -⟩ := view_endAfter hi.core _ _ ho
            intro k v hv
            by_cases hk : k = tid
            · subst hk
              rw [b2] at hv
              cases hv0 : view s k with
              | none => rw [hv0] at hv; cases hv
              | some w =>
                rw [hv0] at hv
                cases hv
                simp only
                split
                · exact hd _ w hv0
                · rw [List.map_tail]; exact (hd _ w hv0).tail
            · rw [b1 k hk] at hv
              exact hd k v hv
      · cases h
    | req r =>
      rw [fst_eq h]
      intro k v hv
      rw [view_request hi r k] at hv
      exact hd k v hv

theorem desc_run {s s' : DS} {ls : List Label} {o : List Out} (h : Run s ls s' o) (hi : Inv s) (hd : Desc s) (hm : Over s → OnlyMain s) : Desc s' := by
  induction h with
  | nil => exact hd
  | cons h1 _ ih => exact ih (inv_step hi h1) (desc_step hi hd h1 hm) (fun ho => main_step hi h1 hm ho)

theorem init_main : OnlyMain {} := by
  intro k th hk
  simp only [Dict.get?] at hk
  split at hk
  · rename_i e; simpa using Eq.symm e
  · cases hk

theorem reach_desc {s : DS} (h : Reachable s) : Desc s := by
  obtain ⟨ls, os, h⟩ := h
  exact desc_run h inv_init (main_desc core_init init_main) (fun _ => init_main)

theorem reach_main {s : DS} (h : Reachable s) (ho : Over s) : OnlyMain s := by
  obtain ⟨ls, os, h⟩ := h
  exact main_run h inv_init (fun _ => init_main) ho

end Verif.Strat
