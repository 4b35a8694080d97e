import Verif.Strat.Desc
/-!
# Where the frames come from, and when a task cannot begin

Every frame on the stack of a host is one of a task that began on it. And exactly when `start_task`
fails (/repo/src/ansibug/ansible_collections/ansibug/dap/plugins/strategy/debug.py:517-536).
-/

namespace Verif.Strat
open Verif

/-- Every frame of every host satisfies `P`. -/
def Frames (P : Nat → Option Task → Prop) (s : DS) : Prop := ∀ k h L, view s k = some (some h, L) → ∀ x ∈ L, P h x.2

theorem main_frames {P : Nat → Option Task → Prop} {s : DS} (c : s.core) (h : OnlyMain s) : Frames P s := by
  intro k hst L hv x hx
  simp only [view] at hv
  cases hg : s.threads.get? k with
  | none => rw [hg] at hv; cases hv
  | some th =>
    have := h k th hg
    subst this
    obtain ⟨m, m1, m2, m3⟩ := c.tmain
    rw [m1] at hv
    simp only [Option.map_some, Option.some.injEq, Prod.mk.injEq, m2] at hv
    exact absurd hv.1 (by simp)

theorem frames_step {P : Nat → Option Task → Prop} {s s' : DS} {l : Label} {o : List Out} (hi : Inv s) (hd : Frames P s) (h : step s l = some (s', o))
    (hm : Over s → OnlyMain s) (hl : ∀ host t tv a c, l = .start host t tv a c → P host (some t)) : Frames P s' := by
  by_cases ho : Over s'
  · exact main_frames (inv_step hi h).core (main_step hi h hm ho)
  · cases l with
    | start host t tv a c =>
      have hP := hl host t tv a c rfl
      simp only [step] at h
      split at h
      · rename_i hp
        rw [fst_eq h] at ho ⊢
        obtain ⟨a1, a2, -⟩ := view_start hi hp host t tv a c ho
        intro k hst L hv x hx
        by_cases hk : k = (hostThread s host).2.1.id
        · rw [hk, a2] at hv
          cases hv
          rcases List.mem_cons.1 hx with rfl | hx
          · exact hP
          · have hx := (synced_suffix t (hostStack s host)).subset hx
            rcases hostStack_view hi.core host with e | ⟨j, e⟩
            · rw [e] at hx; cases hx
            · exact hd j _ _ e x hx
        · rw [a1 k hk] at hv
          exact hd k _ _ hv x hx
      · cases h
    | done host t r res =>
      simp only [step] at h
      split at h
      · rw [fst_eq h] at ho ⊢
        obtain ⟨th, b0, b1, b2, b3⟩ := view_end hi host t r res ho
        intro k hst L hv x hx
        by_cases hk : k = th.id
        · subst hk
          rcases b3 with ⟨-, b3⟩ | ⟨-, b3⟩
          · rw [b3] at hv; exact hd _ _ _ hv x hx
          · rw [b3] at hv
            cases hv0 : view s th.id with
            | none => rw [hv0] at hv; cases hv
            | some w =>
              obtain ⟨w1, w2⟩ := w
              rw [hv0] at hv
              simp only [Option.map_some, Option.some.injEq, Prod.mk.injEq] at hv
              obtain ⟨rfl, rfl⟩ := hv
              refine hd _ _ _ hv0 x ?_
              split at hx
              · exact hx
              · exact List.mem_of_mem_tail hx
        · rw [b1 k hk] at hv
          exact hd k _ _ hv x hx
      · cases h
    | refresh =>
      simp only [step] at h
      split at h
      · rename_i hp
        refine main_frames (inv_step hi (l := .refresh) (by simp only [step, hp, if_true]; exact h)).core ?_
        rw [fst_eq h]
        exact finish_main s .running
      · cases h
    | newPlay =>
      simp only [step] at h
      split at h
      · rename_i hp
        refine main_frames (inv_step hi (l := .newPlay) (by simp only [step, hp, if_true]; exact h)).core ?_
        rw [fst_eq h]
        intro k th hk
        simp only [Dict.get?] at hk
        split at hk
        · rename_i e; simpa using Eq.symm e
        · cases hk
      · cases h
    | reg p l ty =>
      simp only [step] at h
      split at h
      · rw [fst_eq h] at ho ⊢
        rcases registerLine_cases s p l ty with hr | ⟨e, -, hr⟩ <;> rw [hr] at ho ⊢
        · exact hd
        · exact absurd (.inr ⟨_, rfl⟩) ho
      · cases h
    | env hp => cases h; exact hd
    | wake =>
      simp only [step] at h
      split at h
      · split at h
        · rw [fst_eq h] at ho; exact absurd (.inr ⟨_, rfl⟩) ho
        · split at h
          · cases h
          · split at h
            · rw [fst_eq h] at ho; exact absurd (.inl rfl) ho
            · rw [fst_eq h]; exact hd
      · split at h
        · rw [fst_eq h] at ho; exact absurd (.inr ⟨_, rfl⟩) ho
        · split at h
          · cases h
          · rename_i tid inc _ _ _ _ _
            rw [fst_eq h] at ho ⊢
            obtain ⟨b1, b2, -⟩ := view_endAfter hi.core _ _ ho
            intro k hst L hv x hx
            by_cases hk : k = tid
            · subst hk
              rw [b2] at hv
              cases hv0 : view s k with
              | none => rw [hv0] at hv; cases hv
              | some w =>
                obtain ⟨w1, w2⟩ := w
                rw [hv0] at hv
                simp only [Option.map_some, Option.some.injEq, Prod.mk.injEq] at hv
                obtain ⟨rfl, rfl⟩ := hv
                refine hd _ _ _ hv0 x ?_
                split at hx
                · exact hx
                · exact List.mem_of_mem_tail hx
            · rw [b1 k hk] at hv
              exact hd k _ _ hv x hx
      · cases h
    | req r =>
      rw [fst_eq h]
      intro k hst L hv x hx
      rw [view_request hi r k] at hv
      exact hd k _ _ hv x hx

/-- A task cannot begin on a host: the host has frames and the task stands in no block, or the
newest frame is one of an include_role and the task, though below a block or include, is in no role. -/
def CannotBegin (s : DS) (h : Nat) (t : Task) : Prop :=
  ∃ f top rest, hostStack s h = (f, some top) :: rest ∧
    (t.parents = [] ∨ (2 ≤ t.parents.length ∧ top.node.isRole = true ∧ t.inRole = false))

theorem sync_error_iff {s : DS} (c : s.core) {th : Thread} (ht : s.threads.get? th.id = some th) (t : Task) :
    (∃ e, syncFrames s th t = .error e) ↔ ∃ f top rest, viewF s.frames th.frames = (f, some top) :: rest ∧
      (t.parents = [] ∨ (2 ≤ t.parents.length ∧ top.node.isRole = true ∧ t.inRole = false)) := by
  unfold syncFrames
  cases hf : th.frames with
  | nil => simp [viewF]
  | cons f fs =>
    obtain ⟨fr, hfr⟩ := c.tf ht (f := f) (by rw [hf]; simp)
    obtain ⟨s', hpop, -⟩ := popFrame_ok c ht hf
    have hv : viewF s.frames (f :: fs) = (f, some fr.task) :: viewF s.frames fs := by simp [viewF, hfr]
    simp only [hv, List.cons.injEq, Prod.mk.injEq, Option.some.injEq]
    cases hp : t.parents with
    | nil => simp only; exact ⟨fun _ => ⟨f, fr.task, _, ⟨⟨rfl, rfl⟩, rfl⟩, .inl trivial⟩, fun _ => ⟨_, rfl⟩⟩
    | cons p ps =>
      simp only [hfr]
      by_cases hm : roleMissing fr ps t = true
      · rw [if_pos hm]
        refine ⟨fun _ => ⟨f, fr.task, _, ⟨⟨rfl, rfl⟩, rfl⟩, .inr ?_⟩, fun _ => ⟨_, rfl⟩⟩
        unfold roleMissing at hm
        cases ps with
        | nil => simp at hm
        | cons q qs => simp at hm; exact ⟨by simp, hm⟩
      · rw [if_neg hm]
        constructor
        · rintro ⟨e, he⟩
          exfalso
          cases ps with
          | nil => simp only at he; rw [hpop] at he; cases he
          | cons q qs =>
            simp only at he
            split at he
            · rw [hpop] at he; cases he
            · cases he
        · rintro ⟨f', top, rest, ⟨⟨-, rfl⟩, -⟩, h1 | ⟨h1, h2, h3⟩⟩
          · cases h1
          · exfalso; apply hm
            unfold roleMissing
            cases ps with
            | nil => simp at h1
            | cons q qs => simp [h2, h3]

theorem hostThread_stack (s : DS) (h : Nat) : viewF (hostThread s h).1.frames (hostThread s h).2.1.frames = hostStack s h := by
  unfold hostStack hostThread
  cases threadOf s h <;> rfl

theorem start_fails_iff {s s' : DS} (hi : Inv s) {h : Nat} {t : Task} {tv a : Addr} {c : Nat → Bool} {o : List Out}
    (hs : step s (.start h t tv a c) = some (s', o)) : Failed s' ↔ CannotBegin s h t := by
  obtain ⟨c1, h1, -, -⟩ := hostThread_spec hi.core h
  have hx := sync_error_iff c1 h1 t
  rw [hostThread_stack] at hx
  unfold CannotBegin
  rw [← hx]
  simp only [step] at hs
  split at hs
  · rename_i hr
    rw [fst_eq hs]
    rcases start_spec hi hr h t tv a c with ⟨e, he, hc⟩ | ⟨s1, th1, e1, -, -, -, e5, -⟩
    · rw [he, hc]; exact ⟨fun _ => ⟨e, rfl⟩, fun _ => ⟨e, rfl⟩⟩
    · rw [e1]
      constructor
      · rintro ⟨e, he⟩; rw [e5] at he; split at he <;> cases he
      · rintro ⟨e, he⟩; cases he
  · cases hs

/-- It fails with an AttributeError. -/
theorem sync_error_attr {s : DS} (c : s.core) {th : Thread} (ht : s.threads.get? th.id = some th) {t : Task} {e : PyErr}
    (h : syncFrames s th t = .error e) : e = .attribute := by
  unfold syncFrames at h
  cases hf : th.frames with
  | nil => rw [hf] at h; cases h
  | cons f fs =>
    rw [hf] at h
    obtain ⟨fr, hfr⟩ := c.tf ht (f := f) (by rw [hf]; simp)
    obtain ⟨s', hpop, -⟩ := popFrame_ok c ht hf
    simp only [hfr] at h
    split at h
    · cases h; rfl
    · split at h
      · cases h; rfl
      · split at h
        · rw [hpop] at h; cases h
        · split at h
          · rw [hpop] at h; cases h
          · cases h

end Verif.Strat
