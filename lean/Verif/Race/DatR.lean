import Verif.Race.Dat
/-! # Frames and variables: the invariant under the steps of requests -/

namespace Verif.Race

theorem addNext_rPend (f n : Nat) (got : List Nat) (sc : Bool) : rPend (addNext f n got sc) = none := by
  have := addNext_isAdd f n got sc
  cases h : addNext f n got sc <;> simp_all [isAdd, rPend]

theorem addNext_rFrame (f n : Nat) (got : List Nat) (sc : Bool) (g : Nat) (h : rFrame (addNext f n got sc) = some g) : g = f := by
  unfold addNext at h
  split at h
  · unfold added at h; split at h <;> simp [rFrame] at h
  · simp [rFrame] at h; exact h.symm

theorem addNext_addWrite (f n : Nat) (got : List Nat) (sc : Bool) (g v m : Nat) (got' : List Nat) (sc' : Bool) :
    addNext f n got sc ≠ .addWrite g v m got' sc' := by
  have := addNext_isAdd f n got sc
  intro h
  rw [h] at this
  cases this

theorem addNext_addList (f n : Nat) (got : List Nat) (sc : Bool) (g v m : Nat) (got' : List Nat) (sc' : Bool) :
    addNext f n got sc ≠ .addList g v m got' sc' := by
  have := addNext_isAdd f n got sc
  intro h
  rw [h] at this
  cases this

set_option maxHeartbeats 4000000 in
theorem dat_rstep {s s' : S} {o : List Obs} (hi : Dat s) (h : rstep false s = some (s', o)) : Dat s' := by
  unfold rstep at h
  split at h
  case h_1 => cases h
  all_goals rename_i hp
  all_goals (repeat' (split at h))
  all_goals first | (cases h; done) | skip
  all_goals simp only [Option.some.injEq, Prod.mk.injEq] at h
  all_goals obtain ⟨rfl, rfl⟩ := h
  all_goals try (refine dat_rplain hi ⟨rfl, rfl, rfl, rfl, rfl, rfl, rfl⟩ (.inl rfl) ?_ ?_ ?_ <;> first | rfl | (simp [rFrame]; done))
  case h_1 =>
    rename_i hq
    refine dat_rplain hi ⟨rfl, rfl, rfl, rfl, rfl, rfl, rfl⟩ (.inr ⟨_, _, _, hq, rfl⟩) rfl ?_ ?_ <;> simp [rFrame]
  case h_11.isTrue =>
    rename_i hq
    refine dat_rplain hi ⟨rfl, rfl, rfl, rfl, rfl, rfl, rfl⟩ (.inl rfl) rfl ?_ ?_
    · intro f h
      simp only [rFrame, Option.some.injEq] at h
      exact h ▸ hi.flt _ hq
    · simp
  case h_2 =>
    rename_i hq
    refine dat_rplain hi ⟨rfl, rfl, rfl, rfl, rfl, rfl, rfl⟩ (.inl rfl) (addNext_rPend _ _ _ _) ?_ (addNext_addWrite _ _ _ _)
    intro f h
    rw [addNext_rFrame _ _ _ _ _ h]
    exact (hi.vf _ _ hq).1
  case h_13.isTrue => rename_i hq; cases hq
  case h_14 => exact absurd hp (hi.rw _ _ _ _ _)
  all_goals obtain ⟨flt, sl, sn, sd, pl, pf, pn, f0, u1, u2, u3, al, dl, vf, pp, rp, pr, pv, rv, rf, rs, ps, v1, v0, pw, rw', cr⟩ := hi
  all_goals rw [hp] at rp pr rv rf
  all_goals simp only [rPend, rFrame] at rp pr rf
  all_goals constructor
  all_goals try assumption
  all_goals try simp only [addNext_rPend]
  all_goals try (grind [rPend, rFrame, upd, addNext_rPend, addNext_rFrame, addNext_addWrite, addNext_addList])
  case h_15.pv =>
    rename_i f v n got sc
    intro t g w i h
    rw [upd_other _ _ _ _ (pr w g v f (by rw [h]; rfl) rfl)]
    exact pv t g w i h
  case h_16.dl =>
    rename_i f v n got sc
    intro t g i k h
    obtain ⟨a, b, c⟩ := dl t g i k h
    refine ⟨a, b, ?_⟩
    intro j w hj hw
    unfold upd at hw
    split at hw
    · rename_i e
      subst e
      rw [List.getElem?_append] at hw
      split at hw
      · exact c j w hj hw
      · have := List.mem_of_getElem? hw
        simp only [List.mem_singleton] at this
        subst this
        exact rv _ _ _ _ _ rfl
    · exact c j w hj hw

theorem dat_step {s s' : S} {o : List Obs} {l : Lbl} (hi : Dat s) (h : step false s l = some (s', o)) : Dat s' := by
  cases l with
  | play b => exact dat_pstep hi h
  | go => exact dat_rstep hi h
  | req q =>
    simp only [step] at h
    split at h
    · simp only [Option.some.injEq, Prod.mk.injEq] at h
      obtain ⟨rfl, rfl⟩ := h
      refine dat_rplain hi ⟨rfl, rfl, rfl, rfl, rfl, rfl, rfl⟩ (.inl rfl) ?_ ?_ ?_ <;> cases q <;> simp [startReq, rPend, rFrame]
    · cases h
  | _ =>
    simp only [step] at h
    (repeat' (split at h))
    all_goals first | (cases h; done) | skip
    all_goals simp only [Option.some.injEq, Prod.mk.injEq] at h
    all_goals obtain ⟨rfl, rfl⟩ := h
    all_goals refine dat_plain hi ⟨rfl, rfl, rfl, rfl, rfl, rfl, rfl⟩ rfl rfl ?_ ?_ <;> simp_all [pNeeds, crashErr, leave]

/-- A property of states kept by every step holds after every execution. -/
theorem run_keeps {fine : Bool} {I : S → Prop} (hk : ∀ s s' o l, I s → step fine s l = some (s', o) → I s') :
    ∀ (ls : List Lbl) (s s' : S) (O : List Obs), I s → run fine s ls = some (s', O) → I s'
  | [], s, s', O, hi, h => by
    simp only [run, Option.some.injEq, Prod.mk.injEq] at h
    exact h.1 ▸ hi
  | l :: ls, s, s', O, hi, h => by
    simp only [run] at h
    split at h
    · cases h
    · rename_i s1 o1 h1
      split at h
      · cases h
      · rename_i s2 o2 h2
        simp only [Option.some.injEq, Prod.mk.injEq] at h
        obtain ⟨rfl, rfl⟩ := h
        exact run_keeps hk ls s1 _ _ (hk _ _ _ _ hi h1) h2

theorem reach_ctl {fine : Bool} {s : S} (h : Reachable fine s) : Ctl s := by
  obtain ⟨ls, O, h⟩ := h
  exact run_keeps (fun _ _ _ _ hi h => ctl_step hi h) ls _ _ _ ctl_start h

theorem reach_dat {s : S} (h : Reachable false s) : Dat s := by
  obtain ⟨ls, O, h⟩ := h
  exact run_keeps (fun _ _ _ _ hi h => dat_step hi h) ls _ _ _ dat_start h

theorem run_append {fine : Bool} : ∀ (ls ls' : List Lbl) (s s1 s2 : S) (O O' : List Obs), run fine s ls = some (s1, O) →
    run fine s1 ls' = some (s2, O') → run fine s (ls ++ ls') = some (s2, O ++ O')
  | [], ls', s, s1, s2, O, O', h, h' => by
    simp only [run, Option.some.injEq, Prod.mk.injEq] at h
    obtain ⟨rfl, rfl⟩ := h
    exact h'
  | l :: ls, ls', s, s1, s2, O, O', h, h' => by
    simp only [run] at h
    split at h
    · cases h
    · rename_i sa oa ha
      split at h
      · cases h
      · rename_i sb ob hb
        simp only [Option.some.injEq, Prod.mk.injEq] at h
        obtain ⟨rfl, rfl⟩ := h
        simp only [List.cons_append, run, ha, run_append ls ls' sa _ s2 _ O' hb h', List.append_assoc]

theorem reach_run {fine : Bool} {s s' : S} {ls : List Lbl} {O : List Obs} (h : Reachable fine s) (h' : run fine s ls = some (s', O)) :
    Reachable fine s' := by
  obtain ⟨ks, O1, h⟩ := h
  exact ⟨ks ++ ls, O1 ++ O, run_append _ _ _ _ _ _ _ h h'⟩

end Verif.Race
