import Verif.Strat.Nested
/-!
# Ids of frames and variables over histories
-/

namespace Verif.Strat
open Verif

/-- What a frame id denotes. -/
def frameTask (s : DS) (f : Nat) : Option (Task × Addr × Addr) := (s.frames.get? f).map fun r => (r.task, r.taskVars, r.args)

/-- Ids keep their meaning or lose it for good. -/
structure Mono (s s' : DS) : Prop where
  nv : s.nextV ≤ s'.nextV
  nf : s.nextF ≤ s'.nextF
  var : ∀ v, v < s.nextV → s'.vars.get? v = s.vars.get? v ∨ s'.vars.get? v = none
  fra : ∀ f, f < s.nextF → frameTask s' f = frameTask s f ∨ frameTask s' f = none

theorem Mono.refl (s : DS) : Mono s s := ⟨Nat.le_refl _, Nat.le_refl _, fun _ _ => .inl rfl, fun _ _ => .inl rfl⟩

theorem Mono.trans {a b c : DS} (h : Mono a b) (g : Mono b c) : Mono a c := by
  refine ⟨Nat.le_trans h.nv g.nv, Nat.le_trans h.nf g.nf, ?_, ?_⟩
  · intro v hv
    rcases g.var v (Nat.lt_of_lt_of_le hv h.nv) with e | e
    · rw [e]; exact h.var v hv
    · exact .inr e
  · intro f hf
    rcases g.fra f (Nat.lt_of_lt_of_le hf h.nf) with e | e
    · rw [e]; exact h.fra f hf
    · exact .inr e

theorem ext_mono {s s' : DS} (c : s.core) (e : VarExt s s') : Mono s s' := by
  refine ⟨e.nv, Nat.le_of_eq e.nf.symm, ?_, fun f _ => .inl (e.frames f)⟩
  intro v hv
  cases h : s.vars.get? v with
  | some x => exact .inl (e.vars h hv)
  | none =>
    cases h' : s'.vars.get? v with
    | none => exact .inl rfl
    | some x =>
      rcases e.new h' with g | g
      · rw [h] at g; cases g
      · omega

theorem pop_mono {s s' : DS} (c : s.core) {th th' : Thread} (ht : s.threads.get? th.id = some th) (h : popFrame s th = .ok (s', th')) : Mono s s' := by
  cases hf : th.frames with
  | nil => simp [popFrame, hf] at h
  | cons f fs =>
    obtain ⟨s1, g0, -, -, g3, g4, -, g6, g7, -⟩ := popFrame_ok c ht hf
    rw [h] at g0; cases g0
    refine ⟨Nat.le_of_eq g7.symm, Nat.le_of_eq g6.symm, ?_, ?_⟩
    · intro v _
      rw [g4 v]
      split
      · split
        · exact .inr rfl
        · exact .inl rfl
      · exact .inl rfl
    · intro f' _
      simp only [frameTask, g3, DL.get_erase]
      split
      · exact .inr rfl
      · exact .inl rfl

theorem push_mono (s : DS) (th : Thread) (t : Task) (a b : Addr) : Mono s (pushFrame s th t a b).1 := by
  refine ⟨Nat.le_refl _, Nat.le_succ _, fun _ _ => .inl rfl, ?_⟩
  intro f hf
  left
  simp only [frameTask, pushFrame, DL.get_set]
  rw [if_neg (by omega)]

/-- Same tables of frames and variables. -/
theorem same_mono {s s' : DS} (h1 : s'.frames = s.frames) (h2 : s'.vars = s.vars) (h3 : s'.nextF = s.nextF) (h4 : s'.nextV = s.nextV) : Mono s s' :=
  ⟨Nat.le_of_eq h4.symm, Nat.le_of_eq h3.symm, fun _ _ => .inl (by rw [h2]), fun _ _ => .inl (by simp only [frameTask, h1])⟩

theorem start_mono {s : DS} (hi : Inv s) (h : Nat) (t : Task) (tv a : Addr) (cond : Nat → Bool) : Mono s (startTask s h t tv a cond).1 := by
  obtain ⟨c1, h1, h2, h3⟩ := hostThread_spec hi.core h
  rw [startTask_eq]
  have m0 : Mono s (hostThread s h).1 := by
    unfold hostThread
    split
    · exact Mono.refl s
    · exact same_mono rfl rfl rfl rfl
  cases hs : syncFrames (hostThread s h).1 (hostThread s h).2.1 t with
  | error e => exact m0.trans (same_mono rfl rfl rfl rfl)
  | ok p =>
    obtain ⟨s', th'⟩ := p
    have m1 : Mono (hostThread s h).1 s' := by
      rcases syncFrames_cases c1 h1 t with ⟨e, he⟩ | he | ⟨f, fs, hf, s1, g1, he⟩
      · rw [hs] at he; cases he
      · rw [hs] at he; cases he; exact Mono.refl _
      · rw [hs] at he; cases he; exact pop_mono c1 h1 g1
    have m2 := push_mono s' th' t tv a
    have m3 : Mono (pushFrame s' th' t tv a).1 (decideStop (pushFrame s' th' t tv a).1 (pushFrame s' th' t tv a).2 t cond).1 := by
      unfold decideStop
      split
      · exact Mono.refl _
      · split
        · exact Mono.refl _
        · exact same_mono rfl rfl rfl rfl
    exact m0.trans (m1.trans (m2.trans m3))

theorem endAfter_mono {s : DS} (c : s.core) (tid : Nat) (inc : Bool) : Mono s (endAfter s tid inc).1 := by
  unfold endAfter
  split
  · exact same_mono rfl rfl rfl rfl
  · rename_i th ht
    split
    · exact same_mono rfl rfl rfl rfl
    · split
      · exact same_mono rfl rfl rfl rfl
      · split
        · exact same_mono rfl rfl rfl rfl
        · rename_i s' th' hp
          exact (pop_mono c (by rw [(c.tid ht).1]; exact ht) hp).trans (same_mono rfl rfl rfl rfl)

theorem end_mono {s : DS} (hi : Inv s) (h : Nat) (t : Task) (r : Result) (res : Addr) : Mono s (endTask s h t r res).1 := by
  unfold endTask
  split
  · exact same_mono rfl rfl rfl rfl
  · rename_i th hth
    split
    · exact endAfter_mono hi.core _ _
    · split
      · exact same_mono rfl rfl rfl rfl
      · rename_i f fs hf
        obtain ⟨h1, h2⟩ := threadOf_some hi.core hth
        obtain ⟨fr, hfr⟩ := hi.core.tf h2 (f := f) (by rw [hf]; simp)
        simp only [hfr]
        have kk := afterException_keeps th t.parents r (filters s)
        have c1 : ({ s with threads := s.threads.set th.id (afterException th t.parents r (filters s)) } : DS).core :=
          Core.setCtl hi.core h2 kk.1 kk.2.1 kk.2.2
        have ev := addVar_variables { s with threads := s.threads.set th.id (afterException th t.parents r (filters s)) } hfr (kindOf s.heap res) res
        have ex := addUpd_ext { s with threads := s.threads.set th.id (afterException th t.parents r (filters s)) } hfr (kindOf s.heap res) res
            (fun r => { r with resultId := s.nextV }) (fun r => ⟨rfl, rfl, rfl, rfl⟩)
            (fun r i hi => by rcases hi with h | h | h | h <;> simp_all)
        simp only [updFrame, ev] at ex
        simp only [ev]
        exact (same_mono (s := s) (s' := { s with threads := s.threads.set th.id (afterException th t.parents r (filters s)) }) rfl rfl rfl rfl).trans
          ((ext_mono c1 ex).trans (same_mono rfl rfl rfl rfl))

theorem mono_step {s s' : DS} {l : Label} {o : List Out} (hi : Inv s) (h : step s l = some (s', o)) : Mono s s' := by
  cases l with
  | start host t tv a c =>
    simp only [step] at h
    split at h
    · rw [fst_eq h]; exact start_mono hi host t tv a c
    · cases h
  | done host t r res =>
    simp only [step] at h
    split at h
    · rw [fst_eq h]; exact end_mono hi host t r res
    · cases h
  | refresh =>
    simp only [step] at h
    split at h
    · rw [fst_eq h]; exact same_mono rfl rfl rfl rfl
    · cases h
  | newPlay =>
    simp only [step] at h
    split at h
    · rw [fst_eq h]; exact ⟨Nat.le_refl _, Nat.le_refl _, fun _ _ => .inr rfl, fun _ _ => .inr rfl⟩
    · cases h
  | reg p l ty =>
    simp only [step] at h
    split at h
    · rw [fst_eq h]
      rcases registerLine_cases s p l ty with hr | ⟨e, -, hr⟩ <;> rw [hr] <;> exact same_mono rfl rfl rfl rfl
    · cases h
  | env hp => cases h; exact same_mono rfl rfl rfl rfl
  | wake =>
    simp only [step] at h
    split at h
    · split at h
      · rw [fst_eq h]; exact same_mono rfl rfl rfl rfl
      · split at h
        · cases h
        · split at h
          · rw [fst_eq h]; exact same_mono rfl rfl rfl rfl
          · rw [fst_eq h]; exact same_mono rfl rfl rfl rfl
    · split at h
      · rw [fst_eq h]; exact same_mono rfl rfl rfl rfl
      · split at h
        · cases h
        · rw [fst_eq h]; exact endAfter_mono hi.core _ _
    · cases h
  | req r =>
    rw [fst_eq h]
    cases r with
    | cont t single => cases single <;> exact same_mono rfl rfl rfl rfl
    | scopes f a g => exact ext_mono hi.core (getScopes_ext s f a g)
    | variables r => exact ext_mono hi.core (getVariables_ext hi.core r)
    | setVariable r n t => exact ext_mono hi.core (setVariable_ext hi.core r n t)
    | evaluate f e => exact ext_mono hi.core (evaluate_ext s f e)
    | closed => simp only [request]; split <;> exact same_mono rfl rfl rfl rfl
    | _ => exact same_mono rfl rfl rfl rfl

theorem mono_run {s s' : DS} {ls : List Label} {o : List Out} (h : Run s ls s' o) (hi : Inv s) : Mono s s' := by
  induction h with
  | nil => exact Mono.refl _
  | cons h1 _ ih => exact (mono_step hi h1).trans (ih (inv_step hi h1))

end Verif.Strat
