import Verif.Strat.Mono
/-!
# Thread events
-/

namespace Verif.Strat
open Verif

/-- The events about threads coming and going. -/
def isEvent : Out → Bool
  | .started _ => true
  | .exited _ => true
  | _ => false

/-- The ids of the threads there are. -/
def DS.keys (s : DS) : List Nat := s.threads.map (·.1)

/-- What a step does to the threads: perhaps a new one comes, perhaps then all but thread 1 go. -/
def Thr (s s' : DS) (o : List Out) : Prop :=
  ∃ b1 b2 : Bool,
    s'.keys = (bif b2 then [1] else bif b1 then s.keys ++ [s.nextT] else s.keys) ∧
    o.filter isEvent = (bif b1 then [.started s.nextT] else []) ++
      (bif b2 then (((bif b1 then s.keys ++ [s.nextT] else s.keys).filter fun t => decide (t ≠ 1)).map Out.exited) else []) ∧
    s'.nextT = s.nextT + (bif b1 then 1 else 0)

theorem Thr.same {s s' : DS} {o : List Out} (h1 : s'.keys = s.keys) (h2 : o.filter isEvent = []) (h3 : s'.nextT = s.nextT) : Thr s s' o :=
  ⟨false, false, h1, h2, h3⟩

theorem exit_keys {s : DS} (c : s.core) : (exitThreads s).1.keys = [1] := by
  have h1 := c.tnd
  obtain ⟨th, h, -⟩ := c.tmain
  have hm : 1 ∈ s.threads.map (·.1) := DL.get_some_key.1 ⟨th, h⟩
  have : (exitThreads s).1.keys = (s.threads.map (·.1)).filter fun k => decide (k = 1) := by
    simp only [DS.keys, exitThreads]
    rw [List.filter_map]; rfl
  rw [this]
  clear this h c
  generalize s.threads.map (·.1) = l at h1 hm
  induction l with
  | nil => cases hm
  | cons a l ih =>
    rw [List.nodup_cons] at h1
    by_cases ha : a = 1
    · subst ha
      rw [List.filter_cons_of_pos (by simp)]
      congr
      rw [List.filter_eq_nil_iff]
      intro x hx hd
      have : x = 1 := by simpa using hd
      subst this; exact h1.1 hx
    · rw [List.filter_cons_of_neg (by simpa using ha)]
      exact ih h1.2 (by rcases List.mem_cons.1 hm with e | e; exact absurd e.symm ha; exact e)

theorem exit_events (s : DS) : (exitThreads s).2.filter isEvent = ((s.keys.filter fun t => decide (t ≠ 1)).map Out.exited) := by
  rw [List.filter_eq_self.2]
  · rfl
  · intro x hx
    simp only [exitThreads, List.mem_map] at hx
    obtain ⟨t, -, rfl⟩ := hx
    rfl

theorem Thr.exit {s s0 : DS} (c : s.core) (o : List Out) (h1 : s.keys = s0.keys) (h2 : o.filter isEvent = []) (h3 : s.nextT = s0.nextT) :
    Thr s0 (exitThreads s).1 (o ++ (exitThreads s).2) := by
  refine ⟨false, true, exit_keys c, ?_, h3⟩
  rw [List.filter_append, h2, exit_events, h1]
  rfl

theorem keys_set {s : DS} {k : Nat} {th th' : Thread} (h : s.threads.get? k = some th) : (s.threads.set k th').map (·.1) = s.keys := by
  rw [DL.keys_set, if_pos (DL.get_some_key.1 ⟨th, h⟩)]; rfl

theorem pop_keys {s s' : DS} (c : s.core) {th th' : Thread} (ht : s.threads.get? th.id = some th) (h : popFrame s th = .ok (s', th')) :
    s'.keys = s.keys ∧ s'.nextT = s.nextT := by
  cases hf : th.frames with
  | nil => simp [popFrame, hf] at h
  | cons f fs =>
    obtain ⟨s1, g0, -, g2, -, -, g5, -⟩ := popFrame_ok c ht hf
    rw [h] at g0; cases g0
    refine ⟨?_, g5⟩
    simp only [DS.keys, g2]
    exact keys_set ht

theorem decide_ev (s : DS) (th : Thread) (t : Task) (c : Nat → Bool) (h : s.threads.get? th.id = some th) :
    (decideStop s th t c).1.keys = s.keys ∧ (decideStop s th t c).2.filter isEvent = [] ∧ (decideStop s th t c).1.nextT = s.nextT := by
  unfold decideStop
  split
  · exact ⟨rfl, rfl, rfl⟩
  · split
    · exact ⟨rfl, rfl, rfl⟩
    · exact ⟨keys_set h, rfl, rfl⟩

theorem start_thr {s : DS} (hi : Inv s) (h : Nat) (t : Task) (tv a : Addr) (cond : Nat → Bool) :
    Thr s (startTask s h t tv a cond).1 (startTask s h t tv a cond).2 := by
  obtain ⟨c1, h1, h2, h3⟩ := hostThread_spec hi.core h
  have k0 : ∃ b : Bool, (hostThread s h).1.keys = (bif b then s.keys ++ [s.nextT] else s.keys) ∧
      (hostThread s h).2.2.filter isEvent = (bif b then [.started s.nextT] else []) ∧
      (hostThread s h).1.nextT = s.nextT + (bif b then 1 else 0) := by
    unfold hostThread
    split
    · exact ⟨false, rfl, rfl, rfl⟩
    · refine ⟨true, ?_, rfl, rfl⟩
      simp only [addThread, DS.keys]
      rw [DL.keys_set, if_neg]
      · rfl
      · intro hm
        obtain ⟨th, ht⟩ := DL.get_some_key.2 hm
        have := (hi.core.tid ht).2
        omega
  obtain ⟨b, k1, k2, k3⟩ := k0
  rw [startTask_eq]
  cases hs : syncFrames (hostThread s h).1 (hostThread s h).2.1 t with
  | error e =>
    refine ⟨b, true, ?_, ?_, ?_⟩
    · exact exit_keys c1
    · simp only [crash, finish]
      rw [List.filter_append, k2, exit_events, k1]; rfl
    · exact k3
  | ok p =>
    obtain ⟨s', th'⟩ := p
    have m1 : s'.keys = (hostThread s h).1.keys ∧ s'.nextT = (hostThread s h).1.nextT := by
      rcases syncFrames_cases c1 h1 t with ⟨e, he⟩ | he | ⟨f, fs, hf, s1, g1, he⟩
      · rw [hs] at he; cases he
      · rw [hs] at he; cases he; exact ⟨rfl, rfl⟩
      · rw [hs] at he; cases he; exact pop_keys c1 h1 g1
    have m0 : s'.threads.get? th'.id = some th' := by
      have := (sync_ok c1 h1 hs).2.1
      rwa [(sync_ok c1 h1 hs).2.2.1]
    have m2 : (pushFrame s' th' t tv a).1.keys = s'.keys := keys_set m0
    obtain ⟨d1, d2, d3⟩ := decide_ev (pushFrame s' th' t tv a).1 (pushFrame s' th' t tv a).2 t cond (pushFrame_get s' th' t tv a)
    refine ⟨b, false, ?_, ?_, ?_⟩
    · show (decideStop _ _ _ _).1.keys = _
      rw [d1, m2, m1.1, k1]; rfl
    · rw [List.filter_append, d2, k2]; rfl
    · show (decideStop _ _ _ _).1.nextT = _
      rw [d3]; show s'.nextT = _; rw [m1.2, k3]

theorem endAfter_thr {s s0 : DS} (c : s.core) (tid : Nat) (inc : Bool) (h1 : s.keys = s0.keys) (h3 : s.nextT = s0.nextT) :
    Thr s0 (endAfter s tid inc).1 (endAfter s tid inc).2 := by
  unfold endAfter
  split
  · exact Thr.exit (s0 := s0) c [] h1 rfl h3
  · rename_i th ht
    split
    · exact Thr.exit (s0 := s0) c [] h1 rfl h3
    · split
      · exact Thr.same h1 rfl h3
      · split
        · exact Thr.exit (s0 := s0) c [] h1 rfl h3
        · rename_i s' th' hp
          obtain ⟨p1, p2⟩ := pop_keys c (by rw [(c.tid ht).1]; exact ht) hp
          exact Thr.same (p1.trans h1) rfl (p2.trans h3)

theorem end_thr {s : DS} (hi : Inv s) (h : Nat) (t : Task) (r : Result) (res : Addr) :
    Thr s (endTask s h t r res).1 (endTask s h t r res).2 := by
  unfold endTask
  split
  · exact Thr.exit (s0 := s) hi.core [] rfl rfl rfl
  · rename_i th hth
    split
    · exact endAfter_thr hi.core _ _ rfl rfl
    · obtain ⟨h1, h2⟩ := threadOf_some hi.core hth
      have kk := afterException_keeps th t.parents r (filters s)
      have c1 : ({ s with threads := s.threads.set th.id (afterException th t.parents r (filters s)) } : DS).core :=
        Core.setCtl hi.core h2 kk.1 kk.2.1 kk.2.2
      have hk : ({ s with threads := s.threads.set th.id (afterException th t.parents r (filters s)) } : DS).keys = s.keys := keys_set h2
      split
      · exact Thr.exit (s0 := s) c1 [] hk rfl rfl
      · simp only
        split
        · exact Thr.exit (s0 := s) c1 [] hk rfl rfl
        · exact Thr.same hk rfl rfl

theorem bp_events (l : List Bp.Out) : (l.map Out.bp).filter isEvent = [] := by
  rw [List.filter_eq_nil_iff]
  intro x hx
  obtain ⟨y, -, rfl⟩ := List.mem_map.1 hx
  simp [isEvent]

theorem ext_keys {s s' : DS} (e : VarExt s s') : s'.keys = s.keys ∧ s'.nextT = s.nextT := ⟨by simp only [DS.keys, e.thr], e.nt⟩

theorem listVars_ev (s : DS) (r : Nat) : (getVariables s r).2.filter isEvent = [] := by
  unfold getVariables
  split <;> rfl

theorem setAll_ev (n : Str) (x : Val) (is : List Nat) : ∀ s : DS, (setAll s n x is).2.filter isEvent = [] := by
  induction is with
  | nil => intro s; rfl
  | cons i is ih =>
    intro s
    unfold setAll
    split
    · rfl
    · simp only
      split
      · rfl
      · exact ih _

theorem resume_thr (s : DS) (ts : List Nat) (st : TState) (o : Out) (h : isEvent o = false) : Thr s (resumeReq s ts st o).1 (resumeReq s ts st o).2 := by
  refine Thr.same ?_ ?_ rfl
  · simp only [DS.keys, resumeReq]; exact resume_keys st ts s.threads
  · simp only [resumeReq]
    split
    · simp [h]
    · rfl

theorem request_thr {s : DS} (hi : Inv s) (r : Req) : Thr s (request s r).1 (request s r).2 := by
  cases r with
  | cont t single => cases single <;> exact resume_thr _ _ _ _ rfl
  | stepIn t => exact resume_thr _ _ _ _ rfl
  | stepOut t => exact resume_thr _ _ _ _ rfl
  | next t => exact resume_thr _ _ _ _ rfl
  | stackTrace t =>
    refine Thr.same rfl ?_ rfl
    simp only [request, stackTrace]
    split
    · rfl
    · split <;> rfl
  | threads => exact Thr.same rfl rfl rfl
  | disconnect t => exact Thr.same (by simp only [DS.keys, request, disconnect]; exact resume_keys _ _ s.threads) rfl rfl
  | terminate => exact Thr.same (by simp only [DS.keys, request, disconnect]; exact resume_keys _ _ s.threads) rfl rfl
  | closed =>
    simp only [request]
    split
    · exact Thr.same rfl rfl rfl
    · exact Thr.same (by simp only [DS.keys, disconnect]; exact resume_keys _ _ s.threads) rfl rfl
  | setBps a b c d => exact Thr.same rfl (bp_events _) rfl
  | setExc a b => exact Thr.same rfl (bp_events _) rfl
  | config a => exact Thr.same rfl (bp_events _) rfl
  | scopes f a hv =>
    obtain ⟨h1, h2⟩ := ext_keys (getScopes_ext s f a hv)
    refine Thr.same h1 ?_ h2
    simp only [request, getScopes]
    split
    · rfl
    · split
      · rfl
      · split
        · rfl
        · split <;> rfl
  | variables r =>
    obtain ⟨h1, h2⟩ := ext_keys (getVariables_ext hi.core r)
    exact Thr.same h1 (listVars_ev s r) h2
  | setVariable r n t =>
    obtain ⟨h1, h2⟩ := ext_keys (setVariable_ext hi.core r n t)
    refine Thr.same h1 ?_ h2
    simp only [request, setVariable]
    split
    · rfl
    · split
      · rfl
      · split
        · rfl
        · split <;> rfl
  | evaluate f e =>
    obtain ⟨h1, h2⟩ := ext_keys (evaluate_ext s f e)
    refine Thr.same h1 ?_ h2
    simp only [request, evaluate]
    split
    · rfl
    · split
      · rfl
      · rfl
      · split
        · rfl
        · split <;> rfl
      · split
        · rfl
        · exact setAll_ev _ _ _ _
      · split
        · rfl
        · exact setAll_ev _ _ _ _

theorem step_thr {s s' : DS} {l : Label} {o : List Out} (hi : Inv s) (h : step s l = some (s', o)) : Thr s s' o := by
  cases l with
  | start host t tv a c =>
    simp only [step] at h
    split at h
    · rw [fst_eq h, snd_eq h]; exact start_thr hi host t tv a c
    · cases h
  | done host t r res =>
    simp only [step] at h
    split at h
    · rw [fst_eq h, snd_eq h]; exact end_thr hi host t r res
    · cases h
  | refresh =>
    simp only [step] at h
    split at h
    · rw [fst_eq h, snd_eq h]; exact Thr.exit (s0 := s) hi.core [] rfl rfl rfl
    · cases h
  | newPlay =>
    simp only [step] at h
    split at h
    · rw [fst_eq h, snd_eq h]
      exact ⟨false, true, rfl, exit_events s, rfl⟩
    · cases h
  | reg p l ty =>
    simp only [step] at h
    split at h
    · rw [fst_eq h, snd_eq h]
      rcases registerLine_cases s p l ty with hr | ⟨e, -, hr⟩ <;> rw [hr]
      · exact Thr.same rfl (bp_events _) rfl
      · exact Thr.exit (s := (bpStep s (.reg p l ty)).1) (s0 := s) hi.core _ rfl (bp_events _) rfl
    · cases h
  | env hp => cases h; exact Thr.same rfl rfl rfl
  | wake =>
    simp only [step] at h
    split at h
    · split at h
      · rw [fst_eq h, snd_eq h]; exact Thr.exit (s0 := s) hi.core [] rfl rfl rfl
      · split at h
        · cases h
        · split at h
          · rw [fst_eq h, snd_eq h]; exact Thr.exit (s0 := s) hi.core [] rfl rfl rfl
          · rw [fst_eq h, snd_eq h]; exact Thr.same rfl rfl rfl
    · split at h
      · rw [fst_eq h, snd_eq h]; exact Thr.exit (s0 := s) hi.core [] rfl rfl rfl
      · split at h
        · cases h
        · rw [fst_eq h, snd_eq h]; exact endAfter_thr hi.core _ _ rfl rfl
    · cases h
  | req r => rw [fst_eq h, snd_eq h]; exact request_thr hi r

/-! ## Histories -/

/-- The thread a started event is about. -/
def startId : Out → Option Nat
  | .started t => some t
  | _ => none

/-- The thread an exited event is about. -/
def exitId : Out → Option Nat
  | .exited t => some t
  | _ => none

theorem fm_start (o : List Out) : o.filterMap startId = (o.filter isEvent).filterMap startId := by
  rw [List.filterMap_filter]
  congr
  funext x
  cases x <;> rfl

theorem fm_exit (o : List Out) : o.filterMap exitId = (o.filter isEvent).filterMap exitId := by
  rw [List.filterMap_filter]
  congr
  funext x
  cases x <;> rfl

theorem fm_exited (l : List Nat) : (l.map Out.exited).filterMap exitId = l ∧ (l.map Out.exited).filterMap startId = [] := by
  constructor
  · induction l with
    | nil => rfl
    | cons a l ih => rw [List.map_cons, List.filterMap_cons_some (f := exitId) (a := Out.exited a) (b := a) rfl, ih]
  · induction l with
    | nil => rfl
    | cons a l ih => rw [List.map_cons, List.filterMap_cons_none rfl, ih]

/-- The threads there are, but thread 1. -/
def DS.hostThreads (s : DS) : List Nat := s.keys.filter fun t => decide (t ≠ 1)

/-- The events so far fit the threads there are. -/
structure Paired (os : List Out) (s : DS) : Prop where
  inc : (os.filterMap startId).Pairwise (· < ·)
  bd : ∀ t ∈ os.filterMap startId, 2 ≤ t ∧ t < s.nextT
  perm : (os.filterMap startId).Perm (os.filterMap exitId ++ s.hostThreads)
  order : ∀ a b t, os = a ++ Out.exited t :: b → Out.started t ∈ a

theorem mem_starts {os : List Out} {t : Nat} : t ∈ os.filterMap startId ↔ Out.started t ∈ os := by
  rw [List.mem_filterMap]
  constructor
  · rintro ⟨x, hx, h⟩
    cases x <;> simp [startId] at h
    subst h; exact hx
  · intro h; exact ⟨_, h, rfl⟩

theorem paired_step {s s' : DS} {l : Label} {o os : List Out} (hi : Inv s) (hp : Paired os s) (h : step s l = some (s', o)) :
    Paired (os ++ o) s' := by
  obtain ⟨b1, b2, k, e, n⟩ := step_thr hi h
  have h2 := hi.core.t2
  have hst : o.filterMap startId = bif b1 then [s.nextT] else [] := by
    rw [fm_start, e]
    cases b1 <;> cases b2
    · rfl
    · simp only [cond_true, cond_false, List.nil_append, (fm_exited _).2]
    · rfl
    · simp only [cond_true, List.cons_append, List.nil_append]
      rw [List.filterMap_cons_some (f := startId) (a := Out.started s.nextT) (b := s.nextT) rfl, (fm_exited _).2]
  have hex : o.filterMap exitId = bif b2 then (bif b1 then s.keys ++ [s.nextT] else s.keys).filter (fun t => decide (t ≠ 1)) else [] := by
    rw [fm_exit, e]
    cases b1 <;> cases b2
    · rfl
    · simp only [cond_true, cond_false, List.nil_append, (fm_exited _).1]
    · rfl
    · simp only [cond_true, List.cons_append, List.nil_append]
      rw [List.filterMap_cons_none rfl, (fm_exited _).1]
  refine ⟨?_, ?_, ?_, ?_⟩
  · rw [List.filterMap_append, hst]
    cases b1 with
    | false => simpa using hp.inc
    | true => exact List.pairwise_append.2 ⟨hp.inc, by simp, fun a ha b hb => by
        rw [List.mem_singleton.1 hb]; exact (hp.bd a ha).2⟩
  · intro t ht
    rw [List.filterMap_append, hst, List.mem_append] at ht
    rw [n]
    rcases ht with ht | ht
    · have := hp.bd t ht; omega
    · cases b1 with
      | false => cases ht
      | true => rw [List.mem_singleton.1 ht]; simp only [cond_true]; omega
  · rw [List.filterMap_append, List.filterMap_append, hst, hex]
    simp only [DS.hostThreads, k]
    have hp' := hp.perm
    simp only [DS.hostThreads] at hp'
    have hne : List.filter (fun t => decide (t ≠ 1)) [s.nextT] = [s.nextT] := by
      rw [List.filter_cons_of_pos (by simp; omega)]; rfl
    cases b1 <;> cases b2
    · simpa using hp'
    · simpa using hp'
    · simp only [cond_true, cond_false, List.append_nil]
      rw [List.filter_append, hne, ← List.append_assoc]
      exact hp'.append_right _
    · simp only [cond_true]
      rw [List.filter_append, hne, ← List.append_assoc]
      have : List.filter (fun t => decide (t ≠ 1)) [1] = [] := by decide
      rw [this, List.append_nil]
      exact hp'.append_right _
  · intro a b t hab
    rcases List.append_eq_append_iff.1 hab with ⟨c, hc1, hc2⟩ | ⟨c, hc1, hc2⟩
    · -- the event is in the new part
      have hf := congrArg (List.filter isEvent) hc2
      rw [e, List.filter_append, List.filter_cons_of_pos (by rfl)] at hf
      have ht : t ∈ (bif b1 then s.keys ++ [s.nextT] else s.keys).filter (fun t => decide (t ≠ 1)) := by
        have hm : t ∈ o.filterMap exitId := by
          rw [hc2, List.filterMap_append]
          exact List.mem_append_right _ (by simp [exitId])
        rw [hex] at hm
        cases b2 with
        | false => cases hm
        | true => exact hm
      have old : t ∈ s.hostThreads → Out.started t ∈ a := by
        intro h
        rw [hc1]
        exact List.mem_append_left _ (mem_starts.1 (hp.perm.mem_iff.2 (List.mem_append_right _ h)))
      cases b1 with
      | false => exact old ht
      | true =>
        simp only [cond_true, List.filter_append, List.mem_append] at ht
        rcases ht with ht | ht
        · exact old ht
        · have : t = s.nextT := by
            rw [List.mem_filter] at ht
            exact List.mem_singleton.1 ht.1
          subst this
          rw [hc1]
          refine List.mem_append_right _ ?_
          simp only [cond_true, List.cons_append, List.nil_append] at hf
          cases hcf : c.filter isEvent with
          | nil => rw [hcf] at hf; cases hf
          | cons x xs =>
            rw [hcf] at hf
            have : x = Out.started s.nextT := by
              simp only [List.cons_append, List.cons.injEq] at hf; exact hf.1.symm
            subst this
            have : Out.started s.nextT ∈ c.filter isEvent := by rw [hcf]; simp
            exact (List.mem_filter.1 this).1
    · -- the event is in the old part
      cases c with
      | nil =>
        simp only [List.append_nil] at hc1
        simp only [List.nil_append] at hc2
        have hf := congrArg (List.filter isEvent) hc2.symm
        have ht : t ∈ (bif b1 then s.keys ++ [s.nextT] else s.keys).filter (fun t => decide (t ≠ 1)) := by
          have hm : t ∈ o.filterMap exitId := by
            rw [← hc2]
            simp [exitId]
          rw [hex] at hm
          cases b2 with
          | false => cases hm
          | true => exact hm
        rw [e, List.filter_cons_of_pos (by rfl)] at hf
        cases b1 with
        | false =>
          rw [← hc1]
          exact mem_starts.1 (hp.perm.mem_iff.2 (List.mem_append_right _ ht))
        | true => cases hf
      | cons x xs =>
        simp only [List.cons_append, List.cons.injEq] at hc2
        exact hp.order a xs t (by rw [hc1, ← hc2.1])

theorem paired_run {s s' : DS} {ls : List Label} {o : List Out} (h : Run s ls s' o) :
    ∀ {os : List Out}, Inv s → Paired os s → Paired (os ++ o) s' := by
  induction h with
  | nil => intro os _ hd; simpa using hd
  | cons h1 _ ih =>
    intro os hi hd
    have := ih (inv_step hi h1) (paired_step hi hd h1)
    rwa [List.append_assoc] at this

theorem paired_init : Paired [] {} :=
  ⟨List.Pairwise.nil, (by simp), (by show [].Perm ([] ++ List.filter _ [1]); simp), (by intro a b t h; simp at h)⟩

end Verif.Strat
