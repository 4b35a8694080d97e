import Verif.Strat.Refs
/-!
# What the remembered ids of a frame stand for
-/

namespace Verif.Strat
open Verif

/-- The ids a frame remembers are 0 (nothing handed out yet) or those of variables of the right class:
the module options write through to the arguments of the task, the task variables are the very
dictionary of the task, the host variables go to the variable manager. -/
structure FrOk (V : Dict Nat Var) (nv : Nat) (fr : Frame) : Prop where
  opt : fr.optionsId = 0 ∨ fr.optionsId < nv ∧ ∃ v, V.get? fr.optionsId = some v ∧ v.kind = .rawStore fr.args
  tv : fr.taskvarId = 0 ∨ fr.taskvarId < nv ∧ ∃ v, V.get? fr.taskvarId = some v ∧ v.addr = fr.taskVars ∧ (v.kind = .dict ∨ v.kind = .list)
  hv : fr.hostvarsId = 0 ∨ fr.hostvarsId < nv ∧ ∃ v host, V.get? fr.hostvarsId = some v ∧ v.kind = .hostVars host

/-- All frames. -/
def IdsOk (s : DS) : Prop := ∀ f fr, s.frames.get? f = some fr → FrOk s.vars s.nextV fr

theorem FrOk.mono {V V' : Dict Nat Var} {nv nv' : Nat} {fr : Frame} (h : FrOk V nv fr) (hn : nv ≤ nv')
    (hv : ∀ i, (i = fr.optionsId ∨ i = fr.taskvarId ∨ i = fr.hostvarsId) → i ≠ 0 → i < nv → V'.get? i = V.get? i) : FrOk V' nv' fr := by
  refine ⟨?_, ?_, ?_⟩
  · rcases h.opt with e | ⟨e, x⟩
    · exact .inl e
    · by_cases h0 : fr.optionsId = 0
      · exact .inl h0
      · right; rw [hv _ (.inl rfl) h0 e]; exact ⟨Nat.lt_of_lt_of_le e hn, x⟩
  · rcases h.tv with e | ⟨e, x⟩
    · exact .inl e
    · by_cases h0 : fr.taskvarId = 0
      · exact .inl h0
      · right; rw [hv _ (.inr (.inl rfl)) h0 e]; exact ⟨Nat.lt_of_lt_of_le e hn, x⟩
  · rcases h.hv with e | ⟨e, x⟩
    · exact .inl e
    · by_cases h0 : fr.hostvarsId = 0
      · exact .inl h0
      · right; rw [hv _ (.inr (.inr rfl)) h0 e]; exact ⟨Nat.lt_of_lt_of_le e hn, x⟩

theorem FrOk.congr {V : Dict Nat Var} {nv : Nat} {fr fr' : Frame} (h : FrOk V nv fr) (h1 : fr'.optionsId = fr.optionsId)
    (h2 : fr'.taskvarId = fr.taskvarId) (h3 : fr'.hostvarsId = fr.hostvarsId) (h4 : fr'.args = fr.args) (h5 : fr'.taskVars = fr.taskVars) :
    FrOk V nv fr' :=
  ⟨by rw [h1, h4]; exact h.opt, by rw [h2, h5]; exact h.tv, by rw [h3]; exact h.hv⟩

theorem IdsOk.same {s s' : DS} (h : IdsOk s) (h1 : s'.frames = s.frames) (h2 : s'.vars = s.vars) (h3 : s'.nextV = s.nextV) : IdsOk s' := by
  intro f fr hf
  rw [h1] at hf
  rw [h2, h3]
  exact h f fr hf

theorem addVar_ids {s : DS} (h : IdsOk s) (f : Nat) (k : Kind) (a : Addr) : IdsOk (addVar s f k a).1 := by
  have old : ∀ fr, FrOk s.vars s.nextV fr → FrOk (addVar s f k a).1.vars (addVar s f k a).1.nextV fr := by
    intro fr ho
    refine ho.mono (Nat.le_succ _) fun i _ _ hi => ?_
    simp only [addVar, DL.get_set]
    rw [if_neg (by omega)]
  intro g fr hg
  simp only [addVar] at hg
  split at hg
  · exact old fr (h g fr hg)
  · rename_i fr0 h0
    rw [DL.get_set] at hg
    split at hg
    · cases hg
      exact (old fr0 (h f fr0 h0)).congr rfl rfl rfl rfl rfl
    · exact old fr (h g fr hg)

theorem updFrame_ids {s : DS} (h : IdsOk s) (f : Nat) (g : Frame → Frame)
    (hg : ∀ fr, s.frames.get? f = some fr → FrOk s.vars s.nextV (g fr)) : IdsOk (updFrame s f g) := by
  intro j fr hj
  cases h0 : s.frames.get? f with
  | none =>
    simp only [updFrame, h0] at hj ⊢
    exact h j fr hj
  | some fr0 =>
    simp only [updFrame, h0] at hj ⊢
    simp only [DL.get_set] at hj
    split at hj
    · cases hj; exact hg fr0 h0
    · exact h j fr hj

theorem listVars_ids (f : Nat) (es : List (Str × Val)) : ∀ s : DS, IdsOk s → IdsOk (listVars f es s).1 := by
  induction es with
  | nil => intro s h; exact h
  | cons e es ih =>
    intro s h
    obtain ⟨n, v⟩ := e
    cases v with
    | atom r => exact ih s h
    | ref a => exact ih _ (addVar_ids h _ _ _)

theorem setAll_ids (n : Str) (x : Val) (is : List Nat) : ∀ s : DS, IdsOk s → IdsOk (setAll s n x is).1 := by
  induction is with
  | nil => intro s h; exact h
  | cons i is ih =>
    intro s h
    unfold setAll
    split
    · exact h
    · simp only
      split
      · exact h.same rfl rfl rfl
      · exact ih _ (h.same rfl rfl rfl)

theorem kindOf_cases (h : Heap) (a : Addr) : kindOf h a = .dict ∨ kindOf h a = .list := by
  unfold kindOf; split
  · exact .inl rfl
  · exact .inr rfl

/-- Adding a variable and remembering it. -/
theorem addUpd_ids {s : DS} (h : IdsOk s) {f : Nat} {fr : Frame} (hf : s.frames.get? f = some fr) (k : Kind) (a : Addr) (g : Frame → Frame)
    (hg : FrOk (addVar s f k a).1.vars (s.nextV + 1) { fr with variables := fr.variables ++ [s.nextV] } →
      FrOk (addVar s f k a).1.vars (s.nextV + 1) (g { fr with variables := fr.variables ++ [s.nextV] })) :
    IdsOk (updFrame (addVar s f k a).1 f g) ∧ (updFrame (addVar s f k a).1 f g).frames.get? f = some (g { fr with variables := fr.variables ++ [s.nextV] }) := by
  have h1 := addVar_ids h f k a
  have h2 := addVar_variables s hf k a
  refine ⟨updFrame_ids h1 f g fun fr' h' => ?_, updFrame_get _ h2 g⟩
  rw [h2] at h'; cases h'
  exact hg (h1 f _ h2)

theorem getScopes_ids {s : DS} (h : IdsOk s) (f : Nat) (args : Option (Dict Key Val)) (hv : Option (Str × List (Str × Val))) :
    IdsOk (getScopes s f args hv).1 := by
  unfold getScopes
  cases hf : s.frames.get? f with
  | none => exact h
  | some fr =>
    cases args with
    | none => exact h
    | some es =>
      simp only
      have h0 : IdsOk { s with heap := s.heap ++ [.dict true es] } := h.same rfl rfl rfl
      have hf0 : ({ s with heap := s.heap ++ [.dict true es] } : DS).frames.get? f = some fr := hf
      obtain ⟨h1, hf1⟩ := addUpd_ids h0 hf0 (.rawStore fr.args) s.heap.length (fun r => { r with optionsId := s.nextV })
        (fun ho => ⟨.inr ⟨Nat.lt_succ_self _, _, addVar_get _ _ _ _, rfl⟩, ho.tv, ho.hv⟩)
      have hm : (addVar { s with heap := s.heap ++ [.dict true es] } f (.rawStore fr.args) s.heap.length).2 = s.nextV := rfl
      rw [hm]
      generalize updFrame (addVar { s with heap := s.heap ++ [.dict true es] } f (.rawStore fr.args) s.heap.length).1 f
        (fun r => { r with optionsId := s.nextV }) = s1 at h1 hf1
      obtain ⟨h2, hf2⟩ := addUpd_ids h1 hf1 (kindOf s1.heap fr.taskVars) fr.taskVars (fun r => { r with taskvarId := s1.nextV })
        (fun ho => ⟨ho.opt, .inr ⟨Nat.lt_succ_self _, _, addVar_get _ _ _ _, rfl, kindOf_cases _ _⟩, ho.hv⟩)
      have hm2 : (addVar s1 f (kindOf s1.heap fr.taskVars) fr.taskVars).2 = s1.nextV := rfl
      rw [hm2]
      generalize updFrame (addVar s1 f (kindOf s1.heap fr.taskVars) fr.taskVars).1 f
        (fun r => { r with taskvarId := s1.nextV }) = s2 at h2 hf2
      cases hv with
      | none => exact h2
      | some p =>
        obtain ⟨host, hvs⟩ := p
        simp only
        have h2' : IdsOk { s2 with heap := s2.heap ++ [.dict true (amalgamate hvs (listing s2.heap fr.taskVars))] } := h2.same rfl rfl rfl
        obtain ⟨h3, hf3⟩ := addUpd_ids h2' hf2 (.hostVars host) s2.heap.length (fun r => { r with hostvarsId := s2.nextV })
          (fun ho => ⟨ho.opt, ho.tv, .inr ⟨Nat.lt_succ_self _, _, host, addVar_get _ _ _ _, rfl⟩⟩)
        have hm3 : (addVar { s2 with heap := s2.heap ++ [.dict true (amalgamate hvs (listing s2.heap fr.taskVars))] } f (.hostVars host) s2.heap.length).2 = s2.nextV := rfl
        rw [hm3]
        generalize updFrame (addVar { s2 with heap := s2.heap ++ [.dict true (amalgamate hvs (listing s2.heap fr.taskVars))] } f (.hostVars host) s2.heap.length).1 f
          (fun r => { r with hostvarsId := s2.nextV }) = s3 at h3 hf3
        split
        · exact addVar_ids h3 _ _ _
        · exact h3

theorem request_ids {s : DS} (h : IdsOk s) (r : Req) : IdsOk (request s r).1 := by
  cases r with
  | cont t single => cases single <;> exact h.same rfl rfl rfl
  | scopes f a hv => exact getScopes_ids h _ _ _
  | variables r =>
    simp only [request, getVariables]
    split
    · exact h
    · exact listVars_ids _ _ _ h
  | setVariable r n t =>
    simp only [request, setVariable]
    split
    · exact h
    · split
      · exact h
      · split
        · exact h.same rfl rfl rfl
        · split
          · exact h.same rfl rfl rfl
          · exact addVar_ids (h.same rfl rfl rfl) _ _ _
  | evaluate f e =>
    simp only [request, evaluate]
    split
    · exact h
    · split
      · exact h
      · exact h
      · split
        · exact h
        · split
          · exact h
          · exact h.same rfl rfl rfl
      · split
        · exact h
        · exact setAll_ids _ _ _ _ (h.same rfl rfl rfl)
      · split
        · exact h
        · exact setAll_ids _ _ _ _ (h.same rfl rfl rfl)
  | closed => simp only [request]; split <;> exact h.same rfl rfl rfl
  | _ => exact h.same rfl rfl rfl

theorem popFrame_ids {s s' : DS} (c : s.core) (hi : IdsOk s) {th th' : Thread} (ht : s.threads.get? th.id = some th)
    (h : popFrame s th = .ok (s', th')) : IdsOk s' := by
  cases hf : th.frames with
  | nil => simp [popFrame, hf] at h
  | cons f fs =>
    obtain ⟨s2, e, -, -, e3, e4, -, -, e5, -⟩ := popFrame_ok c ht hf
    rw [e] at h; cases h
    intro j fr hj
    rw [e3, DL.get_erase] at hj
    split at hj
    · cases hj
    · rename_i hne
      refine (hi j fr hj).mono (by rw [e5]; exact Nat.le_refl _) fun i hi2 h0 _ => ?_
      rw [e4]
      split
      · rename_i fr0 hfr0
        rw [if_neg]
        intro hm
        have hin : i ∈ fr.variables := by
          rcases c.fids hj i (by rcases hi2 with h | h | h <;> simp [h]) with h | h
          · exact absurd h h0
          · exact h
        obtain ⟨x, hx, ex⟩ := (c.fv hj).2 i hin
        obtain ⟨y, hy, ey⟩ := (c.fv hfr0).2 i hm
        rw [hx] at hy; cases hy
        rw [ex] at ey; exact hne ey
      · rfl

theorem crash_ids {s : DS} (h : IdsOk s) (o : List Out) (e : PyErr) : IdsOk (crash s o e).1 := h.same rfl rfl rfl

theorem decideStop_ids {s : DS} (h : IdsOk s) (th : Thread) (t : Task) (c : Nat → Bool) : IdsOk (decideStop s th t c).1 := by
  unfold decideStop
  split
  · exact h
  · split
    · exact h
    · exact h.same rfl rfl rfl

theorem hostThread_ids {s : DS} (h : IdsOk s) (host : Nat) : IdsOk (hostThread s host).1 := by
  unfold hostThread
  split
  · exact h
  · exact h.same rfl rfl rfl

theorem pushFrame_ids {s : DS} (h : IdsOk s) (th : Thread) (t : Task) (a b : Addr) : IdsOk (pushFrame s th t a b).1 := by
  intro j fr hj
  simp only [pushFrame, DL.get_set] at hj
  split at hj
  · cases hj; exact ⟨.inl rfl, .inl rfl, .inl rfl⟩
  · exact h j fr hj

theorem syncFrames_ids {s s' : DS} (c : s.core) (hi : IdsOk s) {th th' : Thread} (ht : s.threads.get? th.id = some th) {t : Task}
    (h : syncFrames s th t = .ok (s', th')) : IdsOk s' := by
  rcases syncFrames_cases c ht t with ⟨e, he⟩ | he | ⟨f, fs, -, s2, hp, he⟩
  · rw [he] at h; cases h
  · rw [he] at h; cases h; exact hi
  · rw [he] at h; cases h; exact popFrame_ids c hi ht hp

theorem startTask_ids {s : DS} (c : s.core) (h : IdsOk s) (host : Nat) (t : Task) (tv a : Addr) (cond : Nat → Bool) :
    IdsOk (startTask s host t tv a cond).1 := by
  rw [startTask_eq]
  obtain ⟨c1, ht, -, -⟩ := hostThread_spec c host
  have h1 := hostThread_ids h host
  split
  · exact crash_ids h1 _ _
  · rename_i s2 th2 hs
    exact decideStop_ids (pushFrame_ids (syncFrames_ids c1 h1 ht hs) _ _ _ _) _ _ _

theorem endAfter_ids {s : DS} (c : s.core) (h : IdsOk s) (tid : Nat) (inc : Bool) : IdsOk (endAfter s tid inc).1 := by
  unfold endAfter
  split
  · exact crash_ids h _ _
  · rename_i th ht
    split
    · exact h.same rfl rfl rfl
    · split
      · exact h.same rfl rfl rfl
      · split
        · exact crash_ids h _ _
        · rename_i s2 th2 hp
          have := (c.tid ht).1
          exact (popFrame_ids c h (by rw [this]; exact ht) hp).same rfl rfl rfl

theorem endTask_ids {s : DS} (c : s.core) (h : IdsOk s) (host : Nat) (t : Task) (r : Result) (res : Addr) : IdsOk (endTask s host t r res).1 := by
  unfold endTask
  cases ht : threadOf s host with
  | none => exact h.same rfl rfl rfl
  | some th =>
    cases hw : whyException t.parents r (filters s) with
    | none => exact endAfter_ids c h _ _
    | some e =>
      cases hfs : th.frames with
      | nil => simp only [hfs]; exact h.same rfl rfl rfl
      | cons f fs =>
        cases hfr : s.frames.get? f with
        | none => simp only [hfs, hfr]; exact h.same rfl rfl rfl
        | some fr =>
          simp only [hfs, hfr]
          have h1 := addVar_ids (s := { s with threads := s.threads.set th.id (afterException th t.parents r (filters s)) }) (h.same rfl rfl rfl) f (kindOf s.heap res) res
          have h2 := addVar_variables { s with threads := s.threads.set th.id (afterException th t.parents r (filters s)) } hfr (kindOf s.heap res) res
          intro j fr' hj
          simp only [h2, DL.get_set] at hj
          split at hj
          · cases hj
            exact (h1 f _ h2).congr rfl rfl rfl rfl rfl
          · exact h1 j fr' hj

theorem ids_step {s s' : DS} {l : Label} {o : List Out} (hi : Inv s) (hs : IdsOk s) (h : step s l = some (s', o)) : IdsOk s' := by
  cases l with
  | start host t tv a c =>
    simp only [step] at h
    split at h
    · rw [fst_eq h]; exact startTask_ids hi.core hs _ _ _ _ _
    · cases h
  | done host t r res =>
    simp only [step] at h
    split at h
    · rw [fst_eq h]; exact endTask_ids hi.core hs _ _ _ _
    · cases h
  | refresh =>
    simp only [step] at h
    split at h
    · cases h; exact hs.same rfl rfl rfl
    · cases h
  | newPlay =>
    simp only [step] at h
    split at h
    · cases h
      intro f fr hf; cases hf
    · cases h
  | reg p l ty =>
    simp only [step] at h
    split at h
    · rw [fst_eq h]
      rcases registerLine_cases s p l ty with hr | ⟨e, -, hr⟩ <;> rw [hr] <;> exact hs.same rfl rfl rfl
    · cases h
  | env hp => cases h; exact hs.same rfl rfl rfl
  | wake =>
    simp only [step] at h
    split at h
    · split at h
      · cases h; exact hs.same rfl rfl rfl
      · split at h
        · cases h
        · split at h
          · cases h; exact hs.same rfl rfl rfl
          · cases h; exact hs.same rfl rfl rfl
    · split at h
      · cases h; exact hs.same rfl rfl rfl
      · split at h
        · cases h
        · rw [fst_eq h]; exact endAfter_ids hi.core hs _ _
    · cases h
  | req r => rw [fst_eq h]; exact request_ids hs r

theorem ids_run {s s' : DS} {ls : List Label} {o : List Out} (h : Run s ls s' o) (hi : Inv s) (hs : IdsOk s) : IdsOk s' := by
  induction h with
  | nil => exact hs
  | cons h1 _ ih => exact ih (inv_step hi h1) (ids_step hi hs h1)

end Verif.Strat
