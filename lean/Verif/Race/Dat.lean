import Verif.Race.Ctl
/-! # Frames and variables: an invariant (no thread switch inside of `next_variable_id`) -/

namespace Verif.Race

/-- A frame in `stackframes` that the playbook is working on. -/
def pFrame : P → Option Nat
  | .addRead _ f _ => some f
  | .addEntry _ f _ _ => some f
  | .addList _ f _ _ => some f
  | .setResult _ f _ _ => some f
  | _ => none

/-- A frame in `stackframes` that is on no stack for the moment. -/
def pLoose : P → Option Nat
  | .popFrame _ f _ => some f
  | .pushStack _ f => some f
  | _ => none

/-- A number taken by the playbook and not yet in the list of the frame. -/
def pPend : P → Option (Nat × Nat)
  | .addEntry _ f v _ => some (v, f)
  | .addList _ f v _ => some (v, f)
  | _ => none

/-- The same for a request. -/
def rPend : R → Option (Nat × Nat)
  | .addEntry f v _ _ _ => some (v, f)
  | .addList f v _ _ _ => some (v, f)
  | _ => none

/-- The frame a request adds variables to. -/
def rFrame : R → Option Nat
  | .addRead f _ _ _ => some f
  | .addEntry f _ _ _ _ => some f
  | .addList f _ _ _ _ => some f
  | _ => none

/-- The playbook needs a frame on the stack of this thread. -/
def pNeeds : P → Option Nat
  | .popStack t _ => some t
  | .lockE t _ => some t
  | .decideE t _ => some t
  | .frameE t _ => some t
  | .addRead t _ _ => some t
  | .addEntry t _ _ _ => some t
  | .addList t _ _ _ => some t
  | .setResult t _ _ _ => some t
  | .emit t (.fin _) => some t
  | .pred t (.fin _) => some t
  | .sleep t (.fin _) => some t
  | .asleep t (.fin _) _ => some t
  | .check t (.fin _) => some t
  | .unlock t (.fin _) => some t
  | _ => none

/-- The exception the play is being left with. -/
def crashErr : P → Option Err
  | .exit _ (.crashed e) => some e
  | .exitEvent _ _ (.crashed e) => some e
  | .gone (.crashed e) => some e
  | _ => none

/-- The invariant. -/
structure Dat (s : S) : Prop where
  flt : ∀ f ∈ s.live, f < s.nextF
  sl : ∀ t, ∀ f ∈ s.stack t, f ∈ s.live
  sn : ∀ t, (s.stack t).Nodup
  sd : ∀ t t' f, f ∈ s.stack t → f ∈ s.stack t' → t = t'
  pl : ∀ f, pLoose s.p = some f → f ∈ s.live ∧ ∀ t, f ∉ s.stack t
  pf : ∀ f, pFrame s.p = some f → f ∈ s.live
  pn : ∀ t, pNeeds s.p = some t → s.stack t ≠ []
  f0 : ∀ f, s.nextF ≤ f → s.fvars f = []
  u1 : ∀ f, ∀ v ∈ s.fvars f, v < s.nextV
  u2 : ∀ f, (s.fvars f).Nodup
  u3 : ∀ f g v, v ∈ s.fvars f → v ∈ s.fvars g → f = g
  al : ∀ f ∈ s.live, ∀ v ∈ s.fvars f, s.vars v = some f
  dl : ∀ t f i k, s.p = .del t f i k → f ∉ s.live ∧ f < s.nextF ∧ ∀ j v, i ≤ j → (s.fvars f)[j]? = some v → s.vars v = some f
  vf : ∀ v f, s.vars v = some f → f < s.nextF ∧ v < s.nextV
  pp : ∀ v f, pPend s.p = some (v, f) → 1 ≤ v ∧ v < s.nextV ∧ ∀ g, v ∉ s.fvars g
  rp : ∀ v f, rPend s.r = some (v, f) → 1 ≤ v ∧ v < s.nextV ∧ ∀ g, v ∉ s.fvars g
  pr : ∀ v f w g, pPend s.p = some (v, f) → rPend s.r = some (w, g) → v ≠ w
  pv : ∀ t f v i, s.p = .addList t f v i → s.vars v = some f
  rv : ∀ f v n got sc, s.r = .addList f v n got sc → s.vars v = some f
  rf : ∀ f, rFrame s.r = some f → f < s.nextF
  rs : ∀ f, s.result f ≠ 0 → s.result f ∈ s.fvars f
  ps : ∀ t f v i, s.p = .setResult t f v i → v ∈ s.fvars f
  v1 : 1 ≤ s.nextV
  v0 : ∀ f, 0 ∉ s.fvars f
  pw : ∀ t f v i, s.p ≠ .addWrite t f v i
  rw : ∀ f v n got sc, s.r ≠ .addWrite f v n got sc
  cr : ∀ e, crashErr s.p = some e → e = .runtime

theorem dat_start : Dat {} := by
  constructor <;> simp [pLoose, pFrame, pNeeds, pPend, rPend, rFrame, crashErr]

/-- The parts of the state that matter here are unchanged. -/
def Same (s s' : S) : Prop :=
  s'.live = s.live ∧ s'.stack = s.stack ∧ s'.fvars = s.fvars ∧ s'.result = s.result ∧ s'.vars = s.vars ∧ s'.nextF = s.nextF ∧ s'.nextV = s.nextV

/-- Nothing is known about such a place of the playbook. -/
def plain : P → Bool
  | .popFrame _ _ _ => false
  | .pushStack _ _ => false
  | .addRead _ _ _ => false
  | .addWrite _ _ _ _ => false
  | .addEntry _ _ _ _ => false
  | .addList _ _ _ _ => false
  | .setResult _ _ _ _ => false
  | .del _ _ _ _ => false
  | _ => true

theorem plain_spec {p : P} (h : plain p = true) : pLoose p = none ∧ pFrame p = none ∧ pPend p = none ∧ (∀ t f i k, p ≠ .del t f i k) ∧
    (∀ t f v i, p ≠ .addList t f v i) ∧ (∀ t f v i, p ≠ .setResult t f v i) ∧ (∀ t f v i, p ≠ .addWrite t f v i) := by
  cases p <;> simp_all [plain, pLoose, pFrame, pPend]

/-- A step that changes nothing but the place of the playbook. -/
theorem dat_plain {s s' : S} (hi : Dat s) (hs : Same s s') (hr : s'.r = s.r) (hp : plain s'.p = true)
    (hn : ∀ t, pNeeds s'.p = some t → s.stack t ≠ []) (hc : ∀ e, crashErr s'.p = some e → e = .runtime) : Dat s' := by
  obtain ⟨e1, e2, e3, e4, e5, e6, e7⟩ := hs
  obtain ⟨p1, p2, p3, p4, p5, p6, p7⟩ := plain_spec hp
  exact {
    flt := by rw [e1, e6]; exact hi.flt
    sl := by rw [e1, e2]; exact hi.sl
    sn := by rw [e2]; exact hi.sn
    sd := by rw [e2]; exact hi.sd
    pl := by intro f h; rw [p1] at h; cases h
    pf := by intro f h; rw [p2] at h; cases h
    pn := by rw [e2]; exact hn
    f0 := by rw [e3, e6]; exact hi.f0
    u1 := by rw [e3, e7]; exact hi.u1
    u2 := by rw [e3]; exact hi.u2
    u3 := by rw [e3]; exact hi.u3
    al := by rw [e1, e3, e5]; exact hi.al
    dl := fun t f i k h => absurd h (p4 t f i k)
    vf := by rw [e5, e6, e7]; exact hi.vf
    pp := by intro v f h; rw [p3] at h; cases h
    rp := by rw [hr, e7, e3]; exact hi.rp
    pr := by intro v f w g h; rw [p3] at h; cases h
    pv := fun t f v i h => absurd h (p5 t f v i)
    rv := by rw [hr, e5]; exact hi.rv
    rf := by rw [hr, e6]; exact hi.rf
    rs := by rw [e4, e3]; exact hi.rs
    ps := fun t f v i h => absurd h (p6 t f v i)
    v1 := by rw [e7]; exact hi.v1
    v0 := by rw [e3]; exact hi.v0
    pw := p7
    rw := by rw [hr]; exact hi.rw
    cr := hc }

/-- A step of a request that changes nothing else. -/
theorem dat_rplain {s s' : S} (hi : Dat s) (hs : Same s s') (hp : s'.p = s.p ∨ ∃ t k n, s.p = .asleep t k n ∧ s'.p = .asleep t k true)
    (hr : rPend s'.r = none) (hf : ∀ f, rFrame s'.r = some f → f < s.nextF) (hw : ∀ f v n got sc, s'.r ≠ .addWrite f v n got sc) : Dat s' := by
  obtain ⟨e1, e2, e3, e4, e5, e6, e7⟩ := hs
  have hl : ∀ f v n got sc, s'.r ≠ .addList f v n got sc := by
    intro f v n got sc h; rw [h] at hr; cases hr
  have h2 : (∀ f, pLoose s'.p = some f → pLoose s.p = some f) ∧ (∀ f, pFrame s'.p = some f → pFrame s.p = some f) ∧
      (∀ t, pNeeds s'.p = some t → pNeeds s.p = some t) ∧ (∀ t f i k, s'.p = .del t f i k → s.p = .del t f i k) ∧
      (∀ x, pPend s'.p = some x → pPend s.p = some x) ∧ (∀ t f v i, s'.p = .addList t f v i → s.p = .addList t f v i) ∧
      (∀ t f v i, s'.p = .setResult t f v i → s.p = .setResult t f v i) ∧ (∀ t f v i, s'.p = .addWrite t f v i → s.p = .addWrite t f v i) ∧
      (∀ e, crashErr s'.p = some e → crashErr s.p = some e) := by
    rcases hp with h | ⟨t, k, n, h, h'⟩
    · simp [h]
    · rw [h, h']
      cases k <;> simp [pLoose, pFrame, pNeeds, pPend, crashErr]
  obtain ⟨q1, q2, q3, q4, q5, q6, q7, q8, q9⟩ := h2
  exact {
    flt := by rw [e1, e6]; exact hi.flt
    sl := by rw [e1, e2]; exact hi.sl
    sn := by rw [e2]; exact hi.sn
    sd := by rw [e2]; exact hi.sd
    pl := fun f h => by rw [e1, e2]; exact hi.pl f (q1 f h)
    pf := fun f h => by rw [e1]; exact hi.pf f (q2 f h)
    pn := fun t h => by rw [e2]; exact hi.pn t (q3 t h)
    f0 := by rw [e3, e6]; exact hi.f0
    u1 := by rw [e3, e7]; exact hi.u1
    u2 := by rw [e3]; exact hi.u2
    u3 := by rw [e3]; exact hi.u3
    al := by rw [e1, e3, e5]; exact hi.al
    dl := fun t f i k h => by rw [e1, e6, e3, e5]; exact hi.dl t f i k (q4 t f i k h)
    vf := by rw [e5, e6, e7]; exact hi.vf
    pp := fun v f h => by rw [e7, e3]; exact hi.pp v f (q5 _ h)
    rp := fun v f h => by rw [hr] at h; cases h
    pr := fun v f w g _ h => by rw [hr] at h; cases h
    pv := fun t f v i h => by rw [e5]; exact hi.pv t f v i (q6 t f v i h)
    rv := fun f v n got sc h => absurd h (hl f v n got sc)
    rf := fun f h => by rw [e6]; exact hf f h
    rs := by rw [e4, e3]; exact hi.rs
    ps := fun t f v i h => by rw [e3]; exact hi.ps t f v i (q7 t f v i h)
    v1 := by rw [e7]; exact hi.v1
    v0 := by rw [e3]; exact hi.v0
    pw := fun t f v i h => hi.pw t f v i (q8 t f v i h)
    rw := hw
    cr := fun e h => hi.cr e (q9 e h) }

theorem gone_exit (w : Why) (_ : w = .refresh → False) (e : Err) (h : crashErr (.gone w) = some e) : crashErr (.exit [] w) = some e := by
  cases w <;> simp_all [crashErr]

set_option maxHeartbeats 4000000 in
theorem dat_pstep {b : Bool} {s s' : S} {o : List Obs} (hi : Dat s) (h : pstep false s b = some (s', o)) : Dat s' := by
  have hi0 := hi
  unfold pstep at h
  split at h
  case h_1 => cases h
  all_goals rename_i hp
  all_goals (repeat' (split at h))
  all_goals first | (cases h; done) | skip
  all_goals simp only [Option.some.injEq, Prod.mk.injEq] at h
  all_goals obtain ⟨rfl, rfl⟩ := h
  all_goals try (refine dat_plain hi ⟨rfl, rfl, rfl, rfl, rfl, rfl, rfl⟩ rfl ?_ ?_ ?_ <;> first | rfl | (have hpn := hi.pn; have hcr := hi.cr; rw [hp] at hpn hcr; simp_all [pNeeds, crashErr, plain, leave, raiseIn]; done))
  all_goals try (refine dat_plain hi ⟨rfl, rfl, rfl, rfl, rfl, rfl, rfl⟩ rfl ?_ ?_ ?_ <;> first | rfl | (have hpn := hi.pn; have hcr := hi.cr; rw [hp] at hpn hcr; cases ‹Ctx› <;> simp_all [pNeeds, crashErr, plain, leave, raiseIn]; done))
  all_goals obtain ⟨flt, sl, sn, sd, pl, pf, pn, f0, u1, u2, u3, al, dl, vf, pp, rp, pr, pv, rv, rf, rs, ps, v1, v0, pw, rw', cr⟩ := hi
  all_goals rw [hp] at pl pf pn dl pp pr pv ps pw cr
  all_goals simp only [pLoose, pFrame, pNeeds, pPend, crashErr] at pl pf pn pp pr cr
  all_goals constructor
  all_goals try assumption
  all_goals try (grind [pLoose, pFrame, pNeeds, pPend, crashErr, leave, raiseIn, upd, rPend])
  all_goals try (intro e he; rename_i w; revert he; cases w <;> simp [crashErr] <;> (intro h; exact cr _ (by simp [h])))
  case h_2.cr =>
    rename_i w _ hw
    intro e he
    have he' : crashErr (P.gone w) = some e := he
    have := hi0.cr e
    rw [hp] at this
    refine this ?_
    exact gone_exit w hw e he'
  case h_2.dl =>
    rename_i t f i k _ v hv _ _ _
    intro t' f' i' k' h
    obtain ⟨rfl, rfl, rfl, rfl⟩ := P.del.inj h
    obtain ⟨a, b, c⟩ := dl t f i k rfl
    refine ⟨a, b, ?_⟩
    intro j w hj hw
    show upd s.vars v none w = some f
    rw [upd_other _ _ _ _ ?_]
    · exact c j w (by omega) hw
    · rintro rfl
      obtain ⟨l1, e1⟩ := List.getElem?_eq_some_iff.1 hv
      obtain ⟨l2, e2⟩ := List.getElem?_eq_some_iff.1 hw
      have := (List.getElem_inj (u2 f)).1 (e1.trans e2.symm)
      omega
  case h_2.vf =>
    rename_i t f i k _ v hv _ _ _
    intro w g h
    refine vf w g ?_
    have h' : upd s.vars v none w = some g := h
    unfold upd at h'
    split at h'
    · cases h'
    · exact h'
  case h_2.rv =>
    rename_i t f i k _ v hv _ _ _
    intro g w n got sc h
    have := (rp w g (by rw [h]; rfl)).2.2 f
    show upd s.vars v none w = some g
    rw [upd_other _ _ _ _ (by rintro rfl; exact this (List.mem_of_getElem? hv))]
    exact rv g w n got sc h
  case h_28.rv =>
    rename_i t f v i
    intro g w n got sc h
    have := pr v f w g rfl (by rw [h]; rfl)
    show upd s.vars v (some f) w = some g
    rw [upd_other _ _ _ _ (fun e => this e.symm)]
    exact rv g w n got sc h

end Verif.Race
