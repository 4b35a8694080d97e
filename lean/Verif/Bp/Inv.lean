import Verif.Bp.Lemmas
/-! The invariant of the debuggee's breakpoint state, and its preservation. -/

namespace Verif.Bp
open Verif

/-- A kept breakpoint is what the registrations of its file say. -/
def Current (R : Str → List (Nat × Nat)) (b : LineBp) : Prop :=
  ∃ req : Nat, b.reqLine = (req : Int) ∧
    ((R b.actualPath = [] ∧ b.bp = pendingBp b.id b.source req) ∨
     (R b.actualPath ≠ [] ∧ ∃ e z v, Snapped (R b.actualPath) req e z v ∧ b.bp = mkBp b.id b.source e z v))

structure Inv (R : Str → List (Nat × Nat)) (s : Dbg) : Prop where
  info : ∀ p, (s.info.get? p = none ∧ R p = []) ∨ (∃ fl, s.info.get? p = some fl ∧ R p ≠ [] ∧ Rep (R p) fl)
  bps : ∀ e ∈ s.bps, e.1 = e.2.id ∧ e.1 < s.counter ∧ Current R e.2
  sorted : (s.bps.map (·.1)).Pairwise (· < ·)

theorem inv_init : Inv (regsOf []) {} :=
  ⟨fun _ => .inl ⟨rfl, rfl⟩, fun _ h => absurd h (List.not_mem_nil), List.Pairwise.nil⟩

/-! ## Registration -/

/-- The breakpoint a table gives for a kept breakpoint. -/
def theBp (fl : FileLines) (b : LineBp) : Bp :=
  match calculate b.id b.source b.reqLine fl with
  | .ok bp => bp
  | .error _ => b.bp

/-- The kept breakpoint after its file has changed. -/
def renew (path : Str) (fl : FileLines) (e : Nat × LineBp) : Nat × LineBp :=
  if e.2.actualPath = path then (e.1, { e.2 with bp := theBp fl e.2 }) else e

/-- The events for the breakpoints that changed. -/
def changes (path : Str) (fl : FileLines) (d : Dict Nat LineBp) : List Out :=
  d.filterMap fun e => if e.2.actualPath = path ∧ e.2.bp ≠ theBp fl e.2 then some (.bpChanged (theBp fl e.2)) else none

theorem differs_self (b : Bp) : differs b b = false := by simp [differs]

theorem refresh_ok (path : Str) (fl : FileLines) (d : Dict Nat LineBp)
    (h : ∀ e ∈ d, e.2.actualPath = path → ∃ bp, calculate e.2.id e.2.source e.2.reqLine fl = .ok bp ∧
      (differs e.2.bp bp = false → e.2.bp = bp)) :
    refresh path fl d = (d.map (renew path fl), changes path fl d, none) := by
  induction d with
  | nil => rfl
  | cons a t ih =>
    obtain ⟨k, b⟩ := a
    have ih' := ih (fun e he => h e (List.mem_cons_of_mem _ he))
    unfold refresh
    by_cases hp : b.actualPath = path
    · obtain ⟨bp, h1, h2⟩ := h _ (List.mem_cons_self) hp
      simp only at h1 h2
      have ht : theBp fl b = bp := by unfold theBp; rw [h1]
      rw [if_neg (by simpa using hp)]
      simp only [h1, ih']
      cases hd : differs b.bp bp with
      | true =>
        have hne : b.bp ≠ bp := by intro e; rw [e, differs_self] at hd; cases hd
        simp [changes, renew, hp, ht, hne]
      | false =>
        have heq := h2 hd
        have : b = ({ id := b.id, source := b.source, reqLine := b.reqLine, bp := bp, actualPath := path, sourcePath := b.sourcePath } : LineBp) := by
          rw [← heq, ← hp]
        simp [changes, renew, hp, ht, heq]
        exact this
    · rw [if_pos hp]
      simp [ih', changes, renew, hp]

theorem snapped_calc {regs : List (Nat × Nat)} {fl : FileLines} (h : Rep regs fl) (id : Nat) (src : Source) {req e z : Nat} {v : Bool}
    (hs : Snapped regs req e z v) : calculate id src (req : Int) fl = .ok (mkBp id src e z v) := by
  obtain ⟨e', z', v', h1, h2⟩ := calculate_nat h id src req
  obtain ⟨rfl, rfl, rfl⟩ := snapped_unique hs h2
  exact h1

theorem mk_differs {id : Nat} {src : Source} {e z e' z' : Nat} {v v' : Bool}
    (h : differs (mkBp id src e z v) (mkBp id src e' z' v') = false) : mkBp id src e z v = mkBp id src e' z' v' := by
  simp [differs, mkBp] at h
  obtain ⟨⟨h1, h2⟩, h3⟩ := h
  obtain rfl : e = e' := by omega
  obtain rfl : z = z' := by omega
  subst h1
  rfl

/-- Registration appends to the registrations of one file. -/
def addReg (R : Str → List (Nat × Nat)) (p : Str) (l ty : Nat) : Str → List (Nat × Nat) :=
  fun q => if q = p then R q ++ [(l, ty)] else R q

theorem inv_table {R : Str → List (Nat × Nat)} {s : Dbg} (hi : Inv R s) (p : Str) :
    Rep (R p) ((s.info.get? p).getD [some 0]) := by
  rcases hi.info p with ⟨h1, h2⟩ | ⟨fl, h1, -, h3⟩
  · rw [h1, h2]; exact rep_nil
  · rw [h1]; exact h3

theorem register_ok {R : Str → List (Nat × Nat)} {s : Dbg} (hi : Inv R s) (p : Str) (l ty : Nat) :
    ∃ fl', Rep (R p ++ [(l, ty)]) fl' ∧
      register p (l : Int) ty s = ({ s with info := s.info.set p fl', bps := s.bps.map (renew p fl') }, changes p fl' s.bps, none) ∧
      Inv (addReg R p l ty) { s with info := s.info.set p fl', bps := s.bps.map (renew p fl') } := by
  obtain ⟨fl', h1, h2⟩ := rep_reg (inv_table hi p) l ty
  have hcalc : ∀ e ∈ s.bps, e.2.actualPath = p → ∃ e' z v, ∃ req : Nat, e.2.reqLine = (req : Int) ∧
      Snapped (R p ++ [(l, ty)]) req e' z v ∧
      calculate e.2.id e.2.source e.2.reqLine fl' = .ok (mkBp e.2.id e.2.source e' z v) ∧
      (differs e.2.bp (mkBp e.2.id e.2.source e' z v) = false → e.2.bp = mkBp e.2.id e.2.source e' z v) := by
    intro e he hp
    obtain ⟨-, -, req, hr, hc⟩ := hi.bps e he
    obtain ⟨e', z, v, g1, g2⟩ := calculate_nat h2 e.2.id e.2.source req
    refine ⟨e', z, v, req, hr, g2, by rw [hr]; exact g1, fun hd => ?_⟩
    rcases hc with ⟨-, hb⟩ | ⟨-, e'', z'', v'', -, hb⟩
    · rw [hb] at hd
      simp [differs, pendingBp, mkBp] at hd
    · rw [hb] at hd ⊢
      exact mk_differs hd
  refine ⟨fl', h2, ?_, ?_, ?_, ?_⟩
  · unfold register
    simp only [h1]
    rw [refresh_ok p fl' s.bps]
    intro e he hp
    obtain ⟨e', z, v, req, -, -, g1, g2⟩ := hcalc e he hp
    exact ⟨_, g1, g2⟩
  · intro q
    simp only [Dict.get?_set, addReg]
    by_cases hq : q = p
    · subst hq
      right
      refine ⟨fl', by simp, by simp, by simpa using h2⟩
    · have hq' : p ≠ q := fun e => hq e.symm
      simp only [hq, hq', if_false]
      exact hi.info q
  · intro e he
    obtain ⟨a, ha, rfl⟩ := List.mem_map.1 he
    obtain ⟨i1, i2, i3⟩ := hi.bps a ha
    unfold renew
    by_cases hp : a.2.actualPath = p
    · obtain ⟨e', z, v, req, g0, g1, g2, -⟩ := hcalc a ha hp
      rw [if_pos hp]
      refine ⟨i1, i2, req, g0, .inr ⟨?_, e', z, v, ?_, ?_⟩⟩
      · simp [addReg, hp]
      · simpa [addReg, hp] using g1
      · simp only [theBp, g2]
    · rw [if_neg hp]
      refine ⟨i1, i2, ?_⟩
      unfold Current at i3 ⊢
      unfold addReg
      simpa only [hp, if_false] using i3
  · have : (s.bps.map (renew p fl')).map (·.1) = s.bps.map (·.1) := by
      rw [List.map_map]
      apply List.map_congr_left
      intro a _
      simp only [Function.comp, renew]
      split <;> rfl
    simp only [this]
    exact hi.sorted

/-! ## Requests -/

/-- The entries a setBreakpoints request adds, from counter `c`. -/
def newEntries (src : Source) (actual spath : Str) (f : Nat → Int → Bp) : Nat → List Int → Dict Nat LineBp
  | _, [] => []
  | c, l :: ls =>
    (c, { id := c, source := src, reqLine := l, bp := f c l, actualPath := actual, sourcePath := spath })
      :: newEntries src actual spath f (c + 1) ls

theorem newEntries_ids (src : Source) (actual spath : Str) (f : Nat → Int → Bp) (ls : List Int) : ∀ c,
    (newEntries src actual spath f c ls).map (·.1) = List.range' c ls.length := by
  induction ls with
  | nil => intro c; rfl
  | cons l t ih => intro c; simp [newEntries, ih, List.range'_succ]

theorem newEntries_mem (src : Source) (actual spath : Str) (f : Nat → Int → Bp) (ls : List Int) : ∀ c,
    ∀ e ∈ newEntries src actual spath f c ls, ∃ k, ∃ l ∈ ls, c ≤ k ∧ k < c + ls.length ∧
      e = (k, { id := k, source := src, reqLine := l, bp := f k l, actualPath := actual, sourcePath := spath }) := by
  induction ls with
  | nil => intro c e he; cases he
  | cons l t ih =>
    intro c e he
    simp only [newEntries, List.mem_cons] at he
    rcases he with rfl | he
    · exact ⟨c, l, List.mem_cons_self, by omega, by simp, rfl⟩
    · obtain ⟨k, l', h1, h2, h3, h4⟩ := ih (c + 1) e he
      exact ⟨k, l', List.mem_cons_of_mem _ h1, by omega, by simp only [List.length_cons]; omega, h4⟩

theorem addBps_modified (src : Source) (actual spath : Str) (si : Option FileLines) (ls : List Int) :
    ∀ c d, addBps src true actual spath si ls c d =
      (d, c + ls.length, (List.range' c ls.length).map (fun i => modifiedBp i src), none) := by
  induction ls with
  | nil => intro c d; rfl
  | cons l t ih =>
    intro c d
    simp [addBps, ih, List.range'_succ]
    omega

theorem addBps_ok (src : Source) (actual spath : Str) (si : Option FileLines) (f : Nat → Int → Bp) (ls : List Int)
    (hf : ∀ c, ∀ l ∈ ls, freshBp c src l si = .ok (f c l)) :
    ∀ c d, (∀ e ∈ d, e.1 < c) → addBps src false actual spath si ls c d =
      (d ++ newEntries src actual spath f c ls, c + ls.length, (newEntries src actual spath f c ls).map (·.2.bp), none) := by
  induction ls with
  | nil => intro c d _; simp [addBps, newEntries]
  | cons l t ih =>
    intro c d hd
    have h1 := hf c l List.mem_cons_self
    have hfresh : c ∉ d.map (·.1) := by
      intro hc
      obtain ⟨e, he, rfl⟩ := List.mem_map.1 hc
      exact absurd (hd e he) (by omega)
    have hset := Dict.set_fresh d c ({ id := c, source := src, reqLine := l, bp := f c l, actualPath := actual, sourcePath := spath } : LineBp) hfresh
    have ih' := ih (fun c l hl => hf c l (List.mem_cons_of_mem _ hl)) (c + 1)
      (d ++ [(c, ({ id := c, source := src, reqLine := l, bp := f c l, actualPath := actual, sourcePath := spath } : LineBp))]) (by
        intro e he
        rcases List.mem_append.1 he with he | he
        · exact Nat.lt_succ_of_lt (hd e he)
        · simp only [List.mem_singleton] at he; subst he; exact Nat.lt_succ_self c)
    simp only [addBps, cond_false, h1, hset, ih', newEntries]
    simp
    omega

/-- The breakpoint a request gets for a line. -/
def answer (src : Source) (si : Option FileLines) (c : Nat) (l : Int) : Bp :=
  match freshBp c src l si with
  | .ok bp => bp
  | .error _ => modifiedBp c src

theorem fresh_ok {R : Str → List (Nat × Nat)} {s : Dbg} (hi : Inv R s) (src : Source) (actual : Str) (c req : Nat) :
    freshBp c src (req : Int) (s.info.get? actual) = .ok (answer src (s.info.get? actual) c req) ∧
    ((R actual = [] ∧ answer src (s.info.get? actual) c req = pendingBp c src req) ∨
     (R actual ≠ [] ∧ ∃ e z v, Snapped (R actual) req e z v ∧ answer src (s.info.get? actual) c req = mkBp c src e z v)) := by
  rcases hi.info actual with ⟨h1, h2⟩ | ⟨fl, h1, h2, h3⟩
  · rw [h1]
    exact ⟨rfl, .inl ⟨h2, rfl⟩⟩
  · obtain ⟨e, z, v, g1, g2⟩ := calculate_nat h3 c src req
    have : freshBp c src (req : Int) (some fl) = .ok (mkBp c src e z v) := by
      cases fl with
      | nil => exact absurd h3.1 (by simp)
      | cons a t => exact g1
    rw [h1]
    refine ⟨by rw [answer, this], .inr ⟨h2, e, z, v, g2, by rw [answer, this]⟩⟩

theorem setBreakpoints_modified (seq : Nat) (src : Source) (ls : List Int) (s : Dbg) :
    setBreakpoints seq src true ls s =
      ({ s with bps := s.bps.filter (fun e => decide (e.2.sourcePath ≠ src.path.getD [])), counter := s.counter + ls.length },
       [.setBpsResp seq ((List.range' s.counter ls.length).map (fun i => modifiedBp i src))]) := by
  unfold setBreakpoints
  simp only [addBps_modified]

theorem setBreakpoints_ok {R : Str → List (Nat × Nat)} {s : Dbg} (hi : Inv R s) (seq : Nat) (src : Source) (ls : List Int)
    (hl : ∀ l ∈ ls, 0 ≤ l) :
    setBreakpoints seq src false ls s =
      ({ s with bps := s.bps.filter (fun e => decide (e.2.sourcePath ≠ src.path.getD [])) ++
                  newEntries src (toActual s.mappings (src.path.getD [])) (src.path.getD [])
                    (answer src (s.info.get? (toActual s.mappings (src.path.getD [])))) s.counter ls,
                counter := s.counter + ls.length },
       [.setBpsResp seq ((newEntries src (toActual s.mappings (src.path.getD [])) (src.path.getD [])
                    (answer src (s.info.get? (toActual s.mappings (src.path.getD [])))) s.counter ls).map (·.2.bp))]) := by
  unfold setBreakpoints
  simp only
  rw [addBps_ok src _ _ _ (answer src (s.info.get? (toActual s.mappings (src.path.getD []))))]
  · intro c l hl'
    obtain ⟨n, rfl⟩ : ∃ n : Nat, l = n := ⟨l.toNat, by have := hl l hl'; omega⟩
    exact (fresh_ok hi src _ c n).1
  · intro e he
    exact (hi.bps e (List.mem_filter.1 he).1).2.1

theorem inv_setBreakpoints {R : Str → List (Nat × Nat)} {s : Dbg} (hi : Inv R s) (seq : Nat) (src : Source) (m : Bool) (ls : List Int)
    (hl : ∀ l ∈ ls, 0 ≤ l) : Inv R (setBreakpoints seq src m ls s).1 := by
  cases m with
  | true =>
    rw [setBreakpoints_modified]
    refine ⟨hi.info, fun e he => ?_, ?_⟩
    · obtain ⟨h1, h2, h3⟩ := hi.bps e (List.mem_filter.1 he).1
      exact ⟨h1, by simp only; omega, h3⟩
    · exact hi.sorted.sublist ((List.filter_sublist).map _)
  | false =>
    rw [setBreakpoints_ok hi seq src ls hl]
    refine ⟨hi.info, fun e he => ?_, ?_⟩
    · simp only at he ⊢
      rcases List.mem_append.1 he with he | he
      · obtain ⟨h1, h2, h3⟩ := hi.bps e (List.mem_filter.1 he).1
        exact ⟨h1, by omega, h3⟩
      · obtain ⟨k, l, g1, g2, g3, rfl⟩ := newEntries_mem _ _ _ _ _ _ e he
        obtain ⟨n, rfl⟩ : ∃ n : Nat, l = n := ⟨l.toNat, by have := hl l g1; omega⟩
        exact ⟨rfl, g3, n, rfl, (fresh_ok hi src _ k n).2⟩
    · simp only [List.map_append, newEntries_ids]
      rw [List.pairwise_append]
      refine ⟨hi.sorted.sublist ((List.filter_sublist).map _), List.pairwise_lt_range', ?_⟩
      intro a ha b hb
      obtain ⟨e, he, rfl⟩ := List.mem_map.1 ha
      have h2 := (hi.bps e (List.mem_filter.1 he).1).2.1
      have := List.mem_range'_1.1 hb
      omega

/-! ## Histories -/

theorem regsOf_append (h h' : List Act) (p : Str) : regsOf (h ++ h') p = regsOf h p ++ regsOf h' p := by
  simp [regsOf, List.filterMap_append]

theorem inv_step {h : List Act} {s : Dbg} (hi : Inv (regsOf h) s) (a : Act) (ha : Sane a) :
    Inv (regsOf (h ++ [a])) (step s a).1 := by
  have hR : ∀ p, (∀ q l t, a = .reg q l t → q ≠ p) → regsOf (h ++ [a]) p = regsOf h p := by
    intro p hp
    rw [regsOf_append]
    cases a with
    | reg q l t => simp [regsOf, hp q l t rfl]
    | _ => simp [regsOf]
  cases a with
  | setBps seq src m ls =>
    have : regsOf (h ++ [Act.setBps seq src m ls]) = regsOf h := by funext p; exact hR p (by simp)
    rw [this]
    exact inv_setBreakpoints hi seq src m ls ha
  | setExc seq fs =>
    have : regsOf (h ++ [Act.setExc seq fs]) = regsOf h := by funext p; exact hR p (by simp)
    rw [this]
    exact ⟨hi.info, hi.bps, hi.sorted⟩
  | config ms =>
    have : regsOf (h ++ [Act.config ms]) = regsOf h := by funext p; exact hR p (by simp)
    rw [this]
    exact ⟨hi.info, hi.bps, hi.sorted⟩
  | disconnect =>
    have : regsOf (h ++ [Act.disconnect]) = regsOf h := by funext p; exact hR p (by simp)
    rw [this]
    exact ⟨hi.info, fun e he => by simp [step, forget] at he, List.Pairwise.nil⟩
  | reg p l t =>
    obtain ⟨n, rfl⟩ : ∃ n : Nat, l = n := ⟨l.toNat, by have : (0 : Int) ≤ l := ha; omega⟩
    obtain ⟨fl', -, h2, h3⟩ := register_ok hi p n t
    have : regsOf (h ++ [Act.reg p (n : Int) t]) = addReg (regsOf h) p n t := by
      funext q
      rw [regsOf_append]
      by_cases hq : q = p
      · simp [regsOf, addReg, hq]
      · have : p ≠ q := fun e => hq e.symm
        simp [regsOf, addReg, hq, this]
    rw [this]
    show Inv _ (register p (n : Int) t s).1
    rw [h2]
    exact h3

theorem inv_run {h : List Act} : ∀ (h0 : List Act) (s : Dbg), Inv (regsOf h0) s → (∀ a ∈ h, Sane a) →
    Inv (regsOf (h0 ++ h)) (run s h).1 := by
  induction h with
  | nil => intro h0 s hi _; simpa [run] using hi
  | cons a t ih =>
    intro h0 s hi hs
    have := ih (h0 ++ [a]) (step s a).1 (inv_step hi a (hs a List.mem_cons_self)) (fun b hb => hs b (List.mem_cons_of_mem _ hb))
    simpa [run] using this

theorem inv_hist (h : List Act) (hs : ∀ a ∈ h, Sane a) : Inv (regsOf h) (run {} h).1 := by
  simpa using inv_run [] {} inv_init hs

end Verif.Bp
