import Verif.Bp.Client
/-!
# setBreakpoints on the receive thread against registration on the strategy thread

The two handlers of `Verif.Bp.Model` cut into the pieces between which the interpreter may switch
threads. `source_info` (_debuggee.py:683) is a reference to the list that
`register_path_breakpoint` mutates in place (_debuggee.py:550-551), so only its presence is remembered.
Simplification: the loop over the kept breakpoints (_debuggee.py:553-577) is one piece (in CPython an insertion
by the other thread during that loop would even raise RuntimeError on the strategy thread).
-/

namespace Verif.Bp
open Verif

/-- The pieces. -/
inductive Op where
  | hRead (src : Source)                 -- _debuggee.py:672-683
  | hClear (src : Source)                -- _debuggee.py:687
  | hCompute (src : Source) (l : Int)    -- _debuggee.py:691-721 (unmodified source)
  | hStore                               -- _debuggee.py:723-731
  | hReply (seq : Nat)                   -- _debuggee.py:733-737
  | rTable (p : Str) (l : Int) (t : Nat) -- _debuggee.py:550-552
  | rScan (p : Str)                      -- _debuggee.py:553-577
deriving DecidableEq, Repr

/-- Shared state and the local variables of the two handlers. -/
structure RS where
  d : Dbg := {}
  actual : Str := []
  ref : Bool := false
  cur : Option LineBp := none
  resp : List Bp := []
  failed : Bool := false
  out : List Out := []

/-- One piece. -/
def exec (s : RS) : Op → RS
  | .hRead src =>
    let actual := toActual s.d.mappings (src.path.getD [])
    { s with actual := actual, ref := (s.d.info.get? actual).isSome, cur := none, resp := [], failed := false }
  | .hClear src =>
    { s with d := { s.d with bps := s.d.bps.filter fun e => decide (e.2.sourcePath ≠ src.path.getD []) } }
  | .hCompute src l =>
    bif s.failed then s else
    let si := bif s.ref then s.d.info.get? s.actual else none
    let c := s.d.counter
    match freshBp c src l si with
    | .error _ => { s with d := { s.d with counter := c + 1 }, failed := true, cur := none }
    | .ok bp =>
      { s with d := { s.d with counter := c + 1 }
               cur := some { id := c, source := src, reqLine := l, bp := bp, actualPath := s.actual, sourcePath := src.path.getD [] } }
  | .hStore =>
    match s.cur with
    | none => s
    | some b => { s with d := { s.d with bps := s.d.bps.set b.id b }, resp := s.resp ++ [b.bp], cur := none }
  | .hReply seq => { s with out := s.out ++ [bif s.failed then .error seq else .setBpsResp seq s.resp] }
  | .rTable p l t =>
    let fl := (s.d.info.get? p).getD [some 0]
    match regLine fl l t with
    | none => { s with d := { s.d with info := s.d.info.set p (fl ++ List.replicate (1 + l - fl.length).toNat none) } }
    | some fl' => { s with d := { s.d with info := s.d.info.set p fl' } }
  | .rScan p =>
    let r := refresh p ((s.d.info.get? p).getD [some 0]) s.d.bps
    { s with d := { s.d with bps := r.1 }, out := s.out ++ r.2.1 }

/-- A sequence of pieces. -/
def execAll (s : RS) (ops : List Op) : RS := ops.foldl exec s

/-- The pieces of one setBreakpoints request for an unmodified source, in program order. -/
def handlerOps (seq : Nat) (src : Source) (ls : List Int) : List Op :=
  [.hRead src, .hClear src] ++ ls.flatMap (fun l => [.hCompute src l, .hStore]) ++ [.hReply seq]

/-- The pieces of one registration. -/
def registerOps (p : Str) (l : Int) (t : Nat) : List Op := [.rTable p l t, .rScan p]

/-- `zs` is an interleaving of the two threads' pieces. -/
inductive Shuffle : List Op → List Op → List Op → Prop
  | nil : Shuffle [] [] []
  | left {x xs ys zs} : Shuffle xs ys zs → Shuffle (x :: xs) ys (x :: zs)
  | right {y xs ys zs} : Shuffle xs ys zs → Shuffle xs (y :: ys) (y :: zs)

/-- The registrations of a file in a sequence of pieces. -/
def opRegs (ops : List Op) (p : Str) : List (Nat × Nat) :=
  ops.filterMap fun
    | .rTable q l t => if q = p then some (l.toNat, t) else none
    | _ => none

/-- No negative lines. -/
def OpSane : Op → Prop
  | .hCompute _ l => 0 ≤ l
  | .rTable _ l _ => 0 ≤ l
  | _ => True

/-! ## Without interleaving the pieces are the handlers -/

theorem register_ops {R : Str → List (Nat × Nat)} (s : RS) (hi : Inv R s.d) (p : Str) (l : Nat) (t : Nat) :
    (execAll s (registerOps p (l : Int) t)).d = (register p (l : Int) t s.d).1 ∧
    (execAll s (registerOps p (l : Int) t)).out = s.out ++ (register p (l : Int) t s.d).2.1 := by
  obtain ⟨fl', h1, h2⟩ := rep_reg (inv_table hi p) l t
  have e1 : exec s (.rTable p (l : Int) t) = { s with d := { s.d with info := s.d.info.set p fl' } } := by
    simp only [exec, h1]
  simp only [execAll, registerOps, List.foldl_cons, List.foldl_nil, e1]
  simp [exec, Dict.get?_set, register, h1]

theorem handler_loop (src : Source) (ls : List Int) : ∀ (s : RS) (f : Nat → Int → Bp),
    s.failed = false → s.cur = none →
    (∀ c, ∀ l ∈ ls, freshBp c src l (bif s.ref then s.d.info.get? s.actual else none) = .ok (f c l)) →
    (∀ e ∈ s.d.bps, e.1 < s.d.counter) →
    execAll s (ls.flatMap (fun l => [.hCompute src l, .hStore])) =
      { s with
        d := { s.d with bps := s.d.bps ++ newEntries src s.actual (src.path.getD []) f s.d.counter ls
                        counter := s.d.counter + ls.length }
        resp := s.resp ++ (newEntries src s.actual (src.path.getD []) f s.d.counter ls).map (·.2.bp) } := by
  induction ls with
  | nil => intro s f _ _ _ _; simp [execAll, newEntries]
  | cons l t ih =>
    intro s f hf hc hb hlt
    have h1 := hb s.d.counter l List.mem_cons_self
    have hfresh : s.d.counter ∉ s.d.bps.map (·.1) := by
      intro hc
      obtain ⟨e, he, hh⟩ := List.mem_map.1 hc
      exact absurd (hlt e he) (by omega)
    simp only [List.flatMap_cons, execAll, List.foldl_append, List.foldl_cons, List.foldl_nil]
    have e1 : exec s (.hCompute src l) =
        { s with d := { s.d with counter := s.d.counter + 1 }
                 cur := some { id := s.d.counter, source := src, reqLine := l, bp := f s.d.counter l, actualPath := s.actual, sourcePath := src.path.getD [] } } := by
      simp only [exec, hf, cond_false, h1]
    rw [e1]
    simp only [exec]
    rw [Dict.set_fresh _ _ _ hfresh]
    have := ih { s with
        d := { s.d with counter := s.d.counter + 1, bps := s.d.bps ++ [(s.d.counter, { id := s.d.counter, source := src, reqLine := l, bp := f s.d.counter l, actualPath := s.actual, sourcePath := src.path.getD [] })] }
        resp := s.resp ++ [f s.d.counter l], cur := none } f hf rfl
        (fun c l hl => hb c l (List.mem_cons_of_mem _ hl)) (by
          intro e he
          rcases List.mem_append.1 he with he | he
          · exact Nat.lt_succ_of_lt (hlt e he)
          · rw [List.mem_singleton] at he; subst he; exact Nat.lt_succ_self _)
    unfold execAll at this
    rw [this]
    simp [newEntries, hc]
    omega

theorem handler_ops {R : Str → List (Nat × Nat)} (s : RS) (hi : Inv R s.d) (seq : Nat) (src : Source) (ls : List Int)
    (hl : ∀ l ∈ ls, 0 ≤ l) :
    (execAll s (handlerOps seq src ls)).d = (setBreakpoints seq src false ls s.d).1 ∧
    (execAll s (handlerOps seq src ls)).out = s.out ++ (setBreakpoints seq src false ls s.d).2 := by
  rw [setBreakpoints_ok hi seq src ls hl]
  have key := handler_loop src ls
    (exec (exec s (.hRead src)) (.hClear src))
    (answer src (s.d.info.get? (toActual s.d.mappings (src.path.getD [])))) rfl rfl (by
      intro c l hl'
      obtain ⟨n, rfl⟩ : ∃ n : Nat, l = n := ⟨l.toNat, by have := hl l hl'; omega⟩
      have := (fresh_ok hi src (toActual s.d.mappings (src.path.getD [])) c n).1
      rw [← this]
      simp only [exec]
      cases hg : s.d.info.get? (toActual s.d.mappings (src.path.getD [])) <;> simp) (by
      intro e he
      exact (hi.bps e (List.mem_filter.1 he).1).2.1)
  have : execAll s (handlerOps seq src ls) =
      exec (execAll (exec (exec s (.hRead src)) (.hClear src)) (ls.flatMap (fun l => [.hCompute src l, .hStore]))) (.hReply seq) := by
    simp [execAll, handlerOps, List.foldl_append]
  rw [this, key]
  constructor
  · simp [exec]
  · simp [exec]

/-! ## Any scan heals -/

/-- The tables are right and no kept or computed breakpoint has a negative line. -/
structure RInv (R : Str → List (Nat × Nat)) (s : RS) : Prop where
  info : ∀ p, (s.d.info.get? p = none ∧ R p = []) ∨ (∃ fl, s.d.info.get? p = some fl ∧ R p ≠ [] ∧ Rep (R p) fl)
  bps : ∀ e ∈ s.d.bps, 0 ≤ e.2.reqLine
  cur : ∀ b, s.cur = some b → 0 ≤ b.reqLine

/-- What a scan leaves, without any assumption on the breakpoints but their line. -/
theorem refresh_any {regs : List (Nat × Nat)} {fl : FileLines} (hr : Rep regs fl) (p : Str) (d : Dict Nat LineBp)
    (h : ∀ e ∈ d, 0 ≤ e.2.reqLine) :
    (∀ e ∈ (refresh p fl d).1, 0 ≤ e.2.reqLine) ∧ (refresh p fl d).2.2 = none ∧
    ∀ e ∈ (refresh p fl d).1, e.2.actualPath = p → ∃ req e' z : Nat, e.2.reqLine = (req : Int) ∧
      Snapped regs req e' z e.2.bp.verified ∧ e.2.bp.line = some (e' : Int) ∧ e.2.bp.endLine = some (z : Int) := by
  induction d with
  | nil => simp [refresh]
  | cons a t ih =>
    obtain ⟨k, b⟩ := a
    obtain ⟨i1, i2, i3⟩ := ih (fun e he => h e (List.mem_cons_of_mem _ he))
    have hb : 0 ≤ b.reqLine := h (k, b) List.mem_cons_self
    unfold refresh
    by_cases hp : b.actualPath = p
    · rw [if_neg (by simpa using hp)]
      obtain ⟨n, hn⟩ : ∃ n : Nat, b.reqLine = n := ⟨b.reqLine.toNat, by omega⟩
      obtain ⟨e', z, v, g1, g2⟩ := calculate_nat hr b.id b.source n
      rw [hn, g1]
      simp only
      cases hd : differs b.bp (mkBp b.id b.source e' z v) with
      | true =>
        simp only [cond_true]
        refine ⟨?_, i2, ?_⟩
        · intro e he
          rcases List.mem_cons.1 he with rfl | he
          · exact Int.natCast_nonneg n
          · exact i1 e he
        · intro e he hep
          rcases List.mem_cons.1 he with rfl | he
          · exact ⟨n, e', z, rfl, g2, rfl, rfl⟩
          · exact i3 e he hep
      | false =>
        simp only [cond_false]
        refine ⟨?_, i2, ?_⟩
        · intro e he
          rcases List.mem_cons.1 he with rfl | he
          · exact hb
          · exact i1 e he
        · intro e he hep
          rcases List.mem_cons.1 he with rfl | he
          · simp [differs] at hd
            refine ⟨n, e', z, hn, ?_, ?_, ?_⟩
            · rw [hd.1.1]; exact g2
            · rw [hd.1.2]; rfl
            · rw [hd.2]; rfl
          · exact i3 e he hep
    · rw [if_pos hp]
      simp only
      refine ⟨?_, i2, ?_⟩
      · intro e he
        rcases List.mem_cons.1 he with rfl | he
        · exact hb
        · exact i1 e he
      · intro e he hep
        rcases List.mem_cons.1 he with rfl | he
        · exact absurd hep hp
        · exact i3 e he hep

theorem rinv_table {R : Str → List (Nat × Nat)} {s : RS} (hi : RInv R s) (p : Str) :
    Rep (R p) ((s.d.info.get? p).getD [some 0]) := by
  rcases hi.info p with ⟨h1, h2⟩ | ⟨fl, h1, -, h3⟩
  · rw [h1, h2]; exact rep_nil
  · rw [h1]; exact h3

theorem rinv_exec {ops : List Op} {s : RS} (hi : RInv (opRegs ops) s) (o : Op) (ho : OpSane o) :
    RInv (opRegs (ops ++ [o])) (exec s o) := by
  have hR : (∀ q l t, o ≠ .rTable q l t) → opRegs (ops ++ [o]) = opRegs ops := by
    intro h
    funext p
    cases o with
    | rTable q l t => exact absurd rfl (h q l t)
    | _ => simp [opRegs]
  cases o with
  | hRead src => rw [hR (by simp)]; exact ⟨hi.info, hi.bps, fun b hb => by simp [exec] at hb⟩
  | hClear src =>
    rw [hR (by simp)]
    exact ⟨hi.info, fun e he => hi.bps e (List.mem_filter.1 he).1, hi.cur⟩
  | hCompute src l =>
    rw [hR (by simp)]
    simp only [exec]
    cases s.failed with
    | true => exact hi
    | false =>
      simp only [cond_false]
      cases freshBp s.d.counter src l (bif s.ref then s.d.info.get? s.actual else none) with
      | error e => exact ⟨hi.info, hi.bps, fun b hb => by cases hb⟩
      | ok bp => exact ⟨hi.info, hi.bps, fun b hb => by cases hb; exact ho⟩
  | hStore =>
    rw [hR (by simp)]
    simp only [exec]
    cases hc : s.cur with
    | none => exact hi
    | some b =>
      refine ⟨hi.info, fun e he => ?_, fun b hb => by cases hb⟩
      rcases Dict.mem_set _ _ _ _ he with h | h
      · exact h ▸ hi.cur b hc
      · exact hi.bps e h
  | hReply seq => rw [hR (by simp)]; exact ⟨hi.info, hi.bps, hi.cur⟩
  | rTable p l t =>
    obtain ⟨n, rfl⟩ : ∃ n : Nat, l = n := ⟨l.toNat, by have : (0 : Int) ≤ l := ho; omega⟩
    obtain ⟨fl', h1, h2⟩ := rep_reg (rinv_table hi p) n t
    simp only [exec, h1]
    refine ⟨fun q => ?_, hi.bps, hi.cur⟩
    have hq : opRegs (ops ++ [Op.rTable p (n : Int) t]) q = if p = q then opRegs ops q ++ [(n, t)] else opRegs ops q := by
      unfold opRegs
      rw [List.filterMap_append]
      by_cases hp : p = q <;> simp [hp]
    simp only [hq, Dict.get?_set]
    by_cases hp : p = q
    · subst hp
      right
      refine ⟨fl', by simp, by simp, by simpa using h2⟩
    · simp only [hp, if_false]
      exact hi.info q
  | rScan p =>
    rw [hR (by simp)]
    refine ⟨hi.info, ?_, hi.cur⟩
    exact (refresh_any (rinv_table hi p) p s.d.bps hi.bps).1

theorem rinv_all (ops : List Op) : ∀ (done : List Op) (s : RS), RInv (opRegs done) s → (∀ o ∈ ops, OpSane o) →
    RInv (opRegs (done ++ ops)) (execAll s ops) := by
  induction ops with
  | nil => intro done s hi _; simpa [execAll] using hi
  | cons o t ih =>
    intro done s hi hs
    have := ih (done ++ [o]) (exec s o) (rinv_exec hi o (hs o List.mem_cons_self)) (fun b hb => hs b (List.mem_cons_of_mem _ hb))
    simpa [execAll] using this

theorem rinv_init : RInv (opRegs []) {} :=
  ⟨fun _ => .inl ⟨rfl, rfl⟩, fun _ h => absurd h (List.not_mem_nil), fun _ h => by cases h⟩

end Verif.Bp
