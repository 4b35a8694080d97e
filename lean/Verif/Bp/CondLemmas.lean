import Verif.Bp.Cond
import Verif.Bp.Lemmas
import Verif.Py.Dict
/-! # Breakpoints with their conditions (proofs only) -/

namespace Verif.Bp.Cond
open Verif Verif.Bp

/-- Without the conditions. -/
def eraseBps (d : Dict Nat Kept) : Dict Nat LineBp := d.map fun e => (e.1, e.2.1)

def erase (s : St) : Dbg := { exc := s.exc, bps := eraseBps s.bps, counter := s.counter, info := s.info, mappings := s.mappings }

def Act.erase : Act → Bp.Act
  | .setBps seq src m bps => .setBps seq src m (bps.map (·.line))
  | .setExc seq fs => .setExc seq fs
  | .config ms => .config ms
  | .disconnect => .disconnect
  | .reg p l t => .reg p l t

theorem erase_set (d : Dict Nat Kept) (k : Nat) (v : Kept) : eraseBps (d.set k v) = (eraseBps d).set k v.1 := by
  induction d with
  | nil => rfl
  | cons e d ih =>
    obtain ⟨k', v'⟩ := e
    simp only [eraseBps, Dict.set, List.map_cons]
    split
    · rfl
    · simp only [List.map_cons]; congr 1

theorem erase_refresh (path : Str) (fl : FileLines) (d : Dict Nat Kept) :
    Bp.refresh path fl (eraseBps d) = (eraseBps (refresh path fl d).1, (refresh path fl d).2.1, (refresh path fl d).2.2) := by
  induction d with
  | nil => rfl
  | cons e d ih =>
    obtain ⟨k, b, c⟩ := e
    simp only [eraseBps, List.map_cons] at ih ⊢
    unfold Bp.refresh refresh
    split
    · rw [ih]; rfl
    · cases calculate b.id b.source b.reqLine fl with
      | error e => rfl
      | ok bp =>
        simp only [ih]
        cases differs b.bp bp <;> rfl

theorem erase_addBps (src : Source) (m : Bool) (actual spath : Str) (si : Option FileLines) (ls : List SrcBp) : ∀ c d,
    Bp.addBps src m actual spath si (ls.map (·.line)) c (eraseBps d) =
      (eraseBps (addBps src m actual spath si ls c d).1, (addBps src m actual spath si ls c d).2) := by
  induction ls with
  | nil => intro c d; rfl
  | cons l ls ih =>
    intro c d
    simp only [List.map_cons]
    unfold Bp.addBps addBps
    cases m with
    | true => simp only [cond_true]; rw [ih]
    | false =>
      simp only [cond_false]
      cases freshBp c src l.line si with
      | error e => rfl
      | ok bp =>
        have := ih (c + 1) (d.set c ({ id := c, source := src, reqLine := l.line, bp := bp, actualPath := actual, sourcePath := spath }, l.condition))
        rw [erase_set] at this
        simp only at this ⊢
        rw [this]

theorem erase_step (s : St) (a : Act) : Bp.step (erase s) a.erase = (erase (step s a).1, (step s a).2) := by
  cases a with
  | setExc seq fs => rfl
  | config ms => rfl
  | disconnect => rfl
  | reg p l t =>
    simp only [Act.erase, Bp.step, step, Bp.register, register, erase]
    cases regLine ((Dict.get? s.info p).getD [some 0]) l t with
    | none => rfl
    | some fl' => simp only; rw [erase_refresh]
  | setBps seq src m bps =>
    simp only [Act.erase, Bp.step, step, Bp.setBreakpoints, setBreakpoints, erase]
    have : (eraseBps s.bps).filter (fun e => decide (e.2.sourcePath ≠ src.path.getD [])) =
        eraseBps (s.bps.filter fun e => decide (e.2.1.sourcePath ≠ src.path.getD [])) := by
      simp only [eraseBps, List.filter_map]; rfl
    rw [this, erase_addBps]
    generalize addBps src m _ _ _ bps _ _ = r
    obtain ⟨r1, r2, r3, r4⟩ := r
    cases r4 <;> rfl

/-- Without the conditions, the functions here are those of `Verif.Bp.Model`. -/
theorem eraseRun (as : List Act) : ∀ s : St, Bp.run (erase s) (as.map Act.erase) = (erase (run s as).1, (run s as).2) := by
  induction as with
  | nil => intro s; rfl
  | cons a as ih =>
    intro s
    simp only [List.map_cons, Bp.run, run]
    rw [erase_step, ih]

theorem run_append (xs ys : List Act) : ∀ s, run s (xs ++ ys) = ((run (run s xs).1 ys).1, (run s xs).2 ++ (run (run s xs).1 ys).2) := by
  induction xs with
  | nil => intro s; simp [run]
  | cons x xs ih => intro s; simp only [List.cons_append, run]; rw [ih]; simp [List.append_assoc]

theorem mem_set {α : Type} {d : Dict Nat α} {k k' : Nat} {v x : α} (h : (k', x) ∈ d.set k v) : (k', x) ∈ d ∨ (k' = k ∧ x = v) := by
  induction d with
  | nil => simp only [Dict.set, List.mem_singleton, Prod.mk.injEq] at h; exact .inr h
  | cons e d ih =>
    obtain ⟨k0, v0⟩ := e
    simp only [Dict.set] at h
    split at h
    · rename_i hk
      rcases List.mem_cons.1 h with h | h
      · cases h; exact .inr ⟨hk, rfl⟩
      · exact .inl (List.mem_cons_of_mem _ h)
    · rcases List.mem_cons.1 h with h | h
      · exact .inl (h ▸ List.mem_cons_self ..)
      · rcases ih h with h | h
        · exact .inl (List.mem_cons_of_mem _ h)
        · exact .inr h

/-- What was asked for is kept of a breakpoint. -/
def Same (x y : Kept) : Prop := x.2 = y.2 ∧ x.1.id = y.1.id ∧ x.1.source = y.1.source ∧ x.1.reqLine = y.1.reqLine ∧ x.1.sourcePath = y.1.sourcePath

theorem Same.rfl {x : Kept} : Same x x := ⟨_root_.rfl, _root_.rfl, _root_.rfl, _root_.rfl, _root_.rfl⟩

/-- The breakpoint `k ↦ x` was made from entry `i`. -/
def MadeFrom (src : Source) (e : SrcBp) (k : Nat) (x : Kept) : Prop :=
  x.2 = e.condition ∧ x.1.id = k ∧ x.1.source = src ∧ x.1.reqLine = e.line ∧ x.1.sourcePath = src.path.getD []

theorem addBps_spec (src : Source) (m : Bool) (actual : Str) (si : Option FileLines) (ls : List SrcBp) : ∀ c d r,
    addBps src m actual (src.path.getD []) si ls c d = r →
    c ≤ r.2.1 ∧
    (∀ k x, (k, x) ∈ r.1 → (k, x) ∈ d ∨ ∃ i e, ls[i]? = some e ∧ k = c + i ∧ k < r.2.1 ∧ m = false ∧ MadeFrom src e k x) ∧
    (∀ i b, r.2.2.1[i]? = some b → b.id = c + i ∧ c + i < r.2.1 ∧ ∃ e, ls[i]? = some e) ∧
    (r.2.2.2 = none → r.2.2.1.length = ls.length) := by
  induction ls with
  | nil =>
    rintro c d r rfl
    simp only [addBps]
    exact ⟨Nat.le_refl _, fun k x h => .inl h, by simp, by simp⟩
  | cons l ls ih =>
    rintro c d r rfl
    unfold addBps
    cases m with
    | true =>
      simp only [cond_true]
      obtain ⟨h1, h2, h3, h4⟩ := ih (c + 1) d _ rfl
      refine ⟨by omega, ?_, ?_, fun h => by simp [h4 h]⟩
      · intro k x h
        rcases h2 k x h with h | ⟨_, _, _, _, _, h, _⟩
        · exact .inl h
        · cases h
      · intro i b hb
        cases i with
        | zero => simp at hb; subst hb; exact ⟨_root_.rfl, by omega, l, _root_.rfl⟩
        | succ i =>
          simp only [List.getElem?_cons_succ] at hb
          obtain ⟨g1, g2, e, g3⟩ := h3 i b hb
          exact ⟨by omega, by omega, e, by simpa using g3⟩
    | false =>
      simp only [cond_false]
      cases hf : freshBp c src l.line si with
      | error e => exact ⟨by simp, fun k x h => .inl h, by simp, by simp⟩
      | ok bp =>
        simp only
        obtain ⟨h1, h2, h3, h4⟩ := ih (c + 1) (d.set c ({ id := c, source := src, reqLine := l.line, bp := bp, actualPath := actual, sourcePath := src.path.getD [] }, l.condition)) _ rfl
        have hid : bp.id = c := by
          unfold freshBp at hf
          split at hf
          · cases hf; rfl
          · cases hf; rfl
          · unfold calculate at hf
            dsimp only at hf
            split at hf
            · cases hf
            · cases hf; rfl
        refine ⟨by omega, ?_, ?_, fun h => by simp [h4 h]⟩
        · intro k x h
          rcases h2 k x h with h | ⟨i, e, g1, g2, g3, g4, g5⟩
          · rcases mem_set h with h | ⟨rfl, rfl⟩
            · exact .inl h
            · exact .inr ⟨0, l, rfl, rfl, by omega, trivial, rfl, rfl, rfl, rfl, rfl⟩
          · exact .inr ⟨i + 1, e, by simpa using g1, by omega, g3, trivial, g5⟩
        · intro i b hb
          cases i with
          | zero => simp at hb; subst hb; exact ⟨hid, by omega, l, rfl⟩
          | succ i =>
            simp only [List.getElem?_cons_succ] at hb
            obtain ⟨g1, g2, e, g3⟩ := h3 i b hb
            exact ⟨by omega, by omega, e, by simpa using g3⟩

theorem refresh_same (path : Str) (fl : FileLines) (d : Dict Nat Kept) : ∀ k x, (k, x) ∈ (refresh path fl d).1 → ∃ y, (k, y) ∈ d ∧ Same y x := by
  induction d with
  | nil => intro k x h; cases h
  | cons e d ih =>
    obtain ⟨k0, b, c⟩ := e
    intro k x h
    have keep : (k, x) ∈ (k0, b, c) :: (refresh path fl d).1 → ∃ y, (k, y) ∈ (k0, b, c) :: d ∧ Same y x := by
      intro h
      rcases List.mem_cons.1 h with h | h
      · cases h; exact ⟨_, List.mem_cons_self .., Same.rfl⟩
      · obtain ⟨y, hy, hs⟩ := ih k x h; exact ⟨y, List.mem_cons_of_mem _ hy, hs⟩
    unfold refresh at h
    split at h
    · exact keep h
    · split at h
      · exact ⟨x, h, Same.rfl⟩
      · rename_i bp _
        dsimp only at h
        cases hd : differs b.bp bp with
        | true =>
          rw [hd] at h
          simp only [cond_true] at h
          rcases List.mem_cons.1 h with h | h
          · cases h; exact ⟨(b, c), List.mem_cons_self .., rfl, rfl, rfl, rfl, rfl⟩
          · obtain ⟨y, hy, hs⟩ := ih k x h; exact ⟨y, List.mem_cons_of_mem _ hy, hs⟩
        | false =>
          rw [hd] at h
          exact keep h

/-- The entry `e`, at place `i` of the request, made the breakpoint `k`. -/
def Asked (as : List Act) (k : Nat) (x : Kept) : Prop :=
  ∃ pre seq src es i e post, as = pre ++ .setBps seq src false es :: post ∧ es[i]? = some e ∧ k = (run {} pre).1.counter + i ∧ MadeFrom src e k x

/-- One action: a kept breakpoint was kept before, or comes from the request. -/
theorem step_spec (s : St) (a : Act) :
    s.counter ≤ (step s a).1.counter ∧
    ∀ k x, (k, x) ∈ (step s a).1.bps → (∃ y, (k, y) ∈ s.bps ∧ Same y x) ∨
      ∃ seq src es i e, a = .setBps seq src false es ∧ es[i]? = some e ∧ k = s.counter + i ∧ k < (step s a).1.counter ∧ MadeFrom src e k x := by
  cases a with
  | setExc seq fs => exact ⟨Nat.le_refl _, fun k x h => .inl ⟨x, h, Same.rfl⟩⟩
  | config ms => exact ⟨Nat.le_refl _, fun k x h => .inl ⟨x, h, Same.rfl⟩⟩
  | disconnect => exact ⟨Nat.le_refl _, fun k x h => by cases h⟩
  | reg p l t =>
    simp only [step, register]
    split
    · exact ⟨Nat.le_refl _, fun k x h => .inl ⟨x, h, Same.rfl⟩⟩
    · exact ⟨Nat.le_refl _, fun k x h => .inl (refresh_same _ _ _ k x h)⟩
  | setBps seq src m es =>
    obtain ⟨h1, h2, -, -⟩ := addBps_spec src m (toActual s.mappings (src.path.getD [])) (s.info.get? (toActual s.mappings (src.path.getD []))) es s.counter
      (s.bps.filter fun e => decide (e.2.1.sourcePath ≠ src.path.getD [])) _ rfl
    refine ⟨h1, fun k x h => ?_⟩
    rcases h2 k x h with h | ⟨i, e, g1, g2, g3, rfl, g5⟩
    · exact .inl ⟨x, (List.mem_filter.1 h).1, Same.rfl⟩
    · exact .inr ⟨seq, src, es, i, e, rfl, g1, g2, g3, g5⟩

/-- A history: a breakpoint kept at the end was kept at the start, or has a number from the counter on. -/
theorem run_spec (as : List Act) : ∀ s : St,
    s.counter ≤ (run s as).1.counter ∧
    ∀ k x, (k, x) ∈ (run s as).1.bps → (∃ y, (k, y) ∈ s.bps ∧ Same y x) ∨ s.counter ≤ k := by
  induction as with
  | nil => intro s; exact ⟨Nat.le_refl _, fun k x h => .inl ⟨x, h, Same.rfl⟩⟩
  | cons a as ih =>
    intro s
    obtain ⟨h1, h2⟩ := step_spec s a
    obtain ⟨h3, h4⟩ := ih (step s a).1
    refine ⟨Nat.le_trans h1 h3, fun k x h => ?_⟩
    rcases h4 k x h with ⟨y, hy, hs⟩ | h
    · rcases h2 k y hy with ⟨z, hz, hs'⟩ | ⟨_, _, _, i, _, _, _, rfl, _⟩
      · exact .inl ⟨z, hz, hs'.1.trans hs.1, hs'.2.1.trans hs.2.1, hs'.2.2.1.trans hs.2.2.1, hs'.2.2.2.1.trans hs.2.2.2.1, hs'.2.2.2.2.trans hs.2.2.2.2⟩
      · exact .inr (by omega)
    · exact .inr (by omega)

theorem made_same {src : Source} {e : SrcBp} {k : Nat} {x y : Kept} (h : MadeFrom src e k y) (hs : Same y x) : MadeFrom src e k x := by
  obtain ⟨h1, h2, h3, h4, h5⟩ := h
  obtain ⟨s1, s2, s3, s4, s5⟩ := hs
  exact ⟨s1 ▸ h1, s2 ▸ h2, s3 ▸ h3, s4 ▸ h4, s5 ▸ h5⟩

/-- Keys are below the counter, and distinct. -/
theorem run_keys (as : List Act) : ∀ k x, (k, x) ∈ (run {} as).1.bps → k < (run {} as).1.counter ∧ Asked as k x := by
  refine snocInd (P := fun as => ∀ k x, (k, x) ∈ (run {} as).1.bps → k < (run {} as).1.counter ∧ Asked as k x) ?_ ?_ as
  · intro k x h; cases h
  · intro as a ih k x h
    rw [run_append] at h ⊢
    obtain ⟨h1, h2⟩ := step_spec (run {} as).1 a
    have hrun : (run (run {} as).1 [a]).1 = (step (run {} as).1 a).1 := rfl
    simp only [hrun] at h ⊢
    rcases h2 k x h with ⟨y, hy, hs⟩ | ⟨seq, src, es, i, e, rfl, g1, g2, g3, g4⟩
    · obtain ⟨hk, pre, seq, src, es, i, e, post, rfl, a2, a3, a4⟩ := ih k y hy
      exact ⟨by omega, pre, seq, src, es, i, e, post ++ [a], by simp, a2, a3, made_same a4 hs⟩
    · exact ⟨g3, as, seq, src, es, i, e, [], rfl, g1, g2, g4⟩

end Verif.Bp.Cond
