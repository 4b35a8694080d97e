import Verif.Props.StratVars
/-!
# Child counts and paging (C73)

`named_variables` and `indexed_variables` of the variables, scopes and setVariable answers, on top of
the model of `Verif.Strat.State`.
-/

namespace Verif.Props.Strat
open Verif Verif.Strat

/-- `len(self._ds)` (debug.py:370-371, 398-399). -/
def objLen (h : Heap) (a : Addr) : Nat :=
  match h[a]? with
  | some (.dict _ es) => es.length
  | some (.seq _ xs) => xs.length
  | none => 0

/-- `named_variables` and `indexed_variables` of a variable object (debug.py:332-338 and 370-371,
397-399): what the answers of get_scopes (debug.py:731-775), get_variables (debug.py:903-912) and
set_variable (debug.py:933-941) carry next to the reference, computed when the reference is made; 0
and 0 next to reference 0. -/
def counts (s : DS) (ref : Nat) : Nat × Nat :=
  match s.vars.get? ref with
  | none => (0, 0)
  | some v => match v.kind with
    | .list => (0, objLen s.heap v.addr)
    | _ => (objLen s.heap v.addr, 0)

/-- A variables request with its optional paging arguments `filter`, `start` and `count`
(debug.py:878-917): the handler reads only the reference. -/
def pagedVariables (ref : Nat) (_filter : Option Str) (_start _count : Option Nat) : Req := .variables ref

theorem listing_length (h : Heap) (a : Addr) : (listing h a).length = objLen h a := by
  unfold listing objLen
  split <;> simp_all

/-- **C73** (counts). Whenever an answer hands out a reference, the counts next to it are those of the
children: as long as the reference resolves and the container is not changed, a variables request for
it is answered with exactly that many children in total, and one of the two counts is 0. -/
theorem C73_counts_partial {s s' s2 : DS} {r : Req} {o os : List Out} {ls : List Label} (hr : Reachable s)
    (h : step s (.req r) = some (s', o)) (v : Nat) (hv : v ∈ o.flatMap refsOf) (hrun : Run s' ls s2 os)
    (hthere : s2.vars.get? v ≠ none) (hsame : s2.heap = s'.heap) :
    ((counts s' v).1 = 0 ∨ (counts s' v).2 = 0) ∧
    ∃ l, shown s2 v = some l ∧ l.length = (counts s' v).1 + (counts s' v).2 := by
  have hres := C42_resolves hr h v hv
  obtain ⟨x, hx⟩ := hres
  obtain ⟨ls0, os0, h0⟩ := hr
  have hkeep := (C42_meaning (run_append h0 (.cons h (.nil _))) hrun).1 v (by simp; exact .inr (by simpa using hv))
  have hx2 : s2.vars.get? v = some x := by
    rcases hkeep with e | e
    · rw [e, hx]
    · exact absurd e hthere
  rw [shown_eq, hx2]
  simp only [Option.map_some, Option.some.injEq, exists_eq_left', listing_length, hsame, counts, hx]
  cases x.kind <;> simp

theorem listVars_spec (f : Nat) (es : List (Str × Val)) : ∀ s : DS,
    (listVars f es s).1.heap = s.heap ∧
    (∀ k, k < s.nextV → (listVars f es s).1.vars.get? k = s.vars.get? k) ∧
    ∀ n x v, (n, x, v) ∈ (listVars f es s).2 → (∃ t, x = .atom t ∧ v = 0) ∨
      ∃ a, x = .ref a ∧ s.nextV ≤ v ∧ (listVars f es s).1.vars.get? v = some { frame := f, kind := kindOf s.heap a, addr := a } := by
  induction es with
  | nil => intro s; exact ⟨rfl, fun _ _ => rfl, by intro n x v h; cases h⟩
  | cons e es ih =>
    intro s
    obtain ⟨m, y⟩ := e
    cases y with
    | atom t =>
      obtain ⟨i1, i2, i3⟩ := ih s
      refine ⟨i1, i2, ?_⟩
      intro n x v h
      simp only [listVars, List.mem_cons] at h
      rcases h with h | h
      · cases h; exact .inl ⟨t, rfl, rfl⟩
      · exact i3 n x v h
    | ref a =>
      obtain ⟨i1, i2, i3⟩ := ih (addVar s f (kindOf s.heap a) a).1
      have hn : (addVar s f (kindOf s.heap a) a).1.nextV = s.nextV + 1 := rfl
      have hh : (addVar s f (kindOf s.heap a) a).1.heap = s.heap := rfl
      have hv : (addVar s f (kindOf s.heap a) a).1.vars = s.vars.set s.nextV { frame := f, kind := kindOf s.heap a, addr := a } := rfl
      rw [hn] at i2 i3
      rw [hh] at i1 i3
      refine ⟨i1, ?_, ?_⟩
      · intro k hk
        simp only [listVars]
        rw [i2 k (by omega), hv, DL.get_set, if_neg (by omega)]
      · intro n x v h
        simp only [listVars, List.mem_cons] at h
        rcases h with h | h
        · cases h
          refine .inr ⟨a, rfl, Nat.le_refl _, ?_⟩
          simp only [listVars]
          rw [show (addVar s f (kindOf s.heap a) a).2 = s.nextV from rfl, i2 _ (by omega), hv, DL.get_set, if_pos rfl]
        · rcases i3 n x v h with h | ⟨b, h1, h2, h3⟩
          · exact .inl h
          · exact .inr ⟨b, h1, by omega, h3⟩

theorem zipIdx_names (xs : List Val) : ∀ k, (xs.zipIdx k).map (fun e => natDec e.2) = (List.range' k xs.length).map natDec := by
  induction xs with
  | nil => intro k; rfl
  | cons x xs ih => intro k; simp only [List.zipIdx_cons, List.map_cons, ih, List.length_cons, List.range'_succ]

/-- **C73** (indexed children). In the answer to a variables request: an entry without a reference has
a value that is no container; the children of an entry with an indexed count are named by their
indices, 0 to the count. -/
theorem C73_indices_partial {s s' : DS} {ref : Nat} {vs : List (Str × Val × Nat)} (hr : Reachable s)
    (h : step s (.req (.variables ref)) = some (s', [.variables vs])) (n : Str) (x : Val) (v : Nat) (hm : (n, x, v) ∈ vs) :
    (v = 0 ↔ ∃ t, x = .atom t) ∧
    (0 < (counts s' v).2 → ∃ l, shown s' v = some l ∧ l.map (·.1) = (List.range (counts s' v).2).map natDec) := by
  have hi := reach_inv hr
  simp only [step, request, getVariables, Option.some.injEq] at h
  cases hg : s.vars.get? ref with
  | none => rw [hg] at h; cases h
  | some y =>
    rw [hg] at h
    simp only [Prod.mk.injEq, List.cons.injEq, and_true] at h
    obtain ⟨rfl, h2⟩ := h
    cases h2
    obtain ⟨i1, -, i3⟩ := listVars_spec y.frame (listing s.heap y.addr) s
    have hpos := hi.core.nv1
    rcases i3 n x v hm with ⟨t, rfl, rfl⟩ | ⟨a, rfl, h1, h2⟩
    · refine ⟨by simp, ?_⟩
      intro hc
      have : (listVars y.frame (listing s.heap y.addr) s).1.vars.get? 0 = none := by
        cases e : (listVars y.frame (listing s.heap y.addr) s).1.vars.get? 0 with
        | none => rfl
        | some z =>
          rw [(listVars_spec y.frame (listing s.heap y.addr) s).2.1 0 (by omega)] at e
          have := hi.core.vlt e
          omega
      simp [counts, this] at hc
    · refine ⟨⟨fun e => by omega, fun ⟨t, e⟩ => by cases e⟩, ?_⟩
      intro hc
      rw [shown_eq, h2]
      refine ⟨_, rfl, ?_⟩
      simp only [counts, h2, i1] at hc ⊢
      unfold kindOf objLen listing at *
      cases ho : s.heap[a]? with
      | none => rw [ho] at hc; simp at hc
      | some ob =>
        rw [ho] at hc
        cases ob with
        | dict m es => simp at hc
        | seq m xs =>
          simp only [List.map_map]
          rw [List.range_eq_range']
          exact zipIdx_names xs 0

/-- **C73 is false of the code as to paging**: a client that pages through the children of a list (which
the indexed count invites it to) and asks for one child, from index 1 on, gets all of them. -/
theorem C73_paging_refuted : ∃ (s s' : DS) (vs : List (Str × Val × Nat)) (v : Nat), Reachable s ∧ counts s v = (0, 2) ∧
    step s (.req (pagedVariables v (some py!"indexed") (some 1) (some 1))) = some (s', [.variables vs]) ∧ vs.length = 2 := by
  refine ⟨stF v0 [.req scopes1, .req (.variables 4)], stF (stF v0 [.req scopes1, .req (.variables 4)]) [.req (.variables 5)],
    [(natDec 0, .atom py!"1", 0), (natDec 1, .atom py!"2", 0)], 5, ?_, by decide +kernel, ?_, rfl⟩
  · exact reach_append v0_reachable (run_of (ls := [.req scopes1, .req (.variables 4)]) (by decide +kernel))
  · have ho : ouF (stF v0 [.req scopes1, .req (.variables 4)]) [.req (.variables 5)] =
        [.variables [(natDec 0, .atom py!"1", 0), (natDec 1, .atom py!"2", 0)]] := by decide +kernel
    have hs := step_of (s := stF v0 [.req scopes1, .req (.variables 4)]) (l := .req (.variables 5)) (by decide +kernel)
    rw [ho] at hs
    exact hs

/-- The part of the children `l` a variables request asks for, from the protocol: `filter` limits it to
the named or the indexed children (a container has `named` of the one and `indexed` of the other, one of
them 0), `start` is the first one wanted (0 if absent) and `count` how many (all if absent or 0). -/
def page {α : Type} (named indexed : Nat) (l : List α) (filter : Option Str) (start count : Option Nat) : List α :=
  let kind := if filter = some py!"named" ∧ 0 < indexed ∨ filter = some py!"indexed" ∧ 0 < named then [] else l
  let rest := kind.drop (start.getD 0)
  match count with
  | none => rest
  | some 0 => rest
  | some (n + 1) => rest.take (n + 1)

/-- **C73** (paging, exactly). A variables request for a reference with children is answered with the
part it asks for iff it asks for all of them: it does not ask for the other kind, does not start behind
the first, and does not want fewer than there are. -/
theorem C73_page_exact_partial {s s' : DS} {ref : Nat} {vs : List (Str × Val × Nat)} {all : List (Str × Val)}
    (filter : Option Str) (start count : Option Nat)
    (h : step s (.req (pagedVariables ref filter start count)) = some (s', [.variables vs]))
    (hall : shown s ref = some all) (hne : all ≠ []) :
    vs.map (fun e => (e.1, e.2.1)) = page (counts s ref).1 (counts s ref).2 all filter start count ↔
      ¬(filter = some py!"named" ∧ 0 < (counts s ref).2) ∧ ¬(filter = some py!"indexed" ∧ 0 < (counts s ref).1) ∧
      start.getD 0 = 0 ∧ ∀ n, count = some n → n = 0 ∨ all.length ≤ n := by
  have hvs : vs.map (fun e => (e.1, e.2.1)) = all := by
    simp only [step, pagedVariables, Option.some.injEq] at h
    unfold shown at hall
    rw [h] at hall
    simpa using hall
  have hpos : 0 < all.length := List.length_pos_iff.2 hne
  rw [hvs]
  have hlen : ∀ {l : List (Str × Val)}, all = l → all.length = l.length := fun e => congrArg _ e
  by_cases hk : filter = some py!"named" ∧ 0 < (counts s ref).2 ∨ filter = some py!"indexed" ∧ 0 < (counts s ref).1
  · have hp : page (counts s ref).1 (counts s ref).2 all filter start count = [] := by
      unfold page
      rw [if_pos hk]
      match count with
      | none => simp
      | some 0 => simp
      | some (n + 1) => simp
    rw [hp]
    constructor
    · intro e; exact absurd e hne
    · rintro ⟨h1, h2, -⟩
      rcases hk with e | e
      · exact absurd e h1
      · exact absurd e h2
  · have hk1 : ¬(filter = some py!"named" ∧ 0 < (counts s ref).2) := fun e => hk (.inl e)
    have hk2 : ¬(filter = some py!"indexed" ∧ 0 < (counts s ref).1) := fun e => hk (.inr e)
    unfold page
    rw [if_neg hk]
    constructor
    · intro e
      refine ⟨hk1, hk2, ?_⟩
      match count, e with
      | none, e =>
        have := hlen e
        rw [List.length_drop] at this
        exact ⟨by omega, by intro n h; cases h⟩
      | some 0, e =>
        have := hlen e
        rw [List.length_drop] at this
        exact ⟨by omega, by intro n h; cases h; exact .inl rfl⟩
      | some (m + 1), e =>
        have := hlen e
        rw [List.length_take, List.length_drop] at this
        exact ⟨by omega, by intro n h; cases h; right; omega⟩
    · rintro ⟨-, -, h0, hc⟩
      rw [h0]
      match count, hc with
      | none, _ => rfl
      | some 0, _ => rfl
      | some (m + 1), hc =>
        rcases hc _ rfl with e | e
        · omega
        · simp only [List.drop_zero]
          exact (List.take_of_length_le e).symm

/-- The list with two children of `C73_paging_refuted`: asking for both is answered right, asking for
the second alone is not. -/
example : page 0 2 [1, 2] (some py!"indexed") (some 0) (some 2) = [1, 2] ∧ page 0 2 [1, 2] (some py!"indexed") (some 1) (some 1) = [2] ∧
    page 0 2 [1, 2] (some py!"named") none none = [] ∧ page 0 2 [1, 2] none none none = [1, 2] ∧
    (shown (stF v0 [.req scopes1, .req (.variables 4)]) 5).map List.length = some 2 := by
  decide +kernel

/-- Non-vacuity: the global variables have one named child, a list with two indexed children. -/
example : counts (stF v0 [.req scopes1]) 4 = (1, 0) ∧ counts (stF v0 [.req scopes1, .req (.variables 4)]) 5 = (0, 2) ∧
    shown (stF v0 [.req scopes1, .req (.variables 4)]) 5 = some [(natDec 0, .atom py!"1"), (natDec 1, .atom py!"2")] := by
  decide +kernel

end Verif.Props.Strat
