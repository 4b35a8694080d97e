import Verif.Bp.Model
import Verif.Bp.Spec
import Verif.Dap.Lemmas
import Verif.Dap.Custom
import Verif.Json.RoundTrip
/-! Lemmas about the tables of lines. -/

namespace Verif.Bp
open Verif

/-- Induction by appending one element. -/
theorem snocInd {α : Type} {P : List α → Prop} (h0 : P []) (h1 : ∀ l a, P l → P (l ++ [a])) (l : List α) : P l := by
  have : ∀ r : List α, P r.reverse := by
    intro r
    induction r with
    | nil => exact h0
    | cons a t ih => rw [List.reverse_cons]; exact h1 _ _ ih
  rw [← List.reverse_reverse l]; exact this _

/-- The entry at line `i` of a table. -/
def lineAt (fl : FileLines) (i : Nat) : Option Nat := (fl[i]?).join

/-- A table represents the registrations of a file. -/
def Rep (regs : List (Nat × Nat)) (fl : FileLines) : Prop :=
  fl.length = lastLine regs + 1 ∧ ∀ i, lineAt fl i = known regs i

theorem known_nil (l : Nat) : known [] l = if l = 0 then some 0 else none := rfl

theorem known_snoc (regs : List (Nat × Nat)) (r : Nat × Nat) (l : Nat) :
    known (regs ++ [r]) l = if l = r.1 then some r.2 else known regs l := by
  unfold known
  rw [List.filter_append]
  by_cases h : r.1 = l
  · subst h
    simp
  · have h' : ¬ l = r.1 := fun e => h e.symm
    simp [h, h']

theorem lastLine_snoc (regs : List (Nat × Nat)) (r : Nat × Nat) :
    lastLine (regs ++ [r]) = max (lastLine regs) r.1 := by
  unfold lastLine
  induction regs with
  | nil => simp
  | cons a t ih => simp only [List.cons_append, List.foldr_cons, ih]; omega

theorem rep_nil : Rep [] [some 0] := by
  refine ⟨rfl, fun i => ?_⟩
  rw [known_nil]
  cases i with
  | zero => rfl
  | succ n => simp [lineAt]

theorem rep_unique {regs : List (Nat × Nat)} {a b : FileLines} (ha : Rep regs a) (hb : Rep regs b) : a = b := by
  apply List.ext_getElem?
  intro i
  have h1 := ha.2 i
  have h2 := hb.2 i
  have hl : a.length = b.length := ha.1.trans hb.1.symm
  rw [← h2] at h1
  unfold lineAt at h1
  by_cases h : i < a.length
  · have hb' : i < b.length := hl ▸ h
    rw [List.getElem?_eq_getElem h, List.getElem?_eq_getElem hb'] at h1 ⊢
    simpa using h1
  · rw [List.getElem?_eq_none (by omega), List.getElem?_eq_none (by omega)]

theorem regLine_nat (fl : FileLines) (l ty : Nat) :
    ∃ fl', regLine fl (l : Int) ty = some fl' ∧ fl'.length = max fl.length (l + 1) ∧
      ∀ i, lineAt fl' i = if i = l then some ty else lineAt fl i := by
  unfold regLine pySet
  have hlen : (fl ++ List.replicate (1 + (l : Int) - fl.length).toNat (none : Option Nat)).length = max fl.length (l + 1) := by
    simp only [List.length_append, List.length_replicate]; omega
  rw [if_pos (by omega), if_pos (by rw [hlen]; omega)]
  refine ⟨_, rfl, ?_, fun i => ?_⟩
  · rw [List.length_set, hlen]
  · unfold lineAt
    rw [List.getElem?_set]
    simp only [Int.toNat_natCast, hlen]
    by_cases h : l = i
    · subst h
      rw [if_pos rfl, if_pos (by omega), if_pos rfl]; rfl
    · rw [if_neg h, if_neg (fun e => h e.symm)]
      by_cases h2 : i < fl.length
      · rw [List.getElem?_append_left h2]
      · rw [List.getElem?_append_right (by omega), List.getElem?_eq_none (l := fl) (by omega), List.getElem?_replicate]
        split <;> rfl

theorem rep_reg {regs : List (Nat × Nat)} {fl : FileLines} (h : Rep regs fl) (l ty : Nat) :
    ∃ fl', regLine fl (l : Int) ty = some fl' ∧ Rep (regs ++ [(l, ty)]) fl' := by
  obtain ⟨fl', h1, h2, h3⟩ := regLine_nat fl l ty
  refine ⟨fl', h1, ?_, fun i => ?_⟩
  · rw [h2, lastLine_snoc, h.1]; simp only; omega
  · rw [h3, known_snoc, h.2]

theorem known_zero (regs : List (Nat × Nat)) : known regs 0 ≠ none := by
  unfold known
  split <;> simp

theorem known_last (regs : List (Nat × Nat)) : known regs (lastLine regs) ≠ none := by
  induction regs using snocInd with
  | h0 => simp [lastLine, known]
  | h1 l r ih =>
    rw [known_snoc, lastLine_snoc]
    split
    · simp
    · rename_i h
      have : max (lastLine l) r.1 = lastLine l := by omega
      rw [this]; exact ih

theorem known_after (regs : List (Nat × Nat)) (i : Nat) (h : lastLine regs < i) : known regs i = none := by
  induction regs using snocInd with
  | h0 => rw [known_nil, if_neg]; simp [lastLine] at h; omega
  | h1 l r ih =>
    rw [lastLine_snoc] at h
    rw [known_snoc, if_neg (by omega), ih (by omega)]

/-! ## The two loops -/

theorem pyGet_nat {α : Type} (l : List α) (i : Nat) : pyGet l (i : Int) = l[i]? := by
  unfold pyGet
  rw [if_pos (by omega)]
  rfl

theorem walkDown_nat (fl : FileLines) (s : Nat) (hs : s < fl.length) (h0 : lineAt fl 0 ≠ none) :
    ∃ e t : Nat, walkDown fl (s : Int) = .ok ((e : Int), t) ∧ lineAt fl e = some t ∧ e ≤ s ∧
      ∀ i, e < i → i ≤ s → lineAt fl i = none := by
  induction s with
  | zero =>
    rw [walkDown]
    split
    · rename_i h
      rw [show ((0 : Nat) : Int) = (0 : Nat) from rfl, pyGet_nat, List.getElem?_eq_getElem hs] at h
      cases h
    · rename_i t h
      rw [pyGet_nat] at h
      refine ⟨0, t, rfl, ?_, by omega, fun i _ _ => by omega⟩
      unfold lineAt; rw [h]; rfl
    · rename_i h
      rw [pyGet_nat] at h
      exact absurd (by unfold lineAt; rw [h]; rfl) h0
  | succ s ih =>
    rw [walkDown]
    split
    · rename_i h
      rw [pyGet_nat, List.getElem?_eq_getElem hs] at h
      cases h
    · rename_i t h
      rw [pyGet_nat] at h
      refine ⟨s + 1, t, rfl, ?_, by omega, fun i _ _ => by omega⟩
      unfold lineAt; rw [h]; rfl
    · rename_i h
      rw [pyGet_nat] at h
      obtain ⟨e, t, h1, h2, h3, h4⟩ := ih (by omega)
      refine ⟨e, t, ?_, h2, by omega, fun i hi hi' => ?_⟩
      · rw [show ((s + 1 : Nat) : Int) - 1 = (s : Nat) from by omega, h1]
      · by_cases hc : i = s + 1
        · subst hc; unfold lineAt; rw [h]; rfl
        · exact h4 i hi (by omega)

theorem walkUp_nat (fl : FileLines) (n : Nat) : ∀ e : Nat, fl.length - e = n → e ≤ fl.length →
    ∃ z : Nat, walkUp fl (e : Int) = (z : Int) ∧ e ≤ z ∧ z ≤ fl.length ∧
      (∀ i, e ≤ i → i < z → lineAt fl i = none) ∧ (z = fl.length ∨ lineAt fl z ≠ none) := by
  induction n with
  | zero =>
    intro e he hle
    refine ⟨e, ?_, by omega, hle, fun i _ _ => by omega, .inl (by omega)⟩
    rw [walkUp, dif_neg]; rintro ⟨h, -⟩; omega
  | succ n ih =>
    intro e he hle
    rw [walkUp, pyGet_nat]
    by_cases h : fl[e]? = some none
    · rw [dif_pos ⟨by omega, h⟩]
      obtain ⟨z, h1, h2, h3, h4, h5⟩ := ih (e + 1) (by omega) (by omega)
      refine ⟨z, by rw [← h1]; rfl, by omega, h3, fun i hi hi' => ?_, h5⟩
      by_cases hc : i = e
      · subst hc; unfold lineAt; rw [h]; rfl
      · exact h4 i (by omega) hi'
    · rw [dif_neg (fun hh => h hh.2)]
      refine ⟨e, rfl, by omega, hle, fun i _ _ => by omega, .inr ?_⟩
      unfold lineAt
      rw [List.getElem?_eq_getElem (by omega)] at h ⊢
      intro hc
      apply h
      simpa using hc

/-- The breakpoint that a snapped range stands for. -/
def mkBp (id : Nat) (src : Source) (e z : Nat) (v : Bool) : Bp :=
  { id := id, verified := v, message := bif v then none else some msgCannot, source := src,
    line := some (e : Int), endLine := some (z : Int) }

theorem calculate_nat {regs : List (Nat × Nat)} {fl : FileLines} (h : Rep regs fl) (id : Nat) (src : Source) (req : Nat) :
    ∃ e z v, calculate id src (req : Int) fl = .ok (mkBp id src e z v) ∧ Snapped regs req e z v := by
  have hlen := h.1
  have hst : min (req : Int) ((fl.length : Int) - 1) = ((min req (lastLine regs) : Nat) : Int) := by
    rw [hlen]; omega
  obtain ⟨e, t, h1, h2, h3, h4⟩ := walkDown_nat fl (min req (lastLine regs)) (by rw [hlen]; omega)
    (by rw [h.2]; exact known_zero _)
  obtain ⟨z, g1, g2, g3, g4, g5⟩ := walkUp_nat fl _ (min req (lastLine regs) + 1) rfl (by rw [hlen]; omega)
  have hz : min (walkUp fl (((min req (lastLine regs) : Nat) : Int) + 1) - 1) (fl.length : Int) = ((z - 1 : Nat) : Int) := by
    rw [show (((min req (lastLine regs) : Nat) : Int) + 1) = ((min req (lastLine regs) + 1 : Nat) : Int) from by omega, g1]
    omega
  refine ⟨e, z - 1, (bif t == 0 then false else true), ?_, ⟨?_, by omega, ?_⟩, ⟨by omega, by omega, ?_, ?_⟩, ?_⟩
  · unfold calculate
    simp only [hst, h1, hz, mkBp]
    cases t == 0 <;> rfl
  · rw [← h.2, h2]; simp
  · intro i hi hi'
    by_cases hc : i ≤ lastLine regs
    · rw [← h.2]; exact h4 i hi (by omega)
    · exact known_after _ _ (by omega)
  · intro i hi hi'
    rw [← h.2]
    by_cases hc : i ≤ min req (lastLine regs)
    · exact h4 i hi hc
    · exact g4 i (by omega) (by omega)
  · rcases g5 with g5 | g5
    · left; omega
    · right
      rw [show z - 1 + 1 = z from by omega, ← h.2]; exact g5
  · rw [← h.2, h2]
    cases t with
    | zero => simp
    | succ n => simp

/-- The range is determined by the registrations. -/
theorem governs_unique {regs : List (Nat × Nat)} {l a b : Nat} (ha : Governs regs l a) (hb : Governs regs l b) : a = b := by
  rcases Nat.lt_trichotomy a b with h | h | h
  · exact absurd (ha.2.2 b h hb.2.1) hb.1
  · exact h
  · exact absurd (hb.2.2 a h ha.2.1) ha.1

theorem entryEnd_unique {regs : List (Nat × Nat)} {e a b : Nat} (ha : EntryEnd regs e a) (hb : EntryEnd regs e b) : a = b := by
  obtain ⟨a1, a2, a3, a4⟩ := ha
  obtain ⟨b1, b2, b3, b4⟩ := hb
  rcases Nat.lt_trichotomy a b with h | h | h
  · rcases a4 with a4 | a4
    · omega
    · exact absurd (b3 (a + 1) (by omega) (by omega)) a4
  · exact h
  · rcases b4 with b4 | b4
    · omega
    · exact absurd (a3 (b + 1) (by omega) (by omega)) b4

theorem snapped_unique {regs : List (Nat × Nat)} {r e z e' z' : Nat} {v v' : Bool} (h : Snapped regs r e z v)
    (h' : Snapped regs r e' z' v') : e = e' ∧ z = z' ∧ v = v' := by
  have he := governs_unique h.1 h'.1
  subst he
  refine ⟨rfl, entryEnd_unique h.2.1 h'.2.1, ?_⟩
  have a := h.2.2; have b := h'.2.2
  cases v <;> cases v' <;> simp_all

end Verif.Bp
