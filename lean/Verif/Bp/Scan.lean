import Verif.Bp.Inv
import Verif.Conn.Header
import Verif.Addr.Lemmas
/-! Lemmas about the scanning of playbooks. -/

namespace Verif.Bp
open Verif

theorem span_spec {α : Type} (p : α → Bool) (a : List α) (x : α) (b : List α) (ha : ∀ y ∈ a, p y = true) (hx : p x = false) :
    (a ++ x :: b).dropWhile p = x :: b ∧ (a ++ x :: b).takeWhile p = a := by
  induction a with
  | nil => simp [hx]
  | cons y t ih =>
    have h1 := ha y List.mem_cons_self
    have h2 := ih (fun y hy => ha y (List.mem_cons_of_mem _ hy))
    simp only [List.cons_append, List.takeWhile_cons, List.dropWhile_cons, h1, if_true, h2.1, h2.2, and_self]

theorem split_pathText (p : Str) (l : Nat) : splitTaskPath (pathText p l) = .ok (p, (l : Int)) := by
  have h : rsplitColon (pathText p l) = some (p, natDec l) := by
    unfold rsplitColon pathText
    have : (p ++ 58 :: natDec l).reverse = (natDec l).reverse ++ 58 :: p.reverse := by simp
    obtain ⟨h1, h2⟩ := span_spec (fun c => c != 58) (natDec l).reverse 58 p.reverse (by
      intro y hy
      have := Addr.dig_range l y (List.mem_reverse.1 hy)
      simp only [bne_iff_ne]; omega) rfl
    rw [this, h1, h2]
    simp
  unfold splitTaskPath
  rw [h]
  simp only [Conn.pyInt_natDec]

theorem pathText_ne (p : Str) (l : Nat) : pathText p l ≠ [] := by simp [pathText]

theorem truthy_pathText (p : Str) (l : Nat) : truthy (some (pathText p l)) = some (pathText p l) := by
  unfold truthy
  split
  · rename_i h; cases h
  · rename_i h; exact absurd (Option.some.inj h) (pathText_ne p l)
  · rename_i h; rw [Option.some.inj h]

theorem locReg_ok (loc : Option Str) (h : LocOk loc) (ty : Nat) :
    ∃ rs, locReg loc ty = .ok rs ∧ ∀ p l t, (p, l, t) ∈ rs ↔ t = ty ∧ ∃ n : Nat, l = (n : Int) ∧ loc = some (pathText p n) := by
  rcases h with rfl | rfl | ⟨p, l, rfl⟩
  · exact ⟨[], rfl, by simp⟩
  · refine ⟨[], rfl, fun p l t => ?_⟩
    constructor
    · intro h; cases h
    · rintro ⟨-, n, -, h⟩; exact absurd (Option.some.inj h).symm (pathText_ne p n)
  · refine ⟨[(p, (l : Int), ty)], ?_, fun q m t => ?_⟩
    · unfold locReg
      rw [truthy_pathText]
      simp only [split_pathText]
    · simp only [List.mem_singleton, Prod.mk.injEq, Option.some.injEq]
      constructor
      · rintro ⟨rfl, rfl, rfl⟩; exact ⟨rfl, l, rfl, rfl⟩
      · rintro ⟨rfl, n, rfl, h⟩
        have h1 := split_pathText p l
        rw [h, split_pathText] at h1
        injection h1 with h1
        simp only [Prod.mk.injEq] at h1
        exact ⟨h1.1, h1.2, rfl⟩

theorem seqRegs_ok {a b : Except PyErr (List (Str × Int × Nat))} {xs ys : List (Str × Int × Nat)} (ha : a = .ok xs) (hb : b = .ok ys) :
    seqRegs a b = .ok (xs ++ ys) := by subst ha hb; rfl

/-- What an item or list of items must register. -/
def Regs (rs : List (Str × Int × Nat)) (is : List Item) : Prop :=
  ∀ p l t, (p, l, t) ∈ rs ↔ ∃ n : Nat, l = (n : Int) ∧ ((t = 1 ∧ TaskAt is p n) ∨ (t = 0 ∧ BlockAt is p n))

theorem within_cons (i x : Item) (is : List Item) : Within i (x :: is) ↔ Within i [x] ∨ Within i is := by
  constructor
  · intro h
    cases h with
    | here h =>
      rcases List.mem_cons.1 h with rfl | h
      · exact .inl (.here List.mem_cons_self)
      · exact .inr (.here h)
    | inBlock h w =>
      rcases List.mem_cons.1 h with rfl | h
      · exact .inl (.inBlock List.mem_cons_self w)
      · exact .inr (.inBlock h w)
    | inRescue h w =>
      rcases List.mem_cons.1 h with rfl | h
      · exact .inl (.inRescue List.mem_cons_self w)
      · exact .inr (.inRescue h w)
    | inAlways h w =>
      rcases List.mem_cons.1 h with rfl | h
      · exact .inl (.inAlways List.mem_cons_self w)
      · exact .inr (.inAlways h w)
  · rintro (h | h)
    · cases h with
      | here h => rw [List.mem_singleton] at h; subst h; exact .here List.mem_cons_self
      | inBlock h w => rw [List.mem_singleton] at h; subst h; exact .inBlock List.mem_cons_self w
      | inRescue h w => rw [List.mem_singleton] at h; subst h; exact .inRescue List.mem_cons_self w
      | inAlways h w => rw [List.mem_singleton] at h; subst h; exact .inAlways List.mem_cons_self w
    · cases h with
      | here h => exact .here (List.mem_cons_of_mem _ h)
      | inBlock h w => exact .inBlock (List.mem_cons_of_mem _ h) w
      | inRescue h w => exact .inRescue (List.mem_cons_of_mem _ h) w
      | inAlways h w => exact .inAlways (List.mem_cons_of_mem _ h) w

theorem within_append (i : Item) (xs ys : List Item) : Within i (xs ++ ys) ↔ Within i xs ∨ Within i ys := by
  induction xs with
  | nil =>
    simp only [List.nil_append]
    constructor
    · exact .inr
    · rintro (h | h)
      · cases h <;> rename_i h <;> first | cases h | (rename_i h' ; cases h')
      · exact h
  | cons x t ih => rw [List.cons_append, within_cons, ih, within_cons i x t, or_assoc]

theorem within_nil (i : Item) : ¬ Within i [] := by
  intro h
  cases h with
  | here h => cases h
  | inBlock h w => cases h
  | inRescue h w => cases h
  | inAlways h w => cases h

theorem within_task (i : Item) (loc : Option Str) : Within i [.task loc] ↔ i = .task loc := by
  constructor
  · intro h
    cases h with
    | here h => simpa using h
    | inBlock h w => simp at h
    | inRescue h w => simp at h
    | inAlways h w => simp at h
  · rintro rfl; exact .here List.mem_cons_self

theorem within_block (i : Item) (loc : Option Str) (b r a : List Item) :
    Within i [.block loc b r a] ↔ i = .block loc b r a ∨ Within i b ∨ Within i r ∨ Within i a := by
  constructor
  · intro h
    cases h with
    | here h => exact .inl (by simpa using h)
    | inBlock h w => simp at h; obtain ⟨rfl, rfl, rfl, rfl⟩ := h; exact .inr (.inl w)
    | inRescue h w => simp at h; obtain ⟨rfl, rfl, rfl, rfl⟩ := h; exact .inr (.inr (.inl w))
    | inAlways h w => simp at h; obtain ⟨rfl, rfl, rfl, rfl⟩ := h; exact .inr (.inr (.inr w))
  · rintro (rfl | h | h | h)
    · exact .here List.mem_cons_self
    · exact .inBlock List.mem_cons_self h
    · exact .inRescue List.mem_cons_self h
    · exact .inAlways List.mem_cons_self h

theorem treeOk_cons (x : Item) (is : List Item) : TreeOk (x :: is) ↔ TreeOk [x] ∧ TreeOk is := by
  simp only [TreeOk, within_cons _ x is]
  constructor
  · rintro ⟨h1, h2⟩
    exact ⟨⟨fun l h => h1 l (.inl h), fun l b r a h => h2 l b r a (.inl h)⟩, fun l h => h1 l (.inr h), fun l b r a h => h2 l b r a (.inr h)⟩
  · rintro ⟨⟨h1, h2⟩, h3, h4⟩
    exact ⟨fun l h => h.elim (h1 l) (h3 l), fun l b r a h => h.elim (h2 l b r a) (h4 l b r a)⟩

theorem treeOk_block (loc : Option Str) (b r a : List Item) :
    TreeOk [.block loc b r a] ↔ LocOk loc ∧ TreeOk b ∧ TreeOk r ∧ TreeOk a := by
  simp only [TreeOk, within_block]
  constructor
  · rintro ⟨h1, h2⟩
    exact ⟨h2 loc b r a (.inl rfl), ⟨fun l h => h1 l (.inr (.inl h)), fun l b r a h => h2 l b r a (.inr (.inl h))⟩,
      ⟨fun l h => h1 l (.inr (.inr (.inl h))), fun l b r a h => h2 l b r a (.inr (.inr (.inl h)))⟩,
      ⟨fun l h => h1 l (.inr (.inr (.inr h))), fun l b r a h => h2 l b r a (.inr (.inr (.inr h)))⟩⟩
  · rintro ⟨h0, ⟨h1, h2⟩, ⟨h3, h4⟩, h5, h6⟩
    constructor
    · rintro l (h | h | h | h)
      · cases h
      · exact h1 l h
      · exact h3 l h
      · exact h5 l h
    · rintro l b' r' a' (h | h | h | h)
      · cases h; exact h0
      · exact h2 l _ _ _ h
      · exact h4 l _ _ _ h
      · exact h6 l _ _ _ h

theorem regs_append {xs ys : List (Str × Int × Nat)} {x : Item} {is : List Item} (h1 : Regs xs [x]) (h2 : Regs ys is) :
    Regs (xs ++ ys) (x :: is) := by
  intro p l t
  rw [List.mem_append, h1 p l t, h2 p l t]
  simp only [TaskAt, BlockAt, within_cons _ x is]
  constructor
  · rintro (⟨n, hn, h | ⟨ht, b, r, a, h⟩⟩ | ⟨n, hn, h | ⟨ht, b, r, a, h⟩⟩)
    · exact ⟨n, hn, .inl ⟨h.1, .inl h.2⟩⟩
    · exact ⟨n, hn, .inr ⟨ht, b, r, a, .inl h⟩⟩
    · exact ⟨n, hn, .inl ⟨h.1, .inr h.2⟩⟩
    · exact ⟨n, hn, .inr ⟨ht, b, r, a, .inr h⟩⟩
  · rintro ⟨n, hn, ⟨ht, h | h⟩ | ⟨ht, b, r, a, h | h⟩⟩
    · exact .inl ⟨n, hn, .inl ⟨ht, h⟩⟩
    · exact .inr ⟨n, hn, .inl ⟨ht, h⟩⟩
    · exact .inl ⟨n, hn, .inr ⟨ht, b, r, a, h⟩⟩
    · exact .inr ⟨n, hn, .inr ⟨ht, b, r, a, h⟩⟩

mutual
theorem itemRegs_ok : ∀ i : Item, TreeOk [i] → ∃ rs, itemRegs i = .ok rs ∧ Regs rs [i]
  | .task loc, h => by
    have hl : LocOk loc := h.1 loc (.here List.mem_cons_self)
    obtain ⟨rs, h1, h2⟩ := locReg_ok loc hl 1
    refine ⟨rs, by rw [itemRegs]; exact h1, fun p l t => ?_⟩
    rw [h2]
    simp only [TaskAt, BlockAt, within_task]
    constructor
    · rintro ⟨rfl, n, hn, rfl⟩; exact ⟨n, hn, .inl ⟨rfl, rfl⟩⟩
    · rintro ⟨n, hn, ⟨rfl, h⟩ | ⟨-, b, r, a, h⟩⟩
      · injection h with h; exact ⟨rfl, n, hn, h.symm⟩
      · cases h
  | .block loc b r a, h => by
    obtain ⟨hl, hb, hr, ha⟩ := (treeOk_block loc b r a).1 h
    obtain ⟨r0, g0, k0⟩ := locReg_ok loc hl 0
    obtain ⟨r1, g1, k1⟩ := itemsRegs_ok b hb
    obtain ⟨r2, g2, k2⟩ := itemsRegs_ok r hr
    obtain ⟨r3, g3, k3⟩ := itemsRegs_ok a ha
    refine ⟨r0 ++ (r1 ++ (r2 ++ r3)), by rw [itemRegs]; exact seqRegs_ok g0 (seqRegs_ok g1 (seqRegs_ok g2 g3)), fun p l t => ?_⟩
    simp only [List.mem_append, k0 p l t, k1 p l t, k2 p l t, k3 p l t, TaskAt, BlockAt, within_block]
    constructor
    · rintro (⟨rfl, n, hn, rfl⟩ | ⟨n, hn, ⟨ht, h⟩ | ⟨ht, b', r', a', h⟩⟩ | ⟨n, hn, ⟨ht, h⟩ | ⟨ht, b', r', a', h⟩⟩ | ⟨n, hn, ⟨ht, h⟩ | ⟨ht, b', r', a', h⟩⟩)
      · exact ⟨n, hn, .inr ⟨rfl, b, r, a, .inl rfl⟩⟩
      · exact ⟨n, hn, .inl ⟨ht, .inr (.inl h)⟩⟩
      · exact ⟨n, hn, .inr ⟨ht, b', r', a', .inr (.inl h)⟩⟩
      · exact ⟨n, hn, .inl ⟨ht, .inr (.inr (.inl h))⟩⟩
      · exact ⟨n, hn, .inr ⟨ht, b', r', a', .inr (.inr (.inl h))⟩⟩
      · exact ⟨n, hn, .inl ⟨ht, .inr (.inr (.inr h))⟩⟩
      · exact ⟨n, hn, .inr ⟨ht, b', r', a', .inr (.inr (.inr h))⟩⟩
    · rintro ⟨n, hn, ⟨ht, h | h | h | h⟩ | ⟨ht, b', r', a', h | h | h | h⟩⟩
      · cases h
      · exact .inr (.inl ⟨n, hn, .inl ⟨ht, h⟩⟩)
      · exact .inr (.inr (.inl ⟨n, hn, .inl ⟨ht, h⟩⟩))
      · exact .inr (.inr (.inr ⟨n, hn, .inl ⟨ht, h⟩⟩))
      · injection h with h; exact .inl ⟨ht, n, hn, h.symm⟩
      · exact .inr (.inl ⟨n, hn, .inr ⟨ht, _, _, _, h⟩⟩)
      · exact .inr (.inr (.inl ⟨n, hn, .inr ⟨ht, _, _, _, h⟩⟩))
      · exact .inr (.inr (.inr ⟨n, hn, .inr ⟨ht, _, _, _, h⟩⟩))
theorem itemsRegs_ok : ∀ is : List Item, TreeOk is → ∃ rs, itemsRegs is = .ok rs ∧ Regs rs is
  | [], _ => by
    refine ⟨[], by rw [itemsRegs], fun p l t => ?_⟩
    simp [TaskAt, BlockAt, within_nil]
  | i :: is, h => by
    obtain ⟨h1, h2⟩ := (treeOk_cons i is).1 h
    obtain ⟨r1, g1, k1⟩ := itemRegs_ok i h1
    obtain ⟨r2, g2, k2⟩ := itemsRegs_ok is h2
    exact ⟨r1 ++ r2, by rw [itemsRegs]; exact seqRegs_ok g1 g2, regs_append k1 k2⟩
end

end Verif.Bp
