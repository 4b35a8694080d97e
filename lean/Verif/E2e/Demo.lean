import Verif.E2e.Model
import Verif.Conn.Wire
/-! # A serialisation of the messages on the socket (for the examples: pickle is not modelled) -/

namespace Verif.E2e
open Verif
open Verif.Dap (Cls)
open Verif.Transport (Codec)

/-- Decimal digits and a semicolon. -/
def encN (n : Nat) : Bytes := (natDec n).map UInt8.ofNat ++ [59]

theorem split_at {a b r r' : Bytes} (ha : (59 : UInt8) ∉ a) (hb : (59 : UInt8) ∉ b) (h : a ++ [59] ++ r = b ++ [59] ++ r') : a = b ∧ r = r' := by
  induction a generalizing b with
  | nil =>
    cases b with
    | nil => simpa using h
    | cons y b => simp at h; exact absurd h.1 (by rintro rfl; simp at hb)
  | cons x a ih =>
    cases b with
    | nil => simp at h; exact absurd h.1 (by rintro rfl; simp at ha)
    | cons y b =>
      simp only [List.cons_append, List.cons.injEq] at h
      obtain ⟨e, h⟩ := h
      have := ih (b := b) (fun hx => ha (List.mem_cons_of_mem _ hx)) (fun hx => hb (List.mem_cons_of_mem _ hx)) (by simpa using h)
      exact ⟨by rw [e, this.1], this.2⟩

theorem encN_uniq {a b : Nat} {r r' : Bytes} (h : encN a ++ r = encN b ++ r') : a = b ∧ r = r' := by
  have hd : ∀ n, (59 : UInt8) ∉ (natDec n).map UInt8.ofNat := by
    intro n hx
    have : (59 : UInt8).toNat ∈ ((natDec n).map UInt8.ofNat).map UInt8.toNat := List.mem_map.2 ⟨_, hx, rfl⟩
    rw [Conn.digits_toNat] at this
    have := natDec_digits n _ this
    revert this; decide
  obtain ⟨h1, h2⟩ := split_at (hd a) (hd b) h
  refine ⟨?_, h2⟩
  have := congrArg (List.map UInt8.toNat) h1
  rw [Conn.digits_toNat, Conn.digits_toNat] at this
  rw [← digVal_natDec a, ← digVal_natDec b, this]

/-- A text. -/
def encS (s : Str) : Bytes := encN s.length ++ s.flatMap encN

theorem flatMap_uniq {α : Type} {f : α → Bytes} (hf : ∀ a b r r', f a ++ r = f b ++ r' → a = b ∧ r = r') {l l' : List α} {r r' : Bytes}
    (hl : l.length = l'.length) (h : l.flatMap f ++ r = l'.flatMap f ++ r') : l = l' ∧ r = r' := by
  induction l generalizing l' with
  | nil => cases l' with
    | nil => exact ⟨rfl, by simpa using h⟩
    | cons _ _ => cases hl
  | cons x l ih =>
    cases l' with
    | nil => cases hl
    | cons y l' =>
      simp only [List.flatMap_cons, List.append_assoc] at h
      replace h := hf _ _ _ _ h; obtain ⟨rfl, h⟩ := h
      replace h := ih (by simpa using hl) h; obtain ⟨rfl, h⟩ := h
      exact ⟨rfl, h⟩

theorem encS_uniq {a b : Str} {r r' : Bytes} (h : encS a ++ r = encS b ++ r') : a = b ∧ r = r' := by
  simp only [encS, List.append_assoc] at h
  replace h := encN_uniq h; obtain ⟨hl, h⟩ := h
  exact flatMap_uniq (fun _ _ _ _ => encN_uniq) hl h

/-- The number of a class. -/
def clsNo (c : Cls) : Nat := c.ctorIdx
/-- The number of an enumeration. -/
def enumNo (e : Dap.EnumId) : Nat := e.ctorIdx

theorem clsNo_inj {c d : Cls} (h : clsNo c = clsNo d) : c = d := by
  have hd : ∀ c ∈ Dap.allCls, ∀ d ∈ Dap.allCls, clsNo c = clsNo d → c = d := by decide +kernel
  exact hd c (Dap.mem_allCls c) d (Dap.mem_allCls d) h

theorem enumNo_inj {c d : Dap.EnumId} (h : enumNo c = enumNo d) : c = d := by
  revert h; cases c <;> cases d <;> simp [enumNo, Dap.EnumId.ctorIdx]

mutual
/-- A value. -/
def encV : Dap.Val → Bytes
  | .null => [0]
  | .bool b => [1, if b then 1 else 0]
  | .int (.ofNat n) => 2 :: encN n
  | .int (.negSucc n) => 3 :: encN n
  | .flt s => 4 :: encS s
  | .str s => 5 :: encS s
  | .list l => 6 :: encL l
  | .dict l => 7 :: encA l
  | .enum e s => 8 :: (encN (enumNo e) ++ encS s)
  | .obj c l => 9 :: (encN (clsNo c) ++ encA l)
/-- A list of values. -/
def encL : List Dap.Val → Bytes
  | [] => [0]
  | v :: l => 1 :: (encV v ++ encL l)
/-- A list of named values. -/
def encA : List (Str × Dap.Val) → Bytes
  | [] => [0]
  | (k, v) :: l => 1 :: (encS k ++ (encV v ++ encA l))
end

mutual
theorem encV_uniq (a b : Dap.Val) (r r' : Bytes) (h : encV a ++ r = encV b ++ r') : a = b ∧ r = r' := by
  match a, b with
  | .null, .null => simpa [encV] using h
  | .bool x, .bool y => cases x <;> cases y <;> simp_all [encV]
  | .int (.ofNat n), .int (.ofNat m) =>
    simp only [encV, List.cons_append, List.cons.injEq, true_and] at h
    replace h := encN_uniq h; obtain ⟨rfl, h⟩ := h; exact ⟨rfl, h⟩
  | .int (.negSucc n), .int (.negSucc m) =>
    simp only [encV, List.cons_append, List.cons.injEq, true_and] at h
    replace h := encN_uniq h; obtain ⟨rfl, h⟩ := h; exact ⟨rfl, h⟩
  | .flt s, .flt t =>
    simp only [encV, List.cons_append, List.cons.injEq, true_and] at h
    replace h := encS_uniq h; obtain ⟨rfl, h⟩ := h; exact ⟨rfl, h⟩
  | .str s, .str t =>
    simp only [encV, List.cons_append, List.cons.injEq, true_and] at h
    replace h := encS_uniq h; obtain ⟨rfl, h⟩ := h; exact ⟨rfl, h⟩
  | .list s, .list t =>
    simp only [encV, List.cons_append, List.cons.injEq, true_and] at h
    replace h := encL_uniq s t r r' h; obtain ⟨rfl, h⟩ := h; exact ⟨rfl, h⟩
  | .dict s, .dict t =>
    simp only [encV, List.cons_append, List.cons.injEq, true_and] at h
    replace h := encA_uniq s t r r' h; obtain ⟨rfl, h⟩ := h; exact ⟨rfl, h⟩
  | .enum e s, .enum e' t =>
    simp only [encV, List.cons_append, List.cons.injEq, true_and, List.append_assoc] at h
    replace h := encN_uniq h; obtain ⟨he, h⟩ := h
    replace h := encS_uniq h; obtain ⟨rfl, h⟩ := h
    rw [enumNo_inj he]; exact ⟨rfl, h⟩
  | .obj c s, .obj d t =>
    simp only [encV, List.cons_append, List.cons.injEq, true_and, List.append_assoc] at h
    replace h := encN_uniq h; obtain ⟨he, h⟩ := h
    replace h := encA_uniq s t r r' h; obtain ⟨rfl, h⟩ := h
    rw [clsNo_inj he]; exact ⟨rfl, h⟩
  | .null, .bool _ | .null, .int (.ofNat _) | .null, .int (.negSucc _) | .null, .flt _ | .null, .str _ | .null, .list _ | .null, .dict _ | .null, .enum _ _ | .null, .obj _ _ => simp [encV] at h
  | .bool _, .null | .bool _, .int (.ofNat _) | .bool _, .int (.negSucc _) | .bool _, .flt _ | .bool _, .str _ | .bool _, .list _ | .bool _, .dict _ | .bool _, .enum _ _ | .bool _, .obj _ _ => simp [encV] at h
  | .int (.ofNat _), .null | .int (.ofNat _), .bool _ | .int (.ofNat _), .int (.negSucc _) | .int (.ofNat _), .flt _ | .int (.ofNat _), .str _ | .int (.ofNat _), .list _ | .int (.ofNat _), .dict _ | .int (.ofNat _), .enum _ _ | .int (.ofNat _), .obj _ _ => simp [encV] at h
  | .int (.negSucc _), .null | .int (.negSucc _), .bool _ | .int (.negSucc _), .int (.ofNat _) | .int (.negSucc _), .flt _ | .int (.negSucc _), .str _ | .int (.negSucc _), .list _ | .int (.negSucc _), .dict _ | .int (.negSucc _), .enum _ _ | .int (.negSucc _), .obj _ _ => simp [encV] at h
  | .flt _, .null | .flt _, .bool _ | .flt _, .int (.ofNat _) | .flt _, .int (.negSucc _) | .flt _, .str _ | .flt _, .list _ | .flt _, .dict _ | .flt _, .enum _ _ | .flt _, .obj _ _ => simp [encV] at h
  | .str _, .null | .str _, .bool _ | .str _, .int (.ofNat _) | .str _, .int (.negSucc _) | .str _, .flt _ | .str _, .list _ | .str _, .dict _ | .str _, .enum _ _ | .str _, .obj _ _ => simp [encV] at h
  | .list _, .null | .list _, .bool _ | .list _, .int (.ofNat _) | .list _, .int (.negSucc _) | .list _, .flt _ | .list _, .str _ | .list _, .dict _ | .list _, .enum _ _ | .list _, .obj _ _ => simp [encV] at h
  | .dict _, .null | .dict _, .bool _ | .dict _, .int (.ofNat _) | .dict _, .int (.negSucc _) | .dict _, .flt _ | .dict _, .str _ | .dict _, .list _ | .dict _, .enum _ _ | .dict _, .obj _ _ => simp [encV] at h
  | .enum _ _, .null | .enum _ _, .bool _ | .enum _ _, .int (.ofNat _) | .enum _ _, .int (.negSucc _) | .enum _ _, .flt _ | .enum _ _, .str _ | .enum _ _, .list _ | .enum _ _, .dict _ | .enum _ _, .obj _ _ => simp [encV] at h
  | .obj _ _, .null | .obj _ _, .bool _ | .obj _ _, .int (.ofNat _) | .obj _ _, .int (.negSucc _) | .obj _ _, .flt _ | .obj _ _, .str _ | .obj _ _, .list _ | .obj _ _, .dict _ | .obj _ _, .enum _ _ => simp [encV] at h
theorem encL_uniq (a b : List Dap.Val) (r r' : Bytes) (h : encL a ++ r = encL b ++ r') : a = b ∧ r = r' := by
  match a, b with
  | [], [] => simpa [encL] using h
  | [], _ :: _ => simp [encL] at h
  | _ :: _, [] => simp [encL] at h
  | x :: xs, y :: ys =>
    simp only [encL, List.cons_append, List.cons.injEq, true_and, List.append_assoc] at h
    replace h := encV_uniq x y _ _ h; obtain ⟨rfl, h⟩ := h
    replace h := encL_uniq xs ys _ _ h; obtain ⟨rfl, h⟩ := h
    exact ⟨rfl, h⟩
theorem encA_uniq (a b : List (Str × Dap.Val)) (r r' : Bytes) (h : encA a ++ r = encA b ++ r') : a = b ∧ r = r' := by
  match a, b with
  | [], [] => simpa [encA] using h
  | [], (_, _) :: _ => simp [encA] at h
  | (_, _) :: _, [] => simp [encA] at h
  | (k, x) :: xs, (j, y) :: ys =>
    simp only [encA, List.cons_append, List.cons.injEq, true_and, List.append_assoc] at h
    replace h := encS_uniq h; obtain ⟨rfl, h⟩ := h
    replace h := encV_uniq x y _ _ h; obtain ⟨rfl, h⟩ := h
    replace h := encA_uniq xs ys _ _ h; obtain ⟨rfl, h⟩ := h
    exact ⟨rfl, h⟩
end

/-- What crosses the socket. -/
def encP : Pkt → Bytes
  | .msg m => 0 :: encV m
  | .config maps => 1 :: (encN maps.length ++ maps.flatMap fun p => encS p.1 ++ encS p.2)

theorem encP_uniq (a b : Pkt) (r r' : Bytes) (h : encP a ++ r = encP b ++ r') : a = b ∧ r = r' := by
  cases a with
  | msg m =>
    cases b with
    | msg m' =>
      simp only [encP, List.cons_append, List.cons.injEq, true_and] at h
      replace h := encV_uniq m m' _ _ h; obtain ⟨rfl, h⟩ := h; exact ⟨rfl, h⟩
    | config _ => simp [encP] at h
  | config l =>
    cases b with
    | msg m' => simp [encP] at h
    | config l' =>
      simp only [encP, List.cons_append, List.cons.injEq, true_and, List.append_assoc] at h
      replace h := encN_uniq h; obtain ⟨hl, h⟩ := h
      replace h := flatMap_uniq (f := fun p : Str × Str => encS p.1 ++ encS p.2) (fun a b r r' h => by
        simp only [List.append_assoc] at h
        replace h := encS_uniq h; obtain ⟨h1, h⟩ := h
        replace h := encS_uniq h; obtain ⟨h2, h⟩ := h
        exact ⟨Prod.ext h1 h2, h⟩) hl h
      obtain ⟨rfl, h⟩ := h
      exact ⟨rfl, h⟩

open Classical in
/-- There is such a serialisation. -/
noncomputable def demo : Codec Pkt where
  dumps := encP
  loads b := if h : ∃ p, encP p = b then .ok h.choose else .error .value
  loads_dumps m := by
    have h : ∃ p, encP p = encP m := ⟨m, rfl⟩
    rw [dif_pos h]
    have := h.choose_spec
    exact congrArg _ (encP_uniq _ _ [] [] (congrArg (· ++ []) this)).1
  loads_nil := by
    refine ⟨.value, dif_neg ?_⟩
    rintro ⟨q, hq⟩
    cases q <;> simp [encP] at hq
  loads_short m p r hd hr := by
    refine ⟨.value, dif_neg ?_⟩
    rintro ⟨q, hq⟩
    have := (encP_uniq q m r [] (by rw [hq, hd, List.append_nil])).2
    exact hr this

/-! ## A check of `Val.Ok` -/

mutual
/-- `Val.Ok`, decided (floats are refused). -/
def okB : Dap.Val → Bool
  | .null => true
  | .bool _ => true
  | .int _ => true
  | .flt _ => false
  | .str s => StrOk s
  | .list l => okBL l
  | .dict _ => false
  | .enum _ s => StrOk s
  | .obj _ attrs => okBA attrs
/-- Elements. -/
def okBL : List Dap.Val → Bool
  | [] => true
  | x :: xs => okB x && okBL xs
/-- Attributes. -/
def okBA : List (Str × Dap.Val) → Bool
  | [] => true
  | (_, v) :: xs => okB v && okBA xs
end

mutual
theorem okB_ok : (v : Dap.Val) → okB v = true → v.Ok
  | .null, _ => by simp [Dap.Val.Ok]
  | .bool _, _ => by simp [Dap.Val.Ok]
  | .int _, _ => by simp [Dap.Val.Ok]
  | .flt _, h => by simp [okB] at h
  | .str _, h => by simpa [okB, Dap.Val.Ok] using h
  | .list l, h => by simp only [Dap.Val.Ok]; exact okBL_ok l (by simpa [okB] using h)
  | .dict _, h => by simp [okB] at h
  | .enum _ _, h => by simpa [okB, Dap.Val.Ok] using h
  | .obj _ l, h => by simp only [Dap.Val.Ok]; exact okBA_ok l (by simpa [okB] using h)
theorem okBL_ok : (l : List Dap.Val) → okBL l = true → Dap.Val.OkL l
  | [], _ => by simp [Dap.Val.OkL]
  | x :: xs, h => by
    simp only [okBL, Bool.and_eq_true] at h
    simp only [Dap.Val.OkL]
    exact ⟨okB_ok x h.1, okBL_ok xs h.2⟩
theorem okBA_ok : (l : List (Str × Dap.Val)) → okBA l = true → Dap.Val.OkA l
  | [], _ => by simp [Dap.Val.OkA]
  | (_, x) :: xs, h => by
    simp only [okBA, Bool.and_eq_true] at h
    simp only [Dap.Val.OkA]
    exact ⟨okB_ok x h.1, okBA_ok xs h.2⟩
end

end Verif.E2e
