import Verif.Conn.Model
import Verif.Dap.Custom
/-! # Lemmas about the connection (proofs only) -/

namespace Verif
variable {α : Type} [DecidableEq α]

/-! ## Searching and splitting -/

theorem findSub_prefix (pat l m : List α) (i : Nat) (h : findSub pat l = some i) :
    findSub pat (l ++ m) = some i := by
  induction l generalizing i with
  | nil =>
    simp only [findSub] at h
    split at h
    · rename_i hp; cases h; subst hp; cases m <;> simp [findSub]
    · cases h
  | cons x l ih =>
    simp only [findSub] at h
    split at h
    · rename_i hp
      cases h
      have : pat.isPrefixOf (x :: l ++ m) = true := by
        rw [List.isPrefixOf_iff_prefix] at hp ⊢
        exact hp.trans (List.prefix_append _ _)
      simp only [List.cons_append] at this
      simp [findSub, this]
    · rename_i hp
      cases hf : findSub pat l with
      | none => simp [hf] at h
      | some j =>
        simp only [hf, Option.map_some, Option.some.injEq] at h
        subst h
        have hj := ih j hf
        have hp' : ¬ pat.isPrefixOf (x :: (l ++ m)) = true := by
          rw [List.isPrefixOf_iff_prefix] at hp ⊢
          intro hpre
          apply hp
          have hlen : pat.length ≤ l.length := by
            -- the occurrence at `j` lies inside `l`
            have : ∀ (l : List α) j, findSub pat l = some j → j + pat.length ≤ l.length := by
              intro l
              induction l with
              | nil => intro j hj; simp only [findSub] at hj; split at hj
                       · rename_i h; cases hj; simp [h]
                       · cases hj
              | cons y l ih =>
                intro j hj
                simp only [findSub] at hj
                split at hj
                · rename_i h; cases hj
                  have := (List.isPrefixOf_iff_prefix.mp h).length_le
                  simpa using this
                · cases hf : findSub pat l with
                  | none => simp [hf] at hj
                  | some k => simp only [hf, Option.map_some, Option.some.injEq] at hj
                              have := ih k hf
                              subst hj; simp; omega
            have := this l j hf; omega
          rw [← List.cons_append] at hpre
          exact List.prefix_of_prefix_length_le hpre (List.prefix_append _ _) (by simp; omega)
        simp only [List.cons_append, findSub]
        rw [if_neg hp', hj]; rfl

theorem findSub_bound (pat l : List α) (j : Nat) (h : findSub pat l = some j) : j + pat.length ≤ l.length := by
  induction l generalizing j with
  | nil => simp only [findSub] at h; split at h
           · rename_i h'; cases h; simp [h']
           · cases h
  | cons y l ih =>
    simp only [findSub] at h
    split at h
    · rename_i h'; cases h
      have := (List.isPrefixOf_iff_prefix.mp h').length_le
      simpa using this
    · cases hf : findSub pat l with
      | none => simp [hf] at h
      | some k => simp only [hf, Option.map_some, Option.some.injEq] at h
                  have := ih k hf
                  subst h; simp; omega

/-- `findSub` finds an occurrence ... -/
theorem findSub_some (pat l : List α) (i : Nat) (h : findSub pat l = some i) :
    l = l.take i ++ pat ++ l.drop (i + pat.length) := by
  induction l generalizing i with
  | nil => simp only [findSub] at h; split at h
           · rename_i h'; cases h; simp [h']
           · cases h
  | cons y l ih =>
    simp only [findSub] at h
    split at h
    · rename_i h'; cases h
      obtain ⟨t, ht⟩ := List.isPrefixOf_iff_prefix.mp h'
      simp only [List.take_zero, List.nil_append, Nat.zero_add]
      rw [← ht]; simp
    · cases hf : findSub pat l with
      | none => simp [hf] at h
      | some k =>
        simp only [hf, Option.map_some, Option.some.injEq] at h
        subst h
        have := ih k hf
        rw [show k + 1 + pat.length = (k + pat.length) + 1 by omega]
        simp only [List.take_succ_cons, List.drop_succ_cons, List.cons_append]
        rw [← this]

/-- ... the first one ... -/
theorem findSub_first (pat a b : List α) : ∃ i, findSub pat (a ++ pat ++ b) = some i ∧ i ≤ a.length := by
  induction a with
  | nil =>
    refine ⟨0, ?_, Nat.le_refl _⟩
    cases h : (([] : List α) ++ pat ++ b) with
    | nil => simp at h; simp [findSub, h.1]
    | cons x l =>
      have : pat.isPrefixOf (x :: l) = true := by
        rw [List.isPrefixOf_iff_prefix, ← h]; exact ⟨b, by simp⟩
      simp [findSub, this]
  | cons y a ih =>
    obtain ⟨i, hi, hle⟩ := ih
    simp only [List.cons_append, findSub]
    split
    · exact ⟨0, rfl, Nat.zero_le _⟩
    · exact ⟨i + 1, by simp only [List.append_assoc] at hi ⊢; simp [hi], by simp; omega⟩

/-- ... and reports none only if there is none. -/
theorem findSub_none_iff (pat l : List α) : findSub pat l = none ↔ ¬ ∃ a b, l = a ++ pat ++ b := by
  constructor
  · rintro h ⟨a, b, rfl⟩
    obtain ⟨i, hi, _⟩ := findSub_first pat a b
    rw [h] at hi; cases hi
  · intro h
    cases hf : findSub pat l with
    | none => rfl
    | some i => exact absurd ⟨_, _, findSub_some pat l i hf⟩ h

/-- An occurrence whose prefix (with all but the last pattern element) contains no earlier
occurrence is the one found. -/
theorem findSub_at (pat a b : List α) (h : ∀ i, findSub pat (a ++ pat ++ b) = some i → ¬ i < a.length) :
    findSub pat (a ++ pat ++ b) = some a.length := by
  obtain ⟨i, hi, hle⟩ := findSub_first pat a b
  have := h i hi
  rw [hi]; congr 1; omega

theorem sliceBound_nonneg (len n : Nat) : sliceBound len (n : Int) = min n len := by
  unfold sliceBound; simp [show ¬ ((n : Int) < 0) by omega]

omit [DecidableEq α] in
/-- A slice at a valid cut point splits the list. -/
theorem sliceTo_append_sliceFrom (l : List α) (i : Int) : sliceTo l i ++ sliceFrom l i = l := by
  unfold sliceTo sliceFrom; exact List.take_append_drop _ _

end Verif
