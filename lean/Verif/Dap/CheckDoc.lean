import Verif.Dap.Schema
/-!
# A check for conforming to the schema (proofs only, used for concrete cases)
-/

namespace Verif.Dap.Schema
open Verif Verif.Dap

/-- Null. -/
def nullB : Json → Bool
  | .null => true
  | _ => false

/-- `Valid`, as a check; the number bounds the nesting. -/
def validB (strict : Bool) : Nat → Sch → Json → Bool
  | 0, _, _ => false
  | n + 1, s, j => match s with
    | .any => true
    | .int => (match j with | .int _ => true | _ => false)
    | .str => (match j with | .str _ => true | _ => false)
    | .bool => (match j with | .bool _ => true | _ => false)
    | .oneOf vals => (match j with | .str s => decide (s ∈ vals) | _ => false)
    | .orNull s => nullB j || validB strict n s j
    | .alt s t => validB strict n s j || validB strict n t j
    | .arr s => (match j with | .arr l => l.all (validB strict n s) | _ => false)
    | .map s => (match j with | .obj l => l.all fun kv => validB strict n s kv.2 | _ => false)
    | .obj d => (match j with
      | .obj l => decide ((l.map (·.1)).Nodup) && d.members.all fun m => match Dict.get? l m.key with
          | none => !m.required
          | some v => (!strict && !m.required && nullB v) || validB strict n m.sch v
      | _ => false)

theorem nullB_iff (j : Json) : nullB j = true ↔ j = .null := by cases j <;> simp [nullB]

theorem validB_ok {strict : Bool} : ∀ (n : Nat) (s : Sch) (j : Json), validB strict n s j = true → Valid strict s j := by
  intro n
  induction n with
  | zero => intro s j h; simp [validB] at h
  | succ n ih =>
    intro s j h
    cases s with
    | any => exact .any j
    | int => cases j <;> simp [validB] at h; exact .int _
    | str => cases j <;> simp [validB] at h; exact .str _
    | bool => cases j <;> simp [validB] at h; exact .bool _
    | oneOf vals => cases j <;> simp [validB] at h; exact .oneOf _ _ h
    | orNull s =>
      simp only [validB, Bool.or_eq_true, nullB_iff] at h
      rcases h with rfl | h
      · exact .null s
      · exact .nonNull _ _ (ih _ _ h)
    | alt s t =>
      simp only [validB, Bool.or_eq_true] at h
      rcases h with h | h
      · exact .altL _ _ _ (ih _ _ h)
      · exact .altR _ _ _ (ih _ _ h)
    | arr s => cases j <;> simp [validB] at h; exact .arr _ _ fun j hj => ih _ _ (h j hj)
    | map s => cases j <;> simp [validB] at h; exact .map _ _ fun kv hkv => ih _ _ (h kv.1 kv.2 hkv)
    | obj d =>
      cases j with
      | obj l =>
        simp only [validB, Bool.and_eq_true, decide_eq_true_eq, List.all_eq_true] at h
        refine .obj d l h.1 ?_ ?_
        · intro m hm hr
          have := h.2 m hm
          cases hg : Dict.get? l m.key with
          | none => simp [hg, hr] at this
          | some v => rfl
        · intro m hm v hg hn
          have := h.2 m hm
          simp only [hg, Bool.or_eq_true, Bool.and_eq_true, Bool.not_eq_true', nullB_iff] at this
          rcases this with h | h
          · exact absurd ⟨h.1.1, h.1.2, h.2⟩ hn
          · exact ih _ _ h
      | _ => simp [validB] at h

end Verif.Dap.Schema
