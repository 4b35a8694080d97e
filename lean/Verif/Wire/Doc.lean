import Verif.Dap.Accept
/-!
# Sequence number and command of a conforming request (proofs)
-/

namespace Verif.Wire
open Verif Verif.Dap Verif.Dap.Schema

/-- The attributes `seq` and `command` of a request class come from the members of those names only. -/
def headOk (c : Cls) : Bool :=
  decide (Dict.get? c.dap py!"seq" = some (.attr py!"seq")) && once [] c py!"seq" && decide (c.fieldUnp py!"seq" = .ident) &&
  decide (Dict.get? c.dap py!"command" = some (.attr py!"command")) && once [] c py!"command" && decide (c.fieldUnp py!"command" = .enum .Command) &&
  decide (py!"seq" ∈ c.fields.map (·.name)) && decide (py!"command" ∈ c.fields.map (·.name)) &&
  ((topMembers c).contains (req py!"seq" .int)) &&
  (match c.attr? py!"command" with
    | some (.enum .Command w) => decide (w ∈ EnumId.Command.values) && (topMembers c).contains (req py!"command" (.oneOf [w]))
    | _ => false)

theorem head_of {strict : Bool} {cs rs : List Cls} {ks : List Str} (hty : py!"__types" ∈ ks) (hsub : ∀ c ∈ rs, c ∈ cs)
    (hacc : ∀ c ∈ cs, accOk rs ks c = true) (hread : ∀ c ∈ rs, readOk ks c = true) (hdf : ∀ c ∈ rs, topDflt c = true) {c : Cls} (hc : c ∈ cs) (hh : headOk c = true)
    {l : List (Str × Json)} (hv : Valid strict (ref c) (.obj l)) (hk : Clean ks (.obj l)) :
    ∃ attrs i w, defaultUnpack c (.obj l) = .ok (.obj c attrs) ∧ Dict.get? l py!"seq" = some (.int i) ∧
      (Val.obj c attrs).attr? py!"seq" = some (.int i) ∧ (Val.obj c attrs).attr? py!"command" = c.attr? py!"command" ∧
      c.attr? py!"command" = some (.enum .Command w) ∧ w ∈ EnumId.Command.values ∧ Dict.get? l py!"command" = some (.str w) := by
  simp only [headOk, Bool.and_eq_true, decide_eq_true_eq] at hh
  obtain ⟨⟨⟨⟨⟨⟨⟨⟨⟨h1, h2⟩, h3⟩, h4⟩, h5⟩, h6⟩, h7⟩, h8⟩, h9⟩, h10⟩ := hh
  obtain ⟨attrs, asg, e1, e2, e3, e4, e5⟩ := unpackF_spec (strict := strict) hty hsub (unpackF_ok hty hsub hacc hread hdf (depth (.obj l))) (hacc c hc) hv hk
    (Nat.lt_succ_self _)
  obtain ⟨q, hq, hqv⟩ := valid_required (d := .top c) hv (m := req py!"seq" .int) (show _ ∈ topMembers c by simpa using h9) rfl
  obtain ⟨i, rfl⟩ : ∃ i, q = .int i := by cases hqv with | int i => exact ⟨i, rfl⟩
  split at h10
  · rename_i w hw
    simp only [Bool.and_eq_true, decide_eq_true_eq] at h10
    obtain ⟨k, hkk, hkv⟩ := valid_required (d := .top c) hv (m := req py!"command" (.oneOf [w])) (show _ ∈ topMembers c by simpa using h10.2) rfl
    obtain rfl : k = .str w := by cases hkv with | oneOf _ s hs => rw [List.mem_singleton.1 hs]
    simp only [req] at hq hkk
    have a1 := e3 _ _ _ (.int i) h1 (Dict.mem_of_get? _ _ _ hq) (by simp) (once_nil h2) (by rw [h3]; rfl)
    have a2 := e3 _ _ _ (.enum .Command w) h4 (Dict.mem_of_get? _ _ _ hkk) (by simp) (once_nil h5) (by rw [h6]; simp only [fieldVal, applyUnp]; rw [if_pos h10.1])
    refine ⟨attrs, i, w, e1, hq, ?_, ?_, hw, h10.1, hkk⟩
    · obtain ⟨f, _, _, hg⟩ := e2 _ h7
      simp only [Val.attr?, hg, a1]; rfl
    · obtain ⟨f, _, _, hg⟩ := e2 _ h8
      simp only [Val.attr?, hg, a2, hw]; rfl
  · cases h10

end Verif.Wire
