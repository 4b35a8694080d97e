import Verif.Dap.Lemmas
/-!
# A check for being a well-typed instance (proofs only, used for concrete cases)
-/

namespace Verif.Dap

mutual
/-- `Plain`, as a check. -/
def plainB : Val → Bool
  | .list l => plainLB l
  | .dict l => plainOB l
  | .enum _ _ => false
  | .obj _ _ => false
  | _ => true
/-- Elements. -/
def plainLB : List Val → Bool
  | [] => true
  | x :: xs => plainB x && plainLB xs
/-- Members. -/
def plainOB : List (Str × Val) → Bool
  | [] => true
  | (_, v) :: xs => plainB v && plainOB xs
end

mutual
theorem plainB_ok (v : Val) (h : plainB v = true) : Plain v := by
  cases v with
  | list l => exact plainLB_ok l h
  | dict l => exact plainOB_ok l h
  | enum => simp [plainB] at h
  | obj => simp [plainB] at h
  | _ => trivial
theorem plainLB_ok (l : List Val) (h : plainLB l = true) : PlainL l := by
  cases l with
  | nil => trivial
  | cons x xs => simp only [plainLB, Bool.and_eq_true] at h; exact ⟨plainB_ok x h.1, plainLB_ok xs h.2⟩
theorem plainOB_ok (l : List (Str × Val)) (h : plainOB l = true) : PlainO l := by
  cases l with
  | nil => trivial
  | cons x xs => simp only [plainOB, Bool.and_eq_true] at h; exact ⟨plainB_ok x.2 h.1, plainOB_ok xs h.2⟩
end

/-- The fixed value. -/
def fixedB (w : Option Val) (v : Val) : Bool :=
  match w with
  | none => true
  | some (.enum e s) => (match v with
    | .enum e' s' => e == e' && s == s'
    | _ => false)
  | some (.bool b) => (match v with
    | .bool b' => b == b'
    | _ => false)
  | _ => false

/-- `Typed`, as a check; the number bounds the nesting. -/
def typedB : Nat → Ann → Val → Bool
  | 0, _, _ => false
  | n + 1, a, v => match a with
    | .int => (match v with | .int _ => true | _ => false)
    | .str => (match v with | .str _ => true | _ => false)
    | .bool => (match v with | .bool _ => true | _ => false)
    | .any => plainB v
    | .literal vals => (match v with | .str s => decide (s ∈ vals) | _ => false)
    | .optional a => (match v with | .null => true | _ => typedB n a v)
    | .pipeNone a => (match v with | .null => true | _ => typedB n a v)
    | .union as => as.any fun a => typedB n a v
    | .tlist a => (match v with | .list l => l.all (typedB n a) | _ => false)
    | .list a => (match v with | .list l => l.all (typedB n a) | _ => false)
    | .tdict a => (match v with | .dict l => l.all fun kv => typedB n a kv.2 | _ => false)
    | .enum e => (match v with | .enum e' s => e == e' && decide (s ∈ e.values) | _ => false)
    | .cls c => (match v with
      | .obj c' attrs => c == c' && decide (attrs.map (·.1) = c.fields.map (·.name)) && decide ((c.fields.map (·.name)).Nodup) &&
          (c.fields.all fun f => typedB n f.ann ((Dict.get? attrs f.name).getD .null) &&
            fixedB (fixedVal c f) ((Dict.get? attrs f.name).getD .null))
      | _ => false)

theorem fixedB_ok {w : Option Val} {v : Val} (h : fixedB w v = true) : ∀ x, w = some x → v = x := by
  intro x hx
  subst hx
  cases x <;> simp [fixedB] at h
  · cases v <;> simp at h; rw [h]
  · cases v <;> simp at h; rw [h.1, h.2]

theorem attrs_eq (attrs : List (Str × Val)) (h : (attrs.map (·.1)).Nodup) :
    attrs = (attrs.map (·.1)).map fun a => (a, (Dict.get? attrs a).getD .null) := by
  rw [List.map_map]
  conv => lhs; rw [← List.map_id attrs]
  apply List.map_congr_left
  intro kv hkv
  simp only [id, Function.comp_apply]
  rw [Dict.get?_of_mem attrs kv.1 kv.2 h hkv]; rfl

theorem typedB_ok : ∀ (n : Nat) (a : Ann) (v : Val), typedB n a v = true → Typed a v := by
  intro n
  induction n with
  | zero => intro a v h; simp [typedB] at h
  | succ n ih =>
    intro a v h
    cases a with
    | int => cases v <;> simp [typedB] at h; exact .int _
    | str => cases v <;> simp [typedB] at h; exact .str _
    | bool => cases v <;> simp [typedB] at h; exact .bool _
    | any => simp only [typedB] at h; exact .any v (plainB_ok v h)
    | literal vals => cases v <;> simp [typedB] at h; exact .literal _ _ h
    | optional a => cases v <;> first | exact .optNone a | (simp only [typedB] at h; exact .optSome _ _ (ih _ _ h))
    | pipeNone a => cases v <;> first | exact .pipeNone a | (simp only [typedB] at h; exact .pipeSome _ _ (ih _ _ h))
    | union as =>
      simp only [typedB, List.any_eq_true] at h
      obtain ⟨a, ha, hv⟩ := h
      exact .union as a v ha (ih _ _ hv)
    | tlist a =>
      cases v <;> simp [typedB] at h
      exact .tlist _ _ fun v hv => ih _ _ (h v hv)
    | list a =>
      cases v <;> simp [typedB] at h
      exact .list _ _ fun v hv => ih _ _ (h v hv)
    | tdict a =>
      cases v <;> simp [typedB] at h
      exact .tdict _ _ fun kv hv => ih _ _ (h kv.1 kv.2 hv)
    | enum e => cases v <;> simp [typedB] at h; obtain ⟨rfl, h⟩ := h; exact .enum _ _ h
    | cls c =>
      cases v with
      | obj c' attrs =>
        simp only [typedB, Bool.and_eq_true, beq_iff_eq, decide_eq_true_eq, List.all_eq_true] at h
        obtain ⟨⟨⟨rfl, h1⟩, h2⟩, h3⟩ := h
        have e : attrs = c.fields.map fun f => (f.name, (Dict.get? attrs f.name).getD .null) := by
          have := attrs_eq attrs (h1 ▸ h2)
          rw [h1, List.map_map] at this
          exact this
        have t := Typed.obj c (fun a => (Dict.get? attrs a).getD .null) (fun f hf => ih _ _ (h3 f hf).1)
          (fun f hf w hw => fixedB_ok (h3 f hf).2 w hw)
        rw [← e] at t
        exact t
      | _ => simp [typedB] at h

/-- An instance, checked. -/
theorem instance_of {c : Cls} {v : Val} (h : typedB 12 (.cls c) v = true) : Instance c v := typedB_ok _ _ _ h

end Verif.Dap
