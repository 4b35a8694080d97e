import Verif.Wire.Model
import Verif.Dap.Inst
/-!
# Objects built by the debuggee are well typed (proofs)
-/

namespace Verif.Wire
open Verif Verif.Strat
open Verif.Dap (Cls Field Ann Typed Instance typedB fixedB)

/-- The annotation of an attribute. -/
def annOf (c : Cls) (n : Str) : Option Ann := (c.fields.find? fun f => f.name == n).map (·.ann)

/-- An attribute that no assignment gives has a well-typed value, and fixed attributes are not assigned (or the same for all). -/
def restOk (c : Cls) (given : List Str) : Bool :=
  c.fields.all fun f =>
    if given.contains f.name then (Dap.fixedVal c f).isNone
    else typedB 3 f.ann (fieldValue c [] f) && fixedB (Dap.fixedVal c f) (fieldValue c [] f)

/-- The names are distinct. -/
def namesOk (c : Cls) : Bool := decide (c.fields.map (·.name)).Nodup

theorem get_nil (k : Str) : Dict.get? ([] : Dict Str Dap.Val) k = none := rfl

theorem get_some_of_mem (asg : Dict Str Dap.Val) {x : Str × Dap.Val} (hx : x ∈ asg) : Dict.get? asg x.1 ≠ none := by
  induction asg with
  | nil => cases hx
  | cons y ys ih =>
    unfold Dict.get?
    split
    · simp
    · rcases List.mem_cons.1 hx with rfl | h
      · rename_i hne; exact absurd rfl hne
      · exact ih h

theorem find_field {c : Cls} (hn : namesOk c = true) {f : Field} (hf : f ∈ c.fields) : c.fields.find? (fun g => g.name == f.name) = some f := by
  simp only [namesOk, decide_eq_true_eq] at hn
  revert hn hf
  generalize c.fields = l
  intro hf hn
  induction l with
  | nil => cases hf
  | cons g gs ih =>
    simp only [List.map_cons, List.nodup_cons] at hn
    rcases List.mem_cons.1 hf with rfl | h
    · simp
    · have : g.name ≠ f.name := by
        intro e; exact hn.1 (by rw [e]; exact List.mem_map_of_mem h)
      rw [List.find?_cons_of_neg (by simpa using this)]
      exact ih h hn.2

theorem build_instance (c : Cls) (asg : Dict Str Dap.Val) (hn : namesOk c = true) (hr : restOk c (asg.map (·.1)) = true)
    (ha : ∀ x ∈ asg, ∃ a, annOf c x.1 = some a ∧ Typed a x.2) : Instance c (build c asg) := by
  let val : Str → Dap.Val := fun n => match c.fields.find? (fun g => g.name == n) with
    | some f => fieldValue c asg f
    | none => .null
  have hv : ∀ f ∈ c.fields, val f.name = fieldValue c asg f := by
    intro f hf; simp only [val, find_field hn hf]
  have hb : build c asg = .obj c (c.fields.map fun f => (f.name, val f.name)) := by
    simp only [build, Dap.Val.obj.injEq, true_and]
    exact List.map_congr_left fun f hf => by rw [hv f hf]
  rw [hb]
  simp only [restOk, List.all_eq_true] at hr
  have given : ∀ f ∈ c.fields, (∃ v, Dict.get? asg f.name = some v ∧ Typed f.ann v ∧ Dap.fixedVal c f = none) ∨
      (Dict.get? asg f.name = none ∧ typedB 3 f.ann (fieldValue c [] f) = true ∧ fixedB (Dap.fixedVal c f) (fieldValue c [] f) = true) := by
    intro f hf
    have := hr f hf
    cases hg : Dict.get? asg f.name with
    | some v =>
      have hm := Dict.mem_of_get? _ _ _ hg
      obtain ⟨a, h1, h2⟩ := ha _ hm
      simp only [annOf, find_field hn hf, Option.map_some, Option.some.injEq] at h1
      subst h1
      have hc : (asg.map (·.1)).contains f.name = true := by
        simp only [List.contains_eq_mem, decide_eq_true_eq]; exact List.mem_map_of_mem (f := (·.1)) hm
      rw [if_pos hc] at this
      exact .inl ⟨v, rfl, h2, by simpa using this⟩
    | none =>
      have hc : ¬ (asg.map (·.1)).contains f.name = true := by
        simp only [List.contains_eq_mem, decide_eq_true_eq, List.mem_map, not_exists, not_and]
        intro x hx e
        exact get_some_of_mem asg hx (by rw [e]; exact hg)
      rw [if_neg hc] at this
      exact .inr ⟨rfl, by simpa using this⟩
  have rest : ∀ f, Dict.get? asg f.name = none → fieldValue c asg f = fieldValue c [] f := by
    intro f h; simp only [fieldValue, h, get_nil]
  refine Typed.obj c val ?_ ?_
  · intro f hf
    rw [hv f hf]
    rcases given f hf with ⟨v, h1, h2, _⟩ | ⟨h1, h2, _⟩
    · simp only [fieldValue, h1]; exact h2
    · rw [rest f h1]; exact Dap.typedB_ok _ _ _ h2
  · intro f hf w hw
    rw [hv f hf]
    rcases given f hf with ⟨v, h1, _, h3⟩ | ⟨h1, _, h3⟩
    · rw [h3] at hw; cases hw
    · rw [rest f h1, hw] at *; exact Dap.fixedB_ok h3 w rfl

theorem get_map_find (l : List Field) (g : Field → Dap.Val) (n : Str) :
    Dict.get? (l.map fun f => (f.name, g f)) n = (l.find? fun f => f.name == n).map g := by
  induction l with
  | nil => rfl
  | cons f fs ih =>
    simp only [List.map_cons, Dict.get?]
    by_cases h : f.name = n
    · rw [if_pos h, List.find?_cons_of_pos (by simpa using h)]; rfl
    · rw [if_neg h, List.find?_cons_of_neg (by simpa using h), ih]

/-- An attribute of a built object. -/
theorem build_attr (c : Cls) (asg : Dict Str Dap.Val) (n : Str) :
    (build c asg).attr? n = (c.fields.find? fun f => f.name == n).map (fieldValue c asg) := by
  simp only [build, Dap.Val.attr?, get_map_find]

/-- A given attribute. -/
theorem build_given {c : Cls} {asg : Dict Str Dap.Val} {n : Str} {v : Dap.Val} (hf : (annOf c n).isSome = true) (hg : Dict.get? asg n = some v) :
    (build c asg).attr? n = some v := by
  rw [build_attr]
  simp only [annOf, Option.isSome_map] at hf
  cases hx : c.fields.find? fun f => f.name == n with
  | none => rw [hx] at hf; cases hf
  | some f =>
    have : f.name = n := by simpa using List.find?_some hx
    simp only [Option.map_some, fieldValue, this, hg]

/-- An attribute that is not given. -/
theorem build_rest {c : Cls} {asg : Dict Str Dap.Val} {n : Str} {v : Dap.Val} (hg : Dict.get? asg n = none)
    (hb : (build c []).attr? n = some v) : (build c asg).attr? n = some v := by
  rw [build_attr] at *
  cases hx : c.fields.find? fun f => f.name == n with
  | none => rw [hx] at hb; cases hb
  | some f =>
    have : f.name = n := by simpa using List.find?_some hx
    rw [hx] at hb
    simp only [Option.map_some, fieldValue, this, hg, get_nil] at *
    exact hb

theorem mapM_inv {α β : Type} {g : α → Except PyErr β} {h : α → β} (hg : ∀ x y, g x = .ok y → y = h x) :
    ∀ (l : List α) (ys : List β), l.mapM g = .ok ys → ys = l.map h := by
  intro l
  induction l with
  | nil => intro ys e; cases e; rfl
  | cons x xs ih =>
    intro ys e
    rw [List.mapM_cons] at e
    cases hx : g x with
    | error z => rw [hx] at e; cases e
    | ok y =>
      rw [hx] at e
      cases hr : xs.mapM g with
      | error z => rw [hr] at e; cases e
      | ok zs =>
        rw [hr] at e
        cases e
        rw [List.map_cons, ih zs hr, hg x y hx]

/-- Building is what Python's constructor call does, if the arguments without default are given. -/
theorem construct_build {c : Cls} {asg : Dict Str Dap.Val} {attrs : List (Str × Dap.Val)} (h : Dap.construct c asg = .ok attrs) :
    build c asg = .obj c attrs := by
  simp only [build, Dap.Val.obj.injEq, true_and]
  refine (mapM_inv ?_ _ _ h).symm
  intro f y hf
  unfold fieldValue
  split at hf
  · rename_i v hv; cases hf; rw [hv]
  · rename_i hv
    rw [hv]
    split at hf
    · rename_i d hd; cases hf; rw [hd]
    · rename_i hd
      rw [hd]
      split at hf
      · cases hf
      · cases hf; rfl

end Verif.Wire
