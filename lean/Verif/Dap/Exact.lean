import Verif.Dap.Unknown
/-! # Dispatch in both directions, stepIn targets, pass-through (proofs only) -/

namespace Verif.Dap

/-- The attribute is the member with this value of the enumeration. -/
def isEnum (o : Option Val) (e : EnumId) (s : Str) : Bool :=
  match o with
  | some (.enum e' s') => e' == e && s' == s
  | _ => false

theorem isEnum_iff (o : Option Val) (e : EnumId) (s : Str) : isEnum o e s = true ↔ o = some (.enum e s) := by
  unfold isEnum; split
  · simp
  · rename_i h; constructor
    · simp
    · intro h'; exact absurd h' (h e s)

theorem reg_request : (registry .request).all (fun e =>
    e.2.base == some .Request && isEnum (e.2.attr? py!"command") .Command e.1) = true := by decide +kernel
theorem reg_event : (registry .event).all (fun e =>
    e.2.base == some .Event && isEnum (e.2.attr? py!"event") .EventType e.1) = true := by decide +kernel
theorem reg_response : (registry .response).all (fun e =>
    e.2.base == some .Response && ((e.1 == py!"error" && e.2 == .ErrorResponse) ||
      (e.1 != py!"error" && isEnum (e.2.attr? py!"command") .Command e.1))) = true := by decide +kernel
theorem reg_request' : allCls.all (fun c => c.base != some .Request ||
    (match c.attr? py!"command" with | some (.enum .Command s) => Dict.get? (registry .request) s == some c | _ => false)) = true := by
  decide +kernel
theorem reg_event' : allCls.all (fun c => c.base != some .Event ||
    (match c.attr? py!"event" with | some (.enum .EventType s) => Dict.get? (registry .event) s == some c | _ => false)) = true := by
  decide +kernel
theorem reg_response' : allCls.all (fun c => c.base != some .Response || c == .ErrorResponse ||
    (match c.attr? py!"command" with | some (.enum .Command s) => Dict.get? (registry .response) s == some c | _ => false)) = true := by
  decide +kernel
theorem reg_error : Dict.get? (registry .response) py!"error" = some .ErrorResponse := by decide +kernel

theorem request_registered (c : Cls) (s : Str) (hb : c.base = some .Request)
    (hs : c.attr? py!"command" = some (.enum .Command s)) : Dict.get? (registry .request) s = some c := by
  have := List.all_eq_true.mp reg_request' c (mem_allCls c)
  simpa [hb, hs] using this
theorem event_registered (c : Cls) (s : Str) (hb : c.base = some .Event)
    (hs : c.attr? py!"event" = some (.enum .EventType s)) : Dict.get? (registry .event) s = some c := by
  have := List.all_eq_true.mp reg_event' c (mem_allCls c)
  simpa [hb, hs] using this
theorem response_registered (c : Cls) (s : Str) (hb : c.base = some .Response) (hc : c ≠ .ErrorResponse)
    (hs : c.attr? py!"command" = some (.enum .Command s)) : Dict.get? (registry .response) s = some c := by
  have := List.all_eq_true.mp reg_response' c (mem_allCls c)
  simpa [hb, hs, hc] using this

theorem registered_request (c : Cls) (s : Str) (h : Dict.get? (registry .request) s = some c) :
    c.base = some .Request ∧ c.attr? py!"command" = some (.enum .Command s) := by
  have := List.all_eq_true.mp reg_request _ (Dict.mem_of_get? _ _ _ h)
  simpa [isEnum_iff] using this
theorem registered_event (c : Cls) (s : Str) (h : Dict.get? (registry .event) s = some c) :
    c.base = some .Event ∧ c.attr? py!"event" = some (.enum .EventType s) := by
  have := List.all_eq_true.mp reg_event _ (Dict.mem_of_get? _ _ _ h)
  simpa [isEnum_iff] using this
theorem registered_response (c : Cls) (s : Str) (h : Dict.get? (registry .response) s = some c) :
    c.base = some .Response ∧ ((s = py!"error" ∧ c = .ErrorResponse) ∨
      (s ≠ py!"error" ∧ c.attr? py!"command" = some (.enum .Command s))) := by
  have := List.all_eq_true.mp reg_response _ (Dict.mem_of_get? _ _ _ h)
  simpa [isEnum_iff] using this

theorem lookupReg_ok {r : List (Str × Cls)} {k : Json} {c : Cls} (h : lookupReg r k = .ok c) :
    ∃ s, k = .str s ∧ Dict.get? r s = some c := by
  unfold lookupReg at h
  split at h
  · rename_i s
    split at h
    · rename_i c' hc; cases h; exact ⟨s, rfl, hc⟩
    · cases h
  all_goals cases h

theorem customObj_cls {c : Cls} {asg : Dict Str Val} {v : Val} (h : customObj c asg = .ok v) : ∃ attrs, v = .obj c attrs := by
  unfold customObj at h
  cases hc : construct c asg with
  | error e => simp [hc, Except.map] at h
  | ok a => simp [hc, Except.map] at h; exact ⟨a, h.symm⟩

theorem defaultUnpack_cls {c : Cls} {j : Json} {v : Val} (h : defaultUnpack c j = .ok v) : ∃ attrs, v = .obj c attrs := by
  cases j with
  | obj l =>
    rw [defaultUnpack_eq] at h
    split at h
    · cases h
    · split at h
      · cases h
      · split at h
        · cases h
        · cases h; exact ⟨_, rfl⟩
  | _ => rw [defaultUnpack_nonobj _ _ (by simp)] at h; cases h

theorem unpackCls_cls {c : Cls} {j : Json} {v : Val} (h : unpackCls c j = .ok v) : ∃ attrs, v = .obj c attrs := by
  unfold unpackCls at h
  split at h
  · unfold unpackAttach at h
    simp only [bind, Except.bind] at h
    repeat' (split at h; · cases h)
    exact customObj_cls h
  · unfold unpackLaunch at h
    simp only [bind, Except.bind] at h
    repeat' (split at h; · cases h)
    exact customObj_cls h
  · exact defaultUnpack_cls h

theorem _root_.Verif.Dict.get?_erase {κ α : Type} [DecidableEq κ] (d : Dict κ α) (k k' : κ) :
    Dict.get? (Dict.erase d k) k' = if k' = k then none else Dict.get? d k' := by
  induction d with
  | nil => simp [Dict.erase, Dict.get?]
  | cons x d ih =>
    obtain ⟨a, b⟩ := x
    unfold Dict.erase at ih ⊢
    by_cases ha : a = k
    · subst ha
      rw [List.filter_cons_of_neg (by simp), ih]
      split
      · rfl
      · rename_i h; simp only [Dict.get?]; rw [if_neg (fun e => h e.symm)]
    · rw [List.filter_cons_of_pos (by simpa using ha)]
      simp only [Dict.get?, ih]
      by_cases h : a = k'
      · subst h; simp [ha]
      · simp [h]

theorem get?_ofJsonO (l : List (Str × Json)) (k : Str) : Dict.get? (ofJsonO l) k = (Dict.get? l k).map ofJson := by
  induction l with
  | nil => rfl
  | cons x l ih =>
    obtain ⟨a, v⟩ := x
    simp only [ofJsonO, Dict.get?, ih]
    split <;> rfl

theorem ofJsonO_eq_map (l : List (Str × Json)) : ofJsonO l = l.map fun kv => (kv.1, ofJson kv.2) := by
  induction l with
  | nil => rfl
  | cons x l ih => obtain ⟨k, v⟩ := x; simp [ofJsonO, ih]

end Verif.Dap
