import Verif.Dap.RoundTrip
/-! # Dispatch and the custom attach/launch packing (proofs only) -/

namespace Verif

theorem Dict.get?_map {κ α β : Type} [DecidableEq κ] (d : List (κ × α)) (g : κ × α → κ × β)
    (hg : ∀ e, (g e).1 = e.1) (k : κ) :
    Dict.get? (d.map g) k = (Dict.get? d k).map fun v => (g (k, v)).2 := by
  induction d with
  | nil => rfl
  | cons e d ih =>
    obtain ⟨a, b⟩ := e
    have h1 := hg (a, b)
    simp only [List.map_cons]
    rw [show g (a, b) = (a, (g (a, b)).2) from Prod.ext h1 rfl]
    simp only [Dict.get?]
    by_cases h : a = k
    · subst h; simp
    · rw [if_neg h, if_neg h]; exact ih

theorem Dict.union_disjoint {κ α : Type} [DecidableEq κ] (d e : Dict κ α)
    (h : ((d ++ e).map (·.1)).Nodup) : Dict.union d e = d ++ e := by
  induction e generalizing d with
  | nil => simp [Dict.union]
  | cons x e ih =>
    obtain ⟨k, v⟩ := x
    have hk : k ∉ d.map (·.1) := by
      simp only [List.map_append, List.map_cons, List.nodup_append] at h
      intro hm; exact h.2.2 k hm k (by simp) rfl
    simp only [Dict.union, List.foldl_cons]
    rw [Dict.set_fresh d k v hk]
    have := ih (d ++ [(k, v)]) (by simpa using h)
    simpa [Dict.union] using this

theorem Dict.erase_fresh {κ α : Type} [DecidableEq κ] (d : Dict κ α) (k : κ) (h : k ∉ d.map (·.1)) :
    Dict.erase d k = d := by
  unfold Dict.erase
  rw [List.filter_eq_self]
  intro e he
  simp only [decide_eq_true_eq]
  rintro rfl; exact h (List.mem_map.mpr ⟨e, he, rfl⟩)

namespace Dap

/-- What dispatch needs to know about one message class. -/
def dispatchOk (c : Cls) : Bool :=
  match c.kind? with
  | none => true
  | some k =>
    Dict.get? c.dap py!"type" == some (.attr py!"message_type") &&
    (match k with
    | .request => (match c.attr? py!"message_type", c.attr? py!"command" with
      | some (.enum .MessageType m), some (.enum .Command s) => m == py!"request" && Dict.get? (registry .request) s == some c
      | _, _ => false) &&
      Dict.get? c.dap py!"command" == some (.attr py!"command") &&
      (c.fields.any fun f => f.name == py!"message_type" && !f.init && f.dflt.isNone) &&
      (c.fields.any fun f => f.name == py!"command" && !f.init && f.dflt.isNone)
    | .event => (match c.attr? py!"message_type", c.attr? py!"event" with
      | some (.enum .MessageType m), some (.enum .EventType s) => m == py!"event" && Dict.get? (registry .event) s == some c
      | _, _ => false) &&
      Dict.get? c.dap py!"event" == some (.attr py!"event") &&
      (c.fields.any fun f => f.name == py!"message_type" && !f.init && f.dflt.isNone) &&
      (c.fields.any fun f => f.name == py!"event" && !f.init && f.dflt.isNone)
    | .response =>
      (match c.attr? py!"message_type" with
      | some (.enum .MessageType m) => m == py!"response"
      | _ => false) &&
      Dict.get? c.dap py!"command" == some (.attr py!"command") &&
      Dict.get? c.dap py!"success" == some (.attr py!"success") &&
      (c.fields.any fun f => f.name == py!"message_type" && !f.init && f.dflt.isNone) &&
      (c.fields.any fun f => f.name == py!"command") &&
      (if c = .ErrorResponse then
        (c.fields.any fun f => f.name == py!"success" && !f.init && (match f.dflt with | some (.bool false) => true | _ => false)) &&
        Dict.get? (registry .response) py!"error" == some c
      else
        (c.fields.any fun f => f.name == py!"success" && !f.init && (match f.dflt with | some (.bool true) => true | _ => false)) &&
        (c.fields.any fun f => f.name == py!"command" && !f.init && f.dflt.isNone) &&
        (match c.attr? py!"command" with
        | some (.enum .Command s) => Dict.get? (registry .response) s == some c
        | _ => false)))

theorem allCls_dispatchOk : allCls.all dispatchOk = true := by decide +kernel

theorem dispatchOk_all (c : Cls) : dispatchOk c = true :=
  List.all_eq_true.mp allCls_dispatchOk c (mem_allCls c)

/-- `toJson` of an object is an object with the packed members. -/
def members : Json → List (Str × Json)
  | .obj l => l
  | _ => []

theorem getItem_pack (c : Cls) (val : Str → Val) (k a : Str) (hk : k ≠ py!"arguments")
    (hd : Dict.get? c.dap k = some (.attr a)) (ha : a ∈ c.fields.map (·.name)) :
    getItem (toJson (.obj c (c.fields.map fun f => (f.name, val f.name)))) k = .ok (toJson (val a)) := by
  have h1 : Dict.get? (packDap c.dap (toJsonO (c.fields.map fun f => (f.name, val f.name)))) k = some (toJson (val a)) := by
    rw [packDap_eq, Dict.get?_map _ _ (by rintro ⟨k, e⟩; cases e <;> rfl), hd]
    simp only [Option.map_some, packEntry]
    rw [attrJson_obj c val a ha]
  have h2 : ∀ args, Dict.get? (updateArguments (packDap c.dap (toJsonO (c.fields.map fun f => (f.name, val f.name)))) args) k =
      some (toJson (val a)) := by
    intro args
    unfold updateArguments
    rw [Dict.get?_map _ _ (by
      rintro ⟨k, e⟩; simp only; split
      · split <;> rfl
      · rfl), h1]
    simp only [Option.map_some, if_neg hk]
  simp only [toJson, packCls]
  split
  · simp only [getItem, h2]
  · simp only [getItem, h2]
  · simp only [getItem, h1]

theorem fixed_attr {c : Cls} {val : Str → Val} (hfix : ∀ f ∈ c.fields, ∀ w, fixedVal c f = some w → val f.name = w)
    {a : Str} (ha : a ≠ py!"seq")
    (h : (c.fields.any fun f => f.name == a && !f.init && f.dflt.isNone) = true) {w : Val} (hw : c.attr? a = some w) :
    val a = w ∧ a ∈ c.fields.map (·.name) := by
  simp only [List.any_eq_true, Bool.and_eq_true, beq_iff_eq, Bool.not_eq_true', Option.isNone_iff_eq_none] at h
  obtain ⟨f, hf, ⟨h1, h2⟩, h3⟩ := h
  subst h1
  refine ⟨hfix f hf w ?_, List.mem_map.mpr ⟨f, hf, rfl⟩⟩
  simp [fixedVal, h2, ha, h3, hw]

theorem fixed_dflt {c : Cls} {val : Str → Val} (hfix : ∀ f ∈ c.fields, ∀ w, fixedVal c f = some w → val f.name = w)
    {a : Str} (ha : a ≠ py!"seq") {b : Bool}
    (h : (c.fields.any fun f => f.name == a && !f.init && (match f.dflt with | some (.bool x) => x == b | _ => false)) = true) :
    val a = .bool b ∧ a ∈ c.fields.map (·.name) := by
  simp only [List.any_eq_true, Bool.and_eq_true, beq_iff_eq, Bool.not_eq_true'] at h
  obtain ⟨f, hf, ⟨h1, h2⟩, h3⟩ := h
  subst h1
  refine ⟨hfix f hf _ ?_, List.mem_map.mpr ⟨f, hf, rfl⟩⟩
  split at h3
  · rename_i x hx; simp only [beq_iff_eq] at h3; subst h3
    simp [fixedVal, h2, ha, hx]
  · cases h3

theorem unpack_request (j : Json) (s : Str) (c : Cls) (h1 : getItem j py!"type" = .ok (.str py!"request"))
    (h2 : getItem j py!"command" = .ok (.str s)) (h3 : Dict.get? (registry .request) s = some c) :
    unpack j = unpackCls c j := by
  unfold unpack
  simp only [h1, bind, Except.bind]
  rw [show lookupKind (.str py!"request") = .ok .request from rfl]
  simp only [h2, lookupReg, h3]

theorem unpack_event (j : Json) (s : Str) (c : Cls) (h1 : getItem j py!"type" = .ok (.str py!"event"))
    (h2 : getItem j py!"event" = .ok (.str s)) (h3 : Dict.get? (registry .event) s = some c) :
    unpack j = unpackCls c j := by
  unfold unpack
  simp only [h1, bind, Except.bind]
  rw [show lookupKind (.str py!"event") = .ok .event from rfl]
  simp only [h2, lookupReg, h3]

theorem unpack_response (j ok cmd : Json) (s : Str) (c : Cls) (h1 : getItem j py!"type" = .ok (.str py!"response"))
    (h2 : getItem j py!"command" = .ok cmd) (h2' : getItem j py!"success" = .ok ok)
    (hs : (if truthy ok then cmd else .str py!"error") = .str s)
    (h3 : Dict.get? (registry .response) s = some c) :
    unpack j = unpackCls c j := by
  unfold unpack
  simp only [h1, bind, Except.bind]
  rw [show lookupKind (.str py!"response") = .ok .response from rfl]
  simp only [h2, h2', hs, lookupReg, h3]

/-- Dispatch on a packed message selects its class. -/
theorem unpack_dispatch (c : Cls) (v : Val) (h : Instance c v) (hk : c.kind? ≠ none) :
    unpack (toJson v) = unpackCls c (toJson v) := by
  have hd := dispatchOk_all c
  cases h with
  | obj c val hty hfix =>
  unfold dispatchOk at hd
  split at hd
  · rename_i h; exact absurd h hk
  · rename_i k hkk
    simp only [Bool.and_eq_true, beq_iff_eq] at hd
    obtain ⟨hdt, hd⟩ := hd
    cases k with
    | request =>
      simp only [Bool.and_eq_true, beq_iff_eq] at hd
      obtain ⟨⟨⟨hm, hdc⟩, hf1⟩, hf2⟩ := hd
      split at hm
      · rename_i m s h1 h2
        simp only [Bool.and_eq_true, beq_iff_eq] at hm
        obtain ⟨rfl, hreg⟩ := hm
        obtain ⟨e1, m1⟩ := fixed_attr hfix (by decide) hf1 h1
        obtain ⟨e2, m2⟩ := fixed_attr hfix (by decide) hf2 h2
        have g1 := getItem_pack c val _ _ (by decide) hdt m1
        have g2 := getItem_pack c val _ _ (by decide) hdc m2
        rw [e1] at g1; rw [e2] at g2
        exact unpack_request _ s c g1 g2 hreg
      · cases hm
    | event =>
      simp only [Bool.and_eq_true, beq_iff_eq] at hd
      obtain ⟨⟨⟨hm, hdc⟩, hf1⟩, hf2⟩ := hd
      split at hm
      · rename_i m s h1 h2
        simp only [Bool.and_eq_true, beq_iff_eq] at hm
        obtain ⟨rfl, hreg⟩ := hm
        obtain ⟨e1, m1⟩ := fixed_attr hfix (by decide) hf1 h1
        obtain ⟨e2, m2⟩ := fixed_attr hfix (by decide) hf2 h2
        have g1 := getItem_pack c val _ _ (by decide) hdt m1
        have g2 := getItem_pack c val _ _ (by decide) hdc m2
        rw [e1] at g1; rw [e2] at g2
        exact unpack_event _ s c g1 g2 hreg
      · cases hm
    | response =>
      simp only [Bool.and_eq_true, beq_iff_eq] at hd
      obtain ⟨⟨⟨⟨⟨hm, hdc⟩, hds⟩, hf1⟩, hf2⟩, hrest⟩ := hd
      split at hm
      · rename_i m h1
        simp only [beq_iff_eq] at hm
        subst hm
        obtain ⟨e1, m1⟩ := fixed_attr hfix (by decide) hf1 h1
        have g1 := getItem_pack c val _ _ (by decide) hdt m1
        rw [e1] at g1
        have m2 : py!"command" ∈ c.fields.map (·.name) := by
          simp only [List.any_eq_true, beq_iff_eq] at hf2
          obtain ⟨f, hf, h⟩ := hf2
          exact List.mem_map.mpr ⟨f, hf, h⟩
        have g2 := getItem_pack c val _ _ (by decide) hdc m2
        split at hrest
        · simp only [Bool.and_eq_true, beq_iff_eq] at hrest
          obtain ⟨hs, hreg⟩ := hrest
          obtain ⟨e3, m3⟩ := fixed_dflt (b := false) hfix (a := py!"success") (by decide) (by
            simp only [List.any_eq_true, Bool.and_eq_true, beq_iff_eq, Bool.not_eq_true'] at hs ⊢
            obtain ⟨f, hf, hh, h2⟩ := hs
            refine ⟨f, hf, hh, ?_⟩
            split at h2
            · rename_i hx; rw [hx]; rfl
            · cases h2)
          have g3 := getItem_pack c val _ _ (by decide) hds m3
          rw [e3] at g3
          exact unpack_response _ _ _ _ c g1 g2 g3 (by simp [toJson, truthy]) hreg
        · simp only [Bool.and_eq_true, beq_iff_eq] at hrest
          obtain ⟨⟨hs, hf3⟩, hreg⟩ := hrest
          split at hreg
          · rename_i s h2
            simp only [beq_iff_eq] at hreg
            obtain ⟨e2, -⟩ := fixed_attr hfix (by decide) hf3 h2
            rw [e2] at g2
            obtain ⟨e3, m3⟩ := fixed_dflt (b := true) hfix (a := py!"success") (by decide) (by
              simp only [List.any_eq_true, Bool.and_eq_true, beq_iff_eq, Bool.not_eq_true'] at hs ⊢
              obtain ⟨f, hf, hh, h2⟩ := hs
              refine ⟨f, hf, hh, ?_⟩
              split at h2
              · rename_i hx; rw [hx]; rfl
              · cases h2)
            have g3 := getItem_pack c val _ _ (by decide) hds m3
            rw [e3] at g3
            exact unpack_response _ _ _ s c g1 g2 g3 (by simp [toJson, truthy]) hreg
          · cases hreg
      · cases hm

end Dap
end Verif
