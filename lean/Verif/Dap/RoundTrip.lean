import Verif.Dap.Lemmas
/-! # pack/unpack round trip: typed objects (proofs only) -/

namespace Verif.Dap

theorem clsKeysOk_all (c : Cls) : clsKeysOk c = true :=
  List.all_eq_true.mp allCls_keysOk c (mem_allCls c)

theorem dap_nodup (c : Cls) : (c.dap.map (·.1)).Nodup := by
  have := clsKeysOk_all c; simp only [clsKeysOk, Bool.and_eq_true, decide_eq_true_eq] at this; exact this.1.1.1.1.1

theorem dap_entries (c : Cls) : ∀ e ∈ c.dap, entryKeysOk e.2 = true ∧ StrOk e.1 = true := by
  have := clsKeysOk_all c; simp only [clsKeysOk, Bool.and_eq_true, decide_eq_true_eq, List.all_eq_true] at this
  exact this.1.1.1.1.2

theorem dap_noTypes (c : Cls) : py!"__types" ∉ c.dap.map (·.1) := by
  have := clsKeysOk_all c; simp only [clsKeysOk, Bool.and_eq_true, Bool.not_eq_true'] at this
  intro h; have h2 := this.1.1.1.2; rw [← Bool.not_eq_true] at h2
  exact h2 (List.contains_iff_mem.mpr h)

theorem fields_nodup (c : Cls) : (c.fields.map (·.name)).Nodup := by
  have := clsKeysOk_all c; simp only [clsKeysOk, Bool.and_eq_true, decide_eq_true_eq] at this; exact this.1.1.2

theorem mapped_are_fields (c : Cls) : ∀ a ∈ mappedAttrs c.dap, a ∈ c.fields.map (·.name) := by
  have := clsKeysOk_all c; simp only [clsKeysOk, Bool.and_eq_true, List.all_eq_true] at this
  intro a ha; exact List.contains_iff_mem.mp (this.1.2 a ha)

theorem fields_ann (c : Cls) : ∀ f ∈ c.fields, annOk f.ann = true ∧ (annNullable f.ann = true → f.dflt = some .null) := by
  have := clsKeysOk_all c; simp only [clsKeysOk, Bool.and_eq_true, List.all_eq_true] at this
  intro f hf; have h := this.2 f hf
  simp only [Bool.or_eq_true, Bool.not_eq_true'] at h
  refine ⟨h.1, fun hn => ?_⟩
  rcases h.2 with h2 | h2
  · rw [hn] at h2; cases h2
  · unfold dfltIsNull at h2; split at h2
    · assumption
    · cases h2

theorem complete_of (c : Cls) (h : c ≠ .AttachRequest ∧ c ≠ .LaunchRequest ∧ c ≠ .StepInRequest) :
    ∀ f ∈ c.fields, f.name ∈ mappedAttrs c.dap := by
  have := List.all_eq_true.mp allCls_complete c (mem_allCls c)
  simp only [Bool.or_eq_true, beq_iff_eq] at this
  have h2 : clsComplete c = true := by
    rcases this with ((h' | h') | h') | h'
    · exact h'
    · exact absurd h' h.1
    · exact absurd h' h.2.1
    · exact absurd h' h.2.2
  simp only [clsComplete, List.all_eq_true] at h2
  intro f hf; exact List.contains_iff_mem.mp (h2 f hf)

theorem fieldUnp_eq (c : Cls) (f : Field) (hf : f ∈ c.fields) : c.fieldUnp f.name = f.ann.unp := by
  have hn := fields_nodup c
  unfold Cls.fieldUnp
  have : c.fields.find? (fun g => g.name == f.name) = some f := by
    revert hf hn
    generalize c.fields = l
    intro hf hn
    induction l with
    | nil => simp at hf
    | cons g gs ih =>
      simp only [List.map_cons, List.nodup_cons] at hn
      rcases List.mem_cons.mp hf with rfl | hf
      · simp
      · have hne : g.name ≠ f.name := fun h => hn.1 (List.mem_map.mpr ⟨f, hf, h.symm⟩)
        rw [List.find?_cons_of_neg (by simpa using hne)]
        exact ih hf hn.2
  rw [this]

/-! ## Depth -/

theorem depthO_mem {l : List (Str × Json)} {k : Str} {v : Json} (h : (k, v) ∈ l) : depth v ≤ depthO l := by
  induction l with
  | nil => simp at h
  | cons e l ih =>
    obtain ⟨k', v'⟩ := e
    simp only [depthO]
    rcases List.mem_cons.mp h with h | h
    · cases h; omega
    · have := ih h; omega

theorem depthL_mem {l : List Json} {v : Json} (h : v ∈ l) : depth v ≤ depthL l := by
  induction l with
  | nil => simp at h
  | cons e l ih =>
    simp only [depthL]
    rcases List.mem_cons.mp h with h | h
    · cases h; omega
    · have := ih h; omega

theorem depth_pack_mem (c : Cls) (J : Str → Json) (a : Str) (h : a ∈ mappedAttrs c.dap) :
    depth (J a) ≤ depthO (c.dap.map (packEntry J)) := by
  rcases (mem_mappedAttrs _ _).mp h with h | h
  · obtain ⟨e, he, h⟩ := List.mem_filterMap.mp h
    obtain ⟨k, en⟩ := e
    cases en with
    | attr b => simp at h; subst h; exact depthO_mem (List.mem_map.mpr ⟨_, he, rfl⟩)
    | sub sm => simp at h
  · obtain ⟨e, he, h⟩ := List.mem_flatMap.mp h
    obtain ⟨k, en⟩ := e
    cases en with
    | attr b => simp at h
    | sub sm =>
      simp only [List.mem_map] at h
      obtain ⟨⟨k', a'⟩, h1, h2⟩ := h
      simp only at h2; subst h2
      have h3 : (k', J a') ∈ sm.map (fun (k', a) => (k', J a)) := List.mem_map.mpr ⟨_, h1, rfl⟩
      have h4 := depthO_mem h3
      have h5 : (k, Json.obj (sm.map (fun (k', a) => (k', J a)))) ∈ c.dap.map (packEntry J) := List.mem_map.mpr ⟨_, he, rfl⟩
      have h6 := depthO_mem h5
      rw [depth] at h6; omega

/-! ## Objects -/

theorem packDap_eq (m : DapMap) (attrs : List (Str × Json)) : packDap m attrs = m.map (packEntry (attrJson attrs)) := by
  unfold packDap
  apply List.map_congr_left
  rintro ⟨k, e⟩ _
  cases e <;> rfl

/-- The unpack loop on a packed object, as far as the mapped attributes go. -/
theorem walk_pack (fuel : Nat) (c : Cls) (J : Str → Json) (V : Str → Val)
    (hv : ∀ a ∈ mappedAttrs c.dap, isNull (J a) = false → fieldVal (unpackF fuel) (c.fieldUnp a) (J a) = .ok (V a)) :
    ∃ asg0 q asg, walkTop (unpackF fuel) c (c.dap.map (packEntry J)) [] [] = .ok (asg0, q) ∧
      walkQueue (unpackF fuel) c q asg0 = .ok asg ∧
      ∀ a, Dict.get? asg a = if a ∈ mappedAttrs c.dap ∧ isNull (J a) = false then some (V a) else none := by
  obtain ⟨asg0, h1, h2⟩ := walkTop_pack (unpackF fuel) c J V (dap_nodup c) (dap_noTypes c)
    (fun a ha => hv a ((mem_mappedAttrs _ _).mpr (Or.inl ha))) c.dap [] [] (fun e he => he)
  obtain ⟨asg, h3, h4⟩ := walkQueue_pack (unpackF fuel) c J V (fun e he => (dap_entries c e he).1)
    (fun a ha => hv a ((mem_mappedAttrs _ _).mpr (Or.inr ha))) c.dap asg0 (fun e he => he)
  refine ⟨asg0, _, asg, h1, by simpa using h3, fun a => ?_⟩
  rw [h4 a, h2 a]
  by_cases hn : isNull (J a) = false
  · by_cases hs : a ∈ subAttrs c.dap
    · rw [if_pos ⟨hs, hn⟩, if_pos ⟨(mem_mappedAttrs _ _).mpr (Or.inr hs), hn⟩]
    · rw [if_neg (fun h => hs h.1)]
      simp only [Dict.get?]
      apply ite_iff
      rw [mem_mappedAttrs]
      exact ⟨fun h => ⟨Or.inl h.1, h.2⟩, fun h => ⟨h.1.resolve_right hs, h.2⟩⟩
  · rw [if_neg (fun h => hn h.2), if_neg (fun h => hn h.2), if_neg (fun h => hn h.2)]; rfl

theorem attrJson_obj (c : Cls) (val : Str → Val) (a : Str) (h : a ∈ c.fields.map (·.name)) :
    attrJson (toJsonO (c.fields.map fun f => (f.name, val f.name))) a = toJson (val a) := by
  rw [toJsonO_eq_map, List.map_map]
  unfold attrJson
  have hn := fields_nodup c
  obtain ⟨f, hf, rfl⟩ := List.mem_map.mp h
  rw [Dict.get?_of_mem _ f.name (toJson (val f.name))]
  · rfl
  · rw [List.map_map]; exact hn
  · exact List.mem_map.mpr ⟨f, hf, rfl⟩

/-- A packed default object unpacks to itself when its attribute values do. -/
theorem unpackF_packDap (fuel : Nat) (c : Cls) (val : Str → Val)
    (hty : ∀ f ∈ c.fields, val f.name = .null → f.dflt = some .null)
    (hcomp : ∀ f ∈ c.fields, f.name ∈ mappedAttrs c.dap ∨ f.dflt = some (val f.name))
    (hv : ∀ f ∈ c.fields, val f.name ≠ .null → f.name ∈ mappedAttrs c.dap →
      fieldVal (unpackF fuel) f.ann.unp (toJson (val f.name)) = .ok (val f.name)) :
    unpackF (fuel + 1) c (.obj (packDap c.dap (toJsonO (c.fields.map fun f => (f.name, val f.name))))) =
      .ok (.obj c (c.fields.map fun f => (f.name, val f.name))) := by
  have hJ : ∀ a ∈ mappedAttrs c.dap, attrJson (toJsonO (c.fields.map fun f => (f.name, val f.name))) a = toJson (val a) :=
    fun a ha => attrJson_obj c val a (mapped_are_fields c a ha)
  obtain ⟨asg0, q, asg, h1, h2, h3⟩ := walk_pack fuel c (attrJson (toJsonO (c.fields.map fun f => (f.name, val f.name)))) val (by
    intro a ha hn
    rw [hJ a ha] at hn ⊢
    obtain ⟨f, hf, rfl⟩ := List.mem_map.mp (mapped_are_fields c a ha)
    rw [fieldUnp_eq c f hf]
    refine hv f hf ?_ ha
    intro h; rw [h] at hn; simp [toJson, isNull] at hn)
  rw [packDap_eq, unpackF, h1]
  simp only [h2]
  have h4 : construct c asg = .ok (c.fields.map fun f => (f.name, val f.name)) := by
    unfold construct
    apply mapM_ok
    intro f hf
    rw [h3 f.name]
    by_cases hm : f.name ∈ mappedAttrs c.dap
    · rw [hJ _ hm]
      by_cases hn : val f.name = .null
      · rw [if_neg (by rintro ⟨-, h⟩; rw [hn] at h; simp [toJson, isNull] at h)]
        simp only; rw [hty f hf hn, hn]
      · have : isNull (toJson (val f.name)) = false := by
          rw [← Bool.not_eq_true, toJson_null]; exact hn
        rw [if_pos ⟨hm, this⟩]
    · rw [if_neg (fun h => hm h.1)]
      rcases hcomp f hf with h | h
      · exact absurd h hm
      · rw [h]
  rw [h4]

/-! ## Fields -/

theorem applyUnpL_ok (rec : Cls → Json → Except PyErr Val) (u : Unp) (l : List Val)
    (h : ∀ v ∈ l, applyUnp rec u (toJson v) = .ok v) : applyUnpL rec u (toJsonL l) = .ok l := by
  induction l with
  | nil => rfl
  | cons x xs ih =>
    simp only [toJsonL, applyUnpL]
    rw [h x (by simp), ih (fun v hv => h v (by simp [hv]))]

theorem fieldVal_ident (rec : Cls → Json → Except PyErr Val) (j : Json) : fieldVal rec .ident j = .ok (ofJson j) := by
  cases j with
  | arr l =>
    have : applyUnpL rec .ident l = .ok (ofJsonL l) := by
      induction l with
      | nil => rfl
      | cons x xs ih => simp [applyUnpL, applyUnp, ih, ofJsonL]
    simp [fieldVal, this, ofJson]
  | _ => rfl

theorem packCls_obj (c : Cls) (l : List (Str × Json)) : ∃ m, packCls c l = .obj m := by
  cases c <;> exact ⟨_, rfl⟩

/-- Values of base annotations that are not plain are packed to something that is no list. -/
theorem fieldVal_base {a : Ann} {v : Val} (rec : Cls → Json → Except PyErr Val) (h : Typed a v)
    (ha : annBase a = true) (hap : applyUnp rec a.typeUnp (toJson v) = .ok v) :
    fieldVal rec a.typeUnp (toJson v) = .ok v := by
  cases hj : toJson v with
  | arr l =>
    cases h with
    | any v h' =>
      simp only [Ann.typeUnp] at *
      rw [fieldVal_ident, ← hj, ofJson_toJson v h']
    | obj c val h' hfix =>
      simp only [toJson] at hj
      obtain ⟨m, hm⟩ := packCls_obj c (toJsonO (c.fields.map fun f => (f.name, val f.name)))
      rw [hm] at hj; cases hj
    | union as b v hm h' =>
      simp only [annBase, List.all_eq_true] at ha
      rcases typed_scalar h' (ha b hm) with ⟨i, rfl⟩ | ⟨s, rfl⟩ <;> simp [toJson] at hj
    | _ => first | (simp [toJson] at hj; done) | simp [annBase] at ha
  | _ => rw [hj] at hap; simpa [fieldVal] using hap

theorem unp_base {a : Ann} (ha : annBase a = true) : a.unp = a.typeUnp := by
  cases a <;> simp_all [Ann.unp, annBase]

theorem unp_optional (a : Ann) (ha : annBase a = true) : (Ann.optional a).unp = a.typeUnp := by
  cases a <;> simp_all [Ann.unp, annBase, Ann.typeUnp]

/-- Unpacking the packed form of a typed value gives the value back. -/
theorem typed_roundtrip {a : Ann} {v : Val} (h : Typed a v) : ∀ fuel, depth (toJson v) ≤ fuel →
    (annBase a = true → applyUnp (unpackF fuel) a.typeUnp (toJson v) = .ok v) ∧
    (annOk a = true → v ≠ .null → fieldVal (unpackF fuel) a.unp (toJson v) = .ok v) := by
  have plainCase : ∀ (a : Ann) (v : Val), Typed a v → annPlain a = true → a.typeUnp = .ident → a.unp = .ident →
      ∀ fuel, (annBase a = true → applyUnp (unpackF fuel) a.typeUnp (toJson v) = .ok v) ∧
       (annOk a = true → v ≠ .null → fieldVal (unpackF fuel) a.unp (toJson v) = .ok v) := by
    intro a v ht hp h1 h2 fuel
    rw [h1, h2]
    have := ofJson_toJson v (ht.plain hp)
    exact ⟨fun _ => by simp [applyUnp, this], fun _ _ => by rw [fieldVal_ident, this]⟩
  induction h with
  | int i => intro fuel _; exact plainCase _ _ (.int i) rfl rfl rfl fuel
  | str i => intro fuel _; exact plainCase _ _ (.str i) rfl rfl rfl fuel
  | bool i => intro fuel _; exact plainCase _ _ (.bool i) rfl rfl rfl fuel
  | any v h => intro fuel _; exact plainCase _ _ (.any v h) rfl rfl rfl fuel
  | literal vals s h => intro fuel _; exact plainCase _ _ (.literal vals s h) rfl rfl rfl fuel
  | optNone a => intro fuel _; exact ⟨by simp [annBase], fun _ h => absurd rfl h⟩
  | pipeNone a => intro fuel _; exact ⟨by simp [annBase], fun _ h => absurd rfl h⟩
  | pipeSome a v h ih =>
    intro fuel _
    refine ⟨by simp [annBase], fun ha hn => ?_⟩
    simp only [annOk] at ha
    exact (plainCase _ _ (.pipeSome a v h) (by simpa [annPlain] using ha) rfl rfl fuel).2 (by simpa [annOk] using ha) hn
  | optSome a v h ih =>
    intro fuel hd
    refine ⟨by simp [annBase], fun ha hn => ?_⟩
    simp only [annOk] at ha
    rw [unp_optional a ha]
    exact fieldVal_base _ h ha ((ih fuel hd).1 ha)
  | union as a v hm h ih =>
    intro fuel _
    have key : as.all annScalar = true → ofJson (toJson v) = v := by
      intro ha
      simp only [List.all_eq_true] at ha
      rcases typed_scalar h (ha a hm) with ⟨i, rfl⟩ | ⟨s, rfl⟩ <;> rfl
    constructor
    · intro ha; simp only [annBase] at ha; simp [Ann.typeUnp, applyUnp, key ha]
    · intro ha hn; simp only [annOk, annBase] at ha
      rw [show (Ann.union as).unp = .ident from rfl, fieldVal_ident, key ha]
  | tdict a l h ih =>
    intro fuel _
    have key : annPlain a = true → ofJson (toJson (.dict l)) = .dict l := by
      intro ha
      exact ofJson_toJson _ ((Typed.tdict a l h).plain (by simpa [annPlain] using ha))
    constructor
    · intro ha; simp only [annBase] at ha; simp only [Ann.typeUnp, applyUnp, key ha]
    · intro ha hn; simp only [annOk, annBase] at ha
      rw [show (Ann.tdict a).unp = .ident from rfl, fieldVal_ident, key ha]
  | tlist a l h ih =>
    intro fuel hd
    refine ⟨by simp [annBase], fun ha _ => ?_⟩
    simp only [annOk] at ha
    simp only [toJson, depth] at hd
    have : applyUnpL (unpackF fuel) a.typeUnp (toJsonL l) = .ok l := by
      apply applyUnpL_ok
      intro v hv
      refine (ih v hv fuel ?_).1 ha
      have : toJson v ∈ toJsonL l := by rw [toJsonL_eq_map]; exact List.mem_map.mpr ⟨v, hv, rfl⟩
      have := depthL_mem this; omega
    simp only [toJson, Ann.unp, fieldVal, this]
  | list a l h ih =>
    intro fuel hd
    refine ⟨by simp [annBase], fun ha _ => ?_⟩
    simp only [annOk] at ha
    simp only [toJson, depth] at hd
    have : applyUnpL (unpackF fuel) a.typeUnp (toJsonL l) = .ok l := by
      apply applyUnpL_ok
      intro v hv
      refine (ih v hv fuel ?_).1 ha
      have : toJson v ∈ toJsonL l := by rw [toJsonL_eq_map]; exact List.mem_map.mpr ⟨v, hv, rfl⟩
      have := depthL_mem this; omega
    simp only [toJson, Ann.unp, fieldVal, this]
  | enum e s hs =>
    intro fuel _
    constructor
    · intro _; simp [Ann.typeUnp, toJson, applyUnp, hs]
    · intro _ _; simp [Ann.typeUnp, Ann.unp, toJson, fieldVal, applyUnp, hs]
  | obj c val h hfix ih =>
    intro fuel hd
    have key : annBase (.cls c) = true → unpackF fuel c (toJson (.obj c (c.fields.map fun f => (f.name, val f.name)))) =
        .ok (.obj c (c.fields.map fun f => (f.name, val f.name))) := by
      intro ha
      simp only [annBase, Bool.and_eq_true, bne_iff_ne, ne_eq] at ha
      have hp : toJson (.obj c (c.fields.map fun f => (f.name, val f.name))) =
          .obj (packDap c.dap (toJsonO (c.fields.map fun f => (f.name, val f.name)))) := by
        simp only [toJson, packCls]
        split
        · exact absurd rfl ha.1.1
        · exact absurd rfl ha.1.2
        · rfl
      rw [hp] at hd ⊢
      simp only [depth, packDap_eq] at hd
      obtain ⟨f, rfl⟩ : ∃ f, fuel = f + 1 := ⟨fuel - 1, by omega⟩
      apply unpackF_packDap
      · intro g hg hn
        have := fields_ann c g hg
        have hty := h g hg
        rw [hn] at hty
        exact this.2 (typed_null hty this.1)
      · intro g hg
        exact Or.inl (complete_of c ⟨ha.1.1, ha.1.2, ha.2⟩ g hg)
      · intro g hg hn hm
        refine (ih g hg f ?_).2 (fields_ann c g hg).1 hn
        have h1 := depth_pack_mem c (attrJson (toJsonO (c.fields.map fun f => (f.name, val f.name)))) g.name hm
        rw [attrJson_obj c val g.name (List.mem_map.mpr ⟨g, hg, rfl⟩)] at h1
        omega
    constructor
    · intro ha; simpa only [Ann.typeUnp, applyUnp] using key ha
    · intro ha _
      have ha' : annBase (.cls c) = true := by simpa only [annOk] using ha
      exact fieldVal_base _ (.obj c val h hfix) ha' (by simpa only [Ann.typeUnp, applyUnp] using key ha')

/-- Every default-packed class. -/
theorem defaultUnpack_pack (c : Cls) (v : Val) (h : Instance c v)
    (hc : c ≠ .AttachRequest ∧ c ≠ .LaunchRequest ∧ c ≠ .StepInRequest) :
    defaultUnpack c (toJson v) = .ok v := by
  have := (typed_roundtrip h (depth (toJson v) + 1) (by omega)).1 (by simp [annBase, hc])
  exact this

end Verif.Dap
