import Verif.Dap.Spec
import Verif.Json.RoundTrip
/-! # pack/unpack round trip (proofs only) -/

namespace Verif

theorem Dict.get?_set {κ α : Type} [DecidableEq κ] (d : Dict κ α) (k k' : κ) (v : α) :
    Dict.get? (Dict.set d k v) k' = if k = k' then some v else Dict.get? d k' := by
  induction d with
  | nil => simp [Dict.set, Dict.get?]
  | cons e d ih =>
    obtain ⟨a, b⟩ := e
    simp only [Dict.set]
    split
    · rename_i h; subst h; simp only [Dict.get?]
      split <;> simp_all
    · rename_i h
      simp only [Dict.get?]
      split
      · rename_i h'; subst h'; rw [if_neg (fun h2 => h h2.symm)]
      · exact ih

theorem Dict.get?_of_mem {κ α : Type} [DecidableEq κ] (d : Dict κ α) (k : κ) (v : α)
    (hn : (d.map (·.1)).Nodup) (h : (k, v) ∈ d) : Dict.get? d k = some v := by
  induction d with
  | nil => simp at h
  | cons e d ih =>
    obtain ⟨a, b⟩ := e
    simp only [List.map_cons, List.nodup_cons] at hn
    simp only [List.mem_cons, Prod.mk.injEq] at h
    simp only [Dict.get?]
    rcases h with ⟨rfl, rfl⟩ | h
    · simp
    · rw [if_neg]; exact ih hn.2 h
      rintro rfl; exact hn.1 (List.mem_map.mpr ⟨_, h, rfl⟩)

theorem Dict.get?_none {κ α : Type} [DecidableEq κ] (d : Dict κ α) (k : κ)
    (h : k ∉ d.map (·.1)) : Dict.get? d k = none := by
  induction d with
  | nil => rfl
  | cons e d ih =>
    simp only [List.map_cons, List.mem_cons, not_or] at h
    simp only [Dict.get?]
    rw [if_neg (fun h' => h.1 h'.symm)]; exact ih h.2

theorem Dict.mem_of_get? {κ α : Type} [DecidableEq κ] (d : Dict κ α) (k : κ) (v : α)
    (h : Dict.get? d k = some v) : (k, v) ∈ d := by
  induction d with
  | nil => simp [Dict.get?] at h
  | cons e d ih =>
    simp only [Dict.get?] at h
    split at h
    · rename_i h'; subst h'; cases h; simp
    · exact List.mem_cons_of_mem _ (ih h)

namespace Dap

/-! ## Plain data -/

mutual
theorem ofJson_toJson (v : Val) (h : Plain v) : ofJson (toJson v) = v := by
  match v, h with
  | .null, _ => rfl
  | .bool _, _ => rfl
  | .int _, _ => rfl
  | .flt _, _ => rfl
  | .str _, _ => rfl
  | .list l, h => simp only [Plain] at h; simp only [toJson, ofJson, ofJsonL_toJsonL l h]
  | .dict l, h => simp only [Plain] at h; simp only [toJson, ofJson, ofJsonO_toJsonO l h]
  | .enum _ _, h => simp [Plain] at h
  | .obj _ _, h => simp [Plain] at h
theorem ofJsonL_toJsonL (l : List Val) (h : PlainL l) : ofJsonL (toJsonL l) = l := by
  match l, h with
  | [], _ => rfl
  | x :: xs, h => simp only [PlainL] at h; simp only [toJsonL, ofJsonL, ofJson_toJson x h.1, ofJsonL_toJsonL xs h.2]
theorem ofJsonO_toJsonO (l : List (Str × Val)) (h : PlainO l) : ofJsonO (toJsonO l) = l := by
  match l, h with
  | [], _ => rfl
  | (k, x) :: xs, h => simp only [PlainO] at h; simp only [toJsonO, ofJsonO, ofJson_toJson x h.1, ofJsonO_toJsonO xs h.2]
end

mutual
theorem toJson_ofJson (j : Json) : toJson (ofJson j) = j := by
  match j with
  | .null => rfl
  | .bool _ => rfl
  | .int _ => rfl
  | .float _ => rfl
  | .str _ => rfl
  | .arr l => simp only [toJson, ofJson, toJsonL_ofJsonL l]
  | .obj l => simp only [toJson, ofJson, toJsonO_ofJsonO l]
theorem toJsonL_ofJsonL (l : List Json) : toJsonL (ofJsonL l) = l := by
  match l with
  | [] => rfl
  | x :: xs => simp only [toJsonL, ofJsonL, toJson_ofJson x, toJsonL_ofJsonL xs]
theorem toJsonO_ofJsonO (l : List (Str × Json)) : toJsonO (ofJsonO l) = l := by
  match l with
  | [] => rfl
  | (k, x) :: xs => simp only [toJsonO, ofJsonO, toJson_ofJson x, toJsonO_ofJsonO xs]
end

theorem ofJsonL_eq_map (l : List Json) : ofJsonL l = l.map ofJson := by
  induction l with
  | nil => rfl
  | cons x xs ih => simp [ofJsonL, ih]

theorem toJsonL_eq_map (l : List Val) : toJsonL l = l.map toJson := by
  induction l with
  | nil => rfl
  | cons x xs ih => simp [toJsonL, ih]

theorem toJsonO_eq_map (l : List (Str × Val)) : toJsonO l = l.map fun kv => (kv.1, toJson kv.2) := by
  induction l with
  | nil => rfl
  | cons x xs ih => simp [toJsonO, ih]

theorem plainL_iff (l : List Val) : PlainL l ↔ ∀ v ∈ l, Plain v := by
  induction l with
  | nil => simp [PlainL]
  | cons x xs ih => simp [PlainL, ih]

theorem plainO_iff (l : List (Str × Val)) : PlainO l ↔ ∀ kv ∈ l, Plain kv.2 := by
  induction l with
  | nil => simp [PlainO]
  | cons x xs ih => simp [PlainO, ih]

/-! ## Which annotations the unpacker handles -/

mutual
/-- Values of this annotation are plain data. -/
def annPlain : Ann → Bool
  | .int => true | .str => true | .bool => true | .any => true
  | .literal _ => true
  | .optional a => annPlain a
  | .pipeNone a => annPlain a
  | .union as => annPlainL as
  | .tdict a => annPlain a
  | .tlist a => annPlain a
  | .list a => annPlain a
  | .enum _ => false
  | .cls _ => false
/-- All of them. -/
def annPlainL : List Ann → Bool
  | [] => true
  | a :: as => annPlain a && annPlainL as
end

/-- A type of strings or numbers. -/
def annScalar : Ann → Bool
  | .int => true | .str => true | .literal _ => true
  | _ => false

/-- An annotation that is no list and no optional. -/
def annBase : Ann → Bool
  | .int => true | .str => true | .bool => true | .any => true
  | .literal _ => true
  | .union as => as.all annScalar
  | .tdict a => annPlain a
  | .enum _ => true
  | .cls c => c != .AttachRequest && c != .LaunchRequest && c != .StepInRequest
  | _ => false

/-- The annotations that occur in the tables. -/
def annOk : Ann → Bool
  | .optional a => annBase a
  | .pipeNone a => annPlain a
  | .tlist a => annBase a
  | .list a => annBase a
  | a => annBase a

/-- `None` is a value of this type. -/
def annNullable : Ann → Bool
  | .optional _ => true
  | .pipeNone _ => true
  | .any => true
  | _ => false

theorem annPlainL_mem {as : List Ann} {a : Ann} (h : annPlainL as = true) (hm : a ∈ as) : annPlain a = true := by
  induction as with
  | nil => simp at hm
  | cons b bs ih =>
    simp only [annPlainL, Bool.and_eq_true] at h
    rcases List.mem_cons.mp hm with rfl | hm
    · exact h.1
    · exact ih h.2 hm

theorem Typed.plain {a : Ann} {v : Val} (h : Typed a v) (ha : annPlain a = true) : Plain v := by
  induction h with
  | int | str | bool | literal | optNone | pipeNone => simp [Plain]
  | any v h => exact h
  | optSome a v h ih => exact ih (by simpa [annPlain] using ha)
  | pipeSome a v h ih => exact ih (by simpa [annPlain] using ha)
  | union as a v hm h ih => exact ih (annPlainL_mem (by simpa [annPlain] using ha) hm)
  | tlist a l h ih => simp only [Plain, plainL_iff]; exact fun v hv => ih v hv (by simpa [annPlain] using ha)
  | list a l h ih => simp only [Plain, plainL_iff]; exact fun v hv => ih v hv (by simpa [annPlain] using ha)
  | tdict a l h ih => simp only [Plain, plainO_iff]; exact fun v hv => ih v hv (by simpa [annPlain] using ha)
  | enum => simp [annPlain] at ha
  | obj => simp [annPlain] at ha

/-! ## The table conditions -/

/-- The attribute names a mapping writes. -/
def mappedAttrs (m : DapMap) : List Str :=
  m.flatMap fun (_, e) => match e with | .attr a => [a] | .sub sm => sm.map (·.2)

/-- `dflt` is `None`. -/
def dfltIsNull (d : Option Val) : Bool := match d with | some .null => true | _ => false

/-- The nested mapping of an entry has no repeated key. -/
def entryKeysOk : Entry → Bool
  | .attr _ => true
  | .sub sm => decide (sm.map (·.1)).Nodup && (sm.all fun kv => StrOk kv.1)

/-- Conditions on the tables of one class that the round trip needs. -/
def clsKeysOk (c : Cls) : Bool :=
  decide (c.dap.map (·.1)).Nodup && (c.dap.all fun kv => entryKeysOk kv.2 && StrOk kv.1)
  && !((c.dap.map (·.1)).contains py!"__types")
  && decide (c.fields.map (·.name)).Nodup
  && ((mappedAttrs c.dap).all fun a => (c.fields.map (·.name)).contains a)
  && c.fields.all fun f => annOk f.ann && (!(annNullable f.ann) || dfltIsNull f.dflt)

/-- Every field is written under some key. -/
def clsComplete (c : Cls) : Bool :=
  c.fields.all fun f => (mappedAttrs c.dap).contains f.name

theorem allCls_keysOk : allCls.all clsKeysOk = true := by decide +kernel

theorem allCls_complete :
    (allCls.all fun c => clsComplete c || c == .AttachRequest || c == .LaunchRequest || c == .StepInRequest) = true := by
  decide +kernel

/-! ## Typed values -/

theorem typed_scalar {a : Ann} {v : Val} (h : Typed a v) (ha : annScalar a = true) :
    (∃ i, v = .int i) ∨ ∃ s, v = .str s := by
  cases h <;> simp_all [annScalar]

/-- The unpack function of a base annotation inverts packing, given that of nested objects. -/
theorem typed_null {a : Ann} (h : Typed a .null) (ha : annOk a = true) : annNullable a = true := by
  cases h with
  | any => rfl
  | optNone => rfl
  | optSome => rfl
  | pipeNone => rfl
  | pipeSome => rfl
  | union as a v hm h =>
    simp only [annOk, annBase, List.all_eq_true] at ha
    rcases typed_scalar h (ha a hm) with ⟨i, hi⟩ | ⟨s, hs⟩ <;> contradiction

theorem toJson_null (v : Val) : isNull (toJson v) = true ↔ v = .null := by
  cases v <;> simp [toJson, isNull]
  rename_i c attrs
  cases c <;> simp [packCls]

theorem ite_iff {α : Type} {p q : Prop} [Decidable p] [Decidable q] (h : p ↔ q) (x y : α) :
    (if p then x else y) = if q then x else y := by
  by_cases hp : p
  · rw [if_pos hp, if_pos (h.mp hp)]
  · rw [if_neg hp, if_neg (fun hq => hp (h.mpr hq))]

/-! ## Walking a packed object -/

section walk
variable (rec : Cls → Json → Except PyErr Val) (c : Cls) (J : Str → Json) (V : Str → Val)

/-- Assigning the attributes of a nested mapping. -/
theorem walkSub_pack (m : List (Str × Str)) (hm : (m.map (·.1)).Nodup)
    (hv : ∀ a ∈ m.map (·.2), isNull (J a) = false → fieldVal rec (c.fieldUnp a) (J a) = .ok (V a)) :
    ∀ (ms : List (Str × Str)) (asg : Dict Str Val), (∀ e ∈ ms, e ∈ m) →
    ∃ asg', walkSub rec c m (ms.map fun (k, a) => (k, J a)) asg = .ok asg' ∧
      ∀ a, Dict.get? asg' a = if a ∈ ms.map (·.2) ∧ isNull (J a) = false then some (V a) else Dict.get? asg a := by
  intro ms
  induction ms with
  | nil => intro asg _; exact ⟨asg, by simp [walkSub], by simp⟩
  | cons e ms ih =>
    obtain ⟨k, b⟩ := e
    intro asg hsub
    have hmem := hsub (k, b) (by simp)
    simp only [List.map_cons, walkSub]
    by_cases hnull : isNull (J b) = true
    · rw [if_pos hnull]
      obtain ⟨asg', h1, h2⟩ := ih asg (fun e he => hsub e (by simp [he]))
      refine ⟨asg', h1, fun a => ?_⟩
      rw [h2 a]
      by_cases hab : a = b
      · subst hab; simp [hnull]
      · exact ite_iff (by simp [hab]) _ _
    · rw [if_neg hnull, Dict.get?_of_mem m k b hm hmem]
      have hnull' : isNull (J b) = false := by simpa using hnull
      simp only
      rw [hv b (List.mem_map.mpr ⟨_, hmem, rfl⟩) hnull']
      simp only
      obtain ⟨asg', h1, h2⟩ := ih (Dict.set asg b (V b)) (fun e he => hsub e (by simp [he]))
      refine ⟨asg', h1, fun a => ?_⟩
      rw [h2 a, Dict.get?_set]
      by_cases hab : a = b
      · subst hab; simp [hnull']
      · have : ¬ b = a := fun h => hab h.symm
        rw [if_neg this]; exact ite_iff (by simp [hab]) _ _

/-- One packed entry. -/
def packEntry (e : Str × Entry) : Str × Json := match e.2 with
  | .attr a => (e.1, J a)
  | .sub sm => (e.1, .obj (sm.map fun (k', a) => (k', J a)))

/-- The queue left after the top level. -/
def queueOf (ms : DapMap) : List Queued :=
  ms.filterMap fun e => match e.2 with
    | .attr _ => none
    | .sub sm => some (some sm, .obj (sm.map fun (k', a) => (k', J a)))

/-- Attributes assigned at the top level. -/
def topAttrs (ms : DapMap) : List Str :=
  ms.filterMap fun e => match e.2 with | .attr a => some a | .sub _ => none

/-- Attributes assigned at the nested level. -/
def subAttrs (ms : DapMap) : List Str :=
  ms.flatMap fun e => match e.2 with | .attr _ => [] | .sub sm => sm.map (·.2)

theorem walkTop_pack (hm : (c.dap.map (·.1)).Nodup) (hty : py!"__types" ∉ c.dap.map (·.1))
    (hv : ∀ a ∈ topAttrs c.dap, isNull (J a) = false → fieldVal rec (c.fieldUnp a) (J a) = .ok (V a)) :
    ∀ (ms : DapMap) (asg : Dict Str Val) (q : List Queued), (∀ e ∈ ms, e ∈ c.dap) →
    ∃ asg', walkTop rec c (ms.map (packEntry J)) asg q = .ok (asg', q ++ queueOf J ms) ∧
      ∀ a, Dict.get? asg' a = if a ∈ topAttrs ms ∧ isNull (J a) = false then some (V a) else Dict.get? asg a := by
  intro ms
  induction ms with
  | nil => intro asg q _; exact ⟨asg, by simp [walkTop, queueOf], by simp [topAttrs]⟩
  | cons e ms ih =>
    obtain ⟨k, en⟩ := e
    intro asg q hsub
    have hmem := hsub (k, en) (by simp)
    have hk : k ≠ py!"__types" := by
      intro h; exact hty (List.mem_map.mpr ⟨_, hmem, h⟩)
    have hsub' : ∀ e ∈ ms, e ∈ c.dap := fun e he => hsub e (by simp [he])
    cases en with
    | sub sm =>
      simp only [List.map_cons, packEntry, walkTop]
      rw [if_neg (by simp [isNull]), if_neg hk, Dict.get?_of_mem c.dap k _ hm hmem]
      simp only
      obtain ⟨asg', h1, h2⟩ := ih asg (q ++ [(some sm, .obj (sm.map fun (k', a) => (k', J a)))]) hsub'
      refine ⟨asg', ?_, ?_⟩
      · rw [h1]; simp [queueOf]
      · intro a; rw [h2 a]; exact ite_iff (by simp [topAttrs]) _ _
    | attr b =>
      simp only [List.map_cons, packEntry, walkTop]
      by_cases hnull : isNull (J b) = true
      · rw [if_pos hnull]
        obtain ⟨asg', h1, h2⟩ := ih asg q hsub'
        refine ⟨asg', ?_, fun a => ?_⟩
        · rw [h1]; simp [queueOf]
        · rw [h2 a]
          by_cases hab : a = b
          · subst hab; simp [hnull]
          · exact ite_iff (by simp [topAttrs, hab]) _ _
      · rw [if_neg hnull, if_neg hk, Dict.get?_of_mem c.dap k _ hm hmem]
        have hnull' : isNull (J b) = false := by simpa using hnull
        simp only
        have hb : b ∈ topAttrs c.dap := List.mem_filterMap.mpr ⟨_, hmem, rfl⟩
        rw [hv b hb hnull']
        simp only
        obtain ⟨asg', h1, h2⟩ := ih (Dict.set asg b (V b)) q hsub'
        refine ⟨asg', ?_, fun a => ?_⟩
        · rw [h1]; simp [queueOf]
        · rw [h2 a, Dict.get?_set]
          by_cases hab : a = b
          · subst hab
            rw [if_pos rfl, if_pos (show a ∈ topAttrs ((k, Entry.attr a) :: ms) ∧ _ from ⟨by simp [topAttrs], hnull'⟩)]
            split <;> rfl
          · have : ¬ b = a := fun h => hab h.symm
            rw [if_neg this]; exact ite_iff (by simp [topAttrs, hab]) _ _

theorem walkQueue_pack (hks : ∀ e ∈ c.dap, entryKeysOk e.2 = true)
    (hv : ∀ a ∈ subAttrs c.dap, isNull (J a) = false → fieldVal rec (c.fieldUnp a) (J a) = .ok (V a)) :
    ∀ (ms : DapMap) (asg : Dict Str Val), (∀ e ∈ ms, e ∈ c.dap) →
    ∃ asg', walkQueue rec c (queueOf J ms) asg = .ok asg' ∧
      ∀ a, Dict.get? asg' a = if a ∈ subAttrs ms ∧ isNull (J a) = false then some (V a) else Dict.get? asg a := by
  intro ms
  induction ms with
  | nil => intro asg _; exact ⟨asg, by simp [walkQueue, queueOf], by simp [subAttrs]⟩
  | cons e ms ih =>
    obtain ⟨k, en⟩ := e
    intro asg hsub
    have hmem := hsub (k, en) (by simp)
    have hsub' : ∀ e ∈ ms, e ∈ c.dap := fun e he => hsub e (by simp [he])
    cases en with
    | attr b =>
      obtain ⟨asg', h1, h2⟩ := ih asg hsub'
      exact ⟨asg', by simpa [queueOf] using h1, fun a => by rw [h2 a]; exact ite_iff (by simp [subAttrs]) _ _⟩
    | sub sm =>
      have hnd := hks _ hmem
      simp only [entryKeysOk, Bool.and_eq_true, decide_eq_true_eq] at hnd
      obtain ⟨asg1, h1, h2⟩ := walkSub_pack rec c J V sm hnd.1
        (fun a ha => hv a (List.mem_flatMap.mpr ⟨_, hmem, ha⟩)) sm asg (fun e he => he)
      obtain ⟨asg2, h3, h4⟩ := ih asg1 hsub'
      refine ⟨asg2, ?_, fun a => ?_⟩
      · simp only [queueOf, List.filterMap_cons] at h3 ⊢
        simp only [walkQueue, h1, h3]
      · rw [h4 a, h2 a]
        by_cases ha : isNull (J a) = false
        · by_cases hs : a ∈ subAttrs ms
          · have : a ∈ subAttrs ((k, Entry.sub sm) :: ms) := by
              simp only [subAttrs, List.flatMap_cons, List.mem_append] at hs ⊢; exact Or.inr hs
            simp [hs, ha, this]
          · have : a ∈ subAttrs ((k, Entry.sub sm) :: ms) ↔ a ∈ sm.map (·.2) := by
              simp only [subAttrs, List.flatMap_cons, List.mem_append] at hs ⊢
              exact ⟨fun h => h.resolve_right hs, Or.inl⟩
            rw [if_neg (fun h => hs h.1)]; exact ite_iff (by rw [this]) _ _
        · simp [ha]

end walk

theorem mem_mappedAttrs (m : DapMap) (a : Str) : a ∈ mappedAttrs m ↔ a ∈ topAttrs m ∨ a ∈ subAttrs m := by
  induction m with
  | nil => simp [mappedAttrs, topAttrs, subAttrs]
  | cons e m ih =>
    obtain ⟨k, en⟩ := e
    cases en with
    | attr b =>
      simp only [mappedAttrs, topAttrs, subAttrs, List.flatMap_cons, List.filterMap_cons, List.mem_append, List.mem_cons, List.nil_append] at ih ⊢
      rw [ih]; simp [or_assoc]
    | sub sm =>
      simp only [mappedAttrs, topAttrs, subAttrs, List.flatMap_cons, List.filterMap_cons, List.mem_append] at ih ⊢
      rw [ih]
      constructor
      · rintro (h | h | h) <;> simp [h]
      · rintro (h | h | h) <;> simp [h]

theorem mapM_ok {α β : Type} {g : α → Except PyErr β} {h : α → β} (l : List α)
    (hg : ∀ x ∈ l, g x = .ok (h x)) : l.mapM g = .ok (l.map h) := by
  induction l with
  | nil => rfl
  | cons x xs ih =>
    rw [List.mapM_cons, hg x (by simp), ih (fun y hy => hg y (by simp [hy]))]
    rfl

end Dap
end Verif
