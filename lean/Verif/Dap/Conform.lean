import Verif.Dap.Schema
import Verif.Dap.Dispatch
/-!
# Packed objects conform to the schema (proofs only)

A decidable check of the class tables against the schema, and the proof that it is enough.
-/

namespace Verif.Dap.Schema
open Verif Verif.Dap

/-- Every value of the annotated type, packed, conforms to a schema that is no union; `rec`
is the check for what is inside. -/
def core (cs : List Cls) (rec : Ann → Sch → Bool) (a : Ann) (s : Sch) : Bool :=
  match a with
  | .int => s == .int
  | .str => s == .str
  | .bool => s == .bool
  | .literal vs => s == .str || (match s with
      | .oneOf ws => vs.all (fun v => decide (v ∈ ws))
      | _ => false)
  | .enum e => s == .str || (match s with
      | .oneOf ws => e.values.all (fun v => decide (v ∈ ws))
      | _ => false)
  | .union as => as.all fun a => rec a s
  | .tlist a => (match s with
      | .arr s => rec a s
      | _ => false)
  | .list a => (match s with
      | .arr s => rec a s
      | _ => false)
  | .tdict a => (match s with
      | .map s => rec a s
      | _ => false)
  | .cls c => s == .obj (.top c) && decide (c ∈ cs)
  | _ => false

/-- Every value of the annotated type, packed, conforms to the schema; objects only of the
classes `cs`. The number bounds the nesting of the annotation. -/
def fits (cs : List Cls) : Nat → Ann → Sch → Bool
  | 0, _, _ => false
  | n + 1, a, s => match s with
    | .any => true
    | .alt s t => fits cs n a s || fits cs n a t ||
        (match a with
          | .union as => as.all fun a => fits cs n a s || fits cs n a t
          | _ => false)
    | .orNull s => fits cs n a s ||
        (match a with
          | .optional a => fits cs n a s
          | .pipeNone a => fits cs n a s
          | _ => false)
    | s => core cs (fits cs n) a s

/-- A value that never varies conforms. -/
def valFits : Val → Sch → Bool
  | .enum _ s, .oneOf ws => decide (s ∈ ws)
  | .enum _ _, .str => true
  | .bool _, .bool => true
  | _, _ => false

/-- The attribute `a` of the class conforms to the member. -/
def attrFits (cs : List Cls) (strict : Bool) (c : Cls) (a : Str) (m : Member) : Bool :=
  match c.fields.find? (fun f => f.name == a) with
  | none => false
  | some f =>
    (match fixedVal c f with
      | some w => valFits w m.sch
      | none => false) ||
    fits cs 6 f.ann m.sch ||
    (!strict && !m.required && (match f.ann with
      | .optional a => fits cs 6 a m.sch
      | .pipeNone a => fits cs 6 a m.sch
      | _ => false))

/-- The members of an object whose keys are mapped to attributes. -/
def bodyFits (cs : List Cls) (strict : Bool) (c : Cls) (sm : List (Str × Str)) (ms : List Member) : Bool :=
  ms.all fun m => match Dict.get? sm m.key with
    | some a => attrFits cs strict c a m
    | none => !m.required

/-- The class's packed form conforms to its schema. -/
def clsFits (cs : List Cls) (strict : Bool) (c : Cls) : Bool :=
  c != .AttachRequest && c != .LaunchRequest &&
  (topMembers c).all fun m => match Dict.get? c.dap m.key with
    | some (.attr a) => attrFits cs strict c a m
    | some (.sub sm) => m.sch == .obj (.body c) && bodyFits cs strict c sm (bodyMembers c)
    | none => !m.required

theorem packCls_default (c : Cls) (h1 : c ≠ .AttachRequest) (h2 : c ≠ .LaunchRequest) (attrs : List (Str × Json)) :
    packCls c attrs = .obj (packDap c.dap attrs) := by
  cases c <;> first | rfl | exact absurd rfl h1 | exact absurd rfl h2

theorem sub_nodup (c : Cls) {k : Str} {sm : List (Str × Str)} (h : (k, Entry.sub sm) ∈ c.dap) : (sm.map (·.1)).Nodup := by
  have := (dap_entries c _ h).1
  simp only [entryKeysOk] at this
  simp only [Bool.and_eq_true, decide_eq_true_eq] at this
  exact this.1

/-- What is shown of a value by induction on its type. -/
def Good (cs : List Cls) (strict : Bool) (a : Ann) (v : Val) : Prop :=
  (∀ n s, fits cs n a s = true → Valid strict s (toJson v)) ∧
  (∀ n s a', (a = .optional a' ∨ a = .pipeNone a') → fits cs n a' s = true → v = .null ∨ Valid strict s (toJson v))


theorem good_lift {cs : List Cls} {strict : Bool} {a : Ann} {v : Val}
    (hcore : ∀ n s, core cs (fits cs n) a s = true → Valid strict s (toJson v))
    (hunion : ∀ as, a = .union as → ∃ a1 ∈ as, Good cs strict a1 v)
    (hopt : ∀ n s a', (a = .optional a' ∨ a = .pipeNone a') → fits cs n a' s = true → v = .null ∨ Valid strict s (toJson v)) :
    Good cs strict a v := by
  refine ⟨?_, hopt⟩
  intro n
  induction n with
  | zero => intro s h; simp [fits] at h
  | succ n ih =>
    intro s h
    cases s with
    | any => exact .any _
    | alt s t =>
      simp only [fits, Bool.or_eq_true] at h
      rcases h with (h | h) | h
      · exact .altL _ _ _ (ih s h)
      · exact .altR _ _ _ (ih t h)
      · cases a with
        | union as =>
          simp only at h
          obtain ⟨a1, hm, hg⟩ := hunion as rfl
          have := List.all_eq_true.1 h a1 hm
          simp only [Bool.or_eq_true] at this
          rcases this with h | h
          · exact .altL _ _ _ (hg.1 n s h)
          · exact .altR _ _ _ (hg.1 n t h)
        | _ => simp at h
    | orNull s =>
      simp only [fits, Bool.or_eq_true] at h
      rcases h with h | h
      · exact .nonNull _ _ (ih s h)
      · have key : ∀ a', (a = .optional a' ∨ a = .pipeNone a') → fits cs n a' s = true → Valid strict (.orNull s) (toJson v) := by
          intro a' ha hf
          rcases hopt n s a' ha hf with h | h
          · subst h; exact .null s
          · exact .nonNull _ _ h
        cases a with
        | optional a' => exact key a' (.inl rfl) h
        | pipeNone a' => exact key a' (.inr rfl) h
        | _ => simp at h
    | int => exact hcore n _ h
    | str => exact hcore n _ h
    | bool => exact hcore n _ h
    | oneOf ws => exact hcore n _ h
    | arr s => exact hcore n _ h
    | map s => exact hcore n _ h
    | obj d => exact hcore n _ h

theorem attr_valid {cs : List Cls} {strict : Bool} {c : Cls} {val : Str → Val} {a : Str} {m : Member}
    (hg : ∀ f ∈ c.fields, Good cs strict f.ann (val f.name))
    (hfix : ∀ f ∈ c.fields, ∀ w, fixedVal c f = some w → val f.name = w)
    (h : attrFits cs strict c a m = true)
    (hn : ¬ (strict = false ∧ m.required = false ∧ attrJson (toJsonO (c.fields.map fun f => (f.name, val f.name))) a = .null)) :
    Valid strict m.sch (attrJson (toJsonO (c.fields.map fun f => (f.name, val f.name))) a) := by
  unfold attrFits at h
  cases hf : c.fields.find? (fun f => f.name == a) with
  | none => simp [hf] at h
  | some f =>
    have hm := List.mem_of_find?_eq_some hf
    have hname : f.name = a := by simpa using List.find?_some hf
    subst hname
    rw [attrJson_obj c val _ (List.mem_map.2 ⟨f, hm, rfl⟩)] at hn ⊢
    simp only [hf, Bool.or_eq_true, Bool.and_eq_true, Bool.not_eq_true'] at h
    rcases h with (h | h) | ⟨⟨h1, h2⟩, h⟩
    · cases hw : fixedVal c f with
      | none => simp [hw] at h
      | some w =>
        rw [hfix f hm w hw]
        simp only [hw] at h
        cases w <;> cases hs : m.sch <;> simp [hs, valFits] at h
        · exact .bool _
        · exact .str _
        · exact .oneOf _ _ h
    · exact (hg f hm).1 _ _ h
    · have key : ∀ a', (f.ann = .optional a' ∨ f.ann = .pipeNone a') → fits cs 6 a' m.sch = true → Valid strict m.sch (toJson (val f.name)) := by
        intro a' ha hf'
        rcases (hg f hm).2 _ _ a' ha hf' with e | e
        · exact absurd ⟨h1, h2, by rw [e]; rfl⟩ hn
        · exact e
      cases ha : f.ann <;> simp [ha] at h
      · exact key _ (.inl ha) h
      · exact key _ (.inr ha) h

theorem cls_valid {cs : List Cls} {strict : Bool} {c : Cls} {val : Str → Val} (hc : clsFits cs strict c = true)
    (hg : ∀ f ∈ c.fields, Good cs strict f.ann (val f.name))
    (hfix : ∀ f ∈ c.fields, ∀ w, fixedVal c f = some w → val f.name = w) :
    Valid strict (ref c) (toJson (.obj c (c.fields.map fun f => (f.name, val f.name)))) := by
  simp only [clsFits, Bool.and_eq_true, bne_iff_ne, ne_eq, List.all_eq_true] at hc
  obtain ⟨⟨h1, h2⟩, hc⟩ := hc
  simp only [toJson, packCls_default c h1 h2, packDap_eq]
  have hget : ∀ k, Dict.get? (c.dap.map (packEntry (attrJson (toJsonO (c.fields.map fun f => (f.name, val f.name)))))) k =
      (Dict.get? c.dap k).map fun e => (packEntry (attrJson (toJsonO (c.fields.map fun f => (f.name, val f.name)))) (k, e)).2 := by
    intro k
    exact Dict.get?_map _ _ (fun e => by obtain ⟨k, e⟩ := e; cases e <;> rfl) k
  refine .obj _ _ ?_ ?_ ?_
  · rw [List.map_map]
    have : ((fun x : Str × Json => x.1) ∘ packEntry (attrJson (toJsonO (c.fields.map fun f => (f.name, val f.name))))) = fun e : Str × Entry => e.1 := by
      funext e; obtain ⟨k, e⟩ := e; cases e <;> rfl
    rw [this]; exact dap_nodup c
  · intro m hm hr
    rw [hget]
    have := hc m hm
    cases hk : Dict.get? c.dap m.key with
    | none => simp [hk, hr] at this
    | some e => rfl
  · intro m hm v hv hn
    rw [hget] at hv
    have hmem := hc m hm
    cases hk : Dict.get? c.dap m.key with
    | none => rw [hk] at hv; cases hv
    | some e =>
      rw [hk] at hv hmem
      simp only [Option.map_some, Option.some.injEq] at hv
      subst hv
      cases e with
      | attr a => exact attr_valid hg hfix hmem hn
      | sub sm =>
        simp only [Bool.and_eq_true, beq_iff_eq] at hmem
        rw [hmem.1]
        simp only [packEntry]
        have hsm := Dict.mem_of_get? _ _ _ hk
        have hget2 : ∀ k, Dict.get? (sm.map fun x : Str × Str => (x.1, attrJson (toJsonO (c.fields.map fun f => (f.name, val f.name))) x.2)) k =
            (Dict.get? sm k).map fun a => attrJson (toJsonO (c.fields.map fun f => (f.name, val f.name))) a := by
          intro k
          exact Dict.get?_map _ (fun x : Str × Str => (x.1, attrJson (toJsonO (c.fields.map fun f => (f.name, val f.name))) x.2)) (fun e => rfl) k
        have hb := List.all_eq_true.1 hmem.2
        refine .obj _ _ ?_ ?_ ?_
        · rw [List.map_map]; exact sub_nodup c hsm
        · intro m' hm' hr
          have := hb m' hm'
          erw [hget2]
          cases hk' : Dict.get? sm m'.key with
          | none => simp [hk', hr] at this
          | some e => rfl
        · intro m' hm' v' hv' hn'
          have := hb m' hm'
          erw [hget2] at hv'
          cases hk' : Dict.get? sm m'.key with
          | none => rw [hk'] at hv'; cases hv'
          | some a =>
            rw [hk'] at hv' this
            simp only [Option.map_some, Option.some.injEq] at hv'
            subst hv'
            exact attr_valid hg hfix this hn'

/-- Values of an annotated type conform to what the check accepts. -/
theorem typed_good {cs : List Cls} {strict : Bool} (hcs : ∀ c ∈ cs, clsFits cs strict c = true) {a : Ann} {v : Val} (h : Typed a v) :
    Good cs strict a v := by
  induction h with
  | int i => refine good_lift (fun n s h => ?_) (by simp) (by simp); simp only [core, beq_iff_eq] at h; subst h; exact .int i
  | str i => refine good_lift (fun n s h => ?_) (by simp) (by simp); simp only [core, beq_iff_eq] at h; subst h; exact .str i
  | bool i => refine good_lift (fun n s h => ?_) (by simp) (by simp); simp only [core, beq_iff_eq] at h; subst h; exact .bool i
  | any v hp => exact good_lift (fun n s h => by simp [core] at h) (by simp) (by simp)
  | literal vals x hx =>
    refine good_lift (fun n s h => ?_) (by simp) (by simp)
    simp only [core, Bool.or_eq_true, beq_iff_eq] at h
    rcases h with rfl | h
    · exact .str _
    · cases s <;> simp at h
      exact .oneOf _ _ (h x hx)
  | enum e x hx =>
    refine good_lift (fun n s h => ?_) (by simp) (by simp)
    simp only [core, Bool.or_eq_true, beq_iff_eq] at h
    rcases h with rfl | h
    · exact .str _
    · cases s <;> simp at h
      exact .oneOf _ _ (h x hx)
  | optNone a => exact good_lift (fun n s h => by simp [core] at h) (by simp) (fun _ _ _ _ _ => .inl rfl)
  | pipeNone a => exact good_lift (fun n s h => by simp [core] at h) (by simp) (fun _ _ _ _ _ => .inl rfl)
  | optSome a v hv ih =>
    refine good_lift (fun n s h => by simp [core] at h) (by simp) (fun n s a' ha hf => .inr ?_)
    rcases ha with ha | ha
    · cases ha; exact ih.1 n s hf
    · cases ha
  | pipeSome a v hv ih =>
    refine good_lift (fun n s h => by simp [core] at h) (by simp) (fun n s a' ha hf => .inr ?_)
    rcases ha with ha | ha
    · cases ha
    · cases ha; exact ih.1 n s hf
  | union as a v hm hv ih =>
    refine good_lift (fun n s h => ?_) (fun as' e => by cases e; exact ⟨a, hm, ih⟩) (by simp)
    simp only [core, List.all_eq_true] at h
    exact ih.1 n s (h a hm)
  | tlist a l hl ih =>
    refine good_lift (fun n s h => ?_) (by simp) (by simp)
    cases s <;> simp [core] at h
    rename_i s
    simp only [toJson, toJsonL_eq_map]
    refine .arr _ _ (fun j hj => ?_)
    obtain ⟨x, hx, rfl⟩ := List.mem_map.1 hj
    exact (ih x hx).1 n s h
  | list a l hl ih =>
    refine good_lift (fun n s h => ?_) (by simp) (by simp)
    cases s <;> simp [core] at h
    rename_i s
    simp only [toJson, toJsonL_eq_map]
    refine .arr _ _ (fun j hj => ?_)
    obtain ⟨x, hx, rfl⟩ := List.mem_map.1 hj
    exact (ih x hx).1 n s h
  | tdict a l hl ih =>
    refine good_lift (fun n s h => ?_) (by simp) (by simp)
    cases s <;> simp [core] at h
    rename_i s
    simp only [toJson, toJsonO_eq_map]
    refine .map _ _ (fun kv hkv => ?_)
    obtain ⟨x, hx, rfl⟩ := List.mem_map.1 hkv
    exact (ih x hx).1 n s h
  | obj c val hf hfix ih =>
    refine good_lift (fun n s h => ?_) (by simp) (by simp)
    simp only [core, Bool.and_eq_true, beq_iff_eq, decide_eq_true_eq] at h
    rw [h.1]
    exact cls_valid (hcs c h.2) ih hfix

theorem instance_valid {cs : List Cls} {strict : Bool} (hcs : ∀ c ∈ cs, clsFits cs strict c = true) {c : Cls} (hc : c ∈ cs) {v : Val}
    (h : Instance c v) : Valid strict (ref c) (toJson v) :=
  (typed_good hcs h).1 1 _ (by simp [fits, ref, core, hc])

end Verif.Dap.Schema
