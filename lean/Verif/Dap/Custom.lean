import Verif.Dap.Dispatch
/-! # Attach, launch, stepIn; the packed document is well formed (proofs only) -/

namespace Verif

theorem Json.wfO_iff (l : List (Str × Json)) : Json.WFO l ↔ ∀ kv ∈ l, StrOk kv.1 = true ∧ kv.2.WF := by
  induction l with
  | nil => simp [Json.WFO]
  | cons e l ih => obtain ⟨k, v⟩ := e; simp [Json.WFO, ih, and_assoc]

theorem Json.wfL_iff (l : List Json) : Json.WFL l ↔ ∀ v ∈ l, v.WF := by
  induction l with
  | nil => simp [Json.WFL]
  | cons e l ih => simp [Json.WFL, ih]

theorem Dict.mem_set {κ α : Type} [DecidableEq κ] (d : Dict κ α) (k : κ) (v : α) (e : κ × α)
    (h : e ∈ Dict.set d k v) : e = (k, v) ∨ e ∈ d := by
  induction d with
  | nil => simp [Dict.set] at h; exact Or.inl h
  | cons x d ih =>
    simp only [Dict.set] at h
    split at h
    · rename_i hk
      rcases List.mem_cons.mp h with h | h
      · left; rw [h, ← hk]
      · right; exact List.mem_cons_of_mem _ h
    · rcases List.mem_cons.mp h with h | h
      · right; rw [h]; simp
      · rcases ih h with h | h
        · exact Or.inl h
        · exact Or.inr (List.mem_cons_of_mem _ h)

theorem Dict.set_keys {κ α : Type} [DecidableEq κ] (d : Dict κ α) (k : κ) (v : α) :
    (Dict.set d k v).map (·.1) = if k ∈ d.map (·.1) then d.map (·.1) else d.map (·.1) ++ [k] := by
  induction d with
  | nil => simp [Dict.set]
  | cons x d ih =>
    simp only [Dict.set]
    split
    · rename_i h; simp [h]
    · rename_i h
      have h' : ¬ k = x.1 := fun e => h e.symm
      simp only [List.map_cons, ih, List.mem_cons, h', false_or]
      split <;> simp

theorem Dict.set_nodup {κ α : Type} [DecidableEq κ] (d : Dict κ α) (k : κ) (v : α) (h : (d.map (·.1)).Nodup) :
    ((Dict.set d k v).map (·.1)).Nodup := by
  rw [Dict.set_keys]; split
  · exact h
  · rename_i hk
    rw [List.nodup_append]
    refine ⟨h, by simp, ?_⟩
    intro a ha b hb
    simp only [List.mem_singleton] at hb; subst hb
    rintro rfl; exact hk ha

theorem Dict.union_nodup {κ α : Type} [DecidableEq κ] (d e : Dict κ α) (h : (d.map (·.1)).Nodup) :
    ((Dict.union d e).map (·.1)).Nodup := by
  induction e generalizing d with
  | nil => simpa [Dict.union] using h
  | cons x e ih => simp only [Dict.union, List.foldl_cons]; exact ih _ (Dict.set_nodup d x.1 x.2 h)

theorem Dict.mem_union {κ α : Type} [DecidableEq κ] (d e : Dict κ α) (x : κ × α)
    (h : x ∈ Dict.union d e) : x ∈ d ∨ x ∈ e := by
  induction e generalizing d with
  | nil => left; simpa [Dict.union] using h
  | cons y e ih =>
    simp only [Dict.union, List.foldl_cons] at h
    rcases ih _ h with h | h
    · rcases Dict.mem_set d y.1 y.2 x h with h | h
      · right; rw [h]; simp
      · exact Or.inl h
    · exact Or.inr (List.mem_cons_of_mem _ h)

namespace Dap

/-! ## The packed document is well formed JSON -/

theorem packDap_wf (c : Cls) (l : List (Str × Json)) (h : ∀ kv ∈ l, kv.2.WF) :
    ((packDap c.dap l).map (·.1)).Nodup ∧ Json.WFO (packDap c.dap l) := by
  have hJ : ∀ a, (attrJson l a).WF := by
    intro a; unfold attrJson
    cases hg : Dict.get? l a with
    | none => simp [Json.WF]
    | some v => exact h _ (Dict.mem_of_get? l a v hg)
  have hent : ∀ kv ∈ packDap c.dap l, StrOk kv.1 = true ∧ kv.2.WF := by
    intro kv hkv
    rw [packDap_eq] at hkv
    obtain ⟨⟨k, e⟩, he, rfl⟩ := List.mem_map.mp hkv
    have := dap_entries c _ he
    cases e with
    | attr a => exact ⟨this.2, hJ a⟩
    | sub sm =>
      refine ⟨this.2, ?_⟩
      have h1 := this.1
      simp only [entryKeysOk, Bool.and_eq_true, decide_eq_true_eq, List.all_eq_true] at h1
      simp only [packEntry, Json.WF]
      refine ⟨?_, ?_⟩
      · rw [List.map_map]; exact h1.1
      · rw [Json.wfO_iff]
        intro kv hkv
        obtain ⟨⟨k', a⟩, hm, rfl⟩ := List.mem_map.mp hkv
        exact ⟨h1.2 _ hm, hJ a⟩
  refine ⟨?_, (Json.wfO_iff _).mpr hent⟩
  rw [packDap_eq, List.map_map]
  have : (c.dap.map ((fun x => x.1) ∘ packEntry (attrJson l))) = c.dap.map (·.1) := by
    apply List.map_congr_left
    rintro ⟨k, e⟩ _; cases e <;> rfl
  rw [this]; exact dap_nodup c

theorem updateArguments_wf (p : List (Str × Json)) (args : Json) (h : (p.map (·.1)).Nodup) (hp : Json.WFO p) (ha : args.WF) :
    ((updateArguments p args).map (·.1)).Nodup ∧ Json.WFO (updateArguments p args) := by
  refine ⟨?_, ?_⟩
  · have hk : (updateArguments p args).map (·.1) = p.map (·.1) := by
      unfold updateArguments
      rw [List.map_map]
      apply List.map_congr_left
      rintro ⟨k, e⟩ _
      simp only [Function.comp]
      split
      · split <;> rfl
      · rfl
    rw [hk]
    exact h
  · rw [Json.wfO_iff] at hp ⊢
    intro kv hkv
    obtain ⟨⟨k, v⟩, hm, rfl⟩ := List.mem_map.mp hkv
    have := hp _ hm
    simp only
    split
    · split
      · rename_i d e
        simp only [Json.WF] at this ha ⊢
        refine ⟨this.1, Dict.union_nodup _ _ this.2.1, ?_⟩
        rw [Json.wfO_iff]
        intro x hx
        rcases Dict.mem_union _ _ _ hx with hx | hx
        · exact (Json.wfO_iff _).mp this.2.2 x hx
        · exact (Json.wfO_iff _).mp ha.2 x hx
      · exact this
    · exact this

theorem packCls_wf (c : Cls) (l : List (Str × Json)) (h : ∀ kv ∈ l, kv.2.WF) : (packCls c l).WF := by
  have hJ : ∀ a, (attrJson l a).WF := by
    intro a; unfold attrJson
    cases hg : Dict.get? l a with
    | none => simp [Json.WF]
    | some v => exact h _ (Dict.mem_of_get? l a v hg)
  have hp := packDap_wf c l h
  have h1 := updateArguments_wf _ _ hp.1 hp.2 (hJ py!"arguments")
  unfold packCls
  split
  · simp only [Json.WF]; exact h1
  · simp only [Json.WF]; exact h1
  · simp only [Json.WF]; exact hp

mutual
theorem toJson_wf (v : Val) (h : v.Ok) : (toJson v).WF := by
  match v, h with
  | .null, _ => simp [toJson, Json.WF]
  | .bool _, _ => simp [toJson, Json.WF]
  | .int _, _ => simp [toJson, Json.WF]
  | .flt _, h => simpa [toJson, Json.WF, Val.Ok] using h
  | .str _, h => simpa [toJson, Json.WF, Val.Ok] using h
  | .enum _ _, h => simpa [toJson, Json.WF, Val.Ok] using h
  | .list l, h => simp only [toJson, Json.WF, Val.Ok] at *; exact toJsonL_wf l h
  | .dict l, h =>
    simp only [toJson, Json.WF, Val.Ok] at *
    refine ⟨?_, toJsonO_wf l h.2⟩
    rw [toJsonO_eq_map, List.map_map]; exact h.1
  | .obj c attrs, h =>
    simp only [toJson, Val.Ok] at *
    exact packCls_wf c _ (toJsonA_wf attrs h)
theorem toJsonL_wf (l : List Val) (h : Val.OkL l) : Json.WFL (toJsonL l) := by
  match l, h with
  | [], _ => simp [toJsonL, Json.WFL]
  | x :: xs, h => simp only [toJsonL, Json.WFL, Val.OkL] at *; exact ⟨toJson_wf x h.1, toJsonL_wf xs h.2⟩
theorem toJsonO_wf (l : List (Str × Val)) (h : Val.OkO l) : Json.WFO (toJsonO l) := by
  match l, h with
  | [], _ => simp [toJsonO, Json.WFO]
  | (k, x) :: xs, h => simp only [toJsonO, Json.WFO, Val.OkO] at *; exact ⟨h.1, toJson_wf x h.2.1, toJsonO_wf xs h.2.2⟩
theorem toJsonA_wf (l : List (Str × Val)) (h : Val.OkA l) : ∀ kv ∈ toJsonO l, kv.2.WF := by
  match l, h with
  | [], _ => simp [toJsonO]
  | (k, x) :: xs, h =>
    simp only [toJsonO, Val.OkA, List.mem_cons] at *
    rintro kv (rfl | hkv)
    · exact toJson_wf x h.1
    · exact toJsonA_wf xs h.2 kv hkv
end

/-! ## Attach and launch -/

theorem attach_fields : Cls.AttachRequest.fields =
    [⟨py!"seq", false, some (.int 0), .int⟩, ⟨py!"message_type", false, none, .enum .MessageType⟩,
     ⟨py!"command", false, none, .enum .Command⟩, ⟨py!"arguments", true, none, .tdict .any⟩,
     ⟨py!"restart", true, some .null, .any⟩] := by rfl

theorem launch_fields : Cls.LaunchRequest.fields =
    [⟨py!"seq", false, some (.int 0), .int⟩, ⟨py!"message_type", false, none, .enum .MessageType⟩,
     ⟨py!"command", false, none, .enum .Command⟩, ⟨py!"arguments", true, none, .tdict .any⟩,
     ⟨py!"no_debug", true, some (.bool false), .bool⟩,
     ⟨py!"restart", true, some .null, .any⟩] := by rfl

theorem attach_dap : Cls.AttachRequest.dap =
    [(py!"seq", .attr py!"seq"), (py!"type", .attr py!"message_type"), (py!"command", .attr py!"command"),
     (py!"arguments", .sub [(py!"__restart", py!"restart")])] := by rfl

theorem launch_dap : Cls.LaunchRequest.dap =
    [(py!"seq", .attr py!"seq"), (py!"type", .attr py!"message_type"), (py!"command", .attr py!"command"),
     (py!"arguments", .sub [(py!"noDebug", py!"no_debug"), (py!"__restart", py!"restart")])] := by rfl

/-- The attributes of an attach instance. -/
theorem attach_inst (v : Val) (h : Instance .AttachRequest v) :
    ∃ (i : Int) (l : List (Str × Val)) (r : Val), PlainO l ∧ Plain r ∧
    v = .obj .AttachRequest [(py!"seq", .int i), (py!"message_type", .enum .MessageType py!"request"),
      (py!"command", .enum .Command py!"attach"), (py!"arguments", .dict l), (py!"restart", r)] := by
  cases h with
  | obj c val hty hfix =>
    rw [attach_fields] at hty hfix ⊢
    have h1 := hty ⟨py!"seq", false, some (.int 0), .int⟩ (by simp)
    have h4 := hty ⟨py!"arguments", true, none, .tdict .any⟩ (by simp)
    have h5 := hty ⟨py!"restart", true, some .null, .any⟩ (by simp)
    have h2 := hfix ⟨py!"message_type", false, none, .enum .MessageType⟩ (by simp) (.enum .MessageType py!"request") (by rfl)
    have h3 := hfix ⟨py!"command", false, none, .enum .Command⟩ (by simp) (.enum .Command py!"attach") (by rfl)
    simp only at h1 h2 h3 h4 h5
    simp only [List.map_cons, List.map_nil, h2, h3]
    generalize val py!"seq" = a at *
    generalize val py!"arguments" = b at *
    generalize val py!"restart" = r at *
    cases h1 with
    | int i =>
      have hb := h4.plain (by rfl)
      cases h4 with
      | tdict _ l _ =>
        refine ⟨i, l, r, by simpa [Plain] using hb, h5.plain (by rfl), rfl⟩

theorem launch_inst (v : Val) (h : Instance .LaunchRequest v) :
    ∃ (i : Int) (l : List (Str × Val)) (nd : Bool) (r : Val), PlainO l ∧ Plain r ∧
    v = .obj .LaunchRequest [(py!"seq", .int i), (py!"message_type", .enum .MessageType py!"request"),
      (py!"command", .enum .Command py!"launch"), (py!"arguments", .dict l), (py!"no_debug", .bool nd), (py!"restart", r)] := by
  cases h with
  | obj c val hty hfix =>
    rw [launch_fields] at hty hfix ⊢
    have h1 := hty ⟨py!"seq", false, some (.int 0), .int⟩ (by simp)
    have h4 := hty ⟨py!"arguments", true, none, .tdict .any⟩ (by simp)
    have h6 := hty ⟨py!"no_debug", true, some (.bool false), .bool⟩ (by simp)
    have h5 := hty ⟨py!"restart", true, some .null, .any⟩ (by simp)
    have h2 := hfix ⟨py!"message_type", false, none, .enum .MessageType⟩ (by simp) (.enum .MessageType py!"request") (by rfl)
    have h3 := hfix ⟨py!"command", false, none, .enum .Command⟩ (by simp) (.enum .Command py!"launch") (by rfl)
    simp only at h1 h2 h3 h4 h5 h6
    simp only [List.map_cons, List.map_nil, h2, h3]
    generalize val py!"seq" = a at *
    generalize val py!"arguments" = b at *
    generalize val py!"no_debug" = n at *
    generalize val py!"restart" = r at *
    cases h1 with
    | int i =>
      have hb := h4.plain (by rfl)
      cases h4 with
      | tdict _ l _ =>
        cases h6 with
        | bool nd =>
          refine ⟨i, l, nd, r, by simpa [Plain] using hb, h5.plain (by rfl), rfl⟩

theorem toJsonO_keys (l : List (Str × Val)) : (toJsonO l).map (·.1) = l.map (·.1) := by
  rw [toJsonO_eq_map, List.map_map]; rfl

theorem attach_roundtrip (i : Int) (l : List (Str × Val)) (r : Val) (hl : PlainO l) (hr : Plain r)
    (hn : (l.map (·.1)).Nodup) (hres : py!"__restart" ∉ l.map (·.1)) :
    unpackAttach (toJson (.obj .AttachRequest [(py!"seq", .int i), (py!"message_type", .enum .MessageType py!"request"),
      (py!"command", .enum .Command py!"attach"), (py!"arguments", .dict l), (py!"restart", r)])) =
    .ok (.obj .AttachRequest [(py!"seq", .int i), (py!"message_type", .enum .MessageType py!"request"),
      (py!"command", .enum .Command py!"attach"), (py!"arguments", .dict l), (py!"restart", r)]) := by
  have hu : Dict.union [(py!"__restart", toJson r)] (toJsonO l) = (py!"__restart", toJson r) :: toJsonO l := by
    apply Dict.union_disjoint
    simp only [List.cons_append, List.nil_append, List.map_cons, toJsonO_keys, List.nodup_cons]
    exact ⟨hres, hn⟩
  have he : Dict.erase ((py!"__restart", toJson r) :: toJsonO l) py!"__restart" = toJsonO l := by
    have := Dict.erase_fresh (toJsonO l) py!"__restart" (by rw [toJsonO_keys]; exact hres)
    unfold Dict.erase at this ⊢
    rw [List.filter_cons_of_neg (by simp)]; exact this
  have hp : toJson (.obj .AttachRequest [(py!"seq", .int i), (py!"message_type", .enum .MessageType py!"request"),
      (py!"command", .enum .Command py!"attach"), (py!"arguments", .dict l), (py!"restart", r)]) =
      .obj [(py!"seq", .int i), (py!"type", .str py!"request"), (py!"command", .str py!"attach"),
        (py!"arguments", .obj ((py!"__restart", toJson r) :: toJsonO l))] := by
    rw [← hu]; rfl
  rw [hp]
  unfold unpackAttach
  rw [show getItem _ py!"arguments" = .ok (.obj ((py!"__restart", toJson r) :: toJsonO l)) from rfl]
  simp only [bind, Except.bind, popItem, he]
  rw [show getItem _ py!"seq" = .ok (.int i) from rfl]
  simp only [Dict.get?, if_true, Option.getD_some]
  rw [ofJson_toJson r hr]
  simp only [ofJson, ofJsonO_toJsonO l hl]
  rfl

theorem launch_roundtrip (i : Int) (l : List (Str × Val)) (nd : Bool) (r : Val) (hl : PlainO l) (hr : Plain r)
    (hn : (l.map (·.1)).Nodup) (hres : py!"__restart" ∉ l.map (·.1)) (hres' : py!"noDebug" ∉ l.map (·.1)) :
    unpackLaunch (toJson (.obj .LaunchRequest [(py!"seq", .int i), (py!"message_type", .enum .MessageType py!"request"),
      (py!"command", .enum .Command py!"launch"), (py!"arguments", .dict l), (py!"no_debug", .bool nd), (py!"restart", r)])) =
    .ok (.obj .LaunchRequest [(py!"seq", .int i), (py!"message_type", .enum .MessageType py!"request"),
      (py!"command", .enum .Command py!"launch"), (py!"arguments", .dict l), (py!"no_debug", .bool nd), (py!"restart", r)]) := by
  have hu : Dict.union [(py!"noDebug", .bool nd), (py!"__restart", toJson r)] (toJsonO l) =
      (py!"noDebug", .bool nd) :: (py!"__restart", toJson r) :: toJsonO l := by
    apply Dict.union_disjoint
    simp only [List.cons_append, List.nil_append, List.map_cons, toJsonO_keys, List.nodup_cons]
    refine ⟨?_, hres, hn⟩
    simp only [List.mem_cons, not_or]; exact ⟨by decide, hres'⟩
  have he1 : Dict.erase ((py!"noDebug", .bool nd) :: (py!"__restart", toJson r) :: toJsonO l) py!"noDebug" =
      (py!"__restart", toJson r) :: toJsonO l := by
    have := Dict.erase_fresh (toJsonO l) py!"noDebug" (by rw [toJsonO_keys]; exact hres')
    unfold Dict.erase at this ⊢
    rw [List.filter_cons_of_neg (by simp), List.filter_cons_of_pos (by simp), this]
  have he2 : Dict.erase ((py!"__restart", toJson r) :: toJsonO l) py!"__restart" = toJsonO l := by
    have := Dict.erase_fresh (toJsonO l) py!"__restart" (by rw [toJsonO_keys]; exact hres)
    unfold Dict.erase at this ⊢
    rw [List.filter_cons_of_neg (by simp)]; exact this
  have hp : toJson (.obj .LaunchRequest [(py!"seq", .int i), (py!"message_type", .enum .MessageType py!"request"),
      (py!"command", .enum .Command py!"launch"), (py!"arguments", .dict l), (py!"no_debug", .bool nd), (py!"restart", r)]) =
      .obj [(py!"seq", .int i), (py!"type", .str py!"request"), (py!"command", .str py!"launch"),
        (py!"arguments", .obj ((py!"noDebug", .bool nd) :: (py!"__restart", toJson r) :: toJsonO l))] := by
    rw [← hu]; rfl
  rw [hp]
  unfold unpackLaunch
  rw [show getItem _ py!"arguments" = .ok (.obj ((py!"noDebug", .bool nd) :: (py!"__restart", toJson r) :: toJsonO l)) from rfl]
  simp only [bind, Except.bind, popItem, he1, he2]
  rw [show getItem _ py!"seq" = .ok (.int i) from rfl]
  simp only [Dict.get?, if_true, Option.getD_some]
  rw [ofJson_toJson r hr]
  simp only [ofJson, ofJsonO_toJsonO l hl]
  rfl

/-! ## stepIn -/

theorem stepIn_roundtrip (v : Val) (h : Instance .StepInRequest v) (ht : v.attr? py!"target_id" = some .null) :
    defaultUnpack .StepInRequest (toJson v) = .ok v := by
  cases h with
  | obj c val hty hfix =>
    have hp : toJson (.obj .StepInRequest (Cls.StepInRequest.fields.map fun f => (f.name, val f.name))) =
        .obj (packDap Cls.StepInRequest.dap (toJsonO (Cls.StepInRequest.fields.map fun f => (f.name, val f.name)))) := rfl
    have hnull : val py!"target_id" = .null := by
      have : (Val.obj .StepInRequest (Cls.StepInRequest.fields.map fun f => (f.name, val f.name))).attr? py!"target_id" =
        some (val py!"target_id") := rfl
      rw [this] at ht; exact Option.some.inj ht
    unfold defaultUnpack
    rw [hp]
    apply unpackF_packDap
    · intro g hg hn
      have := fields_ann _ g hg
      have h2 := hty g hg
      rw [hn] at h2
      exact this.2 (typed_null h2 this.1)
    · intro g hg
      by_cases hg' : g.name = py!"target_id"
      · right
        rw [hg', hnull]
        have := fields_ann _ g hg
        have h2 := hty g hg
        rw [hg', hnull] at h2
        exact this.2 (typed_null h2 this.1)
      · left
        have : (Cls.StepInRequest.fields.all fun f => f.name == py!"target_id" || (mappedAttrs Cls.StepInRequest.dap).contains f.name) = true := by
          decide +kernel
        have := List.all_eq_true.mp this g hg
        simp only [Bool.or_eq_true, beq_iff_eq] at this
        exact List.contains_iff_mem.mp (this.resolve_left hg')
    · intro g hg hn hm
      refine (typed_roundtrip (hty g hg) _ ?_).2 (fields_ann _ g hg).1 hn
      have h1 := depth_pack_mem .StepInRequest (attrJson (toJsonO (Cls.StepInRequest.fields.map fun f => (f.name, val f.name)))) g.name hm
      rw [attrJson_obj _ val g.name (List.mem_map.mpr ⟨g, hg, rfl⟩)] at h1
      rw [depth, packDap_eq]
      omega

/-! ## Arguments with reserved keys -/

/-- `d.update(e)` for dictionaries: the entries of `d` with the values of `e` where it has them, then the other entries of `e`. -/
theorem union_eq {α : Type} (l : Dict Str α) : ∀ b : Dict Str α, (b.map (·.1)).Nodup → (l.map (·.1)).Nodup →
    Dict.union b l = b.map (fun e => (e.1, (Dict.get? l e.1).getD e.2)) ++ l.filter (fun e => decide (e.1 ∉ b.map (·.1))) := by
  induction l with
  | nil => intro b _ _; simp [Dict.union, Dict.get?]
  | cons x xs ih =>
    intro b hb hl
    obtain ⟨k, v⟩ := x
    simp only [List.map_cons, List.nodup_cons] at hl
    have hnone : Dict.get? xs k = none := by
      cases hg : Dict.get? xs k with
      | none => rfl
      | some w => exact absurd (List.mem_map.2 ⟨(k, w), Dict.mem_of_get? _ _ _ hg, rfl⟩) hl.1
    have hkeys : k ∈ b.map (·.1) → (Dict.set b k v).map (·.1) = b.map (·.1) := by
      clear ih hb
      induction b with
      | nil => intro h; cases h
      | cons y ys ihb =>
        intro h
        simp only [Dict.set]
        split
        · rfl
        · rename_i hne
          simp only [List.map_cons, List.mem_cons] at h ⊢
          rw [ihb (h.resolve_left (fun e => hne e.symm))]
    have hunion : Dict.union b ((k, v) :: xs) = Dict.union (Dict.set b k v) xs := rfl
    rw [hunion]
    by_cases hk : k ∈ b.map (·.1)
    · rw [ih _ (by rw [hkeys hk]; exact hb) hl.2, hkeys hk]
      rw [List.filter_cons_of_neg (by simp only [decide_eq_true_eq, Classical.not_not]; exact hk)]
      congr 1
      clear ih hunion hkeys
      induction b with
      | nil => cases hk
      | cons y ys ihb =>
        simp only [List.map_cons, List.nodup_cons] at hb
        simp only [Dict.set]
        split
        · rename_i he
          subst he
          simp only [List.map_cons, hnone, Option.getD_none, Dict.get?, if_true, Option.getD_some, List.cons.injEq, true_and]
          apply List.map_congr_left
          intro e he
          have hne : y.1 ≠ e.1 := fun h => hb.1 (h ▸ List.mem_map.2 ⟨e, he, rfl⟩)
          rw [if_neg hne]
        · rename_i hne
          simp only [List.map_cons, List.mem_cons] at hk
          simp only [List.map_cons]
          rw [ihb hb.2 (hk.resolve_left (fun e => hne e.symm))]
          simp only [Dict.get?, if_neg (Ne.symm hne)]
    · have hset : Dict.set b k v = b ++ [(k, v)] := by
        clear ih hunion hkeys hb
        induction b with
        | nil => rfl
        | cons y ys ihb =>
          simp only [List.map_cons, List.mem_cons, not_or] at hk
          simp only [Dict.set, if_neg (Ne.symm hk.1), ihb hk.2, List.cons_append]
      rw [hset, ih _ (by
        rw [List.map_append, List.nodup_append]
        refine ⟨hb, by simp, ?_⟩
        intro a ha b' hb' e
        simp only [List.map_cons, List.map_nil, List.mem_singleton] at hb'
        exact hk (hb' ▸ e ▸ ha)) hl.2]
      rw [List.filter_cons_of_pos (by simpa using hk), List.map_append, List.append_assoc]
      congr 1
      · apply List.map_congr_left
        intro e he
        have hne : k ≠ e.1 := fun h => hk (h ▸ List.mem_map.2 ⟨e, he, rfl⟩)
        simp only [Dict.get?, if_neg hne]
      · simp only [List.map_cons, List.map_nil, hnone, Option.getD_none, List.cons_append, List.nil_append, List.cons.injEq, true_and]
        apply List.filter_congr
        intro e he
        have hne : e.1 ≠ k := fun h => hl.1 (h ▸ List.mem_map.2 ⟨e, he, rfl⟩)
        simp [hne]

theorem get_toJsonO (l : List (Str × Val)) (k : Str) : Dict.get? (toJsonO l) k = (Dict.get? l k).map toJson := by
  induction l with
  | nil => rfl
  | cons x xs ih =>
    obtain ⟨a, b⟩ := x
    simp only [toJsonO, Dict.get?]
    split
    · rfl
    · exact ih

theorem erase_toJsonO (l : List (Str × Val)) (k : Str) : Dict.erase (toJsonO l) k = toJsonO (Dict.erase l k) := by
  rw [toJsonO_eq_map, toJsonO_eq_map]
  simp only [Dict.erase, List.filter_map]
  rfl

theorem plain_get {l : List (Str × Val)} (h : PlainO l) {r : Val} (hr : Plain r) (k : Str) : Plain ((Dict.get? l k).getD r) := by
  cases hg : Dict.get? l k with
  | none => exact hr
  | some w => exact (plainO_iff l).1 h _ (Dict.mem_of_get? _ _ _ hg)

theorem plain_erase {l : List (Str × Val)} (h : PlainO l) (k : Str) : PlainO (Dict.erase l k) :=
  (plainO_iff _).2 fun e he => (plainO_iff l).1 h e (List.mem_filter.1 he).1

/-- An attach request in general: a reserved key among the arguments is taken for the attribute and disappears from them. -/
theorem attach_result (i : Int) (l : List (Str × Val)) (r : Val) (hl : PlainO l) (hr : Plain r) (hn : (l.map (·.1)).Nodup) :
    unpackAttach (toJson (.obj .AttachRequest [(py!"seq", .int i), (py!"message_type", .enum .MessageType py!"request"),
      (py!"command", .enum .Command py!"attach"), (py!"arguments", .dict l), (py!"restart", r)])) =
    .ok (.obj .AttachRequest [(py!"seq", .int i), (py!"message_type", .enum .MessageType py!"request"),
      (py!"command", .enum .Command py!"attach"), (py!"arguments", .dict (Dict.erase l py!"__restart")),
      (py!"restart", (Dict.get? l py!"__restart").getD r)]) := by
  have hu : Dict.union [(py!"__restart", toJson r)] (toJsonO l) =
      (py!"__restart", toJson ((Dict.get? l py!"__restart").getD r)) :: toJsonO (Dict.erase l py!"__restart") := by
    rw [union_eq _ _ (by simp) (by rw [toJsonO_keys]; exact hn), ← erase_toJsonO]
    simp only [List.map_cons, List.map_nil, get_toJsonO, List.cons_append, List.nil_append, List.mem_singleton, Dict.erase, List.cons.injEq, and_true, Prod.mk.injEq,
      true_and]
    cases Dict.get? l py!"__restart" <;> rfl
  have he : Dict.erase ((py!"__restart", toJson ((Dict.get? l py!"__restart").getD r)) :: toJsonO (Dict.erase l py!"__restart")) py!"__restart" =
      toJsonO (Dict.erase l py!"__restart") := by
    rw [← erase_toJsonO]
    unfold Dict.erase
    rw [List.filter_cons_of_neg (by simp), List.filter_filter]
    apply List.filter_congr
    simp
  have hp : toJson (.obj .AttachRequest [(py!"seq", .int i), (py!"message_type", .enum .MessageType py!"request"),
      (py!"command", .enum .Command py!"attach"), (py!"arguments", .dict l), (py!"restart", r)]) =
      .obj [(py!"seq", .int i), (py!"type", .str py!"request"), (py!"command", .str py!"attach"),
        (py!"arguments", .obj ((py!"__restart", toJson ((Dict.get? l py!"__restart").getD r)) :: toJsonO (Dict.erase l py!"__restart")))] := by
    rw [← hu]; rfl
  rw [hp]
  unfold unpackAttach
  rw [show getItem _ py!"arguments" = .ok (.obj ((py!"__restart", toJson ((Dict.get? l py!"__restart").getD r)) :: toJsonO (Dict.erase l py!"__restart"))) from rfl]
  simp only [bind, Except.bind, popItem, he]
  rw [show getItem _ py!"seq" = .ok (.int i) from rfl]
  simp only [Dict.get?, if_true, Option.getD_some]
  rw [ofJson_toJson _ (plain_get hl hr _)]
  simp only [ofJson, ofJsonO_toJsonO _ (plain_erase hl _)]
  rfl

/-- A launch request in general, likewise. -/
theorem launch_result (i : Int) (l : List (Str × Val)) (nd : Bool) (r : Val) (hl : PlainO l) (hr : Plain r) (hn : (l.map (·.1)).Nodup) :
    unpackLaunch (toJson (.obj .LaunchRequest [(py!"seq", .int i), (py!"message_type", .enum .MessageType py!"request"),
      (py!"command", .enum .Command py!"launch"), (py!"arguments", .dict l), (py!"no_debug", .bool nd), (py!"restart", r)])) =
    .ok (.obj .LaunchRequest [(py!"seq", .int i), (py!"message_type", .enum .MessageType py!"request"),
      (py!"command", .enum .Command py!"launch"), (py!"arguments", .dict (Dict.erase (Dict.erase l py!"noDebug") py!"__restart")),
      (py!"no_debug", (Dict.get? l py!"noDebug").getD (.bool nd)), (py!"restart", (Dict.get? l py!"__restart").getD r)]) := by
  have hu : Dict.union [(py!"noDebug", .bool nd), (py!"__restart", toJson r)] (toJsonO l) =
      (py!"noDebug", toJson ((Dict.get? l py!"noDebug").getD (.bool nd))) :: (py!"__restart", toJson ((Dict.get? l py!"__restart").getD r)) ::
        toJsonO (Dict.erase (Dict.erase l py!"noDebug") py!"__restart") := by
    rw [union_eq _ _ (by simp) (by rw [toJsonO_keys]; exact hn), ← erase_toJsonO, ← erase_toJsonO]
    simp only [List.map_cons, List.map_nil, get_toJsonO, List.cons_append, List.nil_append, Dict.erase, List.cons.injEq, Prod.mk.injEq, true_and, List.filter_filter]
    refine ⟨?_, ?_, ?_⟩
    · cases Dict.get? l py!"noDebug" <;> rfl
    · cases Dict.get? l py!"__restart" <;> rfl
    · apply List.filter_congr
      intro e _
      simp [Bool.and_comm]
  generalize hA : (Dict.get? l py!"noDebug").getD (.bool nd) = A at *
  generalize hB : (Dict.get? l py!"__restart").getD r = B at *
  have pA : Plain A := hA ▸ plain_get hl (by simp [Plain]) _
  have pB : Plain B := hB ▸ plain_get hl hr _
  have pl := plain_erase (plain_erase hl py!"noDebug") py!"__restart"
  have he1 : Dict.erase ((py!"noDebug", toJson A) :: (py!"__restart", toJson B) :: toJsonO (Dict.erase (Dict.erase l py!"noDebug") py!"__restart")) py!"noDebug" =
      (py!"__restart", toJson B) :: toJsonO (Dict.erase (Dict.erase l py!"noDebug") py!"__restart") := by
    rw [← erase_toJsonO, ← erase_toJsonO]
    unfold Dict.erase
    rw [List.filter_cons_of_neg (by simp), List.filter_cons_of_pos (by simp), List.filter_filter, List.filter_filter, List.filter_filter]
    congr 1
    apply List.filter_congr
    intro e _
    cases decide (e.1 ≠ py!"noDebug") <;> simp
  have he2 : Dict.erase ((py!"__restart", toJson B) :: toJsonO (Dict.erase (Dict.erase l py!"noDebug") py!"__restart")) py!"__restart" =
      toJsonO (Dict.erase (Dict.erase l py!"noDebug") py!"__restart") := by
    rw [← erase_toJsonO, ← erase_toJsonO]
    unfold Dict.erase
    rw [List.filter_cons_of_neg (by simp), List.filter_filter]
    apply List.filter_congr
    simp
  have hp : toJson (.obj .LaunchRequest [(py!"seq", .int i), (py!"message_type", .enum .MessageType py!"request"),
      (py!"command", .enum .Command py!"launch"), (py!"arguments", .dict l), (py!"no_debug", .bool nd), (py!"restart", r)]) =
      .obj [(py!"seq", .int i), (py!"type", .str py!"request"), (py!"command", .str py!"launch"),
        (py!"arguments", .obj ((py!"noDebug", toJson A) :: (py!"__restart", toJson B) :: toJsonO (Dict.erase (Dict.erase l py!"noDebug") py!"__restart")))] := by
    rw [← hu]; rfl
  rw [hp]
  unfold unpackLaunch
  rw [show getItem _ py!"arguments" = .ok (.obj ((py!"noDebug", toJson A) :: (py!"__restart", toJson B) ::
    toJsonO (Dict.erase (Dict.erase l py!"noDebug") py!"__restart"))) from rfl]
  simp only [bind, Except.bind, popItem, he1, he2]
  rw [show getItem _ py!"seq" = .ok (.int i) from rfl]
  simp only [Dict.get?, if_true, Option.getD_some]
  rw [ofJson_toJson A pA, ofJson_toJson B pB]
  simp only [ofJson, ofJsonO_toJsonO _ pl]
  rfl

/-- A stepIn request in general: the target is not written. -/
theorem stepIn_result (v : Val) (h : Instance .StepInRequest v) : ∃ a, v = .obj .StepInRequest a ∧
    defaultUnpack .StepInRequest (toJson v) = .ok (.obj .StepInRequest (Dict.set a py!"target_id" .null)) := by
  cases h with
  | obj c val hty hfix =>
    refine ⟨_, rfl, ?_⟩
    let val' : Str → Val := fun n => if n = py!"target_id" then .null else val n
    have e1 : toJson (.obj .StepInRequest (Cls.StepInRequest.fields.map fun f => (f.name, val f.name))) =
        toJson (.obj .StepInRequest (Cls.StepInRequest.fields.map fun f => (f.name, val' f.name))) := rfl
    have e2 : Dict.set (Cls.StepInRequest.fields.map fun f => (f.name, val f.name)) py!"target_id" .null =
        Cls.StepInRequest.fields.map fun f => (f.name, val' f.name) := rfl
    rw [e1, e2]
    apply stepIn_roundtrip
    · refine .obj _ val' ?_ ?_
      · intro f hf
        by_cases hn : f.name = py!"target_id"
        · simp only [val', hn, if_true]
          have hs : Cls.StepInRequest.fields.all (fun f => decide (f.name ≠ py!"target_id") || (match f.ann with | .optional _ => true | _ => false)) = true := by
            decide +kernel
          have := List.all_eq_true.1 hs f hf
          simp only [ne_eq, hn, not_true_eq_false, decide_false, Bool.false_or] at this
          split at this
          · rename_i a ha; rw [ha]; exact .optNone _
          · cases this
        · simp only [val', hn, if_false]; exact hty f hf
      · intro f hf w hw
        by_cases hn : f.name = py!"target_id"
        · exfalso
          have hs : Cls.StepInRequest.fields.all (fun f => decide (f.name ≠ py!"target_id") || (fixedVal .StepInRequest f).isNone) = true := by
            decide +kernel
          have := List.all_eq_true.1 hs f hf
          simp only [ne_eq, hn, not_true_eq_false, decide_false, Bool.false_or, hw] at this
          cases this
        · simp only [val', hn, if_false]; exact hfix f hf w hw
    · rfl

end Dap
end Verif
