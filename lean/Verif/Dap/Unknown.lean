import Verif.Dap.Custom
/-! # Unknown keys and nulls (proofs only), and the unfolding equation of `defaultUnpack` -/

namespace Verif.Dap

theorem depth_mem_obj {l : List (Str × Json)} {kv : Str × Json} (h : kv ∈ l) : depth kv.2 ≤ depthO l := by
  induction l with
  | nil => simp at h
  | cons x l ih =>
    obtain ⟨k, v⟩ := x
    simp only [depthO]
    rcases List.mem_cons.mp h with rfl | h
    · exact Nat.le_max_left _ _
    · exact Nat.le_trans (ih h) (Nat.le_max_right _ _)

theorem depth_mem_arr {l : List Json} {x : Json} (h : x ∈ l) : depth x ≤ depthL l := by
  induction l with
  | nil => simp at h
  | cons y l ih =>
    simp only [depthL]
    rcases List.mem_cons.mp h with rfl | h
    · exact Nat.le_max_left _ _
    · exact Nat.le_trans (ih h) (Nat.le_max_right _ _)

section congr
variable {rec rec' : Cls → Json → Except PyErr Val}

theorem applyUnp_congr (u : Unp) (j : Json) (h : ∀ c, rec c j = rec' c j) : applyUnp rec u j = applyUnp rec' u j := by
  cases u <;> simp [applyUnp, h]

theorem applyUnpL_congr (u : Unp) (l : List Json) (h : ∀ c, ∀ x ∈ l, rec c x = rec' c x) :
    applyUnpL rec u l = applyUnpL rec' u l := by
  induction l with
  | nil => rfl
  | cons x l ih =>
    simp only [applyUnpL]
    rw [applyUnp_congr u x (fun c => h c x (by simp)), ih (fun c y hy => h c y (by simp [hy]))]

theorem fieldVal_congr (D : Nat) (h : ∀ c x, depth x < D → rec c x = rec' c x) (u : Unp) (j : Json) (hj : depth j < D) :
    fieldVal rec u j = fieldVal rec' u j := by
  unfold fieldVal
  split
  · rename_i l
    rw [applyUnpL_congr u l]
    intro c x hx
    have := depth_mem_arr hx
    simp only [depth] at hj
    exact h c x (by omega)
  · exact applyUnp_congr u _ (fun c => h c _ hj)

theorem walkSub_congr (D : Nat) (h : ∀ c x, depth x < D → rec c x = rec' c x) (c : Cls) (m : List (Str × Str))
    (l : List (Str × Json)) (hl : ∀ kv ∈ l, depth kv.2 < D) (asg : Dict Str Val) :
    walkSub rec c m l asg = walkSub rec' c m l asg := by
  induction l generalizing asg with
  | nil => rfl
  | cons x l ih =>
    obtain ⟨k, v⟩ := x
    have ih := ih (fun kv hkv => hl kv (List.mem_cons_of_mem _ hkv))
    have hv : depth v < D := hl (k, v) (by simp)
    simp only [walkSub]
    split
    · exact ih asg
    · split
      · exact ih asg
      · rename_i a _
        rw [fieldVal_congr D h _ v hv]
        split
        · rfl
        · exact ih _

theorem walkTop_congr (D : Nat) (h : ∀ c x, depth x < D → rec c x = rec' c x) (c : Cls)
    (l : List (Str × Json)) (hl : ∀ kv ∈ l, depth kv.2 < D) (asg : Dict Str Val) (q : List Queued) :
    walkTop rec c l asg q = walkTop rec' c l asg q := by
  induction l generalizing asg q with
  | nil => rfl
  | cons x l ih =>
    obtain ⟨k, v⟩ := x
    have ih := ih (fun kv hkv => hl kv (List.mem_cons_of_mem _ hkv))
    have hv : depth v < D := hl (k, v) (by simp)
    simp only [walkTop]
    split
    · exact ih _ _
    · split
      · exact ih _ _
      · split
        · exact ih _ _
        · exact ih _ _
        · rw [fieldVal_congr D h _ v hv]
          split
          · rfl
          · exact ih _ _

theorem walkTop_queue (D : Nat) (c : Cls)
    (l : List (Str × Json)) (hl : ∀ kv ∈ l, depth kv.2 < D) (asg : Dict Str Val) (q : List Queued)
    (hq : ∀ e ∈ q, depth e.2 < D) (asg' : Dict Str Val) (q' : List Queued)
    (h : walkTop rec c l asg q = .ok (asg', q')) : ∀ e ∈ q', depth e.2 < D := by
  induction l generalizing asg q with
  | nil => simp only [walkTop, Except.ok.injEq, Prod.mk.injEq] at h; rw [← h.2]; exact hq
  | cons x l ih =>
    obtain ⟨k, v⟩ := x
    have ih := ih (fun kv hkv => hl kv (List.mem_cons_of_mem _ hkv))
    have hv : depth v < D := hl (k, v) (by simp)
    have hq2 : ∀ o : Option (List (Str × Str)), ∀ e ∈ q ++ [(o, v)], depth e.2 < D := by
      intro o e he
      rcases List.mem_append.mp he with he | he
      · exact hq e he
      · simp only [List.mem_singleton] at he; subst he; exact hv
    simp only [walkTop] at h
    split at h
    · exact ih _ _ hq h
    · split at h
      · exact ih _ _ (hq2 _) h
      · split at h
        · exact ih _ _ hq h
        · exact ih _ _ (hq2 _) h
        · split at h
          · simp at h
          · exact ih _ _ hq h

theorem walkQueue_congr (D : Nat) (h : ∀ c x, depth x < D → rec c x = rec' c x) (c : Cls)
    (q : List Queued) (hq : ∀ e ∈ q, depth e.2 < D) (asg : Dict Str Val) :
    walkQueue rec c q asg = walkQueue rec' c q asg := by
  induction q generalizing asg with
  | nil => rfl
  | cons e q ih =>
    have ih := ih (fun e he => hq e (List.mem_cons_of_mem _ he))
    obtain ⟨o, v⟩ := e
    cases o with
    | none =>
      simp only [walkQueue]
      split
      · rfl
      · exact ih _
    | some m =>
      simp only [walkQueue]
      split
      · rename_i members
        have hv := hq (some m, .obj members) (by simp)
        simp only [depth] at hv
        rw [walkSub_congr D h c m members (fun kv hkv => by have := depth_mem_obj hkv; omega)]
        split
        · rfl
        · exact ih _
      · rfl
end congr

theorem unpackF_congr (f f' : Nat) (c : Cls) (j : Json) (h : depth j < f) (h' : depth j < f') :
    unpackF f c j = unpackF f' c j := by
  induction f generalizing f' c j with
  | zero => omega
  | succ f ih =>
    cases f' with
    | zero => omega
    | succ f' =>
      simp only [unpackF]
      split
      · rename_i members
        simp only [depth] at h h'
        have hr : ∀ c x, depth x < min f f' → unpackF f c x = unpackF f' c x :=
          fun c x hx => ih f' c x (by omega) (by omega)
        have hm : ∀ kv ∈ members, depth kv.2 < min f f' := fun kv hkv => by have := depth_mem_obj hkv; omega
        rw [walkTop_congr _ hr c members hm]
        split
        · rfl
        · rename_i asg q hw
          rw [walkQueue_congr _ hr c q (walkTop_queue _ c members hm [] [] (by simp) asg q hw)]
      · rfl

/-- `default_unpack` recurses into itself. -/
theorem defaultUnpack_eq (c : Cls) (members : List (Str × Json)) :
    defaultUnpack c (.obj members) =
      match walkTop defaultUnpack c members [] [] with
      | .error e => .error e
      | .ok (asg, q) => match walkQueue defaultUnpack c q asg with
        | .error e => .error e
        | .ok asg => match construct c asg with
          | .error e => .error e
          | .ok attrs => .ok (.obj c attrs) := by
  have hr : ∀ c x, depth x < depth (.obj members) → unpackF (depth (.obj members)) c x = defaultUnpack c x :=
    fun c x hx => unpackF_congr _ _ c x hx (by omega)
  have hm : ∀ kv ∈ members, depth kv.2 < depth (.obj members) := fun kv hkv => by
    have := depth_mem_obj hkv; simp only [depth]; omega
  rw [show defaultUnpack c (.obj members) = unpackF (depth (.obj members) + 1) c (.obj members) from rfl]
  simp only [unpackF]
  rw [walkTop_congr _ hr c members hm]
  cases hw : walkTop defaultUnpack c members [] [] with
  | error e => rfl
  | ok p =>
    obtain ⟨asg, q⟩ := p
    simp only
    rw [walkQueue_congr _ hr c q (walkTop_queue _ c members hm [] [] (by simp) asg q hw)]
    cases walkQueue defaultUnpack c q asg with
    | error e => rfl
    | ok a => simp only; cases construct c a <;> rfl

theorem defaultUnpack_nonobj (c : Cls) (j : Json) (h : ∀ l, j ≠ .obj l) : defaultUnpack c j = .error .attribute := by
  unfold defaultUnpack
  cases j <;> simp_all [unpackF]

theorem walkQueue_append (rec) (c : Cls) (q r : List Queued) (asg : Dict Str Val) :
    walkQueue rec c (q ++ r) asg = match walkQueue rec c q asg with
      | .error e => .error e
      | .ok asg => walkQueue rec c r asg := by
  induction q generalizing asg with
  | nil => rfl
  | cons e q ih =>
    obtain ⟨o, v⟩ := e
    cases o with
    | none =>
      simp only [List.cons_append, walkQueue]
      split
      · rfl
      · exact ih _
    | some m =>
      simp only [List.cons_append, walkQueue]
      split
      · split
        · rfl
        · exact ih _
      · rfl

/-! ## Ignored members -/

theorem isNull_ext {u : Unp} {j j' : Json} (h : Ext (.val u) j j') : isNull j = isNull j' := by
  cases h with
  | same => rfl
  | arr h => rfl
  | obj h => cases h <;> rfl

/-- What does harm under the key `__types`. -/
theorem typesEntry_harmless (c : Cls) (x : Json) : Harmless c x ↔ typesEntry c x = .ok () := by
  cases x with
  | obj d =>
    have hany : (d.any (fun m => (c.fields.any (fun f => f.name == m.1)) && !(isNull m.2)) = true) ↔ ¬ Harmless c (.obj d) := by
      rw [List.any_eq_true]
      constructor
      · rintro ⟨m, hm, h⟩ ⟨d', hd, h2⟩
        cases hd
        rw [Bool.and_eq_true, List.any_eq_true] at h
        obtain ⟨⟨f, hf, h3⟩, h4⟩ := h
        have := h2 m hm (List.mem_map.2 ⟨f, hf, by simpa using h3⟩)
        simp [this, isNull] at h4
      · intro h
        refine Classical.byContradiction fun hc => h ⟨d, rfl, fun m hm hf => ?_⟩
        obtain ⟨f, hf, h3⟩ := List.mem_map.1 hf
        cases hn : isNull m.2 with
        | true => cases hv : m.2 <;> simp_all [isNull]
        | false =>
          refine absurd ⟨m, hm, ?_⟩ hc
          rw [Bool.and_eq_true, List.any_eq_true]
          exact ⟨⟨f, hf, by simpa using h3⟩, by simp [hn]⟩
    simp only [typesEntry]
    by_cases hh : Harmless c (.obj d)
    · rw [if_neg (fun h => hany.1 h hh)]; simp [hh]
    · rw [if_pos (hany.2 hh)]; simp [hh]
  | _ => simp [typesEntry, Harmless]

/-- A harmful entry stays in the queue. -/
theorem walkTop_keeps (rec) (c : Cls) (l : List (Str × Json)) : ∀ (asg : Dict Str Val) (q : List Queued) (b : Dict Str Val) (r : List Queued),
    walkTop rec c l asg q = .ok (b, r) → (∀ e ∈ q, e ∈ r) ∧ ∀ v, (py!"__types", v) ∈ l → isNull v = false → ((none, v) : Queued) ∈ r := by
  induction l with
  | nil => intro asg q b r h; cases h; exact ⟨fun _ h => h, by simp⟩
  | cons kv l ih =>
    intro asg q b r h
    obtain ⟨k, x⟩ := kv
    simp only [walkTop] at h
    split at h
    · rename_i hx
      obtain ⟨h1, h2⟩ := ih _ _ _ _ h
      refine ⟨h1, fun v hv hn => ?_⟩
      rcases List.mem_cons.1 hv with e | hv
      · cases e; rw [hx] at hn; cases hn
      · exact h2 v hv hn
    · split at h
      · obtain ⟨h1, h2⟩ := ih _ _ _ _ h
        refine ⟨fun e he => h1 e (by simp [he]), fun v hv hn => ?_⟩
        rcases List.mem_cons.1 hv with e | hv
        · cases e; exact h1 _ (by simp)
        · exact h2 v hv hn
      · rename_i hk
        have other : ∀ v, (py!"__types", v) ∈ (k, x) :: l → (py!"__types", v) ∈ l := by
          intro v hv
          rcases List.mem_cons.1 hv with e | hv
          · cases e; exact absurd rfl hk
          · exact hv
        split at h
        · obtain ⟨h1, h2⟩ := ih _ _ _ _ h
          exact ⟨h1, fun v hv hn => h2 v (other v hv) hn⟩
        · obtain ⟨h1, h2⟩ := ih _ _ _ _ h
          exact ⟨fun e he => h1 e (by simp [he]), fun v hv hn => h2 v (other v hv) hn⟩
        · split at h
          · cases h
          · obtain ⟨h1, h2⟩ := ih _ _ _ _ h
            exact ⟨h1, fun v hv hn => h2 v (other v hv) hn⟩

theorem walkQueue_harm (rec) (c : Cls) (q : List Queued) (v : Json) (hm : ((none, v) : Queued) ∈ q) (hh : ¬ Harmless c v) :
    ∀ asg, ∃ e, walkQueue rec c q asg = .error e := by
  induction q with
  | nil => cases hm
  | cons e q ih =>
    intro asg
    obtain ⟨o, x⟩ := e
    rcases List.mem_cons.1 hm with e | hm2
    · cases e
      simp only [walkQueue]
      cases ht : typesEntry c v with
      | error e => exact ⟨e, rfl⟩
      | ok u => exact absurd ((typesEntry_harmless c v).2 ht) hh
    · cases o with
      | none =>
        simp only [walkQueue]
        split
        · exact ⟨_, rfl⟩
        · exact ih hm2 _
      | some m =>
        simp only [walkQueue]
        split
        · split
          · exact ⟨_, rfl⟩
          · exact ih hm2 _
        · exact ⟨_, rfl⟩

/-- What an extension means for each kind of place. -/
def ExtSem : Place → Json → Json → Prop
  | .object c, .obj l, .obj l' => ∀ asg q q', (∀ a, walkQueue defaultUnpack c q a = walkQueue defaultUnpack c q' a) →
      (∃ e, walkTop defaultUnpack c l asg q = .error e ∧ walkTop defaultUnpack c l' asg q' = .error e) ∨
      (∃ b r r', walkTop defaultUnpack c l asg q = .ok (b, r) ∧ walkTop defaultUnpack c l' asg q' = .ok (b, r') ∧
        ∀ a, walkQueue defaultUnpack c r a = walkQueue defaultUnpack c r' a)
  | .nested c m, .obj l, .obj l' => ∀ asg, walkSub defaultUnpack c m l asg = walkSub defaultUnpack c m l' asg
  | .val u, j, j' => fieldVal defaultUnpack u j = fieldVal defaultUnpack u j'
  | .list u, .arr l, .arr l' => applyUnpL defaultUnpack u l = applyUnpL defaultUnpack u l'
  | _, _, _ => False

theorem extSem_refl (c : Cls) (l : List (Str × Json)) : ExtSem (.object c) (.obj l) (.obj l) := by
  induction l with
  | nil => intro asg q q' hq; right; exact ⟨asg, q, q', rfl, rfl, hq⟩
  | cons kv l ih =>
    intro asg q q' hq
    obtain ⟨k, v⟩ := kv
    simp only [walkTop]
    split
    · exact ih asg q q' hq
    · split
      · refine ih asg _ _ fun a => ?_
        rw [walkQueue_append, walkQueue_append, hq a]
      · split
        · exact ih asg q q' hq
        · refine ih asg _ _ fun a => ?_
          rw [walkQueue_append, walkQueue_append, hq a]
        · split
          · rename_i e he
            left; exact ⟨e, rfl, rfl⟩
          · exact ih _ q q' hq

/-- A harmless entry can stand anywhere. -/
theorem extSem_types (c : Cls) (l1 l2 : List (Str × Json)) (x : Json) (hh : Harmless c x) :
    ExtSem (.object c) (.obj (l1 ++ l2)) (.obj (l1 ++ (py!"__types", x) :: l2)) := by
  have hn : isNull x = false := by obtain ⟨d, rfl, -⟩ := hh; rfl
  induction l1 with
  | nil =>
    intro asg q q' hq
    simp only [List.nil_append]
    rw [show walkTop defaultUnpack c ((py!"__types", x) :: l2) asg q' = walkTop defaultUnpack c l2 asg (q' ++ [(none, x)]) by simp [walkTop, hn]]
    refine extSem_refl c l2 asg q _ fun a => ?_
    rw [walkQueue_append, hq a]
    cases walkQueue defaultUnpack c q' a with
    | error e => rfl
    | ok b => simp [walkQueue, (typesEntry_harmless c x).1 hh]
  | cons kv l ih =>
    intro asg q q' hq
    obtain ⟨k, v⟩ := kv
    simp only [List.cons_append, walkTop]
    split
    · exact ih asg q q' hq
    · split
      · refine ih asg _ _ fun a => ?_
        rw [walkQueue_append, walkQueue_append, hq a]
      · split
        · exact ih asg q q' hq
        · refine ih asg _ _ fun a => ?_
          rw [walkQueue_append, walkQueue_append, hq a]
        · split
          · rename_i e he
            left; exact ⟨e, rfl, rfl⟩
          · exact ih _ q q' hq

theorem extSem_object (c : Cls) (l l' : List (Str × Json)) (h : ExtSem (.object c) (.obj l) (.obj l')) :
    defaultUnpack c (.obj l) = defaultUnpack c (.obj l') := by
  rw [defaultUnpack_eq, defaultUnpack_eq]
  rcases h [] [] [] (fun _ => rfl) with ⟨e, h1, h2⟩ | ⟨b, r, r', h1, h2, h3⟩
  · rw [h1, h2]
  · rw [h1, h2]; simp only [h3]

theorem ext_shape {p : Place} {j j' : Json} (h : Ext p j j') :
    (∀ c, p = .object c → (∃ l, j = .obj l) ∧ ∃ l, j' = .obj l) := by
  intro c hc
  cases h <;> simp_all

theorem ext_sem {p : Place} {j j' : Json} (h : Ext p j j') : ExtSem p j j' := by
  induction h with
  | objNil c => intro asg q q' hq; right; exact ⟨asg, q, q', rfl, rfl, hq⟩
  | @objSkip c l l' k x hs _ ih =>
    intro asg q q' hq
    rcases hs with hs | ⟨h1, h2⟩ | ⟨rfl, hh⟩
    · rw [show walkTop defaultUnpack c ((k, x) :: l') asg q' = walkTop defaultUnpack c l' asg q' by simp [walkTop, hs, isNull]]
      exact ih asg q q' hq
    · rw [show walkTop defaultUnpack c ((k, x) :: l') asg q' = walkTop defaultUnpack c l' asg q' by
        simp only [walkTop]; rw [Dict.get?_none _ _ h2]; simp [h1]]
      exact ih asg q q' hq
    · have hn : isNull x = false := by obtain ⟨d, rfl, -⟩ := hh; rfl
      rw [show walkTop defaultUnpack c ((py!"__types", x) :: l') asg q' = walkTop defaultUnpack c l' asg (q' ++ [(none, x)]) by
        simp [walkTop, hn]]
      refine ih asg q _ fun a => ?_
      rw [walkQueue_append, hq a]
      cases walkQueue defaultUnpack c q' a with
      | error e => rfl
      | ok b => simp [walkQueue, (typesEntry_harmless c x).1 hh]
  | @objAttr c l l' k a v v' hk hv _ ihv ih =>
    intro asg q q' hq
    have hty : k ≠ py!"__types" := by
      intro e
      have hm := Dict.mem_of_get? _ _ _ hk
      exact dap_noTypes c (e ▸ List.mem_map_of_mem (f := (·.1)) hm)
    simp only [walkTop, hk, hty, if_false]
    rw [← isNull_ext hv]
    split
    · exact ih asg q q' hq
    · have : fieldVal defaultUnpack (c.fieldUnp a) v = fieldVal defaultUnpack (c.fieldUnp a) v' := ihv
      rw [← this]
      cases hf : fieldVal defaultUnpack (c.fieldUnp a) v with
      | error e => left; exact ⟨e, rfl, rfl⟩
      | ok x => exact ih _ q q' hq
  | @objSub c l l' k m d d' hk hd _ ihd ih =>
    intro asg q q' hq
    have hty : k ≠ py!"__types" := by
      intro e
      have hm := Dict.mem_of_get? _ _ _ hk
      exact dap_noTypes c (e ▸ List.mem_map_of_mem (f := (·.1)) hm)
    simp only [walkTop, hk, hty, if_false, isNull, Bool.false_eq_true]
    apply ih
    intro a
    rw [walkQueue_append, walkQueue_append, hq a]
    split
    · rfl
    · have : ∀ asg, walkSub defaultUnpack c m d asg = walkSub defaultUnpack c m d' asg := ihd
      simp only [walkQueue, this]
  | subNil c m => intro asg; rfl
  | @subSkip c m l l' k x hs _ ih =>
    intro asg
    have ih : ∀ asg, walkSub defaultUnpack c m l asg = walkSub defaultUnpack c m l' asg := ih
    rw [ih]
    simp only [walkSub]
    rcases hs with hs | h2
    · simp [hs, isNull]
    · rw [Dict.get?_none _ _ h2]; simp
  | @subAttr c m l l' k a v v' hk hv _ ihv ih =>
    intro asg
    have ih : ∀ asg, walkSub defaultUnpack c m l asg = walkSub defaultUnpack c m l' asg := ih
    simp only [walkSub, hk]
    rw [← isNull_ext hv]
    have : fieldVal defaultUnpack (c.fieldUnp a) v = fieldVal defaultUnpack (c.fieldUnp a) v' := ihv
    rw [← this]
    simp only [ih]
  | same u j => exact rfl
  | @obj c j j' h ih =>
    obtain ⟨⟨l, rfl⟩, ⟨l', rfl⟩⟩ := ext_shape h c rfl
    simp only [ExtSem, fieldVal, applyUnp]
    exact extSem_object c l l' ih
  | @arr u l l' _ ih =>
    have ih : applyUnpL defaultUnpack u l = applyUnpL defaultUnpack u l' := ih
    simp only [ExtSem, fieldVal, ih]
  | listNil u => exact rfl
  | @listSame u x l l' _ ih =>
    have ih : applyUnpL defaultUnpack u l = applyUnpL defaultUnpack u l' := ih
    simp only [ExtSem, applyUnpL, ih]
  | @listObj c x x' l l' hx _ ihx ih =>
    obtain ⟨⟨d, rfl⟩, ⟨d', rfl⟩⟩ := ext_shape hx c rfl
    have ih : applyUnpL defaultUnpack (.cls c) l = applyUnpL defaultUnpack (.cls c) l' := ih
    simp only [ExtSem, applyUnpL, applyUnp, ih, extSem_object c d d' ihx]

theorem ext_defaultUnpack (c : Cls) (j j' : Json) (h : Ext (.object c) j j') : defaultUnpack c j = defaultUnpack c j' := by
  obtain ⟨⟨l, rfl⟩, ⟨l', rfl⟩⟩ := ext_shape h c rfl
  exact extSem_object c l l' (ext_sem h)

end Verif.Dap
