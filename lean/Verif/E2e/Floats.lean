import Verif.Conn.Wire
import Verif.Wire.One
/-! # The debuggee's messages contain no float (proofs only): their text is always written -/

namespace Verif

theorem Json.floatsO_iff (l : List (Str × Json)) : Json.FloatsOkO l ↔ ∀ kv ∈ l, kv.2.FloatsOk := by
  induction l with
  | nil => simp [Json.FloatsOkO]
  | cons e l ih => obtain ⟨k, v⟩ := e; simp [Json.FloatsOkO, ih]

namespace Dap

mutual
/-- No float anywhere in the value. -/
def noFlt : Val → Bool
  | .flt _ => false
  | .list l => noFltL l
  | .dict l => noFltA l
  | .obj _ l => noFltA l
  | _ => true
def noFltL : List Val → Bool
  | [] => true
  | v :: l => noFlt v && noFltL l
def noFltA : List (Str × Val) → Bool
  | [] => true
  | (_, v) :: l => noFlt v && noFltA l
end

theorem noFltA_iff (l : List (Str × Val)) : noFltA l = true ↔ ∀ kv ∈ l, noFlt kv.2 = true := by
  induction l with
  | nil => simp [noFltA]
  | cons e l ih => obtain ⟨k, v⟩ := e; simp [noFltA, ih]

theorem noFltL_iff (l : List Val) : noFltL l = true ↔ ∀ v ∈ l, noFlt v = true := by
  induction l with
  | nil => simp [noFltL]
  | cons e l ih => simp [noFltL, ih]

theorem packDap_floats (c : Cls) (l : List (Str × Json)) (h : ∀ kv ∈ l, kv.2.FloatsOk) : Json.FloatsOkO (packDap c.dap l) := by
  have hJ : ∀ a, (attrJson l a).FloatsOk := by
    intro a; unfold attrJson
    cases hg : Dict.get? l a with
    | none => simp [Json.FloatsOk]
    | some v => exact h _ (Dict.mem_of_get? l a v hg)
  rw [Json.floatsO_iff]
  intro kv hkv
  obtain ⟨⟨k, e⟩, he, rfl⟩ := List.mem_map.mp hkv
  cases e with
  | attr a => exact hJ a
  | sub sm =>
    simp only [Json.FloatsOk]
    rw [Json.floatsO_iff]
    intro kv hkv
    obtain ⟨⟨k', a⟩, hm, rfl⟩ := List.mem_map.mp hkv
    exact hJ a

theorem updateArguments_floats (p : List (Str × Json)) (args : Json) (hp : Json.FloatsOkO p) (ha : args.FloatsOk) :
    Json.FloatsOkO (updateArguments p args) := by
  rw [Json.floatsO_iff] at hp ⊢
  intro kv hkv
  obtain ⟨⟨k, v⟩, hm, rfl⟩ := List.mem_map.mp hkv
  have := hp _ hm
  simp only
  split
  · split
    · rename_i d e
      simp only [Json.FloatsOk] at this ha ⊢
      rw [Json.floatsO_iff]
      intro x hx
      rcases Dict.mem_union _ _ _ hx with hx | hx
      · exact (Json.floatsO_iff _).mp this x hx
      · exact (Json.floatsO_iff _).mp ha x hx
    · exact this
  · exact this

theorem packCls_floats (c : Cls) (l : List (Str × Json)) (h : ∀ kv ∈ l, kv.2.FloatsOk) : (packCls c l).FloatsOk := by
  have hJ : ∀ a, (attrJson l a).FloatsOk := by
    intro a; unfold attrJson
    cases hg : Dict.get? l a with
    | none => simp [Json.FloatsOk]
    | some v => exact h _ (Dict.mem_of_get? l a v hg)
  have hp := packDap_floats c l h
  have h1 := updateArguments_floats _ _ hp (hJ py!"arguments")
  unfold packCls
  split
  · simp only [Json.FloatsOk]; exact h1
  · simp only [Json.FloatsOk]; exact h1
  · simp only [Json.FloatsOk]; exact hp

mutual
theorem toJson_floats (v : Val) (h : noFlt v = true) : (toJson v).FloatsOk := by
  match v, h with
  | .null, _ => simp [toJson, Json.FloatsOk]
  | .bool _, _ => simp [toJson, Json.FloatsOk]
  | .int _, _ => simp [toJson, Json.FloatsOk]
  | .str _, _ => simp [toJson, Json.FloatsOk]
  | .enum _ _, _ => simp [toJson, Json.FloatsOk]
  | .list l, h => simp only [toJson, Json.FloatsOk, noFlt] at *; exact toJsonL_floats l h
  | .dict l, h =>
    simp only [toJson, Json.FloatsOk, noFlt] at *
    exact (Json.floatsO_iff _).2 (toJsonA_floats l h)
  | .obj c attrs, h =>
    simp only [toJson, noFlt] at *
    exact packCls_floats c _ (toJsonA_floats attrs h)
theorem toJsonL_floats (l : List Val) (h : noFltL l = true) : Json.FloatsOkL (toJsonL l) := by
  match l, h with
  | [], _ => simp [toJsonL, Json.FloatsOkL]
  | x :: xs, h =>
    simp only [toJsonL, Json.FloatsOkL, noFltL, Bool.and_eq_true] at *
    exact ⟨toJson_floats x h.1, toJsonL_floats xs h.2⟩
theorem toJsonA_floats (l : List (Str × Val)) (h : noFltA l = true) : ∀ kv ∈ toJsonO l, kv.2.FloatsOk := by
  match l, h with
  | [], _ => simp [toJsonO]
  | (k, x) :: xs, h =>
    simp only [toJsonO, noFltA, Bool.and_eq_true, List.mem_cons] at *
    rintro kv (rfl | hkv)
    · exact toJson_floats x h.1
    · exact toJsonA_floats xs h.2 kv hkv
end

theorem noFlt_setSeq (v : Val) (k : Nat) (h : noFlt v = true) : noFlt (Conn.setSeq v k) = true := by
  cases v with
  | obj c attrs =>
    simp only [Conn.setSeq, noFlt, noFltA_iff] at h ⊢
    intro kv hkv
    rcases Dict.mem_set _ _ _ _ hkv with e | e
    · subst e; rfl
    · exact h _ e
  | _ => exact h

/-- No default and no class attribute is a float. -/
theorem dflt_noFlt : (allCls.all fun c => c.fields.all fun f => noFlt (f.dflt.getD .null) && noFlt ((c.attr? f.name).getD .null)) = true := by
  decide +kernel

end Dap

namespace Wire
open Verif.Strat
open Verif.Dap (noFlt noFltA_iff noFltL_iff Cls)

theorem build_noFlt (c : Cls) (asg : Dict Str Dap.Val) (h : ∀ x ∈ asg, noFlt x.2 = true) : noFlt (build c asg) = true := by
  simp only [build, noFlt, noFltA_iff]
  intro kv hkv
  obtain ⟨f, hf, rfl⟩ := List.mem_map.1 hkv
  have := List.all_eq_true.1 (List.all_eq_true.1 Dap.dflt_noFlt c (Dap.mem_allCls c)) f hf
  simp only [Bool.and_eq_true] at this
  simp only [fieldValue]
  split
  · rename_i v hv; exact h _ (Dict.mem_of_get? _ _ _ hv)
  · split
    · rename_i d hd; rw [hd] at this; exact this.1
    · exact this.2

theorem map_noFlt {α : Type} (f : α → Dap.Val) (l : List α) (h : ∀ x, noFlt (f x) = true) : noFlt (.list (l.map f)) = true := by
  simp only [noFlt, noFltL_iff]
  intro v hv
  obtain ⟨x, _, rfl⟩ := List.mem_map.1 hv
  exact h x

theorem optStr_noFlt (o : Option Str) : noFlt (optStr o) = true := by cases o <;> rfl
theorem optInt_noFlt (o : Option Int) : noFlt (optInt o) = true := by cases o <;> rfl

theorem respond_noFlt (c : Cls) (m : Dap.Val) (asg : Dict Str Dap.Val) (h : ∀ x ∈ asg, noFlt x.2 = true) : noFlt (respond c m asg) = true := by
  apply build_noFlt
  intro x hx
  rcases List.mem_cons.1 hx with rfl | hx
  · rfl
  · exact h x hx

theorem source_noFlt (a b : Dap.Val) (ha : noFlt a = true) (hb : noFlt b = true) : noFlt (build .Source [(py!"name", a), (py!"path", b)]) = true := by
  apply build_noFlt; simp [ha, hb]

theorem bpVal_noFlt (b : Bp.Bp) : noFlt (bpVal b) = true := by
  apply build_noFlt
  simp [optStr_noFlt, optInt_noFlt, source_noFlt, noFlt]

theorem error_noFlt (e : Env) (m : Dap.Val) (x : PyErr) (hm : noFlt ((m.attr? py!"command").getD .null) = true) : noFlt (errorResponse e m x) = true := by
  apply respond_noFlt
  simp [hm, noFlt]

theorem eval_noFlt (e : Env) (s : DS) (m : Dap.Val) : noFlt (evalResponse e s m) = true := by
  apply respond_noFlt
  simp [optStr_noFlt, noFlt]

theorem stopped_noFlt (e : Env) (h : Heap) (get : Str → Option Val) (t : Nat) (w : Strat.Stop) : noFlt (stoppedEvent e h get t w) = true := by
  cases w with
  | brk w => cases w <;> (apply build_noFlt; simp [noFlt, Dap.noFltL])
  | exc x => apply build_noFlt; simp [noFlt, Dap.noFltL]

theorem render_noFlt (e : Env) (s : DS) (c : Cls) (m : Dap.Val) (get : Str → Option Val) (o : Out)
    (hm : noFlt ((m.attr? py!"command").getD .null) = true) : noFlt (render e s c m get o) = true := by
  cases o with
  | started t => exact build_noFlt _ _ (by simp [noFlt])
  | exited t => exact build_noFlt _ _ (by simp [noFlt])
  | stopped t w => exact stopped_noFlt e _ _ t w
  | ok =>
    simp only [render]
    split
    · exact eval_noFlt e s m
    · exact respond_noFlt _ _ _ (by simp)
  | continued a => exact respond_noFlt _ _ _ (by simp [noFlt])
  | error x => exact error_noFlt e m x hm
  | stack fs =>
    refine respond_noFlt _ _ _ ?_
    have := map_noFlt (frameVal e s) fs fun f => by apply build_noFlt; simp [noFlt]; exact source_noFlt _ _ rfl rfl
    simp only [List.mem_cons, List.not_mem_nil, or_false]
    rintro x (rfl | rfl)
    · exact this
    · rfl
  | threads ids =>
    refine respond_noFlt _ _ _ ?_
    have := map_noFlt (threadVal e s) ids fun f => by apply build_noFlt; simp [noFlt]
    simp only [List.mem_cons, List.not_mem_nil, or_false]
    rintro x rfl
    exact this
  | scopes ss =>
    refine respond_noFlt _ _ _ ?_
    have := map_noFlt (scopeVal s) ss fun f => by apply build_noFlt; simp [noFlt]
    simp only [List.mem_cons, List.not_mem_nil, or_false]
    rintro x rfl
    exact this
  | variables vs =>
    refine respond_noFlt _ _ _ ?_
    have := map_noFlt (variableVal e s) vs fun f => by apply build_noFlt; simp [noFlt]
    simp only [List.mem_cons, List.not_mem_nil, or_false]
    rintro x rfl
    exact this
  | setVar ref => exact respond_noFlt _ _ _ (by simp [noFlt])
  | bp b =>
    cases b with
    | setBpsResp _ bs =>
      refine respond_noFlt _ _ _ ?_
      have := map_noFlt bpVal bs bpVal_noFlt
      simp only [List.mem_cons, List.not_mem_nil, or_false]
      rintro x rfl
      exact this
    | bpChanged b => exact build_noFlt _ _ (by simp [noFlt, bpVal_noFlt])
    | setExcResp _ => exact respond_noFlt _ _ _ (by simp)
    | initialized => exact build_noFlt _ _ (by simp)
    | error _ => exact error_noFlt e m _ hm

/-- The messages for a request contain no float if its command is none. -/
theorem handle_noFlt (e : Env) (s : DS) (m : Dap.Val) (hm : noFlt ((m.attr? py!"command").getD .null) = true) :
    ∀ a ∈ (handle e s m).2, noFlt a = true := by
  intro a ha
  unfold handle at ha
  split at ha
  · simp only at ha
    split at ha
    · obtain ⟨o, _, rfl⟩ := List.mem_map.1 ha
      exact render_noFlt _ _ _ _ _ _ hm
    · rw [List.mem_singleton.1 ha]; exact error_noFlt _ _ _ hm
    · rw [List.mem_singleton.1 ha]; exact respond_noFlt _ _ _ (by simp)
    · rw [List.mem_singleton.1 ha]; exact eval_noFlt _ _ _
  · cases ha

theorem play_noFlt (e : Env) (s : DS) (l : Label) (r : DS × List Dap.Val) (h : play e s l = some r) : ∀ a ∈ r.2, noFlt a = true := by
  intro a ha
  unfold play at h
  cases hs : step s l with
  | none => rw [hs] at h; cases h
  | some x =>
    rw [hs] at h
    cases h
    obtain ⟨o, _, rfl⟩ := List.mem_map.1 ha
    exact render_noFlt _ _ _ _ _ _ rfl

end Wire
end Verif
