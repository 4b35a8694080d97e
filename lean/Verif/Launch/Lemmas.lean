import Verif.Launch.Tls
import Verif.Launch.ScriptProof
/-! # Lemmas about starting ansible-playbook -/

namespace Verif.Launch
open Verif

/-! ## The configuration loop -/

/-- The entry has the given name. -/
def Named (n : Str) : Json → Bool
  | .obj e => match Dict.get? e py!"name" with
    | some (.str m) => m = n
    | _ => false
  | _ => false

/-- The value of the first entry with that name, if it is an array. -/
def userList (es : List Json) (n : Str) : List Json :=
  match es.find? (Named n) with
  | some (.obj e) => match Dict.get? e py!"value" with
    | some (.arr l) => l
    | _ => []
  | _ => []

/-- The entry's value is a list. -/
def HasList : Json → Prop
  | .obj e => ∃ l, Dict.get? e py!"value" = some (.arr l)
  | _ => False

/-- A configuration dump as `ansible-config dump --format json` prints it, as far as the two
settings are concerned: a list of objects, at most one per setting, with list values. -/
structure DumpOk (es : List Json) : Prop where
  obj : ∀ e ∈ es, ∃ l, e = .obj l
  list : ∀ e ∈ es, (Named py!"CALLBACKS_ENABLED" e = true ∨ Named py!"COLLECTIONS_PATHS" e = true) → HasList e
  once : es.Pairwise fun a b => ∀ n, n = py!"CALLBACKS_ENABLED" ∨ n = py!"COLLECTIONS_PATHS" →
    Named n a = true → Named n b = false

theorem named_entry {n : Str} {l : List (Str × Json)} (h : Named n (.obj l) = true) :
    Dict.get? l py!"name" = some (.str n) := by
  simp only [Named] at h
  split at h
  · rename_i m hm; simp at h; rw [hm, h]
  · cases h

theorem userList_cons_ne {e : Json} {es : List Json} {n : Str} (h : Named n e = false) :
    userList (e :: es) n = userList es n := by
  simp [userList, List.find?_cons, h]

theorem userList_none {es : List Json} {n : Str} (h : ∀ e ∈ es, Named n e = false) : userList es n = [] := by
  have : es.find? (Named n) = none := by
    rw [List.find?_eq_none]; intro e he; simp [h e he]
  simp [userList, this]

theorem cfgLoop_spec (es : List Json) (st : CfgSt) (h : DumpOk es)
    (hcb : st.wantCb = false → ∀ e ∈ es, Named py!"CALLBACKS_ENABLED" e = false)
    (hcp : st.wantCp = false → ∀ e ∈ es, Named py!"COLLECTIONS_PATHS" e = false) :
    ∃ st', cfgLoop st es = .ok st' ∧
      st'.callbacks = st.callbacks ++ userList es py!"CALLBACKS_ENABLED" ∧
      st'.paths = st.paths ++ userList es py!"COLLECTIONS_PATHS" := by
  induction es generalizing st with
  | nil => exact ⟨st, rfl, by simp [userList], by simp [userList]⟩
  | cons e es ih =>
    obtain ⟨l, rfl⟩ := h.obj e (by simp)
    have hd : DumpOk es := ⟨fun x hx => h.obj x (by simp [hx]), fun x hx => h.list x (by simp [hx]), (List.pairwise_cons.1 h.once).2⟩
    have h1 := (List.pairwise_cons.1 h.once).1
    -- a generic finish
    have fin (st' : CfgSt) (he : cfgEntry st (.obj l) = .ok st')
        (k1 : st'.wantCb = false → ∀ e ∈ es, Named py!"CALLBACKS_ENABLED" e = false)
        (k2 : st'.wantCp = false → ∀ e ∈ es, Named py!"COLLECTIONS_PATHS" e = false)
        (c1 : st'.callbacks ++ userList es py!"CALLBACKS_ENABLED" = st.callbacks ++ userList (.obj l :: es) py!"CALLBACKS_ENABLED")
        (c2 : st'.paths ++ userList es py!"COLLECTIONS_PATHS" = st.paths ++ userList (.obj l :: es) py!"COLLECTIONS_PATHS") :
        ∃ st'', cfgLoop st (.obj l :: es) = .ok st'' ∧
          st''.callbacks = st.callbacks ++ userList (.obj l :: es) py!"CALLBACKS_ENABLED" ∧
          st''.paths = st.paths ++ userList (.obj l :: es) py!"COLLECTIONS_PATHS" := by
      simp only [cfgLoop, he]
      split
      · rename_i hb
        simp only [Bool.and_eq_true, Bool.not_eq_true'] at hb
        refine ⟨st', rfl, ?_, ?_⟩
        · rw [← c1, userList_none (k1 hb.1)]; simp
        · rw [← c2, userList_none (k2 hb.2)]; simp
      · obtain ⟨st'', e1, e2, e3⟩ := ih st' hd k1 k2
        exact ⟨st'', e1, by rw [e2, c1], by rw [e3, c2]⟩
    by_cases hn1 : Named py!"CALLBACKS_ENABLED" (.obj l) = true
    · have hw : st.wantCb = true := by
        cases hh : st.wantCb with
        | true => rfl
        | false => have := hcb hh _ (List.mem_cons_self); simp [this] at hn1
      have hnm := named_entry hn1
      obtain ⟨v, hv⟩ := h.list _ (List.mem_cons_self) (Or.inl hn1)
      have hn2 : Named py!"COLLECTIONS_PATHS" (.obj l) = false := by simp [Named, hnm]
      have he : cfgEntry st (.obj l) = .ok { st with callbacks := st.callbacks ++ v, wantCb := false } := by
        simp [cfgEntry, hnm, hw, hv, iterJson]
      refine fin _ he (fun _ x hx => h1 x hx _ (Or.inl rfl) hn1) (fun hx x hxm => hcp hx x (by simp [hxm])) ?_ ?_
      · rw [userList_none (fun x hx => h1 x hx _ (Or.inl rfl) hn1)]
        simp [userList, List.find?_cons, hn1, hv]
      · rw [userList_cons_ne hn2]
    · have hn1 : Named py!"CALLBACKS_ENABLED" (.obj l) = false := by simpa using hn1
      by_cases hn2 : Named py!"COLLECTIONS_PATHS" (.obj l) = true
      · have hw : st.wantCp = true := by
          cases hh : st.wantCp with
          | true => rfl
          | false => have := hcp hh _ (List.mem_cons_self); simp [this] at hn2
        have hnm := named_entry hn2
        obtain ⟨v, hv⟩ := h.list _ (List.mem_cons_self) (Or.inr hn2)
        have he : cfgEntry st (.obj l) = .ok { st with paths := st.paths ++ v, wantCp := false } := by
          simp [cfgEntry, hnm, hw, hv, iterJson]
        refine fin _ he (fun hx x hxm => hcb hx x (by simp [hxm])) (fun _ x hx => h1 x hx _ (Or.inr rfl) hn2) ?_ ?_
        · rw [userList_cons_ne hn1]
        · rw [userList_none (fun x hx => h1 x hx _ (Or.inr rfl) hn2)]
          simp [userList, List.find?_cons, hn2, hv]
      · have hn2 : Named py!"COLLECTIONS_PATHS" (.obj l) = false := by simpa using hn2
        have he : cfgEntry st (.obj l) = .ok st := by
          simp only [cfgEntry]
          split
          · rename_i n hn
            simp only [Named, hn, decide_eq_false_iff_not] at hn1 hn2
            rw [if_neg hn1, if_neg hn2]
          · rfl
        refine fin _ he (fun hx x hxm => hcb hx x (by simp [hxm])) (fun hx x hxm => hcp hx x (by simp [hxm])) ?_ ?_
        · rw [userList_cons_ne hn1]
        · rw [userList_cons_ne hn2]

theorem strItems_strs (l : List Str) : strItems (l.map .str) = .ok l := by
  induction l with
  | nil => rfl
  | cons s ss ih => simp [strItems, ih]

/-! ## Dictionaries -/

theorem get_union_in {κ α : Type} [DecidableEq κ] (d e : Dict κ α) (k : κ) (v : α)
    (h : Dict.get? e k = some v) (hn : (e.map (·.1)).Nodup) :
    (Dict.union d e).get? k = some v := by
  unfold Dict.union
  induction e generalizing d with
  | nil => simp [Dict.get?] at h
  | cons a e ih =>
    rw [List.foldl_cons]
    simp only [List.map_cons, List.nodup_cons] at hn
    by_cases hk : a.1 = k
    · have hv : a.2 = v := by simpa [Dict.get?, hk] using h
      have := get_union (d.set a.1 a.2) e k (by rw [← hk]; exact hn.1)
      unfold Dict.union at this
      rw [this, DL.get_set, if_pos hk, hv]
    · exact ih _ (by simpa [Dict.get?, hk] using h) hn.2

/-! ## Argument classification -/

theorem mem_prefixes {p o : Str} (h : p.isPrefixOf o = true) : p ∈ (List.range (o.length + 1)).map (o.take ·) := by
  rw [List.isPrefixOf_iff_prefix] at h
  have hl := h.length_le
  rw [List.prefix_iff_eq_take] at h
  simp only [List.mem_map, List.mem_range]
  exact ⟨p.length, by omega, h.symm⟩

/-- Decode the bytes of an argument. -/
def dec (b : Str) : Option Str := utf8Decode (b.map UInt8.ofNat)

theorem dec_enc (s b : Str) (h : enc s = some b) : dec b = some s := by
  simp only [enc, Option.map_eq_some_iff] at h
  obtain ⟨x, hx, rfl⟩ := h
  have : (bytesToCodes x).map UInt8.ofNat = x := by
    unfold bytesToCodes
    rw [List.map_map]
    conv => rhs; rw [← List.map_id x]
    apply List.map_congr_left
    intro a _; simp
  rw [dec, this]
  exact utf8Decode_encode s x hx

theorem dec_encAll (l bs : List Str) (h : encAll l = some bs) : bs.map dec = l.map some := by
  induction l generalizing bs with
  | nil => simp [encAll] at h; subst h; rfl
  | cons a as ih =>
    simp only [encAll] at h
    split at h
    · rename_i b r hb hr
      cases h
      simp [dec_enc a b hb, ih r hr]
    · cases h

end Verif.Launch
