import Verif.Conn.Stream
import Verif.Props.Dap
/-! # Frames of messages (proofs only) -/

namespace Verif.Conn
open Verif Verif.Dap

theorem ofNat_toNat8 (c : Nat) (h : c < 256) : (UInt8.ofNat c).toNat = c := by
  simp; omega

theorem utf8Encode_ascii (s : Str) (h : ∀ c ∈ s, c < 128) : utf8Encode s = some (s.map UInt8.ofNat) := by
  induction s with
  | nil => rfl
  | cons c s ih =>
    simp only [utf8Encode, ih (fun x hx => h x (by simp [hx])), bind, Option.bind, List.map_cons]
    rw [if_pos (h c (by simp))]

theorem utf8Decode_ascii (s : Str) (h : ∀ c ∈ s, c < 128) : utf8Decode (s.map UInt8.ofNat) = some s := by
  induction s with
  | nil => rfl
  | cons c s ih =>
    have hc := h c (by simp)
    rw [List.map_cons, utf8Decode.eq_def]
    simp only [ofNat_toNat8 c (show c < 256 by omega)]
    rw [if_pos (by omega), ih (fun x hx => h x (by simp [hx]))]; rfl

/-- The frame of a text. -/
def frameOf (text : Str) : Bytes :=
  bytes!"Content-Length: " ++ (natDec text.length).map UInt8.ofNat ++ bytes!"\r\n\r\n" ++ text.map UInt8.ofNat

theorem frameOf_eq (text : Str) : frameOf text =
    (py!"Content-Length: " ++ natDec text.length ++ py!"\r\n\r\n" ++ text).map UInt8.ofNat := by
  simp [frameOf]

theorem digits_toNat (n : Nat) : ((natDec n).map UInt8.ofNat).map UInt8.toNat = natDec n := by
  rw [List.map_map]
  conv => rhs; rw [← List.map_id (natDec n)]
  apply List.map_congr_left
  intro c hc
  have := natDec_digits n c hc
  simp only [isDig, decide_eq_true_eq] at this
  simp only [Function.comp, id]; exact ofNat_toNat8 c (by omega)

theorem frame_frameOf (text : Str) : Frame (frameOf text) (text.map UInt8.ofNat) :=
  ⟨_, rfl, by rw [List.length_map, digits_toNat]⟩

theorem queueMsg_eq (c : Conn) (m : Val) (h : (toJson (setSeq m c.seqOut)).FloatsOk) :
    queueMsg c m = (.ok c.seqOut, { c with seqOut := c.seqOut + 1,
                                           outBuf := c.outBuf ++ frameOf (dumps (toJson (setSeq m c.seqOut))) }) := by
  have ha := dumps_ascii _ h
  unfold queueMsg
  simp only
  rw [utf8Encode_ascii, ← frameOf_eq]
  intro x hx
  simp only [List.mem_append] at hx
  rcases hx with ((hx | hx) | hx) | hx
  · revert x; decide
  · have := natDec_ascii _ x hx; omega
  · revert x; decide
  · have := ha x hx; omega

theorem occurs_mem {α : Type} {pat l : List α} (h : Occurs pat l) : ∀ x ∈ pat, x ∈ l := by
  obtain ⟨a, b, rfl⟩ := h
  intro x hx; simp [hx]

theorem findSub_head {α : Type} [DecidableEq α] (x : α) (pt a b : List α) (h : x ∉ a) :
    findSub (x :: pt) (a ++ (x :: pt) ++ b) = some a.length := by
  induction a with
  | nil =>
    have : (x :: pt).isPrefixOf (x :: (pt ++ b)) = true := by
      rw [List.isPrefixOf_iff_prefix]; exact ⟨b, by simp⟩
    simp only [List.nil_append, List.cons_append, findSub, this, if_true, List.length_nil]
  | cons y a ih =>
    simp only [List.mem_cons, not_or] at h
    have hn : ¬ ((x :: pt).isPrefixOf (y :: (a ++ (x :: pt) ++ b))) = true := by
      rw [List.isPrefixOf_iff_prefix]
      rintro ⟨t, ht⟩
      simp only [List.cons_append, List.cons.injEq] at ht
      exact h.1 ht.1
    simp only [List.cons_append, findSub]
    simp only [List.append_assoc, List.cons_append] at hn ih ⊢
    rw [if_neg hn, ih h.2]; rfl

/-- The header written by `queue_msg`. -/
theorem announces_header (n : Nat) : Announces (bytes!"Content-Length: " ++ (natDec n).map UInt8.ofNat) (n : Int) := by
  have hd : ∀ x ∈ (natDec n).map UInt8.ofNat, (48 : Nat) ≤ x.toNat ∧ x.toNat ≤ 57 := by
    intro x hx
    obtain ⟨c, hc, rfl⟩ := List.mem_map.mp hx
    have := natDec_digits n c hc
    simp only [isDig, decide_eq_true_eq] at this
    rw [ofNat_toNat8 c (by omega)]; exact this
  refine ⟨[], (natDec n).map UInt8.ofNat, [], by simp [joinSep], ?_, by simp, ?_⟩
  · intro kv hkv
    simp only [List.nil_append, List.mem_singleton] at hkv
    subst hkv
    refine ⟨?_, ?_, ?_⟩
    · rw [not_occurs_iff]
      exact (by decide +kernel : findSub bytes!": " bytes!"Content-Length" = none)
    · intro h
      have := hd 58 (occurs_mem h 58 (by simp))
      exact absurd this.2 (by decide)
    · intro h
      have := occurs_mem h 13 (by simp)
      simp only [List.mem_append] at this
      rcases this with (h | h) | h
      · revert h; decide
      · revert h; decide
      · exact absurd (hd 13 h).1 (by decide)
  · rw [show bytesToCodes ((natDec n).map UInt8.ofNat) = natDec n from digits_toNat n]
    exact pyInt_natDec n

theorem find_frame (text : Str) (rest : Bytes) :
    findSub bytes!"\r\n\r\n" (frameOf text ++ rest) =
      some (bytes!"Content-Length: " ++ (natDec text.length).map UInt8.ofNat).length := by
  have h13 : (13 : UInt8) ∉ bytes!"Content-Length: " ++ (natDec text.length).map UInt8.ofNat := by
    intro h
    rcases List.mem_append.mp h with h | h
    · revert h; decide
    · obtain ⟨c, hc, e⟩ := List.mem_map.mp h
      have := natDec_digits _ c hc
      simp only [isDig, decide_eq_true_eq] at this
      have e' := congrArg UInt8.toNat e
      rw [ofNat_toNat8 c (by omega)] at e'
      have : (13 : UInt8).toNat = 13 := rfl
      omega
  have := findSub_head (13 : UInt8) bytes!"\n\r\n" (bytes!"Content-Length: " ++ (natDec text.length).map UInt8.ofNat)
    (text.map UInt8.ofNat ++ rest) h13
  rw [← this]; simp only [frameOf, List.append_assoc, List.cons_append, List.nil_append]

theorem take_frame (text : Str) (rest : Bytes) :
    (frameOf text ++ rest).take (bytes!"Content-Length: " ++ (natDec text.length).map UInt8.ofNat).length =
      bytes!"Content-Length: " ++ (natDec text.length).map UInt8.ofNat := by
  unfold frameOf
  rw [List.append_assoc, List.append_assoc]
  exact List.take_left' rfl

theorem contentLength_frame (text : Str) (rest : Bytes) :
    contentLength ((frameOf text ++ rest).take (bytes!"Content-Length: " ++ (natDec text.length).map UInt8.ofNat).length) =
      .ok (text.length : Int) := by
  rw [take_frame, contentLength_iff]; exact announces_header _

theorem frameOf_length (text : Str) : (frameOf text).length =
    (bytes!"Content-Length: " ++ (natDec text.length).map UInt8.ofNat).length + 4 + text.length := by
  simp [frameOf]; omega

/-- Taking one frame off the front. -/
theorem nextMessage_frame (feq) (c : Conn) (text : Str) (rest : Bytes) (hb : c.inBuf = frameOf text ++ rest) :
    nextMessage feq c = match decodeMsg (text.map UInt8.ofNat) with
      | .error e => (.error e, { c with inBuf := rest })
      | .ok v => if seqIs feq v c.seqIn then (.ok (some v), { c with inBuf := rest, seqIn := c.seqIn + 1 })
                 else (.error .value, { c with inBuf := rest, seqIn := c.seqIn + 1 }) := by
  unfold nextMessage
  rw [hb, find_frame]
  simp only [contentLength_frame]
  have hlen := frameOf_length text
  generalize hH : (bytes!"Content-Length: " ++ (natDec text.length).map UInt8.ofNat).length = H at hlen ⊢
  have hnl : ¬ (((frameOf text ++ rest).length : Int) - ((H : Int) + 4) < (text.length : Int)) := by
    simp only [List.length_append]; omega
  have hs : slice (frameOf text ++ rest) ((H : Int) + 4) ((H : Int) + 4 + (text.length : Int)) = text.map UInt8.ofNat := by
    rw [show (H : Int) + 4 = ((H + 4 : Nat) : Int) by omega, show ((H + 4 : Nat) : Int) + (text.length : Int) = ((H + 4 + text.length : Nat) : Int) by omega]
    unfold slice
    rw [sliceBound_nonneg, sliceBound_nonneg, Nat.min_eq_left (by simp only [List.length_append]; omega),
      Nat.min_eq_left (by simp only [List.length_append]; omega), ← hlen, List.take_left' rfl]
    unfold frameOf
    apply List.drop_left'
    rw [List.length_append, hH]; rfl
  have hf : sliceFrom (frameOf text ++ rest) ((H : Int) + 4 + (text.length : Int)) = rest := by
    rw [show (H : Int) + 4 + (text.length : Int) = ((H + 4 + text.length : Nat) : Int) by omega]
    unfold sliceFrom
    rw [sliceBound_nonneg, Nat.min_eq_left (by simp only [List.length_append]; omega), ← hlen]
    exact List.drop_left' rfl
  simp only [hnl, if_false, hs, hf]
  cases decodeMsg (text.map UInt8.ofNat) <;> rfl

/-! ## Sequence numbers of instances -/

theorem seq_fields : (allCls.all fun c => c.kind?.isNone || (c.fields.all fun f => f.name != py!"seq" || (match f.ann with | .int => true | _ => false))
    && (c.fields.any fun f => f.name == py!"seq")) = true := by decide +kernel

theorem seq_field (c : Cls) (hk : c.kind? ≠ none) : (∀ f ∈ c.fields, f.name = py!"seq" → f.ann = .int) ∧ py!"seq" ∈ c.fields.map (·.name) := by
  have := List.all_eq_true.mp seq_fields c (mem_allCls c)
  have hn : c.kind?.isNone = false := by cases h : c.kind? <;> simp_all
  simp only [hn, Bool.false_or, Bool.and_eq_true, List.all_eq_true, List.any_eq_true, Bool.or_eq_true, bne_iff_ne, beq_iff_eq] at this
  refine ⟨?_, ?_⟩
  · intro f hf e
    rcases this.1 f hf with h | h
    · exact absurd e h
    · split at h
      · assumption
      · cases h
  · obtain ⟨f, hf, e⟩ := this.2
    exact List.mem_map.mpr ⟨f, hf, e⟩

theorem set_map (fs : List Field) (val : Str → Val) (a : Str) (x : Val) (hn : (fs.map (·.name)).Nodup) (ha : a ∈ fs.map (·.name)) :
    Dict.set (fs.map fun f => (f.name, val f.name)) a x = fs.map fun f => (f.name, if f.name = a then x else val f.name) := by
  induction fs with
  | nil => simp at ha
  | cons f fs ih =>
    simp only [List.map_cons, List.nodup_cons] at hn
    simp only [List.map_cons, Dict.set]
    by_cases hf : f.name = a
    · simp only [hf, if_true]
      congr 1
      apply List.map_congr_left
      intro g hg
      have : g.name ≠ a := by
        intro e; apply hn.1; rw [hf, ← e]; exact List.mem_map.mpr ⟨g, hg, rfl⟩
      simp [this]
    · simp only [hf, if_false]
      rw [ih hn.2]
      simp only [List.map_cons, List.mem_cons] at ha
      rcases ha with ha | ha
      · exact absurd ha.symm hf
      · exact ha

theorem setSeq_eq (c : Cls) (hk : c.kind? ≠ none) (val : Str → Val) (n : Nat) :
    setSeq (.obj c (c.fields.map fun f => (f.name, val f.name))) n =
      .obj c (c.fields.map fun f => (f.name, if f.name = py!"seq" then .int n else val f.name)) := by
  simp only [setSeq]
  rw [set_map _ _ _ _ (fields_nodup c) (seq_field c hk).2]

theorem instance_setSeq (c : Cls) (v : Val) (hk : c.kind? ≠ none) (h : Instance c v) (n : Nat) : Instance c (setSeq v n) := by
  cases h with
  | obj c val hty hfix =>
    rw [setSeq_eq c hk]
    refine Typed.obj c (fun a => if a = py!"seq" then .int n else val a) ?_ ?_
    · intro f hf
      split
      · rename_i e; rw [(seq_field c hk).1 f hf e]; exact .int _
      · exact hty f hf
    · intro f hf w hw
      split
      · rename_i e; simp [fixedVal, e] at hw
      · exact hfix f hf w hw

theorem okA_iff (l : List (Str × Val)) : Val.OkA l ↔ ∀ kv ∈ l, kv.2.Ok := by
  induction l with
  | nil => simp [Val.OkA]
  | cons x l ih => obtain ⟨k, v⟩ := x; simp [Val.OkA, ih]

theorem ok_setSeq (v : Val) (h : v.Ok) (n : Nat) : (setSeq v n).Ok := by
  cases v with
  | obj c attrs =>
    simp only [setSeq, Val.Ok] at h ⊢
    rw [okA_iff] at h ⊢
    intro kv hkv
    rcases Dict.mem_set _ _ _ _ hkv with rfl | hm
    · simp [Val.Ok]
    · exact h kv hm
  | _ => simpa [setSeq] using h

theorem attr_setSeq (v : Val) (n : Nat) (a : Str) (ha : a ≠ py!"seq") : (setSeq v n).attr? a = v.attr? a := by
  cases v with
  | obj c attrs =>
    simp only [setSeq, Val.attr?, Dict.get?_set]
    rw [if_neg (fun e => ha e.symm)]
  | _ => rfl

theorem seq_setSeq (c : Cls) (attrs : List (Str × Val)) (n : Nat) : (setSeq (.obj c attrs) n).attr? py!"seq" = some (.int n) := by
  simp only [setSeq, Val.attr?, Dict.get?_set, if_true]

end Verif.Conn
