import Verif.Conn.Frames
/-! # Transportable messages on the wire (proofs only) -/

namespace Verif.Conn
open Verif Verif.Dap Verif.Props.Dap

/-- A message the protocol can carry: a well-typed instance of a concrete message class with
transportable text, outside the exceptions of C09. -/
def Wire (m : Val) : Prop := ∃ c, Instance c m ∧ c.kind? ≠ none ∧ m.Ok ∧ Exact c m

theorem exact_setSeq (c : Cls) (v : Val) (n : Nat) (h : Exact c v) : Exact c (setSeq v n) := by
  unfold Exact at *
  rw [attr_setSeq v n _ (by decide), attr_setSeq v n _ (by decide)]
  exact h

theorem wire_floats (m : Val) (h : Wire m) (k : Nat) : (toJson (setSeq m k)).FloatsOk := by
  obtain ⟨c, h1, h2, h3, h4⟩ := h
  exact Json.WF.floatsOk _ (toJson_wf _ (ok_setSeq m h3 k))

theorem wire_decode (m : Val) (h : Wire m) (k : Nat) :
    decodeMsg ((dumps (toJson (setSeq m k))).map UInt8.ofNat) = .ok (setSeq m k) := by
  obtain ⟨c, h1, h2, h3, h4⟩ := h
  have ho := ok_setSeq m h3 k
  unfold decodeMsg
  rw [utf8Decode_ascii _ (fun x hx => by have := dumps_ascii _ (Json.WF.floatsOk _ (toJson_wf _ ho)) x hx; omega)]
  simp only [loads_dumps _ (toJson_wf _ ho)]
  exact C09_unpack_pack_partial c _ (instance_setSeq c m h2 h1 k) h2 ho (exact_setSeq c m k h4)

theorem wire_seq (feq) (m : Val) (h : Wire m) (k n : Nat) : seqIs feq (setSeq m k) n = decide (k = n) := by
  obtain ⟨c, h1, h2, h3, h4⟩ := h
  cases h1 with
  | obj c val hty hfix =>
    unfold seqIs
    rw [seq_setSeq]
    simp [Int.natCast_inj]

/-- The frames of a list of messages. -/
def frames : Nat → List Val → Bytes
  | _, [] => []
  | k, m :: ms => frameOf (dumps (toJson (setSeq m k))) ++ frames (k + 1) ms

theorem frames_spec (k : Nat) (ms : List Val) (h : ∀ m ∈ ms, ∀ k, (toJson (setSeq m k)).FloatsOk) : Frames k ms (frames k ms) := by
  induction ms generalizing k with
  | nil => exact .nil k
  | cons m ms ih =>
    refine .cons (frame_frameOf _) ?_ (ih _ (fun x hx => h x (by simp [hx])))
    exact utf8Decode_ascii _ (fun x hx => by have := dumps_ascii _ (h m (by simp) k) x hx; omega)

/-! ## The byte stream determines the frames -/

theorem map_toNat_inj (a b : Bytes) (h : a.map UInt8.toNat = b.map UInt8.toNat) : a = b := by
  induction a generalizing b with
  | nil => cases b with
    | nil => rfl
    | cons _ _ => simp at h
  | cons x a ih =>
    cases b with
    | nil => simp at h
    | cons y b => simp only [List.map_cons, List.cons.injEq] at h
                  rw [UInt8.toNat_inj.mp h.1, ih b h.2]

theorem ofNat_map_toNat (b : Bytes) : (b.map UInt8.toNat).map UInt8.ofNat = b := by
  rw [List.map_map]
  conv => rhs; rw [← List.map_id b]
  apply List.map_congr_left
  intro x _
  simp

theorem frame_eq (f payload : Bytes) (h : Frame f payload) : f = frameOf (payload.map UInt8.toNat) := by
  obtain ⟨d, h1, h2⟩ := h
  unfold frameOf
  rw [ofNat_map_toNat, List.length_map, ← h2, ofNat_map_toNat]
  exact h1

theorem drain_frames (feq) (k : Nat) (ms : List Val) (h : ∀ m ∈ ms, Wire m) (c : Conn) (hk : c.seqIn = k) (hb : c.inBuf = frames k ms) :
    drain feq c = (stamped k ms).map .ok := by
  induction ms generalizing k c with
  | nil =>
    apply drain_none feq c c
    unfold nextMessage; rw [hb]; rfl
  | cons m ms ih =>
    have hw := h m (by simp)
    have hn := nextMessage_frame feq c _ _ hb
    rw [wire_decode m hw k] at hn
    simp only [wire_seq feq m hw, hk, decide_true, if_true] at hn
    have hH : HdrOk c.inBuf := by
      intro i n hi hcl
      rw [hb] at hi hcl
      simp only [frames] at hi hcl
      rw [find_frame] at hi
      cases hi
      rw [contentLength_frame] at hcl
      cases hcl
      omega
    rw [drain_some feq c _ _ hH hn]
    simp only [stamped, List.map_cons]
    congr 1
    exact ih (k + 1) (fun x hx => h x (by simp [hx])) _ (by simp) rfl

/-- Streams of frames are stable. -/
theorem stable_frames : Stable (fun s => ∃ k ms, s = frames k ms) := by
  rintro s ⟨k, ms, rfl⟩
  cases ms with
  | nil =>
    refine ⟨?_, ?_⟩
    · intro i n hi; cases hi
    · intro i n k hi; cases hi
  | cons m ms =>
    simp only [frames]
    refine ⟨?_, ?_⟩
    · intro i n hi hcl
      rw [find_frame] at hi
      cases hi
      rw [contentLength_frame] at hcl
      cases hcl
      omega
    · intro i n kk hi hcl hkk hle
      rw [find_frame] at hi
      cases hi
      rw [contentLength_frame] at hcl
      simp only [Except.ok.injEq, Int.natCast_inj] at hcl
      subst hcl
      have := frameOf_length (dumps (toJson (setSeq m k)))
      rw [← this] at hkk
      subst hkk
      rw [List.drop_left' rfl]
      exact ⟨k + 1, ms, rfl⟩

/-! ## Sending -/

theorem dataToSend_eq (c : Conn) (n : Int) : (dataToSend c n).1 ++ (dataToSend c n).2.outBuf = c.outBuf ∧
    (dataToSend c n).2.seqOut = c.seqOut := by
  unfold dataToSend
  exact ⟨sliceTo_append_sliceFrom _ _, rfl⟩

seal queueMsg
theorem runSend_queue (c : Conn) (m : Val) (ops) : runSend c (.queue m :: ops) = runSend (queueMsg c m).2 ops := rfl
theorem runSend_send (c : Conn) (n : Int) (ops) : runSend c (.send n :: ops) =
    ((dataToSend c n).1 ++ (runSend (dataToSend c n).2 ops).1, (runSend (dataToSend c n).2 ops).2) := rfl

theorem runSend_frames (ops : List SendOp) (c : Conn) (h : ∀ m ∈ queued ops, ∀ k, (toJson (setSeq m k)).FloatsOk) :
    (runSend c ops).1 ++ (runSend c ops).2.outBuf = c.outBuf ++ frames c.seqOut (queued ops) ∧
    (runSend c ops).2.seqOut = c.seqOut + (queued ops).length := by
  induction ops generalizing c with
  | nil =>
    have e1 : runSend c [] = ([], c) := rfl
    have e2 : queued [] = [] := rfl
    rw [e1, e2]
    exact ⟨by simp only [List.nil_append, frames, List.append_nil], rfl⟩
  | cons op ops ih =>
    cases op with
    | queue m =>
      have e2 : queued (.queue m :: ops) = m :: queued ops := rfl
      rw [e2] at h ⊢
      have hq := queueMsg_eq c m (h m (List.mem_cons_self ..) _)
      rw [runSend_queue, hq]
      have := ih { c with seqOut := c.seqOut + 1, outBuf := c.outBuf ++ frameOf (dumps (toJson (setSeq m c.seqOut))) }
        (fun x hx => h x (List.mem_cons_of_mem _ hx))
      refine ⟨?_, ?_⟩
      · rw [this.1, frames, List.append_assoc]
      · rw [this.2, List.length_cons]; exact (by omega : c.seqOut + 1 + (queued ops).length = c.seqOut + ((queued ops).length + 1))
    | send n =>
      have e2 : queued (.send n :: ops) = queued ops := rfl
      rw [e2] at h ⊢
      have hd := dataToSend_eq c n
      have := ih (dataToSend c n).2 h
      rw [runSend_send]
      refine ⟨?_, ?_⟩
      · rw [List.append_assoc, this.1, ← List.append_assoc, hd.1, hd.2]
      · rw [this.2, hd.2]

end Verif.Conn
