import Verif.Conn.Header
/-! # Streams of frames (proofs only) -/

namespace Verif.Conn
open Verif Verif.Dap

/-! ## Prefix stability -/

/-- The header found (if any) is not more negative than itself. -/
def HdrOk (s : Bytes) : Prop :=
  ∀ i n, findSub bytes!"\r\n\r\n" s = some i → contentLength (s.take i) = .ok n → 0 ≤ (i : Int) + 4 + n

theorem slice_prefix (l m : Bytes) (a b : Nat) (hb : b ≤ l.length) : slice (l ++ m) a b = slice l a b := by
  unfold slice
  rw [sliceBound_nonneg, sliceBound_nonneg, sliceBound_nonneg, sliceBound_nonneg]
  by_cases ha : a ≤ l.length
  · rw [Nat.min_eq_left hb, Nat.min_eq_left ha, Nat.min_eq_left (by simp; omega), Nat.min_eq_left (by simp; omega),
      List.take_append_of_le_length hb]
  · rw [Nat.min_eq_left hb, Nat.min_eq_left (by simp; omega : b ≤ (l ++ m).length), List.take_append_of_le_length hb]
    rw [List.drop_eq_nil_of_le, List.drop_eq_nil_of_le]
    · simp; omega
    · simp; omega

theorem sliceFrom_prefix (l m : Bytes) (a : Nat) (ha : a ≤ l.length) : sliceFrom (l ++ m) a = sliceFrom l a ++ m := by
  unfold sliceFrom
  rw [sliceBound_nonneg, sliceBound_nonneg, Nat.min_eq_left ha, Nat.min_eq_left (by simp; omega), List.drop_append_of_le_length ha]

theorem nextMessage_prefix (feq) (c : Conn) (m : Bytes) (hok : HdrOk c.inBuf)
    (h : (nextMessage feq c).1 ≠ .ok none) :
    nextMessage feq { c with inBuf := c.inBuf ++ m } =
      ((nextMessage feq c).1, { (nextMessage feq c).2 with inBuf := (nextMessage feq c).2.inBuf ++ m }) := by
  unfold nextMessage at h ⊢
  cases hf : findSub bytes!"\r\n\r\n" c.inBuf with
  | none => simp [hf] at h
  | some i =>
    have hb := findSub_bound _ _ _ hf
    simp only [List.length_cons, List.length_nil] at hb
    simp only [hf, findSub_prefix _ _ m i hf] at h ⊢
    have ht : (c.inBuf ++ m).take i = c.inBuf.take i := List.take_append_of_le_length (by omega)
    rw [ht]
    cases hc : contentLength (c.inBuf.take i) with
    | error e => simp only
    | ok n =>
      simp only [hc] at h ⊢
      have hpos := hok i n hf hc
      by_cases hl : (c.inBuf.length : Int) - ((i : Int) + 4) < n
      · simp [hl] at h
      · have hl' : ¬ (((c.inBuf ++ m).length : Int) - ((i : Int) + 4) < n) := by simp; omega
        simp only [hl, hl', if_false]
        obtain ⟨k, hk⟩ : ∃ k : Nat, (i : Int) + 4 + n = (k : Int) := ⟨((i : Int) + 4 + n).toNat, by omega⟩
        have hkl : k ≤ c.inBuf.length := by omega
        rw [hk, show (i : Int) + 4 = ((i + 4 : Nat) : Int) by omega, slice_prefix _ _ _ _ hkl, sliceFrom_prefix _ _ _ hkl]
        cases decodeMsg (slice c.inBuf ((i + 4 : Nat) : Int) (k : Int)) with
        | error e => rfl
        | ok v =>
          simp only
          split <;> rfl

/-! ## Draining -/

theorem decodeMsg_nil : decodeMsg [] = .error .value := rfl

/-- A returned message was cut off the front of the buffer. -/
theorem nextMessage_some (feq) (c c' : Conn) (v : Val) (hok : HdrOk c.inBuf)
    (h : nextMessage feq c = (.ok (some v), c')) :
    ∃ i n k : Nat, findSub bytes!"\r\n\r\n" c.inBuf = some i ∧ contentLength (c.inBuf.take i) = .ok (n : Int) ∧
      k = i + 4 + n ∧ 0 < n ∧ k ≤ c.inBuf.length ∧ c'.inBuf = c.inBuf.drop k ∧ c'.seqIn = c.seqIn + 1 ∧
      seqIs feq v c.seqIn = true := by
  unfold nextMessage at h
  cases hf : findSub bytes!"\r\n\r\n" c.inBuf with
  | none => simp [hf] at h
  | some i =>
    have hb := findSub_bound _ _ _ hf
    simp only [List.length_cons, List.length_nil] at hb
    simp only [hf] at h
    cases hc : contentLength (c.inBuf.take i) with
    | error e => simp [hc] at h
    | ok n =>
      simp only [hc] at h
      have hpos := hok i n hf hc
      by_cases hl : (c.inBuf.length : Int) - ((i : Int) + 4) < n
      · simp [hl] at h
      · simp only [hl, if_false] at h
        obtain ⟨k, hk⟩ : ∃ k : Nat, (i : Int) + 4 + n = (k : Int) := ⟨((i : Int) + 4 + n).toNat, by omega⟩
        have hkl : k ≤ c.inBuf.length := by omega
        rw [hk] at h
        have hn : 0 < n := by
          rcases Int.lt_or_le 0 n with h0 | h0
          · exact h0
          · exfalso
            have : slice c.inBuf ((i : Int) + 4) (k : Int) = [] := by
              rw [show (i : Int) + 4 = ((i + 4 : Nat) : Int) by omega]
              unfold slice
              rw [sliceBound_nonneg, sliceBound_nonneg]
              apply List.drop_eq_nil_of_le
              simp; omega
            rw [this, decodeMsg_nil] at h
            simp at h
        obtain ⟨m, rfl⟩ : ∃ m : Nat, n = (m : Int) := ⟨n.toNat, by omega⟩
        refine ⟨i, m, k, rfl, hc, by omega, by omega, hkl, ?_⟩
        split at h
        · simp at h
        · split at h
          · rename_i v' _ hs
            simp only [Prod.mk.injEq, Except.ok.injEq, Option.some.injEq] at h
            obtain ⟨h1, h2⟩ := h
            subst h1; subst h2
            refine ⟨?_, rfl, hs⟩
            simp only [sliceFrom]
            rw [sliceBound_nonneg, Nat.min_eq_left hkl]
          · simp at h

/-- Polling until None or an exception. -/
def drain (feq : Str → Nat → Bool) (c : Conn) : List (Except PyErr Val) :=
  match nextMessage feq c with
  | (.ok none, _) => []
  | (.ok (some v), c') => if _h : c'.inBuf.length < c.inBuf.length then .ok v :: drain feq c' else []
  | (.error e, _) => [.error e]
termination_by c.inBuf.length

theorem drain_some (feq) (c c' : Conn) (v : Val) (hok : HdrOk c.inBuf)
    (h : nextMessage feq c = (.ok (some v), c')) : drain feq c = .ok v :: drain feq c' := by
  obtain ⟨i, n, k, h1, h2, h3, h4, h5, h6, -⟩ := nextMessage_some feq c c' v hok h
  rw [drain, h]
  have : c'.inBuf.length < c.inBuf.length := by rw [h6]; simp; omega
  simp only [this, dite_true]

theorem drain_none (feq) (c c' : Conn) (h : nextMessage feq c = (.ok none, c')) : drain feq c = [] := by
  rw [drain, h]

theorem drain_error (feq) (c c' : Conn) (e : PyErr) (h : nextMessage feq c = (.error e, c')) : drain feq c = [.error e] := by
  rw [drain, h]

theorem nextMessage_none_state (feq) (c : Conn) (h : (nextMessage feq c).1 = .ok none) : (nextMessage feq c).2 = c := by
  unfold nextMessage at h ⊢
  split
  · rfl
  · rename_i i hi
    simp only [hi] at h
    split
    · rename_i e he; simp [he] at h
    · rename_i n hn
      simp only [hn] at h
      by_cases hl : (c.inBuf.length : Int) - ((i : Int) + 4) < n
      · simp only [hl, if_true]
      · simp only [hl, if_false] at h ⊢
        split
        · rename_i e he; simp [he] at h
        · rename_i v hv
          simp only [hv] at h
          split at h <;> simp at h

/-- A property of streams that is kept when a frame is taken off, and that makes headers sane. -/
def Stable (Q : Bytes → Prop) : Prop :=
  ∀ s, Q s → HdrOk s ∧ ∀ i n k : Nat, findSub bytes!"\r\n\r\n" s = some i → contentLength (s.take i) = .ok (n : Int) →
    k = i + 4 + n → k ≤ s.length → Q (s.drop k)

theorem hdrOk_prefix (s m : Bytes) (h : HdrOk (s ++ m)) : HdrOk s := by
  intro i n hi hn
  refine h i n (findSub_prefix _ _ m i hi) ?_
  have := findSub_bound _ _ _ hi
  rw [List.take_append_of_le_length (by omega)]; exact hn

/-- The error flag of a list of results. -/
def hasErr (rs : List (Except PyErr (Option Val))) : Bool := rs.any fun r => match r with | .error _ => true | _ => false

/-- What any history shows, followed by what polling on would show, is what the whole
stream yields in one piece. -/
theorem run_drain (feq) (Q : Bytes → Prop) (hQ : Stable Q) (ops : List RecvOp) (c : Conn)
    (h : Q (c.inBuf ++ received ops)) :
    outcome (runRecv feq c ops).1 ++ (bif hasErr (runRecv feq c ops).1 then [] else drain feq (runRecv feq c ops).2) =
      drain feq { c with inBuf := c.inBuf ++ received ops } := by
  induction ops generalizing c with
  | nil => simp [runRecv, outcome, hasErr, received]
  | cons op ops ih =>
    cases op with
    | recv d =>
      simp only [runRecv, received] at h ⊢
      have := ih (receiveData c d) (by simpa [receiveData] using h)
      rw [this]; simp [receiveData]
    | poll =>
      simp only [runRecv, received] at h ⊢
      have hH := hdrOk_prefix _ _ (hQ _ h).1
      cases hr : nextMessage feq c with
      | mk r c' =>
        cases r with
        | error e =>
          have hp := nextMessage_prefix feq c (received ops) hH (by rw [hr]; simp)
          rw [hr] at hp
          rw [drain_error _ _ _ _ hp]
          simp [outcome, hasErr]
        | ok o =>
          cases o with
          | none =>
            have hs := nextMessage_none_state feq c (by rw [hr])
            rw [hr] at hs
            simp only at hs; subst hs
            have := ih c' h
            simp only [outcome, hasErr, List.any_cons, Bool.false_or] at this ⊢
            exact this
          | some v =>
            have hp := nextMessage_prefix feq c (received ops) hH (by rw [hr]; simp)
            rw [hr] at hp
            rw [drain_some _ _ _ _ (hQ _ h).1 hp]
            obtain ⟨i, n, k, h1, h2, h3, h4, h5, h6, h7, -⟩ := nextMessage_some feq c c' v hH hr
            have hq' : Q (c'.inBuf ++ received ops) := by
              have := (hQ _ h).2 i n k (findSub_prefix _ _ _ _ h1) (by
                rw [List.take_append_of_le_length (by omega)]; exact h2) h3 (by simp; omega)
              rwa [List.drop_append_of_le_length h5, ← h6] at this
            have := ih c' hq'
            simp only [outcome, hasErr, List.any_cons, Bool.false_or, List.cons_append] at this ⊢
            rw [this]

theorem runRecv_append (feq) (c : Conn) (a b : List RecvOp) :
    runRecv feq c (a ++ b) = ((runRecv feq c a).1 ++ (runRecv feq (runRecv feq c a).2 b).1, (runRecv feq (runRecv feq c a).2 b).2) := by
  induction a generalizing c with
  | nil => rfl
  | cons op a ih => cases op <;> simp [runRecv, ih]

theorem settled_drain (feq) (c : Conn) (ops : List RecvOp) (h : Settled feq c ops) :
    (bif hasErr (runRecv feq c ops).1 then [] else drain feq (runRecv feq c ops).2) = [] := by
  rcases h with ⟨e, he⟩ | ⟨ops', rfl, hn⟩
  · have : hasErr (runRecv feq c ops).1 = true := by
      unfold hasErr; rw [List.any_eq_true]; exact ⟨_, he, rfl⟩
    simp [this]
  · cases hasErr (runRecv feq c (ops' ++ [.poll])).1 with
    | true => rfl
    | false =>
      rw [runRecv_append]
      simp only [runRecv, cond_false]
      rw [nextMessage_none_state _ _ hn]
      exact drain_none _ _ _ (by rw [Prod.ext_iff]; exact ⟨hn, rfl⟩)

theorem settled_outcome (feq) (Q : Bytes → Prop) (hQ : Stable Q) (ops : List RecvOp) (c : Conn)
    (h : Q (c.inBuf ++ received ops)) (hs : Settled feq c ops) :
    outcome (runRecv feq c ops).1 = drain feq { c with inBuf := c.inBuf ++ received ops } := by
  rw [← run_drain feq Q hQ ops c h, settled_drain feq c ops hs, List.append_nil]

end Verif.Conn
