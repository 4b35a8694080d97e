import Verif.Transport.Spec

namespace Verif.Transport
open Verif

theorem recvInto_spec (n : Nat) (hn : n ≠ 0) (es : List Ev) :
    (arriving es = [] ∧ recvInto n es = (match ending es with | none => .ok [] | some e => .error e, es)) ∨
    (∃ b bs es', recvInto n es = (.ok (b :: bs), es') ∧ arriving es = b :: bs ++ arriving es' ∧ ending es' = ending es ∧
      (b :: bs).length ≤ n) := by
  cases es with
  | nil => left; exact ⟨rfl, rfl⟩
  | cons e es =>
    cases e with
    | cancel => left; exact ⟨rfl, rfl⟩
    | reset => left; exact ⟨rfl, rfl⟩
    | data c cs =>
      right
      simp only [recvInto]
      split
      · rename_i hd
        refine ⟨c, cs, es, rfl, rfl, rfl, ?_⟩
        have := congrArg List.length hd
        simp only [List.length_drop, List.length_nil] at this
        omega
      · rename_i r rs hd
        cases n with
        | zero => exact absurd rfl hn
        | succ n =>
          refine ⟨c, cs.take n, .data r rs :: es, rfl, ?_, rfl, ?_⟩
          · simp only [arriving]
            rw [← hd]
            simp only [List.drop_succ_cons, List.cons_append]
            rw [← List.append_assoc, List.take_append_drop]
          · simp only [List.length_cons, List.length_take]; omega

/-- What `recv(n)` does, in terms of the bytes that arrive. -/
theorem recvLoop_spec (n : Nat) (es : List Ev) :
    (n ≤ (arriving es).length ∧ ∃ es', recvLoop n es = (.ok ((arriving es).take n), es') ∧
      arriving es' = (arriving es).drop n ∧ ending es' = ending es) ∨
    ((arriving es).length < n ∧ ∃ es', recvLoop n es = ((match ending es with | none => .ok (arriving es) | some e => .error e), es') ∧
      arriving es' = [] ∧ ending es' = ending es) := by
  induction hw : weight es using Nat.strongRecOn generalizing n es with
  | _ w ih =>
    rw [recvLoop]
    by_cases hn : n = 0
    · left; subst hn; exact ⟨Nat.zero_le _, es, rfl, rfl, rfl⟩
    · rw [if_neg hn]
      rcases recvInto_spec n hn es with ⟨ha, hr⟩ | ⟨b, bs, es', hr, ha, he, hl⟩
      · right
        refine ⟨by rw [ha]; simp; omega, es, ?_, ha, rfl⟩
        split
        · rename_i h; rw [hr] at h; cases hend : ending es <;> rw [hend] at h <;> simp_all
        · rename_i h; rw [hr] at h; cases hend : ending es <;> rw [hend] at h <;> simp_all
        · rename_i h; rw [hr] at h; cases hend : ending es <;> rw [hend] at h <;> simp_all
      · have hlt := recvInto_weight hr
        rw [hw] at hlt
        have := ih _ hlt (n - (b :: bs).length) es' rfl
        split
        · rename_i h; rw [hr] at h; cases h
        · rename_i h; rw [hr] at h; cases h
        · rename_i h
          rw [hr] at h
          cases h
          have hlen : (arriving es).length = (b :: bs).length + (arriving es').length := by rw [ha]; simp; omega
          rcases this with ⟨h1, es'', h2, h3, h4⟩ | ⟨h1, es'', h2, h3, h4⟩
          · left
            rw [h2]
            refine ⟨by omega, es'', ?_, ?_, by rw [h4, he]⟩
            · simp only
              rw [ha, List.take_append, List.take_of_length_le hl]
            · rw [h3, ha, List.drop_append, List.drop_of_length_le hl, List.nil_append]
          · right
            rw [h2]
            refine ⟨by omega, es'', ?_, h3, by rw [h4, he]⟩
            rw [he]
            cases ending es with
            | none => simp only; rw [ha]
            | some e => rfl

theorem fromBytes_toBytes4 (n : Nat) (b : Bytes) (h : toBytes4 n = some b) : fromBytes b = n ∧ b.length = 4 := by
  unfold toBytes4 at h
  split at h
  · simp only [Option.some.injEq] at h
    subst h
    refine ⟨?_, rfl⟩
    have e : ∀ k, (UInt8.ofNat (k % 256)).toNat = k % 256 := by intro k; simp
    simp only [fromBytes, e]
    omega
  · simp at h

theorem send_ok {M : Type} (cd : Codec M) (m : M) (b : Bytes) (h : send cd m = .ok b) :
    ∃ len, b = len ++ cd.dumps m ∧ len.length = 4 ∧ fromBytes len = (cd.dumps m).length := by
  unfold send at h
  split at h
  · simp at h
  · rename_i len hl
    simp only [Except.ok.injEq] at h
    exact ⟨len, h.symm, (fromBytes_toBytes4 _ _ hl).2, (fromBytes_toBytes4 _ _ hl).1⟩

variable {M : Type}

/-- Reading one complete message. -/
theorem handler_msg (cd : Codec M) (onMsg : Nat → M → Option PyErr) (k : Nat) (es : List Ev) (m : M) (b rest : Bytes)
    (hs : send cd m = .ok b) (ha : arriving es = b ++ rest) :
    ∃ es', arriving es' = rest ∧ ending es' = ending es ∧
      recvHandler cd onMsg k es = match onMsg k m with
        | some .cancelled => [.msg m, .closed none]
        | some e => [.msg m, .closed (some e)]
        | none => .msg m :: recvHandler cd onMsg (k + 1) es' := by
  obtain ⟨len, rfl, hl4, hfb⟩ := send_ok cd m b hs
  have hlen : (arriving es).length = 4 + (cd.dumps m).length + rest.length := by rw [ha]; simp [hl4]; omega
  rcases recvLoop_spec 4 es with ⟨-, es1, h1, h2, h3⟩ | ⟨hlt, -⟩
  · rw [ha] at h1 h2
    rw [List.append_assoc, List.take_left' hl4] at h1
    rw [List.append_assoc, List.drop_left' hl4] at h2
    rcases recvLoop_spec (fromBytes len) es1 with ⟨-, es2, g1, g2, g3⟩ | ⟨hlt, -⟩
    · rw [h2, hfb] at g1 g2
      rw [List.take_left' rfl] at g1
      rw [List.drop_left' rfl] at g2
      refine ⟨es2, g2, by rw [g3, h3], ?_⟩
      match len, hl4, h1, hfb, g1 with
      | c :: cs, hl4, h1, hfb, g1 =>
        have h1' : recv 4 es = (.ok (c :: cs), es1) := h1
        have g1' : recv (fromBytes (c :: cs)) es1 = (.ok (cd.dumps m), es2) := by rw [hfb]; exact g1
        conv => lhs; rw [recvHandler]
        split
        · rename_i h; rw [h1'] at h; cases h
        · rename_i h; rw [h1'] at h; cases h
        · rename_i h; rw [h1'] at h; cases h
        · rename_i h; rw [h1'] at h; cases h
          split
          · rename_i h; rw [g1'] at h; cases h
          · rename_i h; rw [g1'] at h; cases h
          · rename_i h; rw [g1'] at h; cases h
            rw [cd.loads_dumps]
            rfl
    · rw [h2, hfb] at hlt; simp at hlt; omega
  · omega

/-- The handler when only a proper initial part of a message arrives. -/
theorem handler_partial (cd : Codec M) (onMsg : Nat → M → Option PyErr) (k : Nat) (es : List Ev) (m : M) (b rest : Bytes)
    (hs : send cd m = .ok b) (hr : rest ≠ []) (ha : b = arriving es ++ rest) :
    recvHandler cd onMsg k es = match ending es with
      | some .cancelled => [.closed none]
      | some e => [.closed (some e)]
      | none => if arriving es = [] then [.closed none] else
          match cd.loads ((arriving es).drop 4) with
          | .error e => [.closed (some e)]
          | .ok _ => [] := by
  obtain ⟨len, rfl, hl4, hfb⟩ := send_ok cd m b hs
  obtain ⟨e0, he0⟩ := cd.loads_nil
  rcases recvLoop_spec 4 es with ⟨hge, es1, h1, h2, h3⟩ | ⟨hlt, es1, h1, h2, h3⟩
  · -- the header is complete
    have htake : (arriving es).take 4 = len := by
      have := congrArg (List.take 4) ha
      rw [List.take_left' hl4, List.take_append_of_le_length hge] at this
      exact this.symm
    have hdrop : cd.dumps m = (arriving es).drop 4 ++ rest := by
      have := congrArg (List.drop 4) ha
      rw [List.drop_left' hl4, List.drop_append_of_le_length hge] at this
      exact this
    have hshort : (arriving es1).length < fromBytes len := by
      rw [h2, hfb, hdrop]
      have : rest.length ≠ 0 := fun h => hr (List.length_eq_zero_iff.mp h)
      simp only [List.length_append]; omega
    obtain ⟨e1, he1⟩ := cd.loads_short m _ _ hdrop hr
    rcases recvLoop_spec (fromBytes len) es1 with ⟨hge', -⟩ | ⟨-, es2, g1, g2, g3⟩
    · omega
    · rw [htake] at h1
      match len, hl4, h1, hfb, g1 with
      | c :: cs, hl4, h1, hfb, g1 =>
        have hne : arriving es ≠ [] := by
          intro h; rw [h] at htake; simp at htake
        have h1' : recv 4 es = (.ok (c :: cs), es1) := h1
        rw [h3, h2] at g1
        conv => lhs; rw [recvHandler]
        split
        · rename_i h; rw [h1'] at h; cases h
        · rename_i h; rw [h1'] at h; cases h
        · rename_i h; rw [h1'] at h; cases h
        · rename_i h; rw [h1'] at h; cases h
          cases hend : ending es with
          | none =>
            rw [hend] at g1
            have g1' : recv (fromBytes (c :: cs)) es1 = (.ok ((arriving es).drop 4), es2) := g1
            simp only [hne, if_false]
            split
            · rename_i h; rw [g1'] at h; cases h
            · rename_i h; rw [g1'] at h; cases h
            · rename_i h; rw [g1'] at h; cases h
              rw [he1]
          | some e =>
            rw [hend] at g1
            have g1' : recv (fromBytes (c :: cs)) es1 = (.error e, es2) := g1
            split
            · rename_i h; rw [g1'] at h; cases h; rfl
            · rename_i hx h; rw [g1'] at h; cases h
              cases e <;> first | rfl | exact (hx _ rfl).elim | exact (hx rfl).elim
            · rename_i h; rw [g1'] at h; cases h
  · -- not even the header
    cases hend : ending es with
    | some e =>
      rw [hend] at h1
      have h1' : recv 4 es = (.error e, es1) := h1
      rw [recvHandler]
      split
      · rename_i h; rw [h1'] at h; cases h; rfl
      · rename_i hx h; rw [h1'] at h; cases h
        cases e <;> first | rfl | exact (hx _ rfl).elim | exact (hx rfl).elim
      · rename_i h; rw [h1'] at h; cases h
      · rename_i h; rw [h1'] at h; cases h
    | none =>
      rw [hend] at h1
      simp only at h1
      cases har : arriving es with
      | nil =>
        rw [har] at h1
        have h1' : recv 4 es = (.ok [], es1) := h1
        simp only [if_true]
        rw [recvHandler]
        split
        · rename_i h; rw [h1'] at h; try cases h
        · rename_i h; rw [h1'] at h; cases h
        · rfl
        · rename_i h; rw [h1'] at h; cases h
      | cons c cs =>
        rw [har] at h1 hlt
        have h1' : recv 4 es = (.ok (c :: cs), es1) := h1
        have g1' : ∃ es2, recv (fromBytes (c :: cs)) es1 = (.ok [], es2) := by
          rcases recvLoop_spec (fromBytes (c :: cs)) es1 with ⟨hge, es2, g1, -, -⟩ | ⟨-, es2, g1, -, -⟩
          · rw [h2] at g1; exact ⟨es2, by simpa [recv] using g1⟩
          · rw [h3, hend, h2] at g1; exact ⟨es2, g1⟩
        obtain ⟨es2, g1'⟩ := g1'
        have hd : (c :: cs).drop 4 = [] := by rw [List.drop_eq_nil_iff]; omega
        simp only [reduceCtorEq, if_false, hd, he0]
        rw [recvHandler]
        split
        · rename_i h; rw [h1'] at h; cases h
        · rename_i h; rw [h1'] at h; cases h
        · rename_i h; rw [h1'] at h; cases h
        · rename_i h; rw [h1'] at h; cases h
          split
          · rename_i h; rw [g1'] at h; cases h
          · rename_i h; rw [g1'] at h; cases h
          · rename_i h; rw [g1'] at h; cases h
            rw [he0]

end Verif.Transport
