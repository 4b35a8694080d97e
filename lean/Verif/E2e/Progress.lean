import Verif.E2e.Lemmas
/-! # A session from end to end: nothing gets stuck (proofs only) -/

namespace Verif.E2e
open Verif Verif.Strat
open Verif.Dap (Cls noFlt)
open Verif.Transport (Codec Ev recv fromBytes arriving send sendAll)

/-- The bytes in one piece. -/
def pieces : Bytes → List Ev
  | [] => []
  | b :: bs => [.data b bs]

theorem arriving_pieces (x : Bytes) : arriving (pieces x) = x := by
  cases x <;> simp [pieces, arriving]

theorem run_append {cd : Codec Pkt} {feq} {s s1 s2 : Sys} {a b : List Lbl} {o1 o2 : List Obs} (h1 : run cd feq s a = some (s1, o1))
    (h2 : run cd feq s1 b = some (s2, o2)) : run cd feq s (a ++ b) = some (s2, o1 ++ o2) := by
  induction a generalizing s o1 with
  | nil => cases h1; simpa using h2
  | cons l a ih =>
    simp only [run, List.cons_append] at h1 ⊢
    split at h1
    · cases h1
    · rename_i s' o' hs
      split at h1
      · cases h1
      · rename_i s3 o3 hr
        cases h1
        rw [ih hr]
        simp

theorem run_cons {cd : Codec Pkt} {feq} {s s1 s2 : Sys} {l : Lbl} {b : List Lbl} {o1 o2 : List Obs} (h1 : step cd feq s l = some (s1, o1))
    (h2 : run cd feq s1 b = some (s2, o2)) : run cd feq s (l :: b) = some (s2, o1 ++ o2) := by
  simp only [run, h1, h2]

theorem payloads_append (a b : List Lbl) : payloads (a ++ b) = payloads a ++ payloads b := by
  induction a with
  | nil => rfl
  | cons x a ih => cases x <;> simp [payloads, ih]

theorem send_small {cd : Codec Pkt} {p : Pkt} (h : (cd.dumps p).length < 4294967296) : ∃ b, send cd p = .ok b := by
  simp only [send, Transport.toBytes4, if_pos h]
  exact ⟨_, rfl⟩

/-- The adapter takes the next complete message. -/
theorem next_some {feq} {c : Conn.Conn} {pp : List Bytes} {ms : List Dap.Val} {n : Nat} {m : Dap.Val}
    (hb : c.inBuf = pp.flatMap frame) (hs : Says feq n pp (m :: ms)) (hn : c.seqIn = n) :
    ∃ c', Conn.nextMessage feq c = (.ok (some m), c') := by
  cases hs with
  | @cons _ p m' ps ms' cl hd hq hc hi hrest =>
    have hf := Conn.nextMessage_frame feq c (p.map UInt8.toNat) (ps.flatMap frame)
      (by simp only [hb, List.flatMap_cons, frame_frameOf])
    rw [Conn.ofNat_map_toNat, hd] at hf
    simp only [hn, hq, if_true] at hf
    exact ⟨_, hf⟩

section
variable {cd : Codec Pkt} {feq : Str → Nat → Bool} {n k : Nat} {d0 : DS} {maps : List (Str × Str)}

theorem inv_step0 {said s O} (hi : Inv cd feq n k d0 maps said s O) {l : Lbl} {s' : Sys} {o : List Obs}
    (h : step cd feq s l = some (s', o)) (hl : payloads [l] = []) : Inv cd feq n k d0 maps said s' (O ++ o) := by
  have := inv_step hi h (ms := []) (by rw [hl]; exact .nil _)
  simpa using this

/-- All that the client has written can be sent on. -/
theorem forward_all {said : List Dap.Val} (hd : ∀ m ∈ said.dropLast, isDisconnect m = false) (hsm : ∀ m ∈ said, (cd.dumps (.msg m)).length < 4294967296) :
    ∀ (N : Nat) (s : Sys) (O : List Obs), Inv cd feq n k d0 maps said s O → s.stdin = [] → n + said.length - s.conn.seqIn = N →
      ∃ ls s', payloads ls = [] ∧ run cd feq s ls = some (s', []) ∧ Inv cd feq n k d0 maps said s' O ∧ s'.conn.seqIn = n + said.length ∧ s'.deb = s.deb := by
  intro N
  induction N with
  | zero =>
    intro s O hi hst hN
    refine ⟨[], s, rfl, rfl, hi, ?_, rfl⟩
    obtain ⟨done, pend, pp, dpend, outs, so, rest, relayed, upp, w⟩ := hi
    have := w.seqIn
    have hl := congrArg List.length w.split
    rw [List.length_append] at hl
    omega
  | succ N ih =>
    intro s O hi hst hN
    have hi0 := hi
    obtain ⟨done, pend, pp, dpend, outs, so, rest, relayed, upp, w⟩ := hi
    have hq := w.seqIn
    have hl := congrArg List.length w.split
    rw [List.length_append] at hl
    cases pend with
    | nil => simp at hl; omega
    | cons m pend =>
      have hm : m ∈ said := by rw [w.split]; simp
      obtain ⟨b, hb⟩ := send_small (hsm m hm)
      have hin := w.inBuf
      rw [hst, List.append_nil] at hin
      obtain ⟨c', hc'⟩ := next_some hin w.says hq
      have hact : s.active = true := by
        cases ha : s.active with
        | true => rfl
        | false =>
          obtain ⟨x, h1, h2⟩ := w.act ha
          have hx : x ∈ said.dropLast := by
            rw [w.split, List.dropLast_append_of_ne_nil (by simp)]
            simp [h1]
          rw [hd x hx] at h2
          cases h2
      have hs : step cd feq s .forward = some ({ s with conn := c', down := s.down ++ b, active := !isDisconnect m }, []) := by
        simp only [step, if_pos hact, hc', hb]
      have hi1 := inv_step0 hi0 hs rfl
      rw [List.append_nil] at hi1
      obtain ⟨pp', ms', _, _, _, h3, _, _⟩ := next_first w.inBuf w.says hq hc'
      obtain ⟨ls, s', h1, h2, h4, h5, h6⟩ := ih _ O hi1 hst (by simp only [h3]; omega)
      exact ⟨.forward :: ls, s', by simpa [payloads] using h1, run_cons hs h2, h4, h5, h6⟩

theorem handle_all (e : Wire.Env) {said : List Dap.Val} :
    ∀ (N : Nat) (s : Sys) (O : List Obs), Inv cd feq n k d0 maps said s O → s.conn.seqIn = n + said.length → 1 + said.length - (arrived (ops O)).length = N →
      ∃ ls s' O', payloads ls = [] ∧ run cd feq s ls = some (s', O') ∧ Inv cd feq n k d0 maps said s' (O ++ O') ∧
        arrived (ops (O ++ O')) = .config maps :: said.map .msg ∧ ∃ ps, ops O' = asOps e ps := by
  intro N
  induction N with
  | zero =>
    intro s O hi hst hN
    refine ⟨[], s, [], rfl, rfl, by simpa using hi, ?_, [], rfl⟩
    obtain ⟨done, pend, pp, dpend, outs, so, rest, relayed, upp, w⟩ := hi
    have h1 := w.seqIn
    have hl := congrArg List.length w.split
    have ha := congrArg List.length w.arr
    simp only [List.length_append, List.length_cons, List.length_map] at hl ha
    have hp : pend = [] := List.eq_nil_of_length_eq_zero (by omega)
    have hdp : dpend = [] := List.eq_nil_of_length_eq_zero (by omega)
    have := w.arr
    rw [List.append_nil]
    rw [hdp, List.append_nil] at this
    rw [this, w.split, hp, List.append_nil]
  | succ N ih =>
    intro s O hi hst hN
    have hi0 := hi
    obtain ⟨done, pend, pp, dpend, outs, so, rest, relayed, upp, w⟩ := hi
    have h1 := w.seqIn
    have hl := congrArg List.length w.split
    have ha := congrArg List.length w.arr
    simp only [List.length_append, List.length_cons, List.length_map] at hl ha
    cases dpend with
    | nil => simp at ha; omega
    | cons p ps =>
      have hsend := w.down
      simp only [sendAll] at hsend
      split at hsend
      · cases hsend
      · rename_i b hb
        split at hsend
        · cases hsend
        · rename_i r hr
          have hdown : b ++ r = s.down := by injection hsend
          have ht := take_msg cd (pieces s.down) p b r hb (by rw [arriving_pieces, hdown])
          have hstep : ∃ s' op, step cd feq s (.handle e (pieces s.down)) = some (s', [.op op]) ∧ s'.conn = s.conn ∧ [op] = asOps e [p] := by
            simp only [step, if_pos (arriving_pieces _), ht]
            cases p with
            | msg m => exact ⟨_, _, rfl, rfl, rfl⟩
            | config mp =>
              obtain ⟨r, hr⟩ : ∃ r, Wire.play e s.deb (.req (.config mp)) = some r := ⟨_, rfl⟩
              simp only [hr]
              exact ⟨_, _, rfl, rfl, rfl⟩
          obtain ⟨s1, op, hs, hconn, hop⟩ := hstep
          have hi1 := inv_step0 hi0 hs rfl
          have hlen : arrived (ops (O ++ [.op op])) = arrived (ops O) ++ [p] := by
            rw [ops_append, arrived_append]
            show _ ++ arrived [op] = _
            rw [hop]; cases p <;> rfl
          obtain ⟨ls, s', O', g1, g2, g3, g4, ps', g5⟩ := ih s1 _ hi1 (by rw [hconn]; exact hst) (by rw [hlen, List.length_append]; simp; omega)
          refine ⟨.handle e (pieces s.down) :: ls, s', .op op :: O', by simpa [payloads] using g1, run_cons hs g2, ?_, ?_, p :: ps', ?_⟩
          · simpa using g3
          · simpa using g4
          · show op :: ops O' = _
            rw [g5]
            have : op :: asOps e ps' = [op] ++ asOps e ps' := rfl
            rw [this, hop]
            cases p <;> rfl

/-- The send thread can empty its queue. -/
theorem send_all {said : List Dap.Val} {outs : List Dap.Val} (hsm : ∀ a ∈ outs, (cd.dumps (.msg a)).length < 4294967296) :
    ∀ (N : Nat) (s : Sys) (O : List Obs), Inv cd feq n k d0 maps said s O → direct d0 (ops O) = some (s.deb, outs) → s.sending = true → none ∉ s.queue →
      s.queue.length = N →
      ∃ ls s', payloads ls = [] ∧ run cd feq s ls = some (s', []) ∧ Inv cd feq n k d0 maps said s' O ∧ s'.deb = s.deb ∧ s'.sending = true ∧ s'.queue = [] ∧
        s'.cut = s.cut := by
  intro N
  induction N with
  | zero =>
    intro s O hi hd hs hn hN
    exact ⟨[], s, rfl, rfl, hi, rfl, hs, List.eq_nil_of_length_eq_zero hN, rfl⟩
  | succ N ih =>
    intro s O hi hd hs hn hN
    have hi0 := hi
    obtain ⟨done, pend, pp, dpend, outs', so, rest, relayed, upp, w⟩ := hi
    have ho : outs' = outs := by have := w.dir; rw [hd] at this; cases this; rfl
    subst ho
    cases hq : s.queue with
    | nil => rw [hq] at hN; cases hN
    | cons x q =>
      cases x with
      | none => exact absurd (by rw [hq]; simp) hn
      | some m =>
        have hm : m ∈ outs' := by rw [w.out, w.queue hs, hq]; simp
        obtain ⟨b, hb⟩ := send_small (hsm m hm)
        have hstep : step cd feq s .send = some ({ s with queue := q, up := s.up ++ b }, []) := by
          simp only [step, if_pos hs, hq, hb]
        have hi1 := inv_step0 hi0 hstep rfl
        rw [List.append_nil] at hi1
        rw [hq] at hN hn
        obtain ⟨ls, s', g1, g2, g3, g4, g5, g6, g7⟩ := ih { s with queue := q, up := s.up ++ b } O hi1 hd hs (fun h => hn (List.mem_cons_of_mem _ h)) (by simpa using hN)
        exact ⟨.send :: ls, s', by simpa [payloads] using g1, run_cons hstep g2, g3, g4, g5, g6, g7⟩

/-- The adapter can show all that is under way. -/
theorem relay_all {said : List Dap.Val} {outs : List Dap.Val} :
    ∀ (N : Nat) (s : Sys) (O : List Obs), Inv cd feq n k d0 maps said s O → direct d0 (ops O) = some (s.deb, outs) → s.sending = true → s.queue = [] →
      s.cut = false → k + outs.length - s.conn.seqOut = N →
      ∃ ls s', payloads ls = [] ∧ run cd feq s ls = some (s', []) ∧ Inv cd feq n k d0 maps said s' O ∧ readBy O ++ s'.stdout = Conn.frames k outs ∧ s'.deb = s.deb := by
  intro N
  induction N with
  | zero =>
    intro s O hi hd hs hq hcut hN
    refine ⟨[], s, rfl, rfl, hi, ?_, rfl⟩
    obtain ⟨done, pend, pp, dpend, outs', so, rest, relayed, upp, w⟩ := hi
    have ho : outs' = outs := by have := w.dir; rw [hd] at this; cases this; rfl
    subst ho
    have h1 := w.seqOut
    have hrest : rest = [] := by rw [w.queue hs, hq]; rfl
    have h2 := w.out
    rw [hrest, List.append_nil, w.rel] at h2
    have hl := congrArg List.length h2
    rw [List.length_append] at hl
    have hu : upp = [] := List.eq_nil_of_length_eq_zero (by omega)
    rw [hu, List.append_nil] at h2
    rw [h2]; exact w.read
  | succ N ih =>
    intro s O hi hd hs hq hcut hN
    have hi0 := hi
    obtain ⟨done, pend, pp, dpend, outs', so, rest, relayed, upp, w⟩ := hi
    have ho : outs' = outs := by have := w.dir; rw [hd] at this; cases this; rfl
    subst ho
    have h1 := w.seqOut
    have hrest : rest = [] := by rw [w.queue hs, hq]; rfl
    have h2 := w.out
    rw [hrest, List.append_nil, w.rel] at h2
    have hl := congrArg List.length h2
    rw [List.length_append] at hl
    cases upp with
    | nil => simp at hl; omega
    | cons m upp =>
      have hup := w.up
      simp only [sendAll, List.map_cons] at hup
      split at hup
      · cases hup
      · rename_i b hb
        split at hup
        · cases hup
        · rename_i r hr
          have hup : b ++ r = s.up := by injection hup
          have ht := take_msg cd (pieces s.up) (.msg m) b r hb (by rw [arriving_pieces, hup])
          have hf : (Dap.toJson (Conn.setSeq m s.conn.seqOut)).FloatsOk :=
            Dap.toJson_floats _ (Dap.noFlt_setSeq _ _ (w.flt m (by rw [h2]; simp)))
          have hstep : ∃ s', step cd feq s (.relay (pieces s.up)) = some (s', []) ∧ s'.deb = s.deb ∧ s'.sending = s.sending ∧ s'.queue = s.queue ∧ s'.cut = s.cut ∧
              s'.conn.seqOut = s.conn.seqOut + 1 := by
            simp only [step, if_pos (And.intro hcut (arriving_pieces s.up)), ht]
            rw [Conn.queueMsg_eq _ _ hf]
            exact ⟨_, rfl, rfl, rfl, rfl, rfl, rfl⟩
          obtain ⟨s1, hs1, e1, e2, e3, e4, e5⟩ := hstep
          have hi1 := inv_step0 hi0 hs1 rfl
          rw [List.append_nil] at hi1
          obtain ⟨ls, s', g1, g2, g3, g4, g5⟩ := ih s1 O hi1 (by rw [e1]; exact hd) (by rw [e2, hs]) (by rw [e3, hq]) (by rw [e4, hcut]) (by omega)
          exact ⟨.relay (pieces s.up) :: ls, s', by simpa [payloads] using g1, run_cons hs1 g2, g3, g4, g5.trans e1⟩

end
end Verif.E2e
