import Verif.E2e.Spec
import Verif.E2e.Floats
import Verif.Transport.Lemmas
import Verif.Props.Wire
/-! # A session from end to end: proofs -/

namespace Verif.E2e
open Verif Verif.Strat
open Verif.Dap (Cls noFlt)
open Verif.Transport (Codec Ev recv fromBytes arriving send sendAll recvLoop_spec send_ok)

/-! ## The socket -/

/-- A whole message at the front of what arrives is taken, whatever the pieces are. -/
theorem take_msg (cd : Codec Pkt) (es : List Ev) (p : Pkt) (b rest : Bytes) (hs : send cd p = .ok b) (ha : arriving es = b ++ rest) :
    take cd es = some (p, rest) := by
  obtain ⟨len, rfl, hl4, hfb⟩ := send_ok cd p b hs
  have hlen : (arriving es).length = 4 + (cd.dumps p).length + rest.length := by rw [ha]; simp [hl4]; omega
  rcases recvLoop_spec 4 es with ⟨-, es1, h1, h2, h3⟩ | ⟨hlt, -⟩
  · rw [ha] at h1 h2
    rw [List.append_assoc, List.take_left' hl4] at h1
    rw [List.append_assoc, List.drop_left' hl4] at h2
    rcases recvLoop_spec (fromBytes len) es1 with ⟨-, es2, g1, g2, g3⟩ | ⟨hlt, -⟩
    · rw [h2, hfb] at g1 g2
      rw [List.take_left' rfl] at g1
      rw [List.drop_left' rfl] at g2
      have h1' : recv 4 es = (.ok len, es1) := h1
      have g1' : recv (fromBytes len) es1 = (.ok (cd.dumps p), es2) := by rw [hfb]; exact g1
      unfold take
      rw [h1']
      simp only
      rw [if_pos hl4, g1']
      simp only
      rw [if_pos hfb.symm, cd.loads_dumps]
      simp only [g2]
    · rw [h2, hfb] at hlt; simp at hlt; omega
  · omega

/-- Nothing arrives: nothing is taken. -/
theorem take_nil (cd : Codec Pkt) (es : List Ev) (ha : arriving es = []) : take cd es = none := by
  unfold take
  rcases recvLoop_spec 4 es with ⟨h, -⟩ | ⟨hlt, es1, h1, h2⟩
  · rw [ha] at h; simp at h
  · have h1' : recv 4 es = _ := h1
    rw [h1', ha]
    split
    · rename_i len es1 h
      split
      · rename_i hl
        split at h
        · cases h; simp at hl
        · cases h
      · rfl
    · rfl

/-- A step that takes a message off a stream of messages takes the first one. -/
theorem take_first (cd : Codec Pkt) (es : List Ev) (ps : List Pkt) (down : Bytes) (hs : sendAll cd ps = .ok down) (ha : arriving es = down)
    (p : Pkt) (rest : Bytes) (h : take cd es = some (p, rest)) : ∃ ps', ps = p :: ps' ∧ sendAll cd ps' = .ok rest := by
  cases ps with
  | nil => cases hs; rw [take_nil cd es ha] at h; cases h
  | cons q qs =>
    simp only [sendAll] at hs
    split at hs
    · cases hs
    · rename_i b hb
      split at hs
      · cases hs
      · rename_i r hr
        have hs : b ++ r = down := by injection hs
        rw [take_msg cd es q b r hb (by rw [ha, hs])] at h
        cases h
        exact ⟨qs, rfl, hr⟩

theorem sendAll_append (cd : Codec Pkt) (ps : List Pkt) (p : Pkt) (x b : Bytes) (hs : sendAll cd ps = .ok x) (hb : send cd p = .ok b) :
    sendAll cd (ps ++ [p]) = .ok (x ++ b) := by
  induction ps generalizing x with
  | nil => cases hs; simp [sendAll, hb]
  | cons q qs ih =>
    simp only [sendAll, List.cons_append] at hs ⊢
    split at hs
    · cases hs
    · split at hs
      · cases hs
      · rename_i r hr
        rename_i c _ _
        have hs : c ++ r = x := by injection hs
        rw [ih r hr]
        simp [← hs]

/-! ## The client's messages -/

theorem frame_frameOf (p : Bytes) : frame p = Conn.frameOf (p.map UInt8.toNat) := by
  unfold frame Conn.frameOf
  rw [Conn.ofNat_map_toNat, List.length_map]

theorem hdrOk_frame (t : Str) (rest : Bytes) : Conn.HdrOk (Conn.frameOf t ++ rest) := by
  intro i n hi hn
  rw [Conn.find_frame] at hi
  cases hi
  rw [Conn.contentLength_frame] at hn
  cases hn
  omega

theorem hdrOk_nil : Conn.HdrOk [] := by intro i n hi; cases hi

theorem hdrOk_frames (pp : List Bytes) : Conn.HdrOk (pp.flatMap frame) := by
  cases pp with
  | nil => exact hdrOk_nil
  | cons p ps => rw [List.flatMap_cons, frame_frameOf]; exact hdrOk_frame _ _

/-- What the adapter takes out of its buffer is the first of the client's messages. -/
theorem next_first {feq} {c c' : Conn.Conn} {more : Bytes} {pp : List Bytes} {ms : List Dap.Val} {n : Nat} {m : Dap.Val}
    (hb : c.inBuf ++ more = pp.flatMap frame) (hs : Says feq n pp ms) (hn : c.seqIn = n)
    (h : Conn.nextMessage feq c = (.ok (some m), c')) :
    ∃ pp' ms', ms = m :: ms' ∧ Says feq (n + 1) pp' ms' ∧ c'.inBuf ++ more = pp'.flatMap frame ∧ c'.seqIn = n + 1 ∧
      c'.outBuf = c.outBuf ∧ c'.seqOut = c.seqOut := by
  have hok : Conn.HdrOk c.inBuf := Conn.hdrOk_prefix _ more (by rw [hb]; exact hdrOk_frames pp)
  have hp := Conn.nextMessage_prefix feq c more hok (by rw [h]; simp)
  rw [h] at hp
  simp only at hp
  cases hs with
  | nil =>
    rw [hb] at hp
    simp only [List.flatMap_nil] at hp
    unfold Conn.nextMessage at hp
    simp only [show findSub bytes!"\r\n\r\n" ([] : Bytes) = none by decide] at hp
    cases hp
  | @cons _ p m' ps ms' cl hd hq hc hi hrest =>
    have hf := Conn.nextMessage_frame feq { c with inBuf := c.inBuf ++ more } (p.map UInt8.toNat) (ps.flatMap frame)
      (by simp only [hb, List.flatMap_cons, frame_frameOf])
    rw [hp, Conn.ofNat_map_toNat, hd] at hf
    simp only [hn, hq, if_true] at hf
    injection hf with h1 h2
    injection h1 with h1
    injection h1 with h1
    subst h1
    refine ⟨ps, ms', rfl, hrest, ?_, ?_, ?_, ?_⟩
    · have := congrArg Conn.Conn.inBuf h2; exact this
    · have := congrArg Conn.Conn.seqIn h2; exact this
    · have := congrArg Conn.Conn.outBuf h2; exact this
    · have := congrArg Conn.Conn.seqOut h2; exact this

theorem says_length {feq n pp ms} (h : Says feq n pp ms) : pp.length = ms.length := by
  induction h with
  | nil => rfl
  | cons _ _ _ _ _ ih => simp [ih]

theorem says_snoc {feq n pp ms p m c} (h : Says feq n pp ms) (hd : Conn.decodeMsg p = .ok m) (hs : Conn.seqIs feq m (n + ms.length) = true)
    (hc : c.base = some Cls.Request) (hi : Dap.Instance c m) : Says feq n (pp ++ [p]) (ms ++ [m]) := by
  induction h with
  | nil n => exact .cons hd hs hc hi (.nil _)
  | @cons n p' m' ps ms' c' hd' hs' hc' hi' hr ih =>
    refine .cons hd' hs' hc' hi' (ih ?_)
    rw [List.length_cons] at hs
    rw [show n + 1 + ms'.length = n + (ms'.length + 1) by omega]
    exact hs

theorem says_mem {feq n pp ms} (h : Says feq n pp ms) : ∀ m ∈ ms, ∃ c, c.base = some Cls.Request ∧ Dap.Instance c m := by
  induction h with
  | nil => intro m hm; cases hm
  | @cons n p' m' ps ms' c' hd' hs' hc' hi' hr ih =>
    intro m hm
    rcases List.mem_cons.1 hm with rfl | hm
    · exact ⟨c', hc', hi'⟩
    · exact ih m hm

/-- The command of a request is no float. -/
theorem command_noFlt {c : Cls} {m : Dap.Val} (hc : c.base = some Cls.Request) (hi : Dap.Instance c m) :
    noFlt ((m.attr? py!"command").getD .null) = true := by
  obtain ⟨val, rfl, ht, hf⟩ := Verif.Props.Wire.inst_val hi
  have hh := Verif.Props.Wire.reqHead_all c
  simp only [Verif.Props.Wire.reqHead, hc, bne_self_eq_false, Bool.false_or, Bool.and_eq_true] at hh
  obtain ⟨⟨h1, h2⟩, h3⟩ := hh
  split at h3
  · rename_i w hw
    obtain ⟨k1, k2⟩ := Dap.fixed_attr hf (by decide) h2 hw
    rw [Verif.Props.Wire.val_attr _ _ k2, k1]; rfl
  · cases h3

/-! ## The specification -/

theorem direct_append {d d' : DS} {os : List Op} {ms : List Dap.Val} (h : direct d os = some (d', ms)) (o : Op) :
    direct d (os ++ [o]) = (doOp d' o).map fun r => (r.1, ms ++ r.2) := by
  induction os generalizing d ms with
  | nil =>
    cases h
    simp only [List.nil_append, direct]
    cases doOp d' o <;> simp
  | cons a os ih =>
    simp only [direct, List.cons_append] at h ⊢
    split at h
    · cases h
    · rename_i d1 m1 h1
      split at h
      · cases h
      · rename_i d2 m2 h2
        cases h
        rw [ih h2]
        cases doOp d' o <;> simp

theorem ops_append (a b : List Obs) : ops (a ++ b) = ops a ++ ops b := by
  induction a with
  | nil => rfl
  | cons x a ih => cases x <;> simp [ops, ih]

theorem readBy_append (a b : List Obs) : readBy (a ++ b) = readBy a ++ readBy b := by
  induction a with
  | nil => rfl
  | cons x a ih => cases x <;> simp [readBy, ih]

theorem arrived_append (a b : List Op) : arrived (a ++ b) = arrived a ++ arrived b := by
  induction a with
  | nil => rfl
  | cons x a ih => cases x <;> simp [arrived, ih]

theorem handled_append (a b : List Op) : handled (a ++ b) = handled a ++ handled b := by
  induction a with
  | nil => rfl
  | cons x a ih => cases x <;> simp [handled, ih]

theorem frames_append (k : Nat) (a : List Dap.Val) (m : Dap.Val) :
    Conn.frames k (a ++ [m]) = Conn.frames k a ++ Conn.frameOf (dumps (Dap.toJson (Conn.setSeq m (k + a.length)))) := by
  induction a generalizing k with
  | nil => simp [Conn.frames]
  | cons x a ih => simp only [List.cons_append, Conn.frames, ih, List.append_assoc, List.length_cons]; rw [show k + 1 + a.length = k + (a.length + 1) by omega]

/-! ## The invariant -/

/-- What is where, in terms of messages. -/
structure Where (cd : Codec Pkt) (feq : Str → Nat → Bool) (n k : Nat) (d0 : DS) (maps : List (Str × Str)) (said : List Dap.Val) (s : Sys) (O : List Obs)
    (done pend : List Dap.Val) (pp : List Bytes) (dpend : List Pkt) (outs so rest relayed upp : List Dap.Val) : Prop where
  split : said = done ++ pend
  says : Says feq (n + done.length) pp pend
  seqIn : s.conn.seqIn = n + done.length
  inBuf : s.conn.inBuf ++ s.stdin = pp.flatMap frame
  down : sendAll cd dpend = .ok s.down
  arr : arrived (ops O) ++ dpend = .config maps :: done.map .msg
  dir : direct d0 (ops O) = some (s.deb, outs)
  out : outs = so ++ rest
  queue : s.sending = true → rest = s.queue.filterMap id
  up : sendAll cd (upp.map .msg) = .ok s.up
  rel : so = relayed ++ upp
  outBuf : s.conn.outBuf = []
  seqOut : s.conn.seqOut = k + relayed.length
  read : readBy O ++ s.stdout = Conn.frames k relayed
  flt : ∀ a ∈ outs, noFlt a = true
  reqs : ∀ m ∈ said, ∃ c, c.base = some Cls.Request ∧ Dap.Instance c m
  act : s.active = false → ∃ m ∈ done, isDisconnect m = true
  cutf : s.cut = true → s.active = false
  snd : s.sending = false → ∃ m ∈ handled (ops O), isEnd m = true
  qn : none ∈ s.queue → ∃ m ∈ handled (ops O), isEnd m = true

def Inv (cd : Codec Pkt) (feq : Str → Nat → Bool) (n k : Nat) (d0 : DS) (maps : List (Str × Str)) (said : List Dap.Val) (s : Sys) (O : List Obs) : Prop :=
  ∃ done pend pp dpend outs so rest relayed upp, Where cd feq n k d0 maps said s O done pend pp dpend outs so rest relayed upp

theorem inv_start (cd : Codec Pkt) (feq n k d0 maps b) (hb : send cd (.config maps) = .ok b) :
    Inv cd feq n k d0 maps [] (start n k d0 b) [] :=
  ⟨[], [], [], [.config maps], [], [], [], [], [],
    { split := rfl, says := .nil _, seqIn := rfl, inBuf := rfl, down := by simp [sendAll, hb, start], arr := rfl, dir := rfl, out := rfl,
      queue := fun _ => rfl, up := rfl, rel := rfl, outBuf := rfl, seqOut := rfl, read := rfl, flt := by simp, reqs := by simp, act := (fun h => by cases h), cutf := (fun h => by cases h), snd := (fun h => by cases h), qn := (fun h => by cases h) }⟩

theorem filterMap_id_map {α : Type} (l : List α) : (l.map some).filterMap id = l := by
  induction l with
  | nil => rfl
  | cons x l ih => simp

theorem ended_mono {O o : List Obs} (h : ∃ m ∈ handled (ops O), isEnd m = true) : ∃ m ∈ handled (ops (O ++ o)), isEnd m = true := by
  obtain ⟨m, h1, h2⟩ := h
  exact ⟨m, by rw [ops_append, handled_append]; simp [h1], h2⟩

theorem some_none {q : List (Option Dap.Val)} {l : List Dap.Val} (h : none ∈ q ++ l.map some) : none ∈ q := by
  rcases List.mem_append.1 h with h | h
  · exact h
  · obtain ⟨x, _, e⟩ := List.mem_map.1 h; cases e

theorem queued_none {m : Dap.Val} {outs : List Dap.Val} (h : none ∈ queued m outs) : isEnd m = true := by
  unfold queued at h
  rcases List.mem_append.1 h with h | h
  · obtain ⟨x, _, e⟩ := List.mem_map.1 h; cases e
  · split at h
    · rfl
    · rfl
    · cases h

theorem queued_filterMap (m : Dap.Val) (outs : List Dap.Val) : (queued m outs).filterMap id = outs := by
  unfold queued
  rw [List.filterMap_append, filterMap_id_map]
  split <;> simp

seal Conn.queueMsg

/-- A step keeps the invariant; a message written by the client is added to what it said. -/
theorem inv_step {cd : Codec Pkt} {feq n k d0 maps said s O} (hi : Inv cd feq n k d0 maps said s O) {l : Lbl} {s' : Sys} {o : List Obs}
    (h : step cd feq s l = some (s', o)) {ms : List Dap.Val} (hs : Says feq (n + said.length) (payloads [l]) ms) :
    Inv cd feq n k d0 maps (said ++ ms) s' (O ++ o) := by
  obtain ⟨done, pend, pp, dpend, outs, so, rest, relayed, upp, w⟩ := hi
  obtain ⟨w1, w2, w3, w4, w5, w6, w7, w8, w9, w10, w11, w12, w13, w14, w15, w16, w17, w18, w19, w20⟩ := w
  cases l with
  | client p =>
    simp only [step] at h
    cases h
    simp only [payloads] at hs
    cases hs with
    | @cons _ _ m _ ms' c hd hq hc hi hr =>
      cases hr
      refine ⟨done, pend ++ [m], pp ++ [p], dpend, outs, so, rest, relayed, upp,
        { split := by rw [w1]; simp, says := says_snoc w2 hd ?_ hc hi, seqIn := w3, inBuf := ?_, down := w5, arr := by simpa using w6, dir := by simpa using w7,
          out := w8, queue := w9, up := w10, rel := w11, outBuf := w12, seqOut := w13, read := by simpa using w14, flt := w15, reqs := ?_, act := w17, cutf := w18, snd := (fun h => ended_mono (w19 h)), qn := (fun h => ended_mono (w20 h)) }⟩
      · rw [w1, List.length_append] at hq
        rw [show n + done.length + pend.length = n + (done.length + pend.length) by omega]
        exact hq
      · simp only [← List.append_assoc, w4, List.flatMap_append, List.flatMap_cons, List.flatMap_nil, List.append_nil]
      · intro x hx
        rcases List.mem_append.1 hx with hx | hx
        · exact w16 x hx
        · rw [List.mem_singleton.1 hx]; exact ⟨c, hc, hi⟩
  | read b =>
    simp only [step] at h
    cases h
    simp only [payloads] at hs
    cases hs
    refine ⟨done, pend, pp, dpend, outs, so, rest, relayed, upp,
      { split := by rw [w1]; simp, says := w2, seqIn := w3, inBuf := ?_, down := w5, arr := by simpa using w6, dir := by simpa using w7,
        out := w8, queue := w9, up := w10, rel := w11, outBuf := w12, seqOut := w13, read := by simpa using w14, flt := w15, reqs := by simpa using w16, act := w17, cutf := w18, snd := (fun h => ended_mono (w19 h)), qn := (fun h => ended_mono (w20 h)) }⟩
    simp only [Conn.receiveData, List.append_assoc, List.take_append_drop, w4]
  | forward =>
    simp only [payloads] at hs
    cases hs
    simp only [step] at h
    split at h
    · rename_i hact
      split at h
      · rename_i m c' hn
        split at h
        · rename_i b hb
          cases h
          obtain ⟨pp', ms', rfl, h1, h2, h3, h4, h5⟩ := next_first w4 w2 w3 hn
          refine ⟨done ++ [m], ms', pp', dpend ++ [.msg m], outs, so, rest, relayed, upp,
            { split := by rw [w1]; simp, says := by simpa [Nat.add_assoc] using h1, seqIn := by simpa [Nat.add_assoc] using h3, inBuf := h2, down := sendAll_append cd _ _ _ _ w5 hb,
              arr := ?_, dir := by simpa using w7, out := w8, queue := w9, up := w10, rel := w11, outBuf := by rw [h4, w12], seqOut := by rw [h5, w13],
              read := by simpa using w14, flt := w15, reqs := by simpa using w16, act := ?act, cutf := ?cut, snd := (fun h => ended_mono (w19 h)), qn := (fun h => ended_mono (w20 h)) }⟩
          · rw [List.append_nil, ← List.append_assoc, w6]; simp
          · intro h
            refine ⟨m, by simp, by simpa using h⟩
          · intro h
            exact absurd (w18 h) (by rw [hact]; simp)
        · cases h
      · cases h
    · cases h
  | stop =>
    simp only [payloads] at hs
    cases hs
    simp only [step] at h
    split at h
    · cases h
    · rename_i hact
      cases h
      exact ⟨done, pend, pp, dpend, outs, so, rest, relayed, upp,
        { split := by rw [w1]; simp, says := w2, seqIn := w3, inBuf := w4, down := w5, arr := by simpa using w6, dir := by simpa using w7,
          out := w8, queue := w9, up := w10, rel := w11, outBuf := w12, seqOut := w13, read := by simpa using w14, flt := w15, reqs := by simpa using w16, act := w17, cutf := (fun _ => by simpa using hact), snd := (fun h => ended_mono (w19 h)), qn := (fun h => ended_mono (w20 h)) }⟩
  | handle e es =>
    simp only [payloads] at hs
    cases hs
    simp only [step] at h
    split at h
    · rename_i ha
      split at h
      · rename_i m rst ht
        cases h
        obtain ⟨dp', rfl, hd⟩ := take_first cd es dpend s.down w5 ha _ _ ht
        refine ⟨done, pend, pp, dp', outs ++ (Wire.handle e s.deb m).2, so, rest ++ (Wire.handle e s.deb m).2, relayed, upp,
          { split := by rw [w1]; simp, says := w2, seqIn := w3, inBuf := w4, down := hd, arr := ?_, dir := ?_,
            out := by rw [w8, List.append_assoc], queue := ?_, up := w10, rel := w11, outBuf := w12, seqOut := w13, read := ?_, flt := ?_, reqs := by simpa using w16, act := w17, cutf := w18, snd := (fun h => ended_mono (w19 h)), qn := ?qn }⟩
        · rw [ops_append, arrived_append]; simpa [ops, arrived] using w6
        · rw [ops_append]; show direct d0 (ops O ++ [.handle e m]) = _
          rw [direct_append w7]; rfl
        · intro hq; rw [w9 hq, List.filterMap_append, queued_filterMap]
        · rw [readBy_append]; simpa [readBy] using w14
        · intro a ha
          rcases List.mem_append.1 ha with ha | ha
          · exact w15 a ha
          · have hm : m ∈ done := by
              have : Pkt.msg m ∈ Pkt.config maps :: done.map Pkt.msg := by rw [← w6]; simp
              rcases List.mem_cons.1 this with hx | hx
              · cases hx
              · obtain ⟨y, hy, e⟩ := List.mem_map.1 hx
                cases e; exact hy
            obtain ⟨c, hc, hi⟩ := w16 m (by rw [w1]; simp [hm])
            exact Wire.handle_noFlt e s.deb m (command_noFlt hc hi) a ha
        · intro h
          rcases List.mem_append.1 h with h | h
          · exact ended_mono (w20 h)
          · exact ⟨m, by rw [ops_append, handled_append]; simp [ops, handled], queued_none h⟩
      · rename_i mp rst ht
        split at h
        · rename_i r hr
          cases h
          obtain ⟨dp', rfl, hd⟩ := take_first cd es dpend s.down w5 ha _ _ ht
          refine ⟨done, pend, pp, dp', outs ++ r.2, so, rest ++ r.2, relayed, upp,
            { split := by rw [w1]; simp, says := w2, seqIn := w3, inBuf := w4, down := hd, arr := ?_, dir := ?_,
              out := by rw [w8, List.append_assoc], queue := ?_, up := w10, rel := w11, outBuf := w12, seqOut := w13, read := ?_, flt := ?_, reqs := by simpa using w16, act := w17, cutf := w18, snd := (fun h => ended_mono (w19 h)), qn := (fun h => ended_mono (w20 (some_none h))) }⟩
          · rw [ops_append, arrived_append]; simpa [ops, arrived] using w6
          · rw [ops_append]; show direct d0 (ops O ++ [.config e mp]) = _
            rw [direct_append w7]; simp only [doOp, hr, Option.map_some]
          · intro hq; rw [w9 hq, List.filterMap_append, filterMap_id_map]
          · rw [readBy_append]; simpa [readBy] using w14
          · intro a ha
            rcases List.mem_append.1 ha with ha | ha
            · exact w15 a ha
            · exact Wire.play_noFlt e s.deb _ r hr a ha
        · cases h
      · cases h
    · cases h
  | play e lb =>
    simp only [payloads] at hs
    cases hs
    simp only [step] at h
    split at h
    · cases h
    · split at h
      · rename_i r hr
        cases h
        refine ⟨done, pend, pp, dpend, outs ++ r.2, so, rest ++ r.2, relayed, upp,
          { split := by rw [w1]; simp, says := w2, seqIn := w3, inBuf := w4, down := w5, arr := ?_, dir := ?_,
            out := by rw [w8, List.append_assoc], queue := ?_, up := w10, rel := w11, outBuf := w12, seqOut := w13, read := ?_, flt := ?_, reqs := by simpa using w16, act := w17, cutf := w18, snd := (fun h => ended_mono (w19 h)), qn := (fun h => ended_mono (w20 (some_none h))) }⟩
        · rw [ops_append, arrived_append]; simpa [ops, arrived] using w6
        · rw [ops_append]; show direct d0 (ops O ++ [.play e lb]) = _
          rw [direct_append w7]; simp only [doOp, hr, Option.map_some]
        · intro hq; rw [w9 hq, List.filterMap_append, filterMap_id_map]
        · rw [readBy_append]; simpa [readBy] using w14
        · intro a ha
          rcases List.mem_append.1 ha with ha | ha
          · exact w15 a ha
          · exact Wire.play_noFlt e s.deb _ r hr a ha
      · cases h
  | send =>
    simp only [payloads] at hs
    cases hs
    simp only [step] at h
    split at h
    · rename_i hsend
      split at h
      · rename_i m q hq
        split at h
        · rename_i b hb
          cases h
          have hrest : rest = m :: q.filterMap id := by rw [w9 hsend, hq]; rfl
          refine ⟨done, pend, pp, dpend, outs, so ++ [m], q.filterMap id, relayed, upp ++ [m],
            { split := by rw [w1]; simp, says := w2, seqIn := w3, inBuf := w4, down := w5, arr := by simpa using w6, dir := by simpa using w7,
              out := by rw [w8, hrest]; simp, queue := fun _ => rfl, up := by rw [List.map_append]; exact sendAll_append cd _ _ _ _ w10 hb,
              rel := by rw [w11]; simp, outBuf := w12, seqOut := w13, read := by simpa using w14, flt := w15, reqs := by simpa using w16, act := w17, cutf := w18, snd := (fun h => ended_mono (w19 h)), qn := (fun h => ended_mono (w20 (by rw [hq]; exact List.mem_cons_of_mem _ h))) }⟩
        · cases h
      · rename_i q hq
        cases h
        exact ⟨done, pend, pp, dpend, outs, so, rest, relayed, upp,
          { split := by rw [w1]; simp, says := w2, seqIn := w3, inBuf := w4, down := w5, arr := by simpa using w6, dir := by simpa using w7,
            out := w8, queue := (fun h => by cases h), up := w10, rel := w11, outBuf := w12, seqOut := w13, read := by simpa using w14, flt := w15, reqs := by simpa using w16, act := w17, cutf := w18, snd := (fun _ => ended_mono (w20 (by rw [hq]; simp))), qn := (fun h => ended_mono (w20 (by rw [hq]; exact List.mem_cons_of_mem _ h))) }⟩
      · cases h
    · cases h
  | relay es =>
    simp only [payloads] at hs
    cases hs
    simp only [step] at h
    split at h
    · rename_i hc
      split at h
      · rename_i m rst ht
        obtain ⟨ps', hu, hd⟩ := take_first cd es _ s.up w10 hc.2 _ _ ht
        obtain ⟨upp', rfl, rfl⟩ : ∃ upp', upp = m :: upp' ∧ ps' = upp'.map .msg := by
          cases upp with
          | nil => cases hu
          | cons x xs =>
            rw [List.map_cons] at hu
            injection hu with h1 h2
            injection h1 with h1
            subst h1
            exact ⟨xs, rfl, h2.symm⟩
        have hf : (Dap.toJson (Conn.setSeq m s.conn.seqOut)).FloatsOk :=
          Dap.toJson_floats _ (Dap.noFlt_setSeq _ _ (w15 m (by rw [w8, w11]; simp)))
        rw [Conn.queueMsg_eq _ _ hf] at h
        simp only at h
        cases h
        have hz : ∀ c : Conn.Conn, (Conn.dataToSend c (-1)).2 = { c with outBuf := [] } ∧ (Conn.dataToSend c (-1)).1 = c.outBuf := by
          intro c
          constructor
          · simp only [Conn.dataToSend, if_true, Int.min_self, sliceFrom, sliceBound_nonneg, Nat.min_self, List.drop_length]
          · simp only [Conn.dataToSend, if_true, Int.min_self, sliceTo, sliceBound_nonneg, Nat.min_self, List.take_length]
        refine ⟨done, pend, pp, dpend, outs, so, rest, relayed ++ [m], upp',
          { split := by rw [w1]; simp, says := w2, seqIn := by rw [(hz _).1]; exact w3, inBuf := by rw [(hz _).1]; exact w4, down := w5, arr := by simpa using w6,
            dir := by simpa using w7,
            out := w8, queue := w9, up := hd, rel := by rw [w11]; simp, outBuf := by rw [(hz _).1], seqOut := by rw [(hz _).1]; simp [w13]; omega,
            read := ?_, flt := w15, reqs := by simpa using w16, act := w17, cutf := w18, snd := (fun h => ended_mono (w19 h)), qn := (fun h => ended_mono (w20 h)) }⟩
        rw [List.append_nil, (hz _).2, ← List.append_assoc, w14, w12, frames_append, w13]
        simp
      · cases h
    · cases h
  | clientRead b =>
    simp only [payloads] at hs
    cases hs
    simp only [step] at h
    cases h
    refine ⟨done, pend, pp, dpend, outs, so, rest, relayed, upp,
      { split := by rw [w1]; simp, says := w2, seqIn := w3, inBuf := w4, down := w5, arr := by rw [ops_append]; simpa [ops] using w6,
        dir := by rw [ops_append]; simpa [ops] using w7,
        out := w8, queue := w9, up := w10, rel := w11, outBuf := w12, seqOut := w13, read := ?_, flt := w15, reqs := by simpa using w16, act := w17, cutf := w18, snd := (fun h => ended_mono (w19 h)), qn := (fun h => ended_mono (w20 h)) }⟩
    rw [readBy_append]
    simp only [readBy, List.append_nil, List.append_assoc, List.take_append_drop]
    exact w14

theorem says_split {feq n a b ms} (h : Says feq n (a ++ b) ms) : ∃ x y, ms = x ++ y ∧ Says feq n a x ∧ Says feq (n + x.length) b y := by
  induction a generalizing n ms with
  | nil => exact ⟨[], ms, rfl, .nil _, h⟩
  | cons p a ih =>
    rw [List.cons_append] at h
    cases h with
    | @cons _ _ m _ ms' c hd hq hc hi hr =>
      obtain ⟨x, y, rfl, h1, h2⟩ := ih hr
      refine ⟨m :: x, y, rfl, .cons hd hq hc hi h1, ?_⟩
      rw [List.length_cons, show n + (x.length + 1) = n + 1 + x.length by omega]
      exact h2

theorem payloads_cons (l : Lbl) (ls : List Lbl) : payloads (l :: ls) = payloads [l] ++ payloads ls := by
  cases l <;> simp [payloads]

theorem inv_run {cd : Codec Pkt} {feq n k d0 maps said s O} (hi : Inv cd feq n k d0 maps said s O) {ls : List Lbl} {s' : Sys} {o : List Obs}
    (h : run cd feq s ls = some (s', o)) {ms : List Dap.Val} (hs : Says feq (n + said.length) (payloads ls) ms) :
    Inv cd feq n k d0 maps (said ++ ms) s' (O ++ o) := by
  induction ls generalizing said s O o ms with
  | nil =>
    cases h
    simp only [payloads] at hs
    cases hs
    simpa using hi
  | cons l ls ih =>
    simp only [run] at h
    split at h
    · cases h
    · rename_i s1 o1 h1
      split at h
      · cases h
      · rename_i s2 o2 h2
        cases h
        rw [payloads_cons] at hs
        obtain ⟨x, y, rfl, hx, hy⟩ := says_split hs
        have := ih (inv_step hi h1 hx) h2 (by rw [List.length_append, ← Nat.add_assoc]; exact hy)
        simpa using this

end Verif.E2e
