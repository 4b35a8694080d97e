import Verif.Conn.Wire
/-!
# Properties of the client connection (C01 to C07)

`runRecv`, `runSend`, `Frame`, `Frames`, `Announces`, `Settled`, `outcome` are the vocabulary of
Conn/Spec.lean. `feq` is an arbitrary comparison of float sequence numbers.
-/

namespace Verif.Props.Conn
open Verif Verif.Dap Verif.Conn

seal queueMsg

/-- Polling `n` times. -/
def polls : Nat → List RecvOp
  | 0 => []
  | n + 1 => .poll :: polls n

theorem polls_frames (feq) (ms : List Val) (hw : ∀ m ∈ ms, Wire m) (c : Conn) (hb : c.inBuf = frames c.seqIn ms) :
    runRecv feq c (polls ms.length) =
      ((stamped c.seqIn ms).map (fun v => .ok (some v)), { c with inBuf := [], seqIn := c.seqIn + ms.length }) := by
  induction ms generalizing c with
  | nil => obtain ⟨o, i, a, b⟩ := c; simp only [frames] at hb; subst hb; rfl
  | cons m ms ih =>
    have hn := nextMessage_frame feq c _ _ hb
    rw [wire_decode m (hw m (by simp))] at hn
    have hs : seqIs feq (setSeq m c.seqIn) c.seqIn = true := by
      rw [wire_seq feq m (hw m (by simp))]; simp
    simp only [hs, if_true] at hn
    simp only [List.length_cons, polls, runRecv, hn, stamped, List.map_cons]
    rw [ih (fun x hx => hw x (by simp [hx])) _ rfl]
    simp only [Prod.mk.injEq, Conn.mk.injEq, true_and, and_true]
    omega

theorem utf8Decode_inv (b : Bytes) : ∀ s, utf8Decode b = some s → (∀ c ∈ s, c < 128) → b = s.map UInt8.ofNat := by
  induction b with
  | nil => intro s h _; simp only [utf8Decode, Option.some.injEq] at h; subst h; rfl
  | cons x b ih =>
    intro s h ha
    rw [utf8Decode.eq_def] at h
    simp only at h
    split at h
    · cases hr : utf8Decode b with
      | none => rw [hr] at h; simp at h
      | some r =>
        rw [hr] at h
        simp only [Option.map_some, Option.some.injEq] at h
        subst h
        rw [List.map_cons, ih r hr (fun c hc => ha c (by simp [hc]))]
        congr 1
        simp
    · exfalso
      have big : ∀ (o : Option Str) (c : Nat), 128 ≤ c → o.map (c :: ·) = some s → False := by
        intro o c hc ho
        cases o with
        | none => simp at ho
        | some r =>
          simp only [Option.map_some, Option.some.injEq] at ho
          have := ha c (by rw [← ho]; simp)
          omega
      split at h
      · simp at h
      · split at h
        · split at h
          · split at h
            · refine big _ _ ?_ h; omega
            · simp at h
          · simp at h
        · split at h
          · split at h
            · split at h
              · refine big _ _ ?_ h; omega
              · simp at h
            · simp at h
          · split at h
            · split at h
              · split at h
                · refine big _ _ ?_ h; omega
                · simp at h
              · simp at h
            · simp at h

/-- The frames of given messages are determined. -/
theorem frames_unique (k : Nat) (ms : List Val) (b : Bytes) (hw : ∀ m ∈ ms, Wire m) (h : Frames k ms b) : b = frames k ms := by
  induction h with
  | nil k => rfl
  | @cons k m ms f payload rest hf hp h ih =>
    rw [ih (fun x hx => hw x (by simp [hx]))]
    simp only [frames]
    congr 1
    have := utf8Decode_inv payload _ hp (fun c hc => by
      have := dumps_ascii _ (wire_floats m (hw m (by simp)) k) c hc; omega)
    rw [frame_eq f payload hf, this, List.map_map]
    congr 1
    conv => rhs; rw [← List.map_id (dumps (toJson (setSeq m k)))]
    apply List.map_congr_left
    intro c hc
    have := dumps_ascii _ (wire_floats m (hw m (by simp)) k) c hc
    simp; omega

/-- C02: the default call hands out everything; a non-negative limit is respected. -/
theorem C02_default_and_limit (c : Conn) : (dataToSend c (-1)).2.outBuf = [] ∧ (dataToSend c (-1)).1 = c.outBuf ∧
    ∀ n : Nat, (dataToSend c n).1.length ≤ n := by
  refine ⟨?_, ?_, ?_⟩
  · simp only [dataToSend, if_true, Int.min_self, sliceFrom, sliceBound_nonneg, Nat.min_self, List.drop_length]
  · simp only [dataToSend, if_true, Int.min_self, sliceTo, sliceBound_nonneg, Nat.min_self, List.take_length]
  · intro n
    simp only [dataToSend]
    rw [if_neg (by omega)]
    rw [show min (n : Int) (c.outBuf.length : Int) = ((min n c.outBuf.length : Nat) : Int) by omega]
    unfold sliceTo
    rw [sliceBound_nonneg]
    simp only [List.length_take]; omega

/-! ## C01 -/

/-- A concrete message: a threads request. -/
def threadsReq : Val := .obj .ThreadsRequest [(py!"seq", .int 0), (py!"message_type", .enum .MessageType py!"request"),
  (py!"command", .enum .Command py!"threads")]

theorem threadsReq_wire : Wire threadsReq := by
  refine ⟨.ThreadsRequest, ?_, by decide, by simp only [threadsReq, Val.Ok, Val.OkA]; decide +kernel,
    by unfold Verif.Props.Dap.Exact; exact ⟨(by intro h; cases h), (by intro h; cases h), (by intro h; cases h)⟩⟩
  have hf : Cls.ThreadsRequest.fields = [⟨py!"seq", false, some (.int 0), .int⟩,
    ⟨py!"message_type", false, none, .enum .MessageType⟩, ⟨py!"command", false, none, .enum .Command⟩] := by rfl
  have := Typed.obj .ThreadsRequest (fun a => if a = py!"seq" then .int 0 else if a = py!"message_type" then
      .enum .MessageType py!"request" else .enum .Command py!"threads") ?_ ?_
  · rw [hf] at this; exact this
  · rw [hf]
    intro f hm
    simp only [List.mem_cons, List.not_mem_nil, or_false] at hm
    rcases hm with rfl | rfl | rfl
    · exact .int _
    · exact .enum _ _ (by decide +kernel)
    · exact .enum _ _ (by decide +kernel)
  · rw [hf]
    intro f hm w hw
    simp only [List.mem_cons, List.not_mem_nil, or_false] at hm
    rcases hm with rfl | rfl | rfl
    · cases hw
    · rw [show fixedVal .ThreadsRequest ⟨py!"message_type", false, none, .enum .MessageType⟩ = some (.enum .MessageType py!"request") from rfl] at hw; cases hw; rfl
    · rw [show fixedVal .ThreadsRequest ⟨py!"command", false, none, .enum .Command⟩ = some (.enum .Command py!"threads") from rfl] at hw; cases hw; rfl

/-- C01: whatever way the sender interleaves queueing and handing out bytes and the receiver
cuts the stream and polls, once all bytes are across and polling found nothing more, the
receiver has returned exactly the messages queued, in order, with seq 1, 2, 3, ... -/
theorem C01_exactly_the_messages (feq) (sops : List SendOp) (rops : List RecvOp)
    (hw : ∀ m ∈ queued sops, Wire m)
    (hall : (runSend init sops).2.outBuf = [])
    (hr : received rops = (runSend init sops).1)
    (hs : Settled feq init rops) :
    outcome (runRecv feq init rops).1 = (stamped 1 (queued sops)).map .ok := by
  have hf := (runSend_frames sops init (fun m hm k => wire_floats m (hw m hm) k)).1
  rw [hall, List.append_nil] at hf
  have hb : init.inBuf ++ received rops = frames 1 (queued sops) := by rw [hr, hf]; rfl
  rw [settled_outcome feq _ stable_frames rops init ⟨1, queued sops, hb⟩ hs, hb]
  exact drain_frames feq 1 (queued sops) hw _ rfl rfl

/-- C01 at every earlier moment: while only part of the stream has arrived, what the receiver
has returned so far is an initial part of what was queued, and nothing raised. -/
theorem C01_prefix_at_any_time (feq) (sops : List SendOp) (rops : List RecvOp) (missing : Bytes)
    (hw : ∀ m ∈ queued sops, Wire m)
    (hr : received rops ++ missing = (runSend init sops).1 ++ (runSend init sops).2.outBuf) :
    outcome (runRecv feq init rops).1 <+: (stamped 1 (queued sops)).map .ok := by
  have hf := (runSend_frames sops init (fun m hm k => wire_floats m (hw m hm) k)).1
  have hrec : received (rops ++ [.recv missing]) = received rops ++ missing := by
    have : ∀ a b : List RecvOp, received (a ++ b) = received a ++ received b := by
      intro a b
      induction a with
      | nil => rfl
      | cons op a ih => cases op <;> simp [received, ih]
    rw [this]; simp [received]
  have hb : init.inBuf ++ received (rops ++ [.recv missing]) = frames 1 (queued sops) := by
    rw [hrec, hr, hf]; rfl
  have hrun := run_drain feq _ stable_frames (rops ++ [.recv missing]) init ⟨1, queued sops, hb⟩
  have hd := drain_frames feq 1 (queued sops) hw { init with inBuf := frames 1 (queued sops) } rfl rfl
  rw [hb, hd] at hrun
  have hres : (runRecv feq init (rops ++ [.recv missing])).1 = (runRecv feq init rops).1 := by
    rw [runRecv_append]; simp [runRecv]
  rw [hres] at hrun
  exact ⟨_, hrun⟩

theorem runSend_queue2 (c : Conn) (m : Val) (ops : List SendOp) : runSend c (.queue m :: ops) = runSend (queueMsg c m).2 ops := rfl

theorem runSend_all (c : Conn) : (runSend c [.send (-1)]).2.outBuf = [] := by
  have e : runSend c [.send (-1)] = ((dataToSend c (-1)).1 ++ [], (dataToSend c (-1)).2) := rfl
  rw [e]
  exact (C02_default_and_limit c).1

/-- Any two messages can be sent in one piece and received in two chunks, so that the
hypotheses of C01 hold. -/
theorem C01_hypotheses_hold (feq) (m : Val) (h : Wire m) : ∃ (sops : List SendOp) (rops : List RecvOp), queued sops = [m, m] ∧
    (∀ m ∈ queued sops, Wire m) ∧ (runSend init sops).2.outBuf = [] ∧ received rops = (runSend init sops).1 ∧
    Settled feq init rops := by
  have hw : ∀ x ∈ [m, m], Wire x := by
    intro x hx
    simp only [List.mem_cons, List.not_mem_nil, or_false] at hx
    rcases hx with rfl | rfl <;> exact h
  have hq : queued [.queue m, .queue m, .send (-1)] = [m, m] := rfl
  have hfl : ∀ x ∈ queued [.queue m, .queue m, .send (-1)], ∀ k, (toJson (setSeq x k)).FloatsOk := by
    rw [hq]; exact fun x hx k => wire_floats x (hw x hx) k
  have hfr := (runSend_frames [.queue m, .queue m, .send (-1)] init hfl).1
  have hout : (runSend init [.queue m, .queue m, .send (-1)]).2.outBuf = [] := by
    rw [runSend_queue2, runSend_queue2]; exact runSend_all _
  rw [hout, hq, List.append_nil] at hfr
  have hp := polls_frames feq [m, m] hw { init with inBuf := frames 1 [m, m] } rfl
  refine ⟨_, [.recv ((frames 1 [m, m]).take 30), .recv ((frames 1 [m, m]).drop 30),
    .poll, .poll, .poll], hq, by rw [hq]; exact hw, hout, ?_, ?_⟩
  · rw [hfr]; simp only [received, List.append_nil, List.take_append_drop]; rfl
  · right
    refine ⟨[.recv ((frames 1 [m, m]).take 30), .recv ((frames 1 [m, m]).drop 30)] ++ polls 2, rfl, ?_⟩
    have e : (runRecv feq init ([.recv ((frames 1 [m, m]).take 30), .recv ((frames 1 [m, m]).drop 30)] ++ polls 2)).2 =
        (runRecv feq { init with inBuf := frames 1 [m, m] } (polls 2)).2 := by
      simp only [List.cons_append, List.nil_append, runRecv, receiveData, init, List.take_append_drop]
    rw [e, show (2 : Nat) = [m, m].length from rfl, hp]
    rfl

/-- Non-vacuity. -/
example (feq) := C01_hypotheses_hold feq threadsReq threadsReq_wire

/-! ## C02 -/

/-- C02: after any history of `queue_msg` and `data_to_send`, what was handed out followed by
what is pending is the concatenation of the frames of all queued messages, in order. -/
theorem C02_nothing_lost (ops : List SendOp) (h : ∀ m ∈ queued ops, ∀ k, (toJson (setSeq m k)).FloatsOk) :
    Frames 1 (queued ops) ((runSend init ops).1 ++ (runSend init ops).2.outBuf) := by
  rw [(runSend_frames ops init h).1]
  exact frames_spec 1 (queued ops) h

example : ∀ m ∈ queued [.queue threadsReq, .send 5, .send (-7), .queue threadsReq], ∀ k, (toJson (setSeq m k)).FloatsOk := by
  intro m hm k
  simp only [queued, List.mem_cons, List.not_mem_nil, or_false] at hm
  rcases hm with rfl | rfl <;> exact wire_floats _ threadsReq_wire k

/-! ## C03 -/

theorem stable_noDeepNegative : Stable NoDeepNegative := by
  intro s hs
  refine ⟨?_, ?_⟩
  · intro i n hi hn
    have h1 := findSub_some _ _ _ hi
    have h2 := findSub_bound _ _ _ hi
    have := hs [] (s.take i) (s.drop (i + 4)) n (by simpa using h1) ((contentLength_iff _ _).mp hn)
    simp only [List.length_cons, List.length_nil] at h2
    rw [List.length_take, Nat.min_eq_left (by omega)] at this
    exact this
  · intro i n k hi hn hk hle
    intro pre raw post m he ha
    refine hs (s.take k ++ pre) raw post m ?_ ha
    calc s = s.take k ++ s.drop k := (List.take_append_drop k s).symm
      _ = _ := by rw [he]; simp only [List.append_assoc]

/-- C03: two histories that receive the same bytes - well formed or not, cut and polled
differently - and are polled until nothing more is to be had show the same messages and the
same first exception. -/
theorem C03_chunking_irrelevant (feq) (c : Conn) (ops ops' : List RecvOp)
    (hneg : NoDeepNegative (c.inBuf ++ received ops)) (hsame : received ops = received ops')
    (hs : Settled feq c ops) (hs' : Settled feq c ops') :
    outcome (runRecv feq c ops).1 = outcome (runRecv feq c ops').1 := by
  rw [settled_outcome feq _ stable_noDeepNegative ops c hneg hs,
    settled_outcome feq _ stable_noDeepNegative ops' c (hsame ▸ hneg) hs', hsame]

/-- Any stream in which no header announces a negative length satisfies the hypothesis. -/
theorem C03_nonnegative_suffices (s : Bytes)
    (h : ∀ pre raw post n, s = pre ++ raw ++ bytes!"\r\n\r\n" ++ post → Announces raw n → 0 ≤ n) : NoDeepNegative s := by
  intro pre raw post n he ha
  have := h pre raw post n he ha
  omega

/-- Non-vacuity: a garbage stream (a header without a colon) satisfies it. -/
example : NoDeepNegative bytes!"x\r\n\r\n" := by
  rintro pre raw post n he ⟨p, v, q, hraw, -⟩
  -- a header block that announces something contains a colon, this stream does not
  have hmem : (58 : UInt8) ∈ raw := by
    rw [hraw]
    have : ∀ (ps qs : List Bytes) (x : Bytes), (58 : UInt8) ∈ x → (58 : UInt8) ∈ joinSep bytes!"\r\n" (ps ++ x :: qs) := by
      intro ps qs x hx
      induction ps with
      | nil => cases qs <;> simp [joinSep, hx]
      | cons y ps ih => cases h : ps ++ x :: qs with
        | nil => simp at h
        | cons z zs => rw [List.cons_append, h] ; simp only [joinSep]; rw [h] at ih; simp [ih]
    rw [List.map_append, List.map_cons]
    apply this
    simp
  have : (58 : UInt8) ∈ bytes!"x\r\n\r\n" := by rw [he]; simp [hmem]
  exact absurd this (by decide)

/-- The exception of C03 is real: with a Content-Length more negative than the header is long
the outcome depends on how much has arrived. The stream is a header announcing `-24` followed
by a valid message with one more byte than the header plus the message... -/
def negStream : Bytes := bytes!"Content-Length: -25\r\n\r\n{\"seq\": 1, \"type\": \"event\", \"event\": \"initialized\"}xx"

theorem C03_negative_refuted (feq) :
    outcome (runRecv feq init [.recv negStream, .poll]).1 ≠
      outcome (runRecv feq init [.recv (negStream.take 30), .poll, .recv (negStream.drop 30), .poll]).1 := by
  have h1 : (nextMessage feq (receiveData init negStream)).1 =
      .ok (some (.obj .InitializedEvent [(py!"seq", .int 1), (py!"message_type", .enum .MessageType py!"event"),
        (py!"event", .enum .EventType py!"initialized")])) := by rfl
  have h2 : (nextMessage feq (receiveData init (negStream.take 30))).1 = .error .value := by rfl
  simp only [runRecv, outcome, h1, h2]
  simp

/-! ## C04 -/

/-- C04: every message is framed with the exact byte length of its payload; header and payload
are ASCII; the payload is the JSON text of the stamped message. -/
theorem C04_frame (c : Conn) (m : Val) (h : (toJson (setSeq m c.seqOut)).FloatsOk) :
    ∃ f payload, (queueMsg c m).2.outBuf = c.outBuf ++ f ∧ Frame f payload ∧ (∀ b ∈ f, b < 128) ∧
      utf8Decode payload = some (dumps (toJson (setSeq m c.seqOut))) := by
  have ha := dumps_ascii _ h
  rw [queueMsg_eq c m h]
  refine ⟨_, _, rfl, frame_frameOf _, ?_, utf8Decode_ascii _ (fun x hx => by have := ha x hx; omega)⟩
  rw [frameOf_eq]
  intro b hb
  obtain ⟨x, hx, rfl⟩ := List.mem_map.mp hb
  have hlt : x < 128 := by
    simp only [List.mem_append] at hx
    rcases hx with ((hx | hx) | hx) | hx
    · exact (by decide : ∀ x ∈ py!"Content-Length: ", x < 128) x hx
    · have := natDec_ascii _ x hx; omega
    · exact (by decide : ∀ x ∈ py!"\r\n\r\n", x < 128) x hx
    · have := ha x hx; omega
  rw [UInt8.lt_iff_toNat_lt, ofNat_toNat8 x (by omega)]
  exact hlt

/-- Non-vacuity, with text outside ASCII, a control character and a lone surrogate. -/
example : (toJson (setSeq (.obj .OutputEvent [(py!"seq", .int 0), (py!"output", .str [0xe9, 7, 0xd800, 0x1f600])]) 3)).FloatsOk := by
  simp [setSeq, Dict.set, toJson, packCls, packDap, toJsonO, Cls.dap, Cls.dapN, Cls.base, Cls.ownDap, Dict.union, attrJson, Dict.get?,
    Json.FloatsOk, Json.FloatsOkO]

/-! ## C05 -/

/-- C05: after any history of sends the next message gets (and `queue_msg` returns) the number
of messages queued so far plus one. -/
theorem C05_send_numbers (ops : List SendOp) (m : Val) (h : ∀ x ∈ queued ops, ∀ k, (toJson (setSeq x k)).FloatsOk)
    (hm : ∀ k, (toJson (setSeq m k)).FloatsOk) :
    (queueMsg (runSend init ops).2 m).1 = .ok ((queued ops).length + 1) := by
  rw [queueMsg_eq _ m (hm _), (runSend_frames ops init h).2]
  simp only [init]
  rw [Nat.add_comm]

/-- The receiver's expectation never decreases, and the accepted messages carry strictly
increasing numbers starting from it. -/
theorem recv_seqs (feq) (ops : List RecvOp) (c : Conn) :
    ∃ ns : List Nat, ns.length = (accepted (runRecv feq c ops).1).length ∧
      (∀ p ∈ ns.zip (accepted (runRecv feq c ops).1), seqIs feq p.2 p.1 = true) ∧
      ns.Pairwise (· < ·) ∧ (∀ n ∈ ns, c.seqIn ≤ n) ∧
      (hasErr (runRecv feq c ops).1 = false → ns = List.range' c.seqIn ns.length) := by
  induction ops generalizing c with
  | nil => exact ⟨[], rfl, by simp [runRecv, accepted], List.Pairwise.nil, by simp, fun _ => rfl⟩
  | cons op ops ih =>
    cases op with
    | recv d => simpa [runRecv, receiveData] using ih (receiveData c d)
    | poll =>
      obtain ⟨ns, h1, h2, h3, h4, h5⟩ := ih (nextMessage feq c).2
      have hmono : c.seqIn ≤ (nextMessage feq c).2.seqIn := by
        unfold nextMessage
        split
        · exact Nat.le_refl _
        · split
          · exact Nat.le_refl _
          · simp only
            split
            · exact Nat.le_refl _
            · split
              · exact Nat.le_refl _
              · split <;> exact Nat.le_succ _
      have hacc : ∀ v, (nextMessage feq c).1 = .ok (some v) → seqIs feq v c.seqIn = true ∧ (nextMessage feq c).2.seqIn = c.seqIn + 1 := by
        intro v hv
        unfold nextMessage at hv ⊢
        revert hv
        split
        · intro hv; simp at hv
        · split
          · intro hv; simp at hv
          · simp only
            split
            · intro hv; simp at hv
            · split
              · intro hv; simp at hv
              · split
                · rename_i hs; intro hv; simp only [Except.ok.injEq, Option.some.injEq] at hv; subst hv; exact ⟨hs, rfl⟩
                · intro hv; simp at hv
      have hnone : (nextMessage feq c).1 = .ok none → (nextMessage feq c).2.seqIn = c.seqIn := by
        intro h; rw [nextMessage_none_state feq c h]
      simp only [runRecv]
      cases hr : (nextMessage feq c).1 with
      | error e =>
        refine ⟨ns, by simpa [accepted] using h1, by simpa [accepted] using h2, h3, fun n hn => Nat.le_trans hmono (h4 n hn), ?_⟩
        intro h; simp [hasErr] at h
      | ok o =>
        cases o with
        | none =>
          refine ⟨ns, by simpa [accepted] using h1, by simpa [accepted] using h2, h3, fun n hn => Nat.le_trans hmono (h4 n hn), ?_⟩
          intro h
          rw [← hnone hr]
          exact h5 (by simpa [hasErr] using h)
        | some v =>
          obtain ⟨ha, hb⟩ := hacc v hr
          refine ⟨c.seqIn :: ns, by simp [accepted, h1], ?_, ?_, ?_, ?_⟩
          · intro p hp
            simp only [accepted, List.zip_cons_cons, List.mem_cons] at hp
            rcases hp with rfl | hp
            · exact ha
            · exact h2 p hp
          · rw [List.pairwise_cons]
            exact ⟨fun n hn => by have := h4 n hn; omega, h3⟩
          · intro n hn
            rcases List.mem_cons.mp hn with rfl | hn
            · exact Nat.le_refl _
            · have := h4 n hn; omega
          · intro h
            have := h5 (by simpa [hasErr] using h)
            rw [hb] at this
            simp only [List.length_cons, List.range'_succ]
            rw [← this]

theorem seqIs_numbered (feq) (v : Val) (n : Nat) : seqIs feq v n = true ↔ Numbered feq v n := by
  unfold seqIs Numbered
  cases h : v.attr? py!"seq" with
  | none => simp
  | some x =>
    cases x with
    | bool b => cases b <;> simp
    | _ => simp

/-- C05: as long as nothing raised, the k-th message returned has seq k. -/
theorem C05_receive_numbers (feq) (ops : List RecvOp) (h : ∀ r ∈ (runRecv feq init ops).1, ∀ e, r ≠ .error e)
    (k : Nat) (v : Val) (hv : (accepted (runRecv feq init ops).1)[k]? = some v) : Numbered feq v (k + 1) := by
  obtain ⟨ns, h1, h2, -, -, h5⟩ := recv_seqs feq ops init
  have hne : hasErr (runRecv feq init ops).1 = false := by
    unfold hasErr
    rw [List.any_eq_false]
    intro r hr
    cases r with
    | error e => exact absurd rfl (h _ hr e)
    | ok _ => simp
  have h5 := h5 hne
  obtain ⟨hk, rfl⟩ := List.getElem?_eq_some_iff.mp hv
  have hk' : k < ns.length := by omega
  have hz : ((k + 1, (accepted (runRecv feq init ops).1)[k]) : Nat × Val) ∈ ns.zip (accepted (runRecv feq init ops).1) := by
    rw [List.mem_iff_getElem]
    refine ⟨k, by simp; omega, ?_⟩
    rw [List.getElem_zip]
    congr 1
    have : ns[k]'hk' = (List.range' init.seqIn ns.length)[k]'(by simpa using hk') := by congr 1
    rw [this, List.getElem_range']; simp [init]; omega
  exact (seqIs_numbered feq _ _).1 (h2 _ hz)

/-- C05, whatever happened: the messages returned carry strictly increasing numbers, so no
message is accepted twice. -/
theorem C05_no_duplicates (feq) (ops : List RecvOp) :
    ∃ ns : List Nat, ns.length = (accepted (runRecv feq init ops).1).length ∧
      (∀ p ∈ ns.zip (accepted (runRecv feq init ops).1), Numbered feq p.2 p.1) ∧ ns.Pairwise (· < ·) := by
  obtain ⟨ns, h1, h2, h3, -⟩ := recv_seqs feq ops init
  exact ⟨ns, h1, fun p hp => (seqIs_numbered feq _ _).1 (h2 p hp), h3⟩

/-- C05: a complete message with another number than the expected one raises ValueError. -/
theorem C05_wrong_number_rejected (feq) (c : Conn) (f payload rest : Bytes) (v : Val) (hb : c.inBuf = f ++ rest)
    (hf : Frame f payload) (hd : decodeMsg payload = .ok v) (hs : ¬ Numbered feq v c.seqIn) :
    (nextMessage feq c).1 = .error .value := by
  rw [← seqIs_numbered, Bool.not_eq_true] at hs
  rw [nextMessage_frame feq c (payload.map UInt8.toNat) rest (by rw [hb, frame_eq f payload hf]), ofNat_map_toNat, hd]
  simp [hs]

/-! ## C06 -/

theorem firstHeader_iff (buf : Bytes) (i : Nat) (h : findSub bytes!"\r\n\r\n" buf = some i) (raw post : Bytes) :
    FirstHeader buf raw post ↔ raw = buf.take i ∧ post = buf.drop (i + 4) := by
  have h1 := findSub_some _ _ _ h
  have hb := findSub_bound _ _ _ h
  simp only [List.length_cons, List.length_nil] at hb h1
  constructor
  · rintro ⟨he, hmin⟩
    have hle := hmin _ _ h1
    rw [List.length_take, Nat.min_eq_left (by omega)] at hle
    obtain ⟨j, hj, hjle⟩ := findSub_first bytes!"\r\n\r\n" raw post
    rw [← he, h] at hj
    cases hj
    have hlen : raw.length = i := by omega
    constructor
    · rw [he, List.append_assoc, ← hlen]; exact (List.take_left' rfl).symm
    · rw [he]; exact (List.drop_left' (by simp; omega)).symm
  · rintro ⟨rfl, rfl⟩
    refine ⟨h1, ?_⟩
    intro raw' post' he
    rw [List.length_take, Nat.min_eq_left (by omega)]
    obtain ⟨j, hj, hjle⟩ := findSub_first bytes!"\r\n\r\n" raw' post'
    rw [← he, h] at hj
    cases hj; exact hjle

theorem firstHeader_find (buf raw post : Bytes) (h : FirstHeader buf raw post) : findSub bytes!"\r\n\r\n" buf = some raw.length := by
  obtain ⟨j, hj, hjle⟩ := findSub_first bytes!"\r\n\r\n" raw post
  rw [← h.1] at hj
  have hb := findSub_bound _ _ _ hj
  simp only [List.length_cons, List.length_nil] at hb
  have := h.2 _ _ (findSub_some _ _ _ hj)
  rw [List.length_take, Nat.min_eq_left (by omega)] at this
  rw [hj]; congr 1; omega

/-- C06: None is returned exactly when there is no complete header block yet, or the payload it
announces is not complete. -/
theorem C06_none_iff (feq) (c : Conn) : (nextMessage feq c).1 = .ok none ↔
    ¬ Occurs bytes!"\r\n\r\n" c.inBuf ∨
    ∃ raw post n, FirstHeader c.inBuf raw post ∧ Announces raw n ∧ (post.length : Int) < n := by
  unfold nextMessage
  cases hf : findSub bytes!"\r\n\r\n" c.inBuf with
  | none => simp only [true_iff]; left; exact (not_occurs_iff _ _).mpr hf
  | some i =>
    have hb := findSub_bound _ _ _ hf
    simp only [List.length_cons, List.length_nil] at hb
    have hocc : ¬ (¬ Occurs bytes!"\r\n\r\n" c.inBuf) := by rw [not_occurs_iff, hf]; simp
    simp only [hocc, false_or]
    simp only [firstHeader_iff c.inBuf i hf]
    cases hc : contentLength (c.inBuf.take i) with
    | error e =>
      simp only [reduceCtorEq, false_iff]
      rintro ⟨raw, post, n, ⟨rfl, rfl⟩, ha, -⟩
      rw [(contentLength_iff _ _).mpr ha] at hc; cases hc
    | ok n =>
      simp only
      constructor
      · intro h
        refine ⟨_, _, n, ⟨rfl, rfl⟩, (contentLength_iff _ _).mp hc, ?_⟩
        split at h
        · rename_i hl; simp only [List.length_drop]; omega
        · split at h
          · cases h
          · split at h <;> simp at h
      · rintro ⟨raw, post, m, ⟨rfl, rfl⟩, ha, hl⟩
        rw [(contentLength_iff _ _).mpr ha] at hc
        cases hc
        simp only [List.length_drop] at hl
        rw [if_pos (by omega)]

/-- C06: returning None changes nothing at all. -/
theorem C06_none_unchanged (feq) (c : Conn) (h : (nextMessage feq c).1 = .ok none) : (nextMessage feq c).2 = c :=
  nextMessage_none_state feq c h

/-- C06: a complete header block that announces no length raises ValueError, now and on every
later poll, whatever arrives. -/
theorem C06_bad_header_sticks (feq) (c : Conn) (raw post : Bytes) (hh : FirstHeader c.inBuf raw post)
    (hno : ∀ n, ¬ Announces raw n) (ops : List RecvOp) :
    ∀ r ∈ (runRecv feq c ops).1, r = .error .value := by
  have key : ∀ (ops : List RecvOp) (c : Conn), findSub bytes!"\r\n\r\n" c.inBuf = some raw.length → c.inBuf.take raw.length = raw →
      ∀ r ∈ (runRecv feq c ops).1, r = .error .value := by
    intro ops
    induction ops with
    | nil => intro c _ _ r hr; simp [runRecv] at hr
    | cons op ops ih =>
      intro c h1 h2
      have hb := findSub_bound _ _ _ h1
      cases op with
      | recv d =>
        simp only [runRecv]
        refine ih (receiveData c d) (findSub_prefix _ _ _ _ h1) ?_
        simp only [receiveData]
        rw [List.take_append_of_le_length (by omega)]; exact h2
      | poll =>
        have hcl : ∃ e, contentLength raw = .error e := by
          cases h : contentLength raw with
          | error e => exact ⟨e, rfl⟩
          | ok n => exact absurd ((contentLength_iff _ _).mp h) (hno n)
        obtain ⟨e, he⟩ := hcl
        have hev := contentLength_error _ _ he
        subst hev
        have hn : nextMessage feq c = (.error .value, c) := by
          unfold nextMessage
          rw [h1]; simp only [h2, he]
        intro r hr
        simp only [runRecv, hn, List.mem_cons] at hr
        rcases hr with rfl | hr
        · rfl
        · exact ih c h1 h2 r hr
  have hfi := firstHeader_find _ _ _ hh
  refine key ops c hfi ?_
  exact ((firstHeader_iff _ _ hfi _ _).mp hh).1.symm

/-- Non-vacuity of C06: a header block without Content-Length. -/
example : FirstHeader bytes!"Foo: 1\r\n\r\nabc" bytes!"Foo: 1" bytes!"abc" ∧ ∀ n, ¬ Announces bytes!"Foo: 1" n := by
  refine ⟨(firstHeader_iff _ 6 (by decide +kernel) _ _).mpr ⟨rfl, rfl⟩, ?_⟩
  intro n h
  have := (contentLength_iff _ _).mpr h
  revert this
  rw [show contentLength bytes!"Foo: 1" = .error .value from rfl]
  simp

/-! ## C07 -/

/-- C07 (partial): a message rejected for its sequence number alone does not desynchronise:
the following correctly numbered messages are all accepted. -/
theorem C07_wrong_seq_recovers_partial (feq) (c : Conn) (f payload rest : Bytes) (v : Val) (ms : List Val)
    (hw : ∀ m ∈ ms, Wire m) (hf : Frame f payload) (hd : decodeMsg payload = .ok v) (hs : ¬ Numbered feq v c.seqIn)
    (hr : Frames (c.seqIn + 1) ms rest) (hb : c.inBuf = f ++ rest) :
    (runRecv feq c (polls (1 + ms.length))).1 =
      .error .value :: (stamped (c.seqIn + 1) ms).map (fun m => .ok (some m)) := by
  rw [frames_unique _ _ _ hw hr] at hb
  have hn := nextMessage_frame feq c (payload.map UInt8.toNat) (frames (c.seqIn + 1) ms) (by rw [hb, frame_eq f payload hf])
  rw [ofNat_map_toNat, hd] at hn
  rw [← seqIs_numbered, Bool.not_eq_true] at hs
  simp only [hs, Bool.false_eq_true, if_false] at hn
  rw [show 1 + ms.length = ms.length + 1 by omega]
  simp only [polls, runRecv, hn]
  congr 1
  rw [polls_frames feq ms hw _ rfl]

/-- C07 is false for every other rejection: after a complete message that could not be
decoded (bad JSON, unknown command, ...) every following correctly numbered message is
rejected too, for ever. -/
theorem C07_refuted (feq) (c : Conn) (f payload rest : Bytes) (e : PyErr) (ms : List Val)
    (hw : ∀ m ∈ ms, Wire m) (hf : Frame f payload) (hd : decodeMsg payload = .error e)
    (hr : Frames (c.seqIn + 1) ms rest) (hb : c.inBuf = f ++ rest) :
    (runRecv feq c (polls (1 + ms.length))).1 = .error e :: List.replicate ms.length (.error .value) := by
  rw [frames_unique _ _ _ hw hr] at hb
  have hn := nextMessage_frame feq c (payload.map UInt8.toNat) (frames (c.seqIn + 1) ms) (by rw [hb, frame_eq f payload hf])
  rw [ofNat_map_toNat, hd] at hn
  simp only at hn
  rw [show 1 + ms.length = ms.length + 1 by omega]
  simp only [polls, runRecv, hn]
  congr 1
  clear hn hb hd hf hr
  -- from here on the expected number is one behind the number of the message at hand
  have key : ∀ (ms : List Val) (c : Conn), (∀ m ∈ ms, Wire m) → c.inBuf = frames (c.seqIn + 1) ms →
      (runRecv feq c (polls ms.length)).1 = List.replicate ms.length (.error .value) := by
    intro ms
    induction ms with
    | nil => intro c _ _; rfl
    | cons m ms ih =>
      intro c hw hb
      have hn := nextMessage_frame feq c _ _ hb
      rw [wire_decode m (hw m (by simp)), ] at hn
      have hs : seqIs feq (setSeq m (c.seqIn + 1)) c.seqIn = false := by
        rw [wire_seq feq m (hw m (by simp))]; simp
      simp only [hs, Bool.false_eq_true, if_false] at hn
      simp only [List.length_cons, polls, runRecv, hn, List.replicate_succ]
      congr 1
      exact ih _ (fun x hx => hw x (by simp [hx])) rfl
  exact key ms _ hw rfl

/-- C07, exactly: a complete message is rejected, correctly numbered messages follow (at least one). They are accepted iff the rejected message could be decoded,
that is, was rejected for its number alone. (A header without a length is C06.) -/
theorem C07_exact_partial (feq) (c : Conn) (f payload rest : Bytes) (e : PyErr) (ms : List Val) (hne : ms ≠ [])
    (hw : ∀ m ∈ ms, Wire m) (hf : Frame f payload) (hrej : (nextMessage feq c).1 = .error e)
    (hr : Frames (c.seqIn + 1) ms rest) (hb : c.inBuf = f ++ rest) :
    (runRecv feq c (polls (1 + ms.length))).1 = .error e :: (stamped (c.seqIn + 1) ms).map (fun m => .ok (some m)) ↔
      ∃ v, decodeMsg payload = .ok v := by
  have hn := nextMessage_frame feq c (payload.map UInt8.toNat) rest (by rw [hb, frame_eq f payload hf])
  rw [ofNat_map_toNat] at hn
  cases hd : decodeMsg payload with
  | error e' =>
    have := C07_refuted feq c f payload rest e' ms hw hf hd hr hb
    rw [this]
    cases ms with
    | nil => exact absurd rfl hne
    | cons m ms => simp [stamped, List.replicate_succ]
  | ok v =>
    rw [hd] at hn
    have hs : seqIs feq v c.seqIn = false := by
      cases hs : seqIs feq v c.seqIn with
      | false => rfl
      | true => simp only [hs] at hn; rw [hn] at hrej; cases hrej
    have := C07_wrong_seq_recovers_partial feq c f payload rest v ms hw hf hd (by rw [← seqIs_numbered, hs]; simp) hr hb
    rw [this]
    simp only [hs, Bool.false_eq_true, if_false] at hn
    rw [hn] at hrej
    cases hrej
    simp

/-- Non-vacuity of C07: a request with an unknown command. -/
example : ∃ f payload, Frame f payload ∧ decodeMsg payload = .error .value :=
  ⟨_, _, frame_frameOf py!"{\"seq\": 1, \"type\": \"request\", \"command\": \"goto\"}", rfl⟩

end Verif.Props.Conn
