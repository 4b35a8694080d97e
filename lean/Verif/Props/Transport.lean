import Verif.Transport.Lemmas
/-!
# Properties of the debuggee socket (C14 to C18)

`arriving`/`ending` say what reaches the reader, `sendAll` what senders put on the wire; the
pieces in which it arrives are arbitrary.
-/

namespace Verif.Props.Transport
open Verif Verif.Transport

variable {M : Type}

/-! ## C16 -/

/-- C16: `recv(n)` returns exactly the next `n` bytes if that many arrive, and leaves the rest. -/
theorem C16_exact (n : Nat) (es : List Ev) (h : n ≤ (arriving es).length) :
    ∃ es', recv n es = (.ok ((arriving es).take n), es') ∧ arriving es' = (arriving es).drop n ∧ ending es' = ending es := by
  rcases recvLoop_spec n es with ⟨-, h⟩ | ⟨h', -⟩
  · exact h
  · omega

/-- C16: if fewer arrive before the peer closes, all of them are returned; if the stream is
reset or cancelled first, that exception is raised. -/
theorem C16_short (n : Nat) (es : List Ev) (h : (arriving es).length < n) :
    (recv n es).1 = match ending es with | none => .ok (arriving es) | some e => .error e := by
  rcases recvLoop_spec n es with ⟨h', -⟩ | ⟨-, es', h1, -⟩
  · omega
  · unfold recv; rw [h1]; rfl

/-- Non-vacuity. -/
example : (3 ≤ (arriving [.data 1 [], .data 2 [3, 4], .reset]).length ∧ (arriving [.data 1 [], .data 2 [3, 4], .reset]).take 3 = [1, 2, 3]) ∧
    (arriving [.data 1 [], .reset]).length < 3 := by decide

/-! ## C14 -/

theorem sendAll_cons (cd : Codec M) (m : M) (ms : List M) (all : Bytes) (h : sendAll cd (m :: ms) = .ok all) :
    ∃ b bs, send cd m = .ok b ∧ sendAll cd ms = .ok bs ∧ all = b ++ bs := by
  simp only [sendAll] at h
  split at h
  · simp at h
  · rename_i b hb
    split at h
    · simp at h
    · rename_i bs hbs
      simp only [Except.ok.injEq] at h
      exact ⟨b, bs, hb, hbs, h.symm⟩

/-- Whatever follows them, complete messages are delivered first, in order. -/
theorem handler_msgs (cd : Codec M) (onMsg : Nat → M → Option PyErr) (ms : List M) (all rest : Bytes)
    (hs : sendAll cd ms = .ok all) (k : Nat) (hm : ∀ i m, m ∈ ms → onMsg i m = none) (es : List Ev) (ha : arriving es = all ++ rest) :
    ∃ es', arriving es' = rest ∧ ending es' = ending es ∧
      recvHandler cd onMsg k es = ms.map .msg ++ recvHandler cd onMsg (k + ms.length) es' := by
  induction ms generalizing all k es with
  | nil => simp only [sendAll, Except.ok.injEq] at hs; subst hs; exact ⟨es, by simpa using ha, rfl, by simp⟩
  | cons m ms ih =>
    obtain ⟨b, bs, h1, h2, rfl⟩ := sendAll_cons cd m ms all hs
    obtain ⟨es1, a1, e1, r1⟩ := handler_msg cd onMsg k es m b (bs ++ rest) h1 (by rw [ha, List.append_assoc])
    rw [hm k m (by simp)] at r1
    obtain ⟨es2, a2, e2, r2⟩ := ih bs h2 (k + 1) (fun i x hx => hm i x (by simp [hx])) es1 a1
    refine ⟨es2, a2, by rw [e2, e1], ?_⟩
    rw [r1, r2]
    simp only [List.map_cons, List.cons_append, List.length_cons]
    rw [show k + 1 + ms.length = k + (ms.length + 1) by omega]

theorem handler_end (cd : Codec M) (onMsg : Nat → M → Option PyErr) (k : Nat) (es : List Ev) (ha : arriving es = []) :
    recvHandler cd onMsg k es = match ending es with
      | some .cancelled => [.closed none]
      | some e => [.closed (some e)]
      | none => [.closed none] := by
  have hr : recv 4 es = ((match ending es with | none => .ok [] | some e => .error e), (recv 4 es).2) := by
    have := C16_short 4 es (by rw [ha]; simp)
    rw [ha] at this
    exact Prod.ext this rfl
  rw [recvHandler]
  cases hend : ending es with
  | none =>
    rw [hend] at hr
    split
    · rfl
    · rename_i h; rw [hr] at h; cases h
    · rfl
    · rename_i h; rw [hr] at h; cases h
  | some e =>
    rw [hend] at hr
    split
    · rename_i h; rw [hr] at h; cases h; try rfl
    · rename_i hx h; rw [hr] at h; cases h
      cases e <;> first | rfl | exact (hx _ rfl).elim | exact (hx rfl).elim
    · rename_i h; rw [hr] at h; cases h
    · rename_i h; rw [hr] at h; cases h

/-- C14: messages that were sent arrive exactly, in order, whatever the short reads; then,
when the peer has closed, the connection is reported closed without an exception. -/
theorem C14_delivered (cd : Codec M) (onMsg : Nat → M → Option PyErr) (ms : List M) (all : Bytes) (es : List Ev)
    (hs : sendAll cd ms = .ok all) (hm : ∀ i m, m ∈ ms → onMsg i m = none) (ha : arriving es = all) (he : ending es = none) :
    recvHandler cd onMsg 0 es = ms.map .msg ++ [.closed none] := by
  obtain ⟨es', a, e, r⟩ := handler_msgs cd onMsg ms all [] hs 0 hm es (by simpa using ha)
  rw [r, handler_end cd onMsg _ es' a, e, he]

/-- C14: the messages already complete are delivered whatever follows them. -/
theorem C14_prefix_delivered (cd : Codec M) (onMsg : Nat → M → Option PyErr) (ms : List M) (all rest : Bytes) (es : List Ev)
    (hs : sendAll cd ms = .ok all) (hm : ∀ i m, m ∈ ms → onMsg i m = none) (ha : arriving es = all ++ rest) :
    ms.map .msg <+: recvHandler cd onMsg 0 es := by
  obtain ⟨es', a, e, r⟩ := handler_msgs cd onMsg ms all rest hs 0 hm es ha
  rw [r]; exact ⟨_, rfl⟩

/-- C14: sending succeeds exactly for messages shorter than 4 GiB, otherwise OverflowError is
raised and nothing is put on the wire. -/
theorem C14_send_iff (cd : Codec M) (m : M) :
    ((cd.dumps m).length < 2 ^ 32 → ∃ b, send cd m = .ok b ∧ b.length = (cd.dumps m).length + 4) ∧
    (2 ^ 32 ≤ (cd.dumps m).length → send cd m = .error .overflow) := by
  unfold send toBytes4
  constructor
  · intro h; rw [if_pos (by omega)]; exact ⟨_, rfl, by simp⟩
  · intro h; rw [if_neg (by omega)]

/-- A small codec: a byte string is written with a mark before each byte and an end mark. -/
def demoDumps : Bytes → Bytes
  | [] => [0]
  | b :: bs => 1 :: b :: demoDumps bs

def demoLoads : Bytes → Except PyErr Bytes
  | 1 :: b :: r => match demoLoads r with
    | .ok bs => .ok (b :: bs)
    | .error e => .error e
  | [0] => .ok []
  | _ => .error .other

theorem demo_ld (m : Bytes) : demoLoads (demoDumps m) = .ok m := by
  induction m with
  | nil => rfl
  | cons b m ih => simp [demoDumps, demoLoads, ih]

theorem demo_short (m p r : Bytes) (h : demoDumps m = p ++ r) (hr : r ≠ []) : ∃ e, demoLoads p = .error e := by
  induction m generalizing p with
  | nil =>
    cases p with
    | nil => exact ⟨_, rfl⟩
    | cons x p =>
      simp only [demoDumps, List.cons_append, List.cons.injEq] at h
      exact absurd (List.append_eq_nil_iff.mp h.2.symm).2 hr
  | cons b m ih =>
    match p with
    | [] => exact ⟨_, rfl⟩
    | [x] =>
      simp only [demoDumps, List.cons_append, List.cons.injEq] at h
      rw [← h.1]; exact ⟨_, rfl⟩
    | x :: y :: p =>
      simp only [demoDumps, List.cons_append, List.cons.injEq] at h
      obtain ⟨rfl, rfl, h⟩ := h
      obtain ⟨e, he⟩ := ih p h
      exact ⟨e, by simp [demoLoads, he]⟩

/-- Non-vacuity: a codec with the required laws exists. -/
def demoCodec : Codec Bytes := ⟨demoDumps, demoLoads, demo_ld, demo_short, ⟨_, rfl⟩⟩

/-- Non-vacuity of C14: two messages, five short reads. -/
example : recvHandler demoCodec (fun _ _ => none) 0
      [.data 3 [0], .data 0 [0, 1, 7], .data 0 [1], .data 0 [0], .data 0 [0]] = [.msg [7], .msg [], .closed none] := by
  have hs : sendAll demoCodec [[7], []] = .ok [3, 0, 0, 0, 1, 7, 0, 1, 0, 0, 0, 0] := rfl
  exact C14_delivered demoCodec (fun _ _ => none) [[7], []] _ _ hs (fun _ _ _ => rfl) rfl rfl

/-! ## C15 -/

/-- What `connection_closed` is told. -/
theorem handler_partial_calls (cd : Codec M) (onMsg : Nat → M → Option PyErr) (k : Nat) (es : List Ev) (m : M) (b rest : Bytes)
    (hs : send cd m = .ok b) (hr : rest ≠ []) (ha : b = arriving es ++ rest) (he : ending es = none) :
    ∃ exp, recvHandler cd onMsg k es = [.closed exp] ∧ (exp = none ↔ arriving es = []) := by
  have h := handler_partial cd onMsg k es m b rest hs hr ha
  rw [he] at h
  simp only at h
  split at h
  · rename_i hn; exact ⟨none, h, by simp [hn]⟩
  · rename_i hn
    have hl : ∃ e, cd.loads ((arriving es).drop 4) = .error e := by
      obtain ⟨len, rfl, hl4, hfb⟩ := send_ok cd m b hs
      by_cases hge : 4 ≤ (arriving es).length
      · have := congrArg (List.drop 4) ha
        rw [List.drop_left' hl4, List.drop_append_of_le_length hge] at this
        exact cd.loads_short m _ _ this hr
      · rw [List.drop_of_length_le (by omega)]; exact cd.loads_nil
    obtain ⟨e, hl⟩ := hl
    rw [hl] at h
    exact ⟨some e, h, by simp [hn]⟩

/-- C15: if the stream ends after `k` bytes, exactly the messages whose last byte arrived are
delivered (`ms.take j`), then `connection_closed` is called once, without an exception iff the
stream ended between two messages. -/
theorem C15_crash_at_any_byte (cd : Codec M) (onMsg : Nat → M → Option PyErr) (ms : List M) (all : Bytes) (es : List Ev) (k : Nat)
    (hs : sendAll cd ms = .ok all) (hm : ∀ i m, m ∈ ms → onMsg i m = none) (ha : arriving es = all.take k) (he : ending es = none) :
    ∃ j complete exp, j ≤ ms.length ∧ sendAll cd (ms.take j) = .ok complete ∧ complete.length ≤ k ∧
      (∀ more, j < ms.length → sendAll cd (ms.take (j + 1)) = .ok more → k < more.length) ∧
      recvHandler cd onMsg 0 es = (ms.take j).map .msg ++ [.closed exp] ∧
      (exp = none ↔ (complete.length = k ∨ all.length ≤ k)) := by
  suffices H : ∀ (ms : List M) (all : Bytes) (es : List Ev) (k i : Nat), sendAll cd ms = .ok all → (∀ i m, m ∈ ms → onMsg i m = none) →
      arriving es = all.take k → ending es = none →
      ∃ j complete exp, j ≤ ms.length ∧ sendAll cd (ms.take j) = .ok complete ∧ complete.length ≤ k ∧
        (∀ more, j < ms.length → sendAll cd (ms.take (j + 1)) = .ok more → k < more.length) ∧
        recvHandler cd onMsg i es = (ms.take j).map .msg ++ [.closed exp] ∧
        (exp = none ↔ (complete.length = k ∨ all.length ≤ k)) from H ms all es k 0 hs hm ha he
  intro ms
  induction ms with
  | nil =>
    intro all es k i hs _ ha he
    simp only [sendAll, Except.ok.injEq] at hs
    subst hs
    refine ⟨0, [], none, Nat.le_refl _, rfl, Nat.zero_le _, by simp, ?_, by simp⟩
    rw [handler_end cd onMsg i es (by simpa using ha), he]; rfl
  | cons m ms ih =>
    intro all es k i hs hm ha he
    obtain ⟨b, bs, h1, h2, rfl⟩ := sendAll_cons cd m ms all hs
    by_cases hk : b.length ≤ k
    · rw [List.take_append, List.take_of_length_le hk] at ha
      obtain ⟨es1, a1, e1, r1⟩ := handler_msg cd onMsg i es m b _ h1 ha
      rw [hm i m (by simp)] at r1
      obtain ⟨j, complete, exp, g1, g2, g3, g4, g5, g6⟩ := ih bs es1 (k - b.length) (i + 1) h2
        (fun i x hx => hm i x (by simp [hx])) a1 (by rw [e1, he])
      refine ⟨j + 1, b ++ complete, exp, by simp; omega, ?_, by simp; omega, ?_, ?_, ?_⟩
      · simp only [List.take_succ_cons, sendAll, h1, g2]
      · intro more hj hmore
        rw [List.take_succ_cons] at hmore
        obtain ⟨b', bs', q1, q2, rfl⟩ := sendAll_cons cd m _ more hmore
        rw [h1] at q1; cases q1
        have := g4 bs' (by simpa using hj) q2
        simp only [List.length_append]; omega
      · rw [r1, g5]; simp
      · rw [g6]; simp only [List.length_append]
        constructor
        · rintro (h | h)
          · left; omega
          · right; omega
        · rintro (h | h)
          · left; omega
          · right; omega
    · have hk : k < b.length := by omega
      rw [List.take_append_of_le_length (by omega)] at ha
      obtain ⟨exp, hexp, hiff⟩ := handler_partial_calls cd onMsg i es m b (b.drop k) h1
        (by intro h; have := congrArg List.length h; simp at this; omega) (by rw [ha, List.take_append_drop]) he
      refine ⟨0, [], exp, Nat.zero_le _, rfl, Nat.zero_le _, ?_, ?_, ?_⟩
      · intro more _ hmore
        simp only [Nat.zero_add, List.take_succ_cons, List.take_zero, sendAll, h1, Except.ok.injEq, List.append_nil] at hmore
        subst hmore; exact hk
      · rw [hexp]; rfl
      · rw [hiff, ha]
        simp only [List.length_nil, List.take_eq_nil_iff, List.length_append]
        constructor
        · rintro (h | h)
          · left; exact h.symm
          · rw [h] at hk; simp at hk
        · rintro (h | h)
          · left; exact h.symm
          · omega

/-- C15: whatever arrives and however handling the messages goes, `connection_closed` is the
last call and is made exactly once. -/
theorem C15_closed_exactly_once (cd : Codec M) (onMsg : Nat → M → Option PyErr) (k : Nat) (es : List Ev) :
    ∃ (ms : List M) (exp : Option PyErr), recvHandler cd onMsg k es = ms.map .msg ++ [.closed exp] := by
  induction hw : weight es using Nat.strongRecOn generalizing k es with
  | _ w ih =>
    rw [recvHandler]
    split
    · exact ⟨[], none, rfl⟩
    · rename_i e _ _ _; exact ⟨[], some e, rfl⟩
    · exact ⟨[], none, rfl⟩
    · rename_i b bs es1 h1
      have hlt := recv_weight_lt h1
      split
      · exact ⟨[], none, rfl⟩
      · rename_i e _ _ _; exact ⟨[], some e, rfl⟩
      · rename_i data es2 h2
        have hle := recvLoop_weight_le (fromBytes (b :: bs)) es1
        rw [show recvLoop (fromBytes (b :: bs)) es1 = (.ok data, es2) from h2] at hle
        simp only at hle
        split
        · rename_i e _; exact ⟨[], some e, rfl⟩
        · rename_i m _
          split
          · exact ⟨[m], none, rfl⟩
          · rename_i e _ _; exact ⟨[m], some e, rfl⟩
          · obtain ⟨ms, exp, h⟩ := ih (weight es2) (by omega) (k + 1) es2 rfl
            exact ⟨m :: ms, exp, by rw [h]; rfl⟩

/-- C15: a reset or a local cancel instead of a close: the complete messages are delivered,
then the close is reported with the error (reset) or without (cancel). -/
theorem C15_reset_or_cancel (cd : Codec M) (onMsg : Nat → M → Option PyErr) (ms : List M) (m : M) (all b rest part : Bytes) (es : List Ev) (e : PyErr)
    (hs : sendAll cd ms = .ok all) (hm : ∀ i m, m ∈ ms → onMsg i m = none) (hb : send cd m = .ok b) (hp : b = part ++ rest) (hr : rest ≠ [])
    (ha : arriving es = all ++ part) (he : ending es = some e) :
    recvHandler cd onMsg 0 es = ms.map .msg ++ [.closed (if e = .cancelled then none else some e)] := by
  obtain ⟨es', a, e', r⟩ := handler_msgs cd onMsg ms all part hs 0 hm es ha
  rw [r, handler_partial cd onMsg _ es' m b rest hb hr (by rw [a]; exact hp), e', he]
  cases e <;> rfl

/-- Non-vacuity of C15: the second message is cut after three bytes of its header. -/
example : ∃ e, recvHandler demoCodec (fun _ _ => none) 0 [.data 3 [0, 0, 0, 1, 7, 0, 1], .data 0 [0]] = [.msg [7], .closed (some e)] := by
  have hs : sendAll demoCodec [[7], []] = .ok [3, 0, 0, 0, 1, 7, 0, 1, 0, 0, 0, 0] := rfl
  obtain ⟨j, c, exp, h1, h2, h3, h4, h5, h6⟩ := C15_crash_at_any_byte demoCodec (fun _ _ => none) [[7], []] _
    [.data 3 [0, 0, 0, 1, 7, 0, 1], .data 0 [0]] 10 hs (fun _ _ _ => rfl) rfl rfl
  match j, h1 with
  | 0, _ => have := h4 [3, 0, 0, 0, 1, 7, 0] (by decide) rfl; simp at this
  | 1, _ =>
    cases exp with
    | some e => exact ⟨e, h5⟩
    | none =>
      have := h6.mp rfl
      cases h2
      exact absurd this (by decide)
  | 2, _ => cases h2; exact absurd h3 (by decide)

/-! ## C17 -/

variable {A : Type}

theorem set_fresh (l : Dict Nat A) (n : Nat) (a : A) (h : ∀ e ∈ l, e.1 < n) : Dict.set l n a = l ++ [(n, a)] := by
  induction l with
  | nil => rfl
  | cons x l ih =>
    obtain ⟨k, v⟩ := x
    have := h (k, v) (by simp)
    simp only [Dict.set]
    rw [if_neg (by simp only at this; omega), ih (fun e he => h e (by simp [he]))]
    rfl

theorem tok_pending (fails : A → Bool) (ops : List (TokOp A)) (t : Token A) (hc : hasCancel ops = false) (ht : t.cancelled = false)
    (hf : ∀ e ∈ t.funcs, e.1 < t.nextId) :
    (tokRun fails t ops).2.funcs = pending t.nextId t.funcs ops ∧ (tokRun fails t ops).2.cancelled = false := by
  induction ops generalizing t with
  | nil => exact ⟨rfl, ht⟩
  | cons op ops ih =>
    cases op with
    | cancel => simp [hasCancel] at hc
    | enter a =>
      simp only [hasCancel] at hc
      have e : tokStep fails t (.enter a) = (.entered t.nextId, { t with nextId := t.nextId + 1, funcs := Dict.set t.funcs t.nextId a }) := by
        simp [tokStep, Token.enter, ht]
      simp only [tokRun, e, pending]
      have := ih { t with nextId := t.nextId + 1, funcs := Dict.set t.funcs t.nextId a } hc ht (by
        simp only [set_fresh _ _ _ hf]
        intro x hx
        rcases List.mem_append.mp hx with hx | hx
        · have := hf x hx; omega
        · simp only [List.mem_singleton] at hx; subst hx; simp)
      rw [set_fresh _ _ _ hf] at this
      rw [set_fresh _ _ _ hf]
      exact this
    | leave id =>
      simp only [hasCancel] at hc
      simp only [tokRun, tokStep, Token.leave, pending]
      exact ih ⟨Dict.erase t.funcs id, t.nextId, t.cancelled⟩ hc ht (fun x hx => hf x (List.mem_filter.mp hx).1)

theorem runActions_ok (fails : A → Bool) (as : List A) (h : ∀ a ∈ as, fails a = false) : runActions fails as = (as, false) := by
  induction as with
  | nil => rfl
  | cons a as ih =>
    simp only [runActions, h a (by simp), Bool.false_eq_true, if_false, ih (fun x hx => h x (by simp [hx]))]

theorem cancel_ok (fails : A → Bool) (t : Token A) (h : ∀ e ∈ t.funcs, fails e.2 = false) :
    tokStep fails t .cancel = (.ran (t.funcs.map (·.2)) false, { t with cancelled := true, funcs := [] }) := by
  have hr : runActions fails (Dict.vals t.funcs) = (t.funcs.map (·.2), false) := runActions_ok _ _ (by intro a ha; obtain ⟨e, he, rfl⟩ := List.mem_map.mp ha; exact h e he)
  simp only [tokStep, Token.cancel, hr]
  rfl

/-- C17: after any history of operations entering and leaving, `cancel` executes the actions of
exactly the operations pending at that moment, each once, in the order in which they started
(provided none of them fails). -/
theorem C17_cancel_reaches_pending (fails : A → Bool) (ops : List (TokOp A)) (hc : hasCancel ops = false)
    (hf : ∀ e ∈ pending 0 [] ops, fails e.2 = false) :
    (tokRun fails Token.init (ops ++ [.cancel])).1 =
      (tokRun fails Token.init ops).1 ++ [.ran ((pending 0 [] ops).map (·.2)) false] := by
  have happ : ∀ (ops ops' : List (TokOp A)) (t : Token A), (tokRun fails t (ops ++ ops')).1 =
      (tokRun fails t ops).1 ++ (tokRun fails (tokRun fails t ops).2 ops').1 := by
    intro ops ops'
    induction ops with
    | nil => intro t; rfl
    | cons op ops ih => intro t; simp only [List.cons_append, tokRun, ih]
  rw [happ]
  congr 1
  have hp := (tok_pending fails ops Token.init hc rfl (by simp [Token.init])).1
  have hp' : (tokRun fails Token.init ops).2.funcs = pending 0 [] ops := hp
  simp only [tokRun]
  rw [cancel_ok fails _ (by rw [hp']; exact hf), hp']

/-- C17: once cancelled, for ever cancelled: every later operation is refused before it touches
its socket, and later cancels execute nothing (so that no action is executed twice). -/
theorem C17_cancelled_for_ever (fails : A → Bool) (t : Token A) (hn : ∀ e ∈ t.funcs, fails e.2 = false) (ops : List (TokOp A)) :
    ∀ o ∈ (tokRun fails (tokStep fails t .cancel).2 ops).1,
      o = .refused ∨ o = .left ∨ o = .ran [] false := by
  have h0 : (tokStep fails t .cancel).2 = { t with cancelled := true, funcs := [] } := by
    rw [cancel_ok fails t hn]
  rw [h0]
  generalize t.nextId = n
  induction ops with
  | nil => simp [tokRun]
  | cons op ops ih =>
    intro o ho
    have e : tokStep fails { funcs := [], nextId := n, cancelled := true } op =
        ((tokStep fails { funcs := [], nextId := n, cancelled := true } op).1, { funcs := [], nextId := n, cancelled := true }) := by
      cases op <;> simp [tokStep, Token.enter, Token.leave, Token.cancel, Dict.erase, Dict.vals, runActions]
    simp only [tokRun, List.mem_cons] at ho
    rw [e] at ho
    simp only at ho
    rcases ho with rfl | ho
    · cases op <;> simp [tokStep, Token.enter, Token.leave, Token.cancel, Dict.vals, runActions]
    · exact ih o ho

/-- C17: a refused operation ends with CancelledError and changes nothing; before a cancel every operation is admitted. -/
theorem C17_admission (fails : A → Bool) (t : Token A) (a : A) :
    (t.cancelled = true → tokStep fails t (.enter a) = (.refused, t) ∧ (t.enter a).1 = .error .cancelled) ∧
    (t.cancelled = false → (tokStep fails t (.enter a)).1 = .entered t.nextId) := by
  constructor <;> intro h <;> simp [tokStep, Token.enter, h]

/-- C17: an operation pending when the token was cancelled never reports data or a usable
connection it read or made: receiving and connecting raise; accepting and sending raise
CancelledError whenever their socket was shut down under them. Without a cancel every result
is passed on unchanged. -/
theorem C17_results {R : Type} :
    (∀ (k : OpKind) (s : Sys R), opResult k true s = .error .cancelled ∨
      (k = .accept ∧ ∃ r, s = .ok r ∧ opResult k true s = .ok r) ∨ (k = .sendall ∧ ∃ r, s = .ok r ∧ opResult k true s = .ok r) ∨
      (k = .recvInto ∧ (∀ r, s ≠ .ok r) ∧ opResult k true s = .error .os) ∨ (k = .connect ∧ s = .notReady ∧ opResult k true s = .error .timeout)) ∧
    (∀ (k : OpKind) (r : R), opResult k false (.ok r) = .ok r) ∧
    (∀ (k : OpKind), opResult k false (.oserror : Sys R) = .error .os) := by
  refine ⟨?_, ?_, ?_⟩
  · intro k s; cases k <;> cases s <;> simp [opResult]
  · intro k r; cases k <;> rfl
  · intro k; cases k <;> rfl

/-- Non-vacuity of C17: three operations, one of which has ended. -/
example : pending 0 [] [.enter "recv", .enter "send", .leave 0, .enter "accept"] = [(1, "send"), (2, "accept")] ∧
    hasCancel [.enter "recv", .enter "send", .leave 0, .enter "accept"] = false := ⟨rfl, rfl⟩

/-! ## C18 -/

/-- C18 is false of the code: if the action of one pending operation fails, no later one is
executed, and - because the list is not cleared - every further `cancel` stops at the same
place: the operations behind it are never cancelled. -/
theorem C18_refuted (fails : A → Bool) (t : Token A) (pre post : List (Nat × A)) (x : Nat × A) (hx : fails x.2 = true)
    (hpre : ∀ e ∈ pre, fails e.2 = false) (ht : t.funcs = pre ++ x :: post) (n : Nat) :
    (tokRun fails t (List.replicate n .cancel)).1 = List.replicate n (.ran (pre.map (·.2) ++ [x.2]) true) := by
  have hr : ∀ (l : List (Nat × A)) (post : List A), (∀ e ∈ l, fails e.2 = false) →
      runActions fails (l.map (·.2) ++ x.2 :: post) = (l.map (·.2) ++ [x.2], true) := by
    intro l post hl
    induction l with
    | nil => simp [runActions, hx]
    | cons e l ih => simp only [List.map_cons, List.cons_append, runActions, hl e (by simp), Bool.false_eq_true, if_false, ih (fun y hy => hl y (by simp [hy]))]
  have key : ∀ (n : Nat) (t : Token A), t.funcs = pre ++ x :: post →
      (tokRun fails t (List.replicate n .cancel)).1 = List.replicate n (.ran (pre.map (·.2) ++ [x.2]) true) := by
    intro n
    induction n with
    | zero => intro t _; rfl
    | succ n ih =>
      intro t ht
      have e : tokStep fails t .cancel = (.ran (pre.map (·.2) ++ [x.2]) true, { t with cancelled := true }) := by
        simp only [tokStep, Token.cancel, ht, Dict.vals, List.map_append, List.map_cons]
        rw [hr _ _ hpre]; rfl
      simp only [List.replicate_succ, tokRun, e]
      rw [ih { t with cancelled := true } ht]
  exact key n t ht

/-- C18, the part that holds: the operations before the failing one are cancelled, and new
operations are refused even though `cancel` raised. -/
theorem C18_before_failing_partial (fails : A → Bool) (t : Token A) (a : A) :
    (tokStep fails t .cancel).2.cancelled = true ∧ tokStep fails (tokStep fails t .cancel).2 (.enter a) = (.refused, (tokStep fails t .cancel).2) := by
  have h : (tokStep fails t .cancel).2.cancelled = true := by
    simp only [tokStep, Token.cancel]; split <;> rfl
  exact ⟨h, ((C17_admission fails _ a).1 h).1⟩

/-- C18, exactly: `cancel` executes the actions of the pending operations in the order in which these started, up to and including the first that fails. An
operation is cancelled iff no action of one that started before it fails. -/
theorem C18_exact_partial (fails : A → Bool) (t : Token A) (pre post : List (Nat × A)) (x : Nat × A) (ht : t.funcs = pre ++ x :: post) :
    (∃ ran err, (tokStep fails t .cancel).1 = .ran (ran : List A) err ∧ (pre.map (·.2) ++ [x.2]) <+: ran) ↔ ∀ e ∈ pre, fails e.2 = false := by
  have hc : (tokStep fails t .cancel).1 = .ran (runActions fails (pre.map (·.2) ++ x.2 :: post.map (·.2))).1 (runActions fails (pre.map (·.2) ++ x.2 :: post.map (·.2))).2 := by
    simp only [tokStep, Token.cancel, ht, Dict.vals, List.map_append, List.map_cons]
    split <;> simp_all
  have key : ∀ pre : List (Nat × A), (pre.map (·.2) ++ [x.2]) <+: (runActions fails (pre.map (·.2) ++ x.2 :: post.map (·.2))).1 ↔ ∀ e ∈ pre, fails e.2 = false := by
    intro pre
    induction pre with
    | nil =>
      simp only [List.map_nil, List.nil_append, runActions]
      split <;> simp
    | cons e pre ih =>
      simp only [List.map_cons, List.cons_append, runActions]
      cases he : fails e.2 with
      | true =>
        simp only [if_true]
        constructor
        · intro h
          have := h.length_le
          simp at this
        · intro h
          have := h e (by simp)
          rw [he] at this; cases this
      | false =>
        simp only [Bool.false_eq_true, if_false, List.cons_prefix_cons, true_and]
        rw [ih]
        simp [he]
  constructor
  · rintro ⟨ran, err, h1, h2⟩
    rw [hc] at h1
    cases h1
    exact (key pre).1 h2
  · intro h
    exact ⟨_, _, hc, (key pre).2 h⟩

/-- Non-vacuity: a connect that is not established fails to shut down (ENOTCONN); the receive
that started later is stranded. -/
example : (tokRun (fun a => a == "connect") Token.init [.enter "connect", .enter "recv", .cancel, .cancel]).1 =
    [.entered 0, .entered 1, .ran ["connect"] true, .ran ["connect"] true] := rfl

end Verif.Props.Transport
