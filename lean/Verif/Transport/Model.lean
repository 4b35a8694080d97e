import Verif.Py.Basic
/-!
# The socket between debug adapter and debuggee

Models of `SocketHelper.recv`, `MPQueue.send`, `MPQueue._recv_handler`,
`SocketCancellationToken` (/repo/src/ansibug/_socket_helper.py:140-369,
/repo/src/ansibug/_mp_queue.py:75-123).
-/

namespace Verif.Transport
open Verif

/-! ## Reading -/

/-- What the operating system lets the reader see, in order. A `data` event is a non-empty
piece of the stream: a short read returns at most the rest of one piece, so a list of pieces
is an arbitrary pattern of short reads. `cancel` is a `cancel()` of the token from another
thread, `reset` any OSError of the read. After the last event the peer has closed. -/
inductive Ev where
  | data (b : UInt8) (bs : Bytes)
  | cancel
  | reset
deriving DecidableEq, Repr

/-- One `cancel_token.recv_into(sock, view, n)` with `n > 0` (_socket_helper.py:309-320): the
bytes stored in the view, or the exception, and what is left to see. Once the token is
cancelled every call raises (_socket_helper.py:352, _socket_helper.py:317), which is why the cancel event stays. -/
def recvInto (n : Nat) : List Ev → Except PyErr Bytes × List Ev
  | [] => (.ok [], [])
  | .cancel :: es => (.error .cancelled, .cancel :: es)
  | .reset :: es => (.error .os, .reset :: es)
  | .data b bs :: es =>
    match (b :: bs).drop n with
    | [] => (.ok (b :: bs), es)
    | r :: rs => (.ok ((b :: bs).take n), .data r rs :: es)

/-- The number of events and bytes left, for termination. -/
def weight : List Ev → Nat
  | [] => 0
  | .data _ bs :: es => bs.length + 2 + weight es
  | _ :: es => 1 + weight es

theorem recvInto_weight {n : Nat} {es es' : List Ev} {b : UInt8} {bs : Bytes} (h : recvInto n es = (.ok (b :: bs), es')) :
    weight es' < weight es := by
  cases es with
  | nil => simp [recvInto] at h
  | cons e es =>
    cases e with
    | cancel => simp [recvInto] at h
    | reset => simp [recvInto] at h
    | data c cs =>
      simp only [recvInto] at h
      split at h
      · simp only [Prod.mk.injEq, Except.ok.injEq] at h
        rw [← h.2]; simp only [weight]; omega
      · rename_i r rs hd
        simp only [Prod.mk.injEq, Except.ok.injEq] at h
        obtain ⟨h1, h2⟩ := h
        rw [← h2]
        have hl := congrArg List.length hd
        have hl1 := congrArg List.length h1
        simp only [List.length_drop, List.length_take, List.length_cons] at hl hl1
        simp only [weight]; omega

/-- The loop of `SocketHelper.recv` (_socket_helper.py:186-192): `missing` is `n - read`. -/
def recvLoop (missing : Nat) (es : List Ev) : Except PyErr Bytes × List Ev :=
  if missing = 0 then (.ok [], es)
  else
    match h : recvInto missing es with
    | (.error e, es') => (.error e, es')
    | (.ok [], es') => (.ok [], es')
    | (.ok (b :: bs), es') =>
      match recvLoop (missing - (b :: bs).length) es' with
      | (.error e, es'') => (.error e, es'')
      | (.ok more, es'') => (.ok (b :: bs ++ more), es'')
termination_by weight es
decreasing_by exact recvInto_weight h

/-- `SocketHelper.recv(n)` (_socket_helper.py:176-197); logging is not modelled. -/
def recv (n : Nat) (es : List Ev) : Except PyErr Bytes × List Ev := recvLoop n es

/-! ## Messages -/

/-- The serialisation (`pickle`), not modelled further: what is dumped can be loaded, and a
truncated dump cannot (a pickle ends with its only STOP opcode). -/
structure Codec (M : Type) where
  dumps : M → Bytes
  loads : Bytes → Except PyErr M
  loads_dumps : ∀ m, loads (dumps m) = .ok m
  loads_short : ∀ m p r, dumps m = p ++ r → r ≠ [] → ∃ e, loads p = .error e
  loads_nil : ∃ e, loads [] = .error e

/-- `n.to_bytes(4, byteorder="little")`, `none` for OverflowError (_mp_queue.py:80). -/
def toBytes4 (n : Nat) : Option Bytes :=
  if n < 4294967296 then
    some [UInt8.ofNat (n % 256), UInt8.ofNat (n / 256 % 256), UInt8.ofNat (n / 65536 % 256), UInt8.ofNat (n / 16777216 % 256)]
  else none

/-- `int.from_bytes(b, byteorder="little")` (_mp_queue.py:109). -/
def fromBytes : Bytes → Nat
  | [] => 0
  | b :: bs => b.toNat + 256 * fromBytes bs

/-- `MPQueue.send` (_mp_queue.py:75-81): the bytes put on the wire. -/
def send {M : Type} (cd : Codec M) (m : M) : Except PyErr Bytes :=
  match toBytes4 (cd.dumps m).length with
  | none => .error .overflow
  | some len => .ok (len ++ cd.dumps m)

/-- The calls made on the protocol object. -/
inductive Call (M : Type) where
  | msg (m : M)
  | closed (exp : Option PyErr)
deriving DecidableEq, Repr

theorem recvLoop_weight_le (n : Nat) (es : List Ev) : weight (recvLoop n es).2 ≤ weight es := by
  induction n, es using recvLoop.induct with
  | case1 es => rw [recvLoop]; simp
  | case2 n es hn e es' h =>
    rw [recvLoop, if_neg hn]; split
    · rename_i h'; rw [h] at h'; cases h'
      cases es with
      | nil => simp [recvInto] at h
      | cons x es =>
        cases x with
        | cancel => simp only [recvInto, Prod.mk.injEq] at h; rw [← h.2]; exact Nat.le_refl _
        | reset => simp only [recvInto, Prod.mk.injEq] at h; rw [← h.2]; exact Nat.le_refl _
        | data c cs => simp only [recvInto] at h; split at h <;> simp at h
    · rename_i h'; rw [h] at h'; cases h'
    · rename_i h'; rw [h] at h'; cases h'
  | case3 n es hn es' h =>
    rw [recvLoop, if_neg hn]; split
    · rename_i h'; rw [h] at h'; cases h'
    · rename_i h'; rw [h] at h'; cases h'
      cases es with
      | nil => simp only [recvInto, Prod.mk.injEq] at h; rw [← h.2]; exact Nat.le_refl _
      | cons x es =>
        cases x with
        | cancel => simp [recvInto] at h
        | reset => simp [recvInto] at h
        | data c cs =>
          simp only [recvInto] at h
          split at h
          · simp at h
          · rename_i r rs hd
            simp only [Prod.mk.injEq, Except.ok.injEq] at h
            cases n with
            | zero => exact absurd rfl hn
            | succ n => simp at h
    · rename_i h'; rw [h] at h'; cases h'
  | case4 n es hn b bs es' h e es'' hr ih =>
    have hw := recvInto_weight h
    rw [recvLoop, if_neg hn]; split
    · rename_i h'; rw [h] at h'; cases h'
    · rename_i h'; rw [h] at h'; cases h'
    · rename_i h'; rw [h] at h'; cases h'
      rw [hr]; simp only; rw [hr] at ih; simp only at ih; omega
  | case5 n es hn b bs es' h more es'' hr ih =>
    have hw := recvInto_weight h
    rw [recvLoop, if_neg hn]; split
    · rename_i h'; rw [h] at h'; cases h'
    · rename_i h'; rw [h] at h'; cases h'
    · rename_i h'; rw [h] at h'; cases h'
      rw [hr]; simp only; rw [hr] at ih; simp only at ih; omega

theorem recv_weight_lt {n : Nat} {es es' : List Ev} {b : UInt8} {bs : Bytes} (h : recvLoop n es = (.ok (b :: bs), es')) :
    weight es' < weight es := by
  rw [recvLoop] at h
  split at h
  · simp at h
  · split at h
    · simp at h
    · simp at h
    · rename_i c cs es1 h1
      have hw := recvInto_weight h1
      have hle := recvLoop_weight_le (n - (c :: cs).length) es1
      split at h
      · simp at h
      · rename_i more es2 h2
        simp only [Prod.mk.injEq] at h
        rw [h2] at hle
        rw [← h.2]; simp only at hle; omega

/-- `MPQueue._recv_handler` (_mp_queue.py:102-123): the calls made on the protocol object.
`onMsg k m` is the exception that handling the `k`-th message raises, if any. -/
def recvHandler {M : Type} (cd : Codec M) (onMsg : Nat → M → Option PyErr) (k : Nat) (es : List Ev) : List (Call M) :=
  match h : recv 4 es with
  | (.error .cancelled, _) => [.closed none]
  | (.error e, _) => [.closed (some e)]
  | (.ok [], _) => [.closed none]
  | (.ok (b :: bs), es1) =>
    match h2 : recv (fromBytes (b :: bs)) es1 with
    | (.error .cancelled, _) => [.closed none]
    | (.error e, _) => [.closed (some e)]
    | (.ok data, es2) =>
      match cd.loads data with
      | .error e => [.closed (some e)]
      | .ok m =>
        match onMsg k m with
        | some .cancelled => [.msg m, .closed none]
        | some e => [.msg m, .closed (some e)]
        | none => .msg m :: recvHandler cd onMsg (k + 1) es2
termination_by weight es
decreasing_by
  have h3 := recv_weight_lt h
  have h4 := recvLoop_weight_le (fromBytes (b :: bs)) es1
  rw [show recvLoop (fromBytes (b :: bs)) es1 = (.ok data, es2) from h2] at h4
  simp only at h4; omega

/-! ## The cancellation token -/

/-- The state of a `SocketCancellationToken` (_socket_helper.py:234-238). `A` identifies the
cancel action of an operation. -/
structure Token (A : Type) where
  funcs : Dict Nat A
  nextId : Nat
  cancelled : Bool

/-- `SocketCancellationToken()`. -/
def Token.init {A : Type} : Token A := ⟨[], 0, false⟩

/-- Entering `with_cancel(func)` (_socket_helper.py:351-357): the id, or CancelledError. The
lock makes this one step. -/
def Token.enter {A : Type} (t : Token A) (a : A) : Except PyErr Nat × Token A :=
  if t.cancelled then (.error .cancelled, t)
  else (.ok t.nextId, { t with nextId := t.nextId + 1, funcs := Dict.set t.funcs t.nextId a })

/-- Leaving `with_cancel` (_socket_helper.py:363-365). -/
def Token.leave {A : Type} (t : Token A) (id : Nat) : Token A := { t with funcs := Dict.erase t.funcs id }

/-- The loop of `cancel` (_socket_helper.py:340-342): the actions executed, and whether one of
them raised. -/
def runActions {A : Type} (fails : A → Bool) : List A → List A × Bool
  | [] => ([], false)
  | a :: as => if fails a then ([a], true) else
    let r := runActions fails as
    (a :: r.1, r.2)

/-- `cancel()` (_socket_helper.py:336-344), one step because the lock is held throughout: the
actions executed, whether it raised, and the new token. -/
def Token.cancel {A : Type} (fails : A → Bool) (t : Token A) : List A × Bool × Token A :=
  let r := runActions fails (Dict.vals t.funcs)
  if r.2 then (r.1, true, { t with cancelled := true })
  else (r.1, false, { t with cancelled := true, funcs := [] })

/-! ### What the operations make of the result of the system call -/

/-- The four operations. -/
inductive OpKind where
  | accept | connect | recvInto | sendall
deriving DecidableEq, Repr

/-- How the system call of an operation ended. `notReady` is an empty answer of `select`,
`other` says the separate cancel socket became readable (only for accept). -/
inductive Sys (R : Type) where
  | ok (r : R)
  | oserror
  | notReady
  | other
deriving DecidableEq, Repr

/-- The result of an operation whose system call ended with `s` (_socket_helper.py:255-278,
292-307, 316-320, 328-334); `cancelled` is the flag of the token at that time. -/
def opResult {R : Type} (k : OpKind) (cancelled : Bool) (s : Sys R) : Except PyErr R :=
  match k, s with
  | .accept, .ok r => .ok r
  -- TimeoutError is an OSError, so the handler at _mp_queue.py:273 sees it as well
  | .accept, .notReady => if cancelled then .error .cancelled else .error .timeout
  | .accept, .other => .error .cancelled
  | .accept, .oserror => if cancelled then .error .cancelled else .error .os
  | .connect, .notReady => .error .timeout
  | .connect, .ok r => if cancelled then .error .cancelled else .ok r
  | .connect, _ => if cancelled then .error .cancelled else .error .os
  | .recvInto, .ok r => if cancelled then .error .cancelled else .ok r
  | .recvInto, _ => .error .os
  | .sendall, .ok r => .ok r
  | .sendall, _ => if cancelled then .error .cancelled else .error .os

end Verif.Transport
