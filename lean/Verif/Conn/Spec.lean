import Verif.Conn.Model
/-!
# Specification vocabulary for the client connection

Nothing here mentions how the connection finds headers.
-/

namespace Verif.Conn
open Verif Verif.Dap

/-- `sep.join(parts)`. -/
def joinSep {α : Type} (sep : List α) : List (List α) → List α
  | [] => []
  | [p] => p
  | p :: ps => p ++ sep ++ joinSep sep ps

/-- `part` occurs in `l`. -/
def Occurs {α : Type} (part l : List α) : Prop := ∃ a b, l = a ++ part ++ b

/-- The header block announces a payload of `n` bytes: it consists of lines `name: value`
separated by CRLF, with `": "` exactly once in each, and the last `Content-Length` among them
has a value that `int()` accepts as `n`. -/
def Announces (raw : Bytes) (n : Int) : Prop :=
  ∃ pre v post,
    raw = joinSep bytes!"\r\n" ((pre ++ (bytes!"Content-Length", v) :: post).map fun (kv : Bytes × Bytes) => kv.1 ++ bytes!": " ++ kv.2) ∧
    (∀ kv ∈ pre ++ (bytes!"Content-Length", v) :: post,
      ¬ Occurs bytes!": " kv.1 ∧ ¬ Occurs bytes!": " kv.2 ∧ ¬ Occurs bytes!"\r\n" (kv.1 ++ bytes!": " ++ kv.2)) ∧
    (∀ kv ∈ post, kv.1 ≠ bytes!"Content-Length") ∧
    pyInt (bytesToCodes v) = some n

/-- The wire form of a payload. -/
def Frame (bytes payload : Bytes) : Prop :=
  ∃ digits : Bytes, bytes = bytes!"Content-Length: " ++ digits ++ bytes!"\r\n\r\n" ++ payload ∧
    digits.map UInt8.toNat = natDec payload.length

/-- What a user does with the receiving side. -/
inductive RecvOp where
  | recv (data : Bytes)
  | poll

/-- The results of the polls of a history, in order, and the connection afterwards. -/
def runRecv (feq : Str → Nat → Bool) : Conn → List RecvOp → List (Except PyErr (Option Val)) × Conn
  | c, [] => ([], c)
  | c, .recv d :: ops => runRecv feq (receiveData c d) ops
  | c, .poll :: ops =>
    let r := nextMessage feq c
    let rest := runRecv feq r.2 ops
    (r.1 :: rest.1, rest.2)

/-- All bytes received in a history. -/
def received : List RecvOp → Bytes
  | [] => []
  | .recv d :: ops => d ++ received ops
  | .poll :: ops => received ops

/-- The observable outcome of the polls: the messages up to and including the first
exception; polls that returned None are not shown. -/
def outcome : List (Except PyErr (Option Val)) → List (Except PyErr Val)
  | [] => []
  | .ok none :: rs => outcome rs
  | .ok (some v) :: rs => .ok v :: outcome rs
  | .error e :: _ => [.error e]

/-- Polling went on until nothing more was to be had: an exception was raised, or the last
operation was a poll that returned None. -/
def Settled (feq : Str → Nat → Bool) (c : Conn) (ops : List RecvOp) : Prop :=
  (∃ e, .error e ∈ (runRecv feq c ops).1) ∨
  (∃ ops', ops = ops' ++ [.poll] ∧ (nextMessage feq (runRecv feq c ops').2).1 = .ok none)

/-- What a user does with the sending side. -/
inductive SendOp where
  | queue (m : Val)
  | send (n : Int)

/-- The bytes handed out by a history, and the connection afterwards. -/
def runSend : Conn → List SendOp → Bytes × Conn
  | c, [] => ([], c)
  | c, .queue m :: ops => runSend (queueMsg c m).2 ops
  | c, .send n :: ops =>
    let r := dataToSend c n
    let rest := runSend r.2 ops
    (r.1 ++ rest.1, rest.2)

/-- The messages queued in a history, in order. -/
def queued : List SendOp → List Val
  | [] => []
  | .queue m :: ops => m :: queued ops
  | .send _ :: ops => queued ops

/-- The messages with the sequence numbers `k`, `k + 1`, ... -/
def stamped : Nat → List Val → List Val
  | _, [] => []
  | k, m :: ms => setSeq m k :: stamped (k + 1) ms

/-- The bytes are the frames of these messages with the sequence numbers `k`, `k + 1`, ...:
each payload is the text of the stamped message, in UTF-8. -/
inductive Frames : Nat → List Val → Bytes → Prop
  | nil (k) : Frames k [] []
  | cons {k m ms f payload rest} (hf : Frame f payload)
      (hp : utf8Decode payload = some (dumps (toJson (setSeq m k)))) (h : Frames (k + 1) ms rest) :
      Frames k (m :: ms) (f ++ rest)

/-- The messages that were returned. -/
def accepted : List (Except PyErr (Option Val)) → List Val
  | [] => []
  | .ok (some v) :: rs => v :: accepted rs
  | _ :: rs => accepted rs

/-- `raw` is the first header block in the buffer and `post` follows its terminator. -/
def FirstHeader (buf raw post : Bytes) : Prop :=
  buf = raw ++ bytes!"\r\n\r\n" ++ post ∧
  ∀ raw' post', buf = raw' ++ bytes!"\r\n\r\n" ++ post' → raw.length ≤ raw'.length

/-- Nowhere in the stream is there a header block with a Content-Length so negative that it
reaches back before the block itself. In particular any stream without negative
Content-Length qualifies. -/
def NoDeepNegative (s : Bytes) : Prop :=
  ∀ pre raw post n, s = pre ++ raw ++ bytes!"\r\n\r\n" ++ post → Announces raw n → 0 ≤ (raw.length : Int) + 4 + n

/-- The message has the sequence number `n`, as Python compares: its seq is that integer, a float equal to it (`feq` says which are), or a
boolean counted as 0 or 1. Nothing else is a number. -/
def Numbered (feq : Str → Nat → Bool) (v : Val) (n : Nat) : Prop :=
  v.attr? py!"seq" = some (.int n) ∨ (∃ l, v.attr? py!"seq" = some (.flt l) ∧ feq l n = true) ∨
    (v.attr? py!"seq" = some (.bool true) ∧ n = 1) ∨ (v.attr? py!"seq" = some (.bool false) ∧ n = 0)

end Verif.Conn
