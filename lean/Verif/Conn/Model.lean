import Verif.Dap.Spec
/-!
# The client connection

Model of `DebugAdapterConnection` (/repo/src/ansibug/dap/_adapter.py:11-87).
-/

namespace Verif.Conn
open Verif Verif.Dap

/-- The state of a connection (_adapter.py:12-16). -/
structure Conn where
  outBuf : Bytes
  inBuf : Bytes
  seqIn : Nat
  seqOut : Nat
deriving Repr, DecidableEq

/-- `DebugAdapterConnection()`. -/
def init : Conn := ⟨[], [], 1, 1⟩

/-- `data_to_send(n)` (_adapter.py:30-41). -/
def dataToSend (c : Conn) (n : Int) : Bytes × Conn :=
  let n := if n = -1 then (c.outBuf.length : Int) else n
  let n := min n (c.outBuf.length : Int)
  (sliceTo c.outBuf n, { c with outBuf := sliceFrom c.outBuf n })

/-- `receive_data(data)` (_adapter.py:43-47). -/
def receiveData (c : Conn) (data : Bytes) : Conn := { c with inBuf := c.inBuf ++ data }

/-- `dict(h.split(b": ", 2) for h in lines)` (_adapter.py:55): a line that does not split into exactly
two parts is a ValueError; a repeated header keeps the last value. -/
def headerDict : List Bytes → Dict Bytes Bytes → Except PyErr (Dict Bytes Bytes)
  | [], d => .ok d
  | h :: hs, d => match splitMax bytes!": " 2 h with
    | [k, v] => headerDict hs (Dict.set d k v)
    | _ => .error .value

/-- The value of the Content-Length header (_adapter.py:54-59): ValueError if there is none or if it is
no integer. -/
def contentLength (raw : Bytes) : Except PyErr Int :=
  match headerDict (splitAll bytes!"\r\n" raw) [] with
  | .error e => .error e
  | .ok d => match Dict.get? d bytes!"Content-Length" with
    | none => .error .value
    | some v => match pyInt (bytesToCodes v) with
      | none => .error .value
      | some n => .ok n

/-- `ProtocolMessage.unpack(json.loads(raw_msg.decode()))` (_adapter.py:68-69). -/
def decodeMsg (raw : Bytes) : Except PyErr Val :=
  match utf8Decode raw with
  | none => .error .value
  | some text => match loads text with
    | none => .error .value
    | some j => unpack j

/-- `expected == msg.seq` (_adapter.py:71): Python compares integers, booleans (False is 0, True is 1)
and floats by value. `feq lit n` is the unmodelled comparison of the float written `lit` with
the integer `n`; every theorem holds for all of them. -/
def seqIs (feq : Str → Nat → Bool) (v : Val) (n : Nat) : Bool :=
  match v.attr? py!"seq" with
  | some (.int i) => decide (i = (n : Int))
  | some (.bool b) => decide (n = if b then 1 else 0)
  | some (.flt l) => feq l n
  | _ => false

/-- `next_message()` (_adapter.py:49-74). The result is a message, `none` for None, or an exception. -/
def nextMessage (feq : Str → Nat → Bool) (c : Conn) : Except PyErr (Option Val) × Conn :=
  match findSub bytes!"\r\n\r\n" c.inBuf with
  | none => (.ok none, c)
  | some i => match contentLength (c.inBuf.take i) with
    | .error e => (.error e, c)
    | .ok n =>
      let start : Int := (i : Int) + 4
      if (c.inBuf.length : Int) - start < n then (.ok none, c)
      else
        let raw := slice c.inBuf start (start + n)
        let c := { c with inBuf := sliceFrom c.inBuf (start + n) }
        match decodeMsg raw with
        | .error e => (.error e, c)
        | .ok msg =>
          let expected := c.seqIn
          let c := { c with seqIn := c.seqIn + 1 }
          if seqIs feq msg expected then (.ok (some msg), c) else (.error .value, c)

/-- `msg.seq = n` (_adapter.py:81). -/
def setSeq (v : Val) (n : Nat) : Val :=
  match v with
  | .obj c attrs => .obj c (Dict.set attrs py!"seq" (.int n))
  | v => v

/-- `text.encode()`: UTF-8, a surrogate is a UnicodeEncodeError (`none`). -/
def utf8Encode : Str → Option Bytes
  | [] => some []
  | c :: s => do
    let rest ← utf8Encode s
    if c < 0x80 then some (UInt8.ofNat c :: rest)
    else if c < 0x800 then some (UInt8.ofNat (0xC0 + c / 64) :: UInt8.ofNat (0x80 + c % 64) :: rest)
    else if 0xD800 ≤ c ∧ c ≤ 0xDFFF then none
    else if c < 0x10000 then
      some (UInt8.ofNat (0xE0 + c / 4096) :: UInt8.ofNat (0x80 + c / 64 % 64) :: UInt8.ofNat (0x80 + c % 64) :: rest)
    else some (UInt8.ofNat (0xF0 + c / 262144) :: UInt8.ofNat (0x80 + c / 4096 % 64) ::
      UInt8.ofNat (0x80 + c / 64 % 64) :: UInt8.ofNat (0x80 + c % 64) :: rest)

/-- `queue_msg(msg)` (_adapter.py:76-87): the sequence number returned (or the exception) and the new
connection; the message object itself has been given the number. The number is used up even
if encoding fails. -/
def queueMsg (c : Conn) (msg : Val) : Except PyErr Nat × Conn :=
  let seq := c.seqOut
  let c := { c with seqOut := c.seqOut + 1 }
  let msg := setSeq msg seq
  let text := dumps (toJson msg)
  match utf8Encode (py!"Content-Length: " ++ natDec text.length ++ py!"\r\n\r\n" ++ text) with
  | none => (.error .value, c)
  | some b => (.ok seq, { c with outBuf := c.outBuf ++ b })

end Verif.Conn
