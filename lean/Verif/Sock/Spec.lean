import Verif.Sock.Model
/-!
# What connecting and listening mean

The words of C75 to C77, in terms of the environment's answers alone.
-/

namespace Verif.Sock
open Verif

/-- The address accepts the connection: nothing goes wrong, in time, and nobody cancels. -/
def Accepts (a : ConnAns) : Prop :=
  a.create = none ∧ a.early = false ∧ a.connect = none ∧ a.selectRaises = none ∧
    a.writable = true ∧ a.late = false ∧ a.soError = 0

/-- The attempt fails with the operating system error `e` (a timeout included). -/
def Refuses (a : ConnAns) (e : Exc) : Prop :=
  a.create = none ∧ a.early = false ∧ e.isOSError = true ∧
    (a.connect = some e ∨
      (a.connect = none ∧ a.selectRaises = some e) ∨
      (a.connect = none ∧ a.selectRaises = none ∧ a.writable = false ∧ e = .timeout) ∨
      (a.connect = none ∧ a.selectRaises = none ∧ a.writable = true ∧ a.late = false ∧ a.soError ≠ 0 ∧ e = .os a.soError))

/-- The attempt is cancelled from another thread. -/
def CancelledDuring (a : ConnAns) : Prop :=
  a.create = none ∧
    (a.early = true ∨
      (a.connect = none ∧ a.selectRaises = none ∧ a.writable = true ∧ a.late = true))

/-- The calls of `n` attempts from number `k` on, each of which failed. -/
def failedAttempts (k : Nat) : Nat → List Call
  | 0 => []
  | n + 1 => .created k :: .connect k :: .closed k :: failedAttempts (k + 1) n

/-- The connection a call is about. -/
def Call.about : Call → Option Nat
  | .created k => some k
  | .connect k => some k
  | .accepted k => some k
  | .tls k _ => some k
  | .readByte k => some k
  | .sendByte k => some k
  | .closed k => some k
  | .closedListener => none
  | .receiving k => some k

/-- A call that moves application data. -/
def Call.moves : Call → Bool
  | .readByte _ => true
  | .sendByte _ => true
  | .receiving _ => true
  | _ => false

/-- In `cs`, everything that moves data on a connection comes after that connection was
wrapped with `hostname`. -/
def Encrypted (hostname : Option Str) (cs : List Call) : Prop :=
  ∀ pre c post, cs = pre ++ c :: post → c.moves = true → ∀ k, c.about = some k → Call.tls k hostname ∈ pre

/-- The handshake with the client of this round, the confirmation byte included, succeeds. -/
def HelloOk (r : Round) : Prop :=
  r.wrap = none ∧ r.send.early = false ∧ r.send.raises = none

/-- The handshake, or the confirmation byte, fails with an SSLError. -/
def HelloSSLError (r : Round) : Prop :=
  (∃ n, r.wrap = some (.ssl n)) ∨
    (r.wrap = none ∧ r.send.early = false ∧ r.send.late = false ∧ ∃ n, r.send.raises = some (.ssl n))

/-- A client was accepted: not cancelled, no error, in time, the other queue quiet. -/
def Taken (a : AcceptAns) : Prop :=
  a.early = false ∧ a.raises = none ∧ a.ready = true ∧ a.otherReady = false

end Verif.Sock
