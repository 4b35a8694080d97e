import Verif.Py.Basic
/-!
# Making the connection between debug adapter and debuggee

Models of `ClientMPQueue.start`, `ServerMPQueue.start`, `ServerMPQueue.stop`
(/repo/src/ansibug/_mp_queue.py:138-301), of the calls of `SocketCancellationToken` they use
(/repo/src/ansibug/_socket_helper.py:233-366) and of `create_uds_with_mask`
(/repo/src/ansibug/_socket_helper.py:100-137).

The operating system, the TLS library and the other thread that may cancel the token are an
environment: every answer they give is a field of a record, and the theorems quantify over all
of these records.
-/

namespace Verif.Sock
open Verif

/-- An exception. `os` is an OSError that is neither of the next two, `timeout` a TimeoutError
and `ssl` an ssl.SSLError (both are subclasses of OSError), `cancelled` the CancelledError of
_socket_helper.py:368 and `other` any exception that is not an OSError (such as the ValueError
`check_hostname requires server_hostname`). -/
inductive Exc where
  | os (code : Nat)
  | timeout
  | ssl (code : Nat)
  | cancelled
  | other (code : Nat)
deriving DecidableEq, Repr

/-- `isinstance(e, OSError)`. -/
def Exc.isOSError : Exc → Bool
  | .os _ => true
  | .timeout => true
  | .ssl _ => true
  | _ => false

/-- `isinstance(e, ssl.SSLError)`. -/
def Exc.isSSLError : Exc → Bool
  | .ssl _ => true
  | _ => false

/-- What can be seen from outside: a call on a socket. Sockets are numbered in the order in
which they were made. -/
inductive Call where
  /-- `socket.socket(family, ...)` for the address with this number gave a socket. -/
  | created (addr : Nat)
  /-- `connect` of that socket to the address it was created for. -/
  | connect (addr : Nat)
  /-- `accept()` of the listening socket gave connection `conn`. -/
  | accepted (conn : Nat)
  /-- The connection `conn` was wrapped: from here on everything is encrypted. -/
  | tls (conn : Nat) (hostname : Option Str)
  /-- One byte is read from / written to the connection. -/
  | readByte (conn : Nat)
  | sendByte (conn : Nat)
  /-- `close()` of a connection. -/
  | closed (conn : Nat)
  /-- `close()` of the listening socket. -/
  | closedListener
  /-- The receive thread is started on that connection. -/
  | receiving (conn : Nat)
deriving DecidableEq, Repr

/-! ## The token -/

/-- The answers during one `connect` of an address. -/
structure ConnAns where
  /-- `socket.socket(...)` raises. -/
  create : Option Exc
  /-- The token is already cancelled when `with_cancel` is entered. -/
  early : Bool
  /-- `sock.connect`: `none` if it returns or raises BlockingIOError. -/
  connect : Option Exc
  /-- Whether `select` finds the socket writable before the timeout; `some` if it raises. -/
  selectRaises : Option Exc
  writable : Bool
  /-- The token was cancelled meanwhile. -/
  late : Bool
  /-- `SO_ERROR` of the socket, 0 for none. -/
  soError : Nat
deriving DecidableEq, Repr

/-- `SocketCancellationToken.connect` (_socket_helper.py:280-307, with_cancel _socket_helper.py:346-365). -/
def tokConnect (a : ConnAns) : Option Exc :=
  if a.early then some .cancelled
  else match a.connect with
    | some e => some e
    | none => match a.selectRaises with
      | some e => some e
      | none =>
        if !a.writable then some .timeout
        else if a.late then some .cancelled
        else if a.soError ≠ 0 then some (.os a.soError)
        else none

/-- The answers to a read or a write of one byte through the token: the token is cancelled
before; the call raises; the token is cancelled by the time it returns. -/
structure IoAns where
  early : Bool
  raises : Option Exc
  late : Bool
deriving DecidableEq, Repr

/-- `SocketHelper.recv(1, token)` (_socket_helper.py:176-197, _socket_helper.py:309-320), whether it returned a byte or nothing. -/
def tokRecv (a : IoAns) : Option Exc :=
  if a.early then some .cancelled
  else match a.raises with
    | some e => some e
    | none => if a.late then some .cancelled else none

/-- `SocketHelper.send(b"\x00", token)` (_socket_helper.py:199-207, _socket_helper.py:322-334). -/
def tokSend (a : IoAns) : Option Exc :=
  if a.early then some .cancelled
  else match a.raises with
    | some e => if e.isOSError && a.late then some .cancelled else some e
    | none => none

/-! ## The client -/

/-- The loop over the resolved addresses (_mp_queue.py:168-177): `k` is the number of the next
address, `error` the exception to raise if none is left. The result is the number of the
connected socket, or the exception, and the calls made. -/
def tryAddrs (error : Exc) (k : Nat) : List ConnAns → Except Exc Nat × List Call
  | [] => (.error error, [])
  | a :: as =>
    match a.create with
    | some e => (.error e, [])
    | none =>
      match tokConnect a with
      | none => (.ok k, [.created k, .connect k])
      | some e =>
        if e.isOSError then
          let r := tryAddrs e (k + 1) as
          (r.1, .created k :: .connect k :: .closed k :: r.2)
        else (.error e, [.created k, .connect k])

/-- What happens on the connection before it is used. -/
structure HelloAns where
  /-- `ssl_context.wrap_socket` raises. -/
  wrap : Option Exc
  recv : IoAns
  /-- Whether the read gave a byte; `false` if the server closed the connection. The code does
  not look at it (_mp_queue.py:193, _mp_queue.py:197). -/
  byte : Bool
deriving DecidableEq, Repr

/-- The part of `ClientMPQueue.start` after the connection was made (_mp_queue.py:184-199):
`tls` is the server hostname if there is an SSL context. -/
def clientHello (tls : Option Str) (h : HelloAns) (k : Nat) : Except Exc Nat × List Call :=
  match tls with
  | some name =>
    match h.wrap with
    | some e => (.error e, [])
    | none =>
      match tokRecv h.recv with
      | some e => (.error e, [.tls k (some name), .readByte k])
      | none => (.ok k, [.tls k (some name), .readByte k, .receiving k])
  | none =>
    match tokRecv h.recv with
    | some e => (.error e, [.readByte k])
    | none => (.ok k, [.readByte k, .receiving k])

/-- The address the client was made for (_mp_queue.py:137). -/
inductive Target where
  | uds (path : Str)
  | tcp (host : Str)
deriving DecidableEq, Repr

/-- `ssl_hostname` (_mp_queue.py:159, _mp_queue.py:163). -/
def sslHostname : Target → Str
  | .uds path => path.take 63
  | .tcp host => host

/-- `ClientMPQueue.start` (_mp_queue.py:140-199). `resolved` is what `getaddrinfo` gave: an
exception, or for each result what its attempt meets; for a path there is one result
(_mp_queue.py:155). `noResults` stands for the OSError of _mp_queue.py:167. -/
def clientStart (target : Target) (useTls : Bool) (resolved : Except Exc (List ConnAns)) (hello : HelloAns) (noResults : Exc) :
    Except Exc Nat × List Call :=
  match resolved with
  | .error e => (.error e, [])
  | .ok as =>
    let as := match target with
      | .uds _ => as.take 1
      | .tcp _ => as
    match tryAddrs noResults 0 as with
    | (.error e, cs) => (.error e, cs)
    | (.ok k, cs) =>
      let r := clientHello (if useTls then some (sslHostname target) else none) hello k
      (r.1, cs ++ r.2)

/-! ## The server -/

/-- The answers to one `accept` with a timeout. -/
structure AcceptAns where
  early : Bool
  /-- `select` or `accept` raises. -/
  raises : Option Exc
  /-- Something was readable before the timeout. -/
  ready : Bool
  /-- The socket of the other queue was readable (`cancel_socket in rd`). -/
  otherReady : Bool
  /-- The token was cancelled by the time an exception is handled. -/
  late : Bool
deriving DecidableEq, Repr

/-- `SocketCancellationToken.accept` (_socket_helper.py:240-278): `none` if a connection was
accepted. -/
def tokAccept (a : AcceptAns) : Option Exc :=
  if a.early then some .cancelled
  else match a.raises with
    | some e => if e.isOSError && a.late then some .cancelled else some e
    | none =>
      if !a.ready then (if a.late then some .cancelled else some .timeout)
      else if a.otherReady then some .cancelled
      else none

/-- What one client that comes along does: being accepted, the TLS handshake, the byte. -/
structure Round where
  accept : AcceptAns
  /-- `ssl_context.wrap_socket(server_side=True)` raises. -/
  wrap : Option Exc
  send : IoAns
deriving DecidableEq, Repr

/-- How far `start` got: it is still waiting (for the next client), it returned with that
connection, or it raised. -/
inductive Outcome where
  | waiting
  | returned (conn : Nat)
  | raised (e : Exc)
deriving DecidableEq, Repr

/-- The `try` block of the handshake loop (_mp_queue.py:261-270): the exception, and the calls. -/
def serverHello (k : Nat) (r : Round) : Option Exc × List Call :=
  match r.wrap with
  | some e => (some e, [])
  | none =>
    match tokSend r.send with
    | some e => (some e, [.tls k none, .sendByte k])
    | none => (none, [.tls k none, .sendByte k])

/-- `ServerMPQueue.start` with an SSL context (_mp_queue.py:248-283, _mp_queue.py:292-295): `k` is the
number of the next connection, the list what the clients that come along do. With an empty
list it is waiting in `accept`. -/
def serverTls (k : Nat) : List Round → Outcome × List Call
  | [] => (.waiting, [])
  | r :: rs =>
    match tokAccept r.accept with
    | some e => (.raised e, [])
    | none =>
      match serverHello k r with
      | (none, cs) => (.returned k, .accepted k :: cs ++ [.closedListener, .receiving k])
      | (some e, cs) =>
        if e.isSSLError then
          let t := serverTls (k + 1) rs
          (t.1, .accepted k :: cs ++ .closed k :: t.2)
        else (.raised e, .accepted k :: cs)

/-- `ServerMPQueue.start` without an SSL context (_mp_queue.py:248-252, _mp_queue.py:284-295). -/
def serverPlain : List Round → Outcome × List Call
  | [] => (.waiting, [])
  | r :: _ =>
    match tokAccept r.accept with
    | some e => (.raised e, [])
    | none =>
      match tokSend r.send with
      | some e => (.raised e, [.accepted 0, .sendByte 0])
      | none => (.returned 0, [.accepted 0, .sendByte 0, .closedListener, .receiving 0])

/-- `ServerMPQueue.start` (_mp_queue.py:239-295). -/
def serverStart (useTls : Bool) (rs : List Round) : Outcome × List Call :=
  if useTls then serverTls 0 rs else serverPlain rs

end Verif.Sock
