import Verif.Sock.Model
import Verif.Addr.Model
/-!
# Listening on TCP

Model of the TCP half of `ServerMPQueue.__init__` (/repo/src/ansibug/_mp_queue.py:202-237) over a model of the name
resolution and of the listening sockets of a Linux host. The rules of the kernel that are used: a socket on
the unspecified address takes the connections to all addresses of its family, one of IPv6 with `IPV6_V6ONLY` off
those of IPv4 too; a connection to an address goes to a socket on this very address if there is one; two sockets
that would take the same connections cannot both be bound, unless both have `SO_REUSEPORT` and belong to the same
user, and then a connection goes to any one of them. IPv4-mapped IPv6 addresses are not modelled.
-/

namespace Verif.Sock
open Verif

/-- An IP address of either family; `0` is the unspecified one (`0.0.0.0`, `::`). -/
inductive Ip where
  | v4 (a : Nat)
  | v6 (a : Nat)
deriving DecidableEq, Repr

/-- Whether it is an IPv6 address. -/
def Ip.isV6 : Ip → Bool
  | .v4 _ => false
  | .v6 _ => true

/-- A listening TCP socket. -/
structure Listener where
  ip : Ip
  port : Nat
  /-- `IPV6_V6ONLY` is off -/
  dual : Bool
  /-- `SO_REUSEPORT` is set -/
  reuse : Bool
  user : Nat
  proc : Nat
deriving DecidableEq, Repr

/-- A connection to the address is one the socket could take. -/
def Listener.takes (l : Listener) (ip : Ip) : Bool :=
  decide (l.ip = ip) || match l.ip, ip with
    | .v4 0, .v4 _ => true
    | .v6 0, .v6 _ => true
    | .v6 0, .v4 _ => l.dual
    | _, _ => false

/-- A connection to that address and port may be given to the socket. -/
def MayReach (k : List Listener) (ip : Ip) (port : Nat) (l : Listener) : Prop :=
  l ∈ k ∧ l.port = port ∧ l.takes ip = true ∧ (l.ip = ip ∨ ∀ m ∈ k, m.port = port → m.ip ≠ ip)

/-- `bind` of the socket is refused because of this one. -/
def Listener.excludes (l new : Listener) : Bool :=
  decide (l.port = new.port) && (l.takes new.ip || new.takes l.ip) && !(l.reuse && new.reuse && decide (l.user = new.user))

/-- The names and addresses of the host: what `getaddrinfo` gives for a host text (for a numeric address that
address), and what `socket.has_dualstack_ipv6()` says. -/
structure Net where
  names : Str → List Ip
  dualstack : Bool

/-- The address a socket of that family is bound to for a host text: the unspecified one for the empty text, else
the first that the resolver gives for the family; none is a `gaierror`. -/
def Net.bindAddr (net : Net) (v6 : Bool) (host : Str) : Option Ip :=
  if host = [] then some (if v6 then .v6 0 else .v4 0)
  else ((net.names host).filter fun ip => decide (ip.isV6 = v6)).head?

/-- `socket.create_server(address, family=…, reuse_port=…, dualstack_ipv6=…)`, called in _mp_queue.py:228-234, by a process
of a user. `pick`: the port the kernel chooses if there is none given. A `gaierror` is `.os 9` here, `EADDRINUSE` is 98. -/
def createServer (net : Net) (k : List Listener) (user proc pick : Nat) (v6 dual reuse : Bool) (host : Str) (port : Nat) :
    Except Exc Listener :=
  match net.bindAddr v6 host with
  | none => .error (.os 9)
  | some ip =>
    let l : Listener := { ip := ip, port := if port = 0 then pick else port, dual := dual, reuse := reuse, user := user, proc := proc }
    if k.any (·.excludes l) = true then .error (.os 98) else .ok l

/-- `ServerMPQueue.__init__` for a TCP address (_mp_queue.py:219-234): IPv6 with dual stack if the host has it,
`SO_REUSEPORT` unless the port is to be chosen. -/
def listenTcp (net : Net) (k : List Listener) (user proc pick : Nat) (host : Str) (port : Nat) : Except Exc Listener :=
  createServer net k user proc pick net.dualstack net.dualstack (decide (port ≠ 0)) host port

/-- `ServerMPQueue.__init__` for the text of an address (_mp_queue.py:211-236), if it is one of TCP. -/
def listenAt (env : Addr.Env) (net : Net) (k : List Listener) (user proc pick : Nat) (text : Str) : Option (Except Exc Listener) :=
  match Addr.parseAddr env text with
  | .ok (.tcp host port) => some (listenTcp net k user proc pick host port)
  | _ => none

/-- `getsockname()` of a listening socket, with the numeric text of its address. -/
def Listener.name (text : Ip → Str) (l : Listener) : Addr.SockName :=
  if l.ip.isV6 = true then .inet6 (text l.ip) l.port else .inet (text l.ip) l.port

end Verif.Sock
