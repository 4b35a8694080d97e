import Verif.Conn.Model
import Verif.Transport.Spec
import Verif.Wire.Model
/-!
# A debugging session from end to end

The client, the debug adapter and the debuggee after the debuggee has been connected, with the bytes between them:

```
client --stdin--> adapter --socket (down)--> debuggee (receive thread, playbook)
client <--stdout-- adapter <--socket (up)---  debuggee (send queue, send thread)
```

Every thread is a label of one transition system: the main thread of the adapter reads standard input and forwards
(/repo/src/ansibug/_debug_adapter.py:282-300), the receive thread of the debuggee takes messages off the socket and
handles them (/repo/src/ansibug/_mp_queue.py:102-123, _debuggee.py:118-136), the playbook runs, the send thread of the
debuggee empties the queue (/repo/src/ansibug/_debuggee.py:869-902), the receive thread of the adapter writes what arrives to
the client (/repo/src/ansibug/_debug_adapter.py:224-241, 352-369). The parts are the models of the earlier chapters:
`Conn` (bytes of the client's protocol), `Transport` (bytes of the socket), `Wire` (messages and the debug state).

Simplifications. One call of `send_to_client` is one step (its races are C51). Handling a message is one step (`_get_strategy` waits before it has an
effect: then the step has not happened yet). What happens after the connection has ended is in `Server` and `Debuggee`, the time before it is
there too. A step that the code would end with an exception is not a step here: `C91_delivered` and `C91_shown` show
that this does not happen to messages of less than 4 GiB.
-/

namespace Verif.E2e
open Verif Verif.Strat
open Verif.Dap (Cls)
open Verif.Transport (Codec Ev recv fromBytes arriving)

/-- What crosses the socket: a message, or the output event that carries the path mappings
(/repo/src/ansibug/_debug_adapter.py:455-461). -/
inductive Pkt where
  | msg (m : Dap.Val)
  | config (maps : List (Str × Str))

/-- The state of the three processes and the bytes under way. -/
structure Sys where
  stdin : Bytes                        -- written by the client, not yet read by the adapter
  conn : Conn.Conn                     -- DAServer._adapter
  active : Bool                        -- no disconnect request was forwarded yet (`is_connected`)
  cut : Bool                           -- the adapter has stopped its queue (`debuggee.stop()`)
  down : Bytes                         -- sent to the debuggee, not yet read by it
  deb : DS                             -- the debug state
  queue : List (Option Dap.Val)        -- AnsibleDebugger._send_queue
  sending : Bool                       -- the send thread has not met the end mark
  up : Bytes                           -- sent to the adapter, not yet read by it
  stdout : Bytes                       -- written to the client, not yet read by it

/-- What happens next. -/
inductive Lbl where
  /-- the client writes a message with this payload -/
  | client (payload : Bytes)
  /-- the adapter reads up to `n` bytes of its standard input -/
  | read (n : Nat)
  /-- the adapter's main thread takes a message out of its buffer and sends it to the debuggee -/
  | forward
  /-- the adapter stops the connection to the debuggee after a disconnect request -/
  | stop
  /-- the debuggee's receive thread reads a message, in pieces as given, and handles it -/
  | handle (e : Wire.Env) (es : List Ev)
  /-- the playbook does something -/
  | play (e : Wire.Env) (l : Label)
  /-- the debuggee's send thread takes the next entry off its queue -/
  | send
  /-- the adapter's receive thread reads a message, in pieces as given, and writes it to the client -/
  | relay (es : List Ev)
  /-- the client reads up to `n` bytes -/
  | clientRead (n : Nat)

/-- What the debuggee did, in terms of messages. -/
inductive Op where
  | config (e : Wire.Env) (maps : List (Str × Str))
  | handle (e : Wire.Env) (m : Dap.Val)
  | play (e : Wire.Env) (l : Label)

/-- What can be observed of a step: an operation of the debuggee, or bytes read by the client. -/
inductive Obs where
  | op (o : Op)
  | read (b : Bytes)

/-- The bytes of one client message (the base protocol of the DAP specification). -/
def frame (payload : Bytes) : Bytes :=
  bytes!"Content-Length: " ++ (natDec payload.length).map UInt8.ofNat ++ bytes!"\r\n\r\n" ++ payload

/-- One round of `_recv_handler` on an open connection (/repo/src/ansibug/_mp_queue.py:104-113): the message, and the bytes left. While
fewer bytes have arrived than it asks for, `recv` waits: no step. -/
def take (cd : Codec Pkt) (es : List Ev) : Option (Pkt × Bytes) :=
  match recv 4 es with
  | (.ok len, es1) =>
    if len.length = 4 then
      match recv (fromBytes len) es1 with
      | (.ok data, es2) =>
        if data.length = fromBytes len then
          match cd.loads data with
          | .ok m => some (m, arriving es2)
          | .error _ => none
        else none
      | _ => none
    else none
  | _ => none

/-- Is it a request that ends the session? -/
def isDisconnect : Dap.Val → Bool
  | .obj .DisconnectRequest _ => true
  | _ => false

/-- What the handler of the message puts into the send queue (/repo/src/ansibug/_debuggee.py:619-626, 776-784): its messages, and the end mark after a
disconnect or terminate request. -/
def queued (m : Dap.Val) (outs : List Dap.Val) : List (Option Dap.Val) :=
  outs.map some ++ match m with
    | .obj .DisconnectRequest _ => [none]
    | .obj .TerminateRequest _ => [none]
    | _ => []

/-- The playbook's own steps. -/
def isReq : Label → Bool
  | .req _ => true
  | _ => false

/-- One step. `cd` is the serialisation used on the socket (pickle), `feq` the comparison of float sequence numbers. -/
def step (cd : Codec Pkt) (feq : Str → Nat → Bool) (s : Sys) : Lbl → Option (Sys × List Obs)
  | .client p => some ({ s with stdin := s.stdin ++ frame p }, [])
  -- `adapter.receive_data(stdin.read(4096))` (_debug_adapter.py:283-287)
  | .read n => some ({ s with stdin := s.stdin.drop n, conn := Conn.receiveData s.conn (s.stdin.take n) }, [])
  -- `while msg := adapter.next_message()` (_debug_adapter.py:289-300); `_send_disconnect` (_debug_adapter.py:371-380)
  | .forward =>
    if s.active = true then
      match Conn.nextMessage feq s.conn with
      | (.ok (some m), conn) =>
        match Transport.send cd (.msg m) with
        | .ok b => some ({ s with conn := conn, down := s.down ++ b, active := !isDisconnect m }, [])
        | .error _ => none
      | _ => none
    else none
  -- `debuggee.stop()` (_debug_adapter.py:382)
  | .stop => if s.active = true then none else some ({ s with cut := true }, [])
  -- `on_msg_received` of the debuggee (_debuggee.py:118-136), `_debug_config` (_debuggee.py:804-820)
  | .handle e es =>
    if arriving es = s.down then
      match take cd es with
      | some (.msg m, rest) =>
        let r := Wire.handle e s.deb m
        some ({ s with down := rest, deb := r.1, queue := s.queue ++ queued m r.2 }, [.op (.handle e m)])
      | some (.config maps, rest) =>
        match Wire.play e s.deb (.req (.config maps)) with
        | some r => some ({ s with down := rest, deb := r.1, queue := s.queue ++ r.2.map some }, [.op (.config e maps)])
        | none => none
      | none => none
    else none
  | .play e l =>
    if isReq l = true then none
    else
      match Wire.play e s.deb l with
      | some r => some ({ s with deb := r.1, queue := s.queue ++ r.2.map some }, [.op (.play e l)])
      | none => none
  -- `while msg := self._send_queue.get(): mp_queue.send(msg)` (_debuggee.py:888-890)
  | .send =>
    if s.sending = true then
      match s.queue with
      | some m :: q =>
        match Transport.send cd (.msg m) with
        | .ok b => some ({ s with queue := q, up := s.up ++ b }, [])
        | .error _ => none
      | none :: q => some ({ s with queue := q, sending := false }, [])
      | [] => none
    else none
  -- `send_to_client` (_debug_adapter.py:352-369)
  | .relay es =>
    if s.cut = false ∧ arriving es = s.up then
      match take cd es with
      | some (.msg m, rest) =>
        match Conn.queueMsg s.conn m with
        | (.ok _, conn) =>
          let r := Conn.dataToSend conn (-1)
          some ({ s with up := rest, conn := r.2, stdout := s.stdout ++ r.1 }, [])
        | _ => none
      | _ => none
    else none
  | .clientRead n => some ({ s with stdout := s.stdout.drop n }, [.read (s.stdout.take n)])

/-- An execution with its observations. -/
def run (cd : Codec Pkt) (feq : Str → Nat → Bool) : Sys → List Lbl → Option (Sys × List Obs)
  | s, [] => some (s, [])
  | s, l :: ls =>
    match step cd feq s l with
    | none => none
    | some (s', o) =>
      match run cd feq s' ls with
      | none => none
      | some (s'', o') => some (s'', o ++ o')

/-- The moment after the adapter has answered the attach or launch request and sent the path mappings (`b` are their
bytes; /repo/src/ansibug/_debug_adapter.py:453-461, 572-582): the next message of the client has the number `n`, the next one to it the number `k`. -/
def start (n k : Nat) (d : DS) (b : Bytes) : Sys :=
  { stdin := [], conn := ⟨[], [], n, k⟩, active := true, cut := false, down := b, deb := d, queue := [], sending := true, up := [], stdout := [] }

end Verif.E2e
