import Verif.Conn.Spec

/-!
# The input loop of the adapter

Models the reading part of `DAServer.start()` (/repo/src/ansibug/_debug_adapter.py:278-303): chunks
of standard input are logged if the log level is debug, fed to the connection, and all complete
messages are taken out. Simplification: what is done with a message is not part of this model (see
`Server/Model.lean`); an exception ends the loop.
-/

namespace Verif.Server
open Verif Verif.Conn Verif.Dap

/-- `while msg := adapter.next_message()` (_debug_adapter.py:289): the messages, the exception if there was one, and
the connection afterwards. -/
inductive Drain (feq : Str → Nat → Bool) : Conn → List Val → Option PyErr → Conn → Prop
  | stop {c c' : Conn} : nextMessage feq c = (.ok none, c') → Drain feq c [] none c'
  | fail {c c' : Conn} {e : PyErr} : nextMessage feq c = (.error e, c') → Drain feq c [] (some e) c'
  | more {c c1 c' : Conn} {m : Val} {ms : List Val} {r : Option PyErr} :
      nextMessage feq c = (.ok (some m), c1) → Drain feq c1 ms r c' → Drain feq c (m :: ms) r c'

/-- The loop over the chunks (_debug_adapter.py:282-289): the messages taken out and the exception that ended it. -/
inductive Feed (debug : Bool) (feq : Str → Nat → Bool) : Conn → List Bytes → List Val → Option PyErr → Prop
  | done {c : Conn} : Feed debug feq c [] [] none
  /-- `log.debug("STDIN: %s", data.decode())` raises UnicodeDecodeError (_debug_adapter.py:285-286) -/
  | log {c : Conn} {d : Bytes} {ds : List Bytes} : debug = true → utf8Decode d = none → Feed debug feq c (d :: ds) [] (some .value)
  | fail {c c' : Conn} {d : Bytes} {ds : List Bytes} {ms : List Val} {e : PyErr} :
      (debug = true → utf8Decode d ≠ none) → Drain feq (receiveData c d) ms (some e) c' → Feed debug feq c (d :: ds) ms (some e)
  | next {c c' : Conn} {d : Bytes} {ds : List Bytes} {ms ms' : List Val} {r : Option PyErr} :
      (debug = true → utf8Decode d ≠ none) → Drain feq (receiveData c d) ms none c' → Feed debug feq c' ds ms' r →
      Feed debug feq c (d :: ds) (ms ++ ms') r

end Verif.Server
