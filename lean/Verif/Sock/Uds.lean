import Verif.Py.Dict
import Verif.Sock.Model
/-!
# The file of a unix socket

Models of `create_uds_with_mask` (/repo/src/ansibug/_socket_helper.py:100-137), of the part of
`ServerMPQueue.__init__` that calls it (/repo/src/ansibug/_mp_queue.py:213-217) and of
`ServerMPQueue.stop` (/repo/src/ansibug/_mp_queue.py:297-301).
-/

namespace Verif.Sock
open Verif

/-- Permission bits: the owner's three, the group's, and the others'. -/
abbrev Mode := BitVec 9

/-- What a process sees: the files with their permission bits, and its own umask. -/
structure World where
  files : Dict Str Mode
  umask : Mode
deriving DecidableEq, Repr

/-- How `fchmod` on a socket behaves: Linux stores the bits in the socket's inode, other systems
answer EINVAL; it may also fail in another way (_socket_helper.py:119-124). -/
inductive Fchmod where
  | linux
  | einval
  | fails (e : Exc)
deriving DecidableEq, Repr

/-- `sock.bind(path)` of a unix socket with the inode bits `m`: it fails with EADDRINUSE (98)
if there is a file, it may fail otherwise, and it makes the file with the umask applied. -/
def bindUds (w : World) (path : Str) (m : Mode) (fails : Option Exc) : Option Exc × World :=
  if (w.files.get? path).isSome then (some (.os 98), w)
  else match fails with
    | some e => (some e, w)
    | none => (none, { w with files := w.files.set path (m &&& ~~~w.umask) })

/-- `create_uds_with_mask(path, mask)` (_socket_helper.py:100-137): the exception, if any, and
the worlds passed through, one for each call that can change something. A new socket has the
bits 0o777. `os.umask(~mask)` keeps the nine permission bits of the number. -/
def createUds (w : World) (path : Str) (mask : Mode) (f : Fchmod) (fails : Option Exc) : Option Exc × List World :=
  match f with
  | .fails e => (some e, [w])
  | .linux =>
    let b := bindUds w path mask fails
    (b.1, [w, b.2])
  | .einval =>
    let original := w.umask
    let w1 := { w with umask := ~~~mask }
    let b := bindUds w1 path 0x1ff#9 fails
    (b.1, [w, w1, b.2, { b.2 with umask := original }])

/-- The last of the worlds. -/
def final (w : World) (ws : List World) : World := ws.getLast?.getD w

/-- What making the server on a unix socket leaves behind (_mp_queue.py:213-217), 0o700. -/
def listenUds (w : World) (path : Str) (f : Fchmod) (fails : Option Exc) : Option Exc × World :=
  let r := createUds w path 0x1c0#9 f fails
  (r.1, final w r.2)

/-- `ServerMPQueue.stop` (_mp_queue.py:297-301): the exception, the world, and whether the
socket itself was stopped (`super().stop()`). `path` is empty for a TCP server. -/
def stopUds (w : World) (path : Str) (unlinkFails : Option Exc) : Option Exc × World × Bool :=
  if path.isEmpty then (none, w, true)
  else if (w.files.get? path).isNone then (none, w, true)
  else match unlinkFails with
    | some e => (some e, w, false)
    | none => (none, { w with files := w.files.erase path }, true)

end Verif.Sock
