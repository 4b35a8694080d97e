import Verif.Sock.Listen
import Verif.Server.Attach
/-!
# The playbooks of a machine and their process files

Playbooks that listen, one after the other and side by side, with their sockets (`Verif/Sock/Listen.lean`) and the files through
which an attach request with a process id finds them. A step is a whole call (`AnsibleDebugger.start`, `shutdown`) or an event of the
machine (a process is killed; another program binds or closes a socket; a user puts a file into the temporary directory, which
all users share and in which nobody can change the files of another). The life of a single debuggee, thread by thread, is in
`Verif/Debuggee`. Only TCP is modelled.
-/

namespace Verif.Sock
open Verif

/-- What does not change: the names and addresses, `urllib`, and the numeric text of an address. -/
structure Place where
  net : Net
  env : Addr.Env
  text : Ip → Str

/-- A playbook between `start` and `shutdown` in listen mode. `sock`: the socket it has bound. `asked`: the port it was told. -/
structure Play where
  proc : Nat
  pid : Nat
  user : Nat
  asked : Nat
  tls : Bool
  playbook : Json
  sock : Listener

structure Machine where
  socks : List Listener := []
  /-- the temporary directory: the owner and the content of a file -/
  files : Str → Option (Nat × Str) := fun _ => none
  up : List Play := []

inductive MAct where
  /-- `AnsibleDebugger.start(addr, "listen")` in a new process -/
  | listen (proc pid user pick : Nat) (host : Str) (port : Nat) (tls : Bool) (playbook : Json)
  /-- a client is accepted -/
  | accepted (proc : Nat)
  | shutdown (proc : Nat)
  | killed (proc : Nat)
  | bind (l : Listener)
  | close (l : Listener)
  | plant (user : Nat) (name : Str) (text : Str)

/-- `get_pid_info_path(os.getpid())` in the temporary directory (_debuggee.py:98-104). -/
def fileName (pid : Nat) : Str := py!"ansibug-pid-" ++ intDec pid

/-- The information of a playbook: what `start` writes (_debuggee.py:420-429), with the address reported by the
socket (_mp_queue.py:61-73). -/
def Play.info (w : Place) (q : Play) : Server.ProcInfo :=
  { pid := .int q.pid, address := .str (Addr.address (q.sock.name w.text)), useTls := .bool q.tls, playbookFile := q.playbook }

/-- What another program or the same user cannot do to a running playbook is left out: a socket is closed by its own
process, and nobody overwrites the file of a running playbook of his own. -/
def Machine.step (w : Place) (m : Machine) : MAct → Option Machine
  -- _debuggee.py:418-431, _mp_queue.py:219-234. The process is new; its id is not that of a running one.
  -- If the socket cannot be bound or the file not written there is an exception, and no debugging.
  | .listen proc pid user pick host port tls playbook =>
    if (m.up.any fun q => decide (q.pid = pid)) || m.socks.any fun l => decide (l.proc = proc) then none
    else if m.up.any fun q => decide (q.proc = proc) then none
    else match listenTcp w.net m.socks user proc pick host port with
      | .error _ => some m
      | .ok l =>
        let q : Play := { proc, pid, user, asked := port, tls, playbook, sock := l }
        match m.files (fileName pid) with
        | some (owner, _) =>
          if owner = user then
            some { socks := l :: m.socks, up := q :: m.up
                   files := fun n => if n = fileName pid then some (user, dumps (Server.infoToJson (q.info w))) else m.files n }
          else some m
        | none =>
          some { socks := l :: m.socks, up := q :: m.up
                 files := fun n => if n = fileName pid then some (user, dumps (Server.infoToJson (q.info w))) else m.files n }
  -- _mp_queue.py:290-293: the socket that listened is closed
  | .accepted proc => some { m with socks := m.socks.filter fun l => decide (l.proc ≠ proc) }
  -- _debuggee.py:442-486, _mp_queue.py:93-100: the socket is closed and the file removed
  | .shutdown proc => match m.up.find? fun q => decide (q.proc = proc) with
    | none => none
    | some q => some { socks := m.socks.filter fun l => decide (l.proc ≠ proc), up := m.up.filter fun q => decide (q.proc ≠ proc)
                       files := fun n => if n = fileName q.pid then none else m.files n }
  -- the system closes the sockets of a process that is killed
  | .killed proc => some { m with socks := m.socks.filter fun l => decide (l.proc ≠ proc), up := m.up.filter fun q => decide (q.proc ≠ proc) }
  | .bind l =>
    if (m.socks.any fun k => k.excludes l) || m.up.any fun q => decide (q.proc = l.proc) then none else some { m with socks := l :: m.socks }
  | .close l => if m.up.any fun q => decide (q.proc = l.proc) then none else some { m with socks := m.socks.erase l }
  | .plant user name text =>
    if m.up.any fun q => decide (fileName q.pid = name) then none
    else match m.files name with
      | some (owner, _) => if owner = user then some { m with files := fun n => if n = name then some (user, text) else m.files n } else none
      | none => some { m with files := fun n => if n = name then some (user, text) else m.files n }

/-- What an attach request reads of a file of the temporary directory (_debug_adapter.py:84-88): its owner does not matter. -/
def Machine.dir (m : Machine) (name : Str) : Option Str := (m.files name).map (·.2)

/-- A history of the machine. -/
def Machine.run (w : Place) (m : Machine) : List MAct → Option Machine
  | [] => some m
  | a :: as => match m.step w a with
    | none => none
    | some m => m.run w as

end Verif.Sock
