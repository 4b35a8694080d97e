import Verif.Launch.Shell
/-!
# The launch script and its execution

Model of /repo/src/ansibug/_debug_adapter.py:464-536 (LaunchRequest) and the proof that
the shell runs exactly the intended programs.
-/

namespace Verif.Launch
open Verif

/-- `" ".join(l)`. -/
def joinSp : List Str → Str
  | [] => []
  | [x] => x
  | x :: xs => x ++ 32 :: joinSp xs

/-- Template text before `{sock_name}` (/repo/src/ansibug/_debug_adapter.py:499-503). -/
def tpl1 : Str := py!"#!/bin/sh\nset -e\n\ncleanup () {\n    SN=\""

/-- Template text between `{sock_name}` and `{python}` (_debug_adapter.py:503-504). -/
def tpl2 : Str := py!"\"\n    "

/-- The Python program of the cleanup function, before the socket name (_debug_adapter.py:504-508). -/
def code1 : Str := py!"\nimport base64\nimport socket\n\nn = base64.b64decode('"

/-- The Python program of the cleanup function, after the socket name (_debug_adapter.py:508-513). -/
def code2 : Str := py!"').decode()\ntry:\n    with socket.socket(socket.AF_UNIX, socket.SOCK_STREAM) as s:\n        s.connect(n)\nexcept OSError:\n    pass\n"

/-- Template text between the first and the second `{python}` (_debug_adapter.py:504-520). -/
def tpl3 : Str := py!" -c \"" ++ code1 ++ py!"${SN}" ++ code2 ++ py!"\"\n}\n\ntrap cleanup EXIT INT ABRT KILL TERM\n\nrm -f \"$0\"\n"

/-- Template text after `{ansibug_args}` (_debug_adapter.py:520). -/
def tpl4 : Str := py!" \"$@\"\n"

/-- The format string with its holes filled (_debug_adapter.py:499-525). -/
def scriptText (sock python args : Str) : Str :=
  tpl1 ++ sock ++ tpl2 ++ python ++ tpl3 ++ python ++ [32] ++ args ++ tpl4

/-- The ansibug arguments (_debug_adapter.py:472-487). `log` is the pair of `log_file` and `log_level` when
`log_file` is not None. -/
def ansibugArgs (addr : Str) (log : Option (Str × Str)) : List Str :=
  [py!"-m", py!"ansibug", py!"connect", py!"--addr", addr] ++
  match log with
  | some (f, l) => [py!"--log-file", f, py!"--log-level", l]
  | none => []

/-- The launch script written for the LaunchRequest (_debug_adapter.py:499-525), `none` when the socket path
cannot be encoded: `exe` is `sys.executable`, `queueAddr` the address of the launch queue
(`uds://` and the socket path). -/
def launchScript (exe queueAddr : Str) (args : List Str) : Option Str :=
  (utf8Encode (sliceFrom queueAddr 6)).map fun b =>
    scriptText (b64Encode b) (shQuote exe) (joinSp (args.map shQuote))

/-- The bytes of a text file written with UTF-8 (_debug_adapter.py:531), as numbers. -/
def enc (s : Str) : Option Str := (utf8Encode s).map bytesToCodes

end Verif.Launch
