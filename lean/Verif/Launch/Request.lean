import Verif.Launch.Exec
import Verif.Launch.Script
import Verif.Server.Attach
/-!
# The launch request

Model of `LaunchArguments.from_json` (/repo/src/ansibug/_debug_adapter.py:158-194) and of what
the LaunchRequest handler makes of it (_debug_adapter.py:464-549): the arguments in the launch script and the
RunInTerminalRequest.  The values are JSON values, as in the code.
-/

namespace Verif.Launch
open Verif Verif.Server

/-- `LaunchArguments` (/repo/src/ansibug/_debug_adapter.py:126-156); the timeout is
checked but not kept. -/
structure LaunchArgs where
  playbook : Json
  args : Json
  cwd : Json
  env : Json
  console : Str
  logFile : Json
  logLevel : Json
  mappings : List (Json × Json)

/-- `LaunchArguments.from_json(data)` (_debug_adapter.py:158-194): none is an exception.  `fz` and `floatOk` as in
`Verif.Server.attachFromJson`. -/
def launchFromJson (fz : Str → Bool) (floatOk : Json → Bool) (data : List (Str × Json)) : Option LaunchArgs :=
  let playbook := getD data py!"playbook" .null
  if !truthy fz playbook then none
  else
    let kind : Option Str :=
      match getD data py!"console" (.str py!"integratedTerminal") with
      | .str s => if s = py!"integratedTerminal" then some py!"integrated"
          else if s = py!"externalTerminal" then some py!"external" else none
      | _ => none
    match kind with
    | none => none
    | some k =>
      match mappingsOf (getD data py!"pathMappings" (.arr [])) with
      | none => none
      | some ms =>
        if !floatOk (getD data py!"connectTimeout" (.float py!"5.0")) then none
        else some {
          playbook := playbook
          args := getD data py!"args" (.arr [])
          cwd := getD data py!"cwd" (.str [])
          env := getD data py!"env" (.obj [])
          console := k
          logFile := getD data py!"logFile" .null
          logLevel := getD data py!"logLevel" (.str py!"info")
          mappings := ms }

/-- The text `shlex.quote` quotes: a string, or the empty text for other values that are false
(`if not s: return "''"`); anything else is a TypeError. -/
def quotable (fz : Str → Bool) : Json → Option Str
  | .str s => some s
  | v => if truthy fz v then none else some []

/-- The RunInTerminalRequest (_debug_adapter.py:538-546). -/
structure TerminalReq where
  cwd : Json
  kind : Str
  args : List Json
  title : Str
  env : Json

/-- The handler of the LaunchRequest (_debug_adapter.py:464-546): the ansibug arguments quoted into the script
and the RunInTerminalRequest.  `file` is the name of the launch script, `addr` the address the
debuggee has to connect to. -/
def handleLaunch (fz : Str → Bool) (file addr : Str) (a : LaunchArgs) : Option (List Str × TerminalReq) :=
  let log : Option (Option (Str × Str)) :=
    match a.logFile with
    | .null => some none
    | f =>
      match quotable fz f, quotable fz a.logLevel with
      | some x, some y => some (some (x, y))
      | _, _ => none
  match log with
  | none => none
  | some log =>
    match iterJson a.args with
    | .error _ => none
    | .ok items => some (ansibugArgs addr log, {
        cwd := a.cwd
        kind := a.console
        args := .str file :: a.playbook :: items
        title := py!"Ansible Debug Console"
        env := a.env })

end Verif.Launch
