import Verif.Json.Spec

/-!
# Where an attach request connects to

Models `AttachArguments.from_json`, `get_connection_tuple` (/repo/src/ansibug/_debug_adapter.py:82-123)
and `PlaybookProcessInfo` (/repo/src/ansibug/_debuggee.py:70-104). The values are JSON values, as in
the code (nothing checks their types). The directory of the process files (`$TMPDIR`, default /tmp) is a map from
file names to contents. Not modelled: `str()` of a process id that is no integer (the parameter
`str`) and which values `float()` accepts as a timeout (the parameter `floatOk`), both arbitrary in
every theorem; errors of the file system other than a missing file.
-/

namespace Verif.Server
open Verif

/-- `bool(v)` of a JSON value (floats: the parameter `fz` says which literals are zero). -/
def truthy (fz : Str → Bool) : Json → Bool
  | .null => false
  | .bool b => b
  | .int i => decide (i ≠ 0)
  | .float l => !fz l
  | .str s => !s.isEmpty
  | .arr l => !l.isEmpty
  | .obj l => !l.isEmpty

/-- `data.get(key, default)`. -/
def getD (d : List (Str × Json)) (k : Str) (v : Json) : Json := (Dict.get? d k).getD v

/-- The attributes of `AttachArguments` used to find the debuggee, and the path mappings (_debug_adapter.py:72-80). -/
structure AttachArgs where
  processId : Json
  address : Json
  useTls : Bool
  mappings : List (Json × Json)
deriving Repr

/-- One entry of pathMappings: `mapping["localRoot"]`, `mapping["remoteRoot"]` (_debug_adapter.py:104-111); a missing
key is a KeyError, another type a TypeError. -/
def mappingOf : Json → Option (Json × Json)
  | .obj d => match Dict.get? d py!"localRoot", Dict.get? d py!"remoteRoot" with
    | some l, some r => some (l, r)
    | _, _ => none
  | _ => none

/-- The loop over the entries (_debug_adapter.py:105-111, 176-182). -/
def mappingList : List Json → Option (List (Json × Json))
  | [] => some []
  | j :: js => match mappingOf j, mappingList js with
    | some m, some ms => some (m :: ms)
    | _, _ => none

/-- `for mapping in data.get("pathMappings", [])` (_debug_adapter.py:104-111, 175-182): a list of mappings, or something empty to
iterate over (a string or dict is iterated too, its items are strings and not mappings). -/
def mappingsOf : Json → Option (List (Json × Json))
  | .arr l => mappingList l
  | .str s => if s.isEmpty then some [] else none
  | .obj l => if l.isEmpty then some [] else none
  | _ => none

/-- `AttachArguments.from_json(data)` (_debug_adapter.py:99-123): none is an exception. -/
def attachFromJson (fz : Str → Bool) (floatOk : Json → Bool) (data : List (Str × Json)) : Option AttachArgs :=
  match mappingsOf (getD data py!"pathMappings" (.arr [])) with
  | none => none
  | some ms =>
    if floatOk (getD data py!"connectTimeout" (.float py!"5.0")) then
      some { processId := getD data py!"processId" .null, address := getD data py!"address" (.str []),
             useTls := truthy fz (getD data py!"useTls" (.bool false)), mappings := ms }
    else none

/-- `f"ansibug-pid-{pid}"` (_debuggee.py:104). -/
def pidName (str : Json → Str) (pid : Json) : Str :=
  py!"ansibug-pid-" ++ (match pid with | .int i => intDec i | v => str v)

/-- The process information (_debuggee.py:70-76). -/
structure ProcInfo where
  pid : Json
  address : Json
  useTls : Json
  playbookFile : Json

/-- `PlaybookProcessInfo.from_json(data)` (_debuggee.py:78-88). -/
def infoFromJson : Json → Option ProcInfo
  | .obj d => do
    let pid ← Dict.get? d py!"pid"
    let address ← Dict.get? d py!"address"
    let tls ← Dict.get? d py!"use_tls"
    let file ← Dict.get? d py!"playbook_file"
    some ⟨pid, address, tls, file⟩
  | _ => none

/-- `to_json` (_debuggee.py:90-96). -/
def infoToJson (i : ProcInfo) : Json :=
  .obj [(py!"pid", i.pid), (py!"address", i.address), (py!"use_tls", i.useTls), (py!"playbook_file", i.playbookFile)]

/-- `get_connection_tuple()` (_debug_adapter.py:82-97): the address and the TLS setting, or none for an exception. -/
def connTuple (fz : Str → Bool) (str : Json → Str) (dir : Str → Option Str) (a : AttachArgs) : Option (Json × Json) :=
  match a.processId with
  | .null => bif truthy fz a.address then some (a.address, .bool a.useTls) else none
  | pid => do
    let text ← dir (pidName str pid)
    let info ← infoFromJson (← loads text)
    some (info.address, info.useTls)

end Verif.Server
