import Verif.Launch.Exec
import Verif.Server.Attach
/-!
# TLS settings

Model of /repo/src/ansibug/_tls.py, of the callback's choice of a TLS context
(/repo/src/ansibug/ansible_collections/ansibug/dap/plugins/callback/debug.py:162-202) and of the
adapter's (/repo/src/ansibug/_debug_adapter.py:433-451).

An `ssl.SSLContext` is represented by the settings that decide whom it talks to.  What
OpenSSL makes of certificate files is a parameter.
-/

namespace Verif.Launch
open Verif

/-- `ssl.VerifyMode`. -/
inductive VerifyMode where
  | certNone
  | certOptional
  | certRequired
deriving DecidableEq, Repr

/-- A place CA certificates were loaded from. -/
inductive CaSource where
  | system
  | dir (path : Str)
  | file (path : Str)
deriving DecidableEq, Repr

/-- The relevant settings of an `ssl.SSLContext`. -/
structure TlsCtx where
  verifyMode : VerifyMode
  checkHostname : Bool
  cas : List CaSource
  chain : Option (Str × Option Str × Option Str)
deriving DecidableEq, Repr

/-- The files as the process sees them: `expand` is `expanduser(expandvars(·))`, `absolute` is
`str(Path(·).absolute())`; the last two tell whether OpenSSL accepts the CA certificates and
the certificate chain. -/
structure TlsFs where
  expand : Str → Str
  absolute : Str → Str
  isDir : Str → Bool
  exists_ : Str → Bool
  caOk : CaSource → Bool
  chainOk : Str → Option Str → Option Str → Bool

/-- `ssl.create_default_context(SERVER_AUTH)`: verifies the peer, with the system's CAs. -/
def serverAuthCtx : TlsCtx := ⟨.certRequired, true, [.system], none⟩
/-- `ssl.create_default_context(CLIENT_AUTH)`: does not ask for a peer certificate. -/
def clientAuthCtx : TlsCtx := ⟨.certNone, false, [], none⟩

/-- `ctx.load_verify_locations(…)`: adds CAs. -/
def addCa (fs : TlsFs) (c : TlsCtx) (s : CaSource) : Except PyErr TlsCtx :=
  if fs.caOk s then .ok { c with cas := c.cas ++ [s] } else .error .os

/-- `_load_verify_locations` (/repo/src/ansibug/_tls.py:94-107). -/
def loadVerify (fs : TlsFs) (c : TlsCtx) (location : Str) : Except PyErr TlsCtx :=
  let p := fs.expand location
  if fs.isDir p then addCa fs c (.dir (fs.absolute p))
  else if fs.exists_ p then addCa fs c (.file (fs.absolute p))
  else .error .value

/-- `ctx.load_cert_chain(certfile, keyfile, password)`. -/
def loadChain (fs : TlsFs) (c : TlsCtx) (cert : Str) (key pw : Option Str) : Except PyErr TlsCtx :=
  if fs.chainOk cert key pw then .ok { c with chain := some (cert, key, pw) } else .error .os

/-- `create_client_tls_context` (/repo/src/ansibug/_tls.py:12-55).  `verify` is whatever JSON
value the client sent; `certfile` is used when it is a non-empty string. -/
def clientCtx (fs : TlsFs) (verify : Json) (certfile keyfile password : Option Str) : Except PyErr TlsCtx :=
  let c1 : Except PyErr TlsCtx :=
    match verify with
    | .str s =>
      if s = py!"ignore" then .ok { serverAuthCtx with checkHostname := false, verifyMode := .certNone }
      else if s ≠ py!"verify" then loadVerify fs serverAuthCtx s
      else .ok serverAuthCtx
    | _ => .error .type
  match c1 with
  | .error x => .error x
  | .ok c =>
    match certfile with
    | some f => if f ≠ [] then loadChain fs c f keyfile password else .ok c
    | none => .ok c

/-- `create_server_tls_context` (/repo/src/ansibug/_tls.py:58-91).  A missing certificate file
(`None`) makes `load_cert_chain` raise a TypeError. -/
def serverCtx (fs : TlsFs) (certfile keyfile password caTrust : Option Str) : Except PyErr TlsCtx :=
  match certfile with
  | none => .error .type
  | some f =>
    match loadChain fs clientAuthCtx f keyfile password with
    | .error x => .error x
    | .ok c =>
      match caTrust with
      | some ca => if ca ≠ [] then loadVerify fs { c with verifyMode := .certRequired } ca else .ok c
      | none => .ok c

/-- Ansible's conversion of an environment variable to a `bool` option, for the texts ansibug
writes (`boolean(value, strict=False)` also accepts others as true: y, yes, on, 1, t). -/
def ansBool (s : Str) : Bool :=
  s = py!"True" || s = py!"true" || s = py!"yes" || s = py!"on" || s = py!"1" || s = py!"y" || s = py!"t"

/-- What the callback starts the debugger with
(/repo/src/ansibug/ansible_collections/ansibug/dap/plugins/callback/debug.py:162-202): mode,
address, TLS context (if any), and whether it waits for the configuration.  Its options are
read from the environment (debug.py:16-123); `unfrack` is Ansible's normalisation of `path` options.
An unset `use_tls`/`no_wait` is false. -/
structure CallbackStart where
  mode : Option Str
  addr : Str
  tls : Option TlsCtx
  wait : Bool
  logFile : Option Str
  logLevel : Str

def callbackStart (fs : TlsFs) (unfrack : Str → Str) (env : Dict Str Str) : Except PyErr CallbackStart :=
  let path (k : Str) := (env.get? k).map unfrack
  let mode := env.get? py!"ANSIBUG_MODE"
  let useTls := ((env.get? py!"ANSIBUG_USE_TLS").map ansBool).getD false
  let noWait := ((env.get? py!"ANSIBUG_NO_WAIT_FOR_CONFIG_DONE").map ansBool).getD false
  let tls : Except PyErr (Option TlsCtx) :=
    if useTls && mode == some py!"listen" then
      match serverCtx fs (path py!"ANSIBUG_TLS_SERVER_CERTFILE") (path py!"ANSIBUG_TLS_SERVER_KEYFILE")
          (env.get? py!"ANSIBUG_TLS_SERVER_KEY_PASSWORD") (path py!"ANSIBUG_TLS_CLIENT_CA") with
      | .ok c => .ok (some c)
      | .error x => .error x
    else .ok none
  match tls with
  | .error x => .error x
  | .ok c => .ok {
      mode := mode
      addr := (env.get? py!"ANSIBUG_DEBUG_ADDR").getD py!"localhost"
      tls := c
      wait := !noWait
      logFile := path py!"ANSIBUG_LOG_FILE"
      logLevel := (env.get? py!"ANSIBUG_LOG_LEVEL").getD py!"info" }

/-- An optional string attribute of the attach arguments (`data.get(key, None)`,
/repo/src/ansibug/_debug_adapter.py:119-121); other JSON types are rejected by the ssl module
and are outside of this model (`none`). -/
def optStr (data : List (Str × Json)) (k : Str) : Option (Option Str) :=
  match Server.getD data k .null with
  | .null => some none
  | .str s => some (some s)
  | _ => none

/-- The address and TLS context an AttachRequest connects with
(/repo/src/ansibug/_debug_adapter.py:433-451).  `none` is an exception. -/
def attachConnect (fz : Str → Bool) (floatOk : Json → Bool) (str : Json → Str) (pidDir : Str → Option Str)
    (fs : TlsFs) (data : List (Str × Json)) : Option (Json × Option TlsCtx) := do
  let a ← Server.attachFromJson fz floatOk data
  let (addr, tls) ← Server.connTuple fz str pidDir a
  if Server.truthy fz tls then
    let cert ← optStr data py!"tlsCertificate"
    let key ← optStr data py!"tlsKey"
    let pw ← optStr data py!"tlsKeyPassword"
    match clientCtx fs (Server.getD data py!"tlsVerification" (.str py!"verify")) cert key pw with
    | .ok c => some (addr, some c)
    | .error _ => none
  else some (addr, none)

end Verif.Launch
