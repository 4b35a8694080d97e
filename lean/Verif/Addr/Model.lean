import Verif.Py.Basic
/-!
# Address strings

Models of `parse_addr_string` (/repo/src/ansibug/_socket_helper.py:26-97), of the part of
CPython's `urllib.parse.urlsplit` it relies on (urlsplit, `hostname` and `port`, as in
CPython 3.12), and of `MPQueue.address` (/repo/src/ansibug/_mp_queue.py:61-73).
-/

namespace Verif.Addr
open Verif

/-- What is not modelled: whether the text in brackets is an IPv6 (or future) address
(`ipaddress.ip_address`), whether a non-ASCII host survives the NFKC check, `str.lower` of
text that is not ASCII, the temporary directory and the random socket path. -/
structure Env where
  bracketedHostOk : Str → Bool
  nfkcOk : Str → Bool
  lowerUni : Str → Str
  tempdir : Str
  randomPath : Str

/-- `c` in an ASCII upper case letter range, lowered. -/
def lowerC (c : Nat) : Nat := if 65 ≤ c ∧ c ≤ 90 then c + 32 else c

/-- `text.lower()`. -/
def lower (env : Env) (s : Str) : Str := if s.all (· < 128) then s.map lowerC else env.lowerUni s

/-- `text.partition(c)`: before and after the first `c`; `none` if there is none. -/
def cut (c : Nat) : Str → Option (Str × Str)
  | [] => none
  | x :: xs => if x = c then some ([], xs) else (cut c xs).map fun p => (x :: p.1, p.2)

/-- `text.rpartition(c)[2]`: what follows the last `c`, or everything. -/
def afterLast (c : Nat) (s : Str) : Str := (s.reverse.takeWhile (· != c)).reverse

/-- An ASCII letter. -/
def isAlpha (c : Nat) : Bool := (65 ≤ c && c ≤ 90) || (97 ≤ c && c ≤ 122)

/-- `c in scheme_chars`. -/
def isSchemeChar (c : Nat) : Bool := isAlpha c || isDig c || c == 43 || c == 45 || c == 46

/-- The scheme and the rest of the url (urlsplit: the `i = url.find(':')` block). -/
def splitScheme (url : Str) : Str × Str :=
  match cut 58 url with
  | some (c :: s, rest) => if isAlpha c && (c :: s).all isSchemeChar then ((c :: s).map lowerC, rest) else ([], url)
  | _ => ([], url)

/-- A character that ends the netloc. -/
def isDelim (c : Nat) : Bool := c == 47 || c == 63 || c == 35

structure Split where
  scheme : Str
  netloc : Str
  path : Str
deriving DecidableEq, Repr

/-- `_check_bracketed_netloc`. -/
def bracketOk (env : Env) (netloc : Str) : Bool :=
  match cut 91 (afterLast 64 netloc) with
  | some (before, bracketed) =>
    before.isEmpty && (match cut 93 bracketed with
      | some (host, port) => (port.isEmpty || port.head? == some 58) && env.bracketedHostOk host
      | none => env.bracketedHostOk bracketed)
  | none => match cut 58 (afterLast 64 netloc) with
    | some (host, _) => env.bracketedHostOk host
    | none => env.bracketedHostOk (afterLast 64 netloc)

/-- `urlsplit(url)`: scheme, netloc and path (the query and the fragment are not used). -/
def urlsplit (env : Env) (url : Str) : Except PyErr Split :=
  let url := (url.dropWhile (· ≤ 32)).filter (fun c => !(c == 9 || c == 10 || c == 13))
  let (scheme, url) := splitScheme url
  let (netloc, url) := match url with
    | 47 :: 47 :: rest => (rest.takeWhile (!isDelim ·), rest.dropWhile (!isDelim ·))
    | url => ([], url)
  if (netloc.contains 91 != netloc.contains 93) then .error .value
  else if netloc.contains 91 && !bracketOk env netloc then .error .value
  else if !netloc.all (· < 128) && !env.nfkcOk netloc then .error .value
  else .ok ⟨scheme, netloc, url.takeWhile (fun c => !(c == 63 || c == 35))⟩

/-- `_hostinfo`: host name and port text. -/
def hostinfo (netloc : Str) : Str × Option Str :=
  let info := afterLast 64 netloc
  let (host, port) := match cut 91 info with
    | some (_, bracketed) => match cut 93 bracketed with
      | some (host, rest) => (host, match cut 58 rest with | some (_, p) => p | none => [])
      | none => (bracketed, [])
    | none => match cut 58 info with
      | some (host, p) => (host, p)
      | none => (info, [])
  (host, if port.isEmpty then none else some port)

/-- `SplitResult.port`. -/
def portOf (netloc : Str) : Except PyErr (Option Nat) :=
  match (hostinfo netloc).2 with
  | none => .ok none
  | some p => if p.all isDig then (if digVal p ≤ 65535 then .ok (some (digVal p)) else .error .value) else .error .value

/-- `SplitResult.hostname or ""`. -/
def hostnameOf (env : Env) (netloc : Str) : Str :=
  let host := (hostinfo netloc).1
  match cut 37 host with
  | some (h, zone) => lower env h ++ 37 :: zone
  | none => lower env host

/-- A socket address: a path, or host and port. -/
inductive Sock where
  | tcp (host : Str) (port : Nat)
  | uds (path : Str)
deriving DecidableEq, Repr

/-- `os.path.join(dir, name)` for a name that does not start with a slash. -/
def joinPath (dir name : Str) : Str :=
  if dir.isEmpty then name else if dir.getLast? == some 47 then dir ++ name else dir ++ 47 :: name

/-- `parse_addr_string` (_socket_helper.py:71-97). -/
def parseAddr (env : Env) (value : Str) : Except PyErr Sock :=
  match urlsplit env value with
  | .error e => .error e
  | .ok u =>
    if u.scheme = py!"tcp" then
      if u.netloc = [] then
        -- `not value_split.port`: with an empty netloc the port is None
        .ok (.tcp [] 0)
      else match portOf u.netloc with
        | .error e => .error e
        | .ok (some p) => .ok (.tcp (hostnameOf env u.netloc) p)
        | .ok none => .error .value
    else if u.scheme = py!"uds" then
      if u.netloc ≠ [] ∧ u.path ≠ [] then .error .value
      else if u.netloc ≠ [] then .ok (.uds (joinPath env.tempdir u.netloc))
      else if u.path ≠ [] then .ok (.uds u.path)
      else .ok (.uds env.randomPath)
    else .error .value

/-- The name of a bound socket, by family (`getsockname`). -/
inductive SockName where
  | unix (path : Str)
  | inet (host : Str) (port : Nat)
  | inet6 (host : Str) (port : Nat)
deriving DecidableEq, Repr

/-- `MPQueue.address` (_mp_queue.py:61-73). -/
def address : SockName → Str
  | .unix path => py!"uds://" ++ path
  | .inet6 host port => py!"tcp://[" ++ host ++ py!"]:" ++ natDec port
  | .inet host port => py!"tcp://" ++ host ++ py!":" ++ natDec port

/-- The address a client must connect to in order to reach the socket. -/
def SockName.target : SockName → Sock
  | .unix path => .uds path
  | .inet host port => .tcp host port
  | .inet6 host port => .tcp host port

end Verif.Addr
