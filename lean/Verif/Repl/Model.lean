import Verif.Py.Basic

/-!
# Console commands

Models `plugin_utils/_repl_util.py` (`parse_repl_args`) together with the two library
functions it is built on, `shlex.split` and `argparse`, and the routing of
`AnsibleDebugState.evaluate` (strategy/debug.py:783-851).
-/

namespace Verif.Repl

/-! ## `shlex.split` (POSIX mode, no comments) -/

/-- The characters `shlex` treats as white space: space, tab, CR, LF. -/
def shWs (c : Nat) : Bool := c == 32 || c == 9 || c == 13 || c == 10

/-- The quote characters of `shlex`: `"` and `'`. -/
def isQuote (c : Nat) : Bool := c == 34 || c == 39

/-- The states of `shlex.read_token`: between words, in a word (with the text so far), in
quotes, and just after a backslash (in the given quotes, or outside of quotes). -/
inductive LexState where
  | sp
  | word (t : Str)
  | quote (q : Nat) (t : Str)
  | esc (inQuote : Option Nat) (t : Str)
deriving DecidableEq, Repr

/-- `shlex.split(text)` (_repl_util.py:124, CPython's `shlex.read_token` with `posix=True`,
`whitespace_split=True`, no commenters). `none` is the `ValueError` for an open quote or a
trailing backslash. -/
def lex : LexState → Str → Option (List Str)
  | .sp, [] => some []
  | .sp, c :: s =>
    if shWs c then lex .sp s
    else if c = 92 then lex (.esc none []) s
    else if isQuote c then lex (.quote c []) s
    else lex (.word [c]) s
  | .word t, [] => some [t]
  | .word t, c :: s =>
    if shWs c then (lex .sp s).map (t :: ·)
    else if isQuote c then lex (.quote c t) s
    else if c = 92 then lex (.esc none t) s
    else lex (.word (t ++ [c])) s
  | .quote _ _, [] => none
  | .quote q t, c :: s =>
    if c = q then lex (.word t) s
    else if c = 92 ∧ q = 34 then lex (.esc (some q) t) s
    else lex (.quote q (t ++ [c])) s
  | .esc _ _, [] => none
  | .esc none t, c :: s => lex (.word (t ++ [c])) s
  | .esc (some q) t, c :: s =>
    if c ≠ 92 ∧ c ≠ q then lex (.quote q (t ++ [92, c])) s else lex (.quote q (t ++ [c])) s

/-- `shlex.split(text)`. -/
def shlexSplit (s : Str) : Option (List Str) := lex .sp s

/-! ## `argparse` -/

/-- How `ArgumentParser._parse_optional` classifies an argument when the only option is
`-h`/`--help`: a positional, a (possibly abbreviated or badly used) help option - every such
use ends in `error` or `print_help`, i.e. in a text for the client -, or an unknown option,
which `parse_known_args` puts aside. -/
inductive Tok where
  | pos | help | unknown
deriving DecidableEq, Repr

/-- `^-\d+$|^-\d*\.\d+$` (argparse's negative number pattern, before 3.14; ASCII digits only). -/
def isNegNum : Str → Bool
  | 45 :: s =>
    (!s.isEmpty && s.all isDig) ||
    (match s.dropWhile isDig with
     | 46 :: f => !f.isEmpty && f.all isDig
     | _ => false)
  | _ => false

/-- The text before the first `=`. -/
def beforeEq (s : Str) : Str := s.takeWhile (· ≠ 61)

/-- `ArgumentParser._parse_optional` for a parser whose only options are `-h` and `--help`. -/
def classify (t : Str) : Tok :=
  match t with
  | [] => .pos
  | c :: s =>
    if c ≠ 45 then .pos
    else if t = py!"-h" ∨ t = py!"--help" then .help
    else if s = [] then .pos
    else if 61 ∈ t ∧ (beforeEq t = py!"-h" ∨ beforeEq t = py!"--help") then .help
    else if py!"--".isPrefixOf t = true ∧ (beforeEq t).isPrefixOf py!"--help" = true then .help
    else if py!"-h".isPrefixOf t = true then .help
    else if isNegNum t then .pos
    else if 32 ∈ t then .pos
    else .unknown

/-- The canonical command names (_repl_util.py:61-66). -/
inductive Cmd where
  | removeOption | setOption | setHostvar | template
deriving DecidableEq, Repr

/-- Command names and aliases (_repl_util.py:61-66, _repl_util.py:79-118) and the resolution of an alias
(_repl_util.py:131-141); `none` is argparse's "invalid choice" error. -/
def resolve (t : Str) : Option Cmd :=
  if t = py!"remove_option" ∨ t = py!"ro" then some .removeOption
  else if t = py!"set_option" ∨ t = py!"so" then some .setOption
  else if t = py!"set_hostvar" ∨ t = py!"sh" then some .setHostvar
  else if t = py!"template" ∨ t = py!"t" then some .template
  else none

/-- The main parser (_repl_util.py:68-77): unknown options are put aside, the first positional is the
command and everything after it goes to the sub parser. `none` is a help text or an error
text. (`--` before the command is rejected as in CPython 3.11/3.12: "invalid choice".) -/
def mainParse : List Str → Option (Str × List Str)
  | [] => none
  | t :: r =>
    if t = py!"--" then none
    else match classify t with
      | .help => none
      | .unknown => mainParse r
      | .pos => some (t, r)

/-- Is help asked for (or a help option used wrongly) by one of the arguments of the sub
command? `--` ends the options. -/
def asksHelp : List Str → Bool
  | [] => false
  | t :: r => if t = py!"--" then false else classify t == .help || asksHelp r

/-- The value of the positional `name` of a sub command: the first positional argument, or the
argument after `--`. -/
def firstPos : List Str → Option Str
  | [] => none
  | t :: r => if t = py!"--" then r.head? else if classify t = .pos then some t else firstPos r

/-! ## `parse_repl_args` -/

/-- The result of `parse_repl_args` (_repl_util.py:26-42): a command or a text for the client. -/
inductive Res where
  | template (expr : Str)
  | remove (name : Str)
  | setOption (name expr : Str)
  | setHostvar (name expr : Str)
  | text
deriving DecidableEq, Repr

/-- The characters `str.lstrip()` strips. -/
def uSpace (c : Nat) : Bool :=
  (9 ≤ c && c ≤ 13) || (28 ≤ c && c ≤ 32) || c == 0x85 || c == 0xA0 || c == 0x1680 ||
  (0x2000 ≤ c && c ≤ 0x200A) || c == 0x2028 || c == 0x2029 || c == 0x202F || c == 0x205F || c == 0x3000

/-- `text.lstrip()`. -/
def lstrip (s : Str) : Str := s.dropWhile uSpace

/-- `text[text.index(pat) + len(pat):]` (`none` = ValueError of `index`). -/
def afterFirst (pat s : Str) : Option Str := (findSub pat s).map fun i => s.drop (i + pat.length)

/-- `if remaining.startswith('"') or remaining.startswith("'"): remaining = remaining[1:]`
(_repl_util.py:153-154). -/
def dropQuote : Str → Str
  | [] => []
  | c :: s => if isQuote c then s else c :: s

/-- `parse_repl_args` (_repl_util.py:45-161). `none` is the uncaught `ValueError` of
`shlex.split` (_repl_util.py:124) or of `str.index` (_repl_util.py:145, _repl_util.py:151, _repl_util.py:152). -/
def parseRepl (args : Str) : Option Res :=
  match shlexSplit args with
  | none => none
  | some toks =>
    match mainParse toks with
    | none => some .text
    | some (command, rest) =>
      match resolve command with
      | none => some .text
      | some cmd =>
        if asksHelp rest then some .text
        else match cmd with
          | .template => (afterFirst command args).map fun r => .template (lstrip r)
          | .removeOption =>
            match firstPos rest with
            | none => some .text
            | some name => some (.remove name)
          | .setOption =>
            match firstPos rest with
            | none => some .text
            | some name =>
              ((afterFirst command args).bind fun r => afterFirst name (lstrip r)).map fun r =>
                .setOption name (lstrip (dropQuote r))
          | .setHostvar =>
            match firstPos rest with
            | none => some .text
            | some name =>
              ((afterFirst command args).bind fun r => afterFirst name (lstrip r)).map fun r =>
                .setHostvar name (lstrip (dropQuote r))

/-! ## Routing of evaluate -/

/-- What `evaluate` does with a request. -/
inductive Action where
  /-- a console command (strategy/debug.py:799-838): `none` is the uncaught ValueError -/
  | command (frame : Int) (r : Option Res)
  /-- an expression is templated in the frame (strategy/debug.py:840-842) -/
  | expression (frame : Int) (text : Str)
  /-- "Evaluation for ... is not implemented" (strategy/debug.py:844-845) -/
  | notImplemented
deriving DecidableEq, Repr

/-- The routing of `AnsibleDebugState.evaluate` (strategy/debug.py:797-845) by context,
expression and frame id (`request.frame_id` is falsy if it is missing or 0). -/
def evalRoute (context : Option Str) (expression : Str) (frame : Option Int) : Action :=
  match frame with
  | none => .notImplemented
  | some f =>
    if f = 0 then .notImplemented
    else if context = some py!"repl" ∧ expression.head? = some 33 then
      .command f (parseRepl (expression.drop 1))
    else if context = some py!"repl" ∨ context = some py!"watch" ∨ context = some py!"clipboard" ∨
        context = some py!"variables" then .expression f expression
    else .notImplemented

end Verif.Repl
