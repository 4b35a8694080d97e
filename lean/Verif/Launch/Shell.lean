import Verif.Launch.Text
/-!
# A small POSIX shell

What `/bin/sh` does with a script, for the fragment of the shell language the launch script
(/repo/src/ansibug/_debug_adapter.py:499-521) lives in.  This is environment, not
repository code: it follows POSIX.1-2017 XCU chapter 2.  Everything outside of the
fragment is rejected (`none`), so a theorem `runScript … = some …` also says that the
script stays inside the fragment: an unquoted metacharacter, an unterminated quote, an
unknown builtin or a NUL byte makes the model fail.

The alphabet is `Nat`: the shell reads bytes.
-/

namespace Verif.Launch
open Verif

/-- A piece of a word: a literal character (was it quoted?) or a parameter expansion inside
double quotes. -/
inductive Seg where
  | lit (quoted : Bool) (c : Nat)
  | var (name : Str)
deriving DecidableEq, Repr

/-- Shell tokens (XCU 2.3): words, the operators `(` and `)`, and newline. -/
inductive Tok where
  | word (w : List Seg)
  | lpar
  | rpar
  | nl
deriving DecidableEq, Repr

/-- Where the lexer is: unquoted, in single quotes, in double quotes, after `$` in double
quotes, inside `"${"`, or in a comment. -/
inductive Mode where
  | plain
  | sq
  | dq
  | dollar
  | brace (name : Str)
  | comment
deriving DecidableEq, Repr

/-- Lexer state: mode and the word being read, if any. -/
abbrev Lx := Mode × Option (List Seg)

/-- Delimit the current word. -/
def flush : Option (List Seg) → List Tok
  | none => []
  | some w => [.word w]

/-- Characters that may appear unquoted as themselves: those that are never special, and
the braces (which are only reserved words on their own). -/
def plainOk (c : Nat) : Bool := shSafe c || c == 123 || c == 125

/-- Characters of variable names. -/
def isNameChar (c : Nat) : Bool :=
  (65 ≤ c && c ≤ 90) || (97 ≤ c && c ≤ 122) || (48 ≤ c && c ≤ 57) || c == 95

/-- A valid variable or function name (XBD 3.235). -/
def isName (n : Str) : Bool :=
  match n with
  | [] => false
  | c :: _ => !(48 ≤ c && c ≤ 57) && n.all isNameChar

/-- Append a piece to the current word. -/
def addSeg (cur : Option (List Seg)) (g : Seg) : Option (List Seg) := some (cur.getD [] ++ [g])

/-- One character of token recognition (XCU 2.2 quoting, 2.3 token recognition). -/
def lxStep (s : Lx) (c : Nat) : Option (Lx × List Tok) :=
  match s.1 with
  | .plain =>
    if c = 32 ∨ c = 9 then some ((.plain, none), flush s.2)
    else if c = 10 then some ((.plain, none), flush s.2 ++ [.nl])
    else if c = 40 then some ((.plain, none), flush s.2 ++ [.lpar])
    else if c = 41 then some ((.plain, none), flush s.2 ++ [.rpar])
    else if c = 39 then some ((.sq, some (s.2.getD [])), [])
    else if c = 34 then some ((.dq, some (s.2.getD [])), [])
    else if c = 35 ∧ s.2 = none then some ((.comment, none), [])
    else if plainOk c then some ((.plain, addSeg s.2 (.lit false c)), [])
    else none
  | .sq =>
    if c = 39 then some ((.plain, s.2), [])
    else if c = 0 then none
    else some ((.sq, addSeg s.2 (.lit true c)), [])
  | .dq =>
    if c = 34 then some ((.plain, s.2), [])
    else if c = 36 then some ((.dollar, s.2), [])
    else if c = 96 ∨ c = 92 ∨ c = 0 then none
    else some ((.dq, addSeg s.2 (.lit true c)), [])
  | .dollar =>
    if c = 123 then some ((.brace [], s.2), [])
    else if c = 64 ∨ c = 48 then some ((.dq, addSeg s.2 (.var [c])), [])
    else none
  | .brace n =>
    if c = 125 then
      if isName n then some ((.dq, addSeg s.2 (.var n)), []) else none
    else if isNameChar c then some ((.brace (n ++ [c]), s.2), [])
    else none
  | .comment =>
    if c = 10 then some ((.plain, none), [.nl])
    else some ((.comment, none), [])

/-- Tokens of a piece of text. -/
def lex : Lx → Str → Option (Lx × List Tok)
  | s, [] => some (s, [])
  | s, c :: cs =>
    match lxStep s c with
    | none => none
    | some (s1, o1) =>
      match lex s1 cs with
      | none => none
      | some (s2, o2) => some (s2, o1 ++ o2)

/-- Tokens of a whole script; quotes must be closed. -/
def tokenise (text : Str) : Option (List Tok) :=
  match lex (.plain, none) text with
  | some ((.plain, cur), o) => some (o ++ flush cur)
  | some ((.comment, _), o) => some o
  | _ => none

/-! ## Commands -/

/-- A simple command (its words), an assignment, or a function definition. -/
inductive Cmd where
  | simple (ws : List (List Seg))
  | assign (name : Str) (w : List Seg)
  | func (name : Str) (body : List Cmd)

/-- Split the tokens at newlines. -/
def tokLines : List Tok → List (List Tok)
  | [] => [[]]
  | .nl :: ts => [] :: tokLines ts
  | t :: ts =>
    match tokLines ts with
    | [] => [[t]]
    | l :: ls => (t :: l) :: ls

/-- All tokens of a line, if they are words. -/
def lineWords : List Tok → Option (List (List Seg))
  | [] => some []
  | .word w :: ts => (lineWords ts).map (w :: ·)
  | _ => none

/-- The text of a word without any quoting or expansion. -/
def bare : List Seg → Option Str
  | [] => some []
  | .lit false c :: gs => (bare gs).map (c :: ·)
  | _ => none

/-- Reserved words (XCU 2.4). -/
def reserved : List Str :=
  [py!"!", py!"{", py!"}", py!"case", py!"do", py!"done", py!"elif", py!"else", py!"esac",
   py!"fi", py!"for", py!"if", py!"in", py!"then", py!"until", py!"while", py!"function", py!"[[", py!"]]", py!"select", py!"time"]

/-- `name=value`, when the name and the equals sign are unquoted (XCU 2.9.1): the unquoted
name characters read so far are in `acc`. -/
def asAssign (acc : Str) : List Seg → Option (Str × List Seg)
  | .lit false c :: gs =>
    if c = 61 then (if isName acc then some (acc, gs) else none)
    else if isNameChar c then asAssign (acc ++ [c]) gs
    else none
  | _ => none

/-- A line that is not a function definition.  Lists of words whose first word is reserved
are outside of the fragment, as are assignments followed by a command. -/
def parseSimple (ws : List (List Seg)) : Option (List Cmd) :=
  match ws with
  | [] => some []
  | w :: rest =>
    match asAssign [] w with
    | some (n, v) => if rest = [] then some [.assign n v] else none
    | none =>
      match bare w with
      | some b => if b ∈ reserved then none else some [.simple ws]
      | none => some [.simple ws]

/-- Lines of a brace group up to the closing brace, and the remaining lines. -/
def parseBody : List (List Tok) → Option (List Cmd × List (List Tok))
  | [] => none
  | l :: ls =>
    if l = [.word [.lit false 125]] then some ([], ls)
    else
      match (lineWords l).bind parseSimple, parseBody ls with
      | some c, some (cs, rest) => some (c ++ cs, rest)
      | _, _ => none

/-- Is the line the start of a function definition, `name () {`? -/
def funcHead : List Tok → Option Str
  | [.word f, .lpar, .rpar, .word [.lit false 123]] =>
    match bare f with
    | some n => if isName n && !(reserved.contains n) then some n else none
    | none => none
  | _ => none

/-- Parse the lines of a script; `n` bounds the number of lines. -/
def parseLines : Nat → List (List Tok) → Option (List Cmd)
  | _, [] => some []
  | 0, _ => none
  | n + 1, l :: ls =>
    match funcHead l with
    | some f =>
      match parseBody ls with
      | some (body, rest) => (parseLines n rest).map (Cmd.func f body :: ·)
      | none => none
    | none =>
      match (lineWords l).bind parseSimple, parseLines n ls with
      | some c, some cs => some (c ++ cs)
      | _, _ => none

/-- Parse a script. -/
def parseScript (text : Str) : Option (List Cmd) :=
  match tokenise text with
  | none => none
  | some ts => parseLines (tokLines ts).length (tokLines ts)

/-! ## Execution -/

/-- The shell's execution environment. -/
structure ShEnv where
  zero : Str
  args : List Str
  vars : List (Str × Str) := []
  funcs : List (Str × List Cmd) := []
  exitTrap : Option Str := none
  errexit : Bool := false

/-- Value of a parameter (`$@` is treated in `expandWord`). -/
def ShEnv.lookup (e : ShEnv) (n : Str) : Option Str :=
  if n = py!"0" then some e.zero else Dict.get? e.vars n

/-- Expansion of a word to one string (XCU 2.6; only quoted expansions, so there is no
field splitting and no pathname expansion). -/
def expandStr (e : ShEnv) : List Seg → Option Str
  | [] => some []
  | .lit _ c :: gs => (expandStr e gs).map (c :: ·)
  | .var n :: gs =>
    match e.lookup n, expandStr e gs with
    | some v, some r => some (v ++ r)
    | _, _ => none

/-- Expansion of a word to fields: `"$@"` yields one field per positional parameter. -/
def expandWord (e : ShEnv) (w : List Seg) : Option (List Str) :=
  if w = [.var py!"@"] then some e.args else (expandStr e w).map ([·])

/-- Expansion of all words of a command. -/
def expandAll (e : ShEnv) : List (List Seg) → Option (List Str)
  | [] => some []
  | w :: ws =>
    match expandWord e w, expandAll e ws with
    | some a, some b => some (a ++ b)
    | _, _ => none

/-- Running programs: the argument vectors executed so far (oldest first), whether the
shell has to exit now. -/
structure ShRun where
  env : ShEnv
  trace : List (List Str) := []
  exited : Bool := false

/-- Run one external program.  Its exit status is whatever the environment makes it: `ok`
sees everything executed so far. -/
def runExternal (ok : List (List Str) → Bool) (r : ShRun) (argv : List Str) : ShRun :=
  let tr := r.trace ++ [argv]
  { r with trace := tr, exited := r.env.errexit && !ok tr }

/-- Run the command `fields` that is not a function.  `set -e` and `trap f … EXIT …` are the
builtins of the fragment; a program is run if it is given by a path (it contains a slash)
or is `rm`. -/
def runFields (ok : List (List Str) → Bool) (r : ShRun) (fields : List Str) : Option ShRun :=
  match fields with
  | [] => none
  | c :: rest =>
    if c = py!"set" then
      if rest = [py!"-e"] then some { r with env := { r.env with errexit := true } } else none
    else if c = py!"trap" then
      match rest with
      | f :: conds => if py!"EXIT" ∈ conds then some { r with env := { r.env with exitTrap := some f } } else none
      | [] => none
    else if 47 ∈ c ∨ c = py!"rm" then some (runExternal ok r fields)
    else none

/-- Run the body of a function (no nested functions in the fragment). -/
def runBody (ok : List (List Str) → Bool) : ShRun → List Cmd → Option ShRun
  | r, [] => some r
  | r, c :: cs =>
    if r.exited then some r
    else
      match c with
      | .assign n w =>
        match expandStr r.env w with
        | some v => runBody ok { r with env := { r.env with vars := Dict.set r.env.vars n v } } cs
        | none => none
      | .simple ws =>
        match (expandAll r.env ws).bind (runFields ok r) with
        | some r' => runBody ok r' cs
        | none => none
      | .func _ _ => none

/-- Run a simple command: a defined function, else a builtin or a program. -/
def runSimple (ok : List (List Str) → Bool) (r : ShRun) (fields : List Str) : Option ShRun :=
  match fields with
  | [] => none
  | c :: _ =>
    match Dict.get? r.env.funcs c with
    | some body => runBody ok r body
    | none => runFields ok r fields

/-- Run the commands of the script in order until the end or until the shell exits. -/
def runCmds (ok : List (List Str) → Bool) : ShRun → List Cmd → Option ShRun
  | r, [] => some r
  | r, c :: cs =>
    if r.exited then some r
    else
      match c with
      | .assign n w =>
        match expandStr r.env w with
        | some v => runCmds ok { r with env := { r.env with vars := Dict.set r.env.vars n v } } cs
        | none => none
      | .func n body => runCmds ok { r with env := { r.env with funcs := Dict.set r.env.funcs n body } } cs
      | .simple ws =>
        match (expandAll r.env ws).bind (runSimple ok r) with
        | some r' => runCmds ok r' cs
        | none => none

/-- Run a whole script `text` as `zero args…`: the programs executed, in order, including
those of the EXIT trap. -/
def runScript (ok : List (List Str) → Bool) (text : Str) (zero : Str) (args : List Str) :
    Option (List (List Str)) :=
  match parseScript text with
  | none => none
  | some cmds =>
    match runCmds ok { env := { zero := zero, args := args } } cmds with
    | none => none
    | some r =>
      match r.env.exitTrap with
      | none => some r.trace
      | some f =>
        match runSimple ok { r with exited := false } [f] with
        | none => none
        | some r' => some r'.trace

end Verif.Launch
