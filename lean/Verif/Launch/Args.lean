import Verif.Py.Dict
/-!
# The ansibug command line

Model of `parse_args` in /repo/src/ansibug/__main__.py:106-206 on top of Python's
`argparse` (CPython 3.10-3.13 `ArgumentParser._parse_known_args`), for parsers whose only
positional argument is one `nargs=REMAINDER` (or none at all).

Simplifications: every way `argparse` can end the process (help, usage errors) is `none`;
`\d` in the negative number pattern is ASCII; a lone `--` as the very first argument is an
error (true up to Python 3.12).  `eager` says whether an ambiguous abbreviation is an
error already while the arguments are classified (Python up to 3.11) or only when it is
consumed (3.12 and later).
-/

namespace Verif.Launch
open Verif

/-- What an option does: `store_true`, `store` (one argument), or print the help and exit. -/
inductive OptKind where
  | flag
  | value
  | help
deriving DecidableEq, Repr

/-- `_option_string_actions`. -/
abbrev OptTbl := List (Str × OptKind)

/-- Options of every parser (argparse adds them). -/
def helpOpts : OptTbl := [(py!"-h", .help), (py!"--help", .help)]

/-- `_add_log_args` (/repo/src/ansibug/__main__.py:39-54). -/
def logOpts : OptTbl := [(py!"--log-file", .value), (py!"--log-level", .value)]

/-- The `connect` parser (/repo/src/ansibug/__main__.py:122-139). -/
def connectOpts : OptTbl := helpOpts ++ [(py!"--addr", .value)] ++ logOpts ++ [(py!"--no-wait", .flag)]

/-- The `dap` parser (/repo/src/ansibug/__main__.py:143-165). -/
def dapOpts : OptTbl := helpOpts ++ logOpts ++ [(py!"--temp-dir", .value)]

/-- The `listen` parser (/repo/src/ansibug/__main__.py:169-201 and `_add_tls_server_args`
__main__.py:57-99). -/
def listenOpts : OptTbl := helpOpts ++ [(py!"--addr", .value)] ++ logOpts ++ [(py!"--no-wait", .flag),
  (py!"--wrap-tls", .flag), (py!"--tls-cert", .value), (py!"--tls-key", .value),
  (py!"--tls-key-pass", .value), (py!"--tls-client-ca", .value)]

/-- How argparse sees one argument string. -/
inductive Cls where
  | arg                                            -- 'A'
  | dash                                           -- '-' (the string `--`)
  | opt (name : Str) (k : OptKind) (explicit : Option Str)  -- 'O', a known option
  | unknown                                        -- 'O', no such option
  | ambiguous
deriving DecidableEq, Repr

/-- `s.partition('=')`: the text before the first `=`, and the text after it if there is one. -/
def partEq : Str → Str × Option Str
  | [] => ([], none)
  | c :: cs => if c = 61 then ([], some cs) else
    let r := partEq cs
    (c :: r.1, r.2)

/-- `_negative_number_matcher`: minus, then digits, or digits, a dot and digits. -/
def isNegNum (s : Str) : Bool :=
  match s with
  | 45 :: r =>
    (r ≠ [] && r.all isDig) ||
    (match r.dropWhile isDig with
     | 46 :: f => f ≠ [] && f.all isDig
     | _ => false)
  | _ => false

/-- `_get_option_tuples(s)` for a string of at least two characters starting with a dash. -/
def optTuples (tbl : OptTbl) (s : Str) : List Cls :=
  if s.take 2 = [45, 45] then
    (tbl.filter fun o => (partEq s).1.isPrefixOf o.1).map fun o => .opt o.1 o.2 (partEq s).2
  else
    tbl.filterMap fun o =>
      if o.1 = s.take 2 then some (.opt o.1 o.2 (some (s.drop 2)))
      else if s.isPrefixOf o.1 then some (.opt o.1 o.2 none)
      else none

/-- `_parse_optional(s)`. -/
def parseOptional (tbl : OptTbl) (s : Str) : Cls :=
  match s with
  | [] => .arg
  | c :: r =>
    if c ≠ 45 then .arg
    else
      match Dict.get? tbl s with
      | some k => .opt s k none
      | none =>
        if r = [] then .arg
        else
          match (partEq s).2, Dict.get? tbl (partEq s).1 with
          | some e, some k => .opt (partEq s).1 k (some e)
          | _, _ =>
            match optTuples tbl s with
            | [t] => t
            | _ :: _ :: _ => .ambiguous
            | [] => if isNegNum s then .arg else if 32 ∈ s then .arg else .unknown

/-- The arguments with their classes; everything after `--` is an argument. -/
def classify (tbl : OptTbl) : List Str → List (Str × Cls)
  | [] => []
  | s :: ss =>
    if s = [45, 45] then (s, .dash) :: ss.map (·, .arg)
    else (s, parseOptional tbl s) :: classify tbl ss

/-- The value of an option is accepted (`choices` of `--log-level`,
/repo/src/ansibug/__main__.py:50). -/
def valueOk (o v : Str) : Bool :=
  o ≠ py!"--log-level" || [py!"info", py!"debug", py!"warning", py!"error"].contains v

/-- The loop of `_parse_known_args`: options are consumed until the first string that is not
an option, from there on everything belongs to the REMAINDER positional.  `none`: usage
error (or help).  Returns the option values and the remainder. -/
def consume : List (Str × Cls) → Dict Str Str → Option (Dict Str Str × List Str)
  | [], ns => some (ns, [])
  | (s, .arg) :: rest, ns => some (ns, s :: rest.map (·.1))
  | (s, .dash) :: rest, ns => some (ns, s :: rest.map (·.1))
  | (_, .unknown) :: _, _ => none
  | (_, .ambiguous) :: _, _ => none
  | (_, .opt _ .help _) :: _, _ => none
  | (_, .opt o .flag none) :: rest, ns => consume rest (ns.set o [])
  | (_, .opt _ .flag (some _)) :: _, _ => none
  | (_, .opt o .value (some v)) :: rest, ns => if valueOk o v then consume rest (ns.set o v) else none
  | (_, .opt o .value none) :: (v, .arg) :: rest, ns => if valueOk o v then consume rest (ns.set o v) else none
  | (_, .opt _ .value none) :: _, _ => none

/-- A sub parser: `remainder` tells whether it has the REMAINDER positional (else left over
arguments are an error). -/
def subParse (eager : Bool) (tbl : OptTbl) (remainder : Bool) (args : List Str) :
    Option (Dict Str Str × List Str) :=
  let cs := classify tbl args
  if eager && cs.any (fun c => c.2 = .ambiguous) then none
  else
    match consume cs [] with
    | none => none
    | some (ns, rest) => if !remainder && rest ≠ [] then none else some (ns, rest)

/-- The parsed command line. -/
inductive Command where
  | connect (ns : Dict Str Str) (playbookArgs : List Str)
  | dap (ns : Dict Str Str)
  | listen (ns : Dict Str Str) (playbookArgs : List Str)
deriving DecidableEq, Repr

/-- `parse_args(argv)` (/repo/src/ansibug/__main__.py:106-206): the first argument chooses the
sub parser, which gets all the others. -/
def parseArgs (eager : Bool) (argv : List Str) : Option Command :=
  match argv with
  | [] => none
  | a :: rest =>
    if a = py!"connect" then
      match subParse eager connectOpts true rest with
      | some (ns, r) => if (ns.get? py!"--addr").isSome then some (.connect ns r) else none
      | none => none
    else if a = py!"dap" then (subParse eager dapOpts false rest).map fun r => .dap r.1
    else if a = py!"listen" then (subParse eager listenOpts true rest).map fun r => .listen r.1 r.2
    else none

/-! ## Facts -/

/-- Everything after the options is passed on, whatever it looks like. -/
theorem consume_append (cs : List (Str × Cls)) (ns ns' : Dict Str Str) (p : Str) (rest : List (Str × Cls))
    (h : consume cs ns = some (ns', [])) :
    consume (cs ++ (p, .arg) :: rest) ns = some (ns', p :: rest.map (·.1)) := by
  fun_induction consume cs ns with
  | case1 ns => cases h; simp [consume]
  | case2 => simp at h
  | case3 => simp at h
  | case4 => simp at h
  | case5 => simp at h
  | case6 => simp at h
  | case7 s o rest ns ih => simp only [List.cons_append, consume]; exact ih h
  | case8 => simp at h
  | case9 s o v rest ns hv ih => simp only [List.cons_append, consume, hv, if_true]; exact ih h
  | case10 => simp at h
  | case11 s o v rest ns hv ih => simp only [List.cons_append, consume, hv, if_true]; exact ih h
  | case12 => simp at h
  | case13 => simp at h

theorem parseOptional_arg (tbl : OptTbl) (s : Str) (h : s.head? ≠ some 45) : parseOptional tbl s = .arg := by
  cases s with
  | nil => rfl
  | cons c cs => 
    have : c ≠ 45 := fun e => h (by simp [e])
    simp [parseOptional, this]

theorem classify_fst (tbl : OptTbl) (l : List Str) : (classify tbl l).map (·.1) = l := by
  induction l with
  | nil => rfl
  | cons s ss ih =>
    simp only [classify]
    split
    · simp [Function.comp_def]
    · simp [ih]

theorem classify_append (tbl : OptTbl) (a b : List Str) (h : [45, 45] ∉ a) :
    classify tbl (a ++ b) = classify tbl a ++ classify tbl b := by
  induction a with
  | nil => rfl
  | cons s ss ih =>
    simp only [List.mem_cons, not_or] at h
    simp only [List.cons_append, classify, if_neg (Ne.symm h.1), ih h.2]

end Verif.Launch
