import Verif.Py.Basic
/-!
# `json.dumps` and `json.loads`

Model of the two standard library calls in /repo/src/ansibug/dap/_adapter.py:65 and
_adapter.py:83 (and /repo/src/ansibug/_debuggee.py:428, _debug_adapter.py:88), with Python's default
settings: `ensure_ascii=True`, separators `", "` and `": "`, `strict=True`.
-/

namespace Verif

/-- A JSON document. A float is represented by its literal text (two literals of the
same float are different here; `float.__repr__` of a finite float is such a literal).
Object members are in document/insertion order. -/
inductive Json where
  | null
  | bool (b : Bool)
  | int (i : Int)
  | float (lit : Str)
  | str (s : Str)
  | arr (l : List Json)
  | obj (l : List (Str × Json))
deriving Repr, Inhabited

/-! ## Writer -/

/-- Lower-case hexadecimal digit. -/
def hexDig (n : Nat) : Nat := if n < 10 then 48 + n else 87 + n

/-- `'\\u{0:04x}'.format(n)`. -/
def uEsc (n : Nat) : Str :=
  [92, 117, hexDig (n / 4096 % 16), hexDig (n / 256 % 16), hexDig (n / 16 % 16), hexDig (n % 16)]

/-- json.encoder.py_encode_basestring_ascii for one code point. -/
def escChar (c : Nat) : Str :=
  if c = 92 then [92, 92]            -- \\
  else if c = 34 then [92, 34]       -- \"
  else if c = 10 then [92, 110]      -- \n
  else if c = 13 then [92, 114]      -- \r
  else if c = 9 then [92, 116]       -- \t
  else if c = 12 then [92, 102]      -- \f
  else if c = 8 then [92, 98]        -- \b
  else if 32 ≤ c ∧ c ≤ 126 then [c]
  else if c < 0x10000 then uEsc c
  else uEsc (0xd800 + (c - 0x10000) / 1024 % 1024) ++ uEsc (0xdc00 + (c - 0x10000) % 1024)

/-- A quoted JSON string. -/
def dumpStr (s : Str) : Str := 34 :: (s.flatMap escChar ++ [34])

mutual
/-- `json.dumps(value)`. -/
def dumps : Json → Str
  | .null => py!"null"
  | .bool true => py!"true"
  | .bool false => py!"false"
  | .int i => intDec i
  | .float lit => lit
  | .str s => dumpStr s
  | .arr [] => py!"[]"
  | .arr (x :: xs) => 91 :: (dumps x ++ dumpsTail xs)
  | .obj [] => py!"{}"
  | .obj ((k, v) :: xs) => 123 :: (dumpStr k ++ [58, 32] ++ dumps v ++ dumpsObjTail xs)
/-- The remaining array elements, each preceded by `", "`, and the closing bracket. -/
def dumpsTail : List Json → Str
  | [] => [93]
  | x :: xs => 44 :: 32 :: (dumps x ++ dumpsTail xs)
/-- The remaining object members, each preceded by `", "`, and the closing brace. -/
def dumpsObjTail : List (Str × Json) → Str
  | [] => [125]
  | (k, v) :: xs => 44 :: 32 :: (dumpStr k ++ [58, 32] ++ dumps v ++ dumpsObjTail xs)
end

/-! ## Reader -/

/-- JSON white space (json.decoder.WHITESPACE). -/
def isWs (c : Nat) : Bool := c == 32 || c == 9 || c == 10 || c == 13

/-- Skip white space. -/
def skipWs (s : Str) : Str := s.dropWhile isWs

/-- Value of a hexadecimal digit (either case). -/
def unhex (c : Nat) : Option Nat :=
  if 48 ≤ c ∧ c ≤ 57 then some (c - 48)
  else if 97 ≤ c ∧ c ≤ 102 then some (c - 87)
  else if 65 ≤ c ∧ c ≤ 70 then some (c - 55)
  else none

/-- Four hexadecimal digits. -/
def unhex4 (a b c d : Nat) : Option Nat :=
  match unhex a, unhex b, unhex c, unhex d with
  | some a, some b, some c, some d => some (a * 4096 + b * 256 + c * 16 + d)
  | _, _, _, _ => none

/-- Single-character escapes (json.decoder.BACKSLASH). -/
def unescape (c : Nat) : Option Nat :=
  if c = 34 then some 34 else if c = 92 then some 92 else if c = 47 then some 47
  else if c = 98 then some 8 else if c = 102 then some 12 else if c = 110 then some 10
  else if c = 114 then some 13 else if c = 116 then some 9 else none

/-- `s` starts with an escaped low surrogate: its value and what follows. -/
def lowSurrogate : Str → Option (Nat × Str)
  | 92 :: 117 :: a :: b :: c :: d :: rest =>
    match unhex4 a b c d with
    | some v => if 0xdc00 ≤ v ∧ v ≤ 0xdfff then some (v, rest) else none
    | none => none
  | _ => none

/-- json.decoder.scanstring after the opening quote: the string and the rest of the
text. Raw control characters are refused (`strict=True`); a `\u` high surrogate
followed by a `\u` low surrogate is joined. The fuel is the length of the text. -/
def scanStr : Nat → Str → Option (Str × Str)
  | 0, _ => none
  | fuel + 1, s =>
    match s with
    | [] => none
    | 34 :: rest => some ([], rest)
    | 92 :: 117 :: a :: b :: c :: d :: rest =>
      match unhex4 a b c d with
      | none => none
      | some v =>
        if 0xd800 ≤ v ∧ v ≤ 0xdbff then
          match lowSurrogate rest with
          | some (w, rest') =>
            (scanStr fuel rest').map fun r => ((0x10000 + (v - 0xd800) * 1024 + (w - 0xdc00)) :: r.1, r.2)
          | none => (scanStr fuel rest).map fun r => (v :: r.1, r.2)
        else (scanStr fuel rest).map fun r => (v :: r.1, r.2)
    | 92 :: e :: rest =>
      match unescape e with
      | some c => (scanStr fuel rest).map fun r => (c :: r.1, r.2)
      | none => none
    | c :: rest =>
      if c < 32 ∨ c = 92 then none
      else (scanStr fuel rest).map fun r => (c :: r.1, r.2)

/-- The fraction part of NUMBER_RE: `(\.[0-9]+)?`. -/
def scanFrac (s : Str) : Str × Str :=
  match s with
  | 46 :: d :: rest =>
    if isDig d then (46 :: d :: rest.takeWhile isDig, rest.dropWhile isDig) else ([], s)
  | _ => ([], s)

/-- The exponent part of NUMBER_RE: `([eE][-+]?[0-9]+)?`. -/
def scanExp (s : Str) : Str × Str :=
  match s with
  | e :: rest =>
    if e = 101 ∨ e = 69 then
      match rest with
      | sg :: d :: rest' =>
        if (sg = 43 ∨ sg = 45) ∧ isDig d then
          (e :: sg :: d :: rest'.takeWhile isDig, rest'.dropWhile isDig)
        else if isDig sg then
          (e :: (rest.takeWhile isDig), rest.dropWhile isDig)
        else ([], s)
      | [d] => if isDig d then ([e, d], []) else ([], s)
      | [] => ([], s)
    else ([], s)
  | [] => ([], s)

/-- The unsigned integer part of NUMBER_RE: `0|[1-9][0-9]*`. -/
def scanInt (s : Str) : Option (Str × Str) :=
  match s with
  | 48 :: rest => some ([48], rest)
  | d :: rest =>
    if 49 ≤ d ∧ d ≤ 57 then some (d :: rest.takeWhile isDig, rest.dropWhile isDig) else none
  | [] => none

/-- The sign part of NUMBER_RE: `-?`. -/
def scanSign (s : Str) : Str × Str := match s with | 45 :: t => ([45], t) | t => ([], t)

/-- json.scanner `_match_number`: an int, or a float if there is a fraction or exponent. -/
def scanNum (s : Str) : Option (Json × Str) :=
  let (sign, t) := scanSign s
  match scanInt t with
  | none => none
  | some (ip, r) =>
    let (fr, r1) := scanFrac r
    let (ex, r2) := scanExp r1
    if fr = [] ∧ ex = [] then
      some (.int (if sign = [] then (digVal ip : Int) else - (digVal ip : Int)), r2)
    else some (.float (sign ++ ip ++ fr ++ ex), r2)

/-- Literal names, numbers and the float constants `NaN`, `Infinity`, `-Infinity`. -/
def scanAtom (s : Str) : Option (Json × Str) :=
  if py!"null".isPrefixOf s then some (.null, s.drop 4)
  else if py!"true".isPrefixOf s then some (.bool true, s.drop 4)
  else if py!"false".isPrefixOf s then some (.bool false, s.drop 5)
  else if py!"NaN".isPrefixOf s then some (.float py!"NaN", s.drop 3)
  else if py!"Infinity".isPrefixOf s then some (.float py!"Infinity", s.drop 8)
  else if py!"-Infinity".isPrefixOf s then some (.float py!"-Infinity", s.drop 9)
  else scanNum s

mutual
/-- json.scanner.scan_once: one value at the start of the text, and the rest.
The fuel bounds the number of nested calls; `loads` supplies the text length. -/
def scanVal : Nat → Str → Option (Json × Str)
  | 0, _ => none
  | fuel + 1, s =>
    match s with
    | 34 :: rest => (scanStr (rest.length + 1) rest).map fun r => (.str r.1, r.2)
    | 91 :: rest =>
      match skipWs rest with
      | 93 :: r => some (.arr [], r)
      | r => (scanElems fuel r).map fun p => (.arr p.1, p.2)
    | 123 :: rest =>
      match skipWs rest with
      | 125 :: r => some (.obj [], r)
      | r => (scanMembers fuel r []).map fun p => (.obj p.1, p.2)
    | _ => scanAtom s
/-- json.decoder.JSONArray after the opening bracket and white space. -/
def scanElems : Nat → Str → Option (List Json × Str)
  | 0, _ => none
  | fuel + 1, s =>
    match scanVal fuel s with
    | none => none
    | some (v, r) =>
      match skipWs r with
      | 93 :: r' => some ([v], r')
      | 44 :: r' => (scanElems fuel (skipWs r')).map fun p => (v :: p.1, p.2)
      | _ => none
/-- json.decoder.JSONObject after the opening brace and white space; `acc` are the
members read so far (a repeated key overwrites the earlier value, as in `dict(pairs)`). -/
def scanMembers : Nat → Str → List (Str × Json) → Option (List (Str × Json) × Str)
  | 0, _, _ => none
  | fuel + 1, s, acc =>
    match s with
    | 34 :: rest =>
      match scanStr (rest.length + 1) rest with
      | none => none
      | some (k, r) =>
        match skipWs r with
        | 58 :: r1 =>
          match scanVal fuel (skipWs r1) with
          | none => none
          | some (v, r2) =>
            match skipWs r2 with
            | 125 :: r3 => some (Dict.set acc k v, r3)
            | 44 :: r3 => scanMembers fuel (skipWs r3) (Dict.set acc k v)
            | _ => none
        | _ => none
    | _ => none
end

/-- `json.loads(text)`: one value with optional surrounding white space, nothing after
it, no byte order mark. `none` = JSONDecodeError (a ValueError). -/
def loads (s : Str) : Option Json :=
  match s with
  | 0xfeff :: _ => none
  | _ =>
    match scanVal (s.length + 1) (skipWs s) with
    | some (v, r) => if skipWs r = [] then some v else none
    | none => none

mutual
/-- Equality of JSON documents is decidable (needed for concrete examples). -/
def Json.beq : Json → Json → Bool
  | .null, .null => true
  | .bool a, .bool b => a == b
  | .int a, .int b => a == b
  | .float a, .float b => a == b
  | .str a, .str b => a == b
  | .arr a, .arr b => Json.beqL a b
  | .obj a, .obj b => Json.beqO a b
  | _, _ => false
/-- Equality of arrays. -/
def Json.beqL : List Json → List Json → Bool
  | [], [] => true
  | a :: as, b :: bs => Json.beq a b && Json.beqL as bs
  | _, _ => false
/-- Equality of objects. -/
def Json.beqO : List (Str × Json) → List (Str × Json) → Bool
  | [], [] => true
  | (k, a) :: as, (l, b) :: bs => (k == l && Json.beq a b) && Json.beqO as bs
  | _, _ => false
end

end Verif
