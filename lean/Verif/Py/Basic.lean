/-!
# Python primitives

Small, total models of the Python built-ins the code under /repo/src/ansibug relies on.
A Python `str` is a list of code points (so that lone surrogates, which Python allows,
can be expressed); a `bytes` object is a list of `UInt8`.
-/

namespace Verif

/-- A Python `str`: the list of its code points. -/
abbrev Str := List Nat

/-- A Python `bytes`/`bytearray`. -/
abbrev Bytes := List UInt8

open Lean in
/-- `py!"abc"` is the list of code points of the literal, written out. -/
macro:max "py!" s:str : term => do
  let ns : Array (TSyntax `term) := (s.getString.toList.map fun c => (quote c.toNat : TSyntax `term)).toArray
  `(([$ns,*] : List Nat))

open Lean in
/-- `bytes!"abc"` is the byte list of an ASCII literal (Python `b"abc"`), written out. -/
macro:max "bytes!" s:str : term => do
  let ns : Array (TSyntax `term) := (s.getString.toList.map fun c => (quote c.toNat : TSyntax `term)).toArray
  `(([$ns,*] : List UInt8))

/-- The exceptions that the modelled code can raise, by Python class. -/
inductive PyErr where
  | value      -- ValueError (and subclasses: JSONDecodeError, UnicodeDecodeError)
  | key        -- KeyError
  | type       -- TypeError
  | attribute  -- AttributeError
  | index      -- IndexError
  | os         -- OSError
  | cancelled  -- ansibug's CancelledError
  | notImpl    -- NotImplementedError
  | overflow   -- OverflowError
  | stopIter   -- StopIteration
  | timeout    -- TimeoutError
  | other      -- anything else (pickle errors, ...)
deriving DecidableEq, Repr

/-! ## Insertion ordered dictionaries -/

/-- A Python `dict` with keys `κ`: entries in insertion order. -/
abbrev Dict (κ : Type) (α : Type) := List (κ × α)

namespace Dict
variable {κ α : Type} [DecidableEq κ]

/-- `d.get(k)` / `d[k]` (with `none` for `KeyError`). -/
def get? : Dict κ α → κ → Option α
  | [], _ => none
  | (k', v) :: d, k => if k' = k then some v else get? d k

/-- `d[k] = v`: replaces in place, or appends. -/
def set : Dict κ α → κ → α → Dict κ α
  | [], k, v => [(k, v)]
  | (k', v') :: d, k, v => if k' = k then (k', v) :: d else (k', v') :: set d k v

/-- `d.pop(k, None)`: the dictionary without `k`. -/
def erase (d : Dict κ α) (k : κ) : Dict κ α := d.filter (fun e => decide (e.1 ≠ k))

/-- `d | e` / `d.update(e)`: entries of `e` override, new keys are appended. -/
def union (d e : Dict κ α) : Dict κ α := e.foldl (fun acc kv => set acc kv.1 kv.2) d

/-- `d.keys()`. -/
def keys (d : Dict κ α) : List κ := d.map (·.1)

/-- `d.values()`. -/
def vals (d : Dict κ α) : List α := d.map (·.2)

end Dict

/-! ## Sequences -/

/-- Python `l.find(pat)`: offset of the first occurrence of `pat`. -/
def findSub {α : Type} [DecidableEq α] (pat : List α) : List α → Option Nat
  | [] => if pat = [] then some 0 else none
  | x :: xs => if pat.isPrefixOf (x :: xs) then some 0 else (findSub pat xs).map (· + 1)

/-- Python `l.split(sep, maxsplit)` for a non-empty separator. -/
def splitMax {α : Type} [DecidableEq α] (sep : List α) : Nat → List α → List (List α)
  | 0, l => [l]
  | n + 1, l => match findSub sep l with
    | none => [l]
    | some i => l.take i :: splitMax sep n (l.drop (i + sep.length))

/-- Python `l.split(sep)` for a non-empty separator (a list of length `n` has at most
`n` non-overlapping occurrences of it). -/
def splitAll {α : Type} [DecidableEq α] (sep : List α) (l : List α) : List (List α) :=
  splitMax sep l.length l

/-- Python index normalisation of a slice bound: negative bounds count from the end,
everything is clamped to `0..len`. -/
def sliceBound (len : Nat) (i : Int) : Nat :=
  if i < 0 then (i + len).toNat else min i.toNat len

/-- Python `l[i:j]`. -/
def slice {α : Type} (l : List α) (i j : Int) : List α :=
  (l.take (sliceBound l.length j)).drop (sliceBound l.length i)

/-- Python `l[i:]`. -/
def sliceFrom {α : Type} (l : List α) (i : Int) : List α := l.drop (sliceBound l.length i)

/-- Python `l[:j]`. -/
def sliceTo {α : Type} (l : List α) (j : Int) : List α := l.take (sliceBound l.length j)

/-! ## Integers and text -/

/-- Is the code point an ASCII decimal digit? -/
def isDig (c : Nat) : Bool := decide (48 ≤ c ∧ c ≤ 57)

/-- Decimal text of a natural number (`str(n)`). -/
def natDec (n : Nat) : Str :=
  if _h : n < 10 then [48 + n] else natDec (n / 10) ++ [48 + n % 10]
termination_by n
decreasing_by omega

/-- Decimal text of an integer (`str(i)`). -/
def intDec (i : Int) : Str :=
  match i with
  | .ofNat n => natDec n
  | .negSucc n => 45 :: natDec (n + 1)

/-- Value of a list of decimal digits. -/
def digVal (ds : List Nat) : Nat := ds.foldl (fun acc d => acc * 10 + (d - 48)) 0

/-- Python's `int()` white space for ASCII input. -/
def isPySpace (c : Nat) : Bool := c == 32 || (9 ≤ c && c ≤ 13)

/-- Digits with single underscores between them (`1_000`), as `int()` accepts. `prev`
tells whether the previous character was a digit. -/
def intDigits : Bool → List Nat → Option (List Nat)
  | prev, [] => if prev then some [] else none
  | prev, c :: cs =>
    if isDig c then (intDigits true cs).map (c :: ·)
    else if c = 95 ∧ prev = true then intDigits false cs
    else none

/-- Python `int(text)` for ASCII text: white space is stripped, one sign is allowed,
digits may be grouped by underscores. `none` stands for ValueError.
(CPython's limit of 4300 digits is not modelled.) -/
def pyInt (s : List Nat) : Option Int :=
  let s := s.dropWhile isPySpace
  let s := (s.reverse.dropWhile isPySpace).reverse
  match s with
  | 45 :: ds => (intDigits false ds).map fun d => - (digVal d : Int)
  | 43 :: ds => (intDigits false ds).map fun d => (digVal d : Int)
  | ds => (intDigits false ds).map fun d => (digVal d : Int)

/-- Code points of an ASCII byte string. -/
def bytesToCodes (b : Bytes) : List Nat := b.map UInt8.toNat

/-- Python `text.encode()` restricted to ASCII text (all the code ever encodes on this
path is ASCII, see `dumps_ascii`). -/
def asciiEncode (s : Str) : Bytes := s.map UInt8.ofNat

/-- Strict UTF-8 decoding (`bytes.decode()`): overlong forms, surrogates, values above
U+10FFFF and truncated sequences are errors (`none` = UnicodeDecodeError). -/
def utf8Decode : Bytes → Option Str
  | [] => some []
  | b0 :: rest =>
    let x := b0.toNat
    if x < 0x80 then (utf8Decode rest).map (x :: ·)
    else if x < 0xC2 then none
    else if x < 0xE0 then
      match rest with
      | b1 :: r =>
        let y := b1.toNat
        if 0x80 ≤ y ∧ y < 0xC0 then
          (utf8Decode r).map ((x % 32 * 64 + y % 64) :: ·)
        else none
      | _ => none
    else if x < 0xF0 then
      match rest with
      | b1 :: b2 :: r =>
        let y := b1.toNat; let z := b2.toNat
        let c := x % 16 * 4096 + y % 64 * 64 + z % 64
        if (0x80 ≤ y ∧ y < 0xC0) ∧ (0x80 ≤ z ∧ z < 0xC0) ∧ 0x800 ≤ c ∧ ¬ (0xD800 ≤ c ∧ c ≤ 0xDFFF) then
          (utf8Decode r).map (c :: ·)
        else none
      | _ => none
    else if x < 0xF5 then
      match rest with
      | b1 :: b2 :: b3 :: r =>
        let y := b1.toNat; let z := b2.toNat; let w := b3.toNat
        let c := x % 8 * 262144 + y % 64 * 4096 + z % 64 * 64 + w % 64
        if (0x80 ≤ y ∧ y < 0xC0) ∧ (0x80 ≤ z ∧ z < 0xC0) ∧ (0x80 ≤ w ∧ w < 0xC0)
            ∧ 0x10000 ≤ c ∧ c < 0x110000 then
          (utf8Decode r).map (c :: ·)
        else none
      | _ => none
    else none

end Verif
