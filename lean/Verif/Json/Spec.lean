import Verif.Json.Model
/-!
# Which JSON documents are well formed

Conditions used as hypotheses of the JSON round trip: what Python values that
`json.dumps` is given look like. Nothing here mentions the writer or the reader.
-/

namespace Verif

/-- The code point is a UTF-16 high surrogate. -/
def isHigh (c : Nat) : Bool := decide (0xd800 ≤ c ∧ c ≤ 0xdbff)
/-- The code point is a UTF-16 low surrogate. -/
def isLow (c : Nat) : Bool := decide (0xdc00 ≤ c ∧ c ≤ 0xdfff)

/-- A Python string that JSON can carry: real code points, and no high surrogate
directly followed by a low one (JSON joins those two into one character). -/
def StrOk : Str → Bool
  | [] => true
  | [c] => decide (c < 0x110000)
  | c :: d :: s => decide (c < 0x110000) && !(isHigh c && isLow d) && StrOk (d :: s)

/-- A non-empty run of decimal digits. -/
def Digits (ds : Str) : Prop := ds ≠ [] ∧ ∀ d ∈ ds, isDig d = true

/-- The text of a Python float as `float.__repr__` writes it: an optional sign, an integer
part without superfluous zeros, and a fraction or an exponent (or both); or one of the
three non-finite names. -/
inductive FloatText : Str → Prop
  | nan : FloatText py!"NaN"
  | inf : FloatText py!"Infinity"
  | ninf : FloatText py!"-Infinity"
  | num (sign ip fr ex : Str)
      (hs : sign = [] ∨ sign = [45])
      (hi : ip = [48] ∨ (Digits ip ∧ ip.head? ≠ some 48))
      (hf : fr = [] ∨ ∃ ds, Digits ds ∧ fr = 46 :: ds)
      (he : ex = [] ∨ ∃ e sg ds, (e = 101 ∨ e = 69) ∧ (sg = [] ∨ sg = [43] ∨ sg = [45]) ∧ Digits ds ∧ ex = e :: (sg ++ ds))
      (hne : fr ≠ [] ∨ ex ≠ []) : FloatText (sign ++ ip ++ fr ++ ex)

mutual
/-- A document `json.dumps` can be given: transportable strings, float texts, and no
repeated key in an object (Python dictionaries have none). -/
def Json.WF : Json → Prop
  | .null => True
  | .bool _ => True
  | .int _ => True
  | .float lit => FloatText lit
  | .str s => StrOk s = true
  | .arr l => Json.WFL l
  | .obj l => (l.map (·.1)).Nodup ∧ Json.WFO l
/-- All elements are well formed. -/
def Json.WFL : List Json → Prop
  | [] => True
  | x :: xs => Json.WF x ∧ Json.WFL xs
/-- All members are well formed. -/
def Json.WFO : List (Str × Json) → Prop
  | [] => True
  | (k, v) :: xs => StrOk k = true ∧ Json.WF v ∧ Json.WFO xs
end

mutual
/-- Every float literal in the document is a float text (the only condition needed for
the text to be ASCII: strings are escaped). -/
def Json.FloatsOk : Json → Prop
  | .float lit => FloatText lit
  | .arr l => Json.FloatsOkL l
  | .obj l => Json.FloatsOkO l
  | _ => True
/-- Elements. -/
def Json.FloatsOkL : List Json → Prop
  | [] => True
  | x :: xs => Json.FloatsOk x ∧ Json.FloatsOkL xs
/-- Members. -/
def Json.FloatsOkO : List (Str × Json) → Prop
  | [] => True
  | (_, v) :: xs => Json.FloatsOk v ∧ Json.FloatsOkO xs
end

end Verif
