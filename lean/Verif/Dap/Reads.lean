import Verif.Dap.Schema
import Verif.Dap.Model
/-!
# What a document says

Which value an object read from a document must have, stated for the protocol's schema and the
naming rule of the attributes. Of the model only `ofJson` is used: the value of plain data.
-/

namespace Verif.Dap.Schema
open Verif Verif.Dap

/-! ## Reading a document -/

/-- Characters. -/
def isUpper (c : Nat) : Bool := decide (65 ≤ c) && decide (c ≤ 90)
def isDigit (c : Nat) : Bool := decide (48 ≤ c) && decide (c ≤ 57)

/-- `camelCase` to `snake_case`: a new word begins at a capital letter or digit that does not
follow one (`clientID` is `client_id`, `linesStartAt1` is `lines_start_at_1`). -/
def snakeFrom (prev : Bool) : Str → Str
  | [] => []
  | c :: cs =>
    if isUpper c then (if prev then [c + 32] else [95, c + 32]) ++ snakeFrom true cs
    else if isDigit c then (if prev then [c] else [95, c]) ++ snakeFrom true cs
    else c :: snakeFrom false cs

/-- Messages have a sequence number. -/
def isMessage (c : Cls) : Bool := (topMembers c).any fun m => m.key == py!"seq"

/-- The attribute that holds a member of a message or type. The `type` of a message is its
`message_type`. -/
def attrName (c : Cls) (key : Str) : Str :=
  if key = py!"type" ∧ isMessage c = true then py!"message_type" else snakeFrom true key

/-- What the protocol says an argument means that is not there: no value, an empty list or map,
`false`; lines and columns start at 1, the path format is `path`, the granularity `statement`, the
terminal the integrated one; a source has no reference (0) and is presented as normal. Whether disconnecting terminates the debuggee is left open. -/
def unsaid (m : Member) : Val :=
  if m.key = py!"linesStartAt1" ∨ m.key = py!"columnsStartAt1" then .bool true
  else if m.key = py!"terminateDebuggee" then .null
  else if m.key = py!"pathFormat" then .str py!"path"
  else if m.key = py!"granularity" then .str py!"statement"
  else if m.key = py!"kind" then .str py!"integrated"
  else if m.key = py!"sourceReference" then .int 0
  else if m.sch = .oneOf [py!"normal", py!"emphasize", py!"deemphasize"] then .str py!"normal"
  else match m.sch with
    | .bool => .bool false
    | .arr _ => .list []
    | .map _ => .dict []
    | _ => .null

/-- `v` is what the document `j` of that type says: the same number, text or truth value; a word of
an enumeration, or the member with that value; the list of what the elements say; an object of the
class, each of whose members that is present and not null is found in the attribute of that name,
while an optional member that is absent or null has the value the protocol says it then has (`unsaid`).
The members of `arguments` and `body` are attributes of the message itself. -/
inductive Reads : Sch → Json → Val → Prop
  | any (j) : Reads .any j (ofJson j)
  | int (i) : Reads .int (.int i) (.int i)
  | str (s) : Reads .str (.str s) (.str s)
  | bool (b) : Reads .bool (.bool b) (.bool b)
  | word (vals s) : Reads (.oneOf vals) (.str s) (.str s)
  | member (vals e s) : Reads (.oneOf vals) (.str s) (.enum e s)
  | null (s) : Reads (.orNull s) .null .null
  | nonNull (s j v) (h : Reads s j v) : Reads (.orNull s) j v
  | altL (s t j v) (h : Reads s j v) : Reads (.alt s t) j v
  | altR (s t j v) (h : Reads t j v) : Reads (.alt s t) j v
  | nil (s) : Reads (.arr s) (.arr []) (.list [])
  | cons (s j v) (js : List Json) (vs : List Val) (h : Reads s j v) (hs : Reads (.arr s) (.arr js) (.list vs)) :
      Reads (.arr s) (.arr (j :: js)) (.list (v :: vs))
  | map (s) (l : List (Str × Json)) : Reads (.map s) (.obj l) (ofJson (.obj l))
  | obj (c : Cls) (l : List (Str × Json)) (attrs : List (Str × Val)) (top body : Str → Val)
      (htop : ∀ m ∈ topMembers c, ∀ v, Dict.get? l m.key = some v → v ≠ .null → m.sch ≠ .obj (.body c) →
        Dict.get? attrs (attrName c m.key) = some (top m.key))
      (htop' : ∀ m ∈ topMembers c, ∀ v, Dict.get? l m.key = some v → v ≠ .null → m.sch ≠ .obj (.body c) →
        Reads m.sch v (top m.key))
      (hbody : ∀ m ∈ topMembers c, ∀ l', Dict.get? l m.key = some (.obj l') → m.sch = .obj (.body c) →
        ∀ m' ∈ bodyMembers c, ∀ v, Dict.get? l' m'.key = some v → v ≠ .null →
        Dict.get? attrs (attrName c m'.key) = some (body m'.key))
      (hbody' : ∀ m ∈ topMembers c, ∀ l', Dict.get? l m.key = some (.obj l') → m.sch = .obj (.body c) →
        ∀ m' ∈ bodyMembers c, ∀ v, Dict.get? l' m'.key = some v → v ≠ .null → Reads m'.sch v (body m'.key))
      (hunsaid : ∀ m ∈ topMembers c, m.required = false → m.sch ≠ .obj (.body c) → (∀ v, Dict.get? l m.key = some v → v = .null) →
        Dict.get? attrs (attrName c m.key) = some (unsaid m)) :
      Reads (ref c) (.obj l) (.obj c attrs)

/-- The document does not say anything about the argument. -/
def Unsaid (l : List (Str × Json)) (key : Str) : Prop :=
  ∀ l' v, Dict.get? l py!"arguments" = some (.obj l') → Dict.get? l' key = some v → v = .null

end Verif.Dap.Schema
