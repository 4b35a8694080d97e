import Verif.Dap.Model
import Verif.Json.Spec
/-!
# Well-typed DAP objects

What "an instance whose attributes have the annotated types" means. Nothing here mentions
packing or unpacking.
-/

namespace Verif.Dap

mutual
/-- Data as JSON can express it: no enumeration members and no objects. -/
def Plain : Val → Prop
  | .list l => PlainL l
  | .dict l => PlainO l
  | .enum _ _ => False
  | .obj _ _ => False
  | _ => True
/-- Elements. -/
def PlainL : List Val → Prop
  | [] => True
  | x :: xs => Plain x ∧ PlainL xs
/-- Members. -/
def PlainO : List (Str × Val) → Prop
  | [] => True
  | (_, v) :: xs => Plain v ∧ PlainO xs
end

/-- The value an attribute has in every instance of the class: `message_type`, `command`,
`event` and `success` are no constructor arguments and keep the class's value. The sequence
number is the one such attribute that does vary. -/
def fixedVal (c : Cls) (f : Field) : Option Val :=
  if f.init = true ∨ f.name = py!"seq" then none
  else match f.dflt with
    | some d => some d
    | none => c.attr? f.name

/-- The value has the annotated type. -/
inductive Typed : Ann → Val → Prop
  | int (i) : Typed .int (.int i)
  | str (s) : Typed .str (.str s)
  | bool (b) : Typed .bool (.bool b)
  | any (v) (h : Plain v) : Typed .any v
  | literal (vals s) (h : s ∈ vals) : Typed (.literal vals) (.str s)
  | optNone (a) : Typed (.optional a) .null
  | optSome (a v) (h : Typed a v) : Typed (.optional a) v
  | pipeNone (a) : Typed (.pipeNone a) .null
  | pipeSome (a v) (h : Typed a v) : Typed (.pipeNone a) v
  | union (as : List Ann) (a v) (hm : a ∈ as) (h : Typed a v) : Typed (.union as) v
  | tlist (a) (l : List Val) (h : ∀ v ∈ l, Typed a v) : Typed (.tlist a) (.list l)
  | list (a) (l : List Val) (h : ∀ v ∈ l, Typed a v) : Typed (.list a) (.list l)
  | tdict (a) (l : List (Str × Val)) (h : ∀ kv ∈ l, Typed a kv.2) : Typed (.tdict a) (.dict l)
  | enum (e) (s) (h : s ∈ e.values) : Typed (.enum e) (.enum e s)
  | obj (c : Cls) (val : Str → Val)
      (h : ∀ f ∈ c.fields, Typed f.ann (val f.name))
      (hfix : ∀ f ∈ c.fields, ∀ w, fixedVal c f = some w → val f.name = w) :
      Typed (.cls c) (.obj c (c.fields.map fun f => (f.name, val f.name)))

/-- A well-typed instance of the class. -/
def Instance (c : Cls) (v : Val) : Prop := Typed (.cls c) v

/-- An attribute of an object. -/
def Val.attr? : Val → Str → Option Val
  | .obj _ attrs, a => Dict.get? attrs a
  | _, _ => none

/-- The concrete message classes: proper subclasses of Request, Response and Event. -/
def Cls.kind? (c : Cls) : Option Kind :=
  if c.base = some .Request then some .request
  else if c.base = some .Response then some .response
  else if c.base = some .Event then some .event
  else none

mutual
/-- All text inside can be carried by JSON: transportable strings, float texts, no repeated
dictionary keys (Python dictionaries have none). -/
def Val.Ok : Val → Prop
  | .null => True
  | .bool _ => True
  | .int _ => True
  | .flt l => FloatText l
  | .str s => StrOk s = true
  | .list l => Val.OkL l
  | .dict l => (l.map (·.1)).Nodup ∧ Val.OkO l
  | .enum _ s => StrOk s = true
  | .obj _ attrs => Val.OkA attrs
/-- Elements. -/
def Val.OkL : List Val → Prop
  | [] => True
  | x :: xs => Val.Ok x ∧ Val.OkL xs
/-- Dictionary members. -/
def Val.OkO : List (Str × Val) → Prop
  | [] => True
  | (k, v) :: xs => StrOk k = true ∧ Val.Ok v ∧ Val.OkO xs
/-- Attributes (their names are not sent). -/
def Val.OkA : List (Str × Val) → Prop
  | [] => True
  | (_, v) :: xs => Val.Ok v ∧ Val.OkA xs
end

/-! ## Documents with additional members -/

/-- A place in a document: an object of a class, a nested mapping of a class's keys (such as
`arguments` or `body`), a value of a field (with the field's converter), or the elements of a list. -/
inductive Place where
  | object (c : Cls)
  | nested (c : Cls) (m : List (Str × Str))
  | val (u : Unp)
  | list (u : Unp)

/-- A value under the key `__types` that does no harm: an object in which every member named like an
attribute of the message's class is null. -/
def Harmless (c : Cls) (x : Json) : Prop := ∃ d, x = .obj d ∧ ∀ m ∈ d, m.1 ∈ c.fields.map (·.name) → m.2 = .null

/-- `Ext p j j'`: the document `j'` is `j` with additional members, at any depth inside the
objects the protocol knows: members with value null, or members whose key the class (or the
nested mapping) does not know. The key `__types` is restricted at the top level of an object:
it collides with an implementation detail, see `C11_types_key_refuted`. -/
inductive Ext : Place → Json → Json → Prop
  | objNil (c) : Ext (.object c) (.obj []) (.obj [])
  | objSkip {c l l' k x} (hs : x = .null ∨ (k ≠ py!"__types" ∧ k ∉ c.dap.map (·.1)) ∨ (k = py!"__types" ∧ Harmless c x))
      (h : Ext (.object c) (.obj l) (.obj l')) : Ext (.object c) (.obj l) (.obj ((k, x) :: l'))
  | objAttr {c l l' k a v v'} (hk : Dict.get? c.dap k = some (.attr a)) (hv : Ext (.val (c.fieldUnp a)) v v')
      (h : Ext (.object c) (.obj l) (.obj l')) : Ext (.object c) (.obj ((k, v) :: l)) (.obj ((k, v') :: l'))
  | objSub {c l l' k m d d'} (hk : Dict.get? c.dap k = some (.sub m)) (hd : Ext (.nested c m) (.obj d) (.obj d'))
      (h : Ext (.object c) (.obj l) (.obj l')) : Ext (.object c) (.obj ((k, .obj d) :: l)) (.obj ((k, .obj d') :: l'))
  | subNil (c m) : Ext (.nested c m) (.obj []) (.obj [])
  | subSkip {c m l l' k x} (hs : x = .null ∨ k ∉ m.map (·.1))
      (h : Ext (.nested c m) (.obj l) (.obj l')) : Ext (.nested c m) (.obj l) (.obj ((k, x) :: l'))
  | subAttr {c m l l' k a v v'} (hk : Dict.get? m k = some a) (hv : Ext (.val (c.fieldUnp a)) v v')
      (h : Ext (.nested c m) (.obj l) (.obj l')) : Ext (.nested c m) (.obj ((k, v) :: l)) (.obj ((k, v') :: l'))
  | same (u j) : Ext (.val u) j j
  | obj {c j j'} (h : Ext (.object c) j j') : Ext (.val (.cls c)) j j'
  | arr {u l l'} (h : Ext (.list u) (.arr l) (.arr l')) : Ext (.val u) (.arr l) (.arr l')
  | listNil (u) : Ext (.list u) (.arr []) (.arr [])
  | listSame {u x l l'} (h : Ext (.list u) (.arr l) (.arr l')) : Ext (.list u) (.arr (x :: l)) (.arr (x :: l'))
  | listObj {c x x' l l'} (hx : Ext (.object c) x x') (h : Ext (.list (.cls c)) (.arr l) (.arr l')) :
      Ext (.list (.cls c)) (.arr (x :: l)) (.arr (x' :: l'))

end Verif.Dap
