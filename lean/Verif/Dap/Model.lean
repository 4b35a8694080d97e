import Verif.Dap.Tables
/-!
# `pack`, `unpack` and message dispatch

Model of /repo/src/ansibug/dap/_messages.py (class `DAPObjectMeta`, `DAPEncoder`,
`ProtocolMessage.unpack`) and of the custom pack/unpack of attach and launch
(/repo/src/ansibug/dap/_requests.py:38-55, 254-273).
-/

namespace Verif.Dap

/-! ## Class tables with inheritance -/

/-- `cls._dap` (_messages.py:126-128): the base class mapping overridden by the own one.
Every class has at most one base, and no chain is longer than three. -/
def Cls.dapN : Nat → Cls → DapMap
  | 0, c => c.ownDap
  | n + 1, c => match c.base with
    | none => c.ownDap
    | some b => Dict.union (Cls.dapN n b) c.ownDap

/-- The key mapping of a class. -/
def Cls.dap (c : Cls) : DapMap := Cls.dapN 2 c

/-- `dict[name] = field` over a list of fields: an overridden field keeps its position. -/
def setField : List Field → Field → List Field
  | [], f => [f]
  | g :: gs, f => if g.name = f.name then f :: gs else g :: setField gs f

/-- `dataclasses.fields(cls)`: the base class fields, overridden in place, then the own ones. -/
def Cls.fieldsN : Nat → Cls → List Field
  | 0, c => c.ownFields
  | n + 1, c => match c.base with
    | none => c.ownFields
    | some b => c.ownFields.foldl setField (Cls.fieldsN n b)

/-- The dataclass fields of a class. -/
def Cls.fields (c : Cls) : List Field := Cls.fieldsN 2 c

/-- Class attribute lookup along the inheritance chain. -/
def Cls.attrN : Nat → Cls → Str → Option Val
  | 0, c, a => Dict.get? c.ownAttrs a
  | n + 1, c, a => match Dict.get? c.ownAttrs a with
    | some v => some v
    | none => match c.base with
      | none => none
      | some b => Cls.attrN n b a

/-- `getattr(cls, a)` for the attributes assigned in class bodies. -/
def Cls.attr? (c : Cls) (a : Str) : Option Val := Cls.attrN 2 c a

/-- `issubclass(c, k)`. -/
def Cls.isSub (c k : Cls) : Bool :=
  c == k || c.base == some k || (c.base.bind Cls.base) == some k

/-! ## Packing -/

mutual
/-- `json.loads` gives Python values: the value of a JSON document. -/
def ofJson : Json → Val
  | .null => .null
  | .bool b => .bool b
  | .int i => .int i
  | .float l => .flt l
  | .str s => .str s
  | .arr l => .list (ofJsonL l)
  | .obj l => .dict (ofJsonO l)
/-- Elements. -/
def ofJsonL : List Json → List Val
  | [] => []
  | x :: xs => ofJson x :: ofJsonL xs
/-- Members. -/
def ofJsonO : List (Str × Json) → List (Str × Val)
  | [] => []
  | (k, v) :: xs => (k, ofJson v) :: ofJsonO xs
end

/-- The attribute value written for a mapped name (`getattr(self, info)`, _messages.py:209). Every
mapped name is a field of its class (`mapped_are_fields`), so the default is never used for
an object that has its class's attributes. -/
def attrJson (attrs : List (Str × Json)) (a : Str) : Json := (Dict.get? attrs a).getD .null

/-- `default_pack` (_messages.py:189-211) applied to attribute values that are already encoded: walk
the key mapping. The code walks it breadth first but stores every nested dictionary at the
position of its key, so the resulting dictionary is this one. -/
def packDap (m : DapMap) (attrs : List (Str × Json)) : List (Str × Json) :=
  m.map fun (k, e) => match e with
    | .attr a => (k, attrJson attrs a)
    | .sub sm => (k, .obj (sm.map fun (k', a) => (k', attrJson attrs a)))

/-- `value["arguments"].update(self.arguments)` (_requests.py:40 and _requests.py:256). -/
def updateArguments (packed : List (Str × Json)) (args : Json) : List (Str × Json) :=
  packed.map fun (k, v) => if k = py!"arguments" then
      match v, args with
      | .obj d, .obj e => (k, .obj (Dict.union d e))
      | _, _ => (k, v)
    else (k, v)

/-- `obj.pack()` (with already encoded attributes) for a class: the custom one of attach and
launch, the default one otherwise. -/
def packCls (c : Cls) (attrs : List (Str × Json)) : Json :=
  match c with
  | .AttachRequest => .obj (updateArguments (packDap c.dap attrs) (attrJson attrs py!"arguments"))
  | .LaunchRequest => .obj (updateArguments (packDap c.dap attrs) (attrJson attrs py!"arguments"))
  | _ => .obj (packDap c.dap attrs)

mutual
/-- The JSON document `json.dumps(..., cls=DAPEncoder)` writes for a value: objects are
packed, enumeration members are their value (`DAPEncoder.default`, _messages.py:63-72). Values that are
none of these (`str(obj)` in the code) are not modelled. -/
def toJson : Val → Json
  | .null => .null
  | .bool b => .bool b
  | .int i => .int i
  | .flt l => .float l
  | .str s => .str s
  | .list l => .arr (toJsonL l)
  | .dict l => .obj (toJsonO l)
  | .enum _ s => .str s
  | .obj c attrs => packCls c (toJsonO attrs)
/-- Elements. -/
def toJsonL : List Val → List Json
  | [] => []
  | x :: xs => toJson x :: toJsonL xs
/-- Members. -/
def toJsonO : List (Str × Val) → List (Str × Json)
  | [] => []
  | (k, v) :: xs => (k, toJson v) :: toJsonO xs
end

/-! ## Unpacking -/

/-- What `_parse_field_type` returns: nothing (the value is taken as it is), an enumeration
or a class. -/
inductive Unp where
  | ident
  | enum (e : EnumId)
  | cls (c : Cls)
deriving DecidableEq, Repr

/-- The unpacker for a resolved `attr_type` (_messages.py:92-102). -/
def Ann.typeUnp : Ann → Unp
  | .enum e => .enum e
  | .cls c => .cls c
  | _ => .ident

/-- `_parse_field_type` (_messages.py:75-102): plain types; `Optional[X]` (a `Union` of exactly two types,
one of them None); lists; anything else (`Union`, `Optional[Union[..]]` - which Python
flattens to more than two types -, `X | None`, dictionaries, literals) gets no unpacker.
Semantics of Python 3.11 and later (in 3.10 `list[X]` is itself a type and gets none). -/
def Ann.unp : Ann → Unp
  | .optional (.union _) => .ident
  | .optional a => a.typeUnp
  | .tlist a => a.typeUnp
  | .list a => a.typeUnp
  | a => a.typeUnp

/-- `cls(**kwargs)` followed by the manual assignments (_messages.py:269-273). `asg` are all assigned
attributes: those with `init` go through the constructor, the others are set on the object
afterwards. A required constructor argument that is missing is a TypeError. -/
def construct (c : Cls) (asg : Dict Str Val) : Except PyErr (List (Str × Val)) :=
  c.fields.mapM fun f =>
    match Dict.get? asg f.name with
    | some v => .ok (f.name, v)
    | none => match f.dflt with
      | some d => .ok (f.name, d)
      | none => if f.init then .error .type else .ok (f.name, (c.attr? f.name).getD .null)

/-- `type_info[attr]`: the field's unpacker. -/
def Cls.fieldUnp (c : Cls) (a : Str) : Unp :=
  match c.fields.find? (fun f => f.name == a) with
  | some f => f.ann.unp
  | none => .ident

/-- `value is None`. -/
def isNull : Json → Bool
  | .null => true
  | _ => false

/-- The `__types` entry that `default_unpack` stores in the class's own key mapping (_messages.py:236)
is visible to the message walker as if it were a protocol key: a dictionary found under
this key is walked against the type table, whose values are pairs; the first field name in
it then fails (`can_init, unpack_func = None`: TypeError, _messages.py:259). -/
def typesEntry (c : Cls) (j : Json) : Except PyErr Unit :=
  match j with
  | .obj members =>
    if members.any (fun m => (c.fields.any (fun f => f.name == m.1)) && !(isNull m.2)) then .error .type
    else .ok ()
  | _ => .error .attribute

/-- One unpack function applied to one value; `rec` unpacks nested objects. -/
def applyUnp (rec : Cls → Json → Except PyErr Val) : Unp → Json → Except PyErr Val
  | .ident, j => .ok (ofJson j)
  | .enum e, j => match j with
    | .str s => if s ∈ e.values then .ok (.enum e s) else .error .value
    | _ => .error .value
  | .cls c, j => rec c j

/-- `[unpack_func(v) for v in value]`. -/
def applyUnpL (rec : Cls → Json → Except PyErr Val) (u : Unp) : List Json → Except PyErr (List Val)
  | [] => .ok []
  | x :: xs => match applyUnp rec u x with
    | .error e => .error e
    | .ok v => match applyUnpL rec u xs with
      | .error e => .error e
      | .ok vs => .ok (v :: vs)

/-- A field's value (_messages.py:264-267): a list is unpacked element by element. -/
def fieldVal (rec : Cls → Json → Except PyErr Val) (u : Unp) (j : Json) : Except PyErr Val :=
  match j with
  | .arr l => match applyUnpL rec u l with
    | .error e => .error e
    | .ok vs => .ok (.list vs)
  | _ => applyUnp rec u j

/-- The nested level: members of a nested dictionary, all mapped to attributes. -/
def walkSub (rec : Cls → Json → Except PyErr Val) (c : Cls) (m : List (Str × Str)) :
    List (Str × Json) → Dict Str Val → Except PyErr (Dict Str Val)
  | [], asg => .ok asg
  | (k, v) :: rest, asg =>
    if isNull v then walkSub rec c m rest asg
    else match Dict.get? m k with
    | none => walkSub rec c m rest asg
    | some a => match fieldVal rec (c.fieldUnp a) v with
      | .error e => .error e
      | .ok x => walkSub rec c m rest (Dict.set asg a x)

/-- A queued nested dictionary: its mapping (`none` for the type table under the key
`__types`) and the value found. -/
abbrev Queued := Option (List (Str × Str)) × Json

/-- The top level (_messages.py:250-267): attributes are assigned, nested mappings are queued. -/
def walkTop (rec : Cls → Json → Except PyErr Val) (c : Cls) :
    List (Str × Json) → Dict Str Val → List Queued → Except PyErr (Dict Str Val × List Queued)
  | [], asg, q => .ok (asg, q)
  | (k, v) :: rest, asg, q =>
    if isNull v then walkTop rec c rest asg q
    else if k = py!"__types" then walkTop rec c rest asg (q ++ [(none, v)])
    else match Dict.get? c.dap k with
    | none => walkTop rec c rest asg q
    | some (.sub m) => walkTop rec c rest asg (q ++ [(some m, v)])
    | some (.attr a) => match fieldVal rec (c.fieldUnp a) v with
      | .error e => .error e
      | .ok x => walkTop rec c rest (Dict.set asg a x) q

/-- The queued nested dictionaries, in order. A value that is no dictionary has no
`items()`: AttributeError. -/
def walkQueue (rec : Cls → Json → Except PyErr Val) (c : Cls) :
    List Queued → Dict Str Val → Except PyErr (Dict Str Val)
  | [], asg => .ok asg
  | (none, v) :: rest, asg => match typesEntry c v with
    | .error e => .error e
    | .ok _ => walkQueue rec c rest asg
  | (some m, v) :: rest, asg =>
    match v with
    | .obj members => match walkSub rec c m members asg with
      | .error e => .error e
      | .ok asg' => walkQueue rec c rest asg'
    | _ => .error .attribute

/-- `default_unpack(cls, data)` (_messages.py:213-273). The fuel bounds the nesting of objects inside
objects; `unpack` supplies the depth of the document. -/
def unpackF : Nat → Cls → Json → Except PyErr Val
  | 0, _, _ => .error .other
  | fuel + 1, c, j =>
    match j with
    | .obj members => match walkTop (unpackF fuel) c members [] [] with
      | .error e => .error e
      | .ok (asg, q) => match walkQueue (unpackF fuel) c q asg with
        | .error e => .error e
        | .ok asg => match construct c asg with
          | .error e => .error e
          | .ok attrs => .ok (.obj c attrs)
    | _ => .error .attribute

mutual
/-- Nesting depth of a document. -/
def depth : Json → Nat
  | .arr l => 1 + depthL l
  | .obj l => 1 + depthO l
  | _ => 0
/-- Elements. -/
def depthL : List Json → Nat
  | [] => 0
  | x :: xs => max (depth x) (depthL xs)
/-- Members. -/
def depthO : List (Str × Json) → Nat
  | [] => 0
  | (_, v) :: xs => max (depth v) (depthO xs)
end

/-- `cls.unpack(data)` of the metaclass (_messages.py:149-153). -/
def defaultUnpack (c : Cls) (j : Json) : Except PyErr Val := unpackF (depth j + 1) c j

/-- `d[key]` on the result of `json.loads`: KeyError if missing, TypeError for anything that
is not a dictionary. -/
def getItem (j : Json) (k : Str) : Except PyErr Json :=
  match j with
  | .obj l => match Dict.get? l k with
    | some v => .ok v
    | none => .error .key
  | _ => .error .type

/-- `d.pop(key, default)`: the value and the remaining dictionary. A list has a `pop` that
takes no default (TypeError); other values have none (AttributeError). -/
def popItem (j : Json) (k : Str) (dflt : Json) : Except PyErr (Json × Json) :=
  match j with
  | .obj l => .ok ((Dict.get? l k).getD dflt, .obj (Dict.erase l k))
  | .arr _ => .error .type
  | _ => .error .attribute

/-- Attributes of an attach/launch object built by the custom `unpack`. -/
def customObj (c : Cls) (asg : Dict Str Val) : Except PyErr Val := (construct c asg).map (Val.obj c)

/-- `AttachRequest.unpack` (_requests.py:44-55). -/
def unpackAttach (j : Json) : Except PyErr Val := do
  let arguments ← getItem j py!"arguments"
  let (restart, arguments) ← popItem arguments py!"__restart" .null
  let seq ← getItem j py!"seq"
  customObj .AttachRequest [(py!"arguments", ofJson arguments), (py!"restart", ofJson restart), (py!"seq", ofJson seq)]

/-- `LaunchRequest.unpack` (_requests.py:260-273). -/
def unpackLaunch (j : Json) : Except PyErr Val := do
  let arguments ← getItem j py!"arguments"
  let (noDebug, arguments) ← popItem arguments py!"noDebug" (.bool false)
  let (restart, arguments) ← popItem arguments py!"__restart" .null
  let seq ← getItem j py!"seq"
  customObj .LaunchRequest [(py!"arguments", ofJson arguments), (py!"no_debug", ofJson noDebug),
    (py!"restart", ofJson restart), (py!"seq", ofJson seq)]

/-- The registered unpack function of a message class (_messages.py:149-153). -/
def unpackCls (c : Cls) (j : Json) : Except PyErr Val :=
  match c with
  | .AttachRequest => unpackAttach j
  | .LaunchRequest => unpackLaunch j
  | _ => defaultUnpack c j

/-! ## Dispatch -/

/-- The three message registries. -/
inductive Kind where
  | request | response | event
deriving DecidableEq, Repr

/-- `DAPObjectMeta.REGISTRY[kind]` (_messages.py:109-113, _messages.py:157-185): the command (event) assigned in each
class body, and `"error"` for the response class without one. Keys in class order. -/
def registry : Kind → List (Str × Cls)
  | .event => allCls.filterMap fun c =>
    if c.isSub .Event ∧ c ≠ .Event then
      match (Dict.get? c.ownAttrs py!"event" : Option Val) with
      | some (.enum .EventType s) => some (s, c)
      | _ => none
    else none
  | .request => allCls.filterMap fun c =>
    if c.isSub .Request ∧ c ≠ .Request then
      match (Dict.get? c.ownAttrs py!"command" : Option Val) with
      | some (.enum .Command s) => some (s, c)
      | _ => none
    else none
  | .response => allCls.filterMap fun c =>
    if c.isSub .Response ∧ c ≠ .Response then
      match (Dict.get? c.ownAttrs py!"command" : Option Val) with
      | some (.enum .Command s) => some (s, c)
      | _ => some (py!"error", c)
    else none

/-- Truth value of a Python value (`not data["success"]`, _messages.py:319). A float is false iff its
mantissa has no non-zero digit (underflow to 0.0 is not modelled). -/
def truthy : Json → Bool
  | .null => false
  | .bool b => b
  | .int i => decide (i ≠ 0)
  | .float l => l.any (fun c => decide (c = 78 ∨ c = 73)) ||
      (l.takeWhile (fun c => decide (c ≠ 101 ∧ c ≠ 69))).any (fun c => decide (49 ≤ c ∧ c ≤ 57))
  | .str s => decide (s ≠ [])
  | .arr l => !l.isEmpty
  | .obj l => !l.isEmpty

/-- `registry.get(key, None)` followed by the test for a hit: an unhashable key (list,
dictionary) is a TypeError, an unknown one a ValueError. -/
def lookupReg (r : List (Str × Cls)) (k : Json) : Except PyErr Cls :=
  match k with
  | .str s => match Dict.get? r s with
    | some c => .ok c
    | none => .error .value
  | .arr _ => .error .type
  | .obj _ => .error .type
  | _ => .error .value

/-- `REGISTRY.get(obj_type, None)` (_messages.py:304-306). -/
def lookupKind (k : Json) : Except PyErr Kind :=
  match k with
  | .str s =>
    if s = py!"event" then .ok .event
    else if s = py!"request" then .ok .request
    else if s = py!"response" then .ok .response
    else .error .value
  | .arr _ => .error .type
  | .obj _ => .error .type
  | _ => .error .value

/-- `ProtocolMessage.unpack(data)` (_messages.py:285-337). -/
def unpack (j : Json) : Except PyErr Val := do
  let ty ← getItem j py!"type"
  let kind ← lookupKind ty
  match kind with
  | .request => do
    let cmd ← getItem j py!"command"
    let c ← lookupReg (registry .request) cmd
    unpackCls c j
  | .response => do
    let cmd ← getItem j py!"command"
    let ok ← getItem j py!"success"
    let c ← lookupReg (registry .response) (if truthy ok then cmd else .str py!"error")
    unpackCls c j
  | .event => do
    let ev ← getItem j py!"event"
    let c ← lookupReg (registry .event) ev
    unpackCls c j

end Verif.Dap
