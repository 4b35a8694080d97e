#!/usr/bin/env python3
"""Generates lean/Verif/Dap/Tables.lean from the *text* of /repo/src/ansibug/dap/*.py (parsed
with ast, never imported or run)."""
import ast, os
R = "/repo/src/ansibug/dap/"
FILES = ["_messages.py", "_types.py", "_requests.py", "_responses.py", "_events.py"]
enums, classes = [], []
for fn in FILES:
    tree = ast.parse(open(R + fn).read())
    for n in tree.body:
        if not isinstance(n, ast.ClassDef):
            continue
        bases = [ast.unparse(b) for b in n.bases]
        kw = {k.arg: k.value for k in n.keywords}
        if bases == ["enum.Enum"]:
            enums.append((n.name, fn, n.lineno, n.end_lineno,
                          [(s.targets[0].id, s.value.value) for s in n.body if isinstance(s, ast.Assign)]))
        elif n.name in ("DAPEncoder", "DAPObjectMeta"):
            continue
        else:
            dap = ast.literal_eval(kw["dap"]) if "dap" in kw else {}
            fields, attrs, custom = [], [], False
            for s in n.body:
                if isinstance(s, ast.AnnAssign):
                    init, default = True, None
                    v = s.value
                    if isinstance(v, ast.Call):
                        assert ast.unparse(v.func) == "dataclasses.field"
                        for k in v.keywords:
                            if k.arg == "init":
                                init = k.value.value
                            elif k.arg == "default":
                                default = ("const", k.value.value)
                            elif k.arg == "default_factory":
                                default = ("factory", k.value.id)
                            else:
                                raise Exception(k.arg)
                    elif v is not None:
                        default = ("const", v.value)
                    fields.append((s.target.id, init, default, s.annotation, s.lineno))
                elif isinstance(s, ast.Assign):
                    attrs.append((s.targets[0].id, s.value, s.lineno))
                elif isinstance(s, ast.FunctionDef) and s.name in ("pack", "unpack") and n.name != "ProtocolMessage":
                    custom = True
            classes.append(dict(name=n.name, fn=fn, lo=n.lineno, hi=n.end_lineno, bases=bases, dap=dap,
                                fields=fields, attrs=attrs, custom=custom))
enames = {e[0] for e in enums}
cnames = {c["name"] for c in classes}


def s(x):
    assert '"' not in x
    return f'py!"{x}"'


def ann(a):
    if isinstance(a, ast.Name):
        if a.id in ("int", "str", "bool"):
            return f".{a.id}"
        if a.id in enames:
            return f"(.enum .{a.id})"
        if a.id in cnames:
            return f"(.cls .{a.id})"
        raise Exception(a.id)
    if isinstance(a, ast.Attribute):
        assert ast.unparse(a) == "t.Any"
        return ".any"
    if isinstance(a, ast.BinOp):
        assert ast.unparse(a) == "str | None"
        return "(.pipeNone .str)"
    if isinstance(a, ast.Subscript):
        h = ast.unparse(a.value)
        if h == "t.Optional":
            return f"(.optional {ann(a.slice)})"
        if h == "t.Union":
            return "(.union [" + ", ".join(ann(x) for x in a.slice.elts) + "])"
        if h == "t.Literal":
            el = a.slice.elts if isinstance(a.slice, ast.Tuple) else [a.slice]
            return "(.literal [" + ", ".join(s(x.value) for x in el) + "])"
        if h in ("t.List", "list"):
            return f"(.{'tlist' if h=='t.List' else 'list'} {ann(a.slice)})"
        if h == "t.Dict":
            assert ast.unparse(a.slice.elts[0]) == "str"
            return f"(.tdict {ann(a.slice.elts[1])})"
        raise Exception(h)
    raise Exception(ast.dump(a))


def const(v):
    if v is None:
        return ".null"
    if v is True or v is False:
        return f"(.bool {str(v).lower()})"
    if isinstance(v, int):
        return f"(.int {v})"
    if isinstance(v, str):
        return f"(.str {s(v)})"
    raise Exception(v)


def default(d):
    if d is None:
        return "none"
    if d[0] == "const":
        return f"(some {const(d[1])})"
    return {"list": "(some (.list []))", "dict": "(some (.dict []))"}[d[1]]


def attrval(v):
    h = ast.unparse(v)
    e, m = h.split(".")
    val = dict([x for x in enums if x[0] == e][0][4])[m]
    return f"(.enum .{e} {s(val)})"


def dapmap(d):
    out = []
    for k, v in d.items():
        if isinstance(v, dict):
            out.append(f"({s(k)}, .sub [" + ", ".join(f"({s(a)}, {s(b)})" for a, b in v.items()) + "])")
        else:
            out.append(f"({s(k)}, .attr {s(v)})")
    return "[" + ",\n      ".join(out) + "]"


o = []
o.append("""import Verif.Dap.Base
/-!
# The DAP class tables (generated by tools/gen_dap.py from the text of /repo/src/ansibug/dap)

One constructor per class; per class its base class, its own `dap=` key mapping, its own
dataclass fields (name, init flag, default, annotation) and the class attributes it assigns.
-/

namespace Verif.Dap
""")
for e in enums:
    o.append(f"-- enum {e[0]}: {e[1]}:{e[2]}-{e[3]}")
o.append("/-- The enumeration's values, in definition order. -/\ndef EnumId.values : EnumId → List Str")
for e in enums:
    o.append(f"  | .{e[0]} => [" + ", ".join(s(v) for _, v in e[4]) + "]")
o.append("\n/-- Base class (`none`: created directly from the metaclass). -/\ndef Cls.base : Cls → Option Cls")
for c in classes:
    if c["bases"]:
        o.append(f"  | .{c['name']} => some .{c['bases'][0]}")
o.append("  | _ => none")
o.append("\n/-- The `dap=` argument of the class statement. -/\ndef Cls.ownDap : Cls → DapMap")
for c in classes:
    o.append(f"  -- {c['fn']}:{c['lo']}-{c['hi']}")
    o.append(f"  | .{c['name']} => {dapmap(c['dap'])}")
o.append("\n/-- The dataclass fields annotated in the class body itself. -/\ndef Cls.ownFields : Cls → List Field")
for c in classes:
    o.append(f"  -- {c['fn']}:{c['lo']}-{c['hi']}")
    fs = ",\n      ".join(f"⟨{s(n)}, {str(i).lower()}, {default(d)}, {ann(a)}⟩" for n, i, d, a, _ in c["fields"])
    o.append(f"  | .{c['name']} => [{fs}]")
o.append("\n/-- Class attributes assigned in the class body (without annotation). -/\ndef Cls.ownAttrs : Cls → List (Str × Val)")
for c in classes:
    if c["attrs"]:
        o.append(f"  | .{c['name']} => [" + ", ".join(f"({s(n)}, {attrval(v)})" for n, v, _ in c["attrs"]) + f"] -- {c['fn']}:{c['attrs'][0][2]}")
o.append("  | _ => []")
o.append("\n/-- All classes, in the order they are created. -/\ndef allCls : List Cls := [" + ", ".join("." + c["name"] for c in classes) + "]")
o.append("\ntheorem mem_allCls (c : Cls) : c ∈ allCls := by cases c <;> decide\n")
o.append("end Verif.Dap")
b = []
b.append("""import Verif.Json.Model
/-!
# DAP classes: values and the shape of the class tables

`EnumId` and `Cls` (generated by tools/gen_dap.py) name the enumerations and classes of
/repo/src/ansibug/dap. `Val` are the Python values that DAP objects are made of.
-/

namespace Verif.Dap

/-- The enumerations (/repo/src/ansibug/dap/_messages.py:15-59, _events.py:14-23). -/
inductive EnumId where
""" + "\n".join(f"  | {e[0]}" for e in enums) + """
deriving DecidableEq, Repr

/-- The classes created by `DAPObjectMeta`. -/
inductive Cls where
""" + "\n".join(f"  | {c['name']}" for c in classes) + """
deriving DecidableEq, Repr

/-- A Python value held by a DAP object. A float is its literal text (as in `Json`);
dictionaries have string keys; an object is its class and its attributes in field order. -/
inductive Val where
  | null
  | bool (b : Bool)
  | int (i : Int)
  | flt (lit : Str)
  | str (s : Str)
  | list (l : List Val)
  | dict (l : List (Str × Val))
  | enum (e : EnumId) (value : Str)
  | obj (c : Cls) (attrs : List (Str × Val))
deriving Repr, Inhabited

/-- Entry of a DAP key mapping: an attribute name or a nested mapping (no mapping in the
code nests deeper than this, so the nested one maps to attribute names only). -/
inductive Entry where
  | attr (name : Str)
  | sub (m : List (Str × Str))
deriving DecidableEq, Repr

/-- A DAP key mapping (`_dap`). -/
abbrev DapMap := List (Str × Entry)

/-- Type annotations that occur in the DAP dataclasses. `tlist`/`tdict` are `typing.List` and
`typing.Dict`, `list` is the builtin `list[...]`, `pipeNone` is `X | None`. -/
inductive Ann where
  | int | str | bool | any
  | literal (vals : List Str)
  | optional (a : Ann)
  | union (as : List Ann)
  | pipeNone (a : Ann)
  | tlist (a : Ann)
  | list (a : Ann)
  | tdict (a : Ann)
  | enum (e : EnumId)
  | cls (c : Cls)
deriving Repr

/-- A dataclass field: name, `init` flag, default (`none`: no default) and annotation. -/
structure Field where
  name : Str
  init : Bool
  dflt : Option Val
  ann : Ann
deriving Repr

end Verif.Dap""")
D = "/verif/lean/Verif/Dap/"
open(D + "Base.lean", "w").write("\n".join(b) + "\n")
open(D + "Tables.lean", "w").write("\n".join(o) + "\n")
print(len(classes), [c["name"] for c in classes if c["custom"]])
