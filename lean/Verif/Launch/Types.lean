import Verif.Py.Basic
/-!
# Friendly type names

Model of `get_canonicalized_variable_type`
(/repo/src/ansibug/ansible_collections/ansibug/dap/plugins/plugin_utils/_variables.py:10-41) over
Python's class hierarchy: a class is a built-in class or is defined by its name and its
direct base classes; `isinstance` follows base classes and the registrations of the
abstract base classes `Mapping` and `Sequence` in `collections.abc`.
-/

namespace Verif.Launch
open Verif

/-- Built-in classes the function distinguishes, the abstract base classes, and others given
by name (`NoneType`, `set`, `datetime`, …; `bytes` and `range` are registered as sequences). -/
inductive Builtin where
  | str | bool | int | float | tuple | dict | list | mapping | sequence | bytes | range
  | other (name : Str)
deriving DecidableEq, Repr

/-- A class: built in, or a `class name(bases): …`. -/
inductive PyCls where
  | builtin (b : Builtin)
  | defined (name : Str) (bases : List PyCls)

/-- `issubclass` between built-ins: `bool` derives from `int`; `dict` is registered as a
mapping; `str`, `tuple`, `list`, `bytes` and `range` as sequences. -/
def Builtin.sub (a b : Builtin) : Bool :=
  a = b || (a = .bool && b = .int) || (a = .dict && b = .mapping) ||
  (b = .sequence && (a = .str || a = .tuple || a = .list || a = .bytes || a = .range))

mutual
/-- `issubclass(c, b)`. -/
def PyCls.sub : PyCls → Builtin → Bool
  | .builtin a, b => a.sub b
  | .defined _ bases, b => anySub bases b
/-- Does one of the bases derive from `b`? -/
def anySub : List PyCls → Builtin → Bool
  | [], _ => false
  | c :: cs, b => c.sub b || anySub cs b
end

/-- `cls.__name__`. -/
def PyCls.name : PyCls → Str
  | .builtin .str => py!"str"
  | .builtin .bool => py!"bool"
  | .builtin .int => py!"int"
  | .builtin .float => py!"float"
  | .builtin .tuple => py!"tuple"
  | .builtin .dict => py!"dict"
  | .builtin .list => py!"list"
  | .builtin .mapping => py!"Mapping"
  | .builtin .sequence => py!"Sequence"
  | .builtin .bytes => py!"bytes"
  | .builtin .range => py!"range"
  | .builtin (.other n) => n
  | .defined n _ => n

/-- `get_canonicalized_variable_type(variable)` for a variable of class `c`
(/repo/src/ansibug/ansible_collections/ansibug/dap/plugins/plugin_utils/_variables.py:10-41). -/
def friendlyType (c : PyCls) : Str :=
  if c.sub .str then py!"str"
  else if c.sub .bool then py!"bool"
  else if c.sub .int then py!"int"
  else if c.sub .float then py!"float"
  else if c.sub .tuple then py!"tuple"
  else if c.sub .mapping then py!"dict"
  else if c.sub .sequence then py!"list"
  else c.name

/-! ## Specification: derivation as a relation -/

/-- `c` is `b`, or has an ancestor that is (registered as) `b`. -/
inductive Derives : PyCls → Builtin → Prop
  | builtin {a b : Builtin} (h : a.sub b = true) : Derives (.builtin a) b
  | base {n : Str} {bases : List PyCls} {c : PyCls} {b : Builtin} (hc : c ∈ bases) (h : Derives c b) :
      Derives (.defined n bases) b

theorem anySub_iff (cs : List PyCls) (b : Builtin) : anySub cs b = true ↔ ∃ c ∈ cs, c.sub b = true := by
  induction cs with
  | nil => simp [anySub]
  | cons c cs ih => simp [anySub, ih]

theorem sub_of_derives {c : PyCls} {b : Builtin} (h : Derives c b) : c.sub b = true := by
  induction h with
  | builtin h => simpa [PyCls.sub] using h
  | base hc _ ih => simp only [PyCls.sub, anySub_iff]; exact ⟨_, hc, ih⟩

mutual
theorem derives_of_sub : ∀ {c : PyCls} {b : Builtin}, c.sub b = true → Derives c b
  | .builtin a, b, h => .builtin (by simpa [PyCls.sub] using h)
  | .defined n bases, b, h => by
    simp only [PyCls.sub] at h
    obtain ⟨c, hc, hd⟩ := derives_of_any h
    exact .base hc hd
theorem derives_of_any : ∀ {cs : List PyCls} {b : Builtin}, anySub cs b = true → ∃ c, c ∈ cs ∧ Derives c b
  | [], _, h => by simp [anySub] at h
  | c :: cs, b, h => by
    simp only [anySub, Bool.or_eq_true] at h
    rcases h with h | h
    · exact ⟨c, by simp, derives_of_sub h⟩
    · obtain ⟨c', hc', hd⟩ := derives_of_any h
      exact ⟨c', by simp [hc'], hd⟩
end

theorem sub_iff (c : PyCls) (b : Builtin) : c.sub b = true ↔ Derives c b :=
  ⟨derives_of_sub, sub_of_derives⟩

end Verif.Launch
