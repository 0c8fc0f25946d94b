/-!
# Marks on plugins, methods and tests

`utils/marks.py` (`slash.plugins.needs`, `provides`, `registers_on`, `register_if`, `parallel_mode`) and `utils/function_marker.py`
(`slash.repeat`, `slash.exclude`). Objects are classes, functions and instances; `parents x` are the objects in which Python looks for an attribute
that `x` itself does not have (the rest of the method resolution order; for an instance its class and so on). Dictionaries of marks are
shared by reference.
-/
namespace Slash.Marks

/-- The identity of an object that can be marked (`utils/marks.py:27-38`). -/
abbrev Id := Nat

/-- The value of a mark: set by `mark(…)` or a list made by `mark(…, append=True)` (`utils/marks.py:34-37`). -/
inductive Val where
  | one (v : Nat) | many (l : List Nat)
deriving DecidableEq, Repr

/-- A dictionary of marks, `utils/marks.py:33`. -/
abbrev Dict := List (String × Val)

/-- `dict.get`, `utils/marks.py:21`. -/
def Dict.get (d : Dict) (name : String) : Option Val := (d.find? (fun x => x.1 == name)).map (·.2)

/-- `d[name] = v`, `utils/marks.py:35,37`. -/
def Dict.set (d : Dict) (name : String) (v : Val) : Dict := (name, v) :: d.filter (fun x => x.1 != name)

/-- Which object has a dictionary of marks of its own, by reference, and the dictionaries (`utils/marks.py:23-28`). -/
structure St where
  own : Id → Option Nat := fun _ => none
  dicts : List Dict := []

/-- `_get_marks`, `utils/marks.py:23-24`: `getattr` also finds what the class or a base class has. -/
def ref (parents : Id → List Id) (st : St) (x : Id) : Option Nat := (x :: parents x).findSome? st.own

/-- `get_marks(obj)`, `utils/marks.py:9-13`, and `try_get_mark`, 15-21. -/
def get (parents : Id → List Id) (st : St) (x : Id) (name : String) : Option Val :=
  match ref parents st x with
  | none => none
  | some r => (st.dicts.getD r []).get name

/-- One decorator: the object, the name, the value, whether it is appended (`utils/marks.py:4-7`). -/
structure Op where
  obj : Id
  name : String
  value : Nat
  append : Bool := false
deriving DecidableEq, Repr

/-- The value stored by `_mark`, `utils/marks.py:34-37`; `none`: appending to something that is not a list raises. -/
def newVal (old : Option Val) (op : Op) : Option Val :=
  if op.append then
    match old with
    | none => some (.many [op.value])
    | some (.many l) => some (.many (l ++ [op.value]))
    | some (.one _) => none
  else some (.one op.value)

/-- `_mark`, `utils/marks.py:30-38`; the flag tells that it raised. -/
def mark (parents : Id → List Id) (st : St) (op : Op) : St × Bool :=
  match ref parents st op.obj with
  | none =>
    match newVal none op with
    | some v => ({ own := fun y => if y = op.obj then some st.dicts.length else st.own y, dicts := st.dicts ++ [[(op.name, v)]] }, false)
    | none => (st, true)
  | some r =>
    match newVal ((st.dicts.getD r []).get op.name) op with
    | some v => ({ st with dicts := st.dicts.modify r (·.set op.name v) }, false)
    | none => (st, true)

/-- Decorators, one after the other (`plugins/__init__.py:7-52`). -/
def run (parents : Id → List Id) (st : St) (ops : List Op) : St := ops.foldl (fun st op => (mark parents st op).1) st

/-! ## Function markers -/

/-- The attributes `__marked_…__` of objects, `utils/function_marker.py:18,32` (for a marker that appends a list, else one value). -/
structure FSt where
  attr : Id → String → Option (List Nat) := fun _ _ => none

/-- What a class method or static method wraps: the decorator acts on that function, `utils/function_marker.py:44-48`. -/
structure Obj where
  wraps : Option Id := none
  id : Id
deriving DecidableEq, Repr

/-- `_normalize`, `utils/function_marker.py:44-48`. -/
def Obj.normalize (o : Obj) : Id := o.wraps.getD o.id

/-- `getattr(func, self._mark, …)`, `utils/function_marker.py:28,36,39`. -/
def fget (parents : Id → List Id) (st : FSt) (o : Obj) (name : String) : Option (List Nat) :=
  (o.normalize :: parents o.normalize).findSome? (fun y => st.attr y name)

/-- `Marker.__call__` with something that can be called, `utils/function_marker.py:25-33`. -/
def fmark (parents : Id → List Id) (st : FSt) (name : String) (append : Bool) (value : Nat) (o : Obj) : FSt :=
  let new := if append then (fget parents st o name).getD [] ++ [value] else [value]
  { attr := fun y n => if y = o.normalize ∧ n = name then some new else st.attr y n }

/-- A use of a marker as decorator (`core/markers.py:4-5`). -/
structure FOp where
  name : String
  append : Bool
  value : Nat
  obj : Obj
deriving DecidableEq, Repr

/-- Decorators, one after the other (`core/markers.py:4-5`). -/
def frun (parents : Id → List Id) (st : FSt) (ops : List FOp) : FSt :=
  ops.foldl (fun st op => fmark parents st op.name op.append op.value op.obj) st

end Slash.Marks
