/-!
# Exception marks on classes and objects (`slash/utils/exception_mark.py`)
-/
namespace Slash.ExcMark

/-- Class hierarchy: `bases c` are the proper ancestors of `c` in method-resolution order, and `cls` the class of
an exception object. Python's attribute lookup used by `getattr` in `utils/exception_mark.py:24-25`. -/
structure World where
  bases : Nat → List Nat
  cls : Nat → Nat

/-- Something that can be marked: a class or an exception object, `utils/exception_mark.py:5,13`. -/
inductive Obj where
  | cls (c : Nat) | inst (i : Nat)
deriving DecidableEq, Repr

/-- A dictionary of marks, `utils/exception_mark.py:29`; keys and values are numbers. -/
abbrev Marks := List (Nat × Nat)

/-- `dict.get`, `utils/exception_mark.py:18`. -/
def Marks.get (m : Marks) (n : Nat) : Option Nat := (m.find? (·.1 == n)).map (·.2)

/-- `dict[name] = value`, `utils/exception_mark.py:9`. -/
def Marks.set (m : Marks) (n v : Nat) : Marks := (n, v) :: m

/-- The attribute `__slash_exc_marks__` in the `__dict__` of each class and object,
`utils/exception_mark.py:20`. Each dictionary is created by and stored on one object only (26-30), so
dictionaries are kept by owner. -/
structure St where
  own : Obj → Option Marks := fun _ => none

/-- Writing one object's attribute, `utils/exception_mark.py:9,27,30`. Objects on which no attribute can be
set (`safe_set_attribute`, `utils/python.py:138-145`) are left out. -/
def St.put (st : St) (o : Obj) (m : Marks) : St := { own := fun o' => if o' = o then some m else st.own o' }

/-- First class of a list that has its own dictionary: attribute lookup along the class hierarchy,
`utils/exception_mark.py:24-25`. -/
def firstOwner (st : St) (cs : List Nat) : Option Nat := cs.find? (fun c => (st.own (.cls c)).isSome)

/-- The object whose dictionary `_ensure_exception_marks` returns, and the state after it,
`utils/exception_mark.py:23-31`. For a class the inherited dictionary is returned as is; for an object
an inherited one is copied onto the object first. -/
def ensure (w : World) (st : St) : Obj → Obj × St
  | .cls c =>
    match firstOwner st (c :: w.bases c) with
    | some d => (.cls d, st)
    | none => (.cls c, st.put (.cls c) [])
  | .inst i =>
    if (st.own (.inst i)).isSome then (.inst i, st)
    else match firstOwner st (w.cls i :: w.bases (w.cls i)) with
      | some d => (.inst i, st.put (.inst i) ((st.own (.cls d)).getD []))
      | none => (.inst i, st.put (.inst i) [])

/-- `mark_exception`, `utils/exception_mark.py:5-10`. -/
def mark (w : World) (o : Obj) (n v : Nat) (st : St) : St :=
  let (owner, st) := ensure w st o
  st.put owner (((st.own owner).getD []).set n v)

/-- `get_exception_mark`, `utils/exception_mark.py:13-18`: the value and the state after (reading
creates dictionaries). -/
def get (w : World) (o : Obj) (n : Nat) (st : St) : Option Nat × St :=
  let (owner, st) := ensure w st o
  (((st.own owner).getD []).get n, st)

/-- Calls made by slash and by user code (`exception_handling.py:167-235`). -/
inductive Op where
  | mark (o : Obj) (n v : Nat)
  | get (o : Obj) (n : Nat)
deriving DecidableEq, Repr

/-- One call, `utils/exception_mark.py:5-18`. -/
def step (w : World) (st : St) : Op → St
  | .mark o n v => mark w o n v st
  | .get o n => (get w o n st).2

/-- A history of calls, `utils/exception_mark.py:5-18`. -/
def run (w : World) (ops : List Op) (st : St := {}) : St := ops.foldl (step w) st

end Slash.ExcMark
