import Verif.Model.Reports
/-!
# Variables of frames: `slash/utils/traceback_utils.py:136-273`

What is recorded of the variables of a frame, and which code of users (`repr` and attribute access) is called for that. A call of such code is an
`Ev`; functions return the events along with what they compute. `repr` and attributes raise nothing but `Exception`s. Left out: file names, lines
and source, whether a frame is one of the test.
-/
namespace Slash.Frames

/-- Python strings. -- `utils/traceback_utils.py:201` -/
abbrev Str := List Char

/-- A value: its identity, the name of its type, its identity in hexadecimal digits, what `repr` gives (`none`: it raises), whether it is an instance
of a type of `log.repr_blacklisted_types`, what kind of definition it is, if any, and whether it is an `int`, `str` or `float`.
-- `utils/traceback_utils.py:19-20,192-195,233-273` -/
structure Val where
  id : Nat
  typeName : Str := ['T']
  hex : Str := ['0']
  repr : Option Str := some []
  listed : Bool := false
  func : Bool := false
  method : Bool := false
  module : Bool := false
  cls : Bool := false
  scalar : Bool := false
deriving DecidableEq, Repr

/-- A call of code of users: `repr` of a value, looking up the `__dict__` of a value, or another attribute.
-- `utils/traceback_utils.py:235,243,263` -/
inductive Ev
  | repr (id : Nat)
  | dict (id : Nat)
  | attr (id : Nat) (name : Str)
deriving DecidableEq, Repr

/-- The attributes of values: the names in `__dict__` (`none`: looking it up raises), and what looking up an attribute gives (`none`: it raises).
-- `utils/traceback_utils.py:233-245` -/
structure World where
  dict : Nat → Option (List Str)
  attr : Nat → Str → Option Val

/-- A frame: the names the code uses, the globals and the locals. -- `utils/traceback_utils.py:186-201` -/
structure Frame where
  names : List Str := []
  globals : List (Str × Val) := []
  locals : List (Str × Val) := []
deriving Repr

/-- `_format_repr_skip_string`, `utils/traceback_utils.py:272-273`. -/
def skipText (v : Val) : Str := "<'".toList ++ v.typeName ++ "' object ".toList ++ v.hex ++ ">".toList

/-- The text for a value whose `repr` raises, `utils/traceback_utils.py:265`. -/
def unprintable (v : Val) : Str := "[Unprintable '".toList ++ v.typeName ++ "' object]".toList

/-- `_safe_repr`, `utils/traceback_utils.py:258-269`. -/
def safeRepr (truncate : Bool) (v : Val) : Str × List Ev :=
  (Rep.safeRepr v.listed v.repr (skipText v) (unprintable v) truncate, if v.listed then [] else [.repr v.id])

/-- `attr.startswith('__') and attr.endswith('__')`, `utils/traceback_utils.py:240`. -/
def dunder (a : Str) : Bool := "__".toList.isPrefixOf a && "__".toList.isSuffixOf a

/-- The loop of `iter_distilled_object_attributes`, `utils/traceback_utils.py:239-248`. -/
def iterAttrs (w : World) (v : Val) : List Str → List (Str × Val) × List Ev
  | [] => ([], [])
  | a :: t =>
    if dunder a then iterAttrs w v t
    else
      let r := iterAttrs w v t
      match w.attr v.id a with
      | none => (r.1, .attr v.id a :: r.2)
      | some x => if x.method || x.func || x.cls then (r.1, .attr v.id a :: r.2) else ((a, x) :: r.1, .attr v.id a :: r.2)

/-- `iter_distilled_object_attributes`, `utils/traceback_utils.py:233-248`. -/
def attributes (w : World) (v : Val) : List (Str × Val) × List Ev :=
  let r := iterAttrs w v ((w.dict v.id).getD [])
  (r.1, .dict v.id :: r.2)

/-- The name of an attribute of `self`, `utils/traceback_utils.py:209,230`. -/
def selfName (a : Str) : Str := "self.".toList ++ a

/-- `_unwrap_local`, `utils/traceback_utils.py:203-209`, and the body of the loop of `_unwrap_self_locals`, `utils/traceback_utils.py:225-230`. -/
def unwrap (w : World) (x : Str × Val) : List (Str × Val) × List Ev :=
  if x.1 = "self".toList ∧ x.2.listed = false then
    let r := attributes w x.2
    (x :: r.1.map (fun y => (selfName y.1, y.2)), r.2)
  else ([x], [])

/-- `repr` of all values of a list, `utils/traceback_utils.py:198,220`. -/
def reprAll (truncate : Bool) (l : List (Str × Val)) : List (Str × Str) × List Ev :=
  (l.map (fun x => (x.1, (safeRepr truncate x.2).1)), l.flatMap (fun x => (safeRepr truncate x.2).2))

/-- `_capture_locals`, `utils/traceback_utils.py:197-201`: in the order of the dictionary. Names of locals have no dot, so that no key comes
twice. -/
def captureLocals (w : World) (f : Frame) : List (Str × Str) × List Ev :=
  let u := (f.locals.filter (fun x => !(x.1.contains '@'))).map (unwrap w)
  let r := reprAll true (u.flatMap (·.1))
  (r.1, u.flatMap (·.2) ++ r.2)

/-- `_is_global_included`, `utils/traceback_utils.py:192-195`. -/
def globalIncluded (v : Val) : Bool := !(v.func || v.method || v.module || v.cls)

/-- `_capture_globals`, `utils/traceback_utils.py:186-190`. -/
def captureGlobals (f : Frame) : List (Str × Str) × List Ev :=
  reprAll true (f.globals.filter (fun x => f.names.contains x.1 && globalIncluded x.2))

/-- The variables `to_string` shows, `utils/traceback_utils.py:217-220`. -/
def shownVars (w : World) (f : Frame) : List (Str × Str) × List Ev :=
  let u := f.locals.map (unwrap w)
  let r := reprAll false (u.flatMap (·.1))
  (r.1, u.flatMap (·.2) ++ r.2)

/-- A value of `distill_object_attributes`: a number or a string as such, or a text. -- `utils/traceback_utils.py:253` -/
inductive Shown
  | raw (v : Val)
  | text (s : Str)
deriving DecidableEq, Repr

/-- `distill_object_attributes`, `utils/traceback_utils.py:251-255`. -/
def distillAttrs (w : World) (truncate : Bool) (v : Val) : List (Str × Shown) × List Ev :=
  let r := attributes w v
  (r.1.map (fun y => (y.1, if y.2.scalar then .raw y.2 else .text (safeRepr truncate y.2).1)),
   r.2 ++ r.1.flatMap (fun y => if y.2.scalar then [] else (safeRepr truncate y.2).2))

/-- What is recorded of frames, `utils/traceback_utils.py:149-150`, and, if `show`, what is logged, `core/error.py:63-65`. -/
def recordAll (w : World) (show_ : Bool) (fs : List Frame) : List Ev :=
  fs.flatMap (fun f => (captureLocals w f).2 ++ (captureGlobals f).2) ++ (if show_ then fs.flatMap (fun f => (shownVars w f).2) else [])

end Slash.Frames
