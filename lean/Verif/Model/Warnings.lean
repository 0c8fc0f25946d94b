/-!
# Ignored warnings (`slash/warnings.py`)

Categories are numbers and `issubclass` is a parameter. Strings are `List Char`. A compiled regular expression is the
predicate "its `match` method gives a match". Capturing by Python's `warnings` module (`simplefilter('always')` etc.) and
logging of the recorded warning are not modelled; the `warning_added` hook is not modelled. Every recorded warning comes
from `from_native_warning`, so it has a category (`from_log_record` is not called anywhere).
-/
namespace Slash.Warn

/-- `regex_or_str` of `_pattern_matches`, `warnings.py:151-160`. -/
inductive Pat where
  | str (s : List Char)
  | regex (m : List Char → Bool)

/-- Truth value of a pattern: the empty string is false, compiled expressions are true; `warnings.py:166,172`. -/
def Pat.truthy : Pat → Bool
  | .str s => !s.isEmpty
  | .regex _ => true

/-- `_pattern_matches`, `warnings.py:151-160`; None is the case of an absent pattern and never asked for (166, 172). -/
def Pat.matches : Pat → List Char → Bool
  | .str s, w => s == w
  | .regex m, w => m w

/-- A recorded warning, `warnings.py:94-138`: what the filters look at. -/
structure W where
  category : Nat
  filename : List Char
  lineno : Nat
  message : List Char
deriving DecidableEq, Repr

/-- `_IgnoredWarning`, `warnings.py:143-149`. -/
structure Filter where
  category : Option Nat := none
  filename : Option Pat := none
  lineno : Option Nat := none
  message : Option Pat := none

/-- `self.category and not issubclass(warning.category, self.category)`, `warnings.py:163`; a class is always true. -/
def catFails (sub : Nat → Nat → Bool) (o : Option Nat) (c : Nat) : Bool :=
  match o with | none => false | some d => !sub c d

/-- `self.filename and not self._pattern_matches(self.filename, warning.filename)`, `warnings.py:166`, likewise 172: the
criterion is tested for truth, not for being None. -/
def patFails (o : Option Pat) (s : List Char) : Bool :=
  match o with | none => false | some p => p.truthy && !p.matches s

/-- `self.lineno and warning.lineno != self.lineno`, `warnings.py:169`. -/
def lineFails (o : Option Nat) (n : Nat) : Bool :=
  match o with | none => false | some m => m != 0 && n != m

/-- `_IgnoredWarning.matches`, `warnings.py:162-175`. -/
def Filter.matches (sub : Nat → Nat → Bool) (f : Filter) (w : W) : Bool :=
  if catFails sub f.category w.category then false
  else if patFails f.filename w.filename then false
  else if lineFails f.lineno w.lineno then false
  else if patFails f.message w.message then false
  else true

/-- The module list `_ignored_warnings` (`warnings.py:191`) with the identity of each filter object, the next identity, and the
warnings of the session (30). -/
structure St where
  filters : List (Nat × Filter) := []
  next : Nat := 0
  recorded : List W := []

/-- `warning_should_be_filtered`, `warnings.py:38-42`. -/
def shouldFilter (sub : Nat → Nat → Bool) (st : St) (w : W) : Bool :=
  st.filters.any (fun f => f.2.matches sub w)

/-- `_capture_native_warning`, `warnings.py:44-54`. -/
def capture (sub : Nat → Nat → Bool) (w : W) (st : St) : St :=
  if shouldFilter sub st w then st else { st with recorded := st.recorded ++ [w] }

/-- `ignore_warnings`, `warnings.py:194-208`: the identity of the new filter and the new state. -/
def ignoreWarnings (f : Filter) (st : St) : Nat × St :=
  (st.next, { st with filters := st.filters ++ [(st.next, f)], next := st.next + 1 })

/-- `clear_ignored_warnings`, `warnings.py:223-224`. -/
def clear (st : St) : St := { st with filters := [] }

/-- `_ignored_warnings.remove(iw)` with ValueError ignored, `warnings.py:216-220`: objects are compared by identity. -/
def remove (id : Nat) (st : St) : St := { st with filters := st.filters.eraseP (fun f => f.1 == id) }

/-- Code that uses warnings: emits one, calls `ignore_warnings` (`warnings.py:194`) or `clear_ignored_warnings` (223), uses the
`ignored_warnings` context (211) around a block, tries a block and catches what it raises, or raises. -/
inductive Act where
  | warn (w : W)
  | ignore (f : Filter)
  | clear
  | within (f : Filter) (body : List Act)
  | attempt (body : List Act)
  | raise

/-- Leaving the `ignored_warnings` context, `warnings.py:214-220`: the removal only happens if the block did not raise. -/
def leave (id : Nat) : Bool × St → Bool × St
  | (true, st) => (true, st)
  | (false, st) => (false, remove id st)

mutual
/-- One action: whether it raises, and the state after it. The context of `warnings.py:211-220`: `handling_exceptions`
does not swallow (no such config by default, see `Verif.Model.Exc`), so the removal at 217 only happens if the block
does not raise. -/
def exec (sub : Nat → Nat → Bool) : Act → St → Bool × St
  | .warn w, st => (false, capture sub w st)
  | .ignore f, st => (false, (ignoreWarnings f st).2)
  | .clear, st => (false, Warn.clear st)
  | .raise, st => (true, st)
  | .attempt body, st => (false, (execAll sub body st).2)
  | .within f body, st =>
    let (id, st1) := ignoreWarnings f st
    leave id (execAll sub body st1)
/-- A block of code, up to the first exception; `warnings.py:211-220`. -/
def execAll (sub : Nat → Nat → Bool) : List Act → St → Bool × St
  | [], st => (false, st)
  | a :: as, st =>
    match exec sub a st with
    | (true, st) => (true, st)
    | (false, st) => execAll sub as st
end

end Slash.Warn
