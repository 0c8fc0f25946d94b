/-!
# Test classes that are skipped or abstract: `slash/core/test.py:23-40,84-92,147-162`
-/
namespace Slash.TC

/-- The attributes of a class itself (its `__dict__`) that are used: `__slash_skipped__`, `__slash_skipped_reason__` and
`__slash_abstract__`, `core/test.py:84-85,91-92,153,162`; `none`: the class itself does not have it. -/
structure Attrs where
  skipped : Option Bool := none
  reason : Option (Option Nat) := none
  abstract : Option Bool := none
deriving DecidableEq, Repr

/-- All classes: for each its own attributes, `core/test.py:84-92,147-154`. -/
abbrev Classes := Nat → Attrs

/-- `slash.Test`, `core/test.py:65`. -/
def testClass : Nat := 0

/-- Before any decoration, `core/test.py:84-85`. -/
def initial : Classes := fun c => if c = testClass then { skipped := some false, reason := some none } else {}

/-- Sets attributes of one class, `core/test.py:91-92,153`. -/
def Classes.set (s : Classes) (c : Nat) (a : Attrs) : Classes := fun d => if d = c then a else s d

/-- `Test.skip_all` called on a class, `core/test.py:89-92`. -/
def skipAll (s : Classes) (c : Nat) (reason : Option Nat) : Classes := s.set c { s c with skipped := some true, reason := some reason }

/-- `abstract_test_class`, `core/test.py:147-154`; `mro`: the order in which Python looks for attributes, the class itself first.
`none`: the assertion fails. -/
def abstractTestClass (mro : Nat → List Nat) (s : Classes) (c : Nat) : Option Classes :=
  if (mro c).contains testClass then some (s.set c { s c with abstract := some true }) else none

/-- `is_abstract_base_class`, `core/test.py:156-162`. -/
def isAbstract (s : Classes) (c : Nat) : Bool := (s c).abstract.getD false

/-- `cls.__slash_skipped__` and `cls.__slash_skipped_reason__`: attributes of the first class that has them, `core/test.py:38-39`. -/
def isSkipped (mro : Nat → List Nat) (s : Classes) (c : Nat) : Bool := ((mro c).findSome? (fun d => (s d).skipped)).getD false

/-- See `isSkipped`, `core/test.py:39`. -/
def skipReason (mro : Nat → List Nat) (s : Classes) (c : Nat) : Option Nat := ((mro c).findSome? (fun d => (s d).reason)).getD none

/-- What `run` of a test does: it is `Test.run`, or `SkipTest` is raised with the reason and nothing else happens, `core/test.py:38-39`,
`exceptions.py:3-5`. -/
inductive Run
  | normal
  | skip (reason : Option Nat)
deriving DecidableEq, Repr

/-- A test of a class, `core/test.py:32-39`. -/
structure Case where
  method : List Char
  variation : Nat
  run : Run
deriving DecidableEq, Repr

/-- Whether a name starts with `test`, `core/test.py:28`. -/
def isTestMethod (name : List Char) : Bool := ['t', 'e', 's', 't'].isPrefixOf name

/-- `_generate_tests`, `core/test.py:23-40`; `dir`: the names of all attributes of the class; `variations`: those of a method. -/
def generate (mro : Nat → List Nat) (s : Classes) (dir : List (List Char)) (variations : List Char → List Nat) (c : Nat) : List Case :=
  if isAbstract s c then []
  else (dir.filter isTestMethod).flatMap (fun m => (variations m).map (fun v =>
    ⟨m, v, if isSkipped mro s c then .skip (skipReason mro s c) else .normal⟩))

/-- What is done to classes by the modules that are loaded, `core/test.py:89-92,147-154`. -/
inductive Op
  | skipAll (c : Nat) (reason : Option Nat)
  | abstract (c : Nat)
deriving DecidableEq, Repr

/-- One operation; an assertion that fails leaves everything as it was, `core/test.py:89-92,147-154`. -/
def step (mro : Nat → List Nat) (s : Classes) : Op → Classes
  | .skipAll c r => Slash.TC.skipAll s c r
  | .abstract c => (abstractTestClass mro s c).getD s

/-- Any number of operations, `core/test.py:89-92,147-154`. -/
def history (mro : Nat → List Nat) (ops : List Op) : Classes := ops.foldl (step mro) initial

end Slash.TC
