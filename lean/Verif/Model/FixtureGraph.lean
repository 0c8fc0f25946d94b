/-!
# Fixture definitions: resolving names and collecting needed parameters

`slash/core/fixtures/fixture.py:79-111`, `fixture_base.py:14-16`, `fixture_store.py:146-195,406-409`.
Fixtures and parametrizations have ids. `OrderedSet` is a duplicate-free list in insertion order.
-/
namespace Slash.FG

/-- What resolution reads of a fixture: its scope (`utils.py:65,87-90`: test 0, module 1, session 2), the arguments of its
function as (argument name, looked-up fixture name) pairs (`utils.py:67-74,178-181`), and its parametrizations as
(argument name, parametrization id) pairs, `parameters.py:122-127`. -/
structure Raw where
  scope : Nat := 0
  required : List (String × String) := []
  params : List (String × Nat) := []
deriving DecidableEq, Repr

/-- Errors of `_resolve`, `fixture.py:100,104,109`. -/
inductive RErr where
  | scope | cyclic | unknown
deriving DecidableEq, Repr

/-- The loop of `Fixture._resolve` over the arguments, `fixture.py:93-109`. `lookup` is
`self.namespace.get_fixture_by_name`; its result is a fixture id. -/
def resolveArgs (raw : Nat → Raw) (f : Nat) (lookup : String → Option Nat) : List (String × String) → Except RErr (List (String × Nat))
  | [] => .ok []
  | (arg, name) :: rest =>
    if arg ∈ ((raw f).params.map (·.1)) then resolveArgs raw f lookup rest
    else match lookup name with
      | none => .error .unknown
      | some g =>
        if (raw g).scope < (raw f).scope then .error .scope
        else if g = f then .error .cyclic
        else (resolveArgs raw f lookup rest).map ((arg, g) :: ·)

/-- A resolved fixture: the fixtures among its `keyword_arguments`, in order, and its parametrizations,
`fixture.py:82-91,107`. -/
structure FDef where
  scope : Nat := 0
  needs : List Nat := []
  params : List Nat := []
deriving DecidableEq, Repr

/-- `resolve` of one fixture, `fixture_base.py:14-16`, `fixture.py:79-111`. -/
def resolveFix (raw : Nat → Raw) (lookup : Nat → String → Option Nat) (f : Nat) : Except RErr FDef :=
  (resolveArgs raw f (lookup f) (raw f).required).map (fun l =>
    { scope := (raw f).scope, needs := l.map (·.2), params := ((raw f).params.map (·.2)).eraseDups })

/-- `FixtureStore.resolve`, `fixture_store.py:406-409`; `ids` is the set of unresolved ids in the order in which Python's
set gives them out. -/
def resolveAll (raw : Nat → Raw) (lookup : Nat → String → Option Nat) : List Nat → Except RErr (List (Nat × FDef))
  | [] => .ok []
  | f :: fs => match resolveFix raw lookup f with
    | .error e => .error e
    | .ok d => (resolveAll raw lookup fs).map ((f, d) :: ·)

/-- `OrderedSet.update`, used in `fixture_store.py:174,179`. -/
def addAll (l : List Nat) : List Nat → List Nat
  | [] => l
  | x :: xs => addAll (if x ∈ l then l else l ++ [x]) xs

/-- An entry of the work list: a fixture id and the fixtures on the way to it (`path`; `visited` is the same as a set),
`fixture_store.py:169,187`. -/
abbrev Entry := Nat × List Nat

/-- The inner loop, `fixture_store.py:181-187`: the entries pushed (`stack.append`, so the last one is on top); none for the
cycle error. -/
def push (path : List Nat) : List Nat → List Entry → Option (List Entry)
  | [], stack => some stack
  | g :: gs, stack => if g ∈ path then none else push path gs ((g, path ++ [g]) :: stack)

/-- `_compute_all_needed_parametrization_ids`, `fixture_store.py:168-188`. The top of the stack is the head of the list.
`memo` is `_all_needed_parametrization_ids_by_fixture_id`. The outer `none` stands for a computation not finished within
`fuel` iterations, the inner one for the `CyclicFixtureDependency` error. -/
def collect (defs : Nat → FDef) (memo : Nat → Option (List Nat)) : Nat → List Entry → List Nat → Option (Option (List Nat))
  | _, [], ret => some (some ret)
  | 0, _ :: _, _ => none
  | fuel + 1, (f, path) :: stack, ret =>
    match memo f with
    | some l => collect defs memo fuel stack (addAll ret l)
    | none =>
      match push path (defs f).needs stack with
      | none => some none
      | some stack => collect defs memo fuel stack (addAll ret (defs f).params)

/-- The call of `fixture_store.py:153`, with line 169. -/
def needed (defs : Nat → FDef) (memo : Nat → Option (List Nat)) (fuel : Nat) (f : Nat) : Option (Option (List Nat)) :=
  collect defs memo fuel [(f, [f])] []

end Slash.FG
