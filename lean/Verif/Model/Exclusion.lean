/-!
# Exclusions: `slash/core/exclusions.py`, `slash/utils/function_marker.py:26-38`
-/
namespace Slash.Excl

/-- A declaration: names of parameters (in a tuple or in a list), and the excluded combinations, `exclusions.py:24-25`. -/
structure Decl where
  isList : Bool
  names : List Nat
  sets : List (List Nat)
deriving DecidableEq, Repr

/-- A call of `exclude`, `exclusions.py:8-15`: one name and values, or several names (in a tuple or a list) and tuples of values; `none`: not a
sequence, or not a tuple. -/
inductive Call
  | single (name : Nat) (values : Option (List Nat))
  | many (isList : Bool) (names : List Nat) (values : Option (List (Option (List Nat))))
deriving DecidableEq, Repr

/-- All the items are there. -- `exclusions.py:21` -/
def allTuples : List (Option (List Nat)) → Option (List (List Nat))
  | [] => some []
  | none :: _ => none
  | some t :: l => (allTuples l).map (t :: ·)

/-- `exclude`, `exclusions.py:8-25`; `none`: `RuntimeError`. -/
def exclude : Call → Option Decl
  | .single _ none => none
  | .single n (some vs) => some ⟨false, [n], vs.map (fun v => [v])⟩
  | .many _ _ none => none
  | .many l ns (some vs) => (allTuples vs).map (fun ts => ⟨l, ns, ts⟩)

/-- What `is_excluded` comes to: an answer, `UnknownFixtures`, or `TypeError` (a list as a key of a dict), `exclusions.py:28-58`. -/
inductive Res
  | yes
  | no
  | unknown
  | typeError
deriving DecidableEq, Repr

/-- `d[k] = v`, `exclusions.py:39`. -/
def dset (k : List Nat) (v : List (List Nat)) : List (List Nat × List (List Nat)) → List (List Nat × List (List Nat))
  | [] => [(k, v)]
  | e :: t => if e.1 = k then (k, v) :: t else e :: dset k v t

/-- `dict(exclusions)`, `exclusions.py:39`. -/
def toDict (ds : List Decl) : List (List Nat × List (List Nat)) := ds.foldl (fun t d => dset d.names d.sets t) []

/-- The values of the named parameters, `exclusions.py:41-54`; `value`: the value of a parameter in the variation of the test, if the name is
that of a parameter, and the variation has it. -/
def paramValues (value : Nat → Option Nat) : List Nat → Option (List Nat)
  | [] => some []
  | n :: ns =>
    match value n with
    | none => none
    | some v => (paramValues value ns).map (v :: ·)

/-- The inner loop, `exclusions.py:40-57`. -/
def checkDecls (value : Nat → Option Nat) : List (List Nat × List (List Nat)) → Res
  | [] => .no
  | (ns, sets) :: ds =>
    match paramValues value ns with
    | none => .unknown
    | some vs => if sets.contains vs then .yes else checkDecls value ds

/-- The outer loop, `exclusions.py:36-58`; `ents`: the functions with their declarations; `value`: by function. -/
def checkAll (value : Nat → Nat → Option Nat) (decls : Nat → List Decl) : List Nat → Res
  | [] => .no
  | e :: es =>
    if (decls e).any (·.isList) then .typeError
    else
      match checkDecls (value e) (toDict (decls e)) with
      | .no => checkAll value decls es
      | r => r

/-- `is_excluded`, `exclusions.py:28-58`; `fixtures`: the fixtures among the arguments of the test function (in the order of the set). -/
def isExcluded (value : Nat → Nat → Option Nat) (decls : Nat → List Decl) (nofix : Bool) (fixtures : List Nat) (test : Nat) : Res :=
  checkAll value decls ((if nofix then [] else fixtures) ++ [test])

end Slash.Excl
