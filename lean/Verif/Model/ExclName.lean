import Verif.Model.Namespace
import Verif.Model.Exclusion
/-!
# Names of parameters in exclusions: `slash/core/fixtures/fixture_store.py:104-124`, `slash/core/exclusions.py:28-58`

`resolve_name`, and what `is_excluded` makes of it. Names are numbers, as in `Verif.Model.Namespace`; a dotted name is the list of its parts.
-/
namespace Slash.NS

/-- Where a name leads to: the test function, a fixture, or a parameter (of the number `id`). -- `fixture_store.py:104-124` -/
inductive Pt
  | test
  | fixture (f : Nat)
  | param (id : Nat)
deriving DecidableEq, Repr

/-- What is read of functions: their parameters by name (`parameters.py:78-84,122-129`), and their arguments with the names of the fixtures they stand for
(`fixture.py:93-96`, `fixtures/utils.py:178-181`). -/
structure Funcs where
  params : Pt → List (Nat × Nat)
  args : Pt → List (Nat × Nat)

/-- `start_point.namespace`, `fixture_store.py:123`, `fixture.py:28`. The fixtures known everywhere are not listed in the store: their names are looked up in
the first namespace. -/
def nsOf (st : Store) (f : Nat) : Nat := (st.fixtures.lookup f).getD 0

/-- The loop of `resolve_name`, `fixture_store.py:114-124`; `none`: `UnknownFixtures`. -/
def resolveFrom (st : Store) (fs : Funcs) : Pt → Nat → List Nat → Option Pt
  | cur, _, [] => some cur
  | cur, ns, n :: rest =>
    match (fs.params cur).lookup n with
    | some p => if rest.isEmpty then some (.param p) else none
    | none =>
      match lookupName st ns n with
      | none => none
      | some f => resolveFrom st fs (.fixture f) (nsOf st f) rest

/-- `param_value_indices` of a test and `get_value_by_index`, `exclusions.py:42-53`: the value of a named parameter in the variation of the test; `none`:
`UnknownFixtures`. `ns`: the namespace of the test, whatever function the exclusion is for. -/
def namedValue (st : Store) (fs : Funcs) (ns : Nat) (path : Nat → List Nat) (variation : Nat → Option Nat) (entity : Pt) (n : Nat) : Option Nat :=
  match resolveFrom st fs entity ns (path n) with
  | some (.param p) => variation p
  | _ => none

/-- The function with that number among those `is_excluded` looks at: 0 is the test, `f + 1` the fixture `f`. -- `exclusions.py:31-36` -/
def entityOf : Nat → Pt
  | 0 => .test
  | f + 1 => .fixture f

/-- `is_excluded`, `exclusions.py:28-58`, with names as they are resolved. -/
def excludedByName (st : Store) (fs : Funcs) (ns : Nat) (path : Nat → List Nat) (variation : Nat → Option Nat) (decls : Nat → List Excl.Decl)
    (nofix : Bool) (fixtures : List Nat) : Excl.Res :=
  Excl.isExcluded (fun e n => namedValue st fs ns path variation (entityOf e) n) decls nofix (fixtures.map (· + 1)) 0

end Slash.NS
