import Verif.Model.FixtureArgs
/-!
# Which fixtures are active when a test function is called (`slash/core/fixtures/fixture_store.py:58-80,157-166,256-397`)

One test function (`function_test.py:25-33`) is run under one variation. Left out: fixtures that are active with other values of their parameters (they
are ended and computed again, see `Verif.Model.Fixture`; here they count as not active), the values of fixtures and what becomes of them as arguments
(`Verif.Model.FixtureArgs`), the start and end notifications of fixtures.
-/
namespace Slash.Use
open Slash.Args (Name Elem requiredNames fixturesSet)

/-- The fixtures that were loaded, `fixture_store.py:26-36`, after they were resolved: `args` are the fixtures that a fixture takes as arguments
(`keyword_arguments` without parameters, `fixture.py:79-111`), `extra` the names given to `use_fixtures` on it (`fixtures/utils.py:28-42`), `needs` the
parameters it depends on (`_compute_all_needed_parametrization_ids`, `fixture_store.py:168-188`), `lookup` what a name means in the namespace of the
test (`namespace.py:37-48`), `raises` those whose functions raise. -/
structure Store where
  args : Nat → List Nat
  extra : Nat → List Name
  needs : Nat → List Nat
  lookup : Name → Option Nat
  raises : Nat → Bool

/-- A test function: arguments with the names of fixtures they stand for, its own parameters (name and number), the names given to `use_fixtures` on
it, and whether it is marked with `nofixtures`, `fixture_store.py:58-69,82-97`. -/
structure Fn where
  args : List (Name × Name)
  params : List (Name × Nat) := []
  extra : List Name := []
  nofix : Bool := false

/-- What comes of computing values: `keyError` is the `KeyError` of `fixture_store.py:366-367`, `cyclic` is `CyclicFixtureDependency` (lines 327-329),
`raised f` an exception of the function of `f`, `unknown` is `UnknownFixtures` (`namespace.py:37-48`), `deep` Python's `RecursionError`. -/
inductive Out
  | ok | keyError | cyclic | raised (f : Nat) | unknown | deep
deriving DecidableEq, Repr

/-- The fixtures that are active, `fixture_store.py:32`, and those whose functions were called, in this order (line 393). -/
structure St where
  active : List Nat := []
  ran : List Nat := []
deriving DecidableEq, Repr

/-- A loop that computes values, `fixture_store.py:164-166,260-262,65-66,378-383`: it ends with the first exception. -/
def each (c : Nat → St → Out × St) : List Nat → St → Out × St
  | [], st => (.ok, st)
  | f :: fs, st =>
    match c f st with
    | (.ok, st) => each c fs st
    | r => r

/-- `_compute_fixture_value`, `_is_active_fixture_valid`, `_compute_fixture_dependencies` and `_call_fixture`, `fixture_store.py:321-397`; `path` is
`_computing`, `V` the parameters that have values in this variation. It recurses, so it takes an amount of fuel. -/
def compute (S : Store) (V : List Nat) : Nat → List Nat → Nat → St → Out × St
  | 0, _, _, st => (.deep, st)
  | n + 1, path, f, st =>
    if path.contains f then (.cyclic, st)
    else if st.active.contains f then (if (S.needs f).all V.contains then .ok else .keyError, st)
    else
      match each (compute S V n (f :: path)) (S.args f) st with
      | (.ok, st) =>
        if !(S.needs f).all V.contains then (.keyError, st)
        else if S.raises f then (.raised f, { st with ran := st.ran ++ [f] })
        else (.ok, { active := st.active ++ [f], ran := st.ran ++ [f] })
      | r => r

/-- `_get_fixtures_set` followed by `get_fixture_value` on each member, `fixture_store.py:260-262,65-66`. -/
def activate (S : Store) (V : List Nat) (n : Nat) (es : List Elem) (st : St) : Out × St :=
  match fixturesSet S.lookup S.extra n es [] with
  | .ok s => each (compute S V n []) (s.map (·.2)) st
  | .unknown => (.unknown, st)
  | .deep => (.deep, st)

/-- What happens before a test function is called: `bound_parametrizations_context` (`parameters.py:66-75`, with the fixtures declared with `autouse`) and
`call_with_fixtures` (`fixture_store.py:58-69`). The names of line 64 are a set, so they come in some order: `order`. The function is called iff the
outcome is `ok`. -/
def callTest (S : Store) (V : List Nat) (n : Nat) (autouse : List Nat) (t : Fn) (order : List Name) (st : St) : Out × St :=
  match each (compute S V n []) autouse st with
  | (.ok, st) =>
    if t.nofix then (.ok, st)
    else
      match activate S V n (requiredNames (t.params.map (·.1)) t.args) st with
      | (.ok, st) => activate S V n (order.map .one) st
      | r => r
  | r => r

/-- The parameters that have values in the variations of a test, `variation_factory.py:39-83,101-118`: those that the fixtures declared with `autouse`
need, and, unless it is marked with `nofixtures`, its own and those that the fixtures of its arguments and the fixtures named in `use_fixtures` on
it need. (If a name is unknown, the test is not loaded.) -/
def variation (S : Store) (autouse : List Nat) (t : Fn) : List Nat :=
  autouse.flatMap S.needs ++
    if t.nofix then []
    else t.params.map (·.2) ++ ((t.args.filter (fun a => !(t.params.map (·.1)).contains a.1)).filterMap (fun a => S.lookup a.2)).flatMap S.needs ++
      (t.extra.filterMap S.lookup).flatMap S.needs

end Slash.Use
