import Verif.Model.FixtureGraph
import Verif.Model.Result
/-!
# Fixture values and their lifetime: `slash/core/fixtures/fixture_store.py:53-80,197-209,256-409`, `active_fixture.py`

A store with resolved definitions (`FG.FDef`). Fixture functions and cleanups are user code: each call of a fixture
function may register any cleanups, and return or raise; each cleanup may return or raise. They are assumed not to
change the fixture store itself. Values are named by the number of the call that produced them. The two dictionaries
`_active_fixtures_by_scope` and `_active_fixture_dependencies` are always updated together (lines 388-389, 401-402) and
kept here in one list, in activation order; the dictionary of one scope is that list restricted to the scope.
-/
namespace Slash.Fix

open Slash.FG (FDef)

/-- A cleanup registered by a fixture (`active_fixture.py:36-37`, `utils.py:136-144`): a name, and what it raises. -/
structure Cl where
  tag : Nat
  raises : Option Kind := none
deriving DecidableEq, Repr

/-- What one call of a fixture function does, `fixture.py:63-70`. -/
structure Body where
  cleanups : List Cl := []
  raises : Option Kind := none
deriving DecidableEq, Repr

/-- `ActiveFixture` (`active_fixture.py:5-13`) with its value (`fixture_store.py:393`) and dependencies (389). `args`
(ghost) are the values passed to the function. -/
structure Act where
  id : Nat
  value : Nat
  deps : List (Nat × Nat) := []
  args : List Nat := []
  cleanups : List Cl := []
deriving DecidableEq, Repr

/-- Observable events: a fixture function is called (fixture, number of the call, arguments); a cleanup of a fixture value
is called (`fixture_store.py:392`, `active_fixture.py:39-42`). -/
inductive Ev where
  | call (f n : Nat) (args : List Nat)
  | cleanup (f n tag : Nat)
deriving DecidableEq, Repr

/-- Errors: `fixture_store.py:328`, an assertion (386), an exception of user code. -/
inductive Err where
  | cyclic | assertion | user (k : Kind)
deriving DecidableEq, Repr

/-- The store; `keys`: the keys of `_active_fixtures_by_scope` in insertion order (a `defaultdict`: reading creates them,
`slash/core/fixtures/fixture_store.py:32,39`). -/
structure St where
  active : List Act := []
  keys : List Nat := []
  computing : List Nat := []
  clock : Nat := 0
  trace : List Ev := []
deriving DecidableEq, Repr

/-- Fixed for the setup of one test: the definitions, the needed parameters of each fixture (`fixture_store.py:358`, see
`FG.needed`), the current variation (363), and the user's fixture functions. -/
structure Env where
  defs : Nat → FDef
  params : Nat → List Nat := fun _ => []
  var : Nat → Nat := fun _ => 0
  body : Nat → Nat → Body := fun _ _ => {}

/-- `_compute_fixture_dependencies`, `fixture_store.py:356-367`. -/
def depsOf (E : Env) (f : Nat) : List (Nat × Nat) := (E.params f).map (fun p => (p, E.var p))

/-- `get_active_fixture`, `fixture_store.py:38-39`. -/
def getActive (st : St) (f : Nat) : Option Act := st.active.find? (·.id == f)

/-- `_is_active_fixture_valid`, `fixture_store.py:351-354`. -/
def isValid (E : Env) (a : Act) : Bool := (depsOf E a.id).all (fun d => d ∈ a.deps)

/-- `do_cleanups`, `active_fixture.py:39-42`; the argument is the list of cleanups, last registered first. -/
def doCleanups (f n : Nat) : List Cl → St → Option Kind × St
  | [], st => (none, st)
  | c :: cs, st =>
    let st := { st with trace := st.trace ++ [.cleanup f n c.tag] }
    match c.raises with
    | some k => (some k, st)
    | none => doCleanups f n cs st

/-- `_deactivate_fixture`, `fixture_store.py:399-404`. -/
def deactivate (f : Nat) (st : St) : Option Kind × St :=
  match getActive st f with
  | none => (none, st)
  | some a => doCleanups f a.value a.cleanups.reverse { st with active := st.active.filter (·.id != f) }

/-- Reading `_active_fixtures_by_scope[scope]` (a `defaultdict`), `fixture_store.py:32,39`. -/
def touch (s : Nat) (st : St) : St := if s ∈ st.keys then st else { st with keys := st.keys ++ [s] }

/-- The arguments of a fixture function are computed in order, `fixture_store.py:378-383`. -/
def argsLoop (rec : Nat → St → Except Err Nat × St) : List Nat → St → Except Err (List Nat) × St
  | [], st => (.ok [], st)
  | g :: gs, st =>
    match rec g st with
    | (.error e, st) => (.error e, st)
    | (.ok v, st) =>
      match argsLoop rec gs st with
      | (.error e, st) => (.error e, st)
      | (.ok vs, st) => (.ok (v :: vs), st)

/-- `_call_fixture`, `fixture_store.py:369-397`, with `Fixture.get_value` (`fixture.py:63-70`). -/
def callFixture (E : Env) (rec : Nat → St → Except Err Nat × St) (f : Nat) (st : St) : Except Err Nat × St :=
  match argsLoop rec (E.defs f).needs st with
  | (.error e, st) => (.error e, st)
  | (.ok vs, st) =>
    let st := touch (E.defs f).scope st
    if (getActive st f).isSome then (.error .assertion, st)
    else
      let n := st.clock
      let b := E.body f n
      let st := { st with active := st.active ++ [{ id := f, value := n, deps := depsOf E f, args := vs, cleanups := b.cleanups }],
                          clock := n + 1, trace := st.trace ++ [.call f n vs] }
      match b.raises with
      | some k => (.error (.user k), st)
      | none => (.ok n, st)

/-- The `try` of `_compute_fixture_value`, `fixture_store.py:339-349`. -/
def computeFresh (E : Env) (rec : Nat → St → Except Err Nat × St) (f : Nat) (st : St) : Except Err Nat × St :=
  match callFixture E rec f { st with computing := f :: st.computing } with
  | (.ok v, st) => (.ok v, { st with computing := st.computing.erase f })
  | (.error e, st) =>
    match deactivate f st with
    | (none, st) => (.error e, { st with computing := st.computing.erase f })
    | (some k, st) => (.error (.user k), { st with computing := st.computing.erase f })

/-- `_compute_fixture_value`, `fixture_store.py:321-349`. `fuel` bounds the recursion depth; see
`compute_enough_fuel`. -/
def compute (E : Env) : Nat → Nat → St → Except Err Nat × St
  | 0, _, st => (.error .cyclic, st)
  | fuel + 1, f, st =>
    if f ∈ st.computing then (.error .cyclic, st)
    else
      let st := touch (E.defs f).scope st
      match getActive st f with
      | some a =>
        if isValid E a then (.ok a.value, st)
        else match deactivate f st with
          | (some k, st) => (.error (.user k), st)
          | (none, st) => computeFresh E (compute E fuel) f st
      | none => computeFresh E (compute E fuel) f st

/-- `get_fixture_dict` (`fixture_store.py:256-266`) and the loops of lines 65-66 and 165-166: the values of a list of
fixtures, one after the other. -/
def setup (E : Env) (fuel : Nat) (fs : List Nat) (st : St) : Except Err (List Nat) × St := argsLoop (compute E fuel) fs st

/-- The inner loop of `pop_scope`, `fixture_store.py:206-208`: exceptions are swallowed unless they escape
`handling_exceptions(swallow=True)`. The argument is the list of the fixtures, last activated first. -/
def popLoop : List Nat → St → Option Kind × St
  | [], st => (none, st)
  | f :: fs, st =>
    match deactivate f st with
    | (some k, st) => if k.escapes then (some k, st) else popLoop fs st
    | (none, st) => popLoop fs st

/-- The outer loop of `pop_scope`, `fixture_store.py:204-209`, over the scopes. -/
def popScopes (defs : Nat → FDef) (s : Nat) : List Nat → St → Option Kind × St
  | [], st => (none, st)
  | k :: ks, st =>
    if k ≤ s then
      match popLoop ((st.active.filter (fun a => (defs a.id).scope == k)).map (·.id)).reverse st with
      | (some e, st) => (some e, st)
      | (none, st) => popScopes defs s ks st
    else popScopes defs s ks st

/-- `pop_scope`, `fixture_store.py:200-209`; `interrupted`: whether the current result is (line 201). -/
def popScope (defs : Nat → FDef) (s : Nat) (interrupted : Bool) (st : St) : Option Kind × St :=
  if interrupted then (none, st) else popScopes defs s st.keys st

end Slash.Fix
