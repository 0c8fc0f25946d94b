import Verif.Model.Result
/-!
# The scope manager (`slash/core/scope_manager.py`) and `call_all_raise_first`
-/
namespace Slash.Scope

/-- The scope names used by the scope manager, `core/scope_manager.py:31,39,41`. -/
inductive Sc where
  | session | module | test
deriving DecidableEq, Repr

/-- Exceptions: raised by teardown code, or by the manager itself (`SlashInternalError` at
`core/scope_manager.py:28,46,66`, `IndexError` of `list.pop` at line 63, the assertion at line 38). -/
inductive Exn where
  | user (k : Kind) | internal | index | assertion
deriving DecidableEq, Repr

/-- What `except Exception` catches, `utils/python.py:106`. -/
def Exn.isException : Exn → Bool
  | .user k => k.isException
  | _ => true

/-- `call_all_raise_first`, `utils/python.py:101-109`, on a list of functions; returns the index of the function
calls made, and what is raised. Despite its name it re-raises the last exception caught. -/
def callAll {σ : Type} : List (σ → Option Exn × σ) → Option Exn → σ → Option Exn × σ
  | [], pending, st => (pending, st)
  | f :: fs, pending, st =>
    match f st with
    | (none, st) => callAll fs pending st
    | (some e, st) => if e.isException then callAll fs (some e) st else (some e, st)

/-- What is observable: a scope is opened; its cleanups are torn down; its fixtures are torn down
(`core/scope_manager.py:56-70`). -/
inductive Ev where
  | push (s : Sc) | popCleanups (s : Sc) | popFixtures (s : Sc)
deriving DecidableEq, Repr

/-- `ScopeManager` fields, `core/scope_manager.py:14-17`; the stack is kept top first. `trace` is a ghost. -/
structure St where
  scopes : List Sc := []
  lastModule : Option Nat := none
  lastTest : Option Nat := none
  trace : List Ev := []
deriving DecidableEq, Repr

/-- What the two teardown mechanisms raise when a scope is closed: `cleanups.pop_scope` and
`fixture_store.pop_scope`, `core/scope_manager.py:68`. -/
structure Out where
  cleanups : Option Kind := none
  fixtures : Option Kind := none
deriving DecidableEq, Repr

/-- `_push_scope`, `core/scope_manager.py:56-60`. -/
def pushScope (s : Sc) (st : St) : St :=
  { st with scopes := s :: st.scopes, trace := st.trace ++ [.push s] }

/-- The two functions given to `call_all_raise_first`, `core/scope_manager.py:68`. -/
def teardown (s : Sc) (o : Out) : List (St → Option Exn × St) :=
  [fun st => (o.cleanups.map .user, { st with trace := st.trace ++ [.popCleanups s] }),
   fun st => (o.fixtures.map .user, { st with trace := st.trace ++ [.popFixtures s] })]

/-- `_pop_scope`, `core/scope_manager.py:62-70`. -/
def popScope (s : Sc) (o : Out) (st : St) : Option Exn × St :=
  match st.scopes with
  | [] => (some .index, st)
  | popped :: rest =>
    let st := { st with scopes := rest }
    if popped ≠ s then (some .internal, st) else callAll (teardown s o) none st

/-- `begin_test`, `core/scope_manager.py:25-42`, for a test with a module name; `o` is the outcome of closing the
previous module scope, if that happens. -/
def beginTest (test module : Nat) (o : Out) (st : St) : Option Exn × St :=
  let st := if st.lastModule = none then pushScope .session st else st
  let finish (st : St) : Option Exn × St :=
    let st := { st with lastModule := some module }
    let st := pushScope .test st
    (none, { st with lastTest := some test })
  if st.lastModule ≠ some module then
    let (e, st) := if st.lastModule ≠ none then popScope .module o st else (none, st)
    match e with
    | some e => (some e, st)
    | none =>
      if st.scopes.head? = some .module then (some .assertion, st)
      else finish (pushScope .module st)
  else finish st

/-- `end_test`, `core/scope_manager.py:44-48`. -/
def endTest (test : Nat) (o : Out) (st : St) : Option Exn × St :=
  if st.lastTest ≠ some test then (some .internal, st) else popScope .test o st

/-- `flush_remaining_scopes`, `core/scope_manager.py:72-75`; `os` are the outcomes of closing the scopes, innermost
first. -/
def flush (os : Nat → Out) (st : St) : Option Exn × St :=
  callAll ((st.scopes.zipIdx).map (fun p => popScope p.1 (os p.2))) none st

/-- One test as run by `runner.py:107-117`: begin, (the body), end - where the end is skipped if beginning
raised. -/
structure TestRun where
  id : Nat
  module : Nat
  /-- closing the previous module scope -/
  moduleOut : Out := {}
  /-- closing the test scope -/
  testOut : Out := {}
deriving DecidableEq, Repr

/-- `runner.py:108-116` (the body and `controller.start` do not touch scopes). -/
def runTest (t : TestRun) (st : St) : Option Exn × St :=
  match beginTest t.id t.module t.moduleOut st with
  | (some e, st) => (some e, st)
  | (none, st) => endTest t.id t.testOut st

/-- The loop over tests, `runner.py:38-72` with `_run_single_test` (90-127): ordinary exceptions and skips are
absorbed (`handling_exceptions(swallow=True)`, `except` skip types), anything else ends the loop. -/
def runTests : List TestRun → St → St
  | [], st => st
  | t :: ts, st =>
    match runTest t st with
    | (some e, st) => if e.isException then runTests ts st else st
    | (none, st) => runTests ts st

/-- A whole run: the tests, then the final flush (`runner.py:71-73`, `core/session.py:146-154`). -/
def session (ts : List TestRun) (os : Nat → Out) (st : St := {}) : Option Exn × St :=
  flush os (runTests ts st)

end Slash.Scope
