import Verif.Model.Scope
/-!
# What `slash.get_current_scope` answers (`slash/core/scope_manager.py:20-23,62-81`)

As `Verif.Model.Scope`, with a log of the answers that user code would get at the moments it is called. What user code raises is a parameter, as there. The hooks of a
test that is not to be run, and asking in other threads, are left out.
-/
namespace Slash.CurScope

open Slash.Scope (Sc Exn Out callAll TestRun)

/-- When user code is called: hooks for the start of the session (`core/session.py:121-126`); hooks for the start of a test, its function and fixtures being set up
(`runner.py:109-113`); the cleanups of a scope, and the end of fixtures of it (`core/scope_manager.py:68`); hooks for the outcome and the end of a test (`runner.py:118-125`); the hook before the
session is cleaned up (`core/session.py:151`); hooks for the end of the session (`core/session.py:137-143`). -/
inductive Moment where
  | sessionStart
  | inTest (test : Nat)
  | cleanups (s : Sc)
  | fixtures (s : Sc)
  | afterTest (test : Nat)
  | sessionCleanup
  | sessionEnd
deriving DecidableEq, Repr

/-- The scope manager, `core/scope_manager.py:14-17` (the innermost scope first), and the answers. -/
structure St where
  scopes : List Sc := []
  lastModule : Option Nat := none
  lastTest : Option Nat := none
  seen : List (Moment × Option Sc) := []
deriving DecidableEq, Repr

/-- `current_scope`, `core/scope_manager.py:19-23`, and `get_current_scope`, 78-81, in a session. -/
def St.current (st : St) : Option Sc := st.scopes.head?

/-- User code asks, `core/scope_manager.py:78-81`. -/
def ask (m : Moment) (st : St) : St := { st with seen := st.seen ++ [(m, st.current)] }

/-- `_push_scope`, `core/scope_manager.py:56-60`. -/
def push (s : Sc) (st : St) : St := { st with scopes := s :: st.scopes }

/-- The two functions given to `call_all_raise_first`, `core/scope_manager.py:68`. -/
def teardown (s : Sc) (o : Out) : List (St → Option Exn × St) :=
  [fun st => (o.cleanups.map .user, ask (.cleanups s) st), fun st => (o.fixtures.map .user, ask (.fixtures s) st)]

/-- `_pop_scope`, `core/scope_manager.py:62-70`: the scope is taken off the list before what belongs to it is cleaned up. -/
def pop (s : Sc) (o : Out) (st : St) : Option Exn × St :=
  match st.scopes with
  | [] => (some .index, st)
  | popped :: rest => if popped ≠ s then (some .internal, { st with scopes := rest }) else callAll (teardown s o) none { st with scopes := rest }

/-- The end of `begin_test`, `core/scope_manager.py:40-42`. -/
def opened (test module : Nat) (st : St) : St := { push .test { st with lastModule := some module } with lastTest := some test }

/-- `begin_test`, `core/scope_manager.py:25-42`. -/
def beginTest (test module : Nat) (o : Out) (st : St) : Option Exn × St :=
  let st := if st.lastModule = none then push .session st else st
  if st.lastModule ≠ some module then
    match (if st.lastModule ≠ none then pop .module o st else (none, st)) with
    | (some e, st) => (some e, st)
    | (none, st) => if st.current = some .module then (some .assertion, st) else (none, opened test module (push .module st))
  else (none, opened test module st)

/-- `end_test`, `core/scope_manager.py:44-48`. -/
def endTest (test : Nat) (o : Out) (st : St) : Option Exn × St :=
  if st.lastTest ≠ some test then (some .internal, st) else pop .test o st

/-- `flush_remaining_scopes`, `core/scope_manager.py:72-75`. -/
def flush (os : Nat → Out) (st : St) : Option Exn × St :=
  callAll (st.scopes.zipIdx.map (fun p => pop p.1 (os p.2))) none st

/-- A test between `begin_test` and `end_test`, `runner.py:108-116`. -/
def runTest (t : TestRun) (st : St) : Option Exn × St :=
  match beginTest t.id t.module t.moduleOut st with
  | (some e, st) => (some e, st)
  | (none, st) => endTest t.id t.testOut (ask (.inTest t.id) st)

/-- The loop over tests, `runner.py:38-70` with 106-127: the hooks for the outcome of a test are called unless something that is not an `Exception` is raised. -/
def runTests : List TestRun → St → St
  | [], st => st
  | t :: ts, st =>
    match runTest t st with
    | (some e, st) => if e.isException then runTests ts (ask (.afterTest t.id) st) else st
    | (none, st) => runTests ts (ask (.afterTest t.id) st)

/-- Cleaning up the session, `core/session.py:146-154`. -/
def cleanup (os : Nat → Out) (st : St) : St :=
  if st.scopes = [] then st else (flush os (ask .sessionCleanup st)).2

/-- A session, `core/session.py:112-143`. -/
def session (ts : List TestRun) (os : Nat → Out) : St :=
  ask .sessionEnd (cleanup os (runTests ts (ask .sessionStart {})))

end Slash.CurScope
