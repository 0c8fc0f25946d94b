import Verif.Model.Fixture
/-!
# Running one test: `slash/core/test.py:115-142` (`Test.run`), `slash/core/function_test.py:27-34`
(`FunctionTest.run`), `slash/core/fixtures/fixture_store.py:58-80` (`call_with_fixtures`) and the callbacks
`this.test_start` / `this.test_end` of active fixtures (`slash/core/fixtures/active_fixture.py:15-34`)

On top of the fixture store of `Fixture`. User code (test functions, `before`, `after`, callbacks) returns or raises; it is
assumed not to use the fixture store itself. The callbacks of a fixture are those its function registered in the call that
produced the active value, so they are a function of the number of that call. The parameters bound by
`bound_parametrizations_context` are part of the environment (`Fix.Env.var`).
-/
namespace Slash.TestRun

open Slash.Fix (Env)

/-- A callback given to `this.test_start` or `this.test_end` (`slash/core/fixtures/active_fixture.py:15-19`): a name, and
what it raises. -/
structure Cb where
  tag : Nat
  raises : Option Kind := none
deriving DecidableEq, Repr

/-- `_test_start_callbacks` and `_test_end_callbacks`, `slash/core/fixtures/active_fixture.py:10-11`. -/
structure Reg where
  starts : List Cb := []
  ends : List Cb := []
deriving DecidableEq, Repr

/-- What a test class or module has: `before`, `after` (`slash/core/test.py:133-142`) or a test function. -/
inductive Part where
  | before | test | after
deriving DecidableEq, Repr

/-- Observable events: a start or end callback of the fixture value `n` is called; a function of the test is called; an
exception is recorded by `handling_exceptions` (`slash/exception_handling.py:161-164`). -/
inductive Ev where
  | start (n tag : Nat)
  | fin (n tag : Nat)
  | call (p : Part)
  | recorded (k : Kind)
deriving DecidableEq, Repr

/-- An exception on its way; `handled`: the mark of `mark_exception_handled`, `slash/exception_handling.py:167-168`. -/
structure Exn where
  kind : Kind
  handled : Bool := false
deriving DecidableEq, Repr

/-- The fixture store, the values whose `_test_start_called` is true (`slash/core/fixtures/active_fixture.py:13`), and the
events so far. -/
structure St where
  store : Fix.St := {}
  started : List Nat := []
  trace : List Ev := []
deriving DecidableEq, Repr

/-- An event, see `Ev` (`slash/core/fixtures/fixture_store.py:75`). -/
def St.emit (e : Ev) (st : St) : St := { st with trace := st.trace ++ [e] }

/-- `handle_exception`, `slash/exception_handling.py:141-164`, of an exception that passes `handling_exceptions`. -/
def handle (x : Exn) (st : St) : Exn × St :=
  if x.handled then (x, st) else ({ x with handled := true }, st.emit (.recorded x.kind))

/-- `with handling_exceptions():` around something that ended as the first argument says,
`slash/exception_handling.py:114-138`. -/
def handling : Option Exn × St → Option Exn × St
  | (none, st) => (none, st)
  | (some x, st) => (some (handle x st).1, (handle x st).2)

/-- `for callback in callbacks: callback()`, `slash/core/fixtures/active_fixture.py:27-28,33-34`. -/
def callbacks (ev : Nat → Ev) : List Cb → St → Option Exn × St
  | [], st => (none, st)
  | c :: cs, st =>
    match c.raises with
    | some k => (some { kind := k }, st.emit (ev c.tag))
    | none => callbacks ev cs (st.emit (ev c.tag))

/-- `call_test_start`, `slash/core/fixtures/active_fixture.py:21-28`. -/
def callStart (R : Nat → Reg) (n : Nat) (st : St) : Option Exn × St :=
  if n ∈ st.started then (none, st)
  else handling (callbacks (.start n) (R n).starts { st with started := n :: st.started })

/-- `call_test_end`, `slash/core/fixtures/active_fixture.py:30-34`. -/
def callEnd (R : Nat → Reg) (n : Nat) (st : St) : Option Exn × St :=
  handling (callbacks (.fin n) (R n).ends { st with started := st.started.filter (· != n) })

/-- `iter_active_fixtures`, `slash/core/fixtures/fixture_store.py:53-56`: the values of the active fixtures, scope after
scope in the order of the dictionary, each in the order of activation. -/
def iterActive (defs : Nat → FG.FDef) (s : Fix.St) : List Nat :=
  s.keys.flatMap (fun k => (s.active.filter (fun a => (defs a.id).scope == k)).map (·.value))

/-- The loop of `slash/core/fixtures/fixture_store.py:72-73`. -/
def callStarts (R : Nat → Reg) : List Nat → St → Option Exn × St
  | [], st => (none, st)
  | n :: ns, st =>
    match callStart R n st with
    | (some x, st) => (some x, st)
    | (none, st) => callStarts R ns st

/-- The loop of `slash/core/fixtures/fixture_store.py:78-80`, with `handling_exceptions(swallow=True)` around each step. -/
def callEnds (R : Nat → Reg) : List Nat → St → Option Exn × St
  | [], st => (none, st)
  | n :: ns, st =>
    match callEnd R n st with
    | (some x, st) => if x.kind.escapes then (some x, st) else callEnds R ns st
    | (none, st) => callEnds R ns st

/-- A function with the fixtures it needs (`slash/core/fixtures/fixture_store.py:59-68`; none if it is marked with
`nofixtures`), and what it does: raise, or return (a generator: `slash/core/function_test.py:33`). -/
structure Fn where
  needs : List Nat := []
  raises : Option Kind := none
  generator : Bool := false
deriving DecidableEq, Repr

/-- The exception of a failed setup, `slash/core/fixtures/fixture_store.py:328,386`. -/
def exnOf : Fix.Err → Exn
  | .cyclic => { kind := .error }
  | .assertion => { kind := .failure }
  | .user k => { kind := k }

/-- `call_with_fixtures`, `slash/core/fixtures/fixture_store.py:58-80`. The last two arguments are `trigger_test_start` and
`trigger_test_end`. In Python an exception raised in `finally` replaces the one on its way. -/
def callWith (E : Env) (R : Nat → Reg) (fuel : Nat) (p : Part) (f : Fn) (ts te : Bool) (st : St) : Option Exn × St :=
  match Fix.setup E fuel f.needs st.store with
  | (.error e, s) => (some (exnOf e), { st with store := s })
  | (.ok _, s) =>
    let st := { st with store := s }
    let r := if ts then callStarts R (iterActive E.defs s) st else (none, st)
    let r := match r with
      | (some x, st) => (some x, st)
      | (none, st) => (f.raises.map (fun k => { kind := k }), st.emit (.call p))
    if te then
      match callEnds R (iterActive E.defs s) r.2 with
      | (some x, st) => (some x, st)
      | (none, st) => (r.1, st)
    else r

/-- A call that returned a generator is an error, `slash/core/function_test.py:33-34`, `slash/core/test.py:126-127`. -/
def noGenerator (f : Fn) : Option Exn → Option Exn
  | some x => some x
  | none => if f.generator then some { kind := .error } else none

/-- `FunctionTest.run`, `slash/core/function_test.py:27-34`. -/
def runFunction (E : Env) (R : Nat → Reg) (fuel : Nat) (f : Fn) (st : St) : Option Exn × St :=
  let r := callWith E R fuel .test f true true st
  (noGenerator f r.1, r.2)

/-- A test of a class: its method with `before` and `after`, `slash/core/test.py:115-142`. -/
structure Cls where
  before : Fn := {}
  method : Fn := {}
  after : Fn := {}
deriving DecidableEq, Repr

/-- `Test.run`, `slash/core/test.py:115-131`. -/
def runClass (E : Env) (R : Nat → Reg) (fuel : Nat) (c : Cls) (st : St) : Option Exn × St :=
  match callWith E R fuel .before c.before false false st with
  | (some x, st) => (some x, st)
  | (none, st) =>
    let m := callWith E R fuel .test c.method true false st
    let m := handling (noGenerator c.method m.1, m.2)
    match handling (callWith E R fuel .after c.after false true m.2) with
    | (some x, st) => (some x, st)
    | (none, st) => (m.1, st)

/-- What happens to the store and the callbacks in a session: tests are run, each with its own parameters, and scopes end
(`slash/core/scope_manager.py:62-72`; `Fix.popScope`). -/
inductive Op where
  | function (params : Nat → List Nat) (var : Nat → Nat) (f : Fn)
  | cls (params : Nat → List Nat) (var : Nat → Nat) (c : Cls)
  | scopeEnd (scope : Nat) (interrupted : Bool)

/-- One step of a session, `slash/core/scope_manager.py:62-72`, `slash/runner.py:113`. -/
def step (D : Nat → FG.FDef) (B : Nat → Nat → Fix.Body) (R : Nat → Reg) (fuel : Nat) (op : Op) (st : St) : Option Exn × St :=
  match op with
  | .function P v f => runFunction { defs := D, params := P, var := v, body := B } R fuel f st
  | .cls P v c => runClass { defs := D, params := P, var := v, body := B } R fuel c st
  | .scopeEnd s i =>
    match Fix.popScope D s i st.store with
    | (some k, s) => (some { kind := k }, { st with store := s })
    | (none, s) => (none, { st with store := s })

/-- A session: the steps one after the other, `slash/runner.py:32-76`. Which steps are made after an exception is left to
the list, which is arbitrary. -/
def steps (D : Nat → FG.FDef) (B : Nat → Nat → Fix.Body) (R : Nat → Reg) (fuel : Nat) : List Op → St → St
  | [], st => st
  | op :: ops, st => steps D B R fuel ops (step D B R fuel op st).2

end Slash.TestRun
