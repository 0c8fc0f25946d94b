import Verif.Model.Cleanup
import Verif.Model.Fixture
import Verif.Model.Scope
/-!
# A whole session: runner, scope manager, cleanup manager, fixture store and results together

The other models look at one component at a time and let the others do anything. Here they are put together as in
`slash/runner.py`, `slash/core/scope_manager.py` and `slash/core/session.py:112-154`: what closing a scope does and raises is
determined by the cleanups that were registered and the fixtures that are active.

User code (hooks, requirement predicates, test bodies, cleanup callbacks) is a script: calls of `slash.add_cleanup` and
additions to the current result, then possibly an exception (`Code`, `Cleanup.Cb`). Fixture functions and their cleanups are as
in `Verif.Model.Fixture`. Not here: hooks fired while an exception is handled or added (`exception_caught_before_debugger`,
`error_added`, `interruption_added`, `test_interrupt` and others); files and reporter calls, fatal exceptions, exceptions raised twice, the order of tests
(see `Verif.Model.Runner`); the end time of results; fixture functions that call `slash.add_cleanup`; parallel workers.
Each observable event is recorded together with the cleanup manager and fixture store of that moment.
-/
namespace Slash.Whole

open Slash.FG (FDef)
open Slash.Scope (Sc)

/-- The names of scopes, `core/scope_manager.py:31,39,41`. -/
def scName : Sc → String
  | .session => "session" | .module => "module" | .test => "test"

/-- The numbers of scopes, `core/fixtures/utils.py:87-88`. -/
def scNum : Sc → Nat
  | .session => 2 | .module => 1 | .test => 0

/-- An exception on its way, and whether it was handled (and so added to a result) before,
`exception_handling.py:141-164`. -/
structure X where
  kind : Kind
  handled : Bool := false
deriving DecidableEq, Repr

/-- A piece of user code: its API calls, and how it ends (`runner.py:100-200`, `core/session.py:123-151`). -/
structure Code where
  acts : List Cleanup.Act := []
  out : Option Kind := none

/-- A test and the hooks fired for it (`runner.py:90-200`): requirement predicates, reasons not to run it, the fixtures it
needs (autouse ones first, `core/fixtures/parameters.py:72`; then `fixture_store.py:60-66`), the current variation, its function. -/
structure T where
  id : Nat
  module : Nat := 0
  reqs : Code := {}
  avoid : Nat := 0
  avoidedHook : Code := {}
  startHook : Code := {}
  fixtures : List Nat := []
  var : Nat → Nat := fun _ => 0
  body : Code := {}
  /-- what the `before_test_cleanups` hook raises -/
  beforeCleanups : Option Kind := none
  summary : Code := {}
  endHook : Code := {}

/-- Observable events: hooks (`runner.py:147,154,173,180,191-200`, `core/session.py:124,141,151`), the function of the test
(`fixture_store.py:75`), the moments when the closing of a scope begins, when its fixtures are torn down and when its closing
raised (`core/scope_manager.py:68`), and `begin_test` raising (`runner.py:109`). -/
inductive Ev where
  | sessionStart | sessionCleanup | sessionEnd
  | avoided (id : Nat)
  | beginRaised (id : Nat) (k : Kind)
  | start (id module : Nat) | body (id : Nat) | summary (id : Nat) (h : SummaryHook) | fin (id : Nat)
  | closing (s : Sc) | fixturesDown (s : Sc) | closeRaised (s : Sc) (k : Kind)
deriving DecidableEq, Repr

/-- An event with the state of the cleanup manager (and results) and of the fixture store at that moment (ghost; see
`runner.py:90-200`). -/
structure Snap where
  ev : Ev
  cl : Cleanup.St
  fx : Fix.St

/-- The state: cleanup manager with results and context, fixture store, `ScopeManager` (`core/scope_manager.py:14-17`), the
flag of the controller (`runner.py:164`), the tests that have results, the number of session cleanups begun, whether
`session_start` returned (`core/session.py:119,125`). -/
structure W where
  cl : Cleanup.St := {}
  fx : Fix.St := {}
  scopes : List Sc := []
  lastModule : Option Nat := none
  lastTest : Option Nat := none
  started : Bool := false
  tests : List Nat := []
  cleanups : Nat := 0
  startCalled : Bool := false
  trace : List Snap := []

/-- Parameters of a session: `stop_on_error` (`runner.py:27-30`), the fixtures (see `Fix.Env`), the hooks of the session
(`core/session.py:123-151`). -/
structure Env where
  stop : Bool := false
  defs : Nat → FDef := fun _ => {}
  params : Nat → List Nat := fun _ => []
  fixture : Nat → Nat → Fix.Body := fun _ _ => {}
  fuel : Nat := 0
  beforeStart : Code := {}
  sessionStart : Code := {}
  afterStart : Code := {}
  beforeCleanup : Nat → Code := fun _ => {}
  interrupt : Code := {}
  sessionEnd : Code := {}
  afterEnd : Code := {}

/-- A piece of the program: it may raise (`runner.py:22-251`). -/
abbrev M := W → Option X × W

/-- Two statements one after the other (`runner.py:100-127`). -/
def seq (m k : M) : M := fun w =>
  match m w with
  | (some x, w) => (some x, w)
  | (none, w) => k w

/-- `try: m finally: f` (`runner.py:110-115`). -/
def fin (m f : M) : M := fun w =>
  match m w with
  | (x, w) => match f w with
    | (y, w) => (y.or x, w)

/-- A statement that does not raise (`runner.py:105`). -/
def act (f : W → W) : M := fun w => (none, f w)

/-- ghost: an event with the state of this moment (`runner.py:147-200`) -/
def emit (e : Ev) (w : W) : W := { w with trace := w.trace ++ [⟨e, w.cl, w.fx⟩] }

/-- `update_current_result`, `exception_handling.py:23-31`. -/
def record (k : Kind) (w : W) : W := { w with cl := w.cl.record w.cl.currentForUpdate k }

/-- `with handling_exceptions(swallow=...): m`, `exception_handling.py:117-164`. -/
def handle (swallow : Bool) (m : M) : M := fun w =>
  match m w with
  | (none, w) => (none, w)
  | (some x, w) =>
    let w := if x.handled then w else record x.kind w
    if swallow && !x.kind.escapes then (none, w) else (some { x with handled := true }, w)

/-- `try: m except context.session.get_skip_exception_types(): pass`, `runner.py:107-117,106-127`. -/
def exceptSkip (m : M) : M := fun w =>
  match m w with
  | (some x, w) => if x.kind = .skip then (none, w) else (some x, w)
  | r => r

/-- User code is run (`runner.py:100-200`). -/
def user (c : Code) : M := fun w =>
  match Cleanup.runActs c.acts w.cl with
  | (some e, cl) => (some { kind := e.kind }, { w with cl := cl })
  | (none, cl) => (c.out.map (fun k => { kind := k }), { w with cl := cl })

/-- A hook is fired: the event, then the user code (`runner.py:147,154,173,180,191-200`). -/
def hook (e : Ev) (c : Code) : M := seq (act (emit e)) (user c)

/-! ## The scope manager -/

/-- `_push_scope`, `core/scope_manager.py:56-60`. -/
def push (s : Sc) (w : W) : W := { w with scopes := s :: w.scopes, cl := Cleanup.pushScope (scName s) w.cl }

/-- How an exception of the cleanup manager leaves it: those of user code were handled inside
(`cleanup_manager.py:146,156`), its own ones were not (125, 127). -/
def ofExn : Cleanup.Exn → X
  | .user k => { kind := k, handled := true }
  | e => { kind := e.kind }

/-- `cleanups.pop_scope`, `core/scope_manager.py:68`. -/
def clPop (name : String) (hk : Option Kind) : M := fun w =>
  match Cleanup.popScope name hk w.tests w.cl with
  | (e, cl) => (e.map ofExn, { w with cl := cl })

/-- `context.result.is_interrupted()`, `fixture_store.py:201`. -/
def interrupted (cl : Cleanup.St) : Bool :=
  match cl.curResult with
  | some r => (cl.results r).isInterrupted
  | none => false

/-- The inner loop of `FixtureStore.pop_scope`, `fixture_store.py:206-208`. -/
def fxLoop : List Nat → M
  | [], w => (none, w)
  | f :: fs, w =>
    match Fix.deactivate f w.fx with
    | (none, fx) => fxLoop fs { w with fx := fx }
    | (some k, fx) =>
      let w := record k { w with fx := fx }
      if k.escapes then (some { kind := k, handled := true }, w) else fxLoop fs w

/-- The outer loop of `FixtureStore.pop_scope`, `fixture_store.py:204-209`. -/
def fxLoops (env : Env) (s : Nat) : List Nat → M
  | [], w => (none, w)
  | k :: ks, w =>
    if k ≤ s then
      match fxLoop ((w.fx.active.filter (fun a => (env.defs a.id).scope == k)).map (·.id)).reverse w with
      | (some x, w) => (some x, w)
      | (none, w) => fxLoops env s ks w
    else fxLoops env s ks w

/-- `fixture_store.pop_scope`, `core/scope_manager.py:68`, `fixture_store.py:200-209`. -/
def fxPop (env : Env) (s : Sc) : M := fun w =>
  let w := emit (.fixturesDown s) w
  if interrupted w.cl then (none, w) else fxLoops env (scNum s) w.fx.keys w

/-- `call_all_raise_first` on two functions, `utils/python.py:101-109`. -/
def callBoth (a b : M) : M := fun w =>
  match a w with
  | (none, w) => b w
  | (some x, w) =>
    if x.kind.isException then
      match b w with
      | (y, w) => (y.or (some x), w)
    else (some x, w)

/-- An error of the scope manager itself (`core/scope_manager.py:46,63,66`), or a second result for a test
(`core/result.py:434-435`). -/
def err : Option X := some { kind := .error }

/-- `_pop_scope`, `core/scope_manager.py:62-70`. -/
def pop (env : Env) (s : Sc) (hk : Option Kind) : M := fun w =>
  match w.scopes with
  | [] => (err, w)
  | p :: rest =>
    if p ≠ s then (err, { w with scopes := rest })
    else
      match callBoth (clPop (scName s) hk) (fxPop env s) (emit (.closing s) { w with scopes := rest }) with
      | (some x, w) => (some x, emit (.closeRaised s x.kind) w)
      | (none, w) => (none, w)

/-- The part of `begin_test` that changes the module, `core/scope_manager.py:34-39`. -/
def changeModule (env : Env) (t : T) : M := fun w =>
  if w.lastModule ≠ some t.module then
    match (if w.lastModule ≠ none then pop env .module none w else (none, w)) with
    | (some x, w) => (some x, w)
    | (none, w) => if w.scopes.head? = some .module then (some { kind := .failure }, w) else (none, push .module w)
  else (none, w)

/-- `begin_test`, `core/scope_manager.py:25-42`. -/
def beginTest (env : Env) (t : T) : M := fun w =>
  match changeModule env t (if w.lastModule = none then push .session w else w) with
  | (some x, w) => (some x, emit (.beginRaised t.id x.kind) w)
  | (none, w) => (none, { push .test { w with lastModule := some t.module } with lastTest := some t.id })

/-- `end_test`, `core/scope_manager.py:44-48`. -/
def endTest (env : Env) (t : T) : M := fun w =>
  if w.lastTest ≠ some t.id then (err, w) else pop env .test t.beforeCleanups w

/-- The pops of `flush_remaining_scopes` for the list of scopes, `core/scope_manager.py:72-75`, `utils/python.py:101-109`. -/
def flushLoop (env : Env) : List Sc → Option X → M
  | [], p, w => (p, w)
  | s :: ss, p, w =>
    match pop env s none w with
    | (none, w) => flushLoop env ss p w
    | (some x, w) => if x.kind.isException then flushLoop env ss (some x) w else (some x, w)

/-- `flush_remaining_scopes`, `core/scope_manager.py:72-75`. (`before_test_cleanups` hooks do not raise here.) -/
def flush (env : Env) : M := fun w => flushLoop env w.scopes none w

/-- `initiate_cleanup`, `core/session.py:146-154`. -/
def initiateCleanup (env : Env) : M := fun w =>
  if w.scopes = [] then (none, w)
  else fin (handle true (hook .sessionCleanup (env.beforeCleanup w.cleanups))) (handle true (flush env))
    { w with cleanups := w.cleanups + 1 }

/-! ## The runner -/

/-- `mark_started`, `runner.py:104,172`. -/
def markStarted (r : Cleanup.RKey) (w : W) : W := { w with cl := w.cl.updResult r Result.markStarted }

/-- `TestStartEndController` before and after `start`, `runner.py:104,164,171-172`. -/
def mark (t : T) (b : Bool) (w : W) : W := { markStarted (.test t.id) w with started := b }

/-- `TestStartEndController.start`, `runner.py:169-173`. -/
def ctrlStart (t : T) : M := fun w =>
  if w.started then (none, w)
  else seq (act (mark t true)) (hook (.start t.id t.module) t.startHook) w

/-- Entering `forbid_implicit_scoping_context`, `cleanup_manager.py:38-39`, `runner.py:177`. -/
def forbid (w : W) : W := { w with started := false, cl := { w.cl with allowImplicit := false } }

/-- Leaving it, `cleanup_manager.py:43`. -/
def permit (b : Bool) (w : W) : W := { w with cl := { w.cl with allowImplicit := b } }

/-- `context.result = ...`, `runner.py:183`. -/
def setResult (r : Option Cleanup.RKey) (w : W) : W := { w with cl := { w.cl with curResult := r } }

/-- `TestStartEndController.end`, `runner.py:175-183`, with `forbid_implicit_scoping_context`
(`cleanup_manager.py:36-43`). -/
def ctrlEnd (t : T) (prev : Option Cleanup.RKey) : M := fun w =>
  if !w.started then (none, w)
  else
    fin (fin (seq (act forbid) (hook (.fin t.id) t.endHook)) (act (permit w.cl.allowImplicit))) (act (setResult prev)) w

/-- What `FixtureStore` raises (`fixture_store.py:328,386`). -/
def fixKind : Fix.Err → Kind
  | .cyclic => .error
  | .assertion => .failure
  | .user k => k

/-- The fixtures as seen by a test (`core/function_test.py:28-32`). -/
def fixEnv (env : Env) (t : T) : Fix.Env := { defs := env.defs, params := env.params, var := t.var, body := env.fixture }

/-- The fixtures a test needs are computed, `core/fixtures/parameters.py:66-75`, `fixture_store.py:58-66`. -/
def setUp (env : Env) (t : T) : M := fun w =>
  match Fix.setup (fixEnv env t) env.fuel t.fixtures w.fx with
  | (.ok _, fx) => (none, { w with fx := fx })
  | (.error e, fx) => (some { kind := fixKind e }, { w with fx := fx })

/-- `FunctionTest.run`, `core/function_test.py:27-34`, for a function that is not a generator; `test_start`/`test_end` callbacks of
fixtures (`fixture_store.py:71-73,77-80`) are left out. -/
def testRun (env : Env) (t : T) : M := seq (setUp env t) (hook (.body t.id) t.body)

/-- `context.result.add_skip`, `runner.py:140,144,153`. -/
def addSkip (w : W) : W :=
  match w.cl.curResult with
  | some r => { w with cl := w.cl.record r .skip }
  | none => w

/-- The reasons not to run the test are added to its result, `runner.py:138-145,152-153`. -/
def addSkips : Nat → W → W
  | 0, w => w
  | n + 1, w => addSkips n (addSkip w)

/-- `_process_requirements_and_exclusions`, `runner.py:129-156`, and what is done if the test is to run. -/
def processReqs (t : T) (m : M) : M :=
  seq (user t.reqs) (if t.avoid = 0 then m else seq (act (addSkips t.avoid)) (hook (.avoided t.id) t.avoidedHook))

/-- `runner.py:108-115`. -/
def beginRunEnd (env : Env) (t : T) : M :=
  seq (beginTest env t) (fin (seq (ctrlStart t) (handle true (testRun env t))) (endTest env t))

/-- `_fire_test_summary_hooks`, `runner.py:190-200`. -/
def fireSummary (t : T) : M :=
  handle false (fun w => hook (.summary t.id (summaryHook (w.cl.results (.test t.id)))) t.summary w)

/-- The block inside the controller, `runner.py:106-127`. -/
def block (env : Env) (t : T) (isLast : Bool) (prev : Option Cleanup.RKey) : M :=
  exceptSkip (seq (exceptSkip (handle true (beginRunEnd env t)))
    (seq (fireSummary t)
      (if isLast then seq (ctrlEnd t prev) (handle true (initiateCleanup env)) else act id)))

/-- The body of the outer handling context of `_run_single_test`, `runner.py:97-127`. -/
def inner (env : Env) (t : T) (isLast : Bool) (prev : Option Cleanup.RKey) : M :=
  processReqs t (seq (act (mark t false))
    (fin (block env t isLast prev) (ctrlEnd t prev)))

/-- A test gets a result, `core/result.py:437-439`. -/
def addTest (t : T) (w : W) : W := { w with tests := w.tests ++ [t.id] }

/-- `context.result` and `context.test` are set, `runner.py:225,238`, and set back, 232, 250. -/
def setContext (r : Option Cleanup.RKey) (t : Option Nat) (w : W) : W :=
  { w with cl := { w.cl with curResult := r, curTest := t } }

/-- `_run_single_test`, `runner.py:90-127`, with `_get_test_context`, 218-232, and `_set_current_test_context`, 234-251. -/
def runSingle (env : Env) (t : T) (isLast : Bool) : M := fun w =>
  if t.id ∈ w.tests then (err, w)
  else
    fin (handle true (inner env t isLast w.cl.curResult)) (act (setContext w.cl.curResult w.cl.curTest))
      (setContext (some (.test t.id)) (some t.id) (addTest t w))

/-- `session.results.is_success(allow_skips=True)`, `core/result.py:311-318`. -/
def success (w : W) : Bool :=
  (w.cl.results .global).isSuccess true && w.tests.all (fun t => (w.cl.results (.test t)).isSuccess true)

/-- The loop of `run_tests`, `runner.py:38-70`; also the tests that were not begun. -/
def loop (env : Env) : List T → W → Option X × List T × W
  | [], w => (none, [], w)
  | t :: ts, w =>
    match runSingle env t ts.isEmpty w with
    | (some x, w) => (some x, ts, w)
    | (none, w) => if env.stop && !success w then (none, ts, w) else loop env ts w

/-- `_mark_unrun_tests`, `runner.py:212-216`: the tests that were not begun get results. -/
def markUnrun : List T → M
  | [], w => (none, w)
  | t :: ts, w => if t.id ∈ w.tests then (err, w) else markUnrun ts (addTest t w)

/-- `run_tests`, `runner.py:22-82`. -/
def runTests (env : Env) (ts : List T) : M := fun w =>
  match loop env ts w with
  | (x, rest, w) =>
    match initiateCleanup env w with
    | (y, w) =>
      match y.or x with
      | some x => (some x, w)
      | none => markUnrun rest w

/-! ## The session -/

/-- An activated session with its outermost scope, `core/session.py:74-88,118`. -/
def initial : W :=
  { cl := Cleanup.run [.setContext (some .global) none, .start .global, .push "session-global"] {} }

/-- The hooks at the start of the session, `core/session.py:121-126`. -/
def startHooks (env : Env) : M :=
  handle false (seq (user env.beforeStart) (seq (hook .sessionStart env.sessionStart)
    (seq (act (fun w => { w with startCalled := true })) (user env.afterStart))))

/-- `except INTERRUPTION_EXCEPTIONS`, `core/session.py:129-131`. -/
def onInterrupt (env : Env) (m : M) : M := fun w =>
  match m w with
  | (some x, w) =>
    if x.kind = .interrupt then
      match user env.interrupt w with
      | (some y, w) => (some y, w)
      | (none, w) => (some x, w)
    else (some x, w)
  | r => r

/-- The end of the session, `core/session.py:132-143`. -/
def endSession (env : Env) : M :=
  seq (handle false (clPop "session-global" none)) (fun w =>
    if w.startCalled then
      seq (handle false (hook .sessionEnd env.sessionEnd)) (handle false (user env.afterEnd)) w
    else (none, w))

/-- A whole session: `with session.get_started_context(): run_tests(...)`, `core/session.py:112-144`. -/
def session (env : Env) (ts : List T) : Option X × W :=
  fin (onInterrupt env (seq (startHooks env) (runTests env ts))) (endSession env) initial

end Slash.Whole
