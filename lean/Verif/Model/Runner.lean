import Verif.Model.Result
import Verif.Model.Scope
/-!
# The sequential runner (`slash/runner.py`) on top of the result and scope models

Everything user code can do at a step (requirement predicates, hooks, test body with its fixtures, teardown) is a
`Step`: a list of events on results, then possibly an exception. All steps have arbitrary outcomes, so that every crash
point of a run is covered. The reporter, logging and the iteration over the list of tests are assumed not to raise.
`config.parallel.worker_id` is None (not a parallel worker).
-/
namespace Slash.Runner

/-- A raised exception: its kind, whether it is marked fatal (`exception_handling.py:202-210`) and whether it was
already handled, i.e. recorded in a result (`exception_handling.py:141-171`). `elsewhere`: it was added to another result
than the current one before, and so is added to no result any more (`core/result.py:89-92`); this is so if user code raises
an exception object again, and for exceptions of cleanups that were registered by another test
(`core/cleanup_manager.py:177,184`). -/
structure X where
  kind : Kind
  fatal : Bool := false
  handled : Bool := false
  elsewhere : Bool := false
deriving DecidableEq, Repr

/-- What user code can do to results (`core/result.py:82-117`): to the current one (`context.result`), to that of a
certain test (`session.results`, or a cleanup that was registered by this test, `core/cleanup_manager.py:177,184`), to the
global one. -/
inductive UEv where
  | cur (e : Result.REv)
  | of (id : Nat) (e : Result.REv)
  | glob (e : Result.REv)
deriving DecidableEq, Repr

/-- What happens during a piece of user code: events on results, then maybe an exception
(`runner.py:100,111-115,140,147,180,191-200`). -/
structure Step where
  evs : List UEv := []
  raises : Option X := none
deriving DecidableEq, Repr

/-- One test, with everything that can happen while it is run by `_run_single_test`, `runner.py:90-127`. -/
structure T where
  id : Nat
  file : Nat
  module : Nat
  /-- `get_unmet_requirements` and `is_excluded`: predicates may raise, `runner.py:132,151` -/
  reqStep : Step := {}
  /-- the reasons if the test is not to run, `runner.py:137-145,152-153` -/
  avoid : List String := []
  /-- the `test_avoided` hook, `runner.py:147,154` -/
  avoidedHook : Step := {}
  /-- closing the previous module scope -/
  moduleOut : Scope.Out := {}
  /-- what the teardown code of the previous module scope does to results -/
  beginEvs : List UEv := []
  /-- whether what escapes that teardown was handled inside of it -/
  beginHandled : Bool := false
  /-- whether it was added to another result -/
  beginElsewhere : Bool := false
  startHook : Step := {}
  /-- `test.run()`, including fixtures -/
  body : Step := {}
  /-- closing the test scope -/
  testOut : Scope.Out := {}
  endEvs : List UEv := []
  endHandled : Bool := false
  endElsewhere : Bool := false
  summary : Step := {}
  endHook : Step := {}
deriving DecidableEq, Repr

/-- Observable events: reporter calls (`runner.py:45,47,60,62,80`) and hooks (147, 154, 173, 180, 191-200), the test
body being run (113), and the start of the session cleanup (`core/session.py:149-154`). -/
inductive Ev where
  | fileStart (f : Nat) | fileEnd (f : Nat)
  | reportStart (id : Nat) | reportEnd (id : Nat)
  | avoided (id : Nat)
  | hookStart (id : Nat) | body (id : Nat) | summary (id : Nat) (h : SummaryHook) | hookEnd (id : Nat)
  | cleanup
deriving DecidableEq, Repr

/-- `context.result`: the result of a test or the global one, `runner.py:223-232`. -/
inductive Cur where
  | global | test (id : Nat)
deriving DecidableEq, Repr

/-- What may happen during the `n`-th call of `initiate_cleanup` (`core/session.py:146-154`). -/
structure CleanupData where
  hook : Step := {}
  evs : List UEv := []
  handled : Bool := false
  elsewhere : Bool := false
  outs : Nat → Scope.Out := fun _ => {}

/-- The state of a run: results, scopes, current result (`context.result`), current test (`context.test`), the flag of `TestStartEndController` (`runner.py:164`),
`last_filename` (36), tests that got an index (208), the completeness flag (78) and the trace (ghost). -/
structure St where
  res : SessionResults := {}
  scope : Scope.St := {}
  cur : Cur := .global
  test : Option Nat := none
  started : Bool := false
  lastFile : Option Nat := none
  indexed : List Nat := []
  complete : Bool := false
  cleanups : Nat := 0
  trace : List Ev := []
deriving DecidableEq, Repr

/-- Parameters of a run: `stop_on_error` (`runner.py:27-30`) and the behaviour of session cleanups. -/
structure Env where
  stop : Bool := false
  cleanup : Nat → CleanupData := fun _ => {}

/-- ghost: appends to the trace (`runner.py:45-180`) -/
def St.emit (st : St) (e : Ev) : St := { st with trace := st.trace ++ [e] }

/-- An event on a result, `core/result.py:82-117`. -/
def St.evAt (st : St) (c : Cur) (e : Result.REv) : St :=
  match c with
  | .global => { st with res := st.res.step (.gev e) }
  | .test id => { st with res := st.res.step (.ev id e) }

/-- An event on the current result (`core/result.py:82-117`, `ctx.py` `context.result`). -/
def St.ev (st : St) (e : Result.REv) : St := st.evAt st.cur e

/-- The result that exceptions are added to when they are handled: that of the current test (`context.test`) if there is
one, also after `context.result` was reset by `TestStartEndController.end` (`runner.py:182-183`); otherwise the global one,
`exception_handling.py:23-31`. -/
def St.here (st : St) : Cur :=
  match st.test with
  | some id => .test id
  | none => .global

/-- An event on the global result, `core/result.py:82-117`. -/
def St.gev (st : St) (e : Result.REv) : St := { st with res := st.res.step (.gev e) }

/-- What user code does to a result, `core/result.py:82-117`. -/
def St.uev (st : St) : UEv → St
  | .cur e => st.ev e
  | .of id e => { st with res := st.res.step (.ev id e) }
  | .glob e => st.gev e

/-- `add_exception` (`core/result.py:82-117`) as called by the exception handlers (`exception_handling.py:23-31`), for an
exception not recorded before. -/
def record (x : X) (st : St) : St :=
  match x.kind with
  | .failure => st.evAt st.here (.fail x.fatal)
  | .skip => st.evAt st.here (.skip "skip")
  | .interrupt => (if st.here = .global then st else st.evAt st.here .interrupt).gev .interrupt
  | .error | .other => st.evAt st.here (.err x.fatal)

/-- A piece of user code, `runner.py:100-200`. An exception that was already handled when it leaves the user code was
recorded by a handling context inside the user code (`exception_handling.py:141-164`), unless it was added to another result. -/
def runStep (s : Step) (st : St) : Option X × St :=
  let st := s.evs.foldl St.uev st
  match s.raises with
  | none => (none, st)
  | some x => (some x, if x.handled && !x.elsewhere then record x st else st)

/-- `with handling_exceptions(swallow=...)`, `exception_handling.py:117-164`; see `Verif.Model.Exc` for the full model. -/
def handle (swallow : Bool) : Option X × St → Option X × St
  | (none, st) => (none, st)
  | (some x, st) =>
    let st := if x.handled || x.elsewhere then st else record x st
    if swallow && !x.kind.escapes then (none, st) else (some { x with handled := true }, st)

/-- `except context.session.get_skip_exception_types(): pass`, `runner.py:116,126`. -/
def exceptSkip : Option X × St → Option X × St
  | (some x, st) => if x.kind = .skip then (none, st) else (some x, st)
  | r => r

/-- An exception of the scope manager as seen by the runner: its own ones are ordinary errors,
`core/scope_manager.py:28,46,63,66`, but for the assertion of line 38, a failure (`slash/exceptions.py:130`). -/
def ofExn (handled elsewhere : Bool) : Scope.Exn → X
  | .user k => { kind := k, handled, elsewhere }
  | .assertion => { kind := .failure }
  | _ => { kind := .error }

/-- A scope manager operation inside the runner (`runner.py:109,115`, `core/session.py:154`): teardown code does
something to results; what it raises may have been handled (hence recorded) already. -/
def scopeOp (evs : List UEv) (handled elsewhere : Bool) (f : Scope.St → Option Scope.Exn × Scope.St) (st : St) :
    Option X × St :=
  let st := evs.foldl St.uev st
  let (e, sc) := f st.scope
  let st := { st with scope := sc }
  match e.map (ofExn handled elsewhere) with
  | none => (none, st)
  | some x => (some x, if x.handled && !x.elsewhere then record x st else st)

/-- `scope_manager.begin_test(test)`, `runner.py:109`. -/
def doBegin (t : T) (st : St) : Option X × St :=
  scopeOp t.beginEvs t.beginHandled t.beginElsewhere (Scope.beginTest t.id t.module t.moduleOut) st

/-- `scope_manager.end_test(test)`, `runner.py:115`. -/
def doEnd (t : T) (st : St) : Option X × St :=
  scopeOp t.endEvs t.endHandled t.endElsewhere (Scope.endTest t.id t.testOut) st

/-- `TestStartEndController.start`, `runner.py:169-173`. -/
def ctrlStart (t : T) (st : St) : Option X × St :=
  if st.started then (none, st)
  else runStep t.startHook (({ st with started := true }.ev .start).emit (.hookStart t.id))

/-- `TestStartEndController.end`, `runner.py:175-183`; `prev` is the result that was current before the test.
`mark_finished` applies to the test's result. -/
def ctrlEnd (t : T) (prev : Cur) (st : St) : Option X × St :=
  if !st.started then (none, st)
  else
    let (x, st) := runStep t.endHook ({ st with started := false }.emit (.hookEnd t.id))
    let st := if x.isNone then { st with res := st.res.step (.ev t.id .finish) } else st
    (x, { st with cur := prev })

/-- `Session.initiate_cleanup`, `core/session.py:146-154`. -/
def initiateCleanup (env : Env) (st : St) : Option X × St :=
  if st.scope.scopes = [] then (none, st)
  else
    let c := env.cleanup st.cleanups
    let st := { st.emit .cleanup with cleanups := st.cleanups + 1 }
    let (x, st) := handle true (runStep c.hook st)
    let (x2, st) := handle true (scopeOp c.evs c.handled c.elsewhere (Scope.flush c.outs) st)
    (x2.or x, st)

/-- `_process_requirements_and_exclusions`, `runner.py:129-156`: the exception, and whether the test should run. -/
def processReqs (t : T) (st : St) : Option X × Bool × St :=
  match runStep t.reqStep st with
  | (some x, st) => (some x, false, st)
  | (none, st) =>
    if t.avoid = [] then (none, true, st)
    else
      let st := t.avoid.foldl (fun st r => st.ev (.skip r)) st
      let (x, st) := runStep t.avoidedHook (st.emit (.avoided t.id))
      (x, false, st)

/-- `runner.py:108-115`: scope begin, start hook, body, scope end. -/
def beginRunEnd (t : T) (st : St) : Option X × St :=
  match doBegin t st with
  | (some x, st) => (some x, st)
  | (none, st) =>
    let (x, st) := match ctrlStart t st with
      | (some x, st) => (some x, st)
      | (none, st) => handle true (runStep t.body (st.emit (.body t.id)))
    let (x2, st) := doEnd t st
    (x2.or x, st)

/-- `_fire_test_summary_hooks`, `runner.py:190-200`. -/
def fireSummary (t : T) (st : St) : Option X × St :=
  handle false (runStep t.summary (st.emit (.summary t.id (summaryHook ((st.res.get t.id).getD {})))))

/-- The block inside the start/end controller, `runner.py:106-127`. -/
def block (env : Env) (t : T) (isLast : Bool) (prev : Cur) (st : St) : Option X × St :=
  exceptSkip <|
    match exceptSkip (handle true (beginRunEnd t st)) with
    | (some x, st) => (some x, st)
    | (none, st) =>
      match fireSummary t st with
      | (some x, st) => (some x, st)
      | (none, st) =>
        if isLast then
          match ctrlEnd t prev st with
          | (some x, st) => (some x, st)
          | (none, st) => handle true (initiateCleanup env st)
        else (none, st)

/-- The body of the outer handling context of `_run_single_test`, `runner.py:97-127`; the controller's exit is
`runner.py:186`. -/
def inner (env : Env) (t : T) (isLast : Bool) (prev : Cur) (st : St) : Option X × St :=
  match processReqs t st with
  | (some x, _, st) => (some x, st)
  | (none, false, st) => (none, st)
  | (none, true, st) =>
    let st := st.ev .start
    let (x, st) := block env t isLast prev { st with started := false }
    let (x2, st) := ctrlEnd t prev st
    (x2.or x, st)

/-- `_run_single_test`, `runner.py:90-127`, with `_get_test_context`, 218-232, and `_set_current_test_context`, 234-251. -/
def runSingle (env : Env) (t : T) (isLast : Bool) (st : St) : Option X × St :=
  match st.res.create t.id with
  | none => (some { kind := .error }, st)
  | some res =>
    let prev := st.cur
    let prevTest := st.test
    let (x, st) := handle true (inner env t isLast prev { st with res := res, cur := .test t.id, test := some t.id })
    (x, { st with cur := prev, test := prevTest })

/-- The loop of `run_tests`, `runner.py:38-70`: the exception, whether the loop was completed, the tests left in the
iterator. -/
def loop (env : Env) : List T → St → Option X × Bool × List T × St
  | [], st => (none, true, [], st)
  | t :: ts, st =>
    if t.id ∈ st.indexed then (some { kind := .error }, false, ts, st)   -- _set_test_metadata, runner.py:203-209
    else
      let st := { st with indexed := t.id :: st.indexed }
      let st := if st.lastFile ≠ some t.file then { st.emit (.fileStart t.file) with lastFile := some t.file } else st
      match runSingle env t ts.isEmpty (st.emit (.reportStart t.id)) with
      | (some x, st) => (some x, false, ts, st)
      | (none, st) =>
        match st.res.get t.id with
        | none => (some { kind := .error }, false, ts, st)
        | some r =>
          let st := st.emit (.reportEnd t.id)
          let st := if ts.head?.map (·.file) ≠ some t.file then st.emit (.fileEnd t.file) else st
          if r.hasFatal then (none, false, ts, st)
          else if env.stop && !st.res.isSuccess true then (none, false, ts, st)
          else loop env ts st

/-- `_mark_unrun_tests`, `runner.py:212-216`. -/
def markUnrun : List T → St → Option X × St
  | [], st => (none, st)
  | t :: ts, st =>
    match st.res.create t.id with
    | none => (some { kind := .error }, st)
    | some res => markUnrun ts { st with res := res }

/-- The state of a session that was activated and started: the global result is marked started,
`core/session.py:74-88,112-127`. -/
def started : St := { res := { global := { started := true } } }

/-- `run_tests`, `runner.py:22-82`, in a started session. -/
def runTests (env : Env) (ts : List T) (st : St := started) : Option X × St :=
  let (x, complete, rest, st) := loop env ts { st with lastFile := none }
  let (x2, st) := initiateCleanup env st
  match x2.or x with
  | some x => (some x, st)
  | none =>
    match markUnrun rest st with
    | (some x, st) => (some x, st)
    | (none, st) =>
      if complete then (none, { st with complete := true })
      else match st.lastFile with
        | some f => (none, st.emit (.fileEnd f))
        | none => (none, st)

end Slash.Runner
