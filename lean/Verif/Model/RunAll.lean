import Verif.Model.Collect
import Verif.Model.Whole
import Verif.Model.ExitCode
/-!
# `slash run`, from the command line to the status of the process: `slash/frontend/slash_run.py:33-82`

`Verif.Model.Collect` (which tests are run), `Verif.Model.Whole` (a session that runs them) and `Verif.Model.ExitCode` (the exit code), put together
for a session that is not parallel. What a collected test does (its function, hooks, fixtures, requirements) is given by a parameter.
-/
namespace Slash.RunAll

/-- What `slash run` gets from its environment, `frontend/slash_run.py:33-82`. -/
structure Run where
  files : Load.CEnv
  conf : Load.CConf
  /-- what the test at this place of the list does, `core/runnable_test.py:8-40` -/
  make : Nat → Option Meta.Test → Whole.T
  session : Whole.Env := {}
  /-- what an exception is that is neither an Exception nor an interruption, `exception_handling.py:131-138` -/
  other : Exit.Exc := .systemExit (.int 1)
  /-- see `Exit.Inp`, `app.py:105-165`, `frontend/slash_run.py:36-48,73-75` -/
  enter : Option Exit.Exc := none
  exit : Option Exit.Exc → Option Exit.Exc := fun _ => none
  callback : Option Exit.Exc := none
  prepare : Option Exit.Exc := none
  save : Option Exit.Exc := none

/-- The tests that were collected get numbers by their place (each is another object), `frontend/slash_run.py:56-60`. -/
def Run.tests (r : Run) (l : List (Option Meta.Test)) : List Whole.T :=
  l.zipIdx.map (fun x => { r.make x.2 x.1 with id := x.2 })

/-- What was collected, `frontend/slash_run.py:102-117`; everything else raised by it is an Exception. -/
def Run.collected (r : Run) : Except Exit.Exc (List (Option Meta.Test)) :=
  match Load.collectTests r.files r.conf with
  | .ok l => .ok l
  | _ => .error .exception

/-- What leaves the session, `frontend/slash_run.py:64-70`. -/
def Run.exc (r : Run) (x : Whole.X) : Exit.Exc :=
  match x.kind with
  | .interrupt => .interruption
  | .other => r.other
  | _ => .exception

/-- The results of the session, `core/result.py:323-328,437-439`. -/
def results (w : Whole.W) : SessionResults :=
  { global := w.cl.results .global, tests := w.tests.map (fun t => (t, w.cl.results (.test t))) }

/-- The session runs the tests, `frontend/slash_run.py:64-70`. -/
def Run.run (r : Run) (l : List (Option Meta.Test)) : Option Exit.Exc × SessionResults :=
  match Whole.session r.session (r.tests l) with
  | (x, w) => (x.map r.exc, results w)

/-- All put together, `frontend/slash_run.py:33-82`. -/
def Run.input (r : Run) : Exit.Inp where
  enter := r.enter
  exit := r.exit
  callback := r.callback
  prepare := r.prepare
  save := r.save
  positional := r.conf.args.map (fun _ => 0)
  suites := .ok (r.conf.suite.map (fun _ => 0))
  defaults := r.conf.defaults.map (fun _ => 0)
  interactive := r.conf.interactive
  load := fun _ _ => r.collected.map (fun l => List.range l.length)
  run := fun _ => match r.collected with
    | .ok l => r.run l
    | .error e => (some e, {})

/-- The status of the process, `frontend/main.py:37-50,66-71`. -/
def Run.status (r : Run) : Int := Exit.status r.input

end Slash.RunAll
