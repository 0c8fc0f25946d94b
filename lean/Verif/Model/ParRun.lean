import Verif.Model.Worker
import Verif.Model.ExitCode
/-!
# A parallel `slash run` (or `slash resume`) up to the status of the process of the parent: `slash/frontend/slash_run.py:33-82`

`Verif.Model.Worker` (the parent's server and manager with the workers, for any interleaving) put together with `Verif.Model.ExitCode`
(the exit code). How the tests are collected is given by a parameter. What the workers do on their own (their log files, their exit
statuses) is not looked at by the parent.
-/
namespace Slash.Par

/-- A parallel run as its parent sees it, `frontend/slash_run.py:33-82`. -/
structure ParRun where
  plan : Plan
  /-- what happens, in this order -/
  sched : List Act
  /-- the result read from what a worker sent for a test, `parallel/server.py:186`, `core/result.py:68-81` -/
  read : Nat → WRes → Result
  /-- the global result of the parent in the end, without what workers told, `core/result.py:292-318` -/
  global : Result := { started := true }
  /-- what collecting the tests raises, `frontend/slash_run.py:49-58` -/
  load : Option Exit.Exc := none
  resume : Bool := false
  /-- what is raised by beginning and ending the session, `frontend/slash_run.py:64-67`, `core/session.py:112-144` -/
  start : Option Exit.Exc := none
  finish : Option Exit.Exc := none
  /-- see `Exit.Inp`, `app.py:105-165`, `frontend/slash_run.py:36-48,73-75` -/
  enter : Option Exit.Exc := none
  exit : Option Exit.Exc → Option Exit.Exc := fun _ => none
  callback : Option Exit.Exc := none
  prepare : Option Exit.Exc := none
  save : Option Exit.Exc := none

/-- The state after what happens, `parallel_manager.py:115-137`. -/
def ParRun.state (r : ParRun) : Sys := (Sys.start r.plan).run r.plan r.sched

/-- The result the parent has for a test, `parallel/server.py:96-118,177-194`. -/
def ParRun.result (r : ParRun) (i : Nat) : Outcome → Result
  | .ran x => r.read i x
  | .interrupted => { interrupted := true }
  | .notRun => {}

/-- The results of the parent's session, `core/result.py:311-318,433-439`. -/
def ParRun.results (r : ParRun) : SessionResults :=
  { global := r.global, tests := r.state.srv.results.map (fun x => (x.1, r.result x.1 x.2)), workerError := r.state.srv.workerError }

/-- What leaves `ParallelManager.start`: an interruption is raised again, other time-outs raise `ParallelTimeout`,
`parallel_manager.py:74-79,125-129`. -/
def ParRun.raised (r : ParRun) : Option Exit.Exc :=
  if r.state.raised then some (if .interrupt ∈ r.sched then .interruption else .exception) else none

/-- The session of the parent, `frontend/slash_run.py:64-70`. -/
def ParRun.session (r : ParRun) : Option Exit.Exc × SessionResults :=
  match r.start with
  | some e => (some e, { global := r.global })
  | none => (r.finish.or r.raised, r.results)

/-- The tests the parent loaded, `frontend/slash_run.py:56-60`. -/
def ParRun.loaded (r : ParRun) : Except Exit.Exc (List Nat) :=
  match r.load with
  | some e => .error e
  | none => .ok (List.range r.plan.sigs.length)

/-- All put together, `frontend/slash_run.py:33-82`. -/
def ParRun.input (r : ParRun) : Exit.Inp where
  enter := r.enter
  exit := r.exit
  callback := r.callback
  prepare := r.prepare
  save := r.save
  positional := [0]
  resume := if r.resume then some (.ok [0]) else none
  load := fun _ _ => r.loaded
  run := fun _ => r.session

/-- The parent leaves the manager's loop: its server is told to stop and does so, `parallel_manager.py:130-137`. -/
def ParRun.left (r : ParRun) : Bool := r.state.srv.phase = .stopServe

/-- The parent gets to running the tests, `frontend/slash_run.py:35-69`. -/
def ParRun.begun (r : ParRun) : Bool :=
  r.enter.isNone && r.callback.isNone && r.prepare.isNone && r.load.isNone && (r.resume || !r.plan.sigs.isEmpty) && r.start.isNone

/-- The status of the parent's process; none as long as it waits for its workers, `frontend/main.py:37-50,66-71`. -/
def ParRun.status (r : ParRun) : Option Int := if r.begun && !r.left then none else some (Exit.status r.input)

end Slash.Par
