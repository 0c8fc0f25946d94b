import Verif.Model.Whole
/-!
# The session of a parallel worker (`slash/parallel/worker.py:96-136`, `slash/runner.py:22-127`)

As `Verif.Model.Whole`, but in the process of a parallel worker: the tests come from the server one at a time, each one is given to `run_tests` by itself, and with
`parallel.worker_id` set neither `run_tests` nor the last test cleans up the session; the worker does that when it is done. Which tests a worker gets is up to the server
(`Verif.Model.Worker`); here they are any list. The calls of the server are left out but for the exception that one of them (or waiting for it) may raise.
-/
namespace Slash.Whole

/-- The tests of a worker, each with a call of `run_tests` of its own: `parallel/worker.py:98-114`, `runner.py:22-82` with `parallel.worker_id` set (119, 70-81: nothing is
done after the loop; stopping on errors has nothing left to stop). -/
def workerLoop (env : Env) : List T → M
  | [] => act id
  | t :: ts => seq (runSingle env t false) (workerLoop env ts)

/-- The `try` statement of `start_execution`, `parallel/worker.py:97-136`. `comm`: what the communication with the server raises after these tests, if it does. -/
def workerRun (env : Env) (ts : List T) (comm : Option X) : M :=
  fin (seq (seq (workerLoop env ts) (fun w => (comm, w))) (initiateCleanup env)) (initiateCleanup env)

/-- The session of a worker, `parallel/worker.py:96-136`, `core/session.py:112-144`. -/
def workerSession (env : Env) (ts : List T) (comm : Option X) : Option X × W :=
  fin (onInterrupt env (seq (startHooks env) (workerRun env ts comm))) (endSession env) initial

end Slash.Whole
