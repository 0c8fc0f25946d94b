import Verif.Model.ParRun
import Verif.Model.Transfer
/-!
# A parallel run with the results of its workers: `slash/parallel/worker.py:114-128`, `slash/parallel/server.py:177-190`, `slash/core/result.py:57-80`

`Verif.Model.ParRun` with what the parent reads determined by what each worker has, as in `Verif.Model.Transfer`. Simplification: reading what arrived raises
nothing but the `TypeError` that is caught (`core/result.py:72`); the reasons of skips are not kept.
-/
namespace Slash.Par
open Tr (Res Key PEnd)

/-- The result that the worker running a test (an index of the parent) has for it, which of its attributes can be pickled and unpickled, and which errors are
fatal, `parallel/worker.py:114-117`, `core/result.py:57-74,285-289`. -/
structure Sending where
  own : Nat → Res
  pickle : Nat → Key → PEnd := fun _ _ => .ok
  unpickle : Nat → Key → Bool := fun _ _ => true
  fatal : Nat → Bool := fun _ => false

/-- Sending the result to a new result of the parent, `parallel/worker.py:117`, `parallel/server.py:183-184`. -/
def Sending.send (d : Sending) (i : Nat) : Res × List Tr.Report × Bool :=
  Tr.send (d.pickle i) (fun k => if d.unpickle i k then .ok else .caught) (d.own i) {}

/-- The parent's result, as `Verif.Model.Result` has it, `parallel/server.py:183-184`. -/
def Sending.view (d : Sending) (i : Nat) : Result where
  errors := (d.send i).1.errors.map (fun e => { fatal := d.fatal e })
  failures := (d.send i).1.failures.map (fun e => { fatal := d.fatal e })
  skips := (d.send i).1.skips.map (fun _ => "skipped")
  started := (d.send i).1.started
  finished := (d.send i).1.finished
  interrupted := (d.send i).1.interrupted

/-- What the server looks at, `parallel/server.py:186`. -/
def Sending.heard (d : Sending) (i : Nat) : WRes := { fatal := (d.view i).hasFatal, success := (d.view i).isSuccess true }

/-- A worker that has run a test sends its result; if it cannot be pickled at all, the worker leaves with an exception, `parallel/worker.py:117,126-128`. -/
def Sending.act (d : Sending) (s : Sys) : Act → Act
  | .act c x =>
    match (s.loc c).phase with
    | .running i _ => if (d.send i).2.2 then .die c else .act c { x with res := d.heard i }
    | _ => .act c x
  | a => a

/-- What happens, with these results, `parallel/worker.py:98-128`. -/
def Sending.fill (d : Sending) (p : Plan) : List Act → Sys → List Act
  | [], _ => []
  | a :: as, s => d.act s a :: d.fill p as (s.step p (d.act s a))

/-- The parallel run with these results, `frontend/slash_run.py:33-82`. -/
def Sending.run (d : Sending) (r : ParRun) : ParRun :=
  { r with sched := d.fill r.plan r.sched (Sys.start r.plan), read := fun i _ => d.view i }

end Slash.Par
