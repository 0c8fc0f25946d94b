/-!
# Results (`slash/core/result.py`)
-/
namespace Slash

/-- The five ways an exception can matter to slash, as decided by `isinstance` against
`Exception`, `FAILURE_EXCEPTION_TYPES` (`slash/exceptions.py:130`), the session's skip types
(`slash/core/session.py:53-65`) and `INTERRUPTION_EXCEPTIONS` (`slash/exceptions.py:12`).
`other` is any remaining `BaseException` (e.g. `SystemExit`); `GeneratorExit` is covered by the
separate model `Verif.Model.Exc`. -/
inductive Kind where
  | error | failure | skip | interrupt | other
deriving DecidableEq, Repr

/-- `isinstance(e, Exception)`: what `except Exception` catches. `KeyboardInterrupt`,
`TerminatedException` (`slash/exceptions.py:9`) and `SystemExit` derive from `BaseException` only. -/
def Kind.isException : Kind → Bool
  | .error | .failure | .skip => true
  | .interrupt | .other => false

/-- Whether an exception gets out of `with handling_exceptions(swallow=True)`:
`slash/exception_handling.py:131-138`. -/
def Kind.escapes : Kind → Bool
  | .error | .failure => false
  | .skip | .interrupt | .other => true

/-- An `Error` object in a result; only the fatal mark matters to the runner.
`slash/core/error.py` (`mark_fatal`, `is_fatal`). -/
structure Err where
  fatal : Bool := false
deriving DecidableEq, Repr

/-- `Result` instance fields, `slash/core/result.py:32-49`. Details, facts, data, log paths and times
are left out (times: only their order matters and is not used by any predicate). -/
structure Result where
  errors : List Err := []
  failures : List Err := []
  skips : List String := []
  started : Bool := false
  finished : Bool := false
  interrupted : Bool := false
deriving DecidableEq, Repr

namespace Result

/-- `is_started`, `core/result.py:152`. -/
def isStarted (r : Result) : Bool := r.started
/-- `is_finished`, `core/result.py:192`. -/
def isFinished (r : Result) : Bool := r.finished
/-- `is_interrupted`, `core/result.py:202`. -/
def isInterrupted (r : Result) : Bool := r.interrupted
/-- `has_errors_or_failures`, `core/result.py:119`. -/
def hasErrorsOrFailures (r : Result) : Bool := !r.failures.isEmpty || !r.errors.isEmpty
/-- `is_not_run`, `core/result.py:155`. -/
def isNotRun (r : Result) : Bool := !r.isStarted && !r.hasErrorsOrFailures
/-- `is_error`, `core/result.py:162`. -/
def isError (r : Result) : Bool := !r.errors.isEmpty
/-- `is_failure`, `core/result.py:169`. -/
def isFailure (r : Result) : Bool := !r.failures.isEmpty
/-- `is_just_failure`, `core/result.py:172`. -/
def isJustFailure (r : Result) : Bool := r.isFailure && !r.isError
/-- `is_skip`, `core/result.py:176`. -/
def isSkip (r : Result) : Bool := !r.skips.isEmpty
/-- `is_run_and_skip`, `core/result.py:179`. -/
def isRunAndSkip (r : Result) : Bool := r.isStarted && r.isSkip
/-- `is_success`, `core/result.py:182-187`. -/
def isSuccess (r : Result) (allowSkips : Bool := false) : Bool :=
  if !r.errors.isEmpty || !r.failures.isEmpty || r.interrupted then false
  else if !r.skips.isEmpty then allowSkips
  else r.isStarted
/-- `is_success_finished`, `core/result.py:189`. -/
def isSuccessFinished (r : Result) : Bool := r.isSuccess && r.isFinished
/-- `has_fatal_errors`, `core/result.py:285-289`. -/
def hasFatal (r : Result) : Bool := (r.errors ++ r.failures).any (·.fatal)

/-- `mark_started`, `core/result.py:158`. -/
def markStarted (r : Result) : Result := { r with started := true }
/-- `mark_finished`, `core/result.py:195`. -/
def markFinished (r : Result) : Result := { r with finished := true }
/-- `mark_interrupted`, `core/result.py:199`. -/
def markInterrupted (r : Result) : Result := { r with interrupted := true }
/-- `add_error`, `core/result.py:205-210`. -/
def addError (r : Result) (e : Err := {}) : Result := { r with errors := r.errors ++ [e] }
/-- `add_failure`, `core/result.py:212-217`. -/
def addFailure (r : Result) (e : Err := {}) : Result := { r with failures := r.failures ++ [e] }
/-- `add_skip`, `core/result.py:247-250`. -/
def addSkip (r : Result) (reason : String) : Result := { r with skips := r.skips ++ [reason] }

/-- The part of `add_exception` (`core/result.py:93-117`) that changes this very result, for an
exception not yet added to a result. -/
def addKind (r : Result) : Kind → Result
  | .failure => r.addFailure
  | .skip => r.addSkip "skip"
  | .interrupt => r.markInterrupted
  | .error | .other => r.addError

/-- `add_exception` for the different exception kinds keeps the fatal mark: see `addError`/`addFailure`.
The events that can happen to a result, i.e. the public methods that change it
(`core/result.py:82-117,158,195,199,205-217,247`). -/
inductive REv where
  | start | finish | interrupt
  | err (fatal : Bool) | fail (fatal : Bool) | skip (reason : String)
deriving DecidableEq, Repr

/-- The effect of one event (`core/result.py:158,195,199,205-217,247`). -/
def apply (r : Result) : REv → Result
  | .start => r.markStarted
  | .finish => r.markFinished
  | .interrupt => r.markInterrupted
  | .err f => r.addError ⟨f⟩
  | .fail f => r.addFailure ⟨f⟩
  | .skip s => r.addSkip s

/-- A result after a history of events (`core/result.py:28-289`). -/
def after (h : List REv) (r : Result := {}) : Result := h.foldl apply r

end Result

/-- The four summary hooks of `_fire_test_summary_hooks`, `runner.py:190-200`. -/
inductive SummaryHook where
  | failure | skip | success | error
deriving DecidableEq, Repr

/-- `_fire_test_summary_hooks`, `runner.py:190-200`: which hook is fired. -/
def summaryHook (r : Result) : SummaryHook :=
  if r.isJustFailure then .failure
  else if r.isSkip then .skip
  else if r.isSuccess then .success
  else .error

/-- `SessionResults`, `core/result.py:321-330`: the results by test id in creation order, the global result,
and whether the parallel server reported a worker error (`core/result.py:316`). -/
structure SessionResults where
  global : Result := {}
  tests : List (Nat × Result) := []
  workerError : Bool := false
deriving DecidableEq, Repr

namespace SessionResults

/-- `self._results_dict.get(id)`, `core/result.py:441-451`. -/
def lookup (s : SessionResults) (id : Nat) : Option Result := (s.tests.find? (·.1 == id)).map (·.2)

/-- `create_result`, `core/result.py:433-439`: `none` = SlashInternalError. -/
def create (s : SessionResults) (id : Nat) : Option SessionResults :=
  if (s.lookup id).isSome then none else some { s with tests := s.tests ++ [(id, {})] }

/-- `get_result`, `core/result.py:441-446`: `none` = KeyError. `safe_get_result` (448-451) is the same
with `None`. A test without metadata (`__slash__ is None`) has no id and is left out. -/
def get (s : SessionResults) (id : Nat) : Option Result := s.lookup id

/-- `__getitem__` with a number, `core/result.py:453-459`: `none` = IndexError. -/
def getIndex (s : SessionResults) (i : Nat) : Option Result := (s.tests[i]?).map (·.2)

/-- `iter_test_results`, `core/result.py:423-426`. -/
def testResults (s : SessionResults) : List Result := s.tests.map (·.2)
/-- `iter_all_results`, `core/result.py:428-431`. -/
def allResults (s : SessionResults) : List Result := s.testResults ++ [s.global]

/-- `_count`, `core/result.py:414-421`. -/
def count (s : SessionResults) (p : Result → Bool) (includeGlobal : Bool := true) : Nat :=
  ((if includeGlobal then s.allResults else s.testResults).filter p).length

/-- `get_num_started` ... `get_num_not_run`, `core/result.py:389-407`. -/
def numStarted (s : SessionResults) : Nat := s.count Result.isStarted false
/-- `get_num_successful`, `core/result.py:392`. -/
def numSuccessful (s : SessionResults) : Nat := s.count Result.isSuccessFinished false
/-- `get_num_errors`, `core/result.py:395`. -/
def numErrors (s : SessionResults) : Nat := s.count Result.isError
/-- `get_num_failures`, `core/result.py:398`. -/
def numFailures (s : SessionResults) : Nat := s.count Result.isJustFailure
/-- `get_num_skipped`, `core/result.py:401-404`. -/
def numSkipped (s : SessionResults) (includeNotRun : Bool := true) : Nat :=
  if includeNotRun then s.count Result.isSkip else s.count Result.isRunAndSkip
/-- `get_num_not_run`, `core/result.py:406-407`. -/
def numNotRun (s : SessionResults) : Nat := s.count Result.isNotRun false
/-- `has_fatal_errors`, `core/result.py:409-412`. -/
def hasFatal (s : SessionResults) : Bool := s.count Result.hasFatal != 0

/-- `GlobalResult.is_success` (`core/result.py:311-318`) and `SessionResults.is_success` (374-379). -/
def isSuccess (s : SessionResults) (allowSkips : Bool := false) : Bool :=
  if !s.global.isSuccess allowSkips then false
  else if s.workerError then false
  else s.testResults.all (·.isSuccess allowSkips)

/-- `is_interrupted`, `core/result.py:381-384`. -/
def isInterrupted (s : SessionResults) : Bool := s.testResults.any (·.isInterrupted)

/-- Operations on the session's results: creating a result, something happening to a test's result object
(obtained earlier from `create_result`), to the global result, or a worker error. `core/result.py:311-318,433-439`. -/
inductive Op where
  | create (id : Nat)
  | ev (id : Nat) (e : Result.REv)
  | gev (e : Result.REv)
  | workerError
deriving DecidableEq, Repr

/-- One operation on the session's results (`core/result.py:311-318,433-439`). -/
def step (s : SessionResults) : Op → SessionResults
  | .create id => (s.create id).getD s
  | .ev id e => { s with tests := s.tests.map (fun p => if p.1 == id then (p.1, p.2.apply e) else p) }
  | .gev e => { s with global := s.global.apply e }
  | .workerError => { s with workerError := true }

/-- A history of operations on the session's results (`core/result.py:321-459`). -/
def run (ops : List Op) (s : SessionResults := {}) : SessionResults := ops.foldl step s

end SessionResults
end Slash
