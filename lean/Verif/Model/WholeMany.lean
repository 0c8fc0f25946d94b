import Verif.Model.Whole
/-!
# Several calls of `slash.run_tests` in one session (`slash/runner.py:22-82`, `slash/core/session.py:112-154`, `slash/core/scope_manager.py`)

As `Verif.Model.Whole`, but tests are given to `run_tests` in several calls. A call that raises is the last one.
-/
namespace Slash.Whole

/-- The calls of `run_tests` one after the other, `runner.py:22-82`. -/
def runMany (env : Env) : List (List T) → M
  | [] => act id
  | ts :: tss => seq (runTests env ts) (runMany env tss)

/-- A session with these calls, `core/session.py:112-144`. -/
def sessionMany (env : Env) (tss : List (List T)) : Option X × W :=
  fin (onInterrupt env (seq (startHooks env) (runMany env tss))) (endSession env) initial

end Slash.Whole
