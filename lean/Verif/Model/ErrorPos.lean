import Verif.Model.Reports
/-!
# Where an error added with a message points to: `slash/utils/__init__.py:42-64`, `slash/core/result.py:205-245`, `slash/core/error.py:24-50,103-126`,
`slash/utils/traceback_utils.py:37-41,66-67,117-127`

The functions call each other with a stack of frames, the innermost first; each adds its own frame, and a number to the correction.

Simplification: the functions are the ones below; a message is given and no exception.
-/
namespace Slash.Rep

/-- `_get_sys_trace_frames`, `traceback_utils.py:66-67`: its own frame first, the outermost frame is left out. -/
def sysFrames (stack : List PFrame) : List PFrame := (⟨"slash.utils.traceback_utils", "_get_sys_trace_frames", 0⟩ :: stack).dropLast.reverse

/-- `distill_call_stack`, `traceback_utils.py:37-41`. -/
def callStack (stack : List PFrame) (correction : Nat) : List PFrame :=
  distillStack (sysFrames (⟨"slash.utils.traceback_utils", "distill_call_stack", 0⟩ :: stack)) correction

/-- `Error.__init__` without an exception, `core/error.py:46-47`. -/
def errorInit (stack : List PFrame) (correction : Nat) : List PFrame := callStack (⟨"slash.core.error", "__init__", 0⟩ :: stack) (correction + 4)

/-- `Result._add_error`, `core/result.py:224,230-231`. -/
def underAdd (stack : List PFrame) (correction : Nat) : List PFrame := errorInit (⟨"slash.core.result", "_add_error", 0⟩ :: stack) (correction + 1)

/-- `Result.add_error`, `core/result.py:205-208`. -/
def resultAddError (stack : List PFrame) (correction : Nat) : List PFrame := underAdd (⟨"slash.core.result", "add_error", 0⟩ :: stack) (correction + 1)

/-- `Result.add_failure`, `core/result.py:212-215`. -/
def resultAddFailure (stack : List PFrame) (correction : Nat) : List PFrame := underAdd (⟨"slash.core.result", "add_failure", 0⟩ :: stack) (correction + 1)

/-- `slash.add_error` in a session, `utils/__init__.py:42-52`. -/
def slashAddError (stack : List PFrame) (correction : Nat) : List PFrame := resultAddError (⟨"slash.utils", "add_error", 0⟩ :: stack) (correction + 1)

/-- `slash.add_failure` in a session, `utils/__init__.py:55-64`. -/
def slashAddFailure (stack : List PFrame) (correction : Nat) : List PFrame := resultAddFailure (⟨"slash.utils", "add_failure", 0⟩ :: stack) (correction + 1)

/-- An error logged, `log.py:29-31`: `machinery` are the frames of logbook. -/
def logged (machinery stack : List PFrame) : List PFrame := slashAddError (⟨"slash.log", "emit", 0⟩ :: (machinery ++ stack)) 0

/-- `DistilledTraceback.cause`, `traceback_utils.py:124-127`, used by `Error.lineno` and the like, `core/error.py:103-126`. -/
def cause (frames : List PFrame) : Option PFrame := frames.getLast?

/-- The functions users call, `utils/__init__.py:42,55`, `core/result.py:205,212`, `core/error.py:24`. -/
inductive Adder
  | slashError
  | slashFailure
  | resultError
  | resultFailure
  | error

/-- A call with `frame_correction`, `utils/__init__.py:42-64`. -/
def Adder.call : Adder → List PFrame → Nat → List PFrame
  | .slashError => slashAddError
  | .slashFailure => slashAddFailure
  | .resultError => resultAddError
  | .resultFailure => resultAddFailure
  | .error => errorInit

end Slash.Rep
