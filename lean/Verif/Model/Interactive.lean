import Verif.Model.Exc
import Verif.Model.Runner
/-!
# The interactive shell: `slash/utils/interactive.py:17-53`

Lines are typed one after the other; each is fine or raises an exception.

Simplifications: IPython is modelled by what its documentation says about custom exception handlers: the handler is called for exceptions of the
types given, a handler that raises is dropped for good, and a shell whose `exit_now` is set reads no more lines. Exceptions of other types
(`KeyboardInterrupt`, `SystemExit`) stay in IPython. Displaying tracebacks and choosing colors is left out.
-/
namespace Slash.Shell
open Slash.Exc

/-- The names of a shell, or the attributes of an object, `utils/interactive.py:46-47`. -/
abbrev Names := String → Option Nat

/-- `start_interactive_shell`, `utils/interactive.py:46-50`: the names of the shell. `kw`: the keyword arguments; `g`: the attributes of
`slash.g`, `none` without a session; `expose`: `interactive.expose_g_globals`; `hook`: what `before_interactive_shell` hooks make of the names. -/
def names (kw : Names) (g : Option Names) (expose : Bool) (hook : Names → Names) : Names :=
  match g with
  | none => hook kw
  | some g => if expose then hook (fun n => (g n).or (kw n)) else hook kw

/-- An exception that leaves a line, with the file names of its traceback, the innermost frame last. `utils/interactive.py:18-19,34-37`. -/
structure Raised (T : Type) where
  exc : Exc T
  frames : List (List Char)

/-- What a line does, `utils/interactive.py:30`. -/
inductive Line (T : Type)
  | fine
  | raises (r : Raised T)

/-- `_is_exception_in_ipython_eval`, `utils/interactive.py:34-37`. -/
def isEval (frames : List (List Char)) : Bool :=
  match frames.getLast? with
  | none => false
  | some f => "<ipython".toList.isPrefixOf (f.map Char.toLower)

/-- The shell: the state of exception handling (`exception_handling.py:23-53`), the number of errors added for terminations
(`utils/interactive.py:24`), `exit_now` (25), and whether IPython dropped the handler. -/
structure S (T : Type) where
  ex : St T
  terminated : Nat := 0
  exit : Bool := false
  dropped : Bool := false

variable {T : Type}

/-- `_handle_exception`, `utils/interactive.py:18-25`; `term` is `TerminatedException`. Without a session, `context.result` is `None`. -/
def onException (E : Env T) (term : T) (r : Raised T) (s : S T) : S T :=
  match if isEval r.frames then (none, s.ex) else handleException E r.exc s.ex with
  | (some _, ex) => { s with ex := ex, dropped := true }
  | (none, ex) =>
    if E.H.inst r.exc [term] then
      if E.hasSession then { s with ex := ex, terminated := s.terminated + 1, exit := true }
      else { s with ex := ex, dropped := true }
    else { s with ex := ex }

/-- One line, with the exception types of `utils/interactive.py:30`. -/
def line (E : Env T) (term : T) (l : Line T) (s : S T) : S T :=
  match l with
  | .fine => s
  | .raises r => if !s.dropped && E.H.inst r.exc [E.H.exception, term] then onException E term r s else s

/-- The lines of a shell until it ends, `utils/interactive.py:30-31`; the lines not read any more. -/
def run (E : Env T) (term : T) : List (Line T) → S T → S T × List (Line T)
  | [], s => (s, [])
  | l :: ls, s => if (line E term l s).exit then (line E term l s, ls) else run E term ls (line E term l s)

/-- The effect of a recorded exception on the result of the interactive test, `core/result.py:93-117`. -/
def entryEv : Entry → List Runner.UEv
  | .failure => [.cur (.fail false)]
  | .skip => [.cur (.skip "")]
  | .interruption => [.cur .interrupt, .glob .interrupt]
  | .error => [.cur (.err false)]

/-- What the trace of exception handling does to results, `core/result.py:93-117`. -/
def evEv : Ev → List Runner.UEv
  | .entry _ k => entryEv k
  | _ => []

/-- The function of the interactive test, `utils/interactive.py:52-53`: whatever happened in the shell, it returns. -/
def testBody (s : S T) : Runner.Step :=
  { evs := s.ex.trace.flatMap evEv ++ List.replicate s.terminated (.cur (.err false)), raises := none }

end Slash.Shell
