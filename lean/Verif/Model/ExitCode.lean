import Verif.Model.Result
/-!
# The exit code of `slash run` (`slash/frontend/slash_run.py`, `slash/app.py`, `slash/frontend/main.py`)

What happens inside (reading `.slashrc`, parsing arguments, hooks, loading, running) is given by parameters that say what
it raises and which results it leaves. `handling_exceptions` in `slash_run.py:38` passes every exception on (see
`Verif.Model.Exc`). `app_callback` (not used by the command line) does not set the exit code.
-/
namespace Slash.Exit

/-- The code of SystemExit and of the application: None, an integer, or another object; `app.py:43,147`. -/
inductive Code where
  | none | int (n : Int) | obj
deriving DecidableEq, Repr

/-- The status with which `sys.exit(code)` ends the process, `frontend/main.py:71` (None counts as 0, objects are printed
and count as 1). -/
def Code.status : Code → Int
  | .none => 0
  | .int n => n
  | .obj => 1

/-- What can be raised: an Exception; SystemExit; KeyboardInterrupt or TerminatedException (`exceptions.py`), which are
not Exceptions. -/
inductive Exc where
  | exception
  | systemExit (c : Code)
  | interruption
deriving DecidableEq, Repr

/-- The exit code assigned when the application is left by an exception, `app.py:146-147`. -/
def exitCodeOf : Exc → Code
  | .systemExit c => c
  | _ => .int 1

/-- What `slash run` gets from its environment (`slash_run.py:18-82`). Tests are numbers. -/
structure Inp where
  /-- what `Application.__enter__` raises, `app.py:105-138` -/
  enter : Option Exc := none
  /-- what `Application.__exit__` itself raises (hooks, the session's exit), given what it was called with, `app.py:140-165` -/
  exit : Option Exc → Option Exc := fun _ => none
  /-- `app_callback`, `slash_run.py:36` -/
  callback : Option Exc := none
  /-- checks, tmux, connection of workers, `slash_run.py:39-48` -/
  prepare : Option Exc := none
  /-- whether this is `slash resume` or `slash rerun`, with the tests of the previous sessions, `slash_run.py:49-55` -/
  resume : Option (Except Exc (List Nat)) := none
  /-- paths on the command line, `slash_run.py:103` -/
  positional : List Nat := []
  /-- what the configured suite files give, `slash_run.py:119-125` -/
  suites : Except Exc (List Nat) := .ok []
  /-- `config.root.run.default_sources`, `slash_run.py:108` -/
  defaults : List Nat := []
  interactive : Bool := false
  /-- `get_runnables(paths, prepend_interactive)`, `slash_run.py:56,113` -/
  load : List Nat → Bool → Except Exc (List Nat) := fun l _ => .ok l
  /-- whether this is a parallel worker, `slash_run.py:61,73` -/
  child : Bool := false
  /-- running the tests: what it raises, and the results of the session after it, `slash_run.py:61-70` -/
  run : List Nat → Option Exc × SessionResults
  /-- the results if nothing is run -/
  results : SessionResults := {}
  /-- `save_resume_state` and `clean_old_entries`, `slash_run.py:73-75` -/
  save : Option Exc := none

/-- `_collect_tests`, `slash_run.py:102-117`. -/
def collectTests (i : Inp) : Except Exc (List Nat) :=
  match i.suites with
  | .error e => .error e
  | .ok s =>
    let paths := i.positional ++ s
    let paths := if paths.isEmpty && !i.interactive then i.defaults else paths
    if paths.isEmpty && !i.interactive then .error .exception
    else
      match i.load paths i.interactive with
      | .error e => .error e
      | .ok l => if l.isEmpty then .error .exception else .ok l

/-- `slash_run.py:49-60`. -/
def collect (i : Inp) : Except Exc (List Nat) :=
  match i.resume with
  | some (.error e) => .error e
  | some (.ok l) => i.load l i.interactive
  | none => collectTests i

/-- The block between `try` and `finally`, `slash_run.py:37-70`. -/
def attempt (i : Inp) : Option Exc × SessionResults :=
  match i.prepare with
  | some e => (some e, i.results)
  | none =>
    match collect i with
    | .error e => (some e, i.results)
    | .ok l => i.run l

/-- The block inside of `with app`, `slash_run.py:35-77`: what it raises, and the exit code set by it. -/
def body (i : Inp) : Option Exc × Code :=
  match i.callback with
  | some e => (some e, .int 0)
  | none =>
    let (e, res) := attempt i
    let saveErr := if i.child then none else i.save
    match saveErr.or e with
    | some e => (some e, .int 0)
    | none => (none, if !res.isSuccess true then .int 1 else .int 0)

/-- `Application.__exit__`, `app.py:140-165`, called with an exception or none: what it raises and the exit code. It
returns True, so that the exception does not go further. -/
def appExit (i : Inp) (e : Option Exc) (code : Code) : Option Exc × Code :=
  let code := match e with
    | none => code
    | some e => exitCodeOf e
  (i.exit e, code)

/-- `with app:` around the block, `slash_run.py:34-77`, `app.py:102-165`: what it raises and the exit code. -/
def withApp (i : Inp) : Option Exc × Code :=
  match i.enter with
  | some e =>
    let (x, code) := appExit i (some e) (.int 0)
    (some (x.getD e), code)
  | none =>
    let (e, code) := body i
    appExit i e code

/-- How `slash_run` ends (`slash_run.py:78-82`): it returns the application with an exit code, or raises. -/
inductive Outcome where
  | returned (c : Code)
  | raised (e : Exc)
deriving DecidableEq, Repr

/-- `slash_run`, `slash_run.py:33-82`: an Exception is caught, and then it is asserted that the exit code is not 0. -/
def slashRun (i : Inp) : Outcome :=
  match withApp i with
  | (none, code) => .returned code
  | (some .exception, code) => if code ≠ .int 0 then .returned code else .raised .exception
  | (some e, _) => .raised e

/-- The status of the process, `frontend/main.py:37-50,66-71`; an exception other than SystemExit that leaves the program
gives a nonzero status. -/
def status (i : Inp) : Int :=
  match slashRun i with
  | .returned c => c.status
  | .raised (.systemExit c) => c.status
  | .raised _ => 1

end Slash.Exit
