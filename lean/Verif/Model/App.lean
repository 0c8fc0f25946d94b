import Verif.Model.ExitCode
/-!
# The application around a session

`app.py` (`Application.__enter__`, `__exit__`, the prelude), `core/session.py:74-103` as far as it changes the process, `utils/warning_capture.py`,
`log.py:382-404`. The exit code is in `Verif.Model.ExitCode`; which configuration values are changed and restored is in `Verif.Model.ConfigOverride` and is a single
value here. Code of users and plugins at each stage is a parameter: what it logs and warns, how it changes the handler of SIGTERM and `warnings.showwarning`, and
what it raises. Warnings and records of the time after the prelude are left out.
-/
namespace Slash.App
open Slash.Exit (Exc)

/-- Where a record of the prelude goes, `app.py:187-191`. -/
inductive Dest where
  | session | console
deriving DecidableEq, Repr

/-- What is changed by the application in its process: the handler of SIGTERM (`none`: one not installed by Python), `warnings.showwarning`, the configuration, the
number of contexts, whether the prelude's log handler is on the stack; records retained and delivered, whether records are retained; warnings recorded and
those of the session; how often `result_summary` and `app_quit` were triggered (`app.py:102-208`). -/
structure World where
  sigterm : Option Nat := some 0
  showwarning : Nat := 0
  config : Nat := 0
  contexts : Nat := 0
  bound : Bool := false
  enabled : Bool := true
  retained : List Nat := []
  delivered : List (Dest × Nat) := []
  recorded : List Nat := []
  warnings : List Nat := []
  summaries : Nat := 0
  quits : Nat := 0
deriving DecidableEq, Repr

/-- A stage of user code (`app.py:110-126`): what it logs, warns about, does to handlers, and raises. -/
structure User where
  logs : List Nat := []
  warns : List Nat := []
  sig : Option Nat → Option Nat := id
  shw : Nat → Nat := id
  exc : Option Exc := none

/-- The effect of a stage (`log.py:393-395`, `app.py:167-168`). -/
def runUser (u : User) (w : World) : World :=
  { w with sigterm := u.sig w.sigterm, showwarning := u.shw w.showwarning, retained := if w.enabled then w.retained ++ u.logs else w.retained,
           recorded := w.recorded ++ u.warns }

/-- Entries of the exit stack: `app.py:106-108,119,130`. -/
inductive Undo where
  | prelude | showwarning (saved : Nat) | sigterm (saved : Option Nat) | config (saved : Nat) | session (saved : Nat)
deriving DecidableEq, Repr

/-- Everything the application meets, `app.py:102-208`. -/
structure Inp where
  /-- the handler of SIGTERM and the callbacks for warnings of the application and of the session, `app.py:107,199`, `warnings.py:35` -/
  appSig : Nat
  appShow : Nat
  sessShow : Nat
  /-- `site.load`, `app.py:110` -/
  site : User := {}
  /-- plugins, parser, parsing, `app.py:112-116` -/
  parse : User := {}
  /-- making the configuration from the arguments, `app.py:118-120` -/
  override : Nat → Nat := id
  overrideExc : Option Exc := none
  /-- hooks and plugins, `app.py:122-127` -/
  configure : User := {}
  /-- what activating the session raises, `session.py:74-88`, after the context has been pushed -/
  activate : Option Exc := none
  /-- whether the session has a log file; which records each destination takes, which it fails for, `app.py:187-191`, `log.py:397-400` -/
  hasLog : Bool := true
  takes : Dest → Nat → Bool := fun _ _ => true
  breaks : Dest → Nat → Bool := fun _ _ => false
  /-- ignored warnings; the hook `warning_added` raising, `app.py:181-182` -/
  ignored : Nat → Bool := fun _ => false
  hook : Nat → Option Exc := fun _ => none
  /-- the block of `with app`, `slash_run.py:35-77` -/
  body : User := {}
  /-- `debug_if_needed`, `app.py:143` -/
  debug : Option Exc := none
  /-- reporting the message, `app.py:150,154` -/
  report : Option Exc := none
  /-- the hooks `result_summary` and `app_quit`, `app.py:160,164` -/
  summary : Option Exc := none
  quit : Option Exc := none
  /-- closing the log files of the session, `session.py:100` -/
  deactivate : Option Exc := none

/-- State while entering: the exit stack, the process, whether the session is active, what was raised (`app.py:102-138`). -/
structure En where
  stack : List Undo
  w : World
  active : Bool := false
  exc : Option Exc := none

/-- A stage of user code and what follows if it does not raise (`app.py:105-132`). -/
def stage (u : User) (k : En → En) (s : En) : En :=
  match u.exc with
  | some e => { s with w := runUser u s.w, exc := some e }
  | none => k { s with w := runUser u s.w }

/-- `flush_to_handler`, `log.py:397-401`: what is delivered, and whether it failed. -/
def flush (i : Inp) (d : Dest) : List Nat → List (Dest × Nat) × Bool
  | [] => ([], false)
  | r :: rs =>
    if i.takes d r then
      if i.breaks d r then ([], true) else ((d, r) :: (flush i d rs).1, (flush i d rs).2)
    else flush i d rs

/-- `_emit_prelude_logs`, `app.py:184-191`. -/
def emitLogs (i : Inp) (s : En) : En :=
  let f := flush i (if s.active && i.hasLog then .session else .console) s.w.retained
  { s with w := { s.w with enabled := false, delivered := s.w.delivered ++ f.1, retained := if f.2 then s.w.retained else [] },
           exc := if f.2 then some .exception else none }

/-- The loop of `_emit_prelude_warnings`, `app.py:178-182`, `warnings.py:52-54`: warnings of the session, what is raised. -/
def emitWarnings (i : Inp) : List Nat → List Nat × Option Exc
  | [] => ([], none)
  | x :: xs =>
    if i.ignored x then emitWarnings i xs
    else
      match i.hook x with
      | some e => ([], some e)
      | none => (x :: (emitWarnings i xs).1, (emitWarnings i xs).2)

/-- The end of entering, `app.py:131-133`. -/
def emit (i : Inp) (s : En) : En :=
  let s := emitLogs i s
  match s.exc with
  | some _ => s
  | none => { s with w := { s.w with warnings := s.w.warnings ++ (emitWarnings i s.w.recorded).1 }, exc := (emitWarnings i s.w.recorded).2 }

/-- Activating the session, `app.py:130`, `session.py:74-88`. -/
def activate (i : Inp) (s : En) : En :=
  let w := { s.w with contexts := s.w.contexts + 1 }
  match i.activate with
  | some e => { s with w := w, exc := some e }
  | none => emit i { s with stack := .session w.showwarning :: s.stack, w := { w with showwarning := i.sessShow }, active := true }

/-- The configuration and what follows, `app.py:118-133`. -/
def configure (i : Inp) (s : En) : En :=
  match i.overrideExc with
  | some e => { s with exc := some e }
  | none => stage i.configure (activate i) { s with stack := .config s.w.config :: s.stack, w := { s.w with config := i.override s.w.config } }

/-- The block of `__enter__`, `app.py:105-133`. -/
def enter (i : Inp) (w : World) : En :=
  stage i.site (stage i.parse (configure i))
    { stack := [.sigterm w.sigterm, .showwarning w.showwarning, .prelude],
      w := { w with bound := true, enabled := true, showwarning := i.appShow, sigterm := some i.appSig } }

/-- Leaving the exit stack, `app.py:161`: all entries, whatever they raise. A session is deactivated by `session.py:90-103`; the handler of SIGTERM is
set by `app.py:194-208`, which cannot set a handler that was not installed by Python. -/
def unwind (i : Inp) : List Undo → World → World × Option Exc
  | [], w => (w, none)
  | .prelude :: st, w => unwind i st { w with bound := false }
  | .showwarning v :: st, w => unwind i st { w with showwarning := v }
  | .sigterm (some h) :: st, w => unwind i st { w with sigterm := some h }
  | .sigterm none :: st, w => unwind i st w
  | .config v :: st, w => unwind i st { w with config := v }
  | .session v :: st, w =>
    match i.deactivate with
    | some e => ((unwind i st { w with showwarning := v }).1, some ((unwind i st { w with showwarning := v }).2.getD e))
    | none => unwind i st { w with showwarning := v, contexts := w.contexts - 1 }

/-- Whether a raised `debug_if_needed` gets out (`app.py:142-145`). -/
def escapes : Option Exc → Option Exc
  | none => none
  | some .exception => none
  | some e => some e

/-- `__exit__` from the exit stack on, `app.py:161-165`. -/
def leave (i : Inp) (s : En) : World × Option Exc :=
  let r := unwind i s.stack s.w
  match r.2 with
  | some e => (r.1, some e)
  | none => ({ r.1 with quits := r.1.quits + 1 }, i.quit)

/-- `__exit__`, `app.py:140-165`: what it raises. -/
def exit (i : Inp) (e : Option Exc) (s : En) : World × Option Exc :=
  match escapes i.debug with
  | some x => (s.w, some x)
  | none =>
    match e with
    | none => leave i s
    | some e =>
      match if e = .exception then i.report else none with
      | some x => (s.w, some x)
      | none =>
        let w := { s.w with summaries := s.w.summaries + 1 }
        match i.summary with
        | some x => (w, some x)
        | none => leave i { s with w := w }

/-- `with app`, `app.py:102-165`: the process afterwards and what gets out. -/
def withApp (i : Inp) (w : World) : World × Option Exc :=
  let s := enter i w
  match s.exc with
  | none => exit i i.body.exc { s with w := runUser i.body s.w }
  | some e =>
    let s := emitLogs i s
    match s.exc with
    | some x => (s.w, some x)
    | none =>
      let r := exit i (some e) s
      (r.1, some (r.2.getD e))

end Slash.App
