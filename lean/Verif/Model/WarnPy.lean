import Verif.Model.Warnings
/-!
# From `warnings.warn` to the warnings of the session (`slash/warnings.py`, `slash/utils/warning_capture.py`)

Python's `warnings` module (filters, `showwarning`, `catch_warnings`, the registry of what was shown) and what slash puts into it: `simplefilter('always')`,
`filterwarnings('ignore', category=ImportWarning)`, its own `showwarning`, which records the warning and logs it, and the log handler, which turns records of
level warning into warnings. The two feed each other, so that everything has fuel. Classes are numbers and `issubclass` is a parameter. What Python's filters test
beside the category (message, module, line) is a numbered predicate. Exceptions in a log handler are printed by `logbook`, not raised. The handlers
between a logger and the one for warnings are in `Verif.Model.Log`.
-/
namespace Slash.WarnPy
open Slash.Warn (Filter Pat catFails patFails lineFails)

/-- The first argument of a warning object, `warnings.py:117-118`: none, a string, something else. -/
inductive Msg
  | none | str (s : List Char) | other
deriving DecidableEq, Repr

/-- A warning given to `showwarning`, `warnings.py:44`. -/
structure PW where
  cat : Nat
  msg : Msg
  file : List Char
  line : Nat
deriving DecidableEq, Repr

/-- The actions of Python's filters; `once` stands for those that look at the registry (`warnings.py:18-19` uses the second and the third one). -/
inductive Action
  | error | ignore | always | once
deriving DecidableEq, Repr

/-- A filter of Python's, see `warnings.py:18-19`: its action, its category, and what else it tests. -/
structure PF where
  action : Action
  cat : Nat
  more : Option Nat := none
deriving DecidableEq, Repr

/-- Who shows warnings: Python itself, the session, a function of someone else (`warning_capture.py:20-21`). -/
inductive Show
  | python | session | user (n : Nat)
deriving DecidableEq, Repr

/-- What is raised: the warning itself by a filter, IndexError (`warnings.py:118`), TypeError (158), what the hook `warning_added` raises (53), something of the
user's, or RecursionError. -/
inductive Err
  | warning | index | type | hook | user | recursion
deriving DecidableEq, Repr

/-- What happens: a warning is added to the session (`warnings.py:54`), it is logged (50), a record is logged by someone else, a warning is shown by someone else,
`logbook` prints an exception of a handler. -/
inductive Ev
  | recorded (w : PW) | native (w : PW) | record (s : List Char) | shown (s : Show) (w : PW) | printed (e : Err)
deriving DecidableEq, Repr

/-- What does not change: `issubclass`, the classes `Warning`, `ImportWarning` and `LogbookWarning` (`warnings.py:19,21`), what filters test beside the category, the
filters of `slash.ignore_warnings` (191), which warnings the hook raises for (53). -/
structure Env where
  sub : Nat → Nat → Bool
  warning : Nat
  importWarning : Nat
  logbook : Nat
  more : Nat → PW → Bool
  ignored : List Filter
  hookRaises : PW → Bool

/-- Python's filters, the registry, `showwarning`, and what happened (`warning_capture.py:20-21`). -/
structure World where
  filters : List PF
  seen : List PW := []
  show_ : Show := .python
  trace : List Ev := []

/-- Something happens (ghost, `warnings.py:44-54`). -/
def World.emit (w : World) (e : Ev) : World := { w with trace := w.trace ++ [e] }

/-- `_add_filter` of Python as called by `warnings.py:18-19`: the same filter is removed first; the registry is no longer valid. -/
def addFilter (f : PF) (w : World) : World := { w with filters := f :: w.filters.erase f, seen := [] }

/-- `capture_all_warnings`, `warnings.py:17-19`. -/
def captureAll (E : Env) (w : World) : World := addFilter ⟨.ignore, E.importWarning, none⟩ (addFilter ⟨.always, E.warning, none⟩ w)

/-- Whether a filter of Python's applies (`warn_explicit`, see `warnings.py:88`). -/
def PF.applies (E : Env) (f : PF) (x : PW) : Bool :=
  E.sub x.cat f.cat && (match f.more with | none => true | some n => E.more n x)

/-- The action for a warning: the first filter that applies, else the default action (`warn_explicit`, see `warnings.py:88`). -/
def action (E : Env) (fs : List PF) (x : PW) : Action :=
  match fs.find? (fun f => f.applies E x) with
  | some f => f.action
  | none => .once

/-- `_IgnoredWarning.matches`, `warnings.py:162-175`, for any message; `none`: TypeError, as a regular expression is applied to something that is no string (158). -/
def matches_ (sub : Nat → Nat → Bool) (f : Filter) (x : PW) : Option Bool :=
  if catFails sub f.category x.cat then some false
  else if patFails f.filename x.file then some false
  else if lineFails f.lineno x.line then some false
  else
    match x.msg, f.message with
    | .str s, p => some (!patFails p s)
    | _, none => some true
    | _, some (.str p) => some p.isEmpty
    | _, some (.regex _) => none

/-- `warning_should_be_filtered`, `warnings.py:38-42`. -/
def shouldFilter (sub : Nat → Nat → Bool) : List Filter → PW → Option Bool
  | [], _ => some false
  | f :: fs, x =>
    match matches_ sub f x with
    | none => none
    | some true => some true
    | some false => shouldFilter sub fs x

/-- A warning made from a log record, `warnings.py:87-89`. -/
def ofRecord (E : Env) (s : List Char) (file : List Char) (line : Nat) : PW := { cat := E.logbook, msg := .str s, file := file, line := line }

/-- What is logged: by the logger of native warnings, or by another one; at level warning or not (`warnings.py:15,81-85`). -/
inductive Rec
  | native (x : PW) | other (warning : Bool) (s : List Char) (file : List Char) (line : Nat)
deriving DecidableEq, Repr

mutual
/-- `warnings.warn`, `warnings.warn_explicit` of Python, as called by users and by `warnings.py:88`. -/
def warn (E : Env) : Nat → PW → World → Option Err × World
  | 0, _, w => (some .recursion, w)
  | n + 1, x, w =>
    match action E w.filters x with
    | .error => (some .warning, w)
    | .ignore => (none, w)
    | .always => show_ E n x w
    | .once => if w.seen.contains x then (none, w) else show_ E n x { w with seen := x :: w.seen }
/-- `warnings.showwarning`: `_capture_native_warning` in a session, `warnings.py:44-54`. -/
def show_ (E : Env) : Nat → PW → World → Option Err × World
  | 0, _, w => (some .recursion, w)
  | n + 1, x, w =>
    match w.show_ with
    | .session =>
      if x.msg = .none then (some .index, w)
      else
        match shouldFilter E.sub E.ignored x with
        | none => (some .type, w)
        | some true => (none, w)
        | some false =>
          if E.hookRaises x then (some .hook, w)
          else if E.sub x.cat E.logbook then (none, w.emit (.recorded x))
          else log E n (.native x) (w.emit (.recorded x))
    | s => (none, w.emit (.shown s x))
/-- A logger is called: `WarnHandler.should_handle` and `emit`, `warnings.py:81-89`. -/
def log (E : Env) : Nat → Rec → World → Option Err × World
  | 0, _, w => (some .recursion, w)
  | _ + 1, .native x, w => (none, w.emit (.native x))
  | n + 1, .other warning s file line, w =>
    if warning then
      match warn E n (ofRecord E s file line) (w.emit (.record s)) with
      | (some e, w) => (none, w.emit (.printed e))
      | (none, w) => (none, w)
    else (none, w.emit (.record s))
end

/-- Code that runs in a session: it warns, logs, changes Python's filters or `showwarning`, uses `catch_warnings` around a block, tries a block, raises (see
`warning_capture.py:5-8`). -/
inductive Act
  | warn (x : PW)
  | log (warning : Bool) (s : List Char) (file : List Char) (line : Nat)
  | filter (f : PF)
  | setShow (n : Nat)
  | catching (record : Bool) (body : List Act)
  | attempt (body : List Act)
  | raise

/-- Fuel that is always enough, see `C184_no_loop` (`warnings.py:44-54,87-89`). -/
def fuel : Nat := 3

mutual
/-- One action (`warnings.py:44-54,81-89`; `catch_warnings` restores filters and `showwarning`, whether the block raises or not). -/
def exec (E : Env) : Act → World → Option Err × World
  | .warn x, w => warn E fuel x w
  | .log b s f l, w => log E fuel (.other b s f l) w
  | .filter f, w => (none, addFilter f w)
  | .setShow n, w => (none, { w with show_ := .user n })
  | .catching record body, w =>
    let r := execAll E body { w with seen := [], show_ := if record then .user 0 else w.show_ }
    (r.1, { r.2 with filters := w.filters, show_ := w.show_, seen := [] })
  | .attempt body, w => (none, (execAll E body w).2)
  | .raise, w => (some .user, w)
/-- A block, up to the first exception (`warnings.py:33-36`). -/
def execAll (E : Env) : List Act → World → Option Err × World
  | [], w => (none, w)
  | a :: as, w =>
    match exec E a w with
    | (some e, w) => (some e, w)
    | (none, w) => execAll E as w
end

/-- `SessionWarnings.capture_context` around code, `warnings.py:32-36`, `warning_capture.py:16-26`, `core/session.py:86-87,97-98`. -/
def session (E : Env) (body : List Act) (w : World) : Option Err × World :=
  let w1 := captureAll E w
  let r := execAll E body { w1 with show_ := .session }
  (r.1, { r.2 with show_ := w1.show_ })

end Slash.WarnPy
