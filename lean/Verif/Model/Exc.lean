/-!
# Exception handling (`slash/exception_handling.py`, `slash/assertions.py`,
`slash/utils/exception_mark.py`, `Result.add_exception`)

User code is a script `Prog`; `eval` runs it the way CPython runs the corresponding `with`/`try`
statements.  `isinstance` is an arbitrary relation (`Hier.isa`), so every class hierarchy, including
multiple inheritance, is covered.
-/
namespace Slash.Exc

/-- The exception classes slash distinguishes, over an arbitrary type `T` of classes.
Mirrors: `slash/exceptions.py:12` (INTERRUPTION_EXCEPTIONS), `slash/exceptions.py:130`
(FAILURE_EXCEPTION_TYPES), `slash/core/session.py:53,61-65` (skip types, extensible by
`register_skip_exception`), Python builtins `Exception` and `GeneratorExit`.
`isa c d` is `issubclass(c, d)`. -/
structure Hier (T : Type) where
  isa : T → T → Bool
  exception : T
  genExit : T
  failureTypes : List T
  skipTypes : List T
  interruptTypes : List T
  notCaught : T

/-- An exception object: identity and class. Marks live in the state (`St.marks`), because Python
marks are attributes of the (mutable) object: `slash/utils/exception_mark.py:5-31`. -/
structure Exc (T : Type) where
  id : Nat
  cls : T
deriving DecidableEq

/-- `isinstance(e, types)` as used in `exception_handling.py:122,133,135`. -/
def Hier.inst {T : Type} (H : Hier T) (e : Exc T) (ts : List T) : Bool := ts.any (H.isa e.cls)

/-- The marks used by the modelled functions: "handled" (`exception_handling.py:167-175`),
"swallow" (`exception_handling.py:186,198`), "added_to_result" (`core/result.py:24`).
Class-level marks are modelled separately in `Verif.Model.ExcMark`. -/
structure Marks where
  handled : Bool := false
  swallow : Bool := true
  added : Bool := false

/-- What a result remembers about an exception. `core/result.py:93-117`. -/
inductive Entry where
  | failure | skip | interruption | error
deriving DecidableEq, Repr

/-- Observable effects, in order. `before`/`after` are the hooks
`exception_caught_before_debugger` / `exception_caught_after_debugger`
(`exception_handling.py:34-39`), `entry` is an addition to the current result, `caught` is the
assignment `caught.exception = e` visible to the user of `assert_raises` (`assertions.py:37`). -/
inductive Ev where
  | before (id : Nat)
  | after (id : Nat)
  | entry (id : Nat) (k : Entry)
  | caught (id : Nat)
deriving DecidableEq, Repr

/-- What exception handling reads and writes: marks (`utils/exception_mark.py:5-31`), the ignored types of
`exception_handling.py:50-53`, and the trace of effects. -/
structure St (T : Type) where
  /-- marks attached to exception objects -/
  marks : Nat → Marks
  /-- `_ignored_state.ignored_exception_types` (thread local), `exception_handling.py:50-53` -/
  ignored : List T
  /-- trace of observable effects, oldest first -/
  trace : List Ev

/-- Environment: whether a session is active, and what the two exception hooks raise (if anything)
when called for a given exception. `exception_handling.py:24,34-39`. -/
structure Env (T : Type) where
  H : Hier T
  hasSession : Bool
  beforeRaises : Exc T → Option (Exc T)
  afterRaises : Exc T → Option (Exc T)

variable {T : Type}

/-- `mark_exception` on an instance, `utils/exception_mark.py:5-12`. -/
def St.setMarks (st : St T) (id : Nat) (m : Marks) : St T :=
  { st with marks := fun i => if i = id then m else st.marks i }

/-- Ghost: appends to the trace of `exception_handling.py:23-39`. -/
def St.emit (st : St T) (ev : Ev) : St T := { st with trace := st.trace ++ [ev] }

/-- The classification cascade of `Result.add_exception`, `core/result.py:93-117`. -/
def classify (H : Hier T) (e : Exc T) : Option Entry :=
  if H.inst e H.failureTypes then some .failure
  else if H.inst e H.skipTypes then some .skip
  else if H.inst e H.interruptTypes then some .interruption
  else if !(H.inst e [H.genExit]) then some .error
  else none

/-- `Result.add_exception`, `core/result.py:82-117`. The hooks `interruption_added`,
`test_interrupt` and `error_added` are assumed not to raise. -/
def addException (H : Hier T) (e : Exc T) (st : St T) : St T :=
  if (st.marks e.id).added then st
  else
    let st := st.setMarks e.id { st.marks e.id with added := true }
    match classify H e with
    | some k => st.emit (.entry e.id k)
    | none => st

/-- `update_current_result`, `exception_handling.py:23-31`. -/
def updateCurrentResult (E : Env T) (e : Exc T) (st : St T) : St T :=
  if E.hasSession then addException E.H e st else st

/-- `handle_exception` with its list of handlers, `exception_handling.py:42-47,141-164`.
The debugger (`debug_if_needed`) is left out. Returns the exception raised by a hook, if any. -/
def handleException (E : Env T) (e : Exc T) (st : St T) : Option (Exc T) × St T :=
  if (st.marks e.id).handled then (none, st)
  else
    let st := st.setMarks e.id { st.marks e.id with handled := true }
    let st := updateCurrentResult E e st
    let st := st.emit (.before e.id)
    match E.beforeRaises e with
    | some e' => (some e', st)
    | none => (E.afterRaises e, st.emit (.after e.id))

/-- Keyword arguments of `handling_exceptions`, `exception_handling.py:72-99`. -/
structure Cfg (T : Type) where
  swallow : Bool := false
  swallowTypes : List T := []
  passthrough : List T := []

/-- `swallow_types` as computed in `exception_handling.py:93-96`. -/
def Cfg.effSwallow (H : Hier T) (c : Cfg T) : List T :=
  if c.swallow then c.swallowTypes ++ [H.exception] else c.swallowTypes

/-- The skip exception types consulted on exit: none without a session,
`exception_handling.py:132`. -/
def Env.skipTypes (E : Env T) : List T := if E.hasSession then E.H.skipTypes else []

/-- `_HandlingException.__exit__` for a raised `e`, `exception_handling.py:117-138`.
`pass` is the pass-through tuple computed on entry (line 98).  The traceback proxying of lines
125-129 is left out.  The first component is the exception that leaves the context. -/
def handlingExit (E : Env T) (c : Cfg T) (pass : List T) (e : Exc T) (st : St T) :
    Option (Exc T) × St T :=
  if E.H.inst e pass then (some e, st)
  else
    match handleException E e st with
    | (some e', st) => (some e', st)
    | (none, st) =>
      if E.H.inst e E.skipTypes || E.H.inst e E.H.interruptTypes then (some e, st)
      else if E.H.inst e (c.effSwallow E.H) then (none, st)
      else (some e, st)

/-- Scripts of user code using the API of `exception_handling.py:56-99,141-199,238-253` and `assertions.py:31-49`. -/
inductive Prog (T : Type) where
  /-- does nothing -/
  | done
  | raise (e : Exc T)
  | seq (p q : Prog T)
  /-- `try: p finally: q` -/
  | tryFinally (p q : Prog T)
  /-- `try: p except ts: q` -/
  | tryExcept (ts : List T) (p q : Prog T)
  /-- `with handling_exceptions(**cfg): p` -/
  | handling (c : Cfg T) (p : Prog T)
  /-- `with assert_raises(ts): p`; `nc` is the `ExpectedExceptionNotCaught` object created if
  nothing is raised -/
  | assertRaises (ts : List T) (nc : Nat) (p : Prog T)
  /-- `with allowing_exceptions(ts): p` -/
  | allowing (ts : List T) (p : Prog T)
  /-- `with get_exception_swallowing_context(): p` -/
  | swallowing (p : Prog T)
  /-- `result.add_exception()` for an exception object at hand, followed by nothing -/
  | record (e : Exc T)
  /-- `noswallow(e)`, or `disable_exception_swallowing(e)` -/
  | noswallow (e : Exc T)
  /-- a call of a function decorated with `disable_exception_swallowing`, whose body is `p` -/
  | decorated (p : Prog T)

/-- `_CaughtContext.__exit__` after the ignore context was left, `assertions.py:31-49`. -/
def caughtExit (H : Hier T) (ts : List T) (ensure : Bool) (nc : Nat) (o : Option (Exc T))
    (st : St T) : Option (Exc T) × St T :=
  match o with
  | some e => if H.inst e ts then (none, st.emit (.caught e.id)) else (some e, st)
  | none => if ensure then (some { id := nc, cls := H.notCaught }, st) else (none, st)

/-- Runs a script (`exception_handling.py:56-138,178-199,238-253`, `assertions.py:31-49`). The first component is the escaping exception. -/
def eval (E : Env T) : Prog T → St T → Option (Exc T) × St T
  | .done, st => (none, st)
  | .raise e, st => (some e, st)
  | .seq p q, st =>
    match eval E p st with
    | (none, st) => eval E q st
    | (some e, st) => (some e, st)
  | .tryFinally p q, st =>
    match eval E p st with
    | (o, st) =>
      match eval E q st with
      | (some e, st) => (some e, st)
      | (none, st) => (o, st)
  | .tryExcept ts p q, st =>
    match eval E p st with
    | (some e, st) => if E.H.inst e ts then eval E q st else (some e, st)
    | (none, st) => (none, st)
  | .handling c p, st =>
    let pass := c.passthrough ++ st.ignored      -- exception_handling.py:98
    match eval E p st with
    | (some e, st) => handlingExit E c pass e st
    | (none, st) => (none, st)
  | .assertRaises ts nc p, st =>
    -- assertions.py:26-29 and exception_handling.py:63-69
    let prev := st.ignored
    match eval E p { st with ignored := st.ignored ++ ts } with
    | (o, st) => caughtExit E.H ts true nc o { st with ignored := prev }
  | .allowing ts p, st =>
    let prev := st.ignored
    match eval E p { st with ignored := st.ignored ++ ts } with
    | (o, st) => caughtExit E.H ts false 0 o { st with ignored := prev }
  | .swallowing p, st =>
    -- exception_handling.py:178-190 (bare `except:`)
    match eval E p st with
    | (some e, st) => if (st.marks e.id).swallow then (none, st) else (some e, st)
    | (none, st) => (none, st)
  | .record e, st => (none, addException E.H e st)
  | .noswallow e, st =>
    (none, st.setMarks e.id { st.marks e.id with swallow := false })   -- exception_handling.py:193-199
  | .decorated p, st =>
    -- exception_handling.py:246-253
    match eval E p st with
    | (some e, st) => (some e, st.setMarks e.id { st.marks e.id with swallow := false })
    | (none, st) => (none, st)

end Slash.Exc
