import Verif.Model.Exc
/-!
# Exception types registered as skips (`slash/utils/__init__.py`, `slash/core/session.py`, `slash/runner.py`)

`slash.register_skip_exception` may be called at any moment of a session: in a hook, in a fixture, in a test, between raising an
exception and handling it. So here the skip types are part of the state of the scripts, not a constant as in `Verif.Model.Exc`, whose
functions are used with the types registered at the moment. Contexts for expected exceptions and for swallowing everything are left
out here (they do not look at the skip types), as are calls without an active session and the debugger.
-/
namespace Slash.SkipReg

open Slash.Exc

/-- Scripts of user code and of the runner, `exception_handling.py:72-138`, `runner.py:97-127,159-187`,
`utils/__init__.py:32-39`. -/
inductive Prog (T : Type) where
  /-- does nothing -/
  | done
  | raise (e : Exc T)
  /-- `slash.register_skip_exception(t)` -/
  | register (t : T)
  | seq (p q : Prog T)
  /-- `try: p finally: q` -/
  | tryFinally (p q : Prog T)
  /-- `try: p except ts: q` -/
  | tryExcept (ts : List T) (p q : Prog T)
  /-- `with handling_exceptions(**cfg): p` -/
  | handling (c : Cfg T) (p : Prog T)
  /-- `try: p except context.session.get_skip_exception_types(): pass` -/
  | exceptSkip (p : Prog T)
  /-- the flag that `TestStartEndController.start` sets -/
  | started
  /-- `TestStartEndController.end`: `p` if the flag is set, which is taken back -/
  | ifStarted (p : Prog T)

/-- The state: that of exception handling (`exception_handling.py:23-53`) `Session._skip_exc_types` (`core/session.py:53`) and
`TestStartEndController._started` (`runner.py:164`). -/
structure S (T : Type) where
  st : St T
  skip : List T
  started : Bool := false

variable {T : Type}

/-- What exception handling sees: the skip types are looked up when they are needed, `exception_handling.py:132`, `core/result.py:95`,
`core/session.py:64-65`. -/
def now (E : Env T) (skip : List T) : Env T := { E with H := { E.H with skipTypes := skip } }

/-- Runs a script, `exception_handling.py:117-138`, `runner.py:116,126,169-187`, `core/session.py:61-62`. The first component is the escaping
exception. The expression after `except` is evaluated when there is an exception to compare with. -/
def eval (E : Env T) : Prog T → S T → Option (Exc T) × S T
  | .done, s => (none, s)
  | .raise e, s => (some e, s)
  | .register t, s => (none, { s with skip := s.skip ++ [t] })
  | .seq p q, s =>
    match eval E p s with
    | (none, s) => eval E q s
    | (some e, s) => (some e, s)
  | .tryFinally p q, s =>
    match eval E p s with
    | (o, s) =>
      match eval E q s with
      | (some e, s) => (some e, s)
      | (none, s) => (o, s)
  | .tryExcept ts p q, s =>
    match eval E p s with
    | (some e, s) => if E.H.inst e ts then eval E q s else (some e, s)
    | (none, s) => (none, s)
  | .handling c p, s =>
    let pass := c.passthrough ++ s.st.ignored
    match eval E p s with
    | (some e, s) =>
      match handlingExit (now E s.skip) c pass e s.st with
      | (o, st) => (o, { s with st := st })
    | (none, s) => (none, s)
  | .exceptSkip p, s =>
    match eval E p s with
    | (some e, s) => if E.H.inst e s.skip then (none, s) else (some e, s)
    | (none, s) => (none, s)
  | .started, s => (none, { s with started := true })
  | .ifStarted p, s => if s.started then eval E p { s with started := false } else (none, s)

/-- A test: what runs when its scopes are opened (`begin_test`), when its start is announced, its body, what runs when its scopes are
closed (`end_test`), when its outcome and when its end is announced, `runner.py:105-118,169-187`. -/
structure Test (T : Type) where
  opening : Prog T := .done
  start : Prog T := .done
  body : Prog T
  closing : Prog T := .done
  summary : Prog T := .done
  ended : Prog T := .done

/-- `handling_exceptions(swallow=True)`, `exception_handling.py:93-96`. -/
def guarded (p : Prog T) : Prog T := .handling { swallow := true } p

/-- `_run_single_test`, `runner.py:90-127`, of a test whose requirements are met, in a session whose cleanup comes later. -/
def Test.prog (t : Test T) : Prog T :=
  guarded (.tryFinally
    (.exceptSkip (.seq
      (.exceptSkip (guarded (.seq t.opening (.tryFinally (.seq (.seq .started t.start) (guarded t.body)) t.closing))))
      t.summary))
    (.ifStarted t.ended))

/-- The loop over the tests, `runner.py:36-69`, without the options that stop it: the events of each test that was run, the exception
that ended the loop, if any, and the skip types at the end. -/
def runTests (E : Env T) : List (Test T) → S T → List (List Ev) × Option (Exc T) × S T
  | [], s => ([], none, s)
  | t :: ts, s =>
    match eval E t.prog { s with st := { s.st with trace := [] }, started := false } with
    | (some e, s) => ([s.st.trace], some e, s)
    | (none, s) => match runTests E ts s with
      | (evs, o, s') => (s.st.trace :: evs, o, s')

/-- The state in which a session begins: only `SkipTest` is a skip type, `core/session.py:53`. -/
def fresh (skipTest : T) : S T := { st := { marks := fun _ => {}, ignored := [], trace := [] }, skip := [skipTest] }

end Slash.SkipReg
