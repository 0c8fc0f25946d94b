/-!
# Threads that report errors while tests come and go (`slash/exception_handling.py`, `slash/utils/__init__.py`, `slash/runner.py`, `slash/core/session.py`)

The context of the session (`slash.ctx`) is shared by all threads: the main thread sets the current test and the current result, other threads look at them when
they handle an exception or call `slash.add_error`. A step is one access to the context. Every exception is a new one, and it is added to the result that was
found at once; two threads that share an exception are in `Verif.Model.Threads`. What tests do beside starting threads and waiting for them is left out, and so
are nested contexts.
-/
namespace Slash.ThrTests

/-- A result: the global one, or that of a test (`core/result.py:326-327`). -/
inductive Res
  | global | test (t : Nat)
deriving DecidableEq, Repr

/-- What a thread reports: an exception that is handled (`exception_handling.py:23-32`), an error that is added (`utils/__init__.py:42-52`). -/
inductive Item
  | exc (n : Nat) | err (n : Nat)
deriving DecidableEq, Repr

/-- What becomes of a report: it is recorded, ignored without a session, or another exception is raised instead (`exception_handling.py:24-31`,
`utils/__init__.py:51-52`). -/
inductive Out
  | recorded (r : Res) | ignored | raised
deriving DecidableEq, Repr

/-- How far a report has come (`exception_handling.py:24-31`, `utils/__init__.py:51-52`): not started; `add_error` has seen a session; the handler has seen a
session; it has seen a test; it has seen none. -/
inductive Stage
  | idle | use | askTest | look | glob
deriving DecidableEq, Repr

/-- A thread, started by the test `owner` (see `exception_handling.py:50-53`); `ops`: all its reports; `todo`: those not done. -/
structure Thread where
  owner : Nat
  ops : List Item
  todo : List Item
  stage : Stage := .idle
deriving DecidableEq, Repr

/-- What the main thread does: `core/session.py:77-81` (`push`, `setSession`, `initResult`), `runner.py:236-238` (`setTest`), `223` (`create`), `224-225`
(`setResult`), the test starts a thread (`spawn`) or waits for those it started (`join`), `runner.py:183` (`endResult`), `232` (`restoreResult`), `250`
(`restoreTest`), `core/session.py:103` (`pop`). -/
inductive MOp
  | push | setSession | initResult
  | setTest (t : Nat) | create (t : Nat) | setResult (t : Nat)
  | spawn (t : Nat) (ops : List Item) | join (t : Nat)
  | endResult | restoreResult | restoreTest
  | pop
deriving DecidableEq, Repr

/-- The context (`ctx.py:12`), the results there are (`core/result.py:327`), what the main thread remembers (`runner.py:224,236`) and has to do, the threads, and what
became of the reports: the thread, the report, the outcome. -/
structure St where
  session : Bool := false
  test : Option Nat := none
  result : Option Res := none
  results : List Nat := []
  prevT : Option Nat := none
  prevR : Option Res := none
  main : List MOp
  threads : List Thread := []
  out : List (Nat × Item × Out) := []
deriving DecidableEq, Repr

/-- A step of the main thread, `core/session.py:77-81,103`, `runner.py:183,223-251`; `none`: it waits. -/
def MOp.run (s : St) : MOp → Option St
  | .push => some { s with session := false, test := none, result := none }
  | .setSession => some { s with session := true }
  | .initResult => some { s with result := some .global }
  | .setTest t => some { s with prevT := s.test, test := some t }
  | .create t => some { s with results := t :: s.results }
  | .setResult t => some { s with prevR := s.result, result := some (.test t) }
  | .spawn t ops => some { s with threads := s.threads ++ [{ owner := t, ops := ops, todo := ops }] }
  | .join t => if s.threads.all (fun h => h.owner != t || h.todo.isEmpty) then some s else none
  | .endResult => some { s with result := s.prevR }
  | .restoreResult => some { s with result := s.prevR }
  | .restoreTest => some { s with test := s.prevT }
  | .pop => some { s with session := false, test := none, result := none }

/-- The next thing a report does: it goes on to another stage, or it is over. `update_current_result`, `exception_handling.py:23-32`; `slash.add_error`,
`utils/__init__.py:51-52`. -/
def look (s : St) : Item → Stage → Stage ⊕ Out
  | .err _, .idle => if s.session then .inl .use else .inr .ignored
  | .err _, _ =>
    match s.session, s.result with
    | true, some r => .inr (.recorded r)
    | _, _ => .inr .raised
  | .exc _, .idle => if s.session then .inl .askTest else .inr .ignored
  | .exc _, .askTest => .inl (if s.test.isSome then .look else .glob)
  | .exc _, .look =>
    match s.session, s.test with
    | true, some t => if s.results.contains t then .inr (.recorded (.test t)) else .inr .raised
    | _, _ => .inr .raised
  | .exc _, _ => if s.session then .inr (.recorded .global) else .inr .raised

/-- A step of a thread, `exception_handling.py:23-32`, `utils/__init__.py:51-52`; `none`: it is finished. -/
def threadStep (s : St) (i : Nat) : Option St :=
  match s.threads[i]? with
  | none => none
  | some h =>
    match h.todo with
    | [] => none
    | x :: todo =>
      match look s x h.stage with
      | .inl st => some { s with threads := s.threads.set i { h with stage := st } }
      | .inr o => some { s with threads := s.threads.set i { h with todo := todo, stage := .idle }, out := s.out ++ [(i, x, o)] }

/-- Whose turn it is (threads are numbered in the order in which they are started, `exception_handling.py:50-53`). -/
inductive Turn
  | main | thread (i : Nat)
deriving DecidableEq, Repr

/-- One turn; who can not go on does nothing (`runner.py:223-251`, `exception_handling.py:23-32`). -/
def step (s : St) : Turn → St
  | .main =>
    match s.main with
    | [] => s
    | op :: rest => (op.run { s with main := rest }).getD s
  | .thread i => (threadStep s i).getD s

/-- A schedule (`runner.py:223-251`, `exception_handling.py:23-32`). -/
def run (s : St) (ts : List Turn) : St := ts.foldl step s

/-- A test: the threads it starts, whether it waits for them, whether it is started at all (otherwise its requirements are not met, or the session is stopped
before it: `runner.py:100-102,212-216`). -/
structure Test where
  id : Nat
  threads : List (List Item) := []
  waits : Bool := true
  started : Bool := true
deriving Repr

/-- What the main thread does for a test, `runner.py:90-126,175-183,218-251`. -/
def Test.ops (t : Test) : List MOp :=
  [.setTest t.id, .create t.id, .setResult t.id] ++
  (if t.started then t.threads.map (.spawn t.id) ++ (if t.waits then [.join t.id] else []) ++ [.endResult] else []) ++
  [.restoreResult, .restoreTest]

/-- A session, `core/session.py:74-103`, `runner.py:37-76`. -/
def session (ts : List Test) : St := { main := [.push, .setSession, .initResult] ++ (ts.map Test.ops).flatten ++ [.pop] }

end Slash.ThrTests
