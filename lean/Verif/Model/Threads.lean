import Verif.Model.Exc
/-!
# Several threads that handle exceptions (`slash/exception_handling.py`, `slash/assertions.py`, `slash/core/result.py`)

Threads share the marks of exception objects and the results; what is anticipated belongs to each thread (`threading.local`). A step is one access to
what they share, so that other threads may come in between any two of them. The test that is running does not change meanwhile; the debugger,
logging and tracebacks are left out, as in `Verif.Model.Exc`.
-/
namespace Slash.Thr
open Slash.Exc (Exc Ev Entry Marks Env Cfg Prog)

/-- How far `handle_exception` has come (`exception_handling.py:152-164,23-39`, `core/result.py:89-117`): before it asks for the mark, before it sets it,
before it asks whether the exception was added to a result, before it marks it as added, before it is added, before the two hooks, before the end
of `_HandlingException.__exit__`. -/
inductive Stage
  | ask | mark | askAdded | markAdded | add | before | after | finish
deriving DecidableEq

/-- What is left to do after the current block (`exception_handling.py:114-138,178-190,246-253`, `assertions.py:26-49`). -/
inductive Frame (T : Type)
  | seq (q : Prog T)
  | fin (q : Prog T)
  | after (o : Option (Exc T))
  | except (ts : List T) (q : Prog T)
  | handle (c : Cfg T) (pass : List T)
  | caught (ts : List T) (ensure : Bool) (nc : Nat) (prev : List T)
  | swallow
  | decorated

/-- What a thread is doing: running a block, leaving one, handling an exception (`exception_handling.py:117-164`), adding one to a result by itself
(`core/result.py:82-117`). -/
inductive Ctl (T : Type)
  | run (p : Prog T)
  | ret (o : Option (Exc T))
  | handle (c : Cfg T) (e : Exc T) (s : Stage)
  | record (e : Exc T) (s : Stage)

/-- A thread, with its `_ignored_state.ignored_exception_types` (`exception_handling.py:50-53`). -/
structure Thread (T : Type) where
  ctl : Ctl T
  stack : List (Frame T) := []
  ignored : List T := []

variable {T : Type}

/-- One mark is set, `utils/exception_mark.py:5-12`. -/
def setMark (m : Nat → Marks) (id : Nat) (x : Marks) : Nat → Marks := fun i => if i = id then x else m i

/-- A step of `handle_exception` and of the end of `_HandlingException.__exit__`, `exception_handling.py:23-39,130-138,152-164`, `core/result.py:89-117`. -/
def stepHandle (E : Env T) (c : Cfg T) (e : Exc T) (m : Nat → Marks) : Stage → Ctl T × (Nat → Marks) × List Ev
  | .ask => (.handle c e (if (m e.id).handled then .finish else .mark), m, [])
  | .mark => (.handle c e (if E.hasSession then .askAdded else .before), setMark m e.id { m e.id with handled := true }, [])
  | .askAdded => (.handle c e (if (m e.id).added then .before else .markAdded), m, [])
  | .markAdded => (.handle c e .add, setMark m e.id { m e.id with added := true }, [])
  | .add =>
    (.handle c e .before, m,
      match Exc.classify E.H e with
      | some k => [.entry e.id k]
      | none => [])
  | .before =>
    (match E.beforeRaises e with
      | some e' => .ret (some e')
      | none => .handle c e .after, m, [.before e.id])
  | .after =>
    (match E.afterRaises e with
      | some e' => .ret (some e')
      | none => .handle c e .finish, m, [.after e.id])
  | .finish =>
    (if E.H.inst e E.skipTypes || E.H.inst e E.H.interruptTypes then .ret (some e)
      else if E.H.inst e (c.effSwallow E.H) then .ret none
      else .ret (some e), m, [])

/-- A step of `Result.add_exception` when it is called by itself, `core/result.py:82-117`. -/
def stepRecord (E : Env T) (e : Exc T) (m : Nat → Marks) : Stage → Ctl T × (Nat → Marks) × List Ev
  | .askAdded => (if (m e.id).added then .ret none else .record e .markAdded, m, [])
  | .markAdded => (.record e .add, setMark m e.id { m e.id with added := true }, [])
  | .add =>
    (.ret none, m,
      match Exc.classify E.H e with
      | some k => [.entry e.id k]
      | none => [])
  | _ => (.ret none, m, [])

/-- Leaving a block with or without an exception, `exception_handling.py:63-69,117-123,178-199,246-253`, `assertions.py:31-49`. -/
def stepRet (E : Env T) (o : Option (Exc T)) (st : List (Frame T)) (ign : List T) (m : Nat → Marks) :
    Frame T → Thread T × (Nat → Marks) × List Ev
  | .seq q =>
    match o with
    | none => ({ ctl := .run q, stack := st, ignored := ign }, m, [])
    | some e => ({ ctl := .ret (some e), stack := st, ignored := ign }, m, [])
  | .fin q => ({ ctl := .run q, stack := .after o :: st, ignored := ign }, m, [])
  | .after o' =>
    match o with
    | some e => ({ ctl := .ret (some e), stack := st, ignored := ign }, m, [])
    | none => ({ ctl := .ret o', stack := st, ignored := ign }, m, [])
  | .except ts q =>
    match o with
    | some e => ({ ctl := if E.H.inst e ts then .run q else .ret (some e), stack := st, ignored := ign }, m, [])
    | none => ({ ctl := .ret none, stack := st, ignored := ign }, m, [])
  | .handle c pass =>
    match o with
    | some e => ({ ctl := if E.H.inst e pass then .ret (some e) else .handle c e .ask, stack := st, ignored := ign }, m, [])
    | none => ({ ctl := .ret none, stack := st, ignored := ign }, m, [])
  | .caught ts ensure nc prev =>
    match o with
    | some e =>
      if E.H.inst e ts then ({ ctl := .ret none, stack := st, ignored := prev }, m, [.caught e.id])
      else ({ ctl := .ret (some e), stack := st, ignored := prev }, m, [])
    | none =>
      ({ ctl := .ret (if ensure then some { id := nc, cls := E.H.notCaught } else none), stack := st, ignored := prev }, m, [])
  | .swallow =>
    match o with
    | some e => ({ ctl := if (m e.id).swallow then .ret none else .ret (some e), stack := st, ignored := ign }, m, [])
    | none => ({ ctl := .ret none, stack := st, ignored := ign }, m, [])
  | .decorated =>
    match o with
    | some e =>
      ({ ctl := .ret (some e), stack := st, ignored := ign }, setMark m e.id { m e.id with swallow := false }, [])
    | none => ({ ctl := .ret none, stack := st, ignored := ign }, m, [])

/-- Entering a block, `exception_handling.py:63-69,93-99,178-199,246-253`, `assertions.py:26-29`. -/
def stepRun (t : Thread T) (m : Nat → Marks) : Prog T → Thread T × (Nat → Marks)
  | .done => ({ t with ctl := .ret none }, m)
  | .raise e => ({ t with ctl := .ret (some e) }, m)
  | .seq p q => ({ t with ctl := .run p, stack := .seq q :: t.stack }, m)
  | .tryFinally p q => ({ t with ctl := .run p, stack := .fin q :: t.stack }, m)
  | .tryExcept ts p q => ({ t with ctl := .run p, stack := .except ts q :: t.stack }, m)
  | .handling c p => ({ t with ctl := .run p, stack := .handle c (c.passthrough ++ t.ignored) :: t.stack }, m)
  | .assertRaises ts nc p =>
    ({ ctl := .run p, stack := .caught ts true nc t.ignored :: t.stack, ignored := t.ignored ++ ts }, m)
  | .allowing ts p => ({ ctl := .run p, stack := .caught ts false 0 t.ignored :: t.stack, ignored := t.ignored ++ ts }, m)
  | .swallowing p => ({ t with ctl := .run p, stack := .swallow :: t.stack }, m)
  | .record e => ({ t with ctl := .record e .askAdded }, m)
  | .noswallow e => ({ t with ctl := .ret none }, setMark m e.id { m e.id with swallow := false })
  | .decorated p => ({ t with ctl := .run p, stack := .decorated :: t.stack }, m)

/-- A step of a thread, `exception_handling.py:63-199`, `assertions.py:26-49`: the thread, the marks, what happens. -/
def stepT (E : Env T) (t : Thread T) (m : Nat → Marks) : Thread T × (Nat → Marks) × List Ev :=
  match t.ctl with
  | .run p => ((stepRun t m p).1, (stepRun t m p).2, [])
  | .ret o =>
    match t.stack with
    | [] => (t, m, [])
    | f :: st => stepRet E o st t.ignored m f
  | .handle c e s => ({ t with ctl := (stepHandle E c e m s).1 }, (stepHandle E c e m s).2.1, (stepHandle E c e m s).2.2)
  | .record e s => ({ t with ctl := (stepRecord E e m s).1 }, (stepRecord E e m s).2.1, (stepRecord E e m s).2.2)

/-- All threads, what they share, and what has happened, with the number of the thread (`exception_handling.py:50-53,141-164`). -/
structure Sys (T : Type) where
  threads : Nat → Thread T
  marks : Nat → Marks := fun _ => {}
  trace : List (Nat × Ev) := []

/-- Thread `i` makes a step, `exception_handling.py:63-138`. -/
def step (E : Env T) (s : Sys T) (i : Nat) : Sys T :=
  let r := stepT E (s.threads i) s.marks
  { threads := fun j => if j = i then r.1 else s.threads j, marks := r.2.1, trace := s.trace ++ r.2.2.map (fun e => (i, e)) }

/-- An execution: the threads that make steps, in order (`exception_handling.py:63-138`). -/
def exec (E : Env T) : Sys T → List Nat → Sys T
  | s, [] => s
  | s, i :: l => exec E (step E s i) l

/-- The beginning: each thread has a program, nothing is anticipated (`exception_handling.py:50-51`). -/
def start (p : Nat → Prog T) : Sys T := { threads := fun i => { ctl := .run (p i) } }

end Slash.Thr
