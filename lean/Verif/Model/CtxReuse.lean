import Verif.Model.Exc
/-!
# Context objects that are used several times (`slash/assertions.py`, `slash/exception_handling.py`)

`assert_raises(...)`, `allowing_exceptions(...)` and `handling_exceptions(...)` return objects; here they are made before the script runs, and
the script enters them as often as it likes, within one another or one after the other, in one thread. As in `Verif.Model.Exc`, messages,
logging, tracebacks and the debugger are left out.
-/
namespace Slash.Reuse
open Slash.Exc (Exc Ev Marks Env Cfg)

/-- A `_CaughtContext`, `assertions.py:15-24`: the expected types, whether an exception must come, `_ignore_ctx` (none before the first use),
whose `_prev` may be Python's `None` (`exception_handling.py:58-69`), and `_caught.exception`. -/
structure Caught (T : Type) where
  types : List T
  ensure : Bool
  ignoreCtx : Option (Option (List T)) := none
  exception : Option Nat := none

/-- A `_HandlingException`, `exception_handling.py:105-112`: the arguments, the types that pass (computed when it is made, line 98), and
`_handled.exception`. -/
structure Handling (T : Type) where
  cfg : Cfg T
  pass : List T
  exception : Option Nat := none

/-- The state: that of `Verif.Model.Exc` except for the ignored types, which can become `None` (`exception_handling.py:50-53,67-69`), and the
objects (`assertions.py:15-24`, `exception_handling.py:105-112`). -/
structure S (T : Type) where
  marks : Nat → Marks
  ignored : Option (List T)
  trace : List Ev
  caught : Nat → Caught T
  handling : Nat → Handling T

variable {T : Type}

/-- The part of the state that handling an exception works on, `exception_handling.py:141-164`. -/
def S.core (s : S T) : Exc.St T := { marks := s.marks, ignored := s.ignored.getD [], trace := s.trace }

/-- The state after an exception was handled, `exception_handling.py:141-164`. -/
def S.back (s : S T) (st : Exc.St T) : S T := { s with marks := st.marks, trace := st.trace }

/-- One object is changed, `assertions.py:27,37`, `exception_handling.py:65-69`. -/
def S.setCaught (s : S T) (k : Nat) (c : Caught T) : S T := { s with caught := fun i => if i = k then c else s.caught i }

/-- One object is changed, `exception_handling.py:131`. -/
def S.setHandling (s : S T) (k : Nat) (h : Handling T) : S T := { s with handling := fun i => if i = k then h else s.handling i }

/-- Scripts: `use k nc p` is `with c: p` for the `k`-th object of `assert_raises` or `allowing_exceptions` (`nc`: the exception that is made if
none comes), `useHandling k p` the same for `handling_exceptions`, `handle c t p` is `with handling_exceptions(...): p` (`t`: the `TypeError` if it
cannot be made), `assertions.py:26-49`, `exception_handling.py:72-138`. -/
inductive Prog (T : Type)
  | done
  | raise (e : Exc T)
  | seq (p q : Prog T)
  | tryExcept (ts : List T) (p q : Prog T)
  | handle (c : Cfg T) (t : Nat) (p : Prog T)
  | useHandling (k : Nat) (p : Prog T)
  | use (k : Nat) (nc : Nat) (p : Prog T)

/-- `_HandlingException.__exit__`, `exception_handling.py:117-138`, with what it does to `_handled.exception` (line 131); the flag is set iff that
line is reached. -/
def exitHandling (E : Env T) (c : Cfg T) (pass : List T) (e : Exc T) (s : S T) : Option (Exc T) × S T × Bool :=
  if E.H.inst e pass then (some e, s, false)
  else
    match Exc.handleException E e s.core with
    | (some e', st) => (some e', s.back st, false)
    | (none, st) =>
      if E.H.inst e E.skipTypes || E.H.inst e E.H.interruptTypes then (some e, s.back st, true)
      else if E.H.inst e (c.effSwallow E.H) then (none, s.back st, true)
      else (some e, s.back st, true)

/-- `_CaughtContext.__enter__`, `assertions.py:26-29` with `exception_handling.py:63-65`: a new context for ignoring is made and kept; copying
the types that were ignored before fails if they are `None` (then the result is `none`). -/
def enterCaught (k : Nat) (s : S T) : Option (S T) × S T :=
  let s := s.setCaught k { s.caught k with ignoreCtx := some s.ignored }
  match s.ignored with
  | some l => (some { s with ignored := some (l ++ (s.caught k).types) }, s)
  | none => (none, s)

/-- The first lines of `_CaughtContext.__exit__`, `assertions.py:32-33` with `exception_handling.py:67-69`: the context for ignoring that is kept
now is left. -/
def leaveIgnore (k : Nat) (s : S T) : S T :=
  match (s.caught k).ignoreCtx with
  | none => s
  | some prev => { s.setCaught k { s.caught k with ignoreCtx := some none } with ignored := prev }

/-- The rest of `_CaughtContext.__exit__`, `assertions.py:34-49`. -/
def exitCaught (E : Env T) (k : Nat) (nc : Nat) (o : Option (Exc T)) (s : S T) : Option (Exc T) × S T :=
  match o with
  | some e =>
    if E.H.inst e (s.caught k).types then
      (none, { s.setCaught k { s.caught k with exception := some e.id } with trace := s.trace ++ [.caught e.id] })
    else (some e, s)
  | none => if (s.caught k).ensure then (some { id := nc, cls := E.H.notCaught }, s) else (none, s)

/-- Running a script, `assertions.py:26-49`, `exception_handling.py:63-138`; `te` is the class `TypeError`. -/
def eval (E : Env T) (te : T) : Prog T → S T → Option (Exc T) × S T
  | .done, s => (none, s)
  | .raise e, s => (some e, s)
  | .seq p q, s =>
    match eval E te p s with
    | (none, s) => eval E te q s
    | (some e, s) => (some e, s)
  | .tryExcept ts p q, s =>
    match eval E te p s with
    | (some e, s) => if E.H.inst e ts then eval E te q s else (some e, s)
    | (none, s) => (none, s)
  | .handle c t p, s =>
    match s.ignored with
    | none => (some { id := t, cls := te }, s)
    | some l =>
      match eval E te p s with
      | (some e, s) => ((exitHandling E c (c.passthrough ++ l) e s).1, (exitHandling E c (c.passthrough ++ l) e s).2.1)
      | (none, s) => (none, s)
  | .useHandling k p, s =>
    match eval E te p s with
    | (some e, s) =>
      match exitHandling E (s.handling k).cfg (s.handling k).pass e s with
      | (o, s, true) => (o, s.setHandling k { s.handling k with exception := some e.id })
      | (o, s, false) => (o, s)
    | (none, s) => (none, s)
  | .use k nc p, s =>
    match enterCaught k s with
    | (none, s) => (some { id := nc, cls := te }, s)
    | (some s, _) =>
      match eval E te p s with
      | (o, s) => exitCaught E k nc o (leaveIgnore k s)

end Slash.Reuse
