import Verif.Model.Ctx
/-!
# `slash.g` and the other proxies of the context, and the computed attributes of contexts: `slash/ctx.py:7-57,92-144`

The storages of contexts are objects on a heap. Objects are numbers, 0 is `None`.

Simplifications: attributes of `None` itself (such as `__class__`) are not looked up through a proxy. `str`, `repr` and `dir` are left out.
-/
namespace Slash.Ctx

/-- The stack of contexts with the attributes of storages, and the number of objects there are. `ctx.py:7-17,61-63`. -/
structure PSt where
  st : St := init
  heap : Nat → String → Option Nat := fun _ _ => none
  next : Nat := 1

/-- `push_context`, `ctx.py:15-17,140-141`: two new storages without attributes. -/
def PSt.push (s : PSt) : PSt :=
  { st := Slash.Ctx.push s.st s.next (s.next + 1)
    heap := fun i => if i = s.next ∨ i = s.next + 1 then fun _ => none else s.heap i
    next := s.next + 2 }

/-- `pop_context`, `ctx.py:143-144`. -/
def PSt.pop (s : PSt) : PSt := { s with st := (Slash.Ctx.pop s.st).2 }

/-- `ContextAttributeProxy.__getattr__`, `ctx.py:99-104`: the attribute of the object the context has now; `none` is `AttributeError`. -/
def PSt.read (s : PSt) (proxy attr : String) : Option Nat :=
  match getAttr s.st proxy with
  | none => none
  | some 0 => none
  | some (i + 1) => s.heap (i + 1) attr

/-- `ContextAttributeProxy.__setattr__`, `ctx.py:106-109`: whether it succeeds. -/
def PSt.write (s : PSt) (proxy attr : String) (v : Nat) : Bool × PSt :=
  match getAttr s.st proxy with
  | none => (false, s)
  | some 0 => (false, s)
  | some (i + 1) => (true, { s with heap := fun j => if j = i + 1 then fun a => if a = attr then some v else s.heap j a else s.heap j })

/-- What is done: contexts come and go (`ctx.py:140-144`), attributes of contexts are set by slash (`core/session.py:80-81`,
`core/runner.py`), users write to proxies (`ctx.py:106-109`). -/
inductive POp where
  | push
  | pop
  | set (a : String) (v : Nat)
  | write (proxy attr : String) (v : Nat)
deriving DecidableEq, Repr

/-- One operation, `ctx.py:73-88,106-109,140-144`. -/
def pstep (s : PSt) : POp → PSt
  | .push => s.push
  | .pop => s.pop
  | .set a v => { s with st := (setAttr s.st a v).2 }
  | .write p a v => (s.write p a v).2

/-- Operations in order, `ctx.py:73-144`. -/
def prun (ops : List POp) (s : PSt) : PSt := ops.foldl pstep s

/-- `bool(proxy)`, for the class of `ctx.py:93-129`, which has neither `__bool__` nor `__len__`. -/
def PSt.truth (_ : PSt) (_ : String) : Bool := true

/-- `proxy == other`, `ctx.py:111-112`; `none` is `AttributeError`. -/
def PSt.eq (s : PSt) (proxy : String) (other : Nat) : Option Bool := (getAttr s.st proxy).map (· == other)

/-- Attributes of `context` with the computed ones, `ctx.py:19-41,53-56,65-67`: `file` is the path of the file of a test, `sid` the id of a session,
`rep` its reporter; a null reporter is 0. -/
def lookup (st : St) (file sid rep : Nat → Nat) (a : String) : Option Nat :=
  match st with
  | [] => none
  | .null :: _ => if a = "reporter" then some 0 else if a ∈ nullAttrs then some 0 else none
  | .ctx f :: _ =>
    if a = "test_filename" then (f "test").map fun t => if t = 0 then 0 else file t
    else if a = "session_id" then (f "session").map fun t => if t = 0 then 0 else sid t
    else if a = "reporter" then (f "session").map fun t => if t = 0 then 0 else rep t
    else f a

end Slash.Ctx
