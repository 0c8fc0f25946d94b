import Verif.Model.Exc

/-!
# The arguments of `handling_exceptions`: `slash/exception_handling.py:72-99,108-138`

`Verif/Model/Exc.lean` models the context for arguments of the right types. Here the types of `swallow_types` and
`passthrough_types` are whatever the user passes: a tuple, a list, or something else.

Simplifications: something else is neither a sequence nor a class with a metaclass that knows `+`.
-/
namespace Slash.Exc

variable {T : Type}

/-- What is passed as types, `exception_handling.py:94,98`. -/
inductive Types (T : Type) where
  | tuple (l : List T)
  | list (l : List T)
  | other
deriving DecidableEq, Repr

/-- Why `handling_exceptions` or the context it returns fails by itself: `+` of something that is not a tuple with a tuple
(`exception_handling.py:96,98`), the assertion (97), `isinstance` with a list (135). -/
inductive ArgErr where
  | typeError | assertion
deriving DecidableEq, Repr

/-- `x + tuple`, `exception_handling.py:96,98`. -/
def Types.plus (x : Types T) (l : List T) : Except ArgErr (Types T) :=
  match x with
  | .tuple k => .ok (.tuple (k ++ l))
  | .list _ => .error .typeError
  | .other => .error .typeError

/-- The keyword arguments as they are passed, `exception_handling.py:93-98`. -/
structure RawArgs (T : Type) where
  swallow : Bool := false
  swallowTypes : Types T := .tuple []
  passthrough : Types T := .tuple []

/-- The context as it is made: `_swallow_types` and `_passthrough_types`, `exception_handling.py:108-114`. -/
structure RawCtx (T : Type) where
  swallowTypes : Types T
  passthrough : List T

/-- `handling_exceptions`, `exception_handling.py:93-99`. `ignored` are the types of `assert_raises` contexts around it. -/
def makeCtx (exception : T) (a : RawArgs T) (ignored : List T) : Except ArgErr (RawCtx T) := do
  let sw ← if a.swallow then a.swallowTypes.plus [exception] else .ok a.swallowTypes
  match sw with
  | .other => .error .assertion
  | sw =>
    match ← a.passthrough.plus ignored with
    | .tuple l => .ok { swallowTypes := sw, passthrough := l }
    | _ => .error .typeError

/-- How the context is left: normally, with the exception that was raised or one raised by a hook, or with an exception of the context
itself. `exception_handling.py:119-138`. -/
inductive Left (T : Type) where
  | normally
  | raising (e : Exc T)
  | failing (x : ArgErr)
deriving DecidableEq

/-- `__exit__`, `exception_handling.py:117-138`. `isinstance` refuses a list, and is not called for an empty one (135). -/
def rawExit (E : Env T) (c : RawCtx T) (e : Exc T) (st : St T) : Left T × St T :=
  if E.H.inst e c.passthrough then (.raising e, st)
  else
    match handleException E e st with
    | (some e', st) => (.raising e', st)
    | (none, st) =>
      if E.H.inst e E.skipTypes || E.H.inst e E.H.interruptTypes then (.raising e, st)
      else
        match c.swallowTypes with
        | .tuple l => if E.H.inst e l then (.normally, st) else (.raising e, st)
        | .list [] => (.raising e, st)
        | .list _ => (.failing .typeError, st)
        | .other => (.failing .typeError, st)

/-- `with handling_exceptions(**a): p`, `exception_handling.py:72-138`: the arguments are looked at before `p` runs. -/
def withHandling (E : Env T) (a : RawArgs T) (p : Prog T) (st : St T) : Left T × St T :=
  match makeCtx E.H.exception a st.ignored with
  | .error x => (.failing x, st)
  | .ok c =>
    match eval E p st with
    | (none, st) => (.normally, st)
    | (some e, st) => rawExit E c e st

end Slash.Exc
