/-!
# Which cleanups are being called: `slash/cleanups.py:28-43`, `slash/core/cleanup_manager.py:31-34,81-163`

A model of its own for `get_current_cleanup_phase` and `is_in_cleanup`, in which functions, also cleanups, open scopes. Left out: flags of cleanups
and names given to `add_cleanup` (see `Verif.Model.Cleanup`), results.
-/
namespace Slash.Phase

/-- What a function does: ask for the phase, add a cleanup, run a block in a scope (`CleanupManager.scope`), or raise; `escapes`: whether the exception is
one that is not swallowed. -- `cleanup_manager.py:45,87-93`, `exception_handling.py:95-160` -/
inductive Act where
  | ask
  | add (body : List Act)
  | scope (name : String) (body : List Act)
  | raise (escapes : Bool)

/-- What happens: a cleanup of a scope is called, it is over, an answer to a question for the phase. -- `cleanup_manager.py:31-34,156-163` -/
inductive Ev where
  | enter (scope : String)
  | leave
  | saw (phase : Option String)
deriving DecidableEq, Repr

/-- `CleanupManager`: `_current_scope`, `_scope_stack` (the innermost first) with the cleanups (the last first), `_pending`.
-- `cleanup_manager.py:22-29` -/
structure St where
  cur : Option String := none
  stack : List (String × List (List Act)) := []
  pending : List (List Act) := []
  log : List Ev := []

/-- `get_current_scope_name`, `cleanup_manager.py:31-34`, and `get_current_cleanup_phase`, `cleanups.py:28-36`, in a session. -/
def St.phase (st : St) : Option String := st.cur

/-- `is_in_cleanup`, `cleanups.py:39-43`. -/
def St.inCleanup (st : St) : Bool := st.phase.isSome

/-- `add_cleanup` without a scope given, `cleanup_manager.py:71-84`. -/
def St.add (st : St) (body : List Act) : St :=
  match st.stack with
  | [] => { st with pending := st.pending ++ [body] }
  | (n, cs) :: t => { st with stack := (n, body :: cs) :: t }

/-- `push_scope`, `cleanup_manager.py:108-115`. -/
def St.push (st : St) (name : String) : St :=
  { st with stack := (name, st.pending.reverse) :: st.stack, pending := [] }

/-- How a function ends: it returns, raises an exception that is swallowed by `handling_exceptions(swallow=True)`, or one that is not.
-- `cleanup_manager.py:156` -/
inductive Out where
  | ret
  | exc
  | fatal
deriving DecidableEq, Repr

mutual
/-- Running a function; `hook`: what the callbacks of `before_test_cleanups` do; `none`: not finished after `n` steps of recursion (functions need not
end). -- `cleanup_manager.py:87-93,117-163` -/
def exec (hook : List Act) : Nat → List Act → St → Option (Out × St)
  | 0, _, _ => none
  | _ + 1, [], st => some (.ret, st)
  | n + 1, .ask :: rest, st => exec hook n rest { st with log := st.log ++ [.saw st.phase] }
  | n + 1, .add body :: rest, st => exec hook n rest (st.add body)
  | _ + 1, .raise b :: _, st => some (if b then .fatal else .exc, st)
  | n + 1, .scope name body :: rest, st =>
    match exec hook n body (st.push name) with
    | none => none
    | some (o, st) =>
      match popScope hook n name st with
      | none => none
      | some (o', st) =>
        -- an exception of `pop_scope` replaces that of the block (`finally`)
        match (if o' = .ret then o else o') with
        | .ret => exec hook n rest st
        | x => some (x, st)
/-- `pop_scope` and `call_cleanups`, `cleanup_manager.py:117-147`; the scope is dropped in any case, lines 133-135. -/
def popScope (hook : List Act) : Nat → String → St → Option (Out × St)
  | 0, _, _ => none
  | n + 1, name, st =>
    match (if name = "test" then exec hook n hook st else some (.ret, st)) with
    | none => none
    | some (.ret, st) =>
      match drain hook n st with
      | none => none
      | some (o, st) => some (o, { st with stack := st.stack.tail })
    | some (o, st) => some (o, { st with stack := st.stack.tail })
/-- The loop of `call_cleanups`, `cleanup_manager.py:149-163`, for the innermost scope. -/
def drain (hook : List Act) : Nat → St → Option (Out × St)
  | 0, _ => none
  | n + 1, st =>
    match st.stack with
    | [] => some (.ret, st)
    | (_, []) :: _ => some (.ret, st)
    | (name, c :: cs) :: t =>
      let previous := st.cur
      match exec hook n c { st with stack := (name, cs) :: t, cur := some name, log := st.log ++ [.enter name] } with
      | none => none
      | some (o, st) =>
        let st := { st with cur := previous, log := st.log ++ [.leave] }
        if o = .fatal then some (.fatal, st) else drain hook n st
end

end Slash.Phase
