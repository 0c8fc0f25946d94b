import Verif.Model.Result
/-!
# The context stack (`slash/ctx.py`) and the session life cycle (`slash/core/session.py:74-144`)
-/
namespace Slash.Ctx

/-- A context on the stack: the `NullContext` at the bottom (`ctx.py:43-57`) or a `Context` (`ctx.py:11-41`) with its
attribute values. Values are numbers, 0 stands for Python's None; `none` is AttributeError. The computed
properties of `Context` (`test_filename`, `session_id`, `reporter`) are left out. -/
inductive Frame where
  | null
  | ctx (attrs : String → Option Nat)

/-- The attributes `NullContext` answers with None, `ctx.py:53-54`. -/
def nullAttrs : List String :=
  ["session", "test", "test_id", "g", "internal_globals", "test_filename", "test_classname", "test_methodname",
   "result", "fixture"]

/-- A new `Context`, `ctx.py:12-17`: `g` and `ig` are the identities of its two `GlobalStorage` objects. -/
def newAttrs (g ig : Nat) (a : String) : Option Nat :=
  if a ∈ ["session", "test", "test_id", "result", "fixture"] then some 0
  else if a = "g" then some g
  else if a = "internal_globals" then some ig
  else none

/-- `_ContextStack._stack`, `ctx.py:61-63`, top first. -/
abbrev St := List Frame

/-- The stack at import time, `ctx.py:63`. -/
def init : St := [.null]

/-- `_ContextStack.__getattr__`, `ctx.py:65-67`; `none` is AttributeError (or the failed assertion). -/
def getAttr (st : St) (a : String) : Option Nat :=
  match st with
  | [] => none
  | .null :: _ => if a ∈ nullAttrs then some 0 else none
  | .ctx f :: _ => f a

/-- `_ContextStack.__setattr__` for a public name, `ctx.py:73-76`; `NullContext.__setattr__` refuses
(`ctx.py:45-47`). First component: did it succeed. -/
def setAttr (st : St) (a : String) (v : Nat) : Bool × St :=
  match st with
  | [] => (false, [])
  | .null :: st => (false, .null :: st)
  | .ctx f :: st => (true, .ctx (fun b => if b = a then some v else f b) :: st)

/-- `push_context`, `ctx.py:78-80,140-141`. -/
def push (st : St) (g ig : Nat) : St := .ctx (newAttrs g ig) :: st

/-- `pop_context`, `ctx.py:82-88,143-144`; `false` = RuntimeError / SlashInternalError. -/
def pop (st : St) : Bool × St :=
  match st with
  | [] => (false, [])
  | [f] => (false, [f])
  | _ :: st => (true, st)

/-- Operations on the stack, `ctx.py:65-88`. -/
inductive Op where
  | push (g ig : Nat) | pop | set (a : String) (v : Nat)
deriving DecidableEq, Repr

/-- One operation, `ctx.py:65-88`. -/
def step (st : St) : Op → St
  | .push g ig => push st g ig
  | .pop => (pop st).2
  | .set a v => (setAttr st a v).2

/-- A history of operations, `ctx.py:65-88`. -/
def run (ops : List Op) (st : St) : St := ops.foldl step st

/-! ## Session activation -/

/-- Where `Session.activate` (`core/session.py:74-88`) or `Session.deactivate` (90-103) may raise: entering or leaving
the logging context and the warning-capture context. -/
inductive Crash where
  | none | logging | warnings
deriving DecidableEq, Repr

/-- A session, as far as activation is concerned: `core/session.py:38` (`_active`) and the marks of its global
result. -/
structure Sess where
  id : Nat
  active : Bool := false
  started : Bool := false
  finished : Bool := false
deriving DecidableEq, Repr

/-- `Session.activate`, `core/session.py:74-88`. `res` is the identity of the global result. First component:
did it succeed. The context must be clean below (fresh contexts always are, `ctx.py:12`). -/
def activate (s : Sess) (res g ig : Nat) (c : Crash) (st : St) : Bool × Sess × St :=
  if s.active then (false, s, st) else
  let st := push st g ig
  let st := (setAttr st "session" s.id).2
  let st := (setAttr st "result" res).2
  let s := { s with started := true }
  if c = .none then (true, { s with active := true }, st) else (false, s, st)

/-- `Session.deactivate`, `core/session.py:90-103`. -/
def deactivate (s : Sess) (c : Crash) (st : St) : Bool × Sess × St :=
  if !s.active then (false, s, st) else
  let s := { s with active := false, finished := true }
  if c ≠ .none then (false, s, st) else
  let (ok, st) := pop st
  (ok, s, st)

/-! ## The started context -/

/-- The steps of `get_started_context`, `core/session.py:112-144`. -/
inductive Ev where
  | pushGlobal      -- cleanups.push_scope('session-global')
  | beforeStart     -- hooks.before_session_start
  | start           -- hooks.session_start
  | afterStart      -- hooks.after_session_start
  | body            -- the `with` body
  | interruptHook   -- hooks.session_interrupt
  | popGlobal       -- cleanups.pop_scope('session-global')
  | sessionEnd      -- hooks.session_end
  | afterEnd        -- hooks.after_session_end
  | reportEnd       -- reporter.report_session_end
deriving DecidableEq, Repr

/-- Runs steps in order until one raises; every started step is in the trace (`core/session.py:119-144`). -/
def seqSteps (raises : Ev → Option Kind) : List Ev → List Ev × Option Kind
  | [] => ([], none)
  | e :: es => match raises e with
    | some k => ([e], some k)
    | none => let (t, o) := seqSteps raises es; (e :: t, o)

/-- `get_started_context`, `core/session.py:112-144`, for arbitrary outcomes of every step. Returns the trace and the
exception leaving the context. `notify_if_slow_context` and the recording done by
`handling_exceptions` are left out (no swallowing is requested, lines 121, 136, 140, 142). -/
def startedContext (raises : Ev → Option Kind) : List Ev × Option Kind :=
  let (t1, o1) := seqSteps raises [.beforeStart, .start, .afterStart, .body]
  -- `session_start_called` (line 125) is set once the hook returned
  let called := Ev.start ∈ t1 ∧ raises .start = none
  -- except INTERRUPTION_EXCEPTIONS (lines 129-131)
  let (t2, o2) := if o1 = some .interrupt then
      (match raises .interruptHook with
       | some k => ([Ev.interruptHook], some k)
       | none => ([Ev.interruptHook], o1))
    else ([], o1)
  -- finally (lines 132-144): an exception raised here replaces the pending one
  let fin := [Ev.popGlobal] ++ (if called then [.sessionEnd, .afterEnd] else []) ++ [.reportEnd]
  let (t3, o3) := seqSteps raises fin
  ([.pushGlobal] ++ t1 ++ t2 ++ t3, o3.orElse (fun _ => o2))

end Slash.Ctx
