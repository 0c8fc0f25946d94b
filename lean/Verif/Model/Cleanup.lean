import Verif.Model.Result
/-!
# The cleanup manager (`slash/core/cleanup_manager.py`)

Scopes are heap objects (identified by `uid`) because the Python code reaches them both through
`_scope_stack` and through `_scopes_by_name`.  User callbacks are scripts `Cb`.
-/
namespace Slash.Cleanup

/-- What was passed as `scope=` to `add_cleanup`: nothing, `None`, or a name.
`cleanup_manager.py:58`. -/
inductive ScopeArg where
  | dflt | implicit | named (s : String)
deriving DecidableEq, Repr

/- A cleanup callback: its flags, the API calls it makes when called, and how it ends.
Parameters `critical`, `success_only`: `cleanup_manager.py:60-61`. Callbacks may register further
cleanups on any scope and may add entries to the current result; opening and closing scopes
from inside a callback is not modelled. -/
mutual
/-- A callback passed to `add_cleanup` with its flags, `slash/core/cleanup_manager.py:45,60-61`. -/
inductive Cb where
  | mk (critical successOnly : Bool) (acts : List Act) (out : Option Kind)
/-- One API call of a callback: `add_cleanup` (`cleanup_manager.py:45`) or a result entry
(`core/result.py:205-217,247`). -/
inductive Act where
  | add (sc : ScopeArg) (cb : Cb)
  /-- `slash.add_error` / `add_failure` / `skip...` on the current result -/
  | note (k : Kind)
end

/-- `critical`, `cleanup_manager.py:60,175`. -/
def Cb.critical : Cb → Bool | .mk c _ _ _ => c
/-- `success_only`, `cleanup_manager.py:61,176`. -/
def Cb.successOnly : Cb → Bool | .mk _ s _ _ => s
/-- Body of `self.func`, `cleanup_manager.py:182`. -/
def Cb.acts : Cb → List Act | .mk _ _ a _ => a
/-- How `self.func` ends, `cleanup_manager.py:182-185`. -/
def Cb.out : Cb → Option Kind | .mk _ _ _ o => o

/-- The results a cleanup may be bound to: `context.result` is the global result or a test's,
`cleanup_manager.py:177`. -/
inductive RKey where
  | global | test (n : Nat)
deriving DecidableEq, Repr

/-- `_Cleanup`, `cleanup_manager.py:167-178`. `reg` is a ghost serial number of the registration. -/
structure Reg where
  reg : Nat
  result : Option RKey
  cb : Cb

/-- Exceptions raised by the manager itself (`cleanup_manager.py:65,73,77,78,125,127,170`) or by user code. -/
inductive Exn where
  | user (k : Kind)
  | cannotAdd        -- CannotAddCleanup, line 73
  | incorrectScope   -- IncorrectScope, line 77
  | indexError       -- `[][-1]`, lines 78 and 125
  | assertion        -- line 170
  | internal         -- SlashInternalError, line 127
  | attribute        -- `None.add_exception`, line 184
deriving DecidableEq, Repr

/-- How `handling_exceptions` classifies them, `exception_handling.py:131-138`; a failed assertion of the manager
is an `AssertionError`, i.e. a failure (`slash/exceptions.py:130`). -/
def Exn.kind : Exn → Kind
  | .user k => k
  | .assertion => .failure
  | _ => .error

/-- Ghost log of observable events (not in the code; written where `cleanup_manager.py:80-84,113-115,150-163` act). -/
inductive Ev where
  /-- a cleanup was accepted; flags recorded -/
  | added (reg : Nat) (critical successOnly : Bool) (result : Option RKey)
  /-- it was put on the scope object `uid` -/
  | placed (reg uid : Nat)
  | opened (uid : Nat) (name : String)
  /-- teardown of scope `uid` starts, with the flags it was started with -/
  | closing (uid : Nat) (inFailure inInterruption : Bool)
  /-- the callback is called -/
  | ran (reg uid : Nat)
  /-- the callback returned (`none`) or raised -/
  | ended (reg : Nat) (out : Option Kind)
  /-- passed over because of `critical` / `success_only` -/
  | skipped (reg uid : Nat)
  /-- still registered when the scope object was discarded -/
  | dropped (reg uid : Nat)
  | closed (uid : Nat)
  /-- an exception of kind `k` that came out of cleanup `reg` was added to result `r` -/
  | recorded (reg : Nat) (r : RKey) (k : Kind)
deriving DecidableEq, Repr

/-- `CleanupManager` fields (`cleanup_manager.py:22-29`), the relevant part of `context`
(`context.result`, `context.test`) and the results they point to. Lists that Python uses as stacks
are kept top first. `_current_scope` only serves `get_current_scope_name` and is left out. -/
structure St where
  stack : List Nat := []                               -- _scope_stack
  byName : String → Option (List Nat) := fun _ => none  -- _scopes_by_name
  scopeName : Nat → String := fun _ => ""
  cleanups : Nat → List Reg := fun _ => []              -- scope.cleanups
  pending : List Reg := []                             -- _pending, oldest first
  allowImplicit : Bool := true                         -- _allow_implicit_scopes
  defaultScope : Option String := none                 -- _default_scope
  nextUid : Nat := 0
  nextReg : Nat := 0
  curResult : Option RKey := none                      -- context.result
  curTest : Option Nat := none                         -- context.test
  results : RKey → Result := fun _ => {}
  log : List Ev := []

/-- Ghost: appends to the log (see `Ev`; `cleanup_manager.py:80-84,150-163`). -/
def St.emit (st : St) (ev : Ev) : St := { st with log := st.log ++ [ev] }

/-- Mutation of one result object, `core/result.py:82-117`. -/
def St.updResult (st : St) (k : RKey) (f : Result → Result) : St :=
  { st with results := fun k' => if k' = k then f (st.results k') else st.results k' }

/-- The scope object `add_cleanup` selects, `cleanup_manager.py:58, 71-78`: `none` = no scope is open
and the cleanup stays pending. -/
def selectScope (sc : ScopeArg) (st : St) : Except Exn (Option Nat) :=
  let scopeName : Option String :=
    match sc with
    | .dflt => st.defaultScope
    | .implicit => none
    | .named s => some s
  match scopeName with
  | none => if !st.allowImplicit then .error .cannotAdd else .ok st.stack.head?
  | some s =>
    match st.byName s with
    | none => .error .incorrectScope
    | some [] => .error .indexError
    | some (u :: _) => .ok (some u)

/-- Appending the new `_Cleanup` to the pending list or to a scope, `cleanup_manager.py:80-84`. -/
def place (cb : Cb) (uid : Option Nat) (st : St) : St :=
  let added : Reg := { reg := st.nextReg, result := st.curResult, cb := cb }
  let st := { st with nextReg := st.nextReg + 1 }
  let st := st.emit (.added added.reg cb.critical cb.successOnly added.result)
  match uid with
  | none => { st with pending := st.pending ++ [added] }
  | some u =>
    { st with cleanups := fun v => if v = u then added :: st.cleanups v else st.cleanups v }.emit
      (.placed added.reg u)

/-- `add_cleanup`, `cleanup_manager.py:45-85`. `args`/`kwargs` passing is left out. -/
def addCleanup (sc : ScopeArg) (cb : Cb) (st : St) : Option Exn × St :=
  if cb.successOnly && cb.critical then (some .assertion, st)            -- line 68/170
  else
    match selectScope sc st with
    | .error e => (some e, st)
    | .ok uid => (none, place cb uid st)

/-- `push_scope`, `cleanup_manager.py:108-115`. -/
def pushScope (name : String) (st : St) : St :=
  let u := st.nextUid
  let st := st.emit (.opened u name)
  { st with
    nextUid := u + 1
    stack := u :: st.stack
    scopeName := fun v => if v = u then name else st.scopeName v
    byName := fun n => if n = name then some (u :: (st.byName n).getD []) else st.byName n
    cleanups := fun v => if v = u then st.pending.reverse else st.cleanups v
    pending := []
    log := st.log ++ st.pending.map (fun r => .placed r.reg u) }

/-- `context.result` / `context.test` as used by `update_current_result`,
`exception_handling.py:23-31`. -/
def St.currentForUpdate (st : St) : RKey :=
  match st.curTest with
  | some t => .test t
  | none => .global

/-- Effect of an entry on the result store: `core/result.py:82-117`; an interruption of a test also
marks the session's global result (lines 100-111). -/
def St.record (st : St) (r : RKey) (k : Kind) : St :=
  let st := st.updResult r (fun x => x.addKind k)
  if k = .interrupt then st.updResult .global Result.markInterrupted else st

/-- The API calls of a callback, in order; an exception from one of them aborts the callback.
`cleanup_manager.py:182`. -/
def runActs : List Act → St → Option Exn × St
  | [], st => (none, st)
  | .add sc cb :: rest, st =>
    match addCleanup sc cb st with
    | (some e, st) => (some e, st)
    | (none, st) => runActs rest st
  | .note k :: rest, st =>
    match st.curResult with
    | some r => runActs rest (st.record r k)
    | none => (some .attribute, st)

/-- How a callback ends: with the exception of one of its calls, or as scripted. `cleanup_manager.py:182`. -/
def endOf (o : Option Exn) (cb : Cb) : Option Exn :=
  match o with
  | some e => some e
  | none => cb.out.map .user

/-- `_Cleanup.__call__`, `cleanup_manager.py:180-185`: an ordinary exception is added to the result
that was current at registration. Returns the escaping exception and whether it has already been
added to a result. -/
def callCleanup (c : Reg) (st : St) : Option (Exn × Bool) × St :=
  let (o, st) := runActs c.cb.acts st
  let o := endOf o c.cb
  let st := st.emit (.ended c.reg (o.map Exn.kind))
  match o with
  | none => (none, st)
  | some e =>
    if e.kind.isException then
      match c.result with
      | some r => (some (e, true), (st.record r e.kind).emit (.recorded c.reg r e.kind))
      | none => (some (.attribute, false), st)
    else (some (e, false), st)

/-- One `with handling_exceptions(swallow=True): ... cleanup()` of `cleanup_manager.py:156-163`.
An exception not yet added to a result is added to the current one
(`exception_handling.py:23-31`) unless no session is active (`context.result is None`). -/
def guardedCall (c : Reg) (st : St) : Option Exn × St :=
  match callCleanup c st with
  | (none, st) => (none, st)
  | (some (e, recorded), st) =>
    let st := if recorded || st.curResult.isNone then st
      else (st.record st.currentForUpdate e.kind).emit (.recorded c.reg st.currentForUpdate e.kind)
    if e.kind.escapes then (some e, st) else (none, st)

/-- Whether a cleanup is passed over, `cleanup_manager.py:152-155`. -/
def passOver (c : Cb) (inFailure inInterruption : Bool) : Bool :=
  (inInterruption && !c.critical) || ((inFailure || inInterruption) && c.successOnly)

/- Size of callbacks, for termination of the `while stack` loop. -/
mutual
/-- Number of callbacks in a tree (proof device for `cleanup_manager.py:150`). -/
def Cb.size : Cb → Nat
  | .mk _ _ acts _ => 1 + Act.sizes acts
/-- Number of callbacks in a list of calls (proof device for `cleanup_manager.py:150`). -/
def Act.sizes : List Act → Nat
  | [] => 0
  | .add _ cb :: rest => cb.size + Act.sizes rest
  | .note _ :: rest => Act.sizes rest
end

/-- Number of callbacks registered or nested in registered ones (proof device for `cleanup_manager.py:150`). -/
def totalSize (l : List Reg) : Nat := (l.map (fun c => c.cb.size)).sum

theorem totalSize_nil : totalSize [] = 0 := rfl
theorem totalSize_cons (c : Reg) (l : List Reg) : totalSize (c :: l) = c.cb.size + totalSize l := by
  simp [totalSize]

theorem place_size (cb : Cb) (uid : Option Nat) (st : St) (u : Nat) :
    totalSize ((place cb uid st).cleanups u) ≤ totalSize (st.cleanups u) + cb.size := by
  unfold place
  cases uid with
  | none => simp [St.emit]
  | some w =>
    simp only [St.emit]
    split
    · rw [totalSize_cons]; simp only; omega
    · omega

theorem addCleanup_size (sc : ScopeArg) (cb : Cb) (st : St) (u : Nat) :
    totalSize ((addCleanup sc cb st).2.cleanups u) ≤ totalSize (st.cleanups u) + cb.size := by
  unfold addCleanup
  split
  · simp
  · split
    · simp
    · exact place_size _ _ _ _

theorem record_cleanups (st : St) (r : RKey) (k : Kind) : (st.record r k).cleanups = st.cleanups := by
  unfold St.record; simp only; split <;> rfl

theorem runActs_size (acts : List Act) (st : St) (u : Nat) :
    totalSize ((runActs acts st).2.cleanups u) ≤ totalSize (st.cleanups u) + Act.sizes acts := by
  induction acts generalizing st with
  | nil => simp [runActs, Act.sizes]
  | cons a rest ih =>
    cases a with
    | add sc cb =>
      have h1 := addCleanup_size sc cb st u
      simp only [runActs, Act.sizes]
      split
      · rename_i heq; rw [heq] at h1; simp only at h1 ⊢; omega
      · rename_i st1 heq; rw [heq] at h1
        have h2 := ih st1
        simp only at h1 ⊢; omega
    | note k =>
      simp only [runActs, Act.sizes]
      split
      · have := ih (st.record ‹_› k)
        rw [record_cleanups] at this; exact this
      · simp

theorem callCleanup_cleanups (c : Reg) (st : St) :
    (callCleanup c st).2.cleanups = (runActs c.cb.acts st).2.cleanups := by
  unfold callCleanup
  split
  rename_i st1 heq
  simp only [heq]
  split
  · rfl
  · split
    · split
      · simp [St.emit, record_cleanups]
      · rfl
    · rfl

theorem guardedCall_cleanups (c : Reg) (st : St) :
    (guardedCall c st).2.cleanups = (runActs c.cb.acts st).2.cleanups := by
  rw [← callCleanup_cleanups]
  unfold guardedCall
  split
  · rename_i heq; simp [heq]
  · rename_i heq; simp only [heq]
    have : ∀ (b : Bool) (s s' : St), s'.cleanups = s.cleanups →
      (if b then s else s').cleanups = s.cleanups := by intros b s s' h; cases b <;> simp [h]
    split <;> (simp only; apply this; simp [St.emit, record_cleanups])

theorem guardedCall_size (c : Reg) (st : St) (u : Nat) :
    totalSize ((guardedCall c st).2.cleanups u) < totalSize (st.cleanups u) + c.cb.size := by
  rw [guardedCall_cleanups]
  have := runActs_size c.cb.acts st u
  have h2 : c.cb.size = 1 + Act.sizes c.cb.acts := by cases c.cb; simp [Cb.size, Cb.acts]
  omega

/-- The `while stack` loop of `call_cleanups`, `cleanup_manager.py:149-163`, with a bound on the
number of iterations (see `callLoop`). -/
def callLoopN : Nat → Nat → Bool → Bool → St → Option Exn × St
  | 0, _, _, _, st => (none, st)
  | n + 1, u, inF, inI, st =>
    match st.cleanups u with
    | [] => (none, st)
    | c :: rest =>
      let st1 := { st with cleanups := fun v => if v = u then rest else st.cleanups v }
      if passOver c.cb inF inI then
        callLoopN n u inF inI (st1.emit (.skipped c.reg u))
      else
        match guardedCall c (st1.emit (.ran c.reg u)) with
        | (some e, st2) => (some e, st2)
        | (none, st2) => callLoopN n u inF inI st2

/-- The `while stack` loop, `cleanup_manager.py:150-163`. The bound is the number of callbacks that are registered or can still be
registered by them; it is never reached (`Verif.Lemmas.Cleanup.callLoop_run` and `callLoop_skip`
are the unbounded loop equations). -/
def callLoop (u : Nat) (inF inI : Bool) (st : St) : Option Exn × St :=
  callLoopN (totalSize (st.cleanups u) + 1) u inF inI st

/-- `call_cleanups`, `cleanup_manager.py:137-163`. `hook` is what the `before_test_cleanups` hook
raises (only fired for the scope named "test"; not swallowed, line 146-147). -/
def callCleanups (u : Nat) (inF inI : Bool) (hook : Option Kind) (st : St) : Option Exn × St :=
  match (if st.scopeName u = "test" then hook else none) with
  | some k =>
    (some (.user k), if st.curResult.isNone then st else st.record st.currentForUpdate k)
  | none => callLoop u inF inI st

/-- Session-level success of the current result, as consulted by `pop_scope`. For the global result
`is_success` also requires every test result to be successful (`core/result.py:311-318`);
`allTests` lists the tests that have results. -/
def currentSuccess (st : St) (allTests : List Nat) : Bool :=
  match st.curResult with
  | none => true
  | some (.test t) => (st.results (.test t)).isSuccess true
  | some .global => (st.results .global).isSuccess true &&
      allTests.all (fun t => (st.results (.test t)).isSuccess true)

/-- `in_failure`, `in_interruption` of `pop_scope`, `cleanup_manager.py:118-122`. -/
def popFlags (st : St) (allTests : List Nat) : Bool × Bool :=
  match st.curResult with
  | none => (false, false)
  | some r => (!currentSuccess st allTests, (st.results r).isInterrupted)

/-- `pop_scope`, `cleanup_manager.py:117-135`. -/
def popScope (name : String) (hook : Option Kind) (allTests : List Nat) (st : St) : Option Exn × St :=
  let (inF, inI) := popFlags st allTests
  match st.stack with
  | [] => (some .indexError, st)
  | u :: _ =>
    if st.scopeName u ≠ name then (some .internal, st)
    else
      let (o, st) := callCleanups u inF inI hook (st.emit (.closing u inF inI))
      -- `finally`: the scope object is dropped, with whatever is still registered on it
      (o, { st with
        stack := st.stack.tail
        byName := fun n => if n = name then (st.byName n).map List.tail else st.byName n
        cleanups := fun v => if v = u then [] else st.cleanups v
        log := st.log ++ (st.cleanups u).map (fun c => .dropped c.reg u) ++ [.closed u] })

/-- Everything that can happen to the manager. `setImplicit` / `setDefault` are the effects of
entering and leaving `forbid_implicit_scoping_context` and `default_scope_override`
(lines 36-43, 95-102); `setContext` is a change of `context.result` / `context.test` by the runner;
`note` is a result entry made by test code and `start` is `mark_started`. -/
inductive Op where
  | push (name : String)
  | pop (name : String) (hook : Option Kind) (allTests : List Nat)
  | add (sc : ScopeArg) (cb : Cb)
  | setImplicit (b : Bool)
  | setDefault (s : Option String)
  | setContext (r : Option RKey) (t : Option Nat)
  | note (r : RKey) (k : Kind)
  | start (r : RKey)

/-- One operation: dispatch to the functions above (`cleanup_manager.py:36-43,45,95-102,108,117`). -/
def step (st : St) : Op → Option Exn × St
  | .push n => (none, pushScope n st)
  | .pop n h ts => popScope n h ts st
  | .add sc cb => addCleanup sc cb st
  | .setImplicit b => (none, { st with allowImplicit := b })
  | .setDefault s => (none, { st with defaultScope := s })
  | .setContext r t => (none, { st with curResult := r, curTest := t })
  | .note r k => (none, st.record r k)
  | .start r => (none, st.updResult r Result.markStarted)

/-- A history of calls to the manager (`cleanup_manager.py:20-163`): operations are performed whether or not
earlier ones raised. -/
def run (ops : List Op) (st : St) : St := ops.foldl (fun st op => (step st op).2) st

end Slash.Cleanup
