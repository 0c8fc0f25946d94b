/-!
# The parallel server: `slash/parallel/server.py`, `tests_distributer.py`, `worker_configuration.py`

Workers talk to the server by XML-RPC. `SimpleXMLRPCServer` handles one request at a time (`server.py:233-234`), so a
parallel run is, for the server, a sequence of requests in any order; every interleaving of workers is such a sequence.
Tests are named by their index, workers by numbers. A Python exception while a request is handled is sent back to the
caller as a fault; the server goes on with the state reached at that point. Logging, symlinks, reporters and unpickling
are assumed not to raise.
-/
namespace Slash.Par

/-- `ServerStates`, `server.py:22-28` (`NOT_INITIALIZED` only lasts until the server loop starts, line 231). -/
inductive Phase where
  | waitClients | waitValidation | serve | stopTests | stopServe
deriving DecidableEq, Repr

/-- What a worker says about a test it ran, as far as the server looks at it, `server.py:187`. -/
structure WRes where
  fatal : Bool := false
  success : Bool := true
deriving DecidableEq, Repr

/-- The result the parent session has for a test: sent by a worker (`server.py:185`), marked interrupted (104), or a
fresh one, not run (114-116). -/
inductive Outcome where
  | ran (r : WRes) | interrupted | notRun
deriving DecidableEq, Repr

/-- `WorkerConfiguration`: excluded and forced tests, `worker_configuration.py:29-31`. -/
structure WorkerCfg where
  id : Nat
  excluded : List Nat := []
  forced : List Nat := []
deriving DecidableEq, Repr

/-- `exclude_test`, `worker_configuration.py:65-75`; none for the RuntimeError. -/
def WorkerCfg.exclude (i : Nat) (w : WorkerCfg) : Option WorkerCfg :=
  if i ∈ w.forced then none
  else if i ∈ w.excluded then some w
  else some { w with excluded := w.excluded ++ [i] }

/-- `force_test`, `worker_configuration.py:77-87`. -/
def WorkerCfg.force (i : Nat) (w : WorkerCfg) : Option WorkerCfg :=
  if i ∈ w.excluded then none
  else if i ∈ w.forced then some w
  else some { w with forced := w.forced ++ [i] }

/-- `_forced_tests_dict`, `tests_distributer.py:14-17`: for each test the last worker (in the order of the workers) that
forces it. -/
def forcedDict (ws : List WorkerCfg) (i : Nat) : Option Nat :=
  ws.foldl (fun acc w => if i ∈ w.forced then some w.id else acc) none

/-- A Python dict with insertion order (`executing_tests`, `server.py:76`): assignment. -/
def setKey (c : Nat) (v : Option Nat) : List (Nat × Option Nat) → List (Nat × Option Nat)
  | [] => [(c, v)]
  | (d, w) :: l => if d = c then (c, v) :: l else (d, w) :: setKey c v l

/-- Dict lookup, `server.py:98,154,179`. -/
def getKey (c : Nat) : List (Nat × Option Nat) → Option (Option Nat)
  | [] => none
  | (d, w) :: l => if d = c then some w else getKey c l

/-- Fixed parameters: the number of tests, `config.root.parallel.num_workers` (132, 142), `run.stop_on_error` (187), the
sorted collection of the parent (88), and the tests forced when the distributer was created
(`tests_distributer.py:14-17`). -/
structure Cfg where
  n : Nat
  workers : Nat
  stop : Bool := false
  coll : List Nat := []
  forced : Nat → Option Nat := fun _ => none

/-- Fields of `Server` (`server.py:67-89`) and `TestsDistributer` (`tests_distributer.py:8-13`); `cfgs`: the worker
configurations, which the distributer knows by reference. `results`: the parent's results, by test, in creation order.
`handed` and `failed` are ghosts: the tests handed out, in order, with the worker; the workers reported to have
failed while executing a test, with the test (line 101). -/
structure St where
  phase : Phase := .waitClients
  connected : List Nat := []
  executing : List (Nat × Option Nat) := []
  finished : List Nat := []
  validated : Nat := 0
  unstarted : List Nat := []
  cfgs : List WorkerCfg := []
  results : List (Nat × Outcome) := []
  workerError : Bool := false
  interrupted : Bool := false
  handed : List (Nat × Nat) := []
  failed : List (Nat × Nat) := []
deriving DecidableEq, Repr

/-- The server when it starts to serve, `server.py:66-89,231`, `tests_distributer.py:9`. -/
def init (cfg : Cfg) (ws : List WorkerCfg) : St :=
  { unstarted := List.range cfg.n, cfgs := ws }

/-- Requests (`server.py:96-212`). `hookOk`: whether the user's hook called by the request (`worker_connected`,
`test_distributed`) returns normally. `exclude` and `force` are not requests of workers: the user's code, for example a
`before_worker_start` hook (`worker_configuration.py:47`), excludes a test from a worker or forces it there while the
server runs (65-87). -/
inductive Req where
  | connect (c : Nat) (hookOk : Bool)
  | validate (c : Nat) (coll : List Nat)
  | getTest (c : Nat) (hookOk : Bool)
  | finished (c : Nat) (r : WRes)
  | clientFailure (c : Nat)
  | disconnect (c : Nat) (hasFailure : Bool)
  | interrupted
  | sessionError
  | stopServe
  | exclude (c i : Nat)
  | force (c i : Nat)
deriving DecidableEq, Repr

/-- Responses; `fault` is a Python exception, `dead` no response (the server loop ended), `server.py:18-20,156-194`. -/
inductive Resp where
  | ok | bool (b : Bool) | test (i : Nat) | noMore | waiting | protocolError | fault | dead
deriving DecidableEq, Repr

/-- `with _get_test_context(...)` up to its body: creates a result; none if there is one already,
`runner.py:218-232`, `core/result.py:433-439`. -/
def createResult (i : Nat) (o : Outcome) (st : St) : Option St :=
  if i ∈ st.results.map (·.1) then none else some { st with results := st.results ++ [(i, o)] }

/-- The loop of `_mark_unrun_tests`, `server.py:112-117`. -/
def markUnrunLoop : List Nat → St → Bool × St
  | [], st => (true, st)
  | i :: is, st =>
    match createResult i .notRun st with
    | none => (false, st)
    | some st => markUnrunLoop is { st with finished := st.finished ++ [i] }

/-- `_mark_unrun_tests`, `server.py:112-118`; false if it raises. -/
def markUnrun (st : St) : Bool × St :=
  match markUnrunLoop st.unstarted st with
  | (false, st) => (false, st)
  | (true, st) => (true, { st with unstarted := [] })

/-- `_can_execute_test`, `tests_distributer.py:20-25`; none is the KeyError of an unknown worker. -/
def canExecute (cfg : Cfg) (st : St) (c i : Nat) : Option Bool :=
  match cfg.forced i with
  | some w => some (w == c)
  | none => (st.cfgs.find? (·.id == c)).map (fun w => !w.excluded.contains i)

/-- The loop of `get_next_test_for_client`, `tests_distributer.py:28-34`: none for an exception, `some none` if there is
no test for the client. -/
def nextTest (cfg : Cfg) (st : St) (c : Nat) : List Nat → Option (Option Nat)
  | [] => some none
  | i :: is =>
    match canExecute cfg st c i with
    | none => none
    | some true => some (some i)
    | some false => nextTest cfg st c is

/-- `Server.get_test`, `server.py:153-175`. -/
def getTest (cfg : Cfg) (c : Nat) (hookOk : Bool) (st : St) : Resp × St :=
  match getKey c st.executing with
  | none => (.fault, st)
  | some (some _) => (.protocolError, st)
  | some none =>
    if st.phase = .stopTests then (.noMore, st)
    else if st.phase = .waitClients ∨ st.phase = .waitValidation then (.waiting, st)
    else if st.phase = .serve ∧ st.unstarted ≠ [] then
      match nextTest cfg st c st.unstarted with
      | none => (.fault, st)
      | some none => (.noMore, st)
      | some (some i) =>
        let st := { st with unstarted := st.unstarted.erase i, executing := setKey c (some i) st.executing,
                            handed := st.handed ++ [(c, i)] }
        if hookOk then (.test i, st) else (.fault, st)
    else (.noMore, { st with phase := .stopTests })

/-- `Server.finished_test`, `server.py:177-194`. -/
def finishedTest (cfg : Cfg) (c : Nat) (r : WRes) (st : St) : Resp × St :=
  match getKey c st.executing with
  | some (some i) =>
    let st := { st with finished := st.finished ++ [i], executing := setKey c none st.executing }
    match createResult i (.ran r) st with
    | none => (.fault, st)
    | some st =>
      if r.fatal || (!r.success && cfg.stop) then
        match markUnrun { st with phase := .stopTests } with
        | (true, st) => (.ok, st)
        | (false, st) => (.fault, st)
      else (.ok, st)
  | _ => (.protocolError, st)

/-- `Server.report_client_failure`, `server.py:96-107`. -/
def clientFailure (c : Nat) (st : St) : Resp × St :=
  if c ∉ st.connected then (.fault, st)
  else
    let st := { st with connected := st.connected.erase c }
    let rest (st : St) : Resp × St :=
      match markUnrun { st with phase := .stopTests } with
      | (true, st) => (.ok, { st with workerError := true })
      | (false, st) => (.fault, st)
    match getKey c st.executing with
    | some (some i) =>
      match createResult i .interrupted st with
      | none => (.fault, st)
      | some st => rest { st with finished := st.finished ++ [i], failed := (c, i) :: st.failed }
    | _ => rest st

/-- `Server.connect`, `server.py:123-134` (`connected_clients` is a set). -/
def connect (cfg : Cfg) (c : Nat) (hookOk : Bool) (st : St) : Resp × St :=
  let st := if c ∈ st.connected then st else { st with connected := st.connected ++ [c] }
  if !hookOk then (.fault, st)
  else
    let st := { st with executing := setKey c none st.executing }
    (.ok, if cfg.workers ≤ st.connected.length then { st with phase := .waitValidation } else st)

/-- `Server.validate_collection`, `server.py:136-145`. -/
def validate (cfg : Cfg) (coll : List Nat) (st : St) : Resp × St :=
  if coll ≠ cfg.coll then (.bool false, st)
  else
    let st := { st with validated := st.validated + 1 }
    (.bool true, if cfg.workers ≤ st.validated ∧ st.phase = .waitValidation then { st with phase := .serve } else st)

/-- The user's code changes the configuration of worker `c`; a RuntimeError changes nothing,
`worker_configuration.py:65-87`. -/
def configure (f : WorkerCfg → Option WorkerCfg) (c : Nat) (ws : List WorkerCfg) : List WorkerCfg :=
  ws.map (fun w => if w.id = c then (f w).getD w else w)

/-- One request: `server.py:96-212`, dispatched by the loop 233-234, which ends in state `STOP_SERVE`. -/
def step (cfg : Cfg) (st : St) (q : Req) : Resp × St :=
  if st.phase = .stopServe then (.dead, st)
  else match q with
    | .connect c hookOk => connect cfg c hookOk st
    | .validate _ coll => validate cfg coll st
    | .getTest c hookOk => getTest cfg c hookOk st
    | .finished c r => finishedTest cfg c r st
    | .clientFailure c => clientFailure c st
    | .disconnect c hasFailure =>
      if c ∉ st.connected then (.fault, st)
      else
        let st := { st with connected := st.connected.erase c }
        (.ok, if hasFailure then { st with phase := .stopTests } else st)
    | .interrupted => (.ok, { st with interrupted := true, phase := .stopTests })
    | .sessionError => (.ok, { st with workerError := true })
    | .stopServe => (.ok, { st with phase := .stopServe })
    | .exclude c i => (.ok, { st with cfgs := configure (·.exclude i) c st.cfgs })
    | .force c i => (.ok, { st with cfgs := configure (·.force i) c st.cfgs })

/-- A whole history of requests (`server.py:233-234`), with the responses. -/
def run (cfg : Cfg) : St → List Req → List Resp × St
  | st, [] => ([], st)
  | st, q :: qs =>
    let (r, st) := step cfg st q
    let (rs, st) := run cfg st qs
    (r :: rs, st)

/-- `has_more_tests`, `server.py:93-94`. -/
def hasMoreTests (cfg : Cfg) (st : St) : Bool := st.finished.length < cfg.n
/-- `should_wait_for_request`, `server.py:217-218`. -/
def shouldWait (cfg : Cfg) (st : St) : Bool := !st.connected.isEmpty || hasMoreTests cfg st

end Slash.Par
