import Verif.Model.Parallel
/-!
# A whole parallel run: `slash/parallel/worker.py`, `parallel_manager.py` with the server

The server (`Verif/Model/Parallel.lean`) together with the worker processes and the parent's manager loop. An execution is
any sequence of actions: a worker does its next request (and what it does locally before and after it), a worker dies at
any point, its keep-alive thread is heard, the manager reports a worker as dead, and so on. So every interleaving is an
execution. A test is identified, as in the code, by its signature (file, function name, dumped variation), here a number;
different tests may have the same signature.

Simplifications: the manager only reports dead workers as failed (its time-out is assumed to be long enough for living ones,
see `C30_late_report_violated` for what happens otherwise). Warnings sent by workers (`worker.py:36-42`) change nothing here. Timing is not modelled: a time-out may happen at any time at which its condition can hold.
-/
namespace Slash.Par

/-- Insertion into a sorted list, for `sorted`, `worker.py:85`. -/
def insertSorted (x : Nat) : List Nat → List Nat
  | [] => [x]
  | y :: l => if x ≤ y then x :: y :: l else y :: insertSorted x l

/-- `sorted(...)`, `worker.py:85`, `server.py:84`. -/
def sorted : List Nat → List Nat
  | [] => []
  | x :: l => insertSorted x (sorted l)

/-- Where a worker is in its program: before `connect_to_server` (`worker.py:57-61`), before `validate_collection` (85), at
the top of its loop (98-99), running its own test `j` for the parent's test `i` (111-117), before the disconnect of line 133,
before the one of line 89; `gone`: finished; `dead`: it died, or left with an exception, without disconnecting. -/
inductive WPhase where
  | fresh | connected | loop | running (i j : Nat) | ending | leaving | gone | dead
deriving DecidableEq, Repr

/-- The worker process is not there any more, `parallel_manager.py:131-132`. -/
def WPhase.over : WPhase → Bool
  | .gone | .dead => true
  | _ => false

/-- Local state of a worker: `avail` is `signatures_dict` (`worker.py:93-95`) as pairs of a signature and an index; `heard`:
whether its keep-alive thread reached the server (`worker.py:30-34`, `server.py:39-42`). Ghosts: `valid`, whether the server
agreed with its collection; `ran`, the tests it started,
as the index of the parent and its own; `sent`, the results the server took, with the index of the parent. -/
structure W where
  phase : WPhase := .fresh
  avail : List (Nat × Nat) := []
  heard : Bool := false
  valid : Bool := false
  ran : List (Nat × Nat) := []
  sent : List (Nat × WRes) := []
deriving DecidableEq, Repr

/-- What is left open in a step of a worker: whether the user's hook in the server returns normally, which element
`set.pop` gives (`worker.py:111`), and how the test ends (114-115). -/
structure Choice where
  hookOk : Bool := true
  pick : Nat := 0
  res : WRes := {}
deriving DecidableEq, Repr

/-- `signatures_dict` after the loop `worker.py:93-95`. -/
def signatures (coll : List Nat) : List (Nat × Nat) := coll.zipIdx

/-- `signatures_dict[sig].pop()`, `worker.py:111`; none is the KeyError of the empty set. -/
def popSig (sig pick : Nat) (avail : List (Nat × Nat)) : Option (Nat × List (Nat × Nat)) :=
  match (avail.filter (·.1 == sig))[pick % (avail.filter (·.1 == sig)).length]? with
  | none => none
  | some q => some (q.2, avail.erase q)

/-- The next request of a worker with collection `coll`, `worker.py:60,85,89,99,117,133`. -/
def request (c : Nat) (coll : List Nat) (x : Choice) : WPhase → Option Req
  | .fresh => some (.connect c x.hookOk)
  | .connected => some (.validate c (sorted coll))
  | .loop => some (.getTest c x.hookOk)
  | .running _ _ => some (.finished c x.res)
  | .ending => some (.disconnect c false)
  | .leaving => some (.disconnect c true)
  | .gone | .dead => none

/-- What the worker does with the response, up to its next request: `worker.py:57-65,85-95,98-136`. `sigs`: the collection
of the parent, which sends the signature of the test along with its index (`server.py:171`). A fault, or no server, is an
exception in the worker. -/
def receive (sigs coll : List Nat) (x : Choice) (w : W) (r : Resp) : W :=
  match w.phase, r with
  | .fresh, .ok => { w with phase := .connected }
  | .connected, .bool true => { w with phase := .loop, avail := signatures coll, valid := true }
  | .connected, .bool false => { w with phase := .leaving }
  | .loop, .waiting => w
  | .loop, .protocolError => { w with phase := .ending }
  | .loop, .noMore => { w with phase := .ending }
  | .loop, .test i =>
    match sigs[i]? with
    | none => { w with phase := .dead }
    | some sig =>
      match popSig sig x.pick w.avail with
      | none => { w with phase := .dead }
      | some (j, avail) => { w with phase := .running i j, avail := avail, ran := w.ran ++ [(i, j)] }
  | .running i _, .ok => { w with phase := .loop, sent := w.sent ++ [(i, x.res)] }
  | .running _ _, .protocolError => { w with phase := .ending }
  | .ending, .ok => { w with phase := .gone }
  | .leaving, .ok => { w with phase := .gone }
  | _, _ => { w with phase := .dead }

/-- A parallel run: the signatures of the parent's tests in order (`server.py:80-83`), the workers created
(`parallel_manager.py:36-41`) with what the user excluded or forced before the server was created, what each worker
collected (`worker.py:82-84`), and `run.stop_on_error`. -/
structure Plan where
  sigs : List Nat
  workers : List WorkerCfg
  coll : Nat → List Nat
  stop : Bool := false

/-- The configuration of the server, `server.py:65-85,132,142`, `tests_distributer.py:9-17`. -/
def Plan.cfg (p : Plan) : Cfg :=
  { n := p.sigs.length, workers := p.workers.length, stop := p.stop, coll := sorted p.sigs, forced := forcedDict p.workers }

/-- The whole system: the server, the local states of the workers, whether the manager left its loop with an exception
(`parallel_manager.py:79,125-129`). Ghost: the requests handled so far. -/
structure Sys where
  srv : St
  loc : Nat → W := fun _ => {}
  raised : Bool := false
  hist : List Req := []

/-- The system once the server runs and the workers are started, `parallel_manager.py:50-56,115-119`. -/
def Sys.start (p : Plan) : Sys := { srv := init p.cfg p.workers }

/-- Actions. `act`: a worker does its next request. `die`: the process of a worker ends, or leaves with an exception
(`worker.py:122-128`). `keepAlive`: `worker.py:33`. `report`: the manager finds that a worker has not been heard of for too
long (`parallel_manager.py:88-98`). `interrupt`: the parent is interrupted (125-129). `giveUp`: one of the other time-outs
(`handle_error`, 74-79,81-86,100-113). `problem`: a worker tells the parent of an error outside of its tests
(`worker.py:44-46`, `server.py:213-215`). `stop`: the end of `start` (130-137). `exclude`, `force`: the user's code in the
parent. -/
inductive Act where
  | act (c : Nat) (x : Choice)
  | die (c : Nat)
  | keepAlive (c : Nat)
  | report (c : Nat)
  | interrupt
  | giveUp
  | problem (c : Nat)
  | stop
  | exclude (c i : Nat)
  | force (c i : Nat)
deriving DecidableEq, Repr

/-- The local state of one worker changes, `worker.py:57-136`. -/
def Sys.set (s : Sys) (c : Nat) (w : W) : Sys := { s with loc := fun d => if d = c then w else s.loc d }

/-- The server handles a request, `server.py:228-229`. -/
def Sys.ask (p : Plan) (s : Sys) (q : Req) : Resp × Sys :=
  ((step p.cfg s.srv q).1, { s with srv := (step p.cfg s.srv q).2, hist := s.hist ++ [q] })

/-- all worker processes have ended, `wait_to_finish`, `parallel_manager.py:131-132` -/
def Sys.allOver (p : Plan) (s : Sys) : Bool := p.workers.all (fun w => (s.loc w.id).phase.over)

/-- One action. An action that is not possible in the state changes nothing. `worker.py:57-136`, `parallel_manager.py:81-137`. -/
def Sys.step (p : Plan) (s : Sys) : Act → Sys
  | .act c x =>
    if c ∈ p.workers.map (·.id) then
      match request c (p.coll c) x (s.loc c).phase with
      | none => s
      | some q =>
        let (r, s') := s.ask p q
        s'.set c (receive p.sigs (p.coll c) x (s.loc c) r)
    else s
  | .die c => if (s.loc c).phase = .gone then s else s.set c { s.loc c with phase := .dead }
  | .keepAlive c => if (s.loc c).phase.over ∨ (s.loc c).phase = .fresh then s else s.set c { s.loc c with heard := true }
  | .report c =>
    if (s.loc c).phase = .dead ∧ (s.loc c).heard ∧ c ∈ s.srv.connected then (s.ask p (.clientFailure c)).2 else s
  | .interrupt => { (s.ask p .interrupted).2 with raised := true }
  | .giveUp => { (s.ask p .sessionError).2 with raised := true }
  | .stop => if s.allOver p ∧ (s.raised ∨ shouldWait p.cfg s.srv = false) then (s.ask p .stopServe).2 else s
  | .problem _ => (s.ask p .sessionError).2
  | .exclude c i => (s.ask p (.exclude c i)).2
  | .force c i => (s.ask p (.force c i)).2

/-- An execution, `parallel_manager.py:115-137`. -/
def Sys.run (p : Plan) : List Act → Sys → Sys
  | [], s => s
  | a :: as, s => Sys.run p as (s.step p a)

end Slash.Par
