import Verif.Model.Worker
/-!
# The clocks of a parallel run: `slash/parallel/parallel_manager.py:81-113`, `KeepaliveServer` of `server.py:30-62`

The system of `Verif/Model/Worker.lean` with time: the parent notes when it heard of each worker and of any worker, and its
loop looks at these times. Here time-outs happen exactly when the conditions in the code hold.

Simplifications: one look of the manager (one turn of one of its loops) happens at one moment. Time is a natural number of
any unit, so clocks do not go backwards. Workers are processes, not windows of tmux (`worker_configuration.py:98-115`); a
worker that is killed stops at once. The two servers of the parent are created at the same time (`parallel_manager.py:50-56`).
-/
namespace Slash.Par

/-- `parallel.worker_connect_timeout`, `communication_timeout_secs`, `no_request_timeout`, `conf.py:115-117`. -/
structure Clock where
  connect : Nat := 10
  comm : Nat := 60
  idle : Nat := 20
deriving DecidableEq, Repr

/-- Where the manager is: in the loop that waits for the workers to connect, in the loop after it, past both,
`parallel_manager.py:81-86,122-125,126-137`. -/
inductive MPhase where
  | connecting | watching | left
deriving DecidableEq, Repr

/-- The system with its times: now, the last keep-alive of any worker (`last_request_time`, `server.py:34,41`), and the last one
of each worker (`clients_last_communication_time`, 33,41). The servers were created at time zero (`server.py:34,79`). -/
structure TSys where
  sys : Sys
  now : Nat := 0
  lastReq : Nat := 0
  seen : Nat → Option Nat := fun _ => none
  man : MPhase := .connecting

/-- The start of the run, `parallel_manager.py:50-56,115-119`. -/
def TSys.start (p : Plan) : TSys := { sys := Sys.start p }

/-- What happens, in order: time passes; something happens in a worker or in the user's code (`other`); the keep-alive of a
worker arrives (`worker.py:30-34`); the manager has a look (`parallel_manager.py:81-86,122-125`); it is interrupted (126-129);
`start` ends (130-137). -/
inductive TAct where
  | pass (n : Nat)
  | other (a : Act)
  | beat (c : Nat)
  | look
  | interrupt
  | stop
deriving DecidableEq, Repr

/-- What happens outside of the manager and of the keep-alive threads: requests and deaths of workers, errors they tell of,
and the user's configuration of workers; `worker.py:44-136`, `worker_configuration.py:65-87`. -/
def Act.outside : Act → Bool
  | .act _ _ | .die _ | .problem _ | .exclude _ _ | .force _ _ => true
  | _ => false

/-- The worker is connected to the server and runs, so that its keep-alive thread runs, `worker.py:57-64`. -/
def WPhase.up (w : WPhase) : Bool := !w.over && w != .fresh

/-- `keep_alive` of the keep-alive server, `server.py:39-42`, if the worker is there to call it. -/
def TSys.beat (p : Plan) (c : Nat) (t : TSys) : TSys :=
  if (t.sys.loc c).phase.up then
    { t with sys := t.sys.step p (.keepAlive c), lastReq := t.now, seen := fun d => if d = c then some t.now else t.seen d }
  else t

/-- The body of the loop of `check_worker_timed_out`, `parallel_manager.py:91-98`: a worker not heard of for too long is killed
(`worker_configuration.py:107-109`), and the server is told. -/
def TSys.check (k : Clock) (p : Plan) (t : TSys) (c : Nat) : TSys :=
  match t.seen c with
  | none => t
  | some u => if k.comm < t.now - u then { t with sys := (t.sys.step p (.die c)).step p (.report c) } else t

/-- `handle_error`, `parallel_manager.py:74-79`: it leaves the loops with an exception. -/
def TSys.giveUp (p : Plan) (t : TSys) : TSys := { t with sys := t.sys.step p .giveUp, man := .left }

/-- A turn of the second loop, `parallel_manager.py:88-113,123-125`; the workers looked at are those connected at the start of
the turn (90). -/
def TSys.watch (k : Clock) (p : Plan) (t : TSys) : TSys :=
  if shouldWait p.cfg t.sys.srv then
    let t' := t.sys.srv.connected.foldl (TSys.check k p) t
    if k.idle < t'.now - t'.lastReq then t'.giveUp p else t'
  else { t with man := .left }

/-- A turn of the loop the manager is in, `parallel_manager.py:81-86,122-125`. -/
def TSys.look (k : Clock) (p : Plan) (t : TSys) : TSys :=
  match t.man with
  | .left => t
  | .connecting =>
    if t.sys.srv.phase = .waitClients then
      if k.connect * p.workers.length < t.now then t.giveUp p else t
    else TSys.watch k p { t with man := .watching }
  | .watching => TSys.watch k p t

/-- One thing that happens, `parallel_manager.py:81-137`. -/
def TSys.step (k : Clock) (p : Plan) (t : TSys) : TAct → TSys
  | .pass n => { t with now := t.now + n }
  | .other a => if a.outside then { t with sys := t.sys.step p a } else t
  | .beat c => t.beat p c
  | .look => t.look k p
  | .interrupt => if t.man = .left then t else { t with sys := t.sys.step p .interrupt, man := .left }
  | .stop => if t.man = .left then { t with sys := t.sys.step p .stop } else t

/-- A timed execution, `parallel_manager.py:115-137`. -/
def TSys.run (k : Clock) (p : Plan) (l : List TAct) (t : TSys) : TSys := l.foldl (TSys.step k p) t

end Slash.Par
