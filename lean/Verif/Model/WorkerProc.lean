/-!
# The processes of the workers: `slash/parallel/worker_configuration.py` and `slash/parallel/parallel_manager.py`

How the parent of a parallel run starts its workers, with which command line, and what it does with them until its run is
over. `Verif/Model/Worker.lean` models what the workers ask of the server; here the processes are seen from outside.

Simplifications: what a process does is a parameter (whether it ends by itself, whether it ends when it is sent `SIGTERM`, and
whether it does so within the five seconds given to workers in `tmux`). The calls of the parent to its own server may fail, as
given by a parameter. The loops of `parallel_manager.py:81-113`, which look at clocks, are a parameter too: a list of what they
notice and the way they end. A worker in `tmux` is sent signals under the pid it reported when it connected; such pids are not
reused. Log lines are not modelled, nor are `mkdtemp` and threads.
-/
namespace Slash.WP

/-- An argument of a command line, `worker_configuration.py:28-29`. -/
abbrev Arg := List Char

/-- Exceptions: `INTERRUPTION_EXCEPTIONS` (`exceptions.py:12`), `ParallelTimeout`, `TypeError` of `os.kill(None, …)`,
`AttributeError` of `None.wait()`, and any other. -/
inductive Exc where
  | interruption | timeout | typeError | attributeError | other (n : Nat)
deriving DecidableEq, Repr

/-- `ProcessWorkerConfiguration` and `TmuxWorkerConfiguration`, `worker_configuration.py:98,117`. -/
inductive Kind where
  | process | tmux
deriving DecidableEq, Repr

/-- What a process does: it ends by itself some time, it ends when sent `SIGTERM`, it ends within five seconds once it is to
end (`worker_configuration.py:149-154`). `interrupts`: the parent is interrupted while waiting for it (115, 154). -/
structure Beh where
  alone : Bool := true
  onTerm : Bool := true
  soon : Bool := true
  interrupts : Bool := false
deriving DecidableEq, Repr

/-- A started process: `termed` if it was sent `SIGTERM` (`worker_configuration.py:105,144`), `killed` if it was killed (109),
`over` once the parent saw it end (115, 151-152). -/
structure Proc where
  beh : Beh := {}
  termed : Bool := false
  killed : Bool := false
  over : Bool := false
deriving DecidableEq, Repr

/-- The process ends at some time, `worker_configuration.py:105,109,115,144`. -/
def Proc.ends (p : Proc) : Bool := p.killed || p.beh.alone || (p.termed && p.beh.onTerm)

/-- A worker as the parent sees it, `worker_configuration.py:25-32,118-120`: `known` if the server was told its pid
(`server.worker_to_pid`, 130-133), `proc` the process, once started. -/
structure Wkr where
  wid : Arg
  kind : Kind := .process
  argv : List Arg
  known : Bool := false
  proc : Option Proc := none
deriving DecidableEq, Repr

/-- The calls of the parent to its servers, `parallel_manager.py:78,98,127,134,135`. -/
inductive Call where
  | sessionError | clientFailure (wid : Arg) | sessionInterrupted | stop | stopKeepalive
deriving DecidableEq, Repr

/-- What can be seen from outside, in order: a process started from a list of arguments (`worker_configuration.py:101`), a line
typed into a shell (126,128), signals, the end of a process seen, and calls of the servers. -/
inductive Ev where
  | exec (wid : Arg) (argv : List Arg)
  | shell (wid : Arg) (line : List Char)
  | term (wid : Arg)
  | kill (wid : Arg)
  | over (wid : Arg)
  | call (c : Call)
deriving DecidableEq, Repr

/-- How a step ends: normally, with an exception, or never, `parallel_manager.py:115-137`. -/
inductive Out where
  | ok | raised (e : Exc) | hangs
deriving DecidableEq, Repr

/-- The workers with what happened so far, `parallel_manager.py:30`. -/
structure St where
  ws : List Wkr
  evs : List Ev := []
deriving DecidableEq, Repr

/-- The parent's own command line: the interpreter, the command (`run`, …), the arguments after it (`main.py:33-34`), and the id
of the session. `worker_configuration.py:28-29`. -/
structure Cmd where
  exe : Arg
  cmd : Arg
  args : List Arg
  session : Arg

/-- `WorkerConfiguration.__init__`, `worker_configuration.py:28-29`. -/
def initArgv (c : Cmd) (wid : Arg) : List Arg :=
  [c.exe, "-m".toList, "slash.frontend.main".toList, c.cmd, "--parallel-parent-session-id".toList, c.session] ++ c.args ++
    ["--parallel-worker-id".toList, wid]

/-- `_create_workers`, `parallel_manager.py:36-41`. -/
def create (c : Cmd) (kind : Kind) (num : Nat) : St :=
  { ws := (List.range num).map fun i => { wid := Nat.toDigits 10 (i + 1), kind := kind, argv := initArgv c (Nat.toDigits 10 (i + 1)) } }

/-- The ports of the two servers and the directory for errors, `worker_configuration.py:49-51`. -/
structure Ports where
  port : Arg
  keepalive : Arg
  errDir : Arg

/-- The arguments added in `start`, `worker_configuration.py:49-51`. -/
def Ports.argv (p : Ports) : List Arg :=
  ["--parallel-port".toList, p.port, "--keepalive-port".toList, p.keepalive, "--workers-error-dir".toList, p.errDir]

/-- Everything that is not slash: what the user's `before_worker_start` hooks do (raise, or leave another `argv`;
`worker_configuration.py:47`), whether the process or window can be made (100-101, 125-128), what the processes do, and which
calls of the servers fail (`parallel_manager.py:19-20`). -/
structure Env where
  ports : Ports
  hook : Arg → List Arg → Except Exc (List Arg) := fun _ a => .ok a
  spawn : Arg → Option Exc := fun _ => none
  beh : Arg → Beh := fun _ => {}
  rpc : Call → Option Exc := fun _ => none

/-- `' '.join(argv)`, `worker_configuration.py:124`. -/
def join : List Arg → List Char
  | [] => []
  | [a] => a
  | a :: b :: l => a ++ ' ' :: join (b :: l)

/-- `_start`, `worker_configuration.py:99-101,122-128`: what is seen. -/
def startEv (w : Wkr) : Ev :=
  match w.kind with
  | .process => .exec w.wid w.argv
  | .tmux => .shell w.wid (join (w.argv ++ [";$SHELL".toList]))

/-- `start`, `worker_configuration.py:46-52`. -/
def startOne (env : Env) (w : Wkr) : Wkr × List Ev × Out :=
  match env.hook w.wid w.argv with
  | .error e => (w, [], .raised e)
  | .ok a =>
    match env.spawn w.wid with
    | some e => ({ w with argv := a ++ env.ports.argv }, [], .raised e)
    | none => ({ w with argv := a ++ env.ports.argv, proc := some { beh := env.beh w.wid } },
        [startEv { w with argv := a ++ env.ports.argv }], .ok)

/-- `parallel_manager.py:118-119`. -/
def startAll (env : Env) : List Wkr → List Wkr × List Ev × Out
  | [] => ([], [], .ok)
  | w :: l =>
    match startOne env w with
    | (w', evs, .ok) =>
      match startAll env l with
      | (l', evs', o) => (w' :: l', evs ++ evs', o)
    | (w', evs, o) => (w' :: l, evs, o)

/-- `kill` of a worker, `worker_configuration.py:103-105,142-147`: a process is sent `SIGTERM` if there is one; for `tmux` the pid
must be known. -/
def killOne (w : Wkr) : Wkr × List Ev × Out :=
  match w.kind, w.proc with
  | .process, none => (w, [], .ok)
  | .process, some p => ({ w with proc := some { p with termed := true } }, [.term w.wid], .ok)
  | .tmux, none => (w, [], .raised .typeError)
  | .tmux, some p =>
    if w.known then ({ w with proc := some { p with termed := true } }, [.term w.wid], .ok)
    else (w, [], .raised .typeError)

/-- `kill_workers`, `parallel_manager.py:58-60`. -/
def killAll : List Wkr → List Wkr × List Ev × Out
  | [] => ([], [], .ok)
  | w :: l =>
    match killOne w with
    | (w', evs, .ok) =>
      match killAll l with
      | (l', evs', o) => (w' :: l', evs ++ evs', o)
    | (w', evs, o) => (w' :: l, evs, o)

/-- `handle_timeout`, `worker_configuration.py:107-109,135-137`: a process is killed, a window is renamed. -/
def timeoutOne (w : Wkr) : Wkr × List Ev :=
  match w.kind, w.proc with
  | .process, some p => ({ w with proc := some { p with killed := true } }, [.kill w.wid])
  | _, _ => (w, [])

/-- `wait_to_finish`, `worker_configuration.py:114-115,149-154`. -/
def waitOne (w : Wkr) : Wkr × List Ev × Out :=
  match w.kind, w.proc with
  | .process, none => (w, [], .raised .attributeError)
  | .process, some p =>
    if p.beh.interrupts then (w, [], .raised .interruption)
    else if p.ends then ({ w with proc := some { p with over := true } }, [.over w.wid], .ok)
    else (w, [], .hangs)
  | .tmux, none => (w, [], .raised .typeError)
  | .tmux, some p =>
    if w.known then
      if p.beh.interrupts then (w, [], .raised .interruption)
      else if p.ends && p.beh.soon then ({ w with proc := some { p with over := true } }, [.over w.wid], .ok) else (w, [], .ok)
    else (w, [], .raised .typeError)

/-- `parallel_manager.py:131-132`. -/
def waitAll : List Wkr → List Wkr × List Ev × Out
  | [] => ([], [], .ok)
  | w :: l =>
    match waitOne w with
    | (w', evs, .ok) =>
      match waitAll l with
      | (l', evs', o) => (w' :: l', evs ++ evs', o)
    | (w', evs, o) => (w' :: l, evs, o)

/-- A call of a server, `parallel_manager.py:19-20,78,98,127,134,135`. -/
def call (env : Env) (c : Call) : List Ev × Out :=
  match env.rpc c with
  | none => ([.call c], .ok)
  | some e => ([.call c], .raised e)

/-- What the loops of `parallel_manager.py:81-113,121-124` notice: a worker told the server its pid, or a worker was not heard of
for too long (94-98). -/
inductive Note where
  | connected (wid : Arg)
  | silent (wid : Arg)
deriving DecidableEq, Repr

/-- How those loops end, `parallel_manager.py:81-86,100-113,121-125`: no more requests are to come, one of the time-outs handled by
`handle_error`, or an exception (of which an interruption is one). -/
inductive End where
  | done | error | raised (e : Exc)
deriving DecidableEq, Repr

/-- A worker that becomes known, `server.worker_to_pid`, `worker_configuration.py:131-132`. -/
def learn (wid : Arg) (w : Wkr) : Wkr := if w.wid = wid then { w with known := true } else w

/-- `self.workers[worker_id].handle_timeout()`, `parallel_manager.py:97`. -/
def silence (wid : Arg) (w : Wkr) : Wkr := if w.wid = wid then (timeoutOne w).1 else w

/-- The events of `handle_timeout` of a worker, `parallel_manager.py:97`. -/
def silenceEvs (wid : Arg) (ws : List Wkr) : List Ev := (ws.filter (·.wid = wid)).flatMap fun w => (timeoutOne w).2

/-- One thing noticed, `parallel_manager.py:88-98`. -/
def note (env : Env) (n : Note) (s : St) : St × Out :=
  match n with
  | .connected wid => ({ s with ws := s.ws.map (learn wid) }, .ok)
  | .silent wid =>
    match call env (.clientFailure wid) with
    | (evs, o) => ({ ws := s.ws.map (silence wid), evs := s.evs ++ silenceEvs wid s.ws ++ evs }, o)

/-- The things noticed, in order, `parallel_manager.py:121-124`. -/
def notes (env : Env) : List Note → St → St × Out
  | [], s => (s, .ok)
  | n :: l, s =>
    match note env n s with
    | (s', .ok) => notes env l s'
    | (s', o) => (s', o)

/-- `handle_error`, `parallel_manager.py:74-79`. -/
def handleError (env : Env) (s : St) : St × Out :=
  match killAll s.ws with
  | (ws, evs, .ok) =>
    match call env .sessionError with
    | (evs', .ok) => ({ ws := ws, evs := s.evs ++ evs ++ evs' }, .raised .timeout)
    | (evs', o) => ({ ws := ws, evs := s.evs ++ evs ++ evs' }, o)
  | (ws, evs, o) => ({ ws := ws, evs := s.evs ++ evs }, o)

/-- The loops, `parallel_manager.py:120-124`. -/
def loops (env : Env) (l : List Note) (e : End) (s : St) : St × Out :=
  match notes env l s with
  | (s', .ok) =>
    match e with
    | .done => (s', .ok)
    | .error => handleError env s'
    | .raised x => (s', .raised x)
  | (s', o) => (s', o)

/-- The `try` part, `parallel_manager.py:117-124`. -/
def tryPart (env : Env) (l : List Note) (e : End) (s : St) : St × Out :=
  match startAll env s.ws with
  | (ws, evs, .ok) => loops env l e { ws := ws, evs := s.evs ++ evs }
  | (ws, evs, o) => ({ ws := ws, evs := s.evs ++ evs }, o)

/-- The `except` part, `parallel_manager.py:125-129`. -/
def interruptPart (env : Env) (s : St) : St × Out :=
  match call env .sessionInterrupted with
  | (evs, .ok) =>
    match killAll s.ws with
    | (ws, evs', .ok) => ({ ws := ws, evs := s.evs ++ evs ++ evs' }, .raised .interruption)
    | (ws, evs', o) => ({ ws := ws, evs := s.evs ++ evs ++ evs' }, o)
  | (evs, o) => ({ s with evs := s.evs ++ evs }, o)

/-- The calls at the end of the `finally` part, `parallel_manager.py:134-137`. -/
def stopPart (env : Env) (s : St) : St × Out :=
  match call env .stop with
  | (evs, .ok) =>
    match call env .stopKeepalive with
    | (evs', o) => ({ s with evs := s.evs ++ evs ++ evs' }, o)
  | (evs, o) => ({ s with evs := s.evs ++ evs }, o)

/-- The `finally` part, `parallel_manager.py:130-137`; an exception in it takes the place of `o`. -/
def finallyPart (env : Env) (o : Out) (s : St) : St × Out :=
  match waitAll s.ws with
  | (ws, evs, .ok) =>
    match stopPart env { ws := ws, evs := s.evs ++ evs } with
    | (s', .ok) => (s', o)
    | (s', o') => (s', o')
  | (ws, evs, o') => ({ ws := ws, evs := s.evs ++ evs }, o')

/-- `start`, `parallel_manager.py:115-137`, once the servers run. -/
def start (env : Env) (l : List Note) (e : End) (s : St) : St × Out :=
  match tryPart env l e s with
  | (s', .raised .interruption) =>
    match interruptPart env s' with
    | (s'', o) => finallyPart env o s''
  | (s', o) => finallyPart env o s'

/-- How a shell sees a line without quotes: it is cut into words at blanks, up to the first `;`. The first argument is the word
being read. `worker_configuration.py:124-128`. -/
def words (cur : List Char) : List Char → List Arg
  | [] => if cur = [] then [] else [cur]
  | c :: l =>
    if c = ';' then (if cur = [] then [] else [cur])
    else if c = ' ' then (if cur = [] then words [] l else cur :: words [] l)
    else words (cur ++ [c]) l

/-- The program a started worker runs, as a list of arguments, `worker_configuration.py:99-101,122-128`. -/
def Ev.program : Ev → Option (Arg × List Arg)
  | .exec wid a => some (wid, a)
  | .shell wid l => some (wid, words [] l)
  | _ => none

/-- What `argparse` takes as options: nothing after `--`. `main.py:33-34`, `app.py:116`. -/
def optionsPart (a : List Arg) : List Arg := a.takeWhile (· ≠ "--".toList)

end Slash.WP
