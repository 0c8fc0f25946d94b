/-!
# Error objects; results sent by workers; the notice about slow operations

`core/error.py`, `core/result.py:57-119,205-246`, `utils/interactive.py:67-90`.
-/
namespace Slash.Tr

/-! ## Error objects -/

/-- An error object, `core/error.py:22-50`: the exception it was made from, whether it is a failure, whether it is fatal, whether it still holds the exception (`exc_info`). -/
structure ErrObj where
  exc : Option Nat
  failure : Bool
  fatal : Bool
  held : Bool
deriving DecidableEq, Repr

/-- Exceptions: whether they are of a failure type, whether attributes can be set on them (`core/error.py:50`, `utils/python.py:138-145`). -/
structure ExcEnv where
  failureType : Nat → Bool
  settable : Nat → Bool

/-- The state: all error objects, those remembered on exceptions, fatal marks and marks of being added on exceptions; the lists of a result; hooks and reports so far
(`core/error.py:101`, `core/result.py:39-40`). -/
structure ESt where
  heap : List ErrObj := []
  cache : List (Nat × Nat) := []
  fatals : List Nat := []
  added : List Nat := []
  errors : List Nat := []
  failures : List Nat := []
  hooks : List Nat := []
  reported : List Nat := []
deriving DecidableEq, Repr

/-- The argument of `add_error`, `core/result.py:225-231`: none, an error object, something else. -/
inductive Arg where
  | none | obj (id : Nat) | value
deriving DecidableEq, Repr

/-- A call of `add_error` or `add_failure`, `core/result.py:205-217`: the exception given, the active one; whether `error_added` is triggered (`core/result.py:239`) and raises. -/
structure Call where
  failure : Bool := false
  arg : Arg := .none
  info : Option Nat := none
  current : Option Nat := none
  triggers : Bool := true
  hookRaises : Bool := false
deriving DecidableEq, Repr

/-- A new error object, `core/error.py:24-50`. -/
def mkErr (env : ExcEnv) (s : ESt) (exc : Option Nat) : ErrObj :=
  { exc := exc, failure := exc.any env.failureType, fatal := exc.any s.fatals.contains, held := exc.isSome }

/-- The object remembered on an exception, `core/error.py:97-99`. -/
def cached (s : ESt) (e : Nat) : Option Nat := (s.cache.find? (fun x => x.1 == e)).map (·.2)

/-- `capture_exception`, `core/error.py:90-102`. -/
def capture (env : ExcEnv) (e : Nat) (s : ESt) : Nat × ESt :=
  match cached s e with
  | some id => (id, s)
  | none =>
    (s.heap.length,
      { s with heap := s.heap ++ [mkErr env s (some e)], cache := if env.settable e then (e, s.heap.length) :: s.cache else s.cache })

/-- The error object of a call, `core/result.py:226-231`; `none`: a `RuntimeError`. There are no objects but those of the state to be given. -/
def resolve (env : ExcEnv) (c : Call) (s : ESt) : Option (Nat × ESt) :=
  match c.arg with
  | .none =>
    match c.info.or c.current with
    | some e => some (capture env e s)
    | none => none
  | .obj id => if id < s.heap.length then some (id, s) else none
  | .value => some (s.heap.length, { s with heap := s.heap ++ [mkErr env s c.info] })

/-- Changing an object. (`core/error.py:57-61,70-71,84`) -/
def modify (id : Nat) (f : ErrObj → ErrObj) (s : ESt) : ESt :=
  match s.heap[id]? with
  | some o => { s with heap := s.heap.set id (f o) }
  | none => s

/-- `add_error` and `add_failure`, `core/result.py:205-217,224-246`: the error returned (`none`: something was raised). -/
def add (env : ExcEnv) (c : Call) (s : ESt) : Option Nat × ESt :=
  match resolve env c s with
  | none => (none, s)
  | some (id, s) =>
    let s := if c.failure then modify id (fun o => { o with failure := true }) s else s
    let s := if c.failure then { s with failures := s.failures ++ [id] } else { s with errors := s.errors ++ [id] }
    let s := if c.triggers then { s with hooks := s.hooks ++ [id] } else s
    if c.triggers && c.hookRaises then (none, s)
    else
      let s := modify id (fun o => { o with held := false }) s
      (some id, { s with reported := s.reported ++ [id] })

/-- `add_exception`, `core/result.py:82-119`, for exceptions that are no skips or interruptions: the exception given, the active one. -/
def addException (env : ExcEnv) (e : Nat) (current : Option Nat) (hookRaises : Bool) (s : ESt) : ESt :=
  if s.added.contains e then s
  else
    let s := { s with added := e :: s.added }
    if env.failureType e then (add env { failure := true, current := current, hookRaises := hookRaises } s).2
    else (add env { info := some e, current := current, hookRaises := hookRaises } s).2

/-- What users do: adding, making an error object, marking an exception as fatal (`exception_handling.py:202-223`), marking an error as fatal (`core/error.py:81-85`). -/
inductive EOp where
  | add (c : Call)
  | exception (e : Nat) (current : Option Nat) (hookRaises : Bool)
  | markExc (e : Nat)
  | markErr (id : Nat)
  | create (exc : Option Nat)
deriving DecidableEq, Repr

/-- One operation, `core/result.py:82-119,205-246`, `core/error.py:81-85`. -/
def EOp.run (env : ExcEnv) : EOp → ESt → ESt
  | .add c, s => (Tr.add env c s).2
  | .exception e cur h, s => addException env e cur h s
  | .markExc e, s => { s with fatals := e :: s.fatals }
  | .markErr id, s => modify id (fun o => { o with fatal := true }) s
  | .create exc, s => { s with heap := s.heap ++ [mkErr env s exc] }

/-- A history, `core/result.py:82-119,205-246`. -/
def runE (env : ExcEnv) (ops : List EOp) (s : ESt) : ESt := ops.foldl (fun s op => op.run env s) s

/-! ## Results sent by workers -/

/-- Attributes of a result that are sent, `core/result.py:33-50,59-60`; `extra`: attributes set by users. -/
inductive Key where
  | data | startTime | endTime | errors | failures | skips | details | started | finished | interrupted | logPath | extraLogs | extra (n : Nat)
deriving DecidableEq, Repr

/-- A result, `core/result.py:33-50`. Values that are only passed on are numbers. -/
structure Res where
  metadata : Nat := 0
  data : Nat := 0
  startTime : Option Nat := none
  endTime : Option Nat := none
  errors : List Nat := []
  failures : List Nat := []
  skips : List Nat := []
  details : Nat := 0
  facts : Nat := 0
  started : Bool := false
  finished : Bool := false
  interrupted : Bool := false
  logPath : Option Nat := none
  extraLogs : List Nat := []
  extras : List (Nat × Nat) := []
deriving DecidableEq, Repr

/-- The keys in the order of `vars(result)` without those that are not sent, `core/result.py:30,33-50`. -/
def Res.keys (r : Res) : List Key :=
  [.data, .startTime, .endTime, .errors, .failures, .skips, .details, .started, .finished, .interrupted, .logPath, .extraLogs] ++ r.extras.map (fun x => .extra x.1)

/-- Assigning one attribute of `w` to `r`, `core/result.py:71`. -/
def assign (k : Key) (w r : Res) : Res :=
  match k with
  | .data => { r with data := w.data }
  | .startTime => { r with startTime := w.startTime }
  | .endTime => { r with endTime := w.endTime }
  | .errors => { r with errors := w.errors }
  | .failures => { r with failures := w.failures }
  | .skips => { r with skips := w.skips }
  | .details => { r with details := w.details }
  | .started => { r with started := w.started }
  | .finished => { r with finished := w.finished }
  | .interrupted => { r with interrupted := w.interrupted }
  | .logPath => { r with logPath := w.logPath }
  | .extraLogs => { r with extraLogs := w.extraLogs }
  | .extra n => { r with extras := r.extras.filter (fun x => x.1 != n) ++ w.extras.filter (fun x => x.1 == n) }

/-- How pickling or unpickling of a value ends, `core/result.py:61-65,70-74`: it succeeds, with an exception that is caught, with another one. -/
inductive PEnd where
  | ok | caught | raised
deriving DecidableEq, Repr

/-- `serialize`, `core/result.py:57-66`: the keys that are sent; `none`: an exception. -/
def serialize (pickle : Key → PEnd) : List Key → Option (List Key)
  | [] => some []
  | k :: ks =>
    match pickle k with
    | .ok => (serialize pickle ks).map (k :: ·)
    | .caught => serialize pickle ks
    | .raised => none

/-- The first loop of `deserialize`, `core/result.py:69-74`: the result and whether something was raised. -/
def assignAll (unpickle : Key → PEnd) (w : Res) : List Key → Res → Res × Bool
  | [], r => (r, false)
  | k :: ks, r =>
    match unpickle k with
    | .ok => assignAll unpickle w ks (assign k w r)
    | .caught => assignAll unpickle w ks r
    | .raised => (r, true)

/-- What is reported, `core/result.py:75-80`. -/
inductive Report where
  | failure (e : Nat) | error (e : Nat) | skip (reason : Nat)
deriving DecidableEq, Repr

/-- Sending the result `w` of a worker to the result `r` of the parent, `parallel/worker.py:117`, `parallel/server.py:184`, `core/result.py:57-80`: the result and what is reported; whether something was
raised. -/
def send (pickle unpickle : Key → PEnd) (w r : Res) : Res × List Report × Bool :=
  match serialize pickle w.keys with
  | none => (r, [], true)
  | some ks =>
    match assignAll unpickle w ks r with
    | (r, true) => (r, [], true)
    | (r, false) => (r, r.failures.map .failure ++ r.errors.map .error ++ r.skips.map .skip, false)

/-- `is_success`, `core/result.py:182-187`. -/
def Res.isSuccess (r : Res) (allowSkips : Bool) : Bool :=
  if !r.errors.isEmpty || !r.failures.isEmpty || r.interrupted then false
  else if !r.skips.isEmpty then allowSkips
  else r.started

/-! ## The notice about slow operations -/

/-- Where the thread with the block is, `utils/interactive.py:78-90`. -/
inductive MainPc where
  | block | set | join | finish | done | failed
deriving DecidableEq, Repr

/-- Where the thread that waits is, `utils/interactive.py:72-76`. -/
inductive NotePc where
  | waiting | timedOut | reported | over
deriving DecidableEq, Repr

/-- What is shown, `utils/interactive.py:75,90`. -/
inductive Shown where
  | message | endMessage
deriving DecidableEq, Repr

/-- The state of both threads: the event, whether there is a session, the flag, what was shown (`utils/interactive.py:67-90`). -/
structure NSt where
  main : MainPc := .block
  note : NotePc := .waiting
  evt : Bool := false
  session : Bool := true
  flag : Bool := false
  shown : List Shown := []
deriving DecidableEq, Repr

/-- Steps of both threads, `utils/interactive.py:67-90`; `hasEnd`: an end message was given. The block may open and close the session. -/
inductive Step (hasEnd : Bool) : NSt → NSt → Prop where
  /-- the block goes on -/
  | session (s : NSt) (b : Bool) : s.main = .block → Step hasEnd s { s with session := b }
  /-- the block ends or raises, `utils/interactive.py:83` -/
  | blockEnds (s : NSt) : s.main = .block → Step hasEnd s { s with main := .set }
  | set (s : NSt) : s.main = .set → Step hasEnd s { s with main := .join, evt := true }
  | join (s : NSt) : s.main = .join → s.note = .over → Step hasEnd s { s with main := .finish }
  | quiet (s : NSt) : s.main = .finish → (s.flag && hasEnd) = false → Step hasEnd s { s with main := .done }
  | finish (s : NSt) : s.main = .finish → (s.flag && hasEnd) = true → s.session = true →
      Step hasEnd s { s with main := .done, shown := s.shown ++ [.endMessage] }
  | noReporter (s : NSt) : s.main = .finish → (s.flag && hasEnd) = true → s.session = false → Step hasEnd s { s with main := .failed }
  /-- `evt.wait` returns that the event is set -/
  | wakes (s : NSt) : s.note = .waiting → s.evt = true → Step hasEnd s { s with note := .over }
  /-- or that time is over, which it only does if the event is not set -/
  | timeout (s : NSt) : s.note = .waiting → s.evt = false → Step hasEnd s { s with note := .timedOut }
  | noSession (s : NSt) : s.note = .timedOut → s.session = false → Step hasEnd s { s with note := .over }
  | report (s : NSt) : s.note = .timedOut → s.session = true → Step hasEnd s { s with note := .reported, shown := s.shown ++ [.message] }
  | flag (s : NSt) : s.note = .reported → Step hasEnd s { s with note := .over, flag := true }

/-- Executions, `utils/interactive.py:67-90`. -/
inductive Reach (hasEnd : Bool) (s0 : NSt) : NSt → Prop where
  | start : Reach hasEnd s0 s0
  | step {s t : NSt} : Reach hasEnd s0 s → Step hasEnd s t → Reach hasEnd s0 t

end Slash.Tr
