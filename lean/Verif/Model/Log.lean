/-!
# Log files and log handlers

`slash/log.py`: where a log record goes, which files are opened, closed and removed. A session is a sequence of records logged outside
of tests and of tests that log records; `SessionLogging` puts handlers on the stack of `logbook` for the session and for each test.

`logbook` itself is modelled by `dispatch`: handlers are asked innermost first; a handler that takes a record and does not
bubble ends the search. Left out: contents and format of lines, colours, `unittest_mode`, records logged by `log_file_closed` hooks, files
that cannot be opened. Formatting of paths (`_format_log_path`) is a parameter, see `escape`.
-/
namespace Slash.Log

/-- A path of a log file, `log.py:228-237`. -/
abbrev Path := String

/-- Levels of `logbook` used in `log.py:27,66-70`, `warnings.py:77`. -/
def warningLevel : Nat := 13
/-- `logbook.ERROR`, `log.py:27`. -/
def errorLevel : Nat := 14

/-- A log record: channel, level, `extra` entries `highlight`, `filter_bypass`, `capture` (`log.py:30,125,215`). -/
structure Rec where
  id : Nat
  channel : String := "user"
  level : Nat := 11
  highlight : Bool := false
  bypass : Bool := false
  capture : Bool := true
deriving DecidableEq, Repr

/-- `filtered_channels`, `log.py:22-23`. -/
def coreChannels : List String :=
  ["slash.runner", "slash.loader", "slash.core.cleanup_manager", "slash.core.scope_manager",
   "slash.exception_handling", "slash.core.fixtures.fixture_store"]

/-- Where a handler puts a record: a file, the console, the list of warnings, the errors of the current result, a handler given by
the user (`log.py:25,81,344`), nowhere. -/
inductive Dest where
  | file (p : Path) | console | warnings | errors | extra (n : Nat) | nowhere
deriving DecidableEq, Repr

/-- `should_handle` of the handlers: by level (`logbook`), warnings (`warnings.py:81-85`), silenced loggers (`log.py:328`), and for
`ErrorHandler` also the test in `emit` (`log.py:30`). -/
inductive Wants where
  | level (n : Nat) | warnings | channels (l : List String) | errors
deriving DecidableEq, Repr

/-- Filters given to handlers, `log.py:124,214`. -/
inductive Filter where
  | all | core | highlight
deriving DecidableEq, Repr

/-- A `logbook` handler as built in `log.py:25-31,139,180-200,239-253,324-329,365-374`. -/
structure H where
  dest : Dest
  wants : Wants := .level 0
  filter : Filter := .all
  bubble : Bool := false
  blackhole : Bool := false
deriving DecidableEq, Repr

/-- A handler added by `add_log_handler`, `log.py:344-348`. -/
structure Extra where
  level : Nat := 0
  bubble : Bool := true
deriving DecidableEq, Repr

/-- Configuration `log.*` (`conf.py:20-80`): the paths (formatted) of the log of the session (`none`) and of each test (`some i`), of the
uncompressed file beside a compressed one, of highlights; `none` if not set. -/
structure Cfg where
  root : Bool := true
  main : Option Nat → Option Path := fun _ => none
  raw : Option Nat → Option Path := fun _ => none
  highlights : Option Nat → Option Path := fun _ => none
  rotating : Bool := false
  unified : Bool := false
  silenced : List String := []
  extra : List Extra := []
  captureErrors : Bool := false
  coreLevel : Nat := 13
  consoleLevel : Nat := 13
  cleanup : Bool := false
  keepFailed : Bool := true

/-- `_slash_logs_filter`, `log.py:124-127`. -/
def passes (cfg : Cfg) (r : Rec) : Bool := r.bypass || !coreChannels.contains r.channel || decide (cfg.coreLevel ≤ r.level)

/-- The filters, `log.py:124-127,214-215`. -/
def Filter.ok (cfg : Cfg) (r : Rec) : Filter → Bool
  | .all => true
  | .core => passes cfg r
  | .highlight => r.highlight

/-- `should_handle`, see `Wants` (`log.py:30,328`, `warnings.py:81-85`). -/
def Wants.ok (r : Rec) : Wants → Bool
  | .level n => decide (n ≤ r.level)
  | .warnings => r.channel != "slash.native_warnings" && r.level == warningLevel
  | .channels l => l.contains r.channel
  | .errors => decide (errorLevel ≤ r.level) && r.capture

/-- `RecordDispatcher.call_handlers` of `logbook`, as used by every `logger` call, see `log.py:180-200`: the destinations that get the record. -/
def dispatch (cfg : Cfg) : List H → Rec → List Dest
  | [], _ => []
  | h :: hs, r =>
    if h.wants.ok r && h.filter.ok cfg r then
      if h.blackhole then []
      else if h.bubble then h.dest :: dispatch cfg hs r
      else [h.dest]
    else dispatch cfg hs r

/-- What happens to files and records (ghost; `log.py:255-286`): a file is opened, a record is delivered, a file is closed, `log_file_closed` is
fired with the result that was current when the file was opened (`none`: of the session), a file is removed. -/
inductive Ev where
  | opened (p : Path) | sent (d : Dest) (r : Rec) | closed (p : Path) | hook (p : Path) (res : Option Nat) | removed (p : Path)
deriving DecidableEq, Repr

/-- `_log_path_to_handler` (the paths with a handler, `log.py:146`), the stack of handlers of `logbook`, innermost first, what happened. -/
structure St where
  active : List (Path × H) := []
  stack : List H := []
  trace : List Ev := []

/-- `_log_file_handler_context` up to its `yield`, `log.py:256-275`: the handler (`none`: a `NoopHandler`), and the path if a file was opened. -/
def fileCtx (cfg : Cfg) (path : Option Path) (bubble : Bool) (filter : Filter) (st : St) : Option H × Option Path × St :=
  match cfg.root, path with
  | true, some p =>
    match st.active.find? (fun a => a.1 == p) with
    | some (_, h) => (some h, none, st)
    | none =>
      let h : H := { dest := .file p, filter := filter, bubble := bubble }
      (some h, some p, { st with active := (p, h) :: st.active, trace := st.trace ++ [.opened p] })
  | _, _ => (if bubble then none else some { dest := .nowhere, filter := filter, blackhole := true }, none, st)

/-- `handler.applicationbound()`, `log.py:183`; a `NoopHandler` does nothing, 335-336. -/
def push (h : Option H) (st : St) : St := { st with stack := h.toList ++ st.stack }

/-- The handlers entered after the highlights file, `log.py:192-200`: silenced loggers, extra handlers, the session log, captured errors. -/
def lateHandlers (cfg : Cfg) (sessionHandler : Option H) : List H :=
  (if cfg.captureErrors then [{ dest := .errors, wants := .errors, bubble := true }] else []) ++
  (match cfg.unified, sessionHandler with
    | true, some h => [{ h with filter := .all, bubble := true, blackhole := false }]
    | _, _ => []) ++
  (cfg.extra.mapIdx (fun i e => ({ dest := .extra i, wants := .level e.level, bubble := e.bubble } : H))).reverse ++
  (if cfg.silenced.isEmpty then [] else [{ dest := .nowhere, wants := .channels cfg.silenced }])

/-- The handlers of the console and of warnings, `log.py:138-139,188-189`, `warnings.py:76-77`. -/
def earlyHandlers (cfg : Cfg) : List H :=
  [{ dest := .warnings, wants := .warnings, bubble := true },
   { dest := .console, wants := .level cfg.consoleLevel, filter := .core, bubble := true }]

/-- `_get_file_logging_context` up to its `yield`, `log.py:178-203`: the handler of the log file and the files opened, last one first. -/
def enter (cfg : Cfg) (who : Option Nat) (sessionHandler : Option H) (st : St) : Option H × List Path × St :=
  match fileCtx cfg (cfg.main who) false .core st with
  | (h, o1, st) =>
    let st := push h st
    match (if cfg.rotating then fileCtx cfg (cfg.raw who) true .core st else (none, none, st)) with
    | (h2, o2, st) =>
      let st := { push h2 st with stack := earlyHandlers cfg ++ (push h2 st).stack }
      match fileCtx cfg (cfg.highlights who) true .highlight st with
      | (h3, o3, st) =>
        let st := push h3 st
        (h, o3.toList ++ o2.toList ++ o1.toList, { st with stack := lateHandlers cfg sessionHandler ++ st.stack })

/-- `_should_delete_log`, `log.py:205-208`, for the result of a test or of the session that is (not) a success. -/
def shouldDelete (cfg : Cfg) (success : Bool) : Bool := !cfg.keepFailed || success

/-- `_log_file_handler_context` after its `yield`, `log.py:275-286`. -/
def close (cfg : Cfg) (res : Option Nat) (success : Bool) (p : Path) (st : St) : St :=
  { st with
    active := st.active.filter (fun a => a.1 != p)
    trace := st.trace ++ [.closed p, .hook p res] ++ (if cfg.cleanup && shouldDelete cfg success then [.removed p] else []) }

/-- The end of `_get_file_logging_context`, `log.py:180`: handlers are popped, files are closed, in the reverse order. -/
def leave (cfg : Cfg) (res : Option Nat) (success : Bool) (opened : List Path) (stack : List H) (st : St) : St :=
  { opened.foldl (fun st p => close cfg res success p st) st with stack := stack }

/-- A logger is called, see `dispatch` (`log.py:19`). -/
def log (cfg : Cfg) (r : Rec) (st : St) : St := { st with trace := st.trace ++ (dispatch cfg st.stack r).map (.sent · r) }

/-- A test: what is logged while it is the current one, and whether its result is a success in the end
(`runner.py:218-232`, `log.py:151-159`). -/
structure Test where
  id : Nat
  recs : List Rec := []
  ok : Bool := true

/-- What happens in a session (`runner.py:38-70`). -/
inductive Item where
  | log (r : Rec) | test (t : Test)

/-- `get_test_logging_context`, `log.py:151-159`. -/
def runTest (cfg : Cfg) (sessionHandler : Option H) (t : Test) (st : St) : St :=
  match enter cfg (some t.id) sessionHandler st with
  | (_, opened, st1) => leave cfg (some t.id) t.ok opened st.stack (t.recs.foldl (fun st r => log cfg r st) st1)

/-- One thing that happens, see `Item` (`runner.py:38-70`). -/
def item (cfg : Cfg) (sessionHandler : Option H) (st : St) : Item → St
  | .log r => log cfg r st
  | .test t => runTest cfg sessionHandler t st

/-- `session.results.is_success(allow_skips=True)`, `log.py:208`, `core/result.py:311-318`. -/
def success (globalOk : Bool) (items : List Item) : Bool :=
  globalOk && items.all (fun | .test t => t.ok | .log _ => true)

/-- A session: `get_session_logging_context`, `log.py:166-176`, `core/session.py:83-84,100`. -/
def session (cfg : Cfg) (items : List Item) (globalOk : Bool) : St :=
  match enter cfg none none {} with
  | (h, opened, st) => leave cfg none (success globalOk items) opened [] (items.foldl (item cfg h) st)

/-! ## Console lines and names in paths -/

/-- `_NormalizedObject._escape`, `log.py:42-43`. -/
def escape (s : List Char) : List Char := s.map (fun c => if c = '\\' ∨ c = '/' then '_' else c)

/-- `MAX_LINE_LENGTH`, `log.py:83`. -/
def maxLine : Nat := 160

/-- `_truncate`, `log.py:110-113`. -/
def truncate (line : List Char) : List Char :=
  if line.length > maxLine then line.take (maxLine - 3) ++ ['.', '.', '.'] else line

/-- `str.splitlines` for messages whose line breaks are newlines (`log.py:102`); `acc` is the current line, reversed. -/
def splitLines (acc : List Char) : List Char → List (List Char)
  | [] => if acc.isEmpty then [] else [acc.reverse]
  | c :: cs => if c = '\n' then acc.reverse :: splitLines [] cs else splitLines (c :: acc) cs

/-- `"\n".join` (`log.py:102`). -/
def joinLines : List (List Char) → List Char
  | [] => []
  | [l] => l
  | l :: ls => l ++ '\n' :: joinLines ls

/-- The message shown by `ConsoleHandler.format`, `log.py:98-108`. -/
def consoleMessage (truncateLines truncateErrors : Bool) (level : Nat) (msg : List Char) : List Char :=
  if truncateLines && decide (msg.length > maxLine) && (truncateErrors || decide (level < errorLevel)) then
    joinLines ((splitLines [] msg).map truncate)
  else msg

/-- A piece of a path template: text, or an attribute of the context (`log.py:377-379`). -/
inductive Piece where
  | text (s : List Char) | field (value : List Char)

/-- `_format_log_path`, `log.py:377-379`, for fields that are not numbers. -/
def formatPath (t : List Piece) : List Char :=
  t.flatMap (fun | .text s => s | .field v => escape v)

end Slash.Log
