import Verif.Model.Result
/-!
# The console reporter

`reporting/reporter_interface.py`, `reporting/console_reporter.py`. Left out: colours, the text of code lines and variables in tracebacks, streams that fail
(`swallowing_terminal_exceptions`), Windows, control characters other than `\n` and `\r`. Levels are the numbers of `logbook` (`log.py:355-362`).
-/
namespace Slash.Console

/-- Levels, `log.py:355-362`. -/
def INFO : Nat := 11
/-- See `INFO`, `log.py:355-362`. -/
def NOTICE : Nat := 12
/-- See `INFO`, `log.py:355-362`. -/
def WARNING : Nat := 13
/-- See `INFO`, `log.py:355-362`. -/
def ERROR : Nat := 14

/-! ## How the end of a test is reported -/

/-- The methods `report_test_end` calls, `reporter_interface.py:36-47`. -/
inductive EndReport where
  | success | skip | error | interrupted | failure
deriving DecidableEq, Repr

/-- `report_test_end`, `reporter_interface.py:36-47`; `none`: `AssertionError`. -/
def reportEnd (r : Result) : Option EndReport :=
  if r.isSuccess then some .success
  else if r.isSkip then some .skip
  else if r.isError then some .error
  else if r.isInterrupted then some .interrupted
  else if r.isFailure then some .failure
  else none

/-! ## Progress -/

/-- What is written while tests run (`console_reporter.py:369-421`). -/
inductive Tok where
  | file (name : String) | mark (c : Char) | fail | pass | line (c : Char) (test : Nat) | sessionError
deriving DecidableEq, Repr

/-- What the reporter is told (`reporter_interface.py:18-80`); `abort`: the exception is one of `CLI_ABORT_EXCEPTIONS`. -/
inductive Ev where
  | fileStart (name : String) | fileEnd (name : String)
  | errorAdded (test : Option Nat) (failure abort : Bool)
  | skipAdded (test : Nat)
  | testEnd (test : Nat) (r : Result)

/-- `_file_failed`, `_file_has_skips` (`none`: not set yet), `console_reporter.py:371-372`, and what has been written. -/
structure St where
  failed : Option Bool := none
  skips : Option Bool := none
  out : List Tok := []
deriving DecidableEq, Repr

/-- The letter of an error or a failure, `console_reporter.py:406-410`. -/
def letter (failure : Bool) : Char := if failure then 'F' else 'E'

/-- `_verobsity_allows`, `console_reporter.py:255-256`. -/
def allows (level : Nat) (l : Nat) : Bool := decide (level ≤ l)

/-- The methods of the console reporter, `console_reporter.py:369-421`; `none`: an exception. -/
def step (level : Nat) (st : St) : Ev → Option St
  | .fileStart name =>
    if allows level WARNING then
      some { st with failed := some false, skips := some false, out := st.out ++ if allows level NOTICE then [] else [.file name] }
    else some st
  | .fileEnd _ =>
    if !allows level WARNING || allows level NOTICE then some st
    else
      match st.failed with
      | none => none
      | some true => some { st with out := st.out ++ [.fail] }
      | some false =>
        match st.skips with
        | none => none
        | some _ => some { st with out := st.out ++ [.pass] }
  | .errorAdded none _ abort => some { st with out := st.out ++ if abort then [] else [.sessionError] }
  | .errorAdded (some t) failure _ =>
    some { st with failed := some true, out := st.out ++ [if allows level NOTICE then .line (letter failure) t else .mark (letter failure)] }
  | .skipAdded t =>
    some { st with skips := some true, out := st.out ++ [if allows level NOTICE then .line 's' t else .mark 's'] }
  | .testEnd t r =>
    match reportEnd r with
    | none => none
    | some .success => some { st with out := st.out ++ if allows level NOTICE then [] else [.mark '.'] }
    | some .interrupted => some { st with out := st.out ++ [if allows level NOTICE then .line 'I' t else .mark 'I'] }
    | some _ => some st

/-- A sequence of reports (`reporter_interface.py:18-80`). -/
def run (level : Nat) : St → List Ev → Option St
  | st, [] => some st
  | st, e :: es => (step level st e).bind (fun st => run level st es)

/-! ## The summary of a session -/

/-- An error in a summary: its message, whether there is an exception type, whether the message was given by the user, the frames of its traceback
(`core/error.py:25-49`; the traceback is never `None`). -/
structure SErr where
  message : String
  exc : Bool := true
  custom : Bool := false
  frames : List Nat := []
deriving DecidableEq, Repr

/-- What is written about an error (`console_reporter.py:258-303`). -/
inductive Piece where
  | header (i n : Nat) (type : Char) | message (m : String) | frame (f : Nat)
deriving DecidableEq, Repr

/-- `_report_traceback`, `console_reporter.py:278-303`: the frames, and the message after the last one; `none`: `IndexError` (283). -/
def traceback (tbLevel : Nat) (e : SErr) : Option (List Piece) :=
  if tbLevel = 0 then some []
  else if tbLevel = 1 then
    match e.frames.getLast? with
    | none => none
    | some f => some [.frame f, .message e.message]
  else if e.frames.isEmpty then some []
  else some (e.frames.map .frame ++ [.message e.message])

/-- One error, `console_reporter.py:263-276`. -/
def errorPieces (manualTb : Bool) (tbLevel i n : Nat) (c : Char) (e : SErr) : Option (List Piece) :=
  if !e.exc && !manualTb then some [.message e.message]
  else (traceback tbLevel e).map (fun t => .header (i + 1) n c :: (if e.custom then [.message e.message] else []) ++ t)

/-- The loop over the errors, `console_reporter.py:262`. -/
def errorsLoop (manualTb : Bool) (tbLevel n : Nat) : Nat → List (Char × SErr) → Option (List Piece)
  | _, [] => some []
  | i, (c, e) :: rest => (errorPieces manualTb tbLevel i n c e).bind (fun p => (errorsLoop manualTb tbLevel n (i + 1) rest).map (p ++ ·))

/-- A result as far as the summary shows it (`console_reporter.py:220-238`). -/
structure SRes where
  address : String
  errors : List SErr := []
  failures : List SErr := []
  skips : List String := []
deriving DecidableEq, Repr

/-- `_report_result_errors_failures`, `console_reporter.py:258-276`. -/
def errorsFailures (manualTb : Bool) (tbLevel : Nat) (r : SRes) : Option (List Piece) :=
  errorsLoop manualTb tbLevel (r.errors.length + r.failures.length) 0 (r.errors.map (fun e => ('E', e)) ++ r.failures.map (fun e => ('F', e)))

/-- `_get_result_info_generators`, `console_reporter.py:231-238`: whether errors, whether skips are shown. -/
def infos (level : Nat) (r : SRes) : Bool × Bool :=
  (allows level ERROR && (!r.failures.isEmpty || !r.errors.isEmpty), allows level INFO && !r.skips.isEmpty)

/-- An entry of the summary (`console_reporter.py:188-194`): number and address of the test, what is shown about errors, the skips if shown. -/
structure Entry where
  number : Nat
  address : String
  pieces : List Piece
  skips : Option (List String)
deriving DecidableEq, Repr

/-- The loop of `report_session_end`, `console_reporter.py:188-194,220-225`; `none`: an exception. -/
def summary (level : Nat) (manualTb : Bool) (tbLevel : Nat) : Nat → List SRes → Option (List Entry)
  | _, [] => some []
  | i, r :: rs =>
    match infos level r with
    | (false, false) => summary level manualTb tbLevel (i + 1) rs
    | (e, s) =>
      (if e then errorsFailures manualTb tbLevel r else some []).bind (fun p =>
        (summary level manualTb tbLevel (i + 1) rs).map (⟨i + 1, r.address, p, if s then some r.skips else none⟩ :: ·))

/-- `_format_duration`, `console_reporter.py:439-444`, for a duration of `n / q` seconds: hours, minutes, seconds. Rounding of floating point numbers is left out. -/
def duration (n q : Nat) : Nat × Nat × Nat := (n / (60 * 60 * q), (n % (60 * 60 * q)) / (60 * q), (n % (60 * q)) / q)

/-! ## Warnings -/

/-- A warning: file and line, message (`warnings.py:102-104`). -/
structure Warn where
  key : String × Nat
  message : String
deriving DecidableEq, Repr

/-- `warnings_by_key.setdefault(key, []).append(warning)`, `console_reporter.py:242-243`. -/
def group (gs : List ((String × Nat) × List Warn)) (w : Warn) : List ((String × Nat) × List Warn) :=
  match gs with
  | [] => [(w.key, [w])]
  | (k, ws) :: gs => if k = w.key then (k, ws ++ [w]) :: gs else (k, ws) :: group gs w

/-- A line of the summary of warnings: file and line, message, number of repetitions (`console_reporter.py:248-253`). -/
structure WLine where
  key : String × Nat
  message : Option String
  times : Nat
deriving DecidableEq, Repr

/-- `_report_result_warning_summary`, `console_reporter.py:240-253`: the total (if there are any) and the lines. -/
def warningSummary (ws : List Warn) : Option Nat × List WLine :=
  ((if ws.isEmpty then none else some ws.length), (ws.foldl group []).map (fun g => ⟨g.1, g.2.head?.map (·.message), g.2.length⟩))

/-! ## Boxes -/

/-- The headline of a box, `console_reporter.py:83-85`. -/
def headline (box : Nat) (h : List Char) : List Char := if h.length > box - 6 then h.drop (box - 6) else h

/-- `write_line`, `console_reporter.py:87-89`. -/
def boxLine (box : Nat) (l : List Char) : List Char := ['*', ' '] ++ l ++ List.replicate (box - (l.length + 3)) ' ' ++ ['*']

/-- The lines of `write_box`, `console_reporter.py:79-98`, without the empty ones around it, for a width of at least 7; `lines` is the message split at line breaks,
`wrap` is `textwrap.wrap`. -/
def box (wrap : List Char → Nat → List (List Char)) (fullwidth : Nat) (h : List Char) (lines : List (List Char)) : List (List Char) :=
  let b := min fullwidth 60
  (['*', '*', ' '] ++ headline b h ++ [' '] ++ List.replicate (b - ((headline b h).length + 4)) '*') ::
    lines.flatMap (fun l => if l.isEmpty then [boxLine b []] else (wrap l (b - 4)).map (boxLine b)) ++ [List.replicate b '*']

/-! ## The line in progress -/

/-- A terminal: finished rows, the row of the cursor, its column (what `console_reporter.py:52-139` writes to). -/
structure Term where
  done : List (List Char) := []
  cur : List Char := []
  col : Nat := 0
deriving DecidableEq, Repr

/-- One character on a terminal of `w` columns, which goes to the next row when a character is written behind the last column (as `xterm` does).
For `console_reporter.py:130-131`. -/
def put (w : Nat) (t : Term) (c : Char) : Term :=
  if c = '\n' then { done := t.done ++ [t.cur] }
  else if c = '\r' then { t with col := 0 }
  else if t.col ≥ w then { done := t.done ++ [t.cur], cur := [c], col := 1 }
  else { t with cur := t.cur.take t.col ++ c :: t.cur.drop (t.col + 1), col := t.col + 1 }

/-- `_do_write`, `console_reporter.py:129-131`. -/
def tell (w : Nat) (t : Term) (s : List Char) : Term := s.foldl (put w) t

/-- `rsplit(c, 1)[-1]`, `console_reporter.py:111`. -/
def afterLast (c : Char) (l : List Char) : List Char := (l.reverse.takeWhile (· != c)).reverse

/-- The wrapper: `_line` (`console_reporter.py:60`) and the terminal. -/
structure Wr where
  line : List Char := []
  term : Term := {}
deriving DecidableEq, Repr

/-- `write`, `console_reporter.py:105-111`. -/
def Wr.write (w : Nat) (x : Wr) (s : List Char) : Wr :=
  { line := afterLast '\n' (afterLast '\r' (x.line ++ s)), term := tell w x.term s }

/-- `clear_line_in_progress` on a terminal with markup, `console_reporter.py:118-122`. -/
def Wr.clear (w : Nat) (x : Wr) : Wr :=
  if x.line.isEmpty then x else { x with term := tell w x.term (['\r'] ++ List.replicate (x.line.length % w) ' ' ++ ['\r']) }

/-- `restore_line_in_progress`, `console_reporter.py:124-127`. -/
def Wr.restore (w : Nat) (x : Wr) : Wr :=
  { x with term := tell w x.term (x.line.drop (x.line.length - x.line.length % w)) }

/-- A record written to the console by the log, `log.py:115-122`: not through the wrapper. -/
def Wr.record (w : Nat) (x : Wr) (m : List Char) : Wr :=
  let x := x.clear w
  ({ x with term := tell w x.term (m ++ ['\n']) } : Wr).restore w

/-- `report_message`, `console_reporter.py:427-431`. -/
def Wr.message (w : Nat) (x : Wr) (m : List Char) : Wr := (((x.clear w).write w m).write w ['\n']).restore w

end Slash.Console
