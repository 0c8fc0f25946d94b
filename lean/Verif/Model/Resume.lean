import Verif.Model.Result
import Verif.Model.Pattern
/-!
# Saving and resuming sessions: `slash/resuming.py`, `slash/loader.py:126-134`
-/
namespace Slash.Resume

/-- What resuming uses of a test's metadata: the id, the file, the address in the file, whether it has a variation (`variation` is truthy),
the `id` of the variation (0: an empty dictionary) and the `address` that metadata objects are compared by, `resuming.py:109-111,122-127`,
`core/metadata.py:136-145`. Strings and dictionaries are represented by numbers; writing a dictionary of indices as text and reading it back
(`resuming.py:111,181`) gives the same dictionary. -/
structure Meta where
  id : Nat
  file : Nat
  addr : Nat
  hasVar : Bool
  var : Nat
  address : Nat
deriving DecidableEq, Repr

/-- `ResumeTestStatus`, `resuming.py:43-47`. -/
inductive Status
  | planned | success | failed | skipped
deriving DecidableEq, Repr

/-- The text of a status, `resuming.py:44-47`. -/
def Status.text : Status → List Char
  | .planned => ['p', 'l', 'a', 'n', 'n', 'e', 'd']
  | .success => ['s', 'u', 'c', 'c', 'e', 's', 's']
  | .failed => ['f', 'a', 'i', 'l', 'e', 'd']
  | .skipped => ['s', 'k', 'i', 'p', 'p', 'e', 'd']

/-- `ResumeState` without the session, and `ResumedTestData`, `resuming.py:26-33,50-56`. -/
structure Row where
  file : Nat
  addr : Nat
  var : Option Nat
  status : Status
deriving DecidableEq, Repr

/-- The status saved for a result, `resuming.py:112-120`. -/
def statusOf (r : Result) : Status :=
  if r.isSkip then .skipped
  else if r.isSuccessFinished then .success
  else if !r.isStarted then .planned
  else .failed

/-- The entry for a test, `resuming.py:110-111,125-127`. -/
def rowOf (m : Meta) (s : Status) : Row := ⟨m.file, m.addr, if m.hasVar then some m.var else none, s⟩

/-- Adding to a set of metadata objects, which are equal if their addresses are, `resuming.py:122`. -/
def addMeta (s : List Meta) (m : Meta) : List Meta := if s.any (·.address == m.address) then s else s ++ [m]

/-- `tests_with_no_results`, `resuming.py:122`; `results`: the results with the metadata of their tests. -/
def withoutResults (results : List (Meta × Result)) (collected : List Meta) : List Meta :=
  (collected.filter (fun t => !(results.any (·.1.id == t.id)))).foldl addMeta []

/-- The entries `save_resume_state` writes, `resuming.py:107-128`; `order`: the order in which the set is iterated. -/
def entries (order : List Meta → List Meta) (results : List (Meta × Result)) (collected : List Meta) : List Row :=
  results.map (fun x => rowOf x.1 (statusOf x.2)) ++ (order (withoutResults results collected)).map (fun m => rowOf m .planned)

/-- The options that are used, `resuming.py:187-188,209`. -/
structure Flags where
  unstartedOnly : Bool := false
  failedOnly : Bool := false
  noSkipped : Bool := false
  unstartedFirst : Bool := false
  failedFirst : Bool := false
deriving DecidableEq, Repr

/-- `filtered_status`, `resuming.py:193-205`. -/
def wantedStatuses (fl : Flags) (getSuccessful : Bool) : List Status :=
  let l := if getSuccessful then [Status.success] else []
  let l := if fl.unstartedOnly then l ++ [.planned, .skipped]
    else if fl.failedOnly then l ++ [.failed]
    else l ++ [.failed, .planned, .skipped]
  if fl.noSkipped then l.erase .skipped else l

/-- `_filter_tests`, `resuming.py:186-206`; `none`: `CannotResume` is raised. -/
def filterTests (fl : Flags) (getSuccessful : Bool) (tests : List Row) : Option (List Row) :=
  if fl.unstartedOnly && fl.failedOnly then none
  else if fl.noSkipped && fl.failedOnly then none
  else some (tests.filter (fun t => (wantedStatuses fl getSuccessful).contains t.status))

/-- `_sort_tests`, `resuming.py:208-217`; `in` tests for a part of a string. -/
def sortTests (fl : Flags) (tests : List Row) : Option (List Row) :=
  if fl.unstartedFirst && fl.failedFirst then none
  else if fl.failedFirst || fl.unstartedFirst then
    let wanted := if fl.unstartedFirst then Status.planned else .failed
    some (tests.filter (fun t => Pat.isIn t.status.text wanted.text) ++ tests.filter (fun t => !(Pat.isIn t.status.text wanted.text)))
  else some tests

/-- `SessionMetadata`, `resuming.py:36-40`. -/
structure Session where
  id : Nat
  folder : Nat
  created : Nat
deriving DecidableEq, Repr

/-- The two tables, `resuming.py:26-40`. -/
structure Db where
  sessions : List Session := []
  rows : List (Nat × Row) := []
deriving DecidableEq, Repr

/-- The end of `save_resume_state`, `resuming.py:130-132`; a session id is a primary key, so saving a second session with it fails and saves
nothing. -/
def Db.save (db : Db) (s : Session) (rows : List Row) : Db :=
  if db.sessions.any (·.id == s.id) then db
  else ⟨db.sessions ++ [s], db.rows ++ rows.map (fun r => (s.id, r))⟩

/-- `clean_old_entries`, `resuming.py:90-98`; `cutoff`: now minus the days of retention. -/
def Db.clean (db : Db) (cutoff : Nat) : Db :=
  let old := (db.sessions.filter (fun s => decide (s.created < cutoff))).map (·.id)
  let rows := if old.isEmpty then db.rows else db.rows.filter (fun r => !(old.contains r.1))
  ⟨db.sessions.filter (fun s => !(decide (s.created < cutoff))), rows⟩

/-- What is done to the database: at the end of each session it is saved, and then old entries are cleaned, `frontend/slash_run.py:72-75`. -/
inductive Op
  | save (s : Session) (rows : List Row)
  | clean (cutoff : Nat)
deriving DecidableEq, Repr

/-- One operation, `frontend/slash_run.py:74-75`. -/
def Db.step (db : Db) : Op → Db
  | .save s rows => db.save s rows
  | .clean c => db.clean c

/-- A history, `frontend/slash_run.py:72-75`. -/
def Db.run (db : Db) (ops : List Op) : Db := ops.foldl Db.step db

/-- `get_tests_locally`, `resuming.py:173-184`. -/
def Db.read (db : Db) (id : Nat) : List Row :=
  if db.sessions.any (·.id == id) then (db.rows.filter (·.1 == id)).map (·.2) else []

/-- The session created last among those given. -- `resuming.py:141` -/
def latest : List Session → Option Session
  | [] => none
  | s :: t =>
    match latest t with
    | none => some s
    | some u => if u.created > s.created then some u else some s

/-- `get_last_resumeable_session_id`, `resuming.py:136-144`; `none`: `CannotResume` is raised. -/
def Db.last (db : Db) (folder : Nat) : Option Nat := (latest (db.sessions.filter (·.folder == folder))).map (·.id)

/-- `get_tests_from_previous_session`, `resuming.py:219-225`; `remote`: what `get_tests_from_remote` gives (`none`: it raises). -/
def Db.previous (db : Db) (remote : Nat → Bool → Option (List Row)) (fl : Flags) (getSuccessful : Bool) (id : Nat) : Option (List Row) :=
  let l := db.read id
  match (if l.isEmpty then remote id getSuccessful else some l) with
  | none => none
  | some l =>
    match filterTests fl getSuccessful l with
    | none => none
    | some l => sortTests fl l

/-- Whether the variation that was saved allows a test with the given one, `loader.py:131-133`: an empty one allows all. -/
def varMatches : Option Nat → Nat → Bool
  | none, _ => true
  | some 0, _ => true
  | some v, w => v == w

/-- `_iter_test_resume`, `loader.py:126-134`, on the tests of the file; `excluded`: `_is_excluded`. -/
def iterResume (testsOf : Nat → List Meta) (excluded : Meta → Bool) (r : Row) : List Meta :=
  (testsOf r.file).filter (fun t => !(excluded t) && (r.addr == t.addr) && varMatches r.var t.var)

/-- The tests that are loaded to be resumed, `frontend/slash_run.py:54-56`, `loader.py:106-124`. -/
def resumed (testsOf : Nat → List Meta) (excluded : Meta → Bool) (rows : List Row) : List Meta :=
  rows.flatMap (iterResume testsOf excluded)

end Slash.Resume
