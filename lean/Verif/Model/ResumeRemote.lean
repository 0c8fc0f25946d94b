import Verif.Model.Resume
/-!
# Resuming from a remote store, and the connection to the local one: `slash/resuming.py:73-87,146-171,219-225`
-/
namespace Slash.Resume

/-- What is used of a test that the remote store gives, `resuming.py:167-170`. -/
structure RemoteTest where
  file : Nat
  name : Nat
  var : Option Nat
  status : String
deriving DecidableEq, Repr

/-- The call of `get_tests_to_resume`: its keyword argument is `filters_dict={'show_successful': …}` or `get_successful=…`,
`resuming.py:165-166`. -/
inductive Query
  | filters (id : Nat) (successful : Bool)
  | plain (id : Nat) (successful : Bool)
deriving DecidableEq, Repr

/-- The plugin that is active under the name `backslash`, `resuming.py:157-166`: whether it has the two methods, and what they give. -/
structure Store where
  hasExists : Bool
  hasGet : Bool
  knows : Nat → Bool
  give : Query → List RemoteTest

/-- How looking for the tests ends if it fails: the first five are `CannotResume`, the last two an `AttributeError` and a `ValueError`,
`resuming.py:159,161,163,164,190,192,211`. -/
inductive Fail
  | noPlugin | unsupported | unknownSession | filterConflict | orderConflict | noVersion | badVersion
deriving DecidableEq, Repr

/-- Whether the exception is `CannotResume`, `resuming.py:159-163,190,192,211,226`. -/
def Fail.isCannotResume : Fail → Bool
  | .noVersion => false
  | .badVersion => false
  | _ => true

/-- `_get_resume_status_from_backslash_status`, `resuming.py:146-154`. -/
def remoteStatus (s : String) : Status :=
  if s ∈ ["FAILURE", "ERROR", "INTERRUPTED"] then .failed
  else if s ∈ ["SUCCESS"] then .success
  else if s ∈ ["SKIPPED"] then .skipped
  else .planned

/-- Python's `>=` on tuples of numbers, `resuming.py:165`. -/
def tupleGe : List Nat → List Nat → Bool
  | _, [] => true
  | [], _ :: _ => false
  | a :: l, b :: m => if a = b then tupleGe l m else decide (b < a)

/-- `backslash_version`, `resuming.py:164`. The version is what is between the dots; `none` in it: not a number. `none`: the client is not
installed as a distribution, `__version__.py:5-11`, and then there is nothing to split. -/
def clientVersion : Option (List (Option Nat)) → Except Fail (List Nat)
  | none => .error .noVersion
  | some parts =>
    if (parts.take 2).all Option.isSome then .ok ((parts.take 2).filterMap id) else .error .badVersion

/-- `kwargs`, `resuming.py:165`. -/
def queryFor (version : List Nat) (id : Nat) (successful : Bool) : Query :=
  if tupleGe version [2, 38] then .filters id successful else .plain id successful

/-- A `ResumedTestData` made of a test of the store, `resuming.py:167-170`. -/
def RemoteTest.row (t : RemoteTest) : Row := ⟨t.file, t.name, t.var, remoteStatus t.status⟩

/-- `get_tests_from_remote`, `resuming.py:156-171`; the first component: the queries made. -/
def fromRemote (store : Option Store) (version : Option (List (Option Nat))) (id : Nat) (successful : Bool) :
    List Query × Except Fail (List Row) :=
  match store with
  | none => ([], .error .noPlugin)
  | some p =>
    if !p.hasExists || !p.hasGet then ([], .error .unsupported)
    else if !p.knows id then ([], .error .unknownSession)
    else
      match clientVersion version with
      | .error f => ([], .error f)
      | .ok v => ([queryFor v id successful], .ok ((p.give (queryFor v id successful)).map RemoteTest.row))

/-- `resumed_tests` before they are filtered, `resuming.py:220-223`. -/
def Db.lookup (db : Db) (store : Option Store) (version : Option (List (Option Nat))) (id : Nat) (successful : Bool) :
    List Query × Except Fail (List Row) :=
  if (db.read id).isEmpty then fromRemote store version id successful else ([], .ok (db.read id))

/-- `_sort_tests(_filter_tests(…))`, `resuming.py:225`. -/
def filterSort (fl : Flags) (successful : Bool) (rows : List Row) : Except Fail (List Row) :=
  match filterTests fl successful rows with
  | none => .error .filterConflict
  | some l =>
    match sortTests fl l with
    | none => .error .orderConflict
    | some l => .ok l

/-- `get_tests_from_previous_session`, `resuming.py:219-225`. -/
def Db.search (db : Db) (store : Option Store) (version : Option (List (Option Nat))) (fl : Flags) (successful : Bool) (id : Nat) :
    List Query × Except Fail (List Row) :=
  match db.lookup store version id successful with
  | (q, .error f) => (q, .error f)
  | (q, .ok rows) => (q, filterSort fl successful rows)

/-! ## The connection -/

/-- How a commit ends: it succeeds, it raises an `OperationalError`, or it raises something else, `resuming.py:83-87`. -/
inductive Commit
  | ok | operational | other
deriving DecidableEq, Repr

/-- How the `with` statement ends, `resuming.py:79-87`. -/
inductive End
  | fine | bodyRaised | operational | other
deriving DecidableEq, Repr

/-- The loop of `connecting_to_db`, `resuming.py:82-87`, from attempt `i` on, `n` of them being left; `saved`: whether the changes have been
stored. A commit that fails leaves the changes pending, and a commit without changes stores nothing: assumptions about the database. -/
def commits (commit : Nat → Commit) (max : Nat) : Nat → Nat → Bool → Bool × End
  | _, 0, saved => (saved, .fine)
  | i, n + 1, saved =>
    match commit i with
    | .ok => commits commit max (i + 1) n true
    | .other => (saved, .other)
    | .operational => if i = max - 1 then (saved, .operational) else commits commit max (i + 1) n saved

/-- What can be seen of the connection after the `with` statement: whether the changes are stored, how it ended, whether it is closed, `resuming.py:79-87`. -/
structure Connection where
  saved : Bool
  ending : End
  closed : Bool
deriving DecidableEq, Repr

/-- `connecting_to_db`, `resuming.py:79-87`; `bodyRaises`: whether the body of the `with` statement raises, which is raised at the `yield`;
`closing` closes in every case. -/
def connecting (commit : Nat → Commit) (bodyRaises : Bool) : Connection :=
  if bodyRaises then ⟨false, .bodyRaised, true⟩
  else
    let r := commits commit 3 0 3 false
    ⟨r.1, r.2, true⟩

end Slash.Resume
