import Verif.Model.Resume
/-!
# Runs and resumptions one after the other: `slash/frontend/slash_run.py:49-76`, `slash/loader.py:55-91,126-134,179-205`,
`slash/resuming.py:107-144,219-225`

Simplifications: `repeat_each` and `repeat_all` are 1; no test is excluded; no options for the selection are given; there is no store besides the
local one; no session id is given.
-/
namespace Slash.Resume

/-- What resuming finds in the files: the tests of each (`none`: it is not there or cannot be imported), and the `repeat` marker of a test,
`loader.py:83,179-205`. -/
structure World where
  tests : Nat → Option (List Meta)
  rep : Meta → Nat := fun _ => 1

/-- The tests loaded for the entries, `loader.py:79-85,126-134`; `none`: loading raises. -/
def loadRows (w : World) : List Row → Option (List Meta)
  | [] => some []
  | r :: rs =>
    match w.tests r.file with
    | none => none
    | some _ =>
      match loadRows w rs with
      | none => none
      | some l => some ((iterResume (fun f => (w.tests f).getD []) (fun _ => false) r).flatMap (fun t => List.replicate (w.rep t) t) ++ l)

/-- `allocate_id` for each test, `loader.py:72-75`. -/
def numbered (l : List Meta) : List Meta := l.zipIdx.map (fun x => { x.1 with id := x.2 })

/-- A session that has started: its data for the store, and the result that each of its tests gets (`none`: it is not run),
`resuming.py:101-105`. -/
structure Run where
  s : Session
  out : Meta → Option Result

/-- The results of a session with the given tests, `resuming.py:108`. -/
def Run.results (r : Run) (tests : List Meta) : List (Meta × Result) := tests.filterMap (fun t => (r.out t).map (fun x => (t, x)))

/-- `save_resume_state` at the end of a session, `frontend/slash_run.py:73-74`; `collected` is empty if collecting them failed (line 37). -/
def finish (order : List Meta → List Meta) (r : Run) (collected : List Meta) (db : Db) : Db :=
  db.save r.s (entries order (r.results collected) collected)

/-- `slash resume` without ids: the tests it loads (`none`: it fails), and the store after it, `frontend/slash_run.py:49-56,72-75`. -/
def resumeLast (w : World) (order : List Meta → List Meta) (r : Run) (db : Db) : Option (List Meta) × Db :=
  match db.last r.s.folder with
  | none => (none, finish order r [] db)
  | some id =>
    match db.previous (fun _ _ => none) {} false id with
    | none => (none, finish order r [] db)
    | some rows =>
      match loadRows w rows with
      | none => (none, finish order r [] db)
      | some l => (some (numbered l), finish order r (numbered l) db)

/-- One resumption, after what else is done to the store before it, `frontend/slash_run.py:72-75`. -/
structure Step where
  others : List Op := []
  run : Run

/-- Resumptions one after the other: what each loads, `frontend/slash_run.py:49-76`. -/
def chain (w : World) (order : List Meta → List Meta) : List Step → Db → List (Option (List Meta))
  | [], _ => []
  | x :: xs, db =>
    let y := resumeLast w order x.run (db.run x.others)
    y.1 :: chain w order xs y.2

end Slash.Resume
