import Verif.Model.ResumeChain
import Verif.Model.RunAll
/-!
# `slash resume` again and again, from the store to the status of each process: `slash/frontend/slash_run.py:33-82`

`Verif.Model.ResumeChain` (which tests are loaded), `Verif.Model.Whole` (a session that runs them) and `Verif.Model.ExitCode` (the exit code), put
together for sessions that are not parallel. Simplifications: those of `Verif.Model.ResumeChain`; if saving raises then nothing is saved.
-/
namespace Slash.RunAll
open Resume (Meta Row Db Op World)

/-- One session: its data for the store, what was done to the store before it, the files as it finds them, what the test at a place of its list
does, and what is raised outside of the tests (see `Run`), `frontend/slash_run.py:33-82`, `resuming.py:101-105`. -/
structure Once where
  s : Resume.Session
  others : List Op := []
  world : World
  make : Nat → Meta → Whole.T := fun _ _ => { id := 0 }
  session : Whole.Env := {}
  other : Exit.Exc := .systemExit (.int 1)
  enter : Option Exit.Exc := none
  exit : Option Exit.Exc → Option Exit.Exc := fun _ => none
  callback : Option Exit.Exc := none
  prepare : Option Exit.Exc := none
  save : Option Exit.Exc := none

/-- The tests as they are run, `frontend/slash_run.py:56-60`. -/
def Once.tests (x : Once) (l : List Meta) : List Whole.T := l.zipIdx.map (fun p => { x.make p.2 p.1 with id := p.2 })

/-- Whether this piece of user code returns when it is called in this state, `runner.py:178-181`. -/
def returns (c : Whole.Code) (cl : Cleanup.St) : Bool :=
  match Cleanup.runActs c.acts cl with
  | (some _, _) => false
  | (none, _) => c.out.isNone

/-- The result of the test at place `k` at the end of the session. `Verif.Model.Whole` leaves out `mark_finished`: it is done when the hooks for the end
of the test have returned, `runner.py:177-181`. -/
def Once.result (x : Once) (l : List Meta) (k : Nat) : Result :=
  { (Whole.session x.session (x.tests l)).2.cl.results (.test k) with
    finished := (Whole.session x.session (x.tests l)).2.trace.any (fun b => decide (b.ev = .fin k) && (l[k]?.any (fun m => returns (x.make k m).endHook b.cl))) }

/-- The results that the session has at its end, with the metadata of the tests, `resuming.py:108-109`. -/
def Once.results (x : Once) (l : List Meta) : List (Meta × Result) :=
  (Whole.session x.session (x.tests l)).2.tests.filterMap (fun k => l[k]?.map (fun m => (m, x.result l k)))

/-- The entries of the last session in this directory that are to be resumed (`none`: something is raised), `frontend/slash_run.py:49-55`. -/
def Once.rows (x : Once) (db : Db) : Option (List Row) :=
  match db.last x.s.folder with
  | none => none
  | some id => db.previous (fun _ _ => none) {} false id

/-- The tests loaded for them, `frontend/slash_run.py:49-56`. -/
def Once.load (x : Once) (db : Db) : Option (List Meta) :=
  match x.rows db with
  | none => none
  | some rows => (Resume.loadRows x.world rows).map Resume.numbered

/-- What leaves the session, `frontend/slash_run.py:64-70`. -/
def Once.exc (r : Once) (x : Whole.X) : Exit.Exc :=
  match x.kind with
  | .interrupt => .interruption
  | .other => r.other
  | _ => .exception

/-- The session runs the tests, `frontend/slash_run.py:64-70`. -/
def Once.run (x : Once) (l : List Meta) : Option Exit.Exc × SessionResults :=
  ((Whole.session x.session (x.tests l)).1.map x.exc, RunAll.results (Whole.session x.session (x.tests l)).2)

/-- All put together for `slash resume` without ids, `frontend/slash_run.py:33-82`. -/
def Once.input (x : Once) (db : Db) : Exit.Inp where
  enter := x.enter
  exit := x.exit
  callback := x.callback
  prepare := x.prepare
  save := x.save
  resume := some (match x.rows db with
    | none => .error .exception
    | some rows => .ok (List.range rows.length))
  load := fun _ _ => match x.load db with
    | none => .error .exception
    | some l => .ok (List.range l.length)
  run := fun _ => match x.load db with
    | none => (none, {})
    | some l => x.run l

/-- The status of the process, `frontend/main.py:37-50,66-71`. -/
def Once.status (x : Once) (db : Db) : Int := Exit.status (x.input db)

/-- The tests that are run, `frontend/slash_run.py:34-60`. -/
def Once.collected (x : Once) (db : Db) : List Meta :=
  if x.enter.isSome || x.callback.isSome || x.prepare.isSome then [] else (x.load db).getD []

/-- The store after a session with these tests, `frontend/slash_run.py:72-74`, `resuming.py:107-133`. -/
def Once.keep (order : List Meta → List Meta) (x : Once) (l : List Meta) (db : Db) : Db :=
  if x.save.isSome then db else db.save x.s (Resume.entries order (x.results l) l)

/-- The store after `slash resume`: nothing is saved if entering the application or its callback raises, `frontend/slash_run.py:34-37,72-75`. -/
def Once.after (order : List Meta → List Meta) (x : Once) (db : Db) : Db :=
  if x.enter.isSome || x.callback.isSome then db else x.keep order (x.collected db) db

/-- What one sees of a resumption: the results of its tests and the status of the process, `frontend/slash_run.py:33-82`. -/
structure Seen where
  results : List (Meta × Result)
  status : Int

/-- Resumptions one after the other, `frontend/slash_run.py:33-82`. -/
def resumptions (order : List Meta → List Meta) : List Once → Db → List Seen
  | [], _ => []
  | x :: xs, db =>
    ⟨x.results (x.collected (db.run x.others)), x.status (db.run x.others)⟩ :: resumptions order xs (x.after order (db.run x.others))

end Slash.RunAll
