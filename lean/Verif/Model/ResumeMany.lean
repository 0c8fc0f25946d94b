import Verif.Model.ResumeChain
/-!
# `slash resume` and `slash rerun` with ids of sessions: `slash/frontend/slash_run.py:49-56`, `slash/resuming.py:219-225`

Simplifications: those of `Verif.Model.ResumeChain`, except that ids and options may be given, and that there may be another store.
-/
namespace Slash.Resume

/-- What the command line asks for: the options, whether it is `slash rerun`, and the ids; and the working directory,
`frontend/slash_run.py:25-30,49-53`. -/
structure Ask where
  fl : Flags := {}
  rerun : Bool := false
  ids : List Nat := []
  folder : Nat := 0

/-- The ids, `frontend/slash_run.py:50-52`; `none`: `CannotResume` is raised. -/
def Ask.sessions (a : Ask) (db : Db) : Option (List Nat) :=
  if a.ids.isEmpty then (db.last a.folder).map (fun id => [id]) else some a.ids

/-- The entries of all the sessions, one session after the other, `frontend/slash_run.py:53-55`; `none`: something is raised. -/
def Db.previousAll (db : Db) (remote : Nat → Bool → Option (List Row)) (fl : Flags) (g : Bool) : List Nat → Option (List Row)
  | [] => some []
  | id :: ids =>
    match db.previous remote fl g id with
    | none => none
    | some rows =>
      match db.previousAll remote fl g ids with
      | none => none
      | some l => some (rows ++ l)

/-- The tests that are run (`none`: something is raised before), `frontend/slash_run.py:49-56`. -/
def Ask.load (a : Ask) (w : World) (remote : Nat → Bool → Option (List Row)) (db : Db) : Option (List Meta) :=
  match a.sessions db with
  | none => none
  | some ids =>
    match db.previousAll remote a.fl a.rerun ids with
    | none => none
    | some rows => (loadRows w rows).map numbered

end Slash.Resume
