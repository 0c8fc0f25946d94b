import Verif.Model.Namespace
import Verif.Model.Reports
/-!
# The marks `slash list` puts on fixtures: `slash/core/fixtures/fixture.py:49-61`, `slash/frontend/slash_list.py:71-76,118-138`

Names of fixtures are numbers, as in `Verif.Model.Namespace`; `show'` gives the text of a name.
-/
namespace Slash.NS

/-- The loop of `Fixture.is_override`, `fixture.py:52-61`, for the fixture `id` called `name`; `fuel` bounds the number of namespaces. -/
def overrideFrom (st : Store) (name id : Nat) : Nat → Option Nat → Bool
  | 0, _ => false
  | _, none => false
  | fuel + 1, some p =>
    match lookupName st p name with
    | none => false
    | some f => if f ≠ id then true else overrideFrom st name id fuel (st.nss[p]?.bind (·.parent))

/-- `Fixture.is_override`, `fixture.py:49-61`. A namespace is created after its parent. -/
def isOverride (st : Store) (name id : Nat) : Bool :=
  match st.fixtures.lookup id with
  | none => false
  | some n => overrideFrom st name id (n + 1) (st.nss[n]?.bind (·.parent))

/-- What the list shows of a fixture: its name, whether it is used automatically. -- `slash_list.py:121-133` -/
structure Shown where
  decl : FDecl
  autouse : Bool := false
deriving DecidableEq, Repr

/-- A fixture as `_report_fixtures` sees it, `slash_list.py:121-136`. -/
def Shown.toFix (show' : Nat → String) (st : Store) (f : Shown) : Rep.LFix where
  id := f.decl.id
  name := show' f.decl.name
  autouse := f.autouse
  override := isOverride st f.decl.name f.decl.id

/-- `_report_fixtures`, `slash_list.py:118-138`, for the store of the session after all tests were loaded; `fixtures`: the fixtures known, in order;
`tests`: for each test, the fixtures `get_required_fixture_objects` gives (`slash_list.py:71-73`). -/
def listFixtures (show' : Nat → String) (st : Store) (fixtures : List Shown) (tests : List (List Nat)) : List (String × Rep.Info × Bool) :=
  Rep.reportFixtures (fixtures.map (Shown.toFix show' st)) tests.flatten

end Slash.NS
