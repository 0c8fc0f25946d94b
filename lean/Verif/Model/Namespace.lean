/-!
# Where fixture names are looked up: `slash/core/fixtures/namespace.py`, `fixture_store.py:28-30,111-142,211-243`,
`fixture.py:23-28`, `slash/core/local_config.py`, `slash/loader.py:212-225`

Names (of Python variables and of fixtures) are numbers. Fixtures are named by the id of their `FixtureInfo`. The
contents of files are given as lists of bindings in definition order; how files are imported is not modelled.
-/
namespace Slash.NS

/-- A `dict` from names, as an association list; `d[k] = v` (Python semantics, used at `namespace.py:54`, `local_config.py:47,56`). -/
def dset {α : Type} (k : Nat) (v : α) : List (Nat × α) → List (Nat × α)
  | [] => [(k, v)]
  | (k', v') :: l => if k' = k then (k, v) :: l else (k', v') :: dset k v l

/-- `dict.update`, used at `local_config.py:47,56`. -/
def dupdate {α : Type} (d e : List (Nat × α)) : List (Nat × α) := e.foldl (fun d p => dset p.1 p.2 d) d

/-- `Namespace`, `namespace.py:9-14`; the parent by its number. -/
structure Ns where
  parent : Option Nat := none
  names : List (Nat × Nat) := []
deriving DecidableEq, Repr

/-- The parts of `FixtureStore` concerned, `fixture_store.py:28-30`: all namespaces ever created, the stack `_namespaces` (top
first), and `_fixtures_by_id` with the `namespace` of each fixture (`fixture.py:28`). -/
structure Store where
  nss : List Ns := [{}]
  stack : List Nat := [0]
  fixtures : List (Nat × Nat) := []
deriving DecidableEq, Repr

/-- A fixture as a value of a module's variable: `info.name` and `info.id`, `fixtures/utils.py:54-68`. `bad`: its name is a valid
test name (`fixture_store.py:231`). -/
structure FDecl where
  name : Nat
  id : Nat
  bad : Bool := false
deriving DecidableEq, Repr

/-- `Namespace.get_fixture_by_name`, `namespace.py:37-48`; `fuel` bounds the number of ancestors. -/
def lookupIn (nss : List Ns) : Nat → Nat → Nat → Option Nat
  | 0, _, _ => none
  | fuel + 1, n, name =>
    match nss[n]? with
    | none => none
    | some ns =>
      match ns.names.lookup name with
      | some f => some f
      | none =>
        match ns.parent with
        | none => none
        | some p => lookupIn nss fuel p name

/-- `Namespace.get_fixture_by_name`, `namespace.py:37-48`. A namespace is created after its parent. -/
def lookupName (st : Store) (n name : Nat) : Option Nat := lookupIn st.nss (n + 1) n name

/-- `get_current_namespace`, `fixture_store.py:143-144`. -/
def current (st : Store) : Nat := st.stack.headD 0

/-- `push_namespace`, `fixture_store.py:129-130`. -/
def pushNs (st : Store) : Store :=
  { st with nss := st.nss ++ [{ parent := some (current st) }], stack := st.nss.length :: st.stack }

/-- `pop_namespace`, `fixture_store.py:132-133`. -/
def popNs (st : Store) : Store := { st with stack := st.stack.tail }

/-- `Namespace.add_name`, `namespace.py:50-54`; `none`: the assertion fails. -/
def addName (n name id : Nat) (st : Store) : Option Store :=
  match st.nss[n]? with
  | none => none
  | some ns =>
    match ns.names.lookup name with
    | some id' => if id' = id then some st else none
    | none => some { st with nss := st.nss.set n { ns with names := ns.names ++ [(name, id)] } }

/-- `add_fixture`, `fixture_store.py:226-237` (with `Fixture.__init__`); `none`: an exception. -/
def addFixture (d : FDecl) (st : Store) : Option Store :=
  match st.fixtures.lookup d.id with
  | some _ => some st
  | none =>
    if d.bad then none
    else
      let c := current st
      let st := { st with nss := st.nss ++ [{ parent := some c }] }
      match addName c d.name d.id st with
      | none => none
      | some st' => some { st' with fixtures := st'.fixtures ++ [(d.id, st.nss.length - 1)] }

/-- `add_fixtures_from_dict`, `fixture_store.py:215-223`; the argument: the fixtures among the values of the dictionary. -/
def addDict : List FDecl → Store → Option Store
  | [], st => some st
  | d :: ds, st =>
    match addFixture d st with
    | none => none
    | some st =>
      match addName (current st) d.name d.id st with
      | none => none
      | some st => addDict ds st

/-- `LocalConfig._build_config`, `local_config.py:38-57`: the variables of the `slashconf` files of the directories, closest directory first.
(The cache of lines 43,52-54 only avoids importing a file twice.) -/
def buildConfig (confs : List (List (Nat × FDecl))) : List (Nat × FDecl) := confs.reverse.foldl dupdate []

/-- `_adding_local_fixtures` up to the `yield`, `loader.py:213-222`. -/
def enterFile (confs : List (List (Nat × FDecl))) (module : List (Nat × FDecl)) (st : Store) : Option Store :=
  match addDict ((buildConfig confs).map (·.2)) (pushNs st) with
  | none => none
  | some st => addDict (module.map (·.2)) (pushNs st)

/-- The rest of `_adding_local_fixtures`, `loader.py:223-225` and `fixture_store.py:139-141`. -/
def leaveFile (st : Store) : Store := popNs (popNs st)

/-- The fixture a name used by a fixture stands for: `fixture.py:94` with the namespace of line 28. -/
def lookupFrom (st : Store) (fixture name : Nat) : Option Nat :=
  match st.fixtures.lookup fixture with
  | none => none
  | some n => lookupName st n name

end Slash.NS
