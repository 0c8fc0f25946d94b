import Verif.Model.Pattern
/-!
# The fixtures given to a function: `slash/core/fixtures/fixture_store.py:58-69,82-102,256-285`, `fixtures/utils.py:28-42`
-/
namespace Slash.Args

/-- Names of fixtures and arguments. -- `fixture_store.py:82-97` -/
abbrev Name := List Char

/-- An element of `get_required_fixture_names`, `fixture_store.py:82-97`: an argument, or an argument and the name of the fixture it stands
for. -/
inductive Elem
  | one (name : Name)
  | two (arg real : Name)
deriving DecidableEq, Repr

/-- `required_name`, `fixture_store.py:273-276`. -/
def Elem.arg : Elem → Name
  | .one n => n
  | .two a _ => a

/-- `real_name`, `fixture_store.py:273-276`. -/
def Elem.real : Elem → Name
  | .one n => n
  | .two _ r => r

/-- The arguments of a function, and what they stand for, as elements, `fixture_store.py:87-97`; `skip`: names of its parameters. -/
def requiredNames (skip : List Name) (arguments : List (Name × Name)) : List Elem :=
  (arguments.filter (fun a => !(skip.contains a.1))).map (fun a => if a.2 = a.1 then .one a.1 else .two a.1 a.2)

/-- What collecting comes to: `unknown`: `UnknownFixtures` is raised, `namespace.py:37-48`; `deep`: not finished. -/
inductive R (α : Type)
  | ok (a : α)
  | unknown
  | deep
deriving DecidableEq, Repr

/-- `OrderedSet.add`, `fixture_store.py:281`. -/
def addSet (x : Name × Nat) (s : List (Name × Nat)) : List (Name × Nat) := if s.contains x then s else s ++ [x]

/-- The name which is skipped, `fixture_store.py:278`. -/
def this : Elem := .one ['t', 'h', 'i', 's']

/-- `_get_fixtures_set`, `fixture_store.py:268-285`; `lookup`: `namespace.get_fixture_by_name`; `extra`: the names given to `use_fixtures` on
the fixture function. It recurses, with the same set, so it takes an amount of fuel. -/
def fixturesSet (lookup : Name → Option Nat) (extra : Nat → List Name) : Nat → List Elem → List (Name × Nat) → R (List (Name × Nat))
  | 0, _, _ => .deep
  | _ + 1, [], s => .ok s
  | n + 1, e :: es, s =>
    if e = this then fixturesSet lookup extra n es s
    else
      match lookup e.real with
      | none => .unknown
      | some f =>
        match fixturesSet lookup extra n ((extra f).map .one) (addSet (e.arg, f) s) with
        | .ok s' => fixturesSet lookup extra n es s'
        | r => r

/-- `required_name in element`, `fixture_store.py:264`: part of a string, or member of a tuple. -/
def inElem (r : Name) : Elem → Bool
  | .one n => Pat.isIn r n
  | .two a b => r == a || r == b

/-- The condition of `fixture_store.py:264`. -/
def wanted (names : List Elem) (r : Name) : Bool := names.contains (.one r) || names.any (inElem r)

/-- `returned[name] = fixture`, `fixture_store.py:265`. -/
def dset (k : Name) (v : Nat) : List (Name × Nat) → List (Name × Nat)
  | [] => [(k, v)]
  | e :: t => if e.1 = k then (k, v) :: t else e :: dset k v t

/-- `get_fixture_dict` (with fixtures in the place of their values), `fixture_store.py:256-266`. -/
def fixtureDict (lookup : Name → Option Nat) (extra : Nat → List Name) (n : Nat) (names : List Elem) : R (List (Name × Nat)) :=
  match fixturesSet lookup extra n names [] with
  | .ok s => .ok (s.foldl (fun d x => if wanted names x.1 then dset x.1 x.2 d else d) [])
  | r => r

/-- Functions and the lists that `use_fixtures` attached to them: each function refers to at most one list, `fixtures/utils.py:33-38`. -/
structure Lists where
  ref : Nat → Option Nat
  list : Nat → List Nat

/-- `use_fixtures(l)(func)`, `fixtures/utils.py:28-42`, where `l` is the list object with the number given. -/
def useFixtures (h : Lists) (l func : Nat) : Lists :=
  match h.ref func with
  | none => { h with ref := fun x => if x = func then some l else h.ref x }
  | some r => { h with list := fun x => if x = r then h.list r ++ h.list l else h.list x }

/-- The names attached to a function, `fixture_store.py:62,282`. -/
def attached (h : Lists) (func : Nat) : List Nat := ((h.ref func).map h.list).getD []

end Slash.Args
