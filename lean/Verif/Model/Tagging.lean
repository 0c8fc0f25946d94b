/-!
# Tags: `slash/core/tagging.py`, and where they are merged: `fixtures/fixture.py:30-36`, `variation.py:39-44`,
`runnable_test.py:55-59`, `function_test.py:18-22`, `test.py:76-82`
-/
namespace Slash.Tag

/-- The `_tags` dict of a `Tags`, `tagging.py:44-49`; the value `none` is `NOTHING`, a tag without a value. -/
abbrev Tags := List (Nat × Option Nat)

/-- `_tags.get(name, NOTHING)`, `tagging.py:91-92`. -/
def get (t : Tags) (k : Nat) : Option Nat := (t.find? (fun e => e.1 == k)).bind (·.2)

/-- `_tags[name] = value`, `tagging.py:51-52`. -/
def set (k : Nat) (v : Option Nat) : Tags → Tags
  | [] => [(k, v)]
  | e :: t => if e.1 = k then (k, v) :: t else e :: set k v t

/-- `_tags.update(other._tags)`, `tagging.py:79,89`. -/
def upd (a b : Tags) : Tags := b.foldl (fun t e => set e.1 e.2 t) a

/-- `_check_conflicting_tags`, `tagging.py:62-72`: `self.get(tag_name, NOTHING) not in (tag_value, NOTHING)` for some tag of the other. -/
def conflict (a b : Tags) : Bool := b.any (fun e => !(get a e.1 == e.2) && !(get a e.1 == none))

/-- What merging comes to; `conflict`: `TaggingConflict` is raised, `tagging.py:67`; `deep`: not finished (see `fixTags`). -/
inductive R (α : Type)
  | ok (a : α)
  | conflict
  | deep
deriving DecidableEq, Repr

/-- A computation goes on with the value of another one; exceptions are passed on. -- `tagging.py:67` -/
def R.bind {α β : Type} (r : R α) (f : α → R β) : R β :=
  match r with
  | .ok a => f a
  | .conflict => .conflict
  | .deep => .deep

/-- `update` of a `Tags`, `tagging.py:85-89`. -/
def update (a : Tags) : Option Tags → R Tags
  | none => .ok a
  | some b => if conflict a b then .conflict else .ok (upd a b)

/-- `+`, `tagging.py:74-80` and (for `NO_TAGS`, here `none`) `117-118`. -/
def add (a b : Option Tags) : R (Option Tags) :=
  match a, b with
  | none, b => .ok b
  | some a, none => .ok (some a)
  | some a, some b => if conflict a b then .conflict else .ok (some (upd a b))

/-- A loop in which each step may raise. -- `fixtures/fixture.py:34-35`, `runnable_test.py:57-58` -/
def foldR {α β : Type} (f : α → β → R α) : α → List β → R α
  | a, [] => .ok a
  | a, b :: l => (f a b).bind (fun a' => foldR f a' l)

/-- `Fixture.get_tags`, `fixtures/fixture.py:30-36`; `own`: the tags of the fixture function; `req`: the fixtures among its arguments. It
recurses on them, so it takes an amount of fuel. (All the recursive calls come before the first update, which only changes which of two
`TaggingConflict`s is raised.) -/
def fixTags (own : Nat → Option Tags) (req : Nat → List Nat) : Nat → Nat → R Tags
  | 0, _ => .deep
  | n + 1, f => foldR (fun acc g => (fixTags own req n g).bind (fun t => update acc (some t))) ((own f).getD []) (req f)

/-- The tags of a variation, `variation.py:39-44`; `params`: the tags of the values of its parameters. -/
def variationTags (params : List Tags) : R Tags := foldR (fun acc t => update acc (some t)) [] params

/-- `_get_fixture_tags`, `runnable_test.py:55-59`. -/
def fixturesTags (own : Nat → Option Tags) (req : Nat → List Nat) (n : Nat) (fs : List Nat) : R (Option Tags) :=
  foldR (fun acc g => (fixTags own req n g).bind (fun t => add acc (some t))) none fs

/-- `get_tags` of a test, `function_test.py:18-22`, `test.py:76-82`; `declared`: the tags of the function, or those of the class and of the
method; `nofix`: the test is marked with `nofixtures`. -/
def testTags (own : Nat → Option Tags) (req : Nat → List Nat) (n : Nat) (declared : List (Option Tags)) (params : List Tags) (nofix : Bool)
    (fs : List Nat) : R (Option Tags) :=
  (foldR add none declared).bind (fun d =>
    (variationTags params).bind (fun v =>
      (add d (some v)).bind (fun t =>
        if nofix then .ok t
        else (fixturesTags own req n fs).bind (fun f => add t f))))

/-- The fixtures of a test: those among its arguments (`function_test.py:45-46`, `test.py:94-96`), those declared with `autouse` (`fixtures/parameters.py:72`), those it names
by `use_fixtures` (`fixtures/fixture_store.py:62-66`), and those that `before` and `after` of its class take or name (`test.py:119-131`). -/
structure Fixtures where
  args : List Nat := []
  autouse : List Nat := []
  extra : List Nat := []
  around : List Nat := []
deriving DecidableEq, Repr

/-- The fixtures that are set up for a test, `fixtures/parameters.py:72`, `fixtures/fixture_store.py:58-66`, `test.py:119-131`. -/
def Fixtures.setUp (f : Fixtures) (nofix : Bool) : List Nat := f.autouse ++ (if nofix then [] else f.args ++ f.extra) ++ f.around

/-- The tags of a test with these fixtures: only those among its arguments are asked, `runnable_test.py:55-59`, `fixtures/fixture_store.py:99-102`. -/
def Fixtures.tags (f : Fixtures) (own : Nat → Option Tags) (req : Nat → List Nat) (n : Nat) (declared : List (Option Tags)) (params : List Tags) (nofix : Bool) : R (Option Tags) :=
  testTags own req n declared params nofix f.args

/-- Classes and the `Tags` objects they refer to, `tagging.py:26-29,40-41`: each class has at most one attribute of its own (a reference to
an object), otherwise it has the attribute of its base. -/
structure Heap where
  base : Nat → Option Nat
  own : Nat → Option Nat
  obj : Nat → Tags
  next : Nat

/-- `getattr(test, "__slash_tags__", NO_TAGS)`, `tagging.py:40-41`; classes are numbered after their bases. -/
def attr (h : Heap) : Nat → Nat → Option Nat
  | 0, _ => none
  | n + 1, c =>
    match h.own c with
    | some r => some r
    | none => (h.base c).bind (attr h n)

/-- `get_tags`, `tagging.py:40-41`. -/
def getTags (h : Heap) (c : Nat) : Option Tags := (attr h (c + 1) c).map h.obj

/-- `tag_test`, `tagging.py:23-31`. -/
def tagTest (h : Heap) (c k : Nat) (v : Option Nat) : R Heap :=
  let (r, h1) : Nat × Heap :=
    match attr h (c + 1) c with
    | some r => (r, h)
    | none => (h.next, { h with own := fun x => if x = c then some h.next else h.own x,
                                obj := fun x => if x = h.next then [] else h.obj x, next := h.next + 1 })
  if !(get (h1.obj r) k == v) && !(get (h1.obj r) k == none) then .conflict
  else .ok { h1 with obj := fun x => if x = r then set k v (h1.obj r) else h1.obj x }

end Slash.Tag
