import Verif.Model.Variation
import Verif.Model.TestMeta
/-!
# Names of the parameters of a test: `slash/core/variation_factory.py:21-100`, `core/variation.py:29-45,74-78`, `core/test.py:42-59`

Fixtures and parametrizations have ids taken from one counter (`core/fixtures/utils.py:12,55`). Names are Python strings.
-/
namespace Slash.VN
open Slash.Meta (Str)

/-- A fixture or a parametrization: its `info.id`, and for a parametrization the component `as_transform` selects (`parameters.py:117-118,173-175`;
the result shares `info`). -/
structure Obj where
  id : Nat
  comp : Option Nat := none
deriving DecidableEq, Repr

/-- The `keyword_arguments` of each fixture (`fixture.py:82-107`: the parametrized arguments first); `none` for a parametrization. -/
abbrev Defs := Nat → Option (List (Str × Obj))

/-- `'{}.{}'.format(name, sub_name)`, `variation_factory.py:96`. -/
def dot (name sub : Str) : Str := name ++ '.' :: sub

/-- Assignment to a key of a dictionary. -- `variation_factory.py:98` -/
def bind (k : Str) (v : Obj) : List (Str × Obj) → List (Str × Obj)
  | [] => [(k, v)]
  | e :: t => if e.1 = k then (k, v) :: t else e :: bind k v t

/-- The inner loop, `variation_factory.py:92-96`: marks what is pushed as visited. The top of the stack is the head of the list. -/
def pushSubs (name : Str) : List (Str × Obj) → List Nat → List (Str × Obj) → List Nat × List (Str × Obj)
  | [], visited, stack => (visited, stack)
  | (sub, o) :: kw, visited, stack =>
    if o.id ∈ visited then pushSubs name kw visited stack
    else pushSubs name kw (o.id :: visited) ((dot name sub, o) :: stack)

/-- The loop of `_populate_param_name_bindings`, `variation_factory.py:89-98`; `none`: not finished within `fuel` iterations. -/
def walk (defs : Defs) : Nat → List Nat → List (Str × Obj) → List (Str × Obj) → Option (List (Str × Obj))
  | _, _, [], b => some b
  | 0, _, _ :: _, _ => none
  | fuel + 1, visited, (name, o) :: stack, b =>
    match defs o.id with
    | some kw => walk defs fuel (pushSubs name kw visited stack).1 (pushSubs name kw visited stack).2 b
    | none => walk defs fuel visited stack (bind name o b)

/-- `_populate_param_name_bindings`, `variation_factory.py:86-98`; `b` is `_param_name_bindings`. -/
def populate (defs : Defs) (fuel : Nat) (r : Str × Obj) (b : List (Str × Obj)) : Option (List (Str × Obj)) :=
  walk defs fuel [r.2.id] [r] b

/-- What `_add_needed_fixtures_from_function` reads of a function, `variation_factory.py:41-83`: the prefix (`before` and `after`), the arguments
with the fixture name each stands for (`get_real_fixture_name_from_argument`), its parametrizations, and the names in `__extrafixtures__`.
Functions marked with `nofixtures` are left out (nothing is added for them). -/
structure Func where
  prefixed : Option Str := none
  args : List (Str × Str) := []
  params : List (Str × Obj) := []
  extras : List Str := []
deriving DecidableEq, Repr

/-- `arg_name`, `variation_factory.py:70-72`. -/
def argName (f : Func) (name : Str) : Str :=
  match f.prefixed with
  | none => name
  | some p => p ++ ':' :: name

/-- The fixture or parametrization of an argument, `variation_factory.py:59-65`; `none`: `UnknownFixtures` is raised. -/
def argObj (lookup : Str → Option Obj) (f : Func) (a : Str × Str) : Option Obj :=
  match f.params.lookup a.1 with
  | some o => some o
  | none => lookup a.2

/-- The named starting points of the arguments, `variation_factory.py:59-74`. -/
def argRoots (lookup : Str → Option Obj) (f : Func) : List (Str × Str) → Option (List (Str × Obj))
  | [] => some []
  | a :: as =>
    match argObj lookup f a with
    | none => none
    | some o => (argRoots lookup f as).map ((argName f a.1, o) :: ·)

/-- The named starting points of `use_fixtures`, `variation_factory.py:80-83`. -/
def extraRoots (lookup : Str → Option Obj) : List Str → Option (List (Str × Obj))
  | [] => some []
  | n :: ns =>
    match lookup n with
    | none => none
    | some o => (extraRoots lookup ns).map ((n, o) :: ·)

/-- All starting points of a function in the order in which they are named, `variation_factory.py:59-83`; `autouse`: the autouse fixtures with
their names. -/
def roots (lookup : Str → Option Obj) (autouse : List (Str × Obj)) (f : Func) : Option (List (Str × Obj)) :=
  match argRoots lookup f f.args with
  | none => none
  | some l =>
    match extraRoots lookup f.extras with
    | none => none
    | some e => some (l ++ autouse.map (fun a => (':' :: ':' :: a.1, a.2)) ++ e)

/-- `_populate_param_name_bindings` for each starting point, `variation_factory.py:73,78,82`. -/
def populateAll (defs : Defs) (fuel : Nat) : List (Str × Obj) → List (Str × Obj) → Option (List (Str × Obj))
  | [], b => some b
  | r :: rs, b =>
    match populate defs fuel r b with
    | none => none
    | some b => populateAll defs fuel rs b

/-- What is appended to `_needed_fixtures` by a function, `variation_factory.py:50-55,67,83`. -/
def neededOf (lookup : Str → Option Obj) (f : Func) : List Obj :=
  f.params.map (·.2) ++ f.args.filterMap (argObj lookup f) ++ f.extras.filterMap lookup

/-- The functions of a test: the function itself (`function_test.py:55-58`), or for a method of a class `before` and `after` as found in each class
of the method resolution order that has it, then the method (`test.py:42-59`). `mro`: for each class, what `getattr(cls, 'before')` and
`getattr(cls, 'after')` give, if the class has them. -/
def methodsOf (mro : List (Option Func × Option Func)) (method : Func) : List Func :=
  mro.filterMap (fun c => c.1.map (fun f => { f with prefixed := some ['b', 'e', 'f', 'o', 'r', 'e'] })) ++
    mro.filterMap (fun c => c.2.map (fun f => { f with prefixed := some ['a', 'f', 't', 'e', 'r'] })) ++ [method]

/-- The starting points of all functions of a test, `fixture_store.py:305-319`. -/
def allRoots (lookup : Str → Option Obj) (autouse : List (Str × Obj)) : List Func → Option (List (Str × Obj))
  | [] => some []
  | f :: fs =>
    match roots lookup autouse f with
    | none => none
    | some l => (allRoots lookup autouse fs).map (l ++ ·)

/-- `_needed_fixtures`, `variation_factory.py:23-24,50-55,67,83`. -/
def allNeeded (lookup : Str → Option Obj) (autouse : List (Str × Obj)) (fs : List Func) : List Obj :=
  autouse.map (·.2) ++ fs.flatMap (neededOf lookup)

/-- The fixture definitions as read by `_compute_all_needed_parametrization_ids`, `fixture_store.py:168-187`; a parametrization stands for itself
(`fixture_store.py:149-150`). -/
def fdef (defs : Defs) (scope : Nat → Nat) (i : Nat) : FG.FDef :=
  match defs i with
  | none => { scope := scope i, params := [i] }
  | some kw =>
    { scope := scope i
      needs := (kw.filter (fun e => (defs e.2.id).isSome)).map (·.2.id)
      params := (kw.filter (fun e => (defs e.2.id).isNone)).map (·.2.id) }

/-- `Variation.id`, `variation.py:39-42`: the index of the value of the parameter behind each name; `none`: the parameter is not in
`param_value_indices` (`KeyError`). -/
def idOf (b : List (Str × Obj)) (v : List (Nat × Nat)) : Option (List (Str × Nat)) :=
  b.mapM (fun e => (v.lookup e.2.id).map (fun i => (e.1, i)))

/-- What `dump_variation_dict` writes, `variation.py:74-78`: the ids sorted by name. -/
def dump (ids : List (Str × Nat)) : List (Str × Nat) := Meta.sortNames ids

end Slash.VN
