import Verif.Model.Tagging
/-!
# Decorators of tests and fixtures, one on top of the other

Where the decorators of slash leave what they are told, and where it is looked for: `core/fixtures/parameters.py:18-44` (`parametrize`),
`core/fixtures/utils.py:15-38,111-146` (`fixture`, `use_fixtures`, generators), `core/tagging.py:24-32`, `core/requirements.py:6-45`,
`core/markers.py:4-5` with `utils/function_marker.py:12-38` (`exclude`, `repeat`, `nofixtures`), `utils/python.py:36-57,112-121`. Some of them
change the function they decorate, some return a new function around it, which has the attributes of the first one: the same objects.

A function is a number; so are the objects kept in its attributes. A decorator of a user is a function around the first one, made with
`functools.wraps`, which passes its arguments on. Parameters are declared one name at a time, and the list given to `use_fixtures` is used
for nothing else (for these see C68 and C70).
-/
namespace Slash.Deco
open Slash.Tag (Tags)

/-- The decorators: `core/fixtures/parameters.py:18`, `core/tagging.py:35`, `core/requirements.py:6`, `core/exclusions.py:8`,
`utils/__init__.py:16`, `core/fixtures/utils.py:20,28,43`; `user`: one of a user. -/
inductive Deco
  | parametrize (name : Nat) (values : List Nat)
  | tag (name : Nat) (value : Option Nat)
  | requires (r : Nat)
  | exclude (x : Nat)
  | repeat (n : Nat)
  | useFixtures (names : List Nat)
  | nofixtures
  | fixture (name : Option Nat) (scope : Nat) (autouse : Bool)
  | user (d : Nat)
deriving DecidableEq, Repr

/-- `FixtureInfo`, `core/fixtures/utils.py:47-75`; `args`: the names of the required arguments. -/
structure Info where
  name : Nat
  scope : Nat
  autouse : Bool
  args : List Nat
deriving DecidableEq, Repr

/-- `ParameterizationInfo`, `core/fixtures/parameters.py:87-96`. -/
structure PInfo where
  args : List Nat := []
  params : List (Nat × List Nat) := []
  extra : List (Nat × List Nat) := []
deriving DecidableEq, Repr

/-- What a function does: it is written by the user (perhaps as a generator); it sets parameters (`core/fixtures/parameters.py:28-36`); it
starts a generator (`core/fixtures/utils.py:133-145`); it is made by a decorator of the user. -/
inductive Body
  | base (gen : Bool)
  | param (info : Nat)
  | yields
  | user (d : Nat)
deriving DecidableEq, Repr

/-- The attributes of a function that slash uses (`__slash_parametrize__`, `__slash_fixture__`, `__slash_tags__`, `__extrafixtures__`,
`__marked_exclude__`, `__marked_repeat__`, `__marked___slash_nofixtures____`, `__slash_requirements__`, `__wraps__`): references where the
object is changed later on. `core/fixtures/parameters.py:15`, `core/fixtures/utils.py:17,36,43`, `core/tagging.py:5`, `core/markers.py:4-5`,
`core/requirements.py:3`, `utils/python.py:39`. -/
structure Attrs where
  params : Option Nat := none
  info : Option Info := none
  tags : Option Nat := none
  extra : Option Nat := none
  excl : List Nat := []
  rep : Option Nat := none
  nofix : Bool := false
  reqs : Option (Nat × Nat) := none
  wraps : Option Nat := none
deriving DecidableEq, Repr

/-- A function: `inner` is its `__wrapped__`, set by `functools.wraps` (`utils/python.py:38`). The signature is looked for at the
innermost function, which is what `inspect.signature` does (`utils/python.py:79`). -/
structure Fn where
  name : Nat := 0
  args : List Nat := []
  body : Body := .base false
  inner : Option Nat := none
  attrs : Attrs := {}
deriving DecidableEq, Repr

/-- All the objects there are: functions, `ParameterizationInfo`s, `Tags` and lists; `next`: the number of the next one made.
`core/fixtures/parameters.py:26`, `core/tagging.py:27`, `core/fixtures/utils.py:36`, `core/requirements.py:32`. -/
structure St where
  next : Nat := 0
  fn : Nat → Fn := fun _ => {}
  pinfo : Nat → PInfo := fun _ => {}
  tags : Nat → Tags := fun _ => []
  list : Nat → List Nat := fun _ => []

/-- An assignment to an object. -- `core/tagging.py:31`, `core/requirements.py:20` -/
def put {α : Type} (i : Nat) (a : α) (f : Nat → α) : Nat → α := fun j => if j = i then a else f j

/-- `setattr` on a function, `core/tagging.py:28`, `utils/function_marker.py:35`, `core/fixtures/utils.py:17,36`. -/
def St.setAttrs (st : St) (f : Nat) (a : Attrs) : St := { st with fn := put f { st.fn f with attrs := a } st.fn }

/-- `resolve_underlying_function`, `utils/python.py:112-121`, for functions: `__wrapped__` as long as there is one. The first argument is
fuel: an inner function is older than the one around it, so the number of objects is enough. -/
def bottom (st : St) : Nat → Nat → Nat
  | 0, f => f
  | n + 1, f => match (st.fn f).inner with | none => f | some g => bottom st n g

/-- `get_underlying_func`, `utils/python.py:52-57`: `__wraps__` as long as there is one. Fuel as above. -/
def underlying (st : St) : Nat → Nat → Nat
  | 0, f => f
  | n + 1, f => match (st.fn f).attrs.wraps with | none => f | some g => underlying st n g

/-- `inspect.isgeneratorfunction`, `core/fixtures/utils.py:24`. -/
def isGen (b : Body) : Bool := match b with | .base g => g | _ => false

/-- `get_argument_names`, `utils/python.py:60-85`. -/
def argsOf (st : St) (f : Nat) : List Nat := (st.fn (bottom st st.next f)).args

/-- A new function around `f` made with `functools.wraps`: name and attributes are those of `f`, `utils/python.py:37-40`. -/
def wrap (st : St) (f : Nat) (body : Body) (a : Attrs) : St × Nat :=
  ({ st with next := st.next + 1, fn := put st.next { st.fn f with body := body, inner := some f, attrs := a } st.fn }, st.next)

/-- `d[k] = v`, `core/fixtures/parameters.py:117-120`. -/
def dset (k : Nat) (v : List Nat) : List (Nat × List Nat) → List (Nat × List Nat)
  | [] => [(k, v)]
  | e :: t => if e.1 = k then (k, v) :: t else e :: dset k v t

/-- `add_options`, `core/fixtures/parameters.py:98-120`; `none`: `ParameterException`. -/
def addOptions (p : PInfo) (n : Nat) (vs : List Nat) : Option PInfo :=
  if p.params.any (fun e => e.1 == n) then none
  else if p.args.contains n then some { p with params := dset n vs p.params }
  else some { p with extra := dset n vs p.extra }

/-- `iter_parametrization_fixtures`, `core/fixtures/parameters.py:122-128`. -/
def iterParams (p : PInfo) : List (Nat × List Nat) :=
  p.args.filterMap (fun n => p.params.find? (fun e => e.1 == n)) ++ p.extra

/-- `parametrize`, `core/fixtures/parameters.py:18-44`. -/
def parametrize (st : St) (f n : Nat) (vs : List Nat) : Option (St × Nat) :=
  match (st.fn f).attrs.params with
  | some r => (addOptions (st.pinfo r) n vs).map (fun p => ({ st with pinfo := put r p st.pinfo }, f))
  | none =>
    let r := st.next
    let st1 := { st with next := st.next + 1 }
    let w := wrap st1 f (.param r) { (st.fn f).attrs with params := some r, wraps := some f }
    (addOptions { args := argsOf st f } n vs).map (fun p => ({ w.1 with pinfo := put r p w.1.pinfo }, w.2))

/-- `tag_test`, `core/tagging.py:24-32`; `none`: `TaggingConflict`. -/
def tag (st : St) (f n : Nat) (v : Option Nat) : Option (St × Nat) :=
  match (st.fn f).attrs.tags with
  | some r =>
    if Tag.get (st.tags r) n = v ∨ Tag.get (st.tags r) n = none then some ({ st with tags := put r (Tag.set n v (st.tags r)) st.tags }, f)
    else none
  | none =>
    some ({ st.setAttrs f { (st.fn f).attrs with tags := some st.next } with
      next := st.next + 1, tags := put st.next (Tag.set n v []) st.tags }, f)

/-- `_get_requirements_list`, `core/requirements.py:24-41`: the requirements of the innermost function, and where to add to them. -/
def reqsOf (st : St) (f : Nat) : List Nat × Option Nat :=
  let b := bottom st st.next f
  match (st.fn b).attrs.reqs with
  | none => ([], none)
  | some (key, r) => (st.list r, if key = b then some r else none)

/-- The decorator of `requires`, `core/requirements.py:18-21` with `24-41`. -/
def requires (st : St) (f q : Nat) : St × Nat :=
  let b := bottom st st.next f
  match reqsOf st f with
  | (l, some r) => ({ st with list := put r (l ++ [q]) st.list }, f)
  | (l, none) =>
    ({ st.setAttrs b { (st.fn b).attrs with reqs := some (b, st.next) } with
      next := st.next + 1, list := put st.next (l ++ [q]) st.list }, f)

/-- The decorator of `use_fixtures`, `core/fixtures/utils.py:33-38`. -/
def useFixtures (st : St) (f : Nat) (l : List Nat) : St × Nat :=
  match (st.fn f).attrs.extra with
  | some r => ({ st with list := put r (st.list r ++ l) st.list }, f)
  | none =>
    ({ st.setAttrs f { (st.fn f).attrs with extra := some st.next } with
      next := st.next + 1, list := put st.next l st.list }, f)

/-- `_ensure_fixture_info`, `core/fixtures/utils.py:15-18` with `49-75`. -/
def ensureInfo (st : St) (f : Nat) (name : Option Nat) (scope : Nat) (autouse : Bool) : St :=
  match (st.fn f).attrs.info with
  | some _ => st
  | none => st.setAttrs f { (st.fn f).attrs with info := some ⟨name.getD (st.fn f).name, scope, autouse, argsOf st f⟩ }

/-- `fixture`, `core/fixtures/utils.py:20-26`, and `yield_fixture`, `111-146`. -/
def fixture (st : St) (f : Nat) (name : Option Nat) (scope : Nat) (autouse : Bool) : St × Nat :=
  if isGen (st.fn (underlying st st.next f)).body then
    let st1 := ensureInfo st f name scope autouse
    wrap st1 f .yields { (st1.fn f).attrs with wraps := some f }
  else (ensureInfo st f name scope autouse, f)

/-- One decorator applied to a function: the function returned. `core/fixtures/parameters.py:23-44`, `core/tagging.py:13-15`,
`core/requirements.py:18-21`, `utils/function_marker.py:22-36`, `core/fixtures/utils.py:20-43`. -/
def apply (st : St) (f : Nat) : Deco → Option (St × Nat)
  | .parametrize n vs => parametrize st f n vs
  | .tag n v => tag st f n v
  | .requires q => some (requires st f q)
  | .exclude x => some (st.setAttrs f { (st.fn f).attrs with excl := (st.fn f).attrs.excl ++ [x] }, f)
  | .repeat n => some (st.setAttrs f { (st.fn f).attrs with rep := some n }, f)
  | .useFixtures l => some (useFixtures st f l)
  | .nofixtures => some (st.setAttrs f { (st.fn f).attrs with nofix := true }, f)
  | .fixture n s a => some (fixture st f n s a)
  | .user d => some (wrap st f (.user d) (st.fn f).attrs)

/-- The decorators written above a function, the lowest first. -- `core/fixtures/parameters.py:23`, `core/tagging.py:13` -/
def decorate (st : St) (f : Nat) : List Deco → Option (St × Nat)
  | [] => some (st, f)
  | d :: ds => (apply st f d).bind (fun x => decorate x.1 x.2 ds)

/-- A function is defined. -- `core/fixtures/utils.py:111` -/
def define (st : St) (name : Nat) (args : List Nat) (gen : Bool) : St × Nat :=
  ({ st with next := st.next + 1, fn := put st.next { name := name, args := args, body := .base gen } st.fn }, st.next)

/-- What slash finds at a function: `core/fixtures/parameters.py:77-83`, `core/tagging.py:41-42`, `core/requirements.py:44-45`,
`utils/function_marker.py:38-45`, `core/fixtures/fixture_store.py:59-64,198-199`, `core/fixtures/fixture.py:27`. -/
structure Seen where
  params : List (Nat × List Nat)
  tags : Tags
  reqs : List Nat
  excl : List Nat
  rep : Option Nat
  extra : List Nat
  nofix : Bool
  info : Option Info
deriving DecidableEq, Repr

/-- Looking for it: the places are those of `Seen`. `core/fixtures/parameters.py:77-83`, `core/tagging.py:41-42`,
`core/requirements.py:44-45`, `utils/function_marker.py:41-45`. -/
def seen (st : St) (f : Nat) : Seen :=
  let a := (st.fn f).attrs
  { params := match a.params with | some r => iterParams (st.pinfo r) | none => []
    tags := match a.tags with | some r => st.tags r | none => []
    reqs := (reqsOf st f).1
    excl := a.excl
    rep := a.rep
    extra := match a.extra with | some r => st.list r | none => []
    nofix := a.nofix
    info := a.info }

/-- What comes back from a call: the value of the function, a generator, what the generator yielded first (its rest is done at cleanup);
`typeError`: something that is not a generator was to be started. `core/fixtures/utils.py:134-145`. -/
inductive Res
  | plain
  | generator
  | yielded
  | typeError
deriving DecidableEq, Repr

/-- A call as the user sees it: the functions made by their decorators that were called, the arguments the innermost function got, and what
comes back. `core/fixtures/parameters.py:29-36`, `core/fixtures/utils.py:134-145`. -/
structure Called where
  users : List Nat
  kwargs : List (Nat × Nat)
  res : Res
deriving DecidableEq, Repr

/-- The arguments set by a parametrized function, `core/fixtures/parameters.py:31-35`; `val`: the value of a parameter in the current variation. -/
def fill (val : Nat → Nat) : List Nat → List (Nat × Nat) → List (Nat × Nat)
  | [], kw => kw
  | n :: ns, kw => fill val ns (if kw.any (fun e => e.1 == n) then kw else kw ++ [(n, val n)])

/-- A call of a function, `core/fixtures/parameters.py:29-36`, `core/fixtures/utils.py:134-145`; `val r n`: the value of the parameter `n` declared
at `r` in the current variation. Fuel as above. -/
def call (st : St) (val : Nat → Nat → Nat) : Nat → Nat → List (Nat × Nat) → Called
  | 0, _, kw => ⟨[], kw, .plain⟩
  | n + 1, f, kw =>
    match (st.fn f).body, (st.fn f).inner with
    | .param r, some g => call st val n g (fill (val r) ((iterParams (st.pinfo r)).map (·.1)) kw)
    | .yields, some g =>
      let c := call st val n g kw
      { c with res := match c.res with | .generator => .yielded | _ => .typeError }
    | .user d, some g =>
      let c := call st val n g kw
      { c with users := d :: c.users }
    | .base gen, _ => ⟨[], kw, if gen then .generator else .plain⟩
    | _, none => ⟨[], kw, .typeError⟩

end Slash.Deco
