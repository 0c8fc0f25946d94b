import Verif.Model.TestMeta
/-!
# Values of parameters: `slash/core/fixtures/parameters.py:18-62,79-225`, `core/tagging.py:17-20`, `core/fixtures/utils.py:93-113`
-/
namespace Slash.PV
open Slash.Meta (Str Label)

/-- Values in parametrizations: `NOTHING`, objects of users, lists and tuples of such objects, and what `slash.param(...)`, `value // slash.param(...)`
and `value // slash.tag(...)` give (`parameters.py:178-191`: a label, a value and tags). -/
inductive Val
  | nothing
  | atom (n : Nat)
  | seq (l : List Nat)
  | pv (label : Label) (value : Val) (tags : List (Nat × Nat))
deriving DecidableEq, Repr

/-- The class `[a-zA-Z_]`, `parameters.py:194`. -/
def isLabelStart (c : Char) : Bool :=
  (decide ('a' ≤ c) && decide (c ≤ 'z')) || (decide ('A' ≤ c) && decide (c ≤ 'Z')) || c == '_'

/-- The class `[0-9a-zA-Z_]`, `parameters.py:194`. -/
def isLabelChar (c : Char) : Bool := (decide ('0' ≤ c) && decide (c ≤ '9')) || isLabelStart c

/-- What is matched by `[a-zA-Z_][0-9a-zA-Z_]{0,29}`, `parameters.py:194`. -/
def isLabel : Str → Bool
  | [] => false
  | c :: t => isLabelStart c && t.all isLabelChar && decide (t.length ≤ 29)

/-- `re.match` of that between `^` and `$`, `parameters.py:194`; `$` also matches before a newline that ends the text. -/
def matchesLabel (s : Str) : Bool := isLabel s || (s.getLast? == some '\n' && isLabel s.dropLast)

/-- `ParametrizationValue.__init__` as `slash.param(label, …)`, `parameters.py:180-195`; `none`: the label is refused. -/
def param (label : Label) (value : Val) (tags : List (Nat × Nat)) : Option Val :=
  match label with
  | .named s => if matchesLabel s then some (.pv label value tags) else none
  | _ => some (.pv label value tags)

/-- `other // param`, `ParametrizationValue.__rfloordiv__`, `parameters.py:197-200`; `none`: the assertion fails. -/
def overParam (other : Val) : Val → Option Val
  | .pv l .nothing t => some (.pv l other t)
  | _ => none

/-- `other // slash.tag(name, value)`, `Tagger.__rfloordiv__`, `tagging.py:17-20`. -/
def overTag (other : Val) (tag : Nat × Nat) : Val := .pv .nothing other [tag]

/-- Errors of `add_options`, `parameters.py:99-101,210-212,221-224`. -/
inductive Err
  | already | noValue | notSequence | length
deriving DecidableEq, Repr

/-- A normalized value: its label, value and tags, `parameters.py:216-225`. -/
structure NVal where
  label : Label
  value : Val
  tags : List (Nat × Nat)
deriving DecidableEq, Repr

/-- `_normalize_single_value`, `parameters.py:218-225`. -/
def normalizeSingle (index : Nat) (v : Val) : Except Err NVal :=
  let n : NVal := match v with
    | .pv l x t => ⟨l, x, t⟩
    | v => ⟨.index index, v, []⟩
  if n.value = .nothing then .error .noValue else .ok n

/-- The check of the loop of `_normalize_values`, `parameters.py:208-213`. -/
def checkLength (num : Nat) (n : NVal) : Except Err NVal :=
  if num > 1 then
    match n.value with
    | .seq l => if l.length ≠ num then .error .length else .ok n
    | _ => .error .notSequence
  else .ok n

/-- `_normalize_values`, `parameters.py:203-215`; `index`: of the first of the values. -/
def normalizeValues (num : Nat) : Nat → List Val → Except Err (List NVal)
  | _, [] => .ok []
  | index, v :: vs =>
    match normalizeSingle index v with
    | .error e => .error e
    | .ok n =>
      match checkLength num n with
      | .error e => .error e
      | .ok n => (normalizeValues num (index + 1) vs).map (n :: ·)

/-- `Parametrization`, `parameters.py:135-175`: `info.id`, the values, and the component `transform` takes (`operator.itemgetter`). -/
structure Par where
  id : Nat
  values : List NVal
  comp : Option Nat := none
deriving DecidableEq, Repr

/-- `transform`, `parameters.py:118,148`; `none`: an exception. -/
def transform (comp : Option Nat) (v : Val) : Option Val :=
  match comp with
  | none => some v
  | some k =>
    match v with
    | .seq l => l[k]?.map .atom
    | _ => none

/-- `get_value_by_index`, `parameters.py:147-148,153-156`; `none`: an exception. -/
def Par.value (p : Par) (index : Nat) : Option Val :=
  match p.values[index]? with
  | none => none
  | some n => transform p.comp n.value

/-- `get_tags_by_index`, `parameters.py:150-151`. -/
def Par.tags (p : Par) (index : Nat) : Option (List (Nat × Nat)) := p.values[index]?.map (·.tags)

/-- The first argument of `parametrize`, `parameters.py:104-107`: a name, or a list or tuple of names. -/
inductive Names
  | one (n : Str)
  | tuple (ns : List Str)
deriving DecidableEq, Repr

/-- `names`, `parameters.py:104-107`. -/
def Names.list : Names → List Str
  | .one n => [n]
  | .tuple ns => ns

/-- `ParameterizationInfo`, `parameters.py:88-96`. -/
structure Info where
  args : List Str
  params : List (Str × Par) := []
  extra : List (Str × Par) := []
deriving DecidableEq, Repr

/-- Assignment to a key of a dictionary. -- `parameters.py:117-120` -/
def dset {α : Type} (k : Str) (v : α) : List (Str × α) → List (Str × α)
  | [] => [(k, v)]
  | e :: t => if e.1 = k then (k, v) :: t else e :: dset k v t

/-- The body of the loop of `add_options`, `parameters.py:112-120`; `multi`: there are several names; `index`: that of the name. -/
def Info.setOne (p : Par) (multi : Bool) (i : Info) (name : Str) (index : Nat) : Info :=
  let q := if multi then { p with comp := some index } else p
  if name ∈ i.args then { i with params := dset name q i.params } else { i with extra := dset name q i.extra }

/-- The loop of `add_options`, `parameters.py:112-120`. -/
def Info.setAll (p : Par) (multi : Bool) : Nat → List Str → Info → Info
  | _, [], i => i
  | index, n :: ns, i => Info.setAll p multi (index + 1) ns (i.setOne p multi n index)

/-- `param_name in self._params`, `parameters.py:99`; a tuple is never equal to a name. -/
def Info.known (i : Info) : Names → Bool
  | .one n => i.params.any (·.1 == n)
  | .tuple _ => false

/-- `add_options`, `parameters.py:98-120`; `id`: that of the new `Parametrization`. -/
def Info.addOptions (i : Info) (names : Names) (values : List Val) (id : Nat) : Except Err Info :=
  if i.known names then .error .already
  else
    match normalizeValues names.list.length 0 values with
    | .error e => .error e
    | .ok vs => .ok (i.setAll ⟨id, vs, none⟩ (decide (names.list.length > 1)) 0 names.list)

/-- Decorators `parametrize(names, values)` in the order in which they are applied, `parameters.py:18-45`; `id`: the next free one. -/
def Info.decorate : Nat → List (Names × List Val) → Info → Except Err Info
  | _, [], i => .ok i
  | id, d :: ds, i =>
    match i.addOptions d.1 d.2 id with
    | .error e => .error e
    | .ok i => Info.decorate (id + 1) ds i

/-- `iterate(**kwargs)`, `parameters.py:48-54`, as decorators. -/
def iterate (kwargs : List (Str × List Val)) : List (Names × List Val) := kwargs.map (fun k => (.one k.1, k.2))

/-- `True` and `False` as objects. -- `parameters.py:62` -/
def bools : List Val := [.atom 1, .atom 0]

/-- `toggle(param_name)`, `parameters.py:57-62`, as a decorator. -/
def toggle (name : Str) : Names × List Val := (.one name, bools)

/-- `iter_parametrization_fixtures`, `parameters.py:122-128`. -/
def Info.iter (i : Info) : List (Str × Par) := i.args.filterMap (fun n => (i.params.lookup n).map (fun p => (n, p))) ++ i.extra

/-- The loop of `new_func`, `parameters.py:32-36`: gives the keyword arguments for the function; `indices`: `param_value_indices` of the current
variation (`variation.py:71-72`, `fixture_store.py:295-302`); `none`: an exception. -/
def fill (indices : Nat → Option Nat) : List (Str × Par) → List (Str × Val) → Option (List (Str × Val))
  | [], kw => some kw
  | (name, p) :: ps, kw =>
    match (indices p.id).bind p.value with
    | none => none
    | some v => fill indices ps (if (kw.lookup name).isSome then kw else kw ++ [(name, v)])

/-- `new_func`, `parameters.py:29-37`: the keyword arguments the function is called with. -/
def Info.call (i : Info) (indices : Nat → Option Nat) (kw : List (Str × Val)) : Option (List (Str × Val)) := fill indices i.iter kw

/-- The argument of the function `generator_fixture` makes, `fixtures/utils.py:108-110`. -/
def paramName : Str := ['p', 'a', 'r', 'a', 'm']

/-- `generator_fixture`, `fixtures/utils.py:93-113`; `yielded`: all that the generator yields. -/
def generatorFixture (yielded : List Val) (id : Nat) : Except Err Info := Info.decorate id [(.one paramName, yielded)] { args := [paramName] }

end Slash.PV
