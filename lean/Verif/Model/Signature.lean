/-!
# How test functions are called: `slash/utils/python.py:60-98`, `core/variation_factory.py:49-66`, `core/fixtures/fixture_store.py:58-97`, `core/fixtures/parameters.py:26-36`

Which arguments a function is taken to have, and what Python does with the call `test_func(**kwargs)`.

Simplifications: fixtures and parameters have numbers for values; each argument stands for the fixture of its name (`slash.use` and
`slash.use_fixtures` are in `Verif.Model.FixtureArgs`).
-/
namespace Slash.Sig

/-- Names of arguments. -- `utils/python.py:79` -/
abbrev Name := List Char

/-- Kinds of parameters of Python functions (`inspect.Parameter.kind`), `utils/python.py:79`. -/
inductive Kind
  | posOnly | normal | varPos | kwOnly | varKw
deriving DecidableEq, Repr

/-- A parameter of a function: its name, its kind, whether it has a default value, `utils/python.py:79`. -/
structure P where
  name : Name
  kind : Kind := .normal
  dflt : Bool := false
deriving DecidableEq, Repr

/-- The name that is left out, `utils/python.py:81`. -/
def selfName : Name := ['s', 'e', 'l', 'f']

/-- The name that stands for the fixture itself, `fixture_store.py:278`. -/
def thisName : Name := ['t', 'h', 'i', 's']

/-- `get_arguments`, `utils/python.py:71-83`, for functions and methods (76-77: for a bound method, the function with all its parameters). -/
def arguments (sig : List P) : List Name :=
  match sig.map (·.name) with
  | [] => []
  | n :: ns => if n = selfName then ns else n :: ns

/-- What an argument of a call is: the object of a method, a value given by keyword, or the default. -- Python's calls, `fixture_store.py:75`, `parameters.py:35` -/
inductive Val
  | self
  | given (v : Nat)
  | default
deriving DecidableEq, Repr

/-- What a call comes to: `TypeError`, or the function is called with these arguments, and these further ones for `**kwargs`. -- `fixture_store.py:75`, `parameters.py:35` -/
inductive Call
  | typeError
  | called (args : List (Name × Val)) (rest : List (Name × Nat))
deriving DecidableEq, Repr

/-- `d.get(k)` of a dictionary. -- `parameters.py:33` -/
def get (k : Name) (d : List (Name × Nat)) : Option Nat := (d.find? (fun x => x.1 == k)).map (·.2)

/-- Whether a parameter can be given by position. -- Python's calls, `fixture_store.py:75` -/
def P.positional (p : P) : Bool := p.kind == .posOnly || p.kind == .normal

/-- Whether a parameter can be given by keyword. -- Python's calls, `fixture_store.py:75` -/
def P.keyword (p : P) : Bool := p.kind == .normal || p.kind == .kwOnly

/-- The value of one parameter, if there is one; `first`: the parameter the object of a method is given to. -- Python's calls, `fixture_store.py:75` -/
def bindOne (first : Option Name) (kw : List (Name × Nat)) (p : P) : Option Val :=
  if first = some p.name then some .self
  else
    match (if p.keyword then get p.name kw else none) with
    | some v => some (.given v)
    | none => if p.dflt then some .default else none

/-- The values of all parameters (but `*args` and `**kwargs`); `none`: one is missing. -- Python's calls, `fixture_store.py:75` -/
def bindAll (first : Option Name) (kw : List (Name × Nat)) : List P → Option (List (Name × Val))
  | [] => some []
  | p :: ps =>
    if p.kind = .varPos || p.kind = .varKw then bindAll first kw ps
    else
      match bindOne first kw p with
      | none => none
      | some v => (bindAll first kw ps).map ((p.name, v) :: ·)

/-- A call with keywords, of a function or (with `method`) of a method of an object. -- Python's calls, `fixture_store.py:75`, `parameters.py:35` -/
def call (sig : List P) (method : Bool) (kw : List (Name × Nat)) : Call :=
  let first := if method then ((sig.filter P.positional).head?).map (·.name) else none
  if method && first.isNone && !(sig.any (fun p => p.kind == .varPos)) then .typeError
  else if kw.any (fun x => first == some x.1 && sig.any (fun p => p.name == x.1 && p.keyword)) then .typeError
  else
    let rest := kw.filter (fun x => !(sig.any (fun p => p.name == x.1 && p.keyword)))
    if !(rest.isEmpty) && !(sig.any (fun p => p.kind == .varKw)) then .typeError
    else
      match bindAll first kw sig with
      | none => .typeError
      | some args => .called args rest

/-- How a test ends that way: a fixture is not known when it is loaded, or the call. -- `variation_factory.py:60-66`, `fixture_store.py:58-75` -/
inductive Out
  | unknown
  | ran (c : Call)
deriving DecidableEq, Repr

/-- Loading and calling a test function: `variation_factory.py:46-66`, `fixture_store.py:58-75,82-97,268-285`, `parameters.py:26-36`; `params`: its parameters with the values
of this variation. -/
def test (lookup : Name → Option Nat) (params : List (Name × Nat)) (nofixtures method : Bool) (sig : List P) : Out :=
  if nofixtures then .ran (call sig method [])
  else
    let names := (arguments sig).filter (fun n => (get n params).isNone)
    if names.any (fun n => (lookup n).isNone) then .unknown
    else
      let kwargs := (names.filter (· != thisName)).map (fun n => (n, (lookup n).getD 0))
      .ran (call sig method (kwargs ++ params.filter (fun x => !(kwargs.any (fun y => y.1 == x.1)))))

end Slash.Sig
