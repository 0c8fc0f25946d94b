import Verif.Model.Pattern
/-!
# Names of tests and of their variations: `slash/core/variation.py:29-66`, `core/metadata.py:18-87,115-123`, `core/fixtures/parameters.py:88-128,178-225`
-/
namespace Slash.Meta

/-- Python strings. -- `variation.py:47-61` -/
abbrev Str := List Char

/-- `ParametrizationValue.label`, `parameters.py:180-183,218-220`: a name that was given, the index of the value, or `NOTHING` for a
`slash.param` without a label. -/
inductive Label
  | named (s : Str)
  | index (i : Nat)
  | nothing
deriving DecidableEq, Repr

/-- `str` of a label, `variation.py:61`. -/
def Label.text : Label → Str
  | .named s => s
  | .index i => Nat.toDigits 10 i
  | .nothing => ['<', 'N', 'O', 'T', 'H', 'I', 'N', 'G', '>']

/-- The characters `_validate_label` allows at the start, `parameters.py:194`. -/
def isStart (c : Char) : Bool := c.isAlpha || c == '_'

/-- The characters `_validate_label` allows, `parameters.py:194`. -/
def isPart (c : Char) : Bool := c.isAlphanum || c == '_'

/-- `re.match` with `^[a-zA-Z_][0-9a-zA-Z_]{0,29}$`, `parameters.py:194`; `$` also matches before a newline at the end. -/
def validName : Str → Bool
  | [] => false
  | c :: t =>
    let body := if t.getLast? = some '\n' then t.dropLast else t
    isStart c && body.all isPart && decide (body.length ≤ 29)

/-- `_validate_label`, `parameters.py:193-195`. -/
def Label.valid : Label → Bool
  | .named s => validName s
  | _ => true

/-- `_normalize_values` for one name, `parameters.py:203-220`: values without `slash.param` get their index as the label. -/
def normalize (values : List (Option Label × Str)) : List (Label × Str) :=
  values.zipIdx.map (fun x => (x.1.1.getD (.index x.2), x.1.2))

/-- `_PRINTABLE_CHARS`, `variation.py:8`. -/
def isPrintableChar (c : Char) : Bool := c.isAlphanum || c == '-' || c == '_'

/-- `_format_parameter_value_safe`, `variation.py:53-61`, on the `str` of the value. -/
def format (name : Str) (label : Label) (value : Str) : Str :=
  match label with
  | .named s => s
  | l => if value.all isPrintableChar then value else name ++ l.text

/-- The order of strings. -- `variation.py:51` -/
def strLe : Str → Str → Bool
  | [], _ => true
  | _ :: _, [] => false
  | a :: s, b :: t => if a = b then strLe s t else decide (a.toNat < b.toNat)

/-- Insertion into a list sorted by name. -- `variation.py:51` -/
def insertName {α : Type} (x : Str × α) : List (Str × α) → List (Str × α)
  | [] => [x]
  | y :: t => if strLe x.1 y.1 then x :: y :: t else y :: insertName x t

/-- `sorted(returned)`, with what each name refers to, `variation.py:51`. -/
def sortNames {α : Type} : List (Str × α) → List (Str × α)
  | [] => []
  | x :: t => insertName x (sortNames t)

/-- `','.join`, `variation.py:51`. -/
def joinComma : List Str → Str
  | [] => []
  | [x] => x
  | x :: y :: t => x ++ ',' :: joinComma (y :: t)

/-- A variation: the names of its parameters, and the label and the `str` of the value of each, `variation.py:36-45`. -/
abbrev Vals := List (Str × Label × Str)

/-- `_get_safe_repr`, `variation.py:47-51`. -/
def safeRepr (v : Vals) : Str := joinComma ((sortNames v).map (fun x => x.1 ++ '=' :: format x.1 x.2.1 x.2.2))

/-- A test: its file, factory name, address in factory, class name (of a method) and variation (`none`: an empty one), `metadata.py:26-55`. -/
structure Test where
  file : Str
  factory : Str
  inFactory : Str
  className : Option Str
  variation : Option Vals
deriving DecidableEq, Repr

/-- `address_in_file`, `metadata.py:44-47`. -/
def Test.addressInFile (t : Test) : Str := t.factory ++ t.inFactory

/-- `get_address`, `metadata.py:66-85`, without an override. -/
def Test.address (t : Test) : Str :=
  t.file ++ ':' :: t.addressInFile ++ (match t.variation with | none => [] | some v => '(' :: safeRepr v ++ [')'])

/-- `returned.split('(')[0]`, `metadata.py:123`. -/
def beforeParen (s : Str) : Str := s.takeWhile (· != '(')

/-- `function_name`, `metadata.py:116-123`; `none`: the assertion fails. -/
def Test.functionName (t : Test) : Option Str :=
  match t.className with
  | none => some (beforeParen t.addressInFile)
  | some [] => some (beforeParen t.addressInFile)
  | some c => if (c ++ ['.']).isPrefixOf t.addressInFile then some (beforeParen (t.addressInFile.drop (c.length + 1))) else none

/-- The first argument of `parametrize`, `parameters.py:98-107`: a name or a tuple of names. -/
inductive Names
  | one (n : Nat)
  | tuple (ns : List Nat)
deriving DecidableEq, Repr

/-- `names`, `parameters.py:104-107`. -/
def Names.list : Names → List Nat
  | .one n => [n]
  | .tuple ns => ns

/-- `ParameterizationInfo`, `parameters.py:90-96`: the argument names, and for names that are arguments and for other names what they were
parametrized by (the number of the declaration). -/
structure Info where
  args : List Nat
  params : List (Nat × Nat) := []
  extra : List (Nat × Nat) := []
deriving DecidableEq, Repr

/-- Assignment to a key of a dictionary, `parameters.py:113-120`. -/
def dset (k v : Nat) : List (Nat × Nat) → List (Nat × Nat)
  | [] => [(k, v)]
  | e :: t => if e.1 = k then (k, v) :: t else e :: dset k v t

/-- The body of the loop of `add_options`, `parameters.py:112-120`; `p`: the new `Parametrization`. -/
def Info.setOne (p : Nat) (i : Info) (n : Nat) : Info :=
  if n ∈ i.args then { i with params := dset n p i.params } else { i with extra := dset n p i.extra }

/-- `add_options`, `parameters.py:98-120`; `none`: a `ParameterException` is raised. A tuple is never equal to a name. -/
def Info.addOptions (i : Info) (names : Names) (p : Nat) : Option Info :=
  let known := match names with
    | .one n => i.params.any (·.1 == n)
    | .tuple _ => false
  if known then none else some (names.list.foldl (Info.setOne p) i)

/-- Decorators in the order in which they are applied, `parameters.py:22-43`. -/
def Info.addAll (i : Info) : List (Names × Nat) → Option Info
  | [] => some i
  | d :: ds =>
    match i.addOptions d.1 d.2 with
    | none => none
    | some i => i.addAll ds

/-- What a name was parametrized by, `parameters.py:122-128`. -/
def Info.get (i : Info) (n : Nat) : List Nat := ((i.params ++ i.extra).filter (·.1 == n)).map (·.2)

end Slash.Meta
