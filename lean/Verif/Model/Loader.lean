import Verif.Model.TestMeta
import Verif.Model.IdSpace
/-!
# Loading tests: `slash/loader.py`, `slash/core/runnable_test.py:18-22`, `slash/core/test.py:14-41,157-166`
-/
namespace Slash.Load

/-- Python strings. -- `loader.py:136-163` -/
abbrev Str := List Char

/-- A test object, with the parts of its metadata used here: `oid` is its identity, `src` that of the test it was cloned from (its own otherwise),
`rep` the value of its repeat mark, `key` its sort key and `repeatAll` its `repeat_all_index`. -- `core/metadata.py:18-47`, `loader.py:83` -/
structure T where
  oid : Nat
  src : Nat
  rep : Nat := 1
  key : Int := 1
  repeatAll : Nat := 0
deriving DecidableEq, Repr

/-- `clone`, `core/runnable_test.py:18-22`: a new object, which is a copy otherwise. -/
def T.clone (t : T) (oid : Nat) : T := { t with oid := oid }

/-- `test.clone() if i else test` for `i` from 0, `loader.py:83-84`; `n`: how often, `next`: the identity of the next new object. -/
def copies (t : T) (next : Nat) : Nat → List T
  | 0 => []
  | n + 1 => t :: (List.range n).map (fun i => t.clone (next + i))

/-- The first loop of `_generate_repeats`, `loader.py:80-84`; gives the next identity, too. -/
def repeatEach (each : Nat) : List T → Nat → List T × Nat
  | [], next => ([], next)
  | t :: ts, next =>
    let l := copies t next (each * t.rep)
    let r := repeatEach each ts (next + l.length)
    (l ++ r.1, r.2)

/-- The second loop of `_generate_repeats`, `loader.py:85-90`; `n` passes are left, the next one is for index `i + 1`. -/
def repeatAll (first : List T) (next : Nat) (i : Nat) : Nat → List T
  | 0 => []
  | n + 1 =>
    (first.zipIdx.map (fun x => { x.1.clone (next + x.2) with repeatAll := i + 1 })) ++ repeatAll first (next + first.length) (i + 1) n

/-- `_generate_repeats`, `loader.py:79-91`; `each`, `all`: the two configuration values. -/
def generateRepeats (each all : Nat) (tests : List T) (next : Nat) : List T :=
  let r := repeatEach each tests next
  r.1 ++ repeatAll r.1 r.2 0 (all - 1)

/-- The sort key of `get_runnables`, `loader.py:69-71`. -/
def keyLe (a b : T) : Bool := decide (a.repeatAll < b.repeatAll) || (a.repeatAll == b.repeatAll && decide (a.key ≤ b.key))

/-- Insertion before the first greater element. -- `loader.py:69` -/
def insertT (x : T) : List T → List T
  | [] => [x]
  | y :: t => if keyLe x y then x :: y :: t else y :: insertT x t

/-- `returned.sort`, `loader.py:69-71`; sorting is stable, which determines the result. -/
def sortT : List T → List T
  | [] => []
  | x :: t => insertT x (sortT t)

/-- The interactive test, `loader.py:63-64`, `utils/interactive.py:55-62`, `core/metadata.py:107-109`. -/
def interactiveTest (oid : Nat) : T := { oid := oid, src := oid, key := 0 }

/-- The loop that allocates ids, `loader.py:72-75`; `none`: a test has an id already, which is an error. -/
def allocateIds (ids : IdSpace.Ids) : List T → Option IdSpace.Ids
  | [] => some ids
  | t :: ts =>
    match ids.ids t.oid with
    | some _ => none
    | none => allocateIds (ids.allocateId t.oid).2 ts

/-- `get_runnables` on the tests of all sources, `loader.py:55-76`; `interactive`: the identity of the interactive test to prepend, `hook`: the
sort keys the `tests_loaded` hooks set. Gives the tests and the ids; `none`: an error. -/
def getRunnables (each all : Nat) (tests : List T) (next : Nat) (interactive : Option Nat) (hook : T → Int) (ids : IdSpace.Ids) :
    Option (List T × IdSpace.Ids) :=
  let returned := generateRepeats each all tests next
  let returned := match interactive with
    | none => returned
    | some o => interactiveTest o :: returned
  let returned := sortT (returned.map (fun t => { t with key := hook t }))
  (allocateIds ids returned).map (fun ids => (returned, ids))

/-! ## Addresses -/

/-- `address.split(':', 1)` if there is a colon, `loader.py:138-142` (on systems without drives). -/
def splitColon : Str → Str × Option Str
  | [] => ([], none)
  | c :: t =>
    if c = ':' then ([], some t)
    else
      let r := splitColon t
      (c :: r.1, r.2)

/-- `_address_in_file_matches`, `loader.py:165-174`. -/
def addressMatches (a : Str) (t : Meta.Test) : Bool :=
  if a = t.factory then true
  else if a = t.addressInFile then true
  else if t.addressInFile.contains '(' then decide (a = Meta.beforeParen t.addressInFile)
  else false

/-- What loading gives: the tests, or `CannotLoadTests`. -- `loader.py:162-163,185-186,203-205` -/
inductive R (α : Type)
  | ok (a : α)
  | cannotLoad
deriving DecidableEq, Repr

/-- `_iter_test_address`, `loader.py:136-163`, after its tests were loaded; `excluded`: `_is_excluded`. -/
def iterAddress (path : Str → R (List Meta.Test)) (excluded : Meta.Test → Bool) (address : Str) : R (List Meta.Test) :=
  let s := splitColon address
  match path s.1 with
  | .cannotLoad => .cannotLoad
  | .ok tests =>
    match s.2 with
    | none => .ok (tests.filter (fun t => !(excluded t)))
    | some a =>
      if tests.any (addressMatches a) then .ok (tests.filter (fun t => addressMatches a t && !(excluded t))) else .cannotLoad

/-! ## Directories -/

/-- What is found below a path by `os.walk`, in the order the system lists it. -- `loader.py:273` -/
inductive Node
  | dir (files : List Str) (dirs : List (Str × Node))

/-- Whether a name begins with a dot, `loader.py:274`. -/
def hidden (n : Str) : Bool := n.head? == some '.'

mutual
/-- `_walk` of a directory, `loader.py:273-276`: paths are lists of names. -/
def walk : Node → List (List Str)
  | .dir files dirs =>
    ((Meta.sortNames (files.map (fun f => (f, ())))).map (fun f => [f.1])) ++
      ((Meta.sortNames (walkDirs dirs)).map (fun d => d.2.map (fun p => d.1 :: p))).flatten
/-- The directories `os.walk` goes into, and what is found there, `loader.py:273-276`. -/
def walkDirs : List (Str × Node) → List (Str × List (List Str))
  | [] => []
  | d :: ds => if hidden d.1 then walkDirs ds else (d.1, walk d.2) :: walkDirs ds
end

/-- `_is_file_wanted`, `loader.py:234-235`. -/
def isWanted (f : Str) : Bool := ['.', 'p', 'y'].isSuffixOf f

/-- What is at a path. -- `loader.py:183,269-273` -/
inductive Entry
  | missing
  | file
  | dir (n : Node)

/-- `_walk`, `loader.py:268-276`: the files, relative to the path. -/
def walkEntry : Entry → List (List Str)
  | .missing => []
  | .file => [[]]
  | .dir n => walk n

/-- Loading the wanted files one by one, `loader.py:187-210`; `load`: the tests of a file, `none` if importing it fails. -/
def loadFiles {α : Type} (name : List Str → Str) (load : List Str → Option (List α)) : List (List Str) → R (List α)
  | [] => .ok []
  | f :: fs =>
    if isWanted (name f) then
      match load f with
      | none => .cannotLoad
      | some l =>
        match loadFiles name load fs with
        | .ok l' => .ok (l ++ l')
        | .cannotLoad => .cannotLoad
    else loadFiles name load fs

/-- `_iter_paths` for one path, `loader.py:179-210`; `base`: the name of the path itself. -/
def iterPath {α : Type} (base : Str) (load : List Str → Option (List α)) : Entry → R (List α)
  | .missing => .cannotLoad
  | e => loadFiles (fun f => f.getLast?.getD base) load (walkEntry e)

/-! ## Modules -/

/-- Something in a module. -- `loader.py:256-265` -/
inductive Thing
  | function (name : Str)
  | testClass (abs : Bool) (methods : List Str)
  | other
deriving DecidableEq, Repr

/-- `is_valid_test_name`, `core/test.py:165-166`. -/
def isValidTestName (n : Str) : Bool := ['t', 'e', 's', 't', '_'].isPrefixOf n

/-- `generate_tests` for the factory of a thing, without variations: the addresses in the factory, `loader.py:256-265`, `core/test.py:23-38`,
`core/function_test.py:24-25`; `dir` is sorted. -/
def thingTests : Thing → List Str
  | .function n => if isValidTestName n then [[]] else []
  | .testClass abs methods =>
    if abs then []
    else ((Meta.sortNames (methods.map (fun m => (m, ())))).map (·.1)).filterMap
      (fun m => if ['t', 'e', 's', 't'].isPrefixOf m then some ('.' :: m) else none)
  | .other => []

/-- `_iter_runnable_tests_in_module`, `loader.py:237-254`: factory names and addresses in the factory. -/
def moduleTests (things : List (Str × Thing)) : List (Str × Str) :=
  ((Meta.sortNames things).map (fun x => (thingTests x.2).map (fun a => (x.1, a)))).flatten

end Slash.Load
