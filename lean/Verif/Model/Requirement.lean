/-!
# Requirements: `slash/core/requirements.py`, and where they are collected: `fixtures/fixture.py:72-77`,
`runnable_test.py:47-53,61-65`, `function_test.py:39-43`, `test.py:109-113`, `runner.py:129-148`
-/
namespace Slash.Req

/-- `Requirement.is_met`, `requirements.py:63-69`: a bool, or a function that returns a bool or a bool and a reason. -/
inductive Cond
  | const (b : Bool)
  | fn (b : Bool)
  | fnWith (b : Bool) (reason : Option String)
deriving DecidableEq, Repr

/-- `Requirement.is_met`, `requirements.py:63-69`; `msg`: the message of the requirement. -/
def isMet (c : Cond) (msg : Option String) : Bool × Option String :=
  match c with
  | .const b => (b, msg)
  | .fn b => (b, msg)
  | .fnWith b r => (b, r)

/-- A test and the fixtures, as far as requirements are concerned. Requirements are objects (numbers); they are compared by identity,
`requirements.py:47-52`. -/
structure World where
  /-- the requirements of the function, or of the class and of the method, `function_test.py:40`, `test.py:110` -/
  declared : List Nat
  /-- marked with `nofixtures`, `function_test.py:41`, `test.py:111` -/
  nofix : Bool
  /-- the fixtures among the arguments, `function_test.py:45-46`, `test.py:94-96` -/
  args : List Nat
  /-- `iter_autouse_fixtures_in_namespace`, `runnable_test.py:63` -/
  autouse : List Nat
  /-- the fixtures named by `use_fixtures` on the test, `fixtures/utils.py:28-38`, `fixtures/fixture_store.py:62-66` -/
  extra : List Nat
  /-- `get_requirements` of the fixture function, `fixtures/fixture.py:73` -/
  own : Nat → List Nat
  /-- the fixtures among its arguments, `fixtures/fixture.py:74` -/
  req : Nat → List Nat
  /-- the condition of each requirement, `requirements.py:51` -/
  cond : Nat → Cond
  /-- the message given with it, `requirements.py:52` -/
  msg : Nat → Option String
  /-- how the condition is shown (`__name__` or `repr` of a function), `requirements.py:59-61` -/
  shown : Nat → String
  /-- whether the requirement was made by `slash.skipped`, i.e. is a `Skip`, `requirements.py:72-78` -/
  isSkip : Nat → Bool
  /-- the fixtures that `before` and `after` of a test of a class take or name by `use_fixtures`, `test.py:119-131` -/
  around : List Nat := []

/-- The condition of requirement `r`: that of a `Skip` is `False`, `requirements.py:64,77`. -/
def World.condOf (w : World) (r : Nat) : Cond := if w.isSkip r then .const false else w.cond r

/-- `req.is_met()`, `requirements.py:63-69`, as called in `runnable_test.py:50`. -/
def World.met (w : World) (r : Nat) : Bool × Option String := isMet (w.condOf r) (w.msg r)

/-- `Requirement.__repr__`, `requirements.py:54-61`. -/
def World.text (w : World) (r : Nat) : String :=
  match w.msg r with
  | some m => m
  | none =>
    match w.condOf r with
    | .const _ => "?"
    | _ => w.shown r

/-- A list of lists which may be missing. -- `runnable_test.py:62-64` -/
def joinAll : List (Option (List Nat)) → Option (List Nat)
  | [] => some []
  | none :: _ => none
  | some l :: ls => (joinAll ls).map (l ++ ·)

/-- `Fixture.get_requirements`, `fixtures/fixture.py:72-77`; with fuel, as it recurses on the needed fixtures. -/
def fixReqs (w : World) : Nat → Nat → Option (List Nat)
  | 0, _ => none
  | n + 1, f => (joinAll ((w.req f).map (fixReqs w n))).map (w.own f ++ ·)

/-- `get_requirements` of a test, `function_test.py:39-43`, `test.py:109-113` and `runnable_test.py:61-65`. (`set` drops duplicates; its
order is not specified, here it is that of the first occurrences.) -/
def getRequirements (w : World) (n : Nat) : Option (List Nat) :=
  if w.nofix then some w.declared
  else (joinAll (w.args.map (fixReqs w n))).bind (fun l1 =>
    (joinAll (w.autouse.map (fixReqs w n))).map (fun l2 => (w.declared ++ (l1 ++ l2).eraseDups).eraseDups))

/-- `get_unmet_requirements`, `runnable_test.py:47-53`. -/
def unmet (w : World) (n : Nat) : Option (List (Nat × Option String)) :=
  (getRequirements w n).map (fun l => l.filterMap (fun r => if (w.met r).1 then none else some (r, (w.met r).2)))

/-- The message of an unmet requirement, `runner.py:139-143`: `None` and the empty string are both false. -/
def message (w : World) (u : Nat × Option String) : String :=
  if w.isSkip u.1 then
    match w.msg u.1 with
    | none => "Skipped"
    | some reason => if reason = "" then "Skipped" else reason
  else "Unmet requirement: " ++ (match u.2 with
    | none => w.text u.1
    | some m => if m = "" then w.text u.1 else m)

/-- The skip reasons recorded in the result of the test, `runner.py:138-144`. -/
def skips (w : World) (us : List (Nat × Option String)) : List (Option String) :=
  us.map (fun u => if w.isSkip u.1 then w.msg u.1 else some (message w u))

/-- The messages joined to the reason given to the `test_avoided` hook, `runner.py:137,145,147` (a set: the order is not specified, here
that of the first occurrences). -/
def reasons (w : World) (us : List (Nat × Option String)) : List String := (us.map (message w)).eraseDups

/-- The fixtures that are set up for the test: the autouse ones, the arguments and (`use_fixtures`) the named ones, those of `before` and `after`, each with all it needs.
-- `fixtures/parameters.py:72`, `fixtures/fixture_store.py:58-66`, `test.py:119-131` -/
def used (w : World) : List Nat := (if w.nofix then w.autouse else w.autouse ++ w.args ++ w.extra) ++ w.around

/-- A class or function with the requirements set on it, `requirements.py:23-40`: the attribute is a pair of the identity of its owner and
a list, or it is found on the base. -/
structure Heap where
  base : Nat → Option Nat
  own : Nat → Option (Nat × List Nat)

/-- `getattr(thing, "__slash_requirements__", None)`, `requirements.py:26`. -/
def attr (h : Heap) : Nat → Nat → Option (Nat × List Nat)
  | 0, _ => none
  | n + 1, c =>
    match h.own c with
    | some r => some r
    | none => (h.base c).bind (attr h n)

/-- `_get_requirements_list`, `requirements.py:23-40`: the list, and the heap after it (`create` sets the attribute). -/
def reqList (h : Heap) (c : Nat) (create : Bool) : List Nat × Heap :=
  match attr h (c + 1) c with
  | none => ([], if create then { h with own := fun x => if x = c then some (c, []) else h.own x } else h)
  | some (key, l) =>
    if key = c then (l, h)
    else (l, if create then { h with own := fun x => if x = c then some (c, l) else h.own x } else h)

/-- A call of `get_requirements` for a class or function, `requirements.py:43-44`: what it returns, and the heap after it. -/
def readReqs (h : Heap) (c : Nat) : List Nat × Heap := reqList h c false

/-- What `get_requirements` returns for a class or function, `requirements.py:43-44`. -/
def getReqs (h : Heap) (c : Nat) : List Nat := (readReqs h c).1

/-- The decorator `requires`, `requirements.py:6-21`: append to the list (which is in the attribute of `c` then). -/
def requires (h : Heap) (c r : Nat) : Heap :=
  let (l, h1) := reqList h c true
  { h1 with own := fun x => if x = c then some (c, l ++ [r]) else h1.own x }

end Slash.Req
