import Verif.Model.Result
/-!
# Reports other than the console

`plugins/builtin/xunit.py`, `plugins/builtin/notifications.py`, `utils/traceback_utils.py`, `frontend/slash_list.py`. Left out: the syntax of XML, times,
the contents of messages apart from their substitution, colours, source lines.
-/
namespace Slash.Rep

/-! ## xUnit files -/

/-- The value of a detail: a string, a number, another object (`None`, bytes, …), a dictionary (the flag of an entry: its key is a string), a list or a
tuple (`xunit.py:52-73`). -/
inductive DVal where
  | str (s : String) | num (n : Int) | other | dict (entries : List (Bool × DVal)) | seq (isList : Bool) (items : List DVal)

/-- An error: message, and whether it is marked as a failure (`core/error.py:83`). -/
structure XErr where
  message : String
  failure : Bool
deriving DecidableEq, Repr

/-- A result as far as the file shows it (`xunit.py:101-124`). A skip without a string as reason is `none` if it is false (`None`). -/
structure XRes where
  address : String
  started : Bool := true
  errors : List XErr := []
  failures : List XErr := []
  skips : List (Option String) := []
  details : List (String × DVal) := []

/-- `is_error`, `core/result.py:162`. -/
def XRes.isError (r : XRes) : Bool := !r.errors.isEmpty
/-- `is_just_failure`, `core/result.py:172`. -/
def XRes.isJustFailure (r : XRes) : Bool := !r.failures.isEmpty && r.errors.isEmpty
/-- `is_run_and_skip`, `core/result.py:179`. -/
def XRes.isRunAndSkip (r : XRes) : Bool := r.started && !r.skips.isEmpty

/-- An element inside of a test case or of the suite, `xunit.py:36-60`. -/
inductive Child where
  | problem (tag : String) (message : String) | skipped (type : String) | detail (name : String) (value : DVal)

/-- A test case, `xunit.py:103-124`. -/
structure Case where
  name : String
  children : List Child

/-- The suite, `xunit.py:83-94`. -/
structure Suite where
  tests : Nat
  errors : Nat
  failures : Nat
  skipped : Nat
  problems : List Child
  cases : List Case

mutual
/-- Whether `_build_xml` makes something that can be written, `xunit.py:62-73`: tags have to be strings. -/
def buildOk : DVal → Bool
  | .str _ | .num _ | .other => true
  | .dict es => entriesOk es
  | .seq _ is => itemsOk is
/-- See `buildOk`, `xunit.py:64-66`. -/
def entriesOk : List (Bool × DVal) → Bool
  | [] => true
  | (k, v) :: es => k && buildOk v && entriesOk es
/-- See `buildOk`, `xunit.py:68-70`. -/
def itemsOk : List DVal → Bool
  | [] => true
  | v :: is => buildOk v && itemsOk is
end

/-- Whether the element of a detail can be written, `xunit.py:52-60`: attributes have to be strings. -/
def detailOk : DVal → Bool
  | .other => false
  | v => buildOk v

/-- `_add_errors`, `xunit.py:129-131`. -/
def problems (errors failures : List XErr) : List Child :=
  (errors ++ failures).map (fun e => .problem (if e.failure then "failure" else "error") e.message)

/-- The values of a detail, `xunit.py:117-120`: a list stands for its items. -/
def detailValues : DVal → List DVal
  | .seq true is => is
  | v => [v]

/-- One test case, `xunit.py:103-124`. -/
def testCase (r : XRes) : Case :=
  { name := r.address
    children := problems r.errors r.failures ++ r.skips.map (fun s => .skipped (s.getD "")) ++
      r.details.flatMap (fun d => (detailValues d.2).map (.detail d.1)) }

/-- `session_end`, `xunit.py:75-124`: the tree. -/
def suite (global : XRes) (rs : List XRes) : Suite :=
  { tests := rs.length
    errors := ((rs ++ [global]).filter (·.isError)).length
    failures := ((rs ++ [global]).filter (·.isJustFailure)).length
    skipped := ((rs ++ [global]).filter (·.isRunAndSkip)).length
    problems := problems global.errors global.failures
    cases := (rs.filter (·.started)).map testCase }

/-- Whether an element can be written (`xunit.py:127`). -/
def Child.ok : Child → Bool
  | .detail _ v => detailOk v
  | _ => true

/-- What is in the file afterwards (`xunit.py:126-127`). -/
inductive File where
  | untouched | empty | written (s : Suite)

/-- The file, `xunit.py:77-78,126-127`: it is opened, and so emptied, before the tree is converted to text. -/
def xunit (worker : Bool) (global : XRes) (rs : List XRes) : File :=
  if worker then .untouched
  else if (suite global rs).cases.all (fun c => c.children.all Child.ok) then .written (suite global rs)
  else .empty

/-! ## Notifications -/

/-- A notifier: its name, whether it is enabled (`notifications.py:124-131,237-242`), whether what it needs is configured (144,155,163-168,173), how sending ends. -/
structure Notifier where
  name : String
  enabled : Bool
  configured : Bool
  fails : Option Kind := none
deriving DecidableEq, Repr

/-- The loop of `_notify_all`, `notifications.py:237-242`: who is sent a message, and the exception that gets out of `handling_exceptions(swallow=True)`. -/
def notifyLoop : List Notifier → List String × Option Kind
  | [] => ([], none)
  | n :: ns =>
    if !n.enabled then notifyLoop ns
    else if !n.configured then notifyLoop ns
    else
      match n.fails with
      | some k => if k.escapes then ([n.name], some k) else ((n.name :: (notifyLoop ns).1), (notifyLoop ns).2)
      | none => ((n.name :: (notifyLoop ns).1), (notifyLoop ns).2)

/-- Configuration of the plugin (`notifications.py:94-96`). -/
structure NConf where
  threshold : Nat := 5
  onlyFailures : Bool := false
  onPdb : Bool := true
deriving DecidableEq, Repr

/-- `session_end`, `notifications.py:225-230`; `hook`: `prepare_notification` raises (235). -/
def sessionEnd (cfg : NConf) (duration : Nat) (success : Bool) (hook : Option Kind) (ns : List Notifier) : List String × Option Kind :=
  if duration < cfg.threshold then ([], none)
  else if success && cfg.onlyFailures then ([], none)
  else
    match hook with
    | some k => ([], some k)
    | none => notifyLoop ns

/-- `entering_debugger`, `notifications.py:220-223`. -/
def enteringDebugger (cfg : NConf) (hook : Option Kind) (ns : List Notifier) : List String × Option Kind :=
  if !cfg.onPdb then ([], none)
  else
    match hook with
    | some k => ([], some k)
    | none => notifyLoop ns

/-- The recipients of `n` mails in a session of a Backslash user, `notifications.py:207-208`: each message appends the address to the configured list. -/
def recipients (to : List String) (user : String) (n : Nat) : List String := to ++ List.replicate n user

/-- `_escape_format`, `notifications.py:245-246`. -/
def escape (s : List Char) : List Char := s.flatMap (fun c => if c = '{' then ['{', '{'] else if c = '}' then ['}', '}'] else [c])

/-- `str.format` with named fields (`notifications.py:66`): `none`: an exception. -/
def format (fields : List Char → Option (List Char)) : List Char → Option (List Char)
  | [] => some []
  | '{' :: '{' :: s => (format fields s).map ('{' :: ·)
  | '}' :: '}' :: s => (format fields s).map ('}' :: ·)
  | '{' :: s =>
    let name := s.takeWhile (· != '}')
    if name.length < s.length then
      (fields name).bind (fun v => (format fields (s.drop (name.length + 1))).map (v ++ ·))
    else none
  | '}' :: _ => none
  | c :: s => (format fields s).map (c :: ·)
termination_by s => s.length
decreasing_by all_goals (simp only [List.length_cons, List.length_drop]; omega)

/-! ## Tracebacks -/

/-- A frame: the name of its module, of its function, and an identity (`traceback_utils.py:76-88`). -/
structure PFrame where
  module : String
  func : String
  id : Nat
deriving DecidableEq, Repr

/-- `_MUTED_LOCATIONS`, `traceback_utils.py:91-104`. -/
def muted (f : PFrame) : Bool :=
  [("slash.core.function_test", "run"), ("slash.core.test", "run"), ("slash.exception_handling", "handling_exceptions"),
   ("slash.core.fixtures.fixture_store", "call_with_fixtures"), ("slash.frontend.main", "__main__"), ("slash.frontend.main", "main"),
   ("slash.frontend.main", "main_entry_point"), ("slash.frontend.slash_run", "slash_run"), ("slash.runner", "run_tests"),
   ("slash.runner", "_run_single_test"), ("slash.core.cleanup_manager", "call_cleanups"), ("slash.core.cleanup_manager", "__call__")].contains (f.module, f.func)

/-- `_is_frame_and_below_muted`, `traceback_utils.py:107-112`. -/
def mutedBelow (f : PFrame) : Bool := f.module == "slash.assertions"

/-- `l[:k]` (`traceback_utils.py:33,40`): a negative index counts from the end. -/
def upTo (l : List PFrame) (k : Int) : List PFrame := if k < 0 then l.take (l.length + k).toNat else l.take k.toNat

/-- `_distill_frames`, `traceback_utils.py:44-56`. -/
def distill : List PFrame → List PFrame
  | [] => []
  | f :: fs => if mutedBelow f then [] else if muted f then distill fs else f :: distill fs

/-- `distill_traceback`, `traceback_utils.py:30-34`. -/
def distillTb (frames : List PFrame) (correction : Nat) : List PFrame :=
  distill (if correction = 0 then frames else upTo frames (frames.length - correction))

/-- `distill_call_stack`, `traceback_utils.py:37-41`. -/
def distillStack (frames : List PFrame) (correction : Nat) : List PFrame :=
  distill (if correction = 0 then frames else upTo frames (frames.length - correction + 1))

/-- `_MAX_VARIABLE_VALUE_LENGTH`, `traceback_utils.py:17`. -/
def maxRepr : Nat := 100

/-- `_safe_repr`, `traceback_utils.py:258-269`: `skip` and `unprintable` are the texts that stand for a value of a type whose `repr` is not to be called and for
one whose `repr` raises (`none`). -/
def safeRepr (blacklisted : Bool) (repr : Option (List Char)) (skip unprintable : List Char) (truncate : Bool) : List Char :=
  let s := if blacklisted then skip else repr.getD unprintable
  if truncate && decide (s.length > maxRepr) then s.take (maxRepr - 3) ++ ['.', '.', '.'] else s

/-! ## `slash list` -/

/-- What to list, `slash_list.py:31-32`. -/
inductive Only where
  | fixtures | tests
deriving DecidableEq, Repr

/-- The options, `slash_list.py:28-45`. -/
structure Args where
  only : Option Only := none
  showParams : Bool := true
  relative : Bool := false
  showDuplicates : Bool := false
  allowEmpty : Bool := false
  warningsAsErrors : Bool := false
deriving DecidableEq, Repr

/-- `address.split('(')[0]`, `slash_list.py:102`. -/
def noParams (a : List Char) : List Char := a.takeWhile (· != '(')

/-- `rsplit(':', 1)`, `slash_list.py:112`: `none`: there is no colon. -/
def rsplit (a : List Char) : Option (List Char × List Char) :=
  if a.contains ':' then
    let r := (a.reverse.takeWhile (· != ':')).reverse
    some (a.take (a.length - r.length - 1), r)
  else none

/-- `_convert_address_to_relpath`, `slash_list.py:111-115`; `relpath` is `os.path.relpath` for absolute paths and does nothing to others. -/
def toRel (relpath : List Char → List Char) (a : List Char) : Option (List Char) := (rsplit a).map (fun x => relpath x.1 ++ ':' :: x.2)

/-- The address that is shown, `slash_list.py:100-104`; `none`: an exception. -/
def shown (args : Args) (relpath : List Char → List Char) (a : List Char) : Option (List Char) :=
  let a := if args.showParams then a else noParams a
  if args.relative then toRel relpath a else some a

/-- The loop of `_report_tests`, `slash_list.py:96-108`. -/
def reportTests (args : Args) (relpath : List Char → List Char) : List (List Char) → List (List Char) → Option (List (List Char))
  | _, [] => some []
  | visited, a :: rest =>
    match shown args relpath a with
    | none => none
    | some s =>
      if visited.contains s && !args.showDuplicates then reportTests args relpath visited rest
      else (reportTests args relpath (s :: visited) rest).map (s :: ·)

/-- A fixture of the store, `slash_list.py:121-136`. -/
structure LFix where
  id : Nat
  name : String
  hasFunc : Bool := true
  autouse : Bool := false
  override : Bool := false
deriving DecidableEq, Repr

/-- What is said about a fixture, `slash_list.py:128-136`. -/
inductive Info where
  | autouse | unused | used
deriving DecidableEq, Repr

/-- `_report_fixtures`, `slash_list.py:118-138`. -/
def reportFixtures (store : List LFix) (used : List Nat) : List (String × Info × Bool) :=
  (store.filter (·.hasFunc)).map (fun f => (f.name, (if f.autouse then .autouse else if used.contains f.id then .used else .unused), f.override))

/-- A test: its address and the fixtures it requires (`core/runnable_test.py`). -/
structure LTest where
  address : List Char
  fixtures : List Nat := []
deriving DecidableEq, Repr

/-- How `slash list` ends (`slash_list.py:67,82,84,87,89`). -/
inductive LEnd where
  | code (n : Int) | usage | crash
deriving DecidableEq, Repr

/-- What it prints: fixtures, addresses of tests (`slash_list.py:75-79`). -/
structure Listing where
  fixtures : Option (List (String × Info × Bool)) := none
  tests : Option (List (List Char)) := none
deriving DecidableEq, Repr

/-- `slash_list`, `slash_list.py:48-89`. `sources`: paths, suite files or default sources are given; `loaded`: the tests, `none` for `CannotLoadTests`;
`warnings`: the number of warnings of the session. -/
def slashList (args : Args) (relpath : List Char → List Char) (sources : Bool) (loaded : Option (List LTest)) (store : List LFix) (warnings : Nat) : Listing × LEnd :=
  if !sources then ({}, .usage)
  else
    match loaded with
    | none => ({}, .code (-1))
    | some ts =>
      let fx := if args.only = some .tests then none else some (reportFixtures store (ts.flatMap (·.fixtures)))
      if args.only = some .fixtures then ({ fixtures := fx }, finish ts)
      else
        match reportTests args relpath [] (ts.map (·.address)) with
        | none => ({ fixtures := fx }, .crash)
        | some as => ({ fixtures := fx, tests := some as }, finish ts)
where
  /-- The code, `slash_list.py:81-89`. -/
  finish (ts : List LTest) : LEnd :=
    if decide (warnings > 0) && args.warningsAsErrors then .code (-1)
    else if !ts.isEmpty then .code 0
    else .code (if args.allowEmpty then 0 else 1)

end Slash.Rep
