import Verif.Model.Loader
/-!
# What `slash run` runs, from the command line to the tests: `slash/frontend/slash_run.py:102-125`, `slash/loader.py:55-276`

The parts of `Verif.Model.Loader` put together: arguments and suite files, files below directories, modules, their tests and variations, filters,
repetitions and the order of the tests.

Simplifications: paths have no trailing slash and no drive; no hook sets sort keys; what suite files list is given (`Verif.Model.SuiteFile`).
-/
namespace Slash.Load

/-- Something to load tests from: an address, and the matcher of the suite file it is from, `loader.py:106-115`. -/
structure Source where
  addr : Str
  matcher : Option (Meta.Test → Bool) := none

/-- What is there to be loaded: what is at a path, the contents of a module (`none`: it cannot be imported), the classes and the variations of its
tests, and their `repeat` markers, `loader.py:83,188-210,237-254`. -/
structure CEnv where
  entry : Str → Entry
  contents : Str → Option (List (Str × Thing))
  className : Str → Str → Option Str := fun _ _ => none
  variations : Str → Str → Str → List (Option Meta.Vals) := fun _ _ _ => [none]
  rep : Meta.Test → Nat := fun _ => 1

/-- The last part of a path, `loader.py:234-235,269-276`. -/
def basename (p : Str) : Str := (p.reverse.takeWhile (· != '/')).reverse

/-- `os.path.join` for the names of directories and of a file below a path, `loader.py:276`. -/
def filePath (p : Str) (f : List Str) : Str := f.foldl (fun a n => a ++ '/' :: n) p

/-- `_iter_runnable_tests_in_module` with variations, `loader.py:237-254`, `core/function_test.py:55-58`, `core/test.py:23-40`. -/
def fileTests (env : CEnv) (file : Str) : Option (List Meta.Test) :=
  (env.contents file).map (fun things => (moduleTests things).flatMap (fun x =>
    (env.variations file x.1 x.2).map (fun v => ⟨file, x.1, x.2, env.className file x.1, v⟩)))

/-- `_iter_path`, `loader.py:176-177,179-210`. -/
def pathTests (env : CEnv) (p : Str) : R (List Meta.Test) := iterPath (basename p) (fun f => fileTests env (filePath p f)) (env.entry p)

/-- `_generate_test_sources` for one source, `loader.py:106-124`. -/
def sourceTests (env : CEnv) (excluded : Meta.Test → Bool) (s : Source) : R (List Meta.Test) :=
  match iterAddress (pathTests env) excluded s.addr with
  | .cannotLoad => .cannotLoad
  | .ok l =>
    match s.matcher with
    | none => .ok l
    | some m => .ok (l.filter m)

/-- `_generate_test_sources` for a list, `loader.py:112-113`. -/
def sourcesTests (env : CEnv) (excluded : Meta.Test → Bool) : List Source → R (List Meta.Test)
  | [] => .ok []
  | s :: ss =>
    match sourceTests env excluded s with
    | .cannotLoad => .cannotLoad
    | .ok l =>
      match sourcesTests env excluded ss with
      | .cannotLoad => .cannotLoad
      | .ok l' => .ok (l ++ l')

/-- The arguments and the configuration used, `frontend/slash_run.py:103-109`, `loader.py:46-52,81,86`; `suite`: what the suite files list. -/
structure CConf where
  args : List Str := []
  suite : List Source := []
  defaults : List Str := []
  interactive : Bool := false
  filters : List (Meta.Test → Bool) := []
  each : Nat := 1
  all : Nat := 1

/-- `_is_excluded`, `loader.py:228-232`. -/
def CConf.excluded (c : CConf) (t : Meta.Test) : Bool := !(c.filters.all (fun m => m t))

/-- `paths`, `frontend/slash_run.py:103-108,119-125`. -/
def CConf.sources (c : CConf) : List Source :=
  let l := c.args.map (fun a => ⟨a, none⟩) ++ c.suite
  if l.isEmpty && !c.interactive then c.defaults.map (fun a => ⟨a, none⟩) else l

/-- How collecting ends, `frontend/slash_run.py:111,115`, `loader.py:73-74`; a test that is no test of a file is the interactive one. -/
inductive Collected
  | ok (l : List (Option Meta.Test))
  | cannotLoad
  | internalError
deriving DecidableEq

/-- The objects made of the tests found: sort keys are handed out in increasing order, `core/metadata.py:7,22`. -/
def objects (env : CEnv) (tests : List Meta.Test) : List T :=
  tests.zipIdx.map (fun x => { oid := x.2, src := x.2, rep := env.rep x.1, key := (x.2 : Int) + 1 })

/-- `_collect_tests`, `frontend/slash_run.py:102-117`. -/
def collectTests (env : CEnv) (c : CConf) : Collected :=
  if c.sources.isEmpty && !c.interactive then .cannotLoad
  else
    match sourcesTests env c.excluded c.sources with
    | .cannotLoad => .cannotLoad
    | .ok tests =>
      match getRunnables c.each c.all (objects env tests) (tests.length + 1) (if c.interactive then some tests.length else none) (·.key)
        { space := IdSpace.Space.new [] } with
      | none => .internalError
      | some (l, _) => if l.isEmpty then .cannotLoad else .ok (l.map (fun t => tests[t.src]?))

end Slash.Load
