/-!
# Local configuration: `slash/core/local_config.py`

The variables of `slashconf` files seen from a test file.

Simplifications: paths are lists of names, the innermost first, so that `os.path.dirname` is the tail and the root is `[]`; they exist
and are directories. A `dict` is a list of which the first entry of a name counts. What running a file gives is a parameter that may depend on how often
it was run before. The names of functions defined twice are in `Verif/Model/Loader.lean`.
-/
namespace Slash.LC

/-- Names and values of a module, `local_config.py:47`. -/
abbrev Vars := List (Nat × Nat)

/-- Lookup in a `dict`, `local_config.py:20-21`. -/
def Vars.get (v : Vars) (n : Nat) : Option Nat := (v.find? (·.1 == n)).map (·.2)

/-- `d.update(e)`, `local_config.py:47,56`. -/
def Vars.update (d e : Vars) : Vars := e ++ d

/-- A directory, `local_config.py:59-75`. -/
abbrev Dir := List Nat

/-- `_traverse_upwards`, `local_config.py:59-75`. -/
def upwards : Dir → List Dir
  | [] => [[]]
  | c :: d => (c :: d) :: upwards d

/-- What a directory has: the file `slashconf.py`, and the files below the directory `slashconf` as listed by `os.walk`, with their
names. `local_config.py:24-36`. -/
structure Conf where
  file : Option Nat := none
  dir : Option (List (List Char × Nat)) := none
deriving DecidableEq, Repr

/-- `str.endswith('.py')`, `local_config.py:35`. -/
def isPy (name : List Char) : Bool := ".py".toList.isSuffixOf name

/-- `_iter_slashconf_paths`, `local_config.py:23-36`; `none` for the failing assertion. -/
def paths (c : Conf) : Option (List Nat) :=
  match c.file, c.dir with
  | some _, some _ => none
  | some f, none => some [f]
  | none, some l => some ((l.filter fun x => isPy x.1).map (·.2))
  | none, none => some []

/-- The file system and the files: whether a file can be parsed (`local_config.py:45-47`), and what running it gives for the n-th time,
`none` if it raises an exception (50). -/
structure Env where
  conf : Dir → Conf
  parses : Nat → Bool
  run : Nat → Nat → Option Vars

/-- `LocalConfig`, `local_config.py:8-12`, with the files that were run. The stack has its top first. -/
structure St where
  cache : List (Dir × Vars) := []
  configs : List Vars := []
  log : List Nat := []
deriving DecidableEq, Repr

/-- `self._slashconf_vars_cache.get`, `local_config.py:41`. -/
def St.cached (s : St) (d : Dir) : Option Vars := (s.cache.find? (·.1 == d)).map (·.2)

/-- The loop over the files of a directory, `local_config.py:44-47`. -/
def runFiles (env : Env) : List Nat → Vars → List Nat → Option Vars × List Nat
  | [], v, log => (some v, log)
  | f :: fs, v, log =>
    if env.parses f then
      match env.run f (log.count f) with
      | none => (none, log ++ [f])
      | some w => runFiles env fs (v.update w) (log ++ [f])
    else (none, log)

/-- The variables of one directory, `local_config.py:41-51`: with the cache if there are any. -/
def loadDir (env : Env) (d : Dir) (s : St) : Option Vars × St :=
  match s.cached d with
  | some v => (some v, s)
  | none =>
    match paths (env.conf d) with
    | none => (none, s)
    | some fs =>
      match runFiles env fs [] s.log with
      | (none, log) => (none, { s with log := log })
      | (some v, log) => (some v, { s with log := log, cache := if v = [] then s.cache else (d, v) :: s.cache })

/-- The loop over the directories, `local_config.py:40-51`: those that have variables. -/
def loadDirs (env : Env) : List Dir → St → Option (List Vars) × St
  | [], s => (some [], s)
  | d :: ds, s =>
    match loadDir env d s with
    | (none, s) => (none, s)
    | (some v, s) =>
      match loadDirs env ds s with
      | (none, s) => (none, s)
      | (some vs, s) => (some (if v = [] then vs else v :: vs), s)

/-- `push_path` with `_build_config`, `local_config.py:14-15,38-57`; whether it succeeds. -/
def push (env : Env) (d : Dir) (s : St) : Bool × St :=
  match loadDirs env (upwards d) s with
  | (none, s) => (false, s)
  | (some vs, s) => (true, { s with configs := vs.reverse.foldl Vars.update [] :: s.configs })

/-- `pop_path`, `local_config.py:17-18`. -/
def pop (s : St) : St := { s with configs := s.configs.tail }

/-- `get_dict`, `local_config.py:20-21`. -/
def getDict (s : St) : Vars := s.configs.headD []

/-- Calls of `loader.py:215,225`. -/
inductive Op where
  | push (d : Dir)
  | pop
deriving DecidableEq, Repr

/-- One call, `local_config.py:14-18`. -/
def step (env : Env) (s : St) : Op → St
  | .push d => (push env d s).2
  | .pop => pop s

/-- Calls one after the other, `loader.py:213-225`. -/
def exec (env : Env) (ops : List Op) (s : St) : St := ops.foldl (step env) s

end Slash.LC
