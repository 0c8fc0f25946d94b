/-!
# Debugger, customization files, `slash list-config`, duplicate functions, links to logs

`utils/debug.py`, `site.py`, `frontend/list_config.py`, `utils/python.py:19-34` with `loader.py:56-61,207`, the symbolic links of `log.py`.
-/
namespace Slash.Front

/-! ## The debugger -/

/-- Kinds of exceptions the debugger distinguishes, `utils/debug.py:65-68`. -/
inductive DKind where
  | skip | exit | interruption | other
deriving DecidableEq, Repr

/-- The configuration, `utils/debug.py:59,65,71`; filters are given by whether they match the `repr` of the exception. -/
structure DConf where
  enabled : Bool := false
  skips : Bool := false
  filters : List (String → Bool) := []
  debugger : Option String := none

/-- `debug_if_needed`, `utils/debug.py:57-74`: whether the debugger is launched for the exception (its kind and `repr`; `none`: there is none). -/
def needed (cfg : DConf) (session : Bool) (exc : Option (DKind × String)) : Bool :=
  if !cfg.enabled then false
  else
    match exc with
    | none => false
    | some (k, repr) =>
      if session && k == .skip && !cfg.skips then false
      else if k == .exit || k == .interruption then false
      else if !cfg.filters.isEmpty && !cfg.filters.all (fun f => f repr) then false
      else true

/-- How calling a debugger ends, `utils/debug.py:18-34`: it is not installed, it was used, it was used and raised `NotImplementedError`, it was used and raised something else. -/
inductive DEnd where
  | missing | used | notImplemented | raised
deriving DecidableEq, Repr

/-- A known debugger, `utils/debug.py:49-54`. -/
structure Dbg where
  name : String
  ends : DEnd
deriving DecidableEq, Repr

/-- The order in which they are tried, `utils/debug.py:80-89`: the flag says that the name is not known. -/
def order (name : Option String) (ds : List Dbg) : List Dbg × Bool :=
  match name with
  | none => (ds, false)
  | some n =>
    match ds.find? (fun d => d.name == n) with
    | some d => (d :: ds.eraseP (fun d => d.name == n), false)
    | none => (ds, true)

/-- How launching ends, `utils/debug.py:91-101`. -/
inductive LaunchEnd where
  | ok | notImplemented | raised
deriving DecidableEq, Repr

/-- The loop of `launch_debugger`, `utils/debug.py:91-101`: the debuggers that were used, how it ends. -/
def tryAll : List Dbg → List String × LaunchEnd
  | [] => ([], .notImplemented)
  | d :: ds =>
    match d.ends with
    | .missing => tryAll ds
    | .used => ([d.name], .ok)
    | .raised => ([d.name], .raised)
    | .notImplemented => (d.name :: (tryAll ds).1, (tryAll ds).2)

/-- `launch_debugger`, `utils/debug.py:77-101`, without the hook. -/
def launch (cfg : DConf) (ds : List Dbg) : List String × LaunchEnd := tryAll (order cfg.debugger ds).1

/-! ## Customization files -/

/-- What code does: how it changes `sys.path`, whether it raises (`site.py:77-79`). -/
structure Code where
  id : Nat
  path : List String → List String := fun p => p
  raises : Bool := false

/-- The environment of `site.load` (`site.py:20-60`): the user's file (as set by `SLASH_USER_SETTINGS` or the configuration) and the project's, if they exist,
with their directories; what `SLASH_SETTINGS` names; entry points. -/
structure SiteEnv where
  user : Option (String × Code) := none
  project : Option (String × Code) := none
  settings : Option Code := none
  entries : List Code := []

/-- The process: `sys.path`, the code that was run with `sys.path` at that time, whether something was raised (`site.py:20-60`). -/
structure SiteSt where
  path : List String
  ran : List (Nat × List String) := []
  exc : Bool := false
deriving DecidableEq, Repr

/-- Running code, `site.py:68-79`. -/
def exec (c : Code) (s : SiteSt) : SiteSt := { path := c.path s.path, ran := s.ran ++ [(c.id, s.path)], exc := c.raises }

/-- `_load_file_if_exists`, `site.py:42-49`. -/
def loadFile (f : Option (String × Code)) (s : SiteSt) : SiteSt :=
  match f with
  | none => s
  | some (dir, c) => { exec c { s with path := dir :: s.path } with path := s.path }

/-- The next step, unless something was raised (`site.py:20-24`). -/
def andThen (s : SiteSt) (k : SiteSt → SiteSt) : SiteSt := if s.exc then s else k s

/-- `_load_entry_points`, `site.py:56-60`. -/
def loadEntries : List Code → SiteSt → SiteSt
  | [], s => s
  | c :: cs, s => andThen (exec c s) (loadEntries cs)

/-- `_load_defaults`, `site.py:20-24`. -/
def loadDefaults (e : SiteEnv) (s : SiteSt) : SiteSt :=
  andThen (loadFile e.user s) (fun s =>
    andThen (loadFile e.project s) (fun s =>
      andThen (match e.settings with | none => s | some c => exec c s) (loadEntries e.entries)))

/-- Which file holds the user's customization, `site.py:26-31`: the variable wins, even if it is empty. -/
def userFile (env configured : Option String) : Option String := env.or configured

/-! ## `slash list-config` -/

/-- `_iter_subpaths`, `frontend/list_config.py:47-50`; paths are lists of components. -/
def subpaths (p : List String) : List (List String) := (List.range p.length).map (fun i => p.take (i + 1))

/-- `_parse_filters`, `frontend/list_config.py:41-45`. -/
def parseFilters (ps : List (List String)) : List (List String) := ps.flatMap subpaths

/-- `_is_included`, `frontend/list_config.py:53-59`. -/
def included (name : List String) (filters : List (List String)) : Bool := filters.isEmpty || (subpaths name).any (fun s => filters.contains s)

/-- The loop of `list_config`, `frontend/list_config.py:31-37`; `names` are the paths of all leaves in order. -/
def listConfig (names : List (List String)) (paths : List (List String)) : List (List String) := names.filter (fun n => included n (parseFilters paths))

/-! ## Functions defined twice -/

/-- A statement at the top of a file (`utils/python.py:28-29`): a function (`def`), or something else that binds a name (`async def`, `class`, an assignment, a `def`
inside of an `if`). -/
structure Node where
  function : Bool
  name : String
  line : Nat
deriving DecidableEq, Repr

/-- `check_duplicate_functions`, `utils/python.py:26-34`: names seen, duplicates. -/
def duplicatesLoop : List String → List Node → List (String × Nat)
  | _, [] => []
  | seen, n :: ns =>
    if n.function then
      if seen.contains n.name then (n.name, n.line) :: duplicatesLoop seen ns
      else duplicatesLoop (n.name :: seen) ns
    else duplicatesLoop seen ns

/-- The warnings of the loader, `loader.py:59-61,207`, for the files as they are loaded: each of the set once (in some order). -/
def duplicateWarnings (files : List (String × List Node)) : List (String × String × Nat) :=
  (files.flatMap (fun f => (duplicatesLoop [] f.2).map (fun d => (f.1, d.1, d.2)))).foldl (fun acc x => if acc.contains x then acc else acc ++ [x]) []

/-! ## Symbolic links to logs -/

/-- Links: name and target, `log.py:310-313`. -/
abbrev Links := List (String × String)

/-- Removing a link, `log.py:311-312`. -/
def unlink (l : String) (ls : Links) : Links := ls.filter (fun x => x.1 != l)

/-- Configuration of the links (`conf.py`, `log.py:153-175,299-301`); the raw path is `none` unless raw files are written beside compressed ones. -/
structure LConf where
  root : Bool := true
  worker : Bool := false
  session : Option String := none
  sessionRaw : Option String := none
  dirname : String → String := id
  lastSession : Option String := none
  lastSessionDir : Option String := none
  lastTest : Option String := none
  lastFailed : Option String := none

/-- `_try_create_symlink`, `log.py:299-316`: without a target the link is removed and the error swallowed. -/
def tryCreate (c : LConf) (target link : Option String) (ls : Links) : Links :=
  match link with
  | none => ls
  | some l =>
    if !c.root || c.worker then ls
    else
      match target with
      | some p => (l, p) :: unlink l ls
      | none => unlink l ls

/-- The link made by `_log_file_handler_context`, `log.py:256-268`: none for a file that is already open. -/
def fileContext (c : LConf) (opened : List String) (path link : Option String) (ls : Links) : Links :=
  match path with
  | none => ls
  | some p =>
    if !c.root then ls
    else if opened.contains p then ls
    else tryCreate c (some p) link ls

/-- A test: the paths of its log and its raw log, whether it had errors or failures (`log.py:152-164`). -/
structure LTest where
  path : Option String
  raw : Option String := none
  bad : Bool := false
deriving DecidableEq, Repr

/-- The paths that are open during the session (`log.py:181,185,274`). -/
def LConf.opened (c : LConf) : List String := c.session.toList ++ c.sessionRaw.toList

/-- A test, `log.py:151-164,181-185`. -/
def testLinks (c : LConf) (t : LTest) (ls : Links) : Links :=
  let ls := fileContext c c.opened t.path c.lastTest ls
  let ls := fileContext c (c.opened ++ t.path.toList) t.raw c.lastTest ls
  if t.bad then tryCreate c t.path c.lastFailed ls else ls

/-- A session, `log.py:166-176`. -/
def sessionLinks (c : LConf) (ts : List LTest) (ls : Links) : Links :=
  let ls := fileContext c [] c.session c.lastSession ls
  let ls := fileContext c c.session.toList c.sessionRaw c.lastSession ls
  let ls := match c.session with
    | some p => if c.root then tryCreate c (some (c.dirname p)) c.lastSessionDir ls else ls
    | none => ls
  ts.foldl (fun ls t => testLinks c t ls) ls

/-- Where a link leads (`log.py:313`). -/
def target (ls : Links) (l : String) : Option String := (ls.find? (fun x => x.1 == l)).map (·.2)

end Slash.Front
