import Verif.Model.Plugins
import Verif.Model.Loader
/-!
# Searching for plugins (`slash/plugins/plugin_manager.py`, `slash/app.py`)

What is below the paths in `plugins.search_paths` are trees as in `Verif.Model.Loader`, which contain what `os.walk` enters (so no links to
directories); what the plugin files do is given by the operations on the plugin manager that their functions `install_plugins` call. Names are
shorter than what the system allows, directories can be read, and the trees do not change meanwhile.
-/
namespace Slash.Discover
open Slash.Plug (Op St Res World Objs)
open Slash.Load (Node Entry Str)

/-- A Python file: whether it can be imported, and what its function `install_plugins` calls, if it has one, `plugins/plugin_manager.py:71-75`. -/
structure Module where
  imports : Bool := true
  install : Option (List Op) := none

/-- The surroundings: what is at the search paths (`conf.py:138`), and the files: number of the search path, path below it,
`plugins/plugin_manager.py:66-71`. -/
structure Env where
  w : World
  ps : Objs
  paths : List Entry
  mod : Nat → List Str → Module

/-- How it ends, `plugins/plugin_manager.py:71-75`. -/
inductive Out
  | ok
  | importError (path : Nat) (file : List Str)
  | raised (r : Res)
deriving DecidableEq

mutual
/-- All files that `os.walk` finds below a directory: those of a directory first, `plugins/plugin_manager.py:67-68`. -/
def files : Node → List (List Str)
  | .dir fs dirs => fs.map (fun f => [f]) ++ filesDirs dirs
/-- The files below the directories in a directory, `plugins/plugin_manager.py:67-68`. -/
def filesDirs : List (Str × Node) → List (List Str)
  | [] => []
  | d :: ds => (files d.2).map (fun p => d.1 :: p) ++ filesDirs ds
end

/-- `os.walk` of a search path: nothing if there is no directory, `plugins/plugin_manager.py:67`. -/
def filesOf : Entry → List (List Str)
  | .dir n => files n
  | _ => []

/-- Whether the name of the file ends with `.py`, `plugins/plugin_manager.py:69`. -/
def isPy (f : List Str) : Bool := ['.', 'p', 'y'].isSuffixOf (f.getLast?.getD [])

/-- The files that are imported, in order, `plugins/plugin_manager.py:66-71`. -/
def found (paths : List Entry) : List (Nat × List Str) :=
  (paths.zipIdx.map (fun x => ((filesOf x.1).filter isPy).map (fun f => (x.2, f)))).flatten

/-- A function `install_plugins`: it ends with the first operation that raises, `plugins/plugin_manager.py:75`. -/
def runOps (w : World) (ps : Objs) : List Op → St → Out × St
  | [], s => (.ok, s)
  | op :: ops, s =>
    match op.run w ps s with
    | (.ok, s) => runOps w ps ops s
    | (r, s) => (.raised r, s)

/-- Importing a file and calling its function, `plugins/plugin_manager.py:71-75`. -/
def visit (env : Env) (f : Nat × List Str) (s : St) : Out × St :=
  if (env.mod f.1 f.2).imports then
    match (env.mod f.1 f.2).install with
    | none => (.ok, s)
    | some ops => runOps env.w env.ps ops s
  else (.importError f.1 f.2, s)

/-- The loops, `plugins/plugin_manager.py:66-75`. -/
def visitAll (env : Env) : List (Nat × List Str) → St → Out × St
  | [], s => (.ok, s)
  | f :: fs, s =>
    match visit env f s with
    | (.ok, s) => visitAll env fs s
    | x => x

/-- `discover`, `plugins/plugin_manager.py:62-75`. -/
def discover (env : Env) (s : St) : Out × St := visitAll env (found env.paths) s

/-- What may happen to plugins until a session begins: operations of customization files, of the command line and of the application itself, and
calls of `discover` (which only customization files may contain), `app.py:110-131`. -/
inductive Step
  | op (o : Op)
  | discover

/-- The application is entered: customization files, then the plugins asked for on the command line, then `activate_pending_plugins`,
`app.py:110-131`. -/
def start (env : Env) : List Step → St → Out × St
  | [], s => (.ok, s)
  | .op o :: l, s =>
    match o.run env.w env.ps s with
    | (.ok, s) => start env l s
    | (r, s) => (.raised r, s)
  | .discover :: l, s =>
    match discover env s with
    | (.ok, s) => start env l s
    | x => x

end Slash.Discover
