import Verif.Model.Plugins
/-!
# Plugins on the command line and in parallel runs

`utils/cli_utils.py:12-27`, `utils/parallel_utils.py`, `plugins/plugin_manager.py:120-135`, `app.py:114-126`, `frontend/slash_list_plugins.py`.
-/
namespace Slash.Plug

/-- `str.startswith` and the rest, `utils/cli_utils.py:18-22`. -/
def after (pre arg : Str) : Option Str := if pre.isPrefixOf arg then some (arg.drop pre.length) else none

/-- `_PLUGIN_ACTIVATION_PREFIX`, `utils/cli_utils.py:12`. -/
def withPrefix : Str := "--with-".toList

/-- `_PLUGIN_DEACTIVATION_PREFIX`, `utils/cli_utils.py:13`. -/
def withoutPrefix : Str := "--without-".toList

/-- `add_pending_plugins_from_commandline`, `utils/cli_utils.py:15-27`: how it ends, the arguments that remain, the state. -/
def addPending (ps : Objs) : List Str → St → Res × List Str × St
  | [], s => (.ok, [], s)
  | arg :: argv, s =>
    match after withoutPrefix arg with
    | some n =>
      match deactivateLater ps (.name n) s with
      | (.ok, s) => addPending ps argv s
      | (r, s) => (r, [], s)
    | none =>
      match after withPrefix arg with
      | some n =>
        match activateLater ps (.name n) s with
        | (.ok, s) => addPending ps argv s
        | (r, s) => (r, [], s)
      | none =>
        let (r, l, s) := addPending ps argv s
        (r, arg :: l, s)

/-- `ParallelPluginModes`, `utils/parallel_utils.py:15-18`. -/
inductive Mode
  | disabled | enabled | parentOnly | childOnly
deriving DecidableEq, Repr

/-- The configuration of a parallel run, `utils/parallel_utils.py:3-12`. -/
structure Par where
  workers : Nat := 0
  workerId : Option Nat := none
deriving DecidableEq, Repr

/-- `is_parallel_session`, `utils/parallel_utils.py:3-4`. -/
def Par.parallel (p : Par) : Bool := p.workers != 0

/-- `is_parent_session`, `utils/parallel_utils.py:7-8`. -/
def Par.parent (p : Par) : Bool := p.parallel && p.workerId.isNone

/-- `is_child_session`, `utils/parallel_utils.py:11-12`. -/
def Par.child (p : Par) : Bool := p.workerId.isSome

/-- `_is_parallel_supported`, `plugins/plugin_manager.py:120-130`: in spite of its name, whether the plugin does not fit the session. -/
def misfit (par : Par) (mode : Mode) : Bool :=
  if !par.parallel then false
  else if mode = .enabled then false
  else if mode = .disabled || (mode = .parentOnly && par.child) || (mode = .childOnly && par.parent) then true
  else false

/-- The loop of `configure_for_parallel_mode`, `plugins/plugin_manager.py:132-135`. -/
def configureParallelLoop (ps : Objs) (modes : Nat → Mode) (par : Par) : List (Str × Nat × Bool) → St → Res × St
  | [], s => (.ok, s)
  | x :: l, s =>
    if misfit par (modes x.2.1) then
      match deactivateLater ps (.obj x.2.1) s with
      | (.ok, s) => configureParallelLoop ps modes par l s
      | r => r
    else configureParallelLoop ps modes par l s

/-- `configure_for_parallel_mode`, `plugins/plugin_manager.py:132-135`. -/
def configureParallel (ps : Objs) (modes : Nat → Mode) (par : Par) (s : St) : Res × St := configureParallelLoop ps modes par s.installed s

/-- What happens to plugins when an application is entered, `app.py:114,125-126`, with callbacks of `configure` that do not touch plugins: how it ends, the arguments that remain, the state. -/
def appPlugins (w : World) (ps : Objs) (modes : Nat → Mode) (par : Par) (raisesA raisesD : Str → Bool) (oA oD : List Str) (argv : List Str) (s : St) : Res × List Str × St :=
  match addPending ps argv s with
  | (.ok, l, s) =>
    match configureParallel ps modes par s with
    | (.ok, s) =>
      let (r, s) := activatePending w ps raisesA raisesD oA oD s
      (r, l, s)
    | (r, s) => (r, l, s)
  | x => x

/-- A line of `slash list-plugins`, `frontend/slash_list_plugins.py:34-41`: name, whether it is active, what to write after `--with-` or `--without-`. -/
structure ListLine where
  name : Str
  active : Bool
  option : Str
deriving DecidableEq, Repr

/-- `slash_list_plugins`, `frontend/slash_list_plugins.py:32-46`, unordered; `none`: an exception. -/
def listPlugins (s : St) : Option (List ListLine) :=
  (futureActive s).map fun act => (s.installed.filter (fun x => !x.2.2)).map (fun x => { name := x.1, active := act.contains x.1, option := norm x.1 })

end Slash.Plug
