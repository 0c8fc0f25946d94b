import Verif.Model.Plugins
/-!
# Configuration of plugins: `slash/plugins/plugin_manager.py:137-199,276-292`, `plugins/interface.py:17-39`

The state of the manager of `Verif.Model.Plugins` together with the sections of `config.root.plugin_config`.
-/
namespace Slash.PConf
open Slash.Plug

/-- A section of the configuration: its values by their names. -- `plugins/interface.py:17-22` -/
abbrev Sec := List (Str × Nat)

/-- What `get_config` and `get_default_config` of a plugin object return, `plugins/interface.py:17-30`. -/
structure Conf where
  old : Nat → Option Sec
  new : Nat → Option Sec

/-- The manager and the sections of `plugin_config`, `conf.py:141`. -/
structure CSt where
  st : St := {}
  cfg : List (Str × Sec) := []
deriving DecidableEq, Repr

/-- `normalize_config_name`, `plugins/plugin_manager.py:258-259`. -/
def cfgName (n : Str) : Str := n.map (fun c => if c = ' ' then '_' else c)

/-- The section a plugin asks for, `plugins/plugin_manager.py:277-282`. -/
def Conf.of (c : Conf) (o : Nat) : Option Sec :=
  match c.old o with
  | some x => some x
  | none => c.new o

/-- `_configure`, `plugins/plugin_manager.py:276-286`; `merge`: what `extend` of confetti makes of a section that is there already. -/
def configure (merge : Sec → Sec → Sec) (ps : Objs) (c : Conf) (o : Nat) (cfg : List (Str × Sec)) : List (Str × Sec) :=
  match c.of o with
  | none => cfg
  | some d =>
    let k := cfgName (ps o).name
    dictSet k (match dictGet k cfg with | some x => merge x d | none => d) cfg

/-- `_unconfigure`, `plugins/plugin_manager.py:288-292`. -/
def unconfigure (ps : Objs) (o : Nat) (cfg : List (Str × Sec)) : List (Str × Sec) := dictPop (cfgName (ps o).name) cfg

/-- `uninstall`, `plugins/plugin_manager.py:184-199`. -/
def uninstall (ps : Objs) (ref : Ref) (raises : Bool) (s : CSt) : Res × CSt :=
  match find ps s.st ref with
  | none => (.unknownPlugin, s)
  | some o =>
    match deactivate ps (.obj o) raises s.st with
    | (.userError, t) => (.userError, { s with st := t })
    | (.unknownPlugin, t) => (.unknownPlugin, { s with st := t })
    | (_, t) =>
      (.ok, { st := { t with installed := dictPop (ps o).name t.installed, cmdline := dictPop (norm (ps o).name) t.cmdline },
              cfg := unconfigure ps o s.cfg })

/-- `install`, `plugins/plugin_manager.py:137-167`; `raises`: whether `activate` of the plugin raises, `raisesD` whether `deactivate` does. -/
def install (merge : Sec → Sec → Sec) (w : World) (ps : Objs) (c : Conf) (o : Nat) (act later internal : Bool) (raises raisesD : Bool)
    (s : CSt) : Res × CSt :=
  if !(ps o).isPlugin then (.notAPlugin, s)
  else if !((ps o).name.all legalChar) then (.illegalName, s)
  else
    let n := (ps o).name
    let s : CSt :=
      { st := { s.st with installed := dictSet n (o, internal) s.st.installed, cmdline := dictSet (norm n) n s.st.cmdline },
        cfg := configure merge ps c o s.cfg }
    let r := if act then
        match activate w ps (.name n) raises s.st with
        | (.incompatible, t) =>
          match uninstall ps (.obj o) raisesD { s with st := t } with
          | (.ok, s) => (Res.incompatible, s)
          | e => e
        | (x, t) => (x, { s with st := t })
      else (Res.ok, s)
    match r with
    | (.ok, s) => if later then ((activateLater ps (.name n) s.st).1, { s with st := (activateLater ps (.name n) s.st).2 }) else (.ok, s)
    | x => x

/-- What users do: an operation of the manager, or an assignment to a value of a section (`config.assign_path`, of confetti; a value that is not
there is not created). -- `plugins/plugin_manager.py:137-274`, `utils/cli_utils.py:80,89` -/
inductive COp
  | plug (op : Op)
  | set (sec key : Str) (v : Nat)

/-- An assignment to a value of a section, `utils/cli_utils.py:80,89`. -/
def assign (sec key : Str) (v : Nat) (cfg : List (Str × Sec)) : List (Str × Sec) :=
  match dictGet sec cfg with
  | none => cfg
  | some x => if (dictGet key x).isSome then dictSet sec (dictSet key v x) cfg else cfg

/-- One operation. -- `plugins/plugin_manager.py:137-274` -/
def COp.run (merge : Sec → Sec → Sec) (w : World) (ps : Objs) (c : Conf) : COp → CSt → CSt
  | .plug (.install o a l i r d), s => (PConf.install merge w ps c o a l i r d s).2
  | .plug (.uninstall r x), s => (PConf.uninstall ps r x s).2
  | .plug op, s => { s with st := (op.run w ps s.st).2 }
  | .set sec key v, s => { s with cfg := assign sec key v s.cfg }

/-- A history. -- `plugins/plugin_manager.py:137-274` -/
def run (merge : Sec → Sec → Sec) (w : World) (ps : Objs) (c : Conf) (ops : List COp) (s : CSt) : CSt :=
  ops.foldl (fun s op => op.run merge w ps c s) s

/-- `current_config`, `plugins/interface.py:32-39`; `none`: there is no such section. -/
def currentConfig (ps : Objs) (o : Nat) (s : CSt) : Option Sec := dictGet (cfgName (ps o).name) s.cfg

end Slash.PConf
