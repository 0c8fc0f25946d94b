/-!
# Plugins: `slash/plugins/plugin_manager.py`
-/
namespace Slash.Plug

/-- Python strings. -- `plugins/plugin_manager.py:144` -/
abbrev Str := List Char

/-- `RegistrationInfo`, `plugins/registration_info.py`: the hook to register on, if any, and whether it has to exist. -/
structure RegInfo where
  hook : Option Str
  expectExists : Bool
deriving DecidableEq, Repr

/-- An attribute of the class of a plugin: its name, whether `PluginInterface` has it too, whether it is callable, what `registers_on` marks it
has (if any), and the `register_if` mark. -- `plugins/plugin_manager.py:338-354` -/
structure Method where
  name : Str
  skipped : Bool := false
  callable : Bool := true
  registerOn : Option (List RegInfo) := none
  registerIf : Bool := true
deriving DecidableEq, Repr

/-- A plugin object: its name, whether it is a `PluginInterface`, its class, the attributes of the class in the order of `dir`, and whether it
has a `provides` mark. -- `plugins/plugin_manager.py:142-146,303-307,325-345` -/
structure Plugin where
  name : Str
  isPlugin : Bool := true
  type : Nat := 0
  methods : List Method := []
  provides : Bool := false
deriving Repr

/-- The hooks there are: `known h expectExists` is whether looking up the hook succeeds; `slash`: the names of the hooks of the `slash` group.
Hooks created by a lookup are not added. -- `plugins/plugin_manager.py:334-336,375-385` -/
structure World where
  known : Str → Bool → Bool
  slash : List Str

/-- What is registered: a method of a plugin object, a no-op, or the function that turns the toggle of a plugin on. -- `plugins/plugin_manager.py:403,407,412` -/
inductive Cb
  | method (obj : Nat) (name : Str)
  | noop (obj : Nat)
  | toggle (obj : Nat)
deriving DecidableEq, Repr

/-- A registration in gossip; tokens are named after plugins. -- `plugins/plugin_manager.py:389-412` -/
structure Reg where
  hook : Str
  token : Option Str
  cb : Cb
deriving DecidableEq, Repr

/-- A constant. -- `plugins/plugin_manager.py:396` -/
def sessionStart : Str := "slash.session_start".toList

/-- A constant. -- `plugins/plugin_manager.py:399` -/
def sessionEnd : Str := "slash.session_end".toList

/-- The hooks a method asks for: the loop body up to the lookup, `plugins/plugin_manager.py:338-362`. -/
def Method.wants (m : Method) : List (Str × Bool) :=
  if m.skipped then []
  else if !m.callable then []
  else
    match m.registerOn with
    | some l => l.filterMap (fun i => match i.hook with
      | none => none
      | some h => if m.registerIf then some (h, i.expectExists) else none)
    | none =>
      if m.name.head? = some '_' then []
      else if m.registerIf then [("slash.".toList ++ m.name, true)] else []

/-- Both loops over methods, `plugins/plugin_manager.py:338-403`: the methods with the hooks they ask for. -/
def Plugin.wants (p : Plugin) : List (Method × Str × Bool) := (p.methods.map (fun m => m.wants.map (fun h => (m, h.1, h.2)))).flatten

/-- What `_get_plugin_registrations` collects, `plugins/plugin_manager.py:325-416`; `noops` are registered at once. -/
structure Regs where
  regs : List Reg
  noops : List Reg
  unknown : List Str

/-- `_get_plugin_registrations`, `plugins/plugin_manager.py:325-416`, for plugin object `obj`. -/
def registrations (w : World) (p : Plugin) (obj : Nat) : Regs :=
  let found := p.wants.filter (fun x => w.known x.2.1 x.2.2)
  let hasStart := found.any (fun x => x.2.1 == sessionStart)
  let hasEnd := found.any (fun x => x.2.1 == sessionEnd)
  let extra := hasEnd && !hasStart
  let noops := if p.provides then
      (w.slash.filter (fun h => !(found.any (fun x => x.2.1 == h)))).filter (fun h => !(extra && h == sessionStart))
    else []
  { regs := found.map (fun x => { hook := x.2.1, token := some p.name, cb := .method obj x.1.name }) ++
      (if extra then [{ hook := sessionStart, token := none, cb := .toggle obj }] else [])
    noops := noops.map (fun h => { hook := h, token := some p.name, cb := .noop obj })
    unknown := (p.wants.filter (fun x => !(w.known x.2.1 x.2.2))).map (·.2.1) }

/-- The state of the manager, and what is registered in gossip. `installed`: name, plugin object, whether it is internal.
-- `plugins/plugin_manager.py:35-43` -/
structure St where
  installed : List (Str × Nat × Bool) := []
  cmdline : List (Str × Str) := []
  pendAct : List Str := []
  pendDeact : List Str := []
  active : List Str := []
  regs : List Reg := []
deriving DecidableEq, Repr

/-- Assignment in a dictionary. -- `plugins/plugin_manager.py:152-154` -/
def dictSet {β : Type} (k : Str) (v : β) : List (Str × β) → List (Str × β)
  | [] => [(k, v)]
  | x :: t => if x.1 = k then (k, v) :: t else x :: dictSet k v t

/-- Lookup in a dictionary. -- `plugins/plugin_manager.py:298` -/
def dictGet {β : Type} (k : Str) : List (Str × β) → Option β
  | [] => none
  | x :: t => if x.1 = k then some x.2 else dictGet k t

/-- `dict.pop`. -- `plugins/plugin_manager.py:195-199` -/
def dictPop {β : Type} (k : Str) (l : List (Str × β)) : List (Str × β) := l.filter (fun x => !(x.1 == k))

/-- `set.add`. -- `plugins/plugin_manager.py:222` -/
def setAdd (k : Str) (l : List Str) : List Str := if l.contains k then l else l ++ [k]

/-- `normalize_command_line_name`, `plugins/plugin_manager.py:255-256`. -/
def norm (n : Str) : Str := n.map (fun c => if c = ' ' then '-' else c)

/-- How a plugin is referred to. -- `plugins/plugin_manager.py:309-323` -/
inductive Ref
  | name (n : Str)
  | type (t : Nat)
  | obj (o : Nat)
deriving DecidableEq, Repr

/-- How an operation ends. -- `plugins/plugin_manager.py:25-32` -/
inductive Res
  | ok
  | notAPlugin
  | illegalName
  | unknownPlugin
  | incompatible
  | userError
deriving DecidableEq, Repr

/-- The plugin objects there are. -- `plugins/plugin_manager.py:137` -/
abbrev Objs := Nat → Plugin

/-- `_get_installed_plugin`, `plugins/plugin_manager.py:297-323`. -/
def find (ps : Objs) (s : St) : Ref → Option Nat
  | .name n =>
    let n' := (dictGet n s.cmdline).getD n
    (dictGet n' s.installed).map (·.1)
  | .type t => (s.installed.find? (fun x => (ps x.2.1).type == t)).map (·.2.1)
  | .obj o => if (dictGet (ps o).name s.installed).map (·.1) = some o then some o else none

/-- `activate`, `plugins/plugin_manager.py:209-222`; `raises`: whether `activate` of the plugin raises. Registering in gossip does not fail. -/
def activate (w : World) (ps : Objs) (ref : Ref) (raises : Bool) (s : St) : Res × St :=
  match find ps s ref with
  | none => (.unknownPlugin, s)
  | some o =>
    if raises then (.userError, s)
    else
      let r := registrations w (ps o) o
      let s := { s with regs := s.regs ++ r.noops }
      if r.unknown ≠ [] then (.incompatible, s)
      else (.ok, { s with regs := s.regs ++ r.regs, active := setAdd (ps o).name s.active })

/-- `deactivate`, `plugins/plugin_manager.py:261-274`; `raises`: whether `deactivate` of the plugin raises, if it is called. -/
def deactivate (ps : Objs) (ref : Ref) (raises : Bool) (s : St) : Res × St :=
  match find ps s ref with
  | none => (.unknownPlugin, s)
  | some o =>
    let n := (ps o).name
    if s.active.contains n then
      (if raises then .userError else .ok,
        { s with regs := s.regs.filter (fun r => !(r.token == some n)), active := s.active.filter (fun m => !(m == n)) })
    else (.ok, s)

/-- `uninstall`, `plugins/plugin_manager.py:184-199`. -/
def uninstall (ps : Objs) (ref : Ref) (raises : Bool) (s : St) : Res × St :=
  match find ps s ref with
  | none => (.unknownPlugin, s)
  | some o =>
    match deactivate ps (.obj o) raises s with
    | (.userError, s) => (.userError, s)
    | (.unknownPlugin, s) => (.unknownPlugin, s)
    | (_, s) =>
      (.ok, { s with installed := dictPop (ps o).name s.installed, cmdline := dictPop (norm (ps o).name) s.cmdline })

/-- `activate_later`, `plugins/plugin_manager.py:224-230`. -/
def activateLater (ps : Objs) (ref : Ref) (s : St) : Res × St :=
  match find ps s ref with
  | none => (.unknownPlugin, s)
  | some o => (.ok, { s with pendAct := setAdd (ps o).name s.pendAct })

/-- `deactivate_later`, `plugins/plugin_manager.py:232-239`. -/
def deactivateLater (ps : Objs) (ref : Ref) (s : St) : Res × St :=
  match find ps s ref with
  | none => (.unknownPlugin, s)
  | some o => (.ok, { s with pendDeact := setAdd (ps o).name s.pendDeact })

/-- `[A-Za-z0-9_ -]`, `plugins/plugin_manager.py:145`. -/
def legalChar (c : Char) : Bool :=
  ('A'.toNat ≤ c.toNat && c.toNat ≤ 'Z'.toNat) || ('a'.toNat ≤ c.toNat && c.toNat ≤ 'z'.toNat) || ('0'.toNat ≤ c.toNat && c.toNat ≤ '9'.toNat) ||
    c == '_' || c == ' ' || c == '-'

/-- `install`, `plugins/plugin_manager.py:137-167`; `raises`: whether `activate` of the plugin raises, `raisesD` whether `deactivate` does. -/
def install (w : World) (ps : Objs) (o : Nat) (act later internal : Bool) (raises raisesD : Bool) (s : St) : Res × St :=
  if !(ps o).isPlugin then (.notAPlugin, s)
  else if !((ps o).name.all legalChar) then (.illegalName, s)
  else
    let n := (ps o).name
    let s := { s with installed := dictSet n (o, internal) s.installed, cmdline := dictSet (norm n) n s.cmdline }
    let r := if act then
        match activate w ps (.name n) raises s with
        | (.incompatible, s) =>
          match uninstall ps (.obj o) raisesD s with
          | (.ok, s) => (Res.incompatible, s)
          | e => e
        | x => x
      else (Res.ok, s)
    match r with
    | (.ok, s) => if later then activateLater ps (.name n) s else (.ok, s)
    | x => x

/-- The first loop of `activate_pending_plugins`, `plugins/plugin_manager.py:245-248`; `order`: the order in which the set is emptied. -/
def pendingActivations (w : World) (ps : Objs) (raises : Str → Bool) : List Str → St → Res × St
  | [], s => (.ok, s)
  | n :: t, s =>
    let s := { s with pendAct := s.pendAct.filter (fun m => !(m == n)) }
    if s.pendDeact.contains n then pendingActivations w ps raises t s
    else
      match activate w ps (.name n) (raises n) s with
      | (.ok, s) => pendingActivations w ps raises t s
      | x => x

/-- The second loop of `activate_pending_plugins`, `plugins/plugin_manager.py:250-253`. -/
def pendingDeactivations (ps : Objs) (raises : Str → Bool) : List Str → St → Res × St
  | [], s => (.ok, s)
  | n :: t, s =>
    let s := { s with pendDeact := s.pendDeact.filter (fun m => !(m == n)) }
    if s.active.contains n then
      match deactivate ps (.name n) (raises n) s with
      | (.ok, s) => pendingDeactivations ps raises t s
      | x => x
    else pendingDeactivations ps raises t s

/-- `activate_pending_plugins`, `plugins/plugin_manager.py:241-253`; `oA`, `oD`: the orders in which the sets are emptied. -/
def activatePending (w : World) (ps : Objs) (raisesA raisesD : Str → Bool) (oA oD : List Str) (s : St) : Res × St :=
  match pendingActivations w ps raisesA oA s with
  | (.ok, s) => pendingDeactivations ps raisesD oD s
  | x => x

/-- `get_future_active_plugins`, `plugins/plugin_manager.py:95-105`: the names; `none`: a KeyError. -/
def futureActive (s : St) : Option (List Str) :=
  if s.pendAct.all (fun n => (dictGet n s.installed).isSome) then
    some ((s.pendAct.foldl (fun l n => setAdd n l) s.active).filter (fun n => !(s.pendDeact.contains n)))
  else none

/-- Operations of users. -- `plugins/plugin_manager.py:137,184,209,224,232,241,261` -/
inductive Op
  | install (o : Nat) (act later internal raises raisesD : Bool)
  | uninstall (r : Ref) (raises : Bool)
  | activate (r : Ref) (raises : Bool)
  | deactivate (r : Ref) (raises : Bool)
  | activateLater (r : Ref)
  | deactivateLater (r : Ref)
  | activatePending (raisesA raisesD : Str → Bool) (oA oD : List Str)

/-- One operation. -- `plugins/plugin_manager.py:137-274` -/
def Op.run (w : World) (ps : Objs) : Op → St → Res × St
  | .install o a l i r d, s => Plug.install w ps o a l i r d s
  | .uninstall r x, s => Plug.uninstall ps r x s
  | .activate r x, s => Plug.activate w ps r x s
  | .deactivate r x, s => Plug.deactivate ps r x s
  | .activateLater r, s => Plug.activateLater ps r s
  | .deactivateLater r, s => Plug.deactivateLater ps r s
  | .activatePending a d oA oD, s => Plug.activatePending w ps a d oA oD s

/-- A history of operations, each of which may raise. -- `plugins/plugin_manager.py:137-274` -/
def run (w : World) (ps : Objs) (ops : List Op) (s : St) : St := ops.foldl (fun s op => (op.run w ps s).2) s

/-! ## The context that restores the state -/

/-- The first loop when the context is left, `plugins/plugin_manager.py:52-53`: the plugins that were installed are installed again. -/
def reinstall (w : World) (ps : Objs) : List (Str × Nat × Bool) → St → Res × St
  | [], s => (.ok, s)
  | x :: t, s =>
    match install w ps x.2.1 false false false false false s with
    | (.ok, s) => reinstall w ps t s
    | e => e

/-- The second loop when the context is left, `plugins/plugin_manager.py:54-55`. -/
def reactivate (w : World) (ps : Objs) (raises : Str → Bool) : List Str → St → Res × St
  | [], s => (.ok, s)
  | n :: t, s =>
    match activate w ps (.name n) (raises n) s with
    | (.ok, s) => reactivate w ps raises t s
    | e => e

/-- The third loop when the context is left, `plugins/plugin_manager.py:56-57`. -/
def deactivateAll (ps : Objs) (raises : Str → Bool) : List Str → St → Res × St
  | [], s => (.ok, s)
  | n :: t, s =>
    match deactivate ps (.name n) (raises n) s with
    | (.ok, s) => deactivateAll ps raises t s
    | e => e

/-- The fourth loop when the context is left, `plugins/plugin_manager.py:58-59`. -/
def uninstallAll (ps : Objs) (raises : Str → Bool) : List Str → St → Res × St
  | [], s => (.ok, s)
  | n :: t, s =>
    match uninstall ps (.name n) (raises n) s with
    | (.ok, s) => uninstallAll ps raises t s
    | e => e

/-- `restoring_state_context`, the part after the block, `plugins/plugin_manager.py:45-59`; `prev`: the state at the beginning. The order of
the sets is that of the lists here. -/
def restore (w : World) (ps : Objs) (raisesA raisesD : Str → Bool) (prev : St) (s : St) : Res × St :=
  match reinstall w ps (prev.installed.filter (fun x => (dictGet x.1 s.installed).isNone)) s with
  | (.ok, s) =>
    match reactivate w ps raisesA (prev.active.filter (fun n => !(s.active.contains n))) s with
    | (.ok, s) =>
      match deactivateAll ps raisesD (s.active.filter (fun n => !(prev.active.contains n))) s with
      | (.ok, s) => uninstallAll ps raisesD ((s.installed.filter (fun x => (dictGet x.1 prev.installed).isNone)).map (·.1)) s
      | e => e
    | e => e
  | e => e

end Slash.Plug
