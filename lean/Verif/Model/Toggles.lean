/-!
# Which plugins are told that a session ends: `slash/plugins/plugin_manager.py:155-160,205-220,266-282,323-412`, `slash/core/session.py:112-145`

A plugin with a method `session_end` shall be told about the end of a session only if it was told about its start. To this end each plugin has
a toggle of the library `gossip`: the registration of `session_start` turns it on, that of `session_end` turns it off. A plugin with `session_end`
but no `session_start` gets a function that does nothing for `session_start`; it is registered without the token of the plugin.

Simplifications: plugins are numbers, each has at most one method for each of the two hooks. Of `gossip` the following is assumed: a
registration that turns a toggle off is called only while the toggle is on; a toggle is turned by the call, and the parameters `onIfRaises` and
`offIfRaises` say whether also by one that raises; `defer` is the policy for exceptions (`gossip.RaiseDefer`, `hooks.py:74`: all callbacks are
called, then the exception is raised; else the first exception ends the call of a hook); `orderS` and `orderE` are the order in which callbacks are
called, which `needs` and `provides` may change.
-/
namespace Slash.Tog

/-- A registration for `session_start`: a method of the plugin or, `noop`, the function of `plugin_manager.py:404-407`. -/
structure Reg where
  plugin : Nat
  noop : Bool
deriving DecidableEq, Repr

/-- What plugins have (`plugin_manager.py:396-401`) and what `gossip` does. -/
structure Env where
  hasStart : Nat → Bool
  hasEnd : Nat → Bool
  defer : Bool := true
  onIfRaises : Bool := false
  offIfRaises : Bool := true
  orderS : List Reg → List Reg := id
  orderE : List Nat → List Nat := id

/-- A call of a method of a plugin, `core/session.py:124,141`. -/
inductive Call where
  | start (p : Nat)
  | stop (p : Nat)
deriving DecidableEq, Repr

/-- The state: active plugins, registrations for both hooks, toggles that are on (`plugin_manager.py:157-160,219-220`). -/
structure St where
  active : List Nat := []
  starts : List Reg := []
  ends : List Nat := []
  on : List Nat := []
deriving DecidableEq, Repr

/-- What users do to plugins, `plugin_manager.py:205-220,266-282`. -/
inductive POp where
  | activate (p : Nat)
  | deactivate (p : Nat)
deriving DecidableEq, Repr

/-- The registrations of a plugin for `session_start`, `plugin_manager.py:396-407`. -/
def startRegs (env : Env) (p : Nat) : List Reg :=
  if env.hasStart p then [⟨p, false⟩] else if env.hasEnd p then [⟨p, true⟩] else []

/-- The registrations of a plugin for `session_end`, `plugin_manager.py:399-401`. -/
def endRegs (env : Env) (p : Nat) : List Nat := if env.hasEnd p then [p] else []

/-- `activate` and `deactivate`, `plugin_manager.py:205-220,266-282`. Unregistering a token leaves what was registered without one. -/
def POp.run (env : Env) : POp → St → St
  | .activate p, s => { s with active := if p ∈ s.active then s.active else s.active ++ [p], starts := s.starts ++ startRegs env p, ends := s.ends ++ endRegs env p }
  | .deactivate p, s =>
    if p ∈ s.active then
      { s with active := s.active.filter (· != p), starts := s.starts.filter (fun r => r.plugin != p || r.noop), ends := s.ends.filter (· != p) }
    else s

/-- Several such operations, `plugin_manager.py:205-220,266-282`. -/
def runOps (env : Env) (ops : List POp) (s : St) : St := ops.foldl (fun s op => op.run env s) s

/-- Calling the registrations of `session_start` in turn (`core/session.py:124`): the toggles that are on, the calls, and whether something raised. -/
def callStarts (env : Env) (raises : Nat → Bool) : List Reg → List Nat → List Nat × List Call × Bool
  | [], on => (on, [], false)
  | r :: rs, on =>
    let bad := !r.noop && raises r.plugin
    let on := if bad && !env.onIfRaises then on else if r.plugin ∈ on then on else on ++ [r.plugin]
    let call := if r.noop then [] else [Call.start r.plugin]
    if bad && !env.defer then (on, call, true)
    else
      let (on, calls, b) := callStarts env raises rs on
      (on, call ++ calls, bad || b)

/-- Calling the registrations of `session_end` in turn, `core/session.py:141`. -/
def callEnds (env : Env) (raises : Nat → Bool) : List Nat → List Nat → List Nat × List Call
  | [], on => (on, [])
  | p :: ps, on =>
    if p ∈ on then
      let on := if raises p && !env.offIfRaises then on else on.filter (· != p)
      if raises p && !env.defer then (on, [.stop p])
      else
        let (on, calls) := callEnds env raises ps on
        (on, .stop p :: calls)
    else callEnds env raises ps on

/-- A session: what is done to plugins before it; whether `before_session_start` raises; for which plugins `session_start` raises; what is done to plugins while it
is running; whether `after_session_start` raises (then the session does not run, but it is ended), `core/session.py:121-145`; for which plugins `session_end` raises. -/
structure Session where
  before : List POp := []
  beforeRaises : Bool := false
  startRaises : Nat → Bool := fun _ => false
  afterRaises : Bool := false
  during : List POp := []
  endRaises : Nat → Bool := fun _ => false

/-- `get_started_context`, `core/session.py:112-145`: the calls of the methods of plugins in this session. -/
def session (env : Env) (x : Session) (s : St) : St × List Call :=
  let s := runOps env x.before s
  if x.beforeRaises then (s, [])
  else
    let (on, calls, raised) := callStarts env x.startRaises (env.orderS s.starts) s.on
    let s := { s with on := on }
    if raised then (s, calls)
    else
      let s := if x.afterRaises then s else runOps env x.during s
      let (on, calls') := callEnds env x.endRaises (env.orderE s.ends) s.on
      ({ s with on := on }, calls ++ calls')

/-- Several sessions in one process, `core/session.py:112-145`. -/
def sessions (env : Env) (xs : List Session) (s : St) : St := xs.foldl (fun s x => (session env x s).1) s

end Slash.Tog
