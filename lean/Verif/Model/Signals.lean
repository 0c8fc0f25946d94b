/-!
# Signal handlers

`plugins/builtin/signal_handling.py`: the plugin installs the handlers registered by `register_handler` while it is active and puts back what was there
before. Signals and handlers are numbers. Code outside of the plugin that sets handlers is left out.
-/
namespace Slash.Signals

/-- A dictionary from signals to handlers, `signal_handling.py:13,51`. -/
abbrev Handlers := List (Nat × Nat)

/-- `d[k] = v` of a dictionary: an existing key keeps its place, `signal_handling.py:19,60`. -/
def Handlers.set : Handlers → Nat → Nat → Handlers
  | [], k, v => [(k, v)]
  | (a, b) :: d, k, v => if a = k then (k, v) :: d else (a, b) :: Handlers.set d k v

/-- `d.get(k)`, `signal_handling.py:19`. -/
def Handlers.get : Handlers → Nat → Option Nat
  | [], _ => none
  | (a, b) :: d, k => if a = k then some b else Handlers.get d k

/-- The handlers of the process, those registered, those of before (`signal_handling.py:13,51`), whether the plugin is active. -/
structure St where
  process : Nat → Nat
  registered : Handlers := []
  orig : Handlers := []
  active : Bool := false

/-- `_set_handler`, `signal_handling.py:56-60`. -/
def setHandler (st : St) (sig h : Nat) : St :=
  { st with orig := st.orig.set sig (st.process sig), process := fun s => if s = sig then h else st.process s }

/-- `register_handler`, `signal_handling.py:15-26`; `none`: there is no such signal. -/
def register (st : St) (sig : Option Nat) (h : Nat) : St :=
  match sig with
  | none => st
  | some sig =>
    let st := { st with registered := st.registered.set sig h }
    if st.active then setHandler st sig h else st

/-- `Plugin.activate`, `signal_handling.py:62-65`, called by `plugin_manager.py:219`. -/
def activate (st : St) : St :=
  { st.registered.foldl (fun st x => setHandler st x.1 x.2) st with active := true }

/-- `Plugin.deactivate`, `signal_handling.py:67-71`. -/
def deactivate (st : St) : St :=
  { st with process := st.orig.foldl (fun f x s => if s = x.1 then x.2 else f s) st.process, orig := [], active := false }

/-- What may happen (`signal_handling.py:15,62,67`). -/
inductive Op where
  | register (sig : Option Nat) (h : Nat) | activate | deactivate
deriving DecidableEq, Repr

/-- One of them, see `Op` (`signal_handling.py:15,62,67`). -/
def step (st : St) : Op → St
  | .register s h => register st s h
  | .activate => activate st
  | .deactivate => deactivate st

/-- A sequence of them (`signal_handling.py:15,62,67`). -/
def run (st : St) (ops : List Op) : St := ops.foldl step st

end Slash.Signals
