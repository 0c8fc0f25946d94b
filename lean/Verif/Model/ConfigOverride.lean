/-!
# Configuration overrides from the command line (`slash/utils/cli_utils.py:68-95`, `slash/utils/conf_utils.py:74-88`)

The configuration is the map from the paths of leaves to values (`confetti` is not modelled; assigning to the path of a
whole section is not covered). Conversion of a new value to the type of the old one (`deduce_type=True`) is a parameter
which may fail with ValueError or otherwise. Assigning a value that was read from the same path, without conversion
(line 95), succeeds.
-/
namespace Slash.Cfg

/-- Paths and texts (`cli_utils.py:84-87`). -/
abbrev Str := List Char

/-- The configuration: values of leaves, `cli_utils.py:75,87`. -/
abbrev Config (V : Type) := Str → Option V

/-- Assignment to a path, `cli_utils.py:80,89,95`. -/
def assign {V : Type} (c : Config V) (p : Str) (v : V) : Config V := fun q => if q = p then some v else c q

/-- Outcome of the conversion of a value, `cli_utils.py:80-81,89-90`. -/
inductive Conv (V : Type) where
  | ok (v : V)
  | valueError
  | otherError

/-- What is raised, `cli_utils.py:82,85,91`: SystemExit by `parser.error`, or another exception. -/
inductive Err where
  | systemExit | other
deriving DecidableEq, Repr

/-- A leaf that has a command line option (`cli_utils.py:61-66`) with what the command line says about it: the argument
(`conf_utils.py:78`), how it is appended if it is an option of this kind (80-81) and the callbacks of the flags given
(84). -/
structure Cmd (V : Type) where
  path : Str
  arg : Option V := none
  append : Option (V → V → Option V) := none
  callbacks : List (V → Option V) := []

/-- The callbacks in turn, `conf_utils.py:86-87`. -/
def runCallbacks {V : Type} : List (V → Option V) → V → Option V
  | [], v => some v
  | f :: fs, v => (f v).bind (runCallbacks fs)

/-- `_Cmdline.update_value`, `conf_utils.py:74-88`; `none`: an exception. -/
def updateValue {V : Type} (cmd : Cmd V) (v : V) : Option V :=
  match cmd.arg with
  | none => runCallbacks cmd.callbacks v
  | some a =>
    match cmd.append with
    | none => runCallbacks cmd.callbacks a
    | some f => (f v a).bind (runCallbacks cmd.callbacks)

/-- Parameters: conversion of values from options and of texts from overrides to the type of the old value,
`cli_utils.py:80,89`. -/
structure Env (V : Type) where
  deduce : V → V → Conv V
  deduceText : V → Str → Conv V

/-- The list of what to restore and the configuration (`cli_utils.py:72`). -/
structure St (V : Type) where
  toRestore : List (Str × V)
  cfg : Config V

/-- An assignment with conversion that is recorded before, `cli_utils.py:78-82,87-91`. -/
def recordAssign {V : Type} (p : Str) (old : V) (r : Conv V) (st : St V) : Option Err × St V :=
  let st := { st with toRestore := st.toRestore ++ [(p, old)] }
  match r with
  | .ok v => (none, { st with cfg := assign st.cfg p v })
  | .valueError => (some .systemExit, st)
  | .otherError => (some .other, st)

/-- The body of the loop over leaves with options, `cli_utils.py:74-82`. -/
def applyCmd {V : Type} [DecidableEq V] (env : Env V) (cmd : Cmd V) (st : St V) : Option Err × St V :=
  match st.cfg cmd.path with
  | none => (some .other, st)
  | some old =>
    match updateValue cmd old with
    | none => (some .other, st)
    | some new => if new ≠ old then recordAssign cmd.path old (env.deduce old new) st else (none, st)

/-- The body of the loop over overrides, `cli_utils.py:83-91`. -/
def applyOverride {V : Type} (env : Env V) (o : Str) (st : St V) : Option Err × St V :=
  if '=' ∉ o then (some .systemExit, st)
  else
    let p := o.takeWhile (· ≠ '=')
    match st.cfg p with
    | none => (some .other, st)
    | some old => recordAssign p old (env.deduceText old ((o.dropWhile (· ≠ '=')).drop 1)) st

/-- A loop that stops at the first exception, `cli_utils.py:74,83`. -/
def loop {A V : Type} (f : A → St V → Option Err × St V) : List A → St V → Option Err × St V
  | [], st => (none, st)
  | a :: as, st =>
    match f a st with
    | (some e, st) => (some e, st)
    | (none, st) => loop f as st

/-- Everything before the `yield`, `cli_utils.py:72-91`. -/
def applyAll {V : Type} [DecidableEq V] (env : Env V) (cmds : List (Cmd V)) (os : List Str) (cfg : Config V) :
    Option Err × St V :=
  match loop (applyCmd env) cmds ⟨[], cfg⟩ with
  | (some e, st) => (some e, st)
  | (none, st) => loop (applyOverride env) os st

/-- The `finally` block, `cli_utils.py:93-95`: last recorded value first. -/
def restore {V : Type} (l : List (Str × V)) (c : Config V) : Config V := l.foldr (fun x c => assign c x.1 x.2) c

/-- What is seen from outside of the context (`cli_utils.py:92`): whether the block was entered, with the configuration it
saw; what was raised; the configuration afterwards. -/
structure Out (V : Type) where
  entered : Option (Config V)
  err : Option Err
  cfg : Config V

/-- `get_modified_configuration_from_args_context` around a block, `cli_utils.py:68-95`. The block may change the
configuration and may raise. -/
def context {V : Type} [DecidableEq V] (env : Env V) (cmds : List (Cmd V)) (os : List Str)
    (body : Config V → Option Err × Config V) (cfg : Config V) : Out V :=
  match applyAll env cmds os cfg with
  | (some e, st) => ⟨none, some e, restore st.toRestore st.cfg⟩
  | (none, st) => ⟨some st.cfg, (body st.cfg).1, restore st.toRestore (body st.cfg).2⟩

end Slash.Cfg
