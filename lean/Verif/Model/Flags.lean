import Verif.Model.ConfigOverride
/-!
# Options of configuration values on the command line (`slash/utils/conf_utils.py:20-88`, `slash/utils/cli_utils.py:35-66`,
`slash/app.py:116-122`)

`argparse` splits the command line into occurrences of options and positional arguments; that split (abbreviations, `-vv`,
`--x=y`, `--`) is not modelled: the command line is the list of occurrences. Modelled of `argparse`: option strings must be
different (`ArgumentError` otherwise), the actions `store`, `append` and `append_const`, that an option with an argument
needs one and a flag takes none, required options, unknown options being left over (`parse_known_args`). Grouping of the
options of plugins (`cli_utils.py:46-54`) only changes the help text. Options of plugins themselves and `-h` are names that
are taken before.
-/
namespace Slash.Flags
open Slash.Cfg

/-- Values of the configuration (`conf.py:8-144`) and of arguments. -/
inductive Val where
  | none
  | bool (b : Bool)
  | int (n : Int)
  | str (s : Str)
  | list (l : List Str)
deriving DecidableEq, Repr

/-- The callbacks of flags, `conf_utils.py:7-17`. -/
inductive Cb where
  | setTrue | setFalse | increase | decrease
deriving DecidableEq, Repr

/-- What a callback does to a value, `conf_utils.py:7-17`; `none`: TypeError. -/
def Cb.apply : Cb → Val → Option Val
  | .setTrue, _ => some (.bool true)
  | .setFalse, _ => some (.bool false)
  | .increase, .int n => some (.int (n + 1))
  | .increase, .bool b => some (.int (b.toInt + 1))
  | .increase, _ => Option.none
  | .decrease, .int n => some (.int (n - 1))
  | .decrease, .bool b => some (.int (b.toInt - 1))
  | .decrease, _ => Option.none

/-- `Cmdline(...)` on a leaf of the configuration, `conf_utils.py:20-37`, with the path of the leaf
(`cli_utils.py:61-66`). -/
structure Decl where
  path : Str
  arg : Option Str := Option.none
  append : Option Str := Option.none
  on : Option Str := Option.none
  off : Option Str := Option.none
  increase : Option Str := Option.none
  decrease : Option Str := Option.none
  required : Bool := false
deriving DecidableEq, Repr

/-- The actions of `argparse` in use, `conf_utils.py:47-60,72`, `cli_utils.py:41-45`. -/
inductive Action where
  | store | append | const (c : Cb) | override
deriving DecidableEq, Repr

/-- An option of the parser: its name, the number of the declaration its destination belongs to (`conf_utils.py:24-26`),
its action (47-72). -/
structure Opt where
  flag : Str
  dest : Nat
  action : Action
deriving DecidableEq, Repr

/-- `configure_parser`, `conf_utils.py:42-72`: the options of a declaration in order; the number stands for the destination
drawn from the generator (24). -/
def options (i : Nat) (d : Decl) : List Opt :=
  let opt (f : Option Str) (a : Action) : List Opt := f.toList.map (fun f => ⟨f, i, a⟩)
  opt d.arg .store ++ opt d.append .append ++ opt d.on (.const .setTrue) ++ opt d.off (.const .setFalse) ++
    opt d.increase (.const .increase) ++ opt d.decrease (.const .decrease)

/-- `add_argument` of `argparse`, called in `conf_utils.py:47,54,72` and `cli_utils.py:41`: a name must not be taken. -/
def addOption (o : Opt) (os : List Opt) (taken : List Str) : Option (List Opt) :=
  if o.flag ∈ taken ∨ o.flag ∈ os.map (·.flag) then Option.none else some (os ++ [o])

/-- Adding options one after the other, `cli_utils.py:46-55`. -/
def addOptions (taken : List Str) : List Opt → List Opt → Option (List Opt)
  | [], os => some os
  | o :: more, os => (addOption o os taken).bind (addOptions taken more)

/-- The declarations with their numbers, `conf_utils.py:4,24`. -/
def numbered (ds : List Decl) : List (Nat × Decl) := (List.range ds.length).zip ds

/-- `configure_arg_parser_by_config`, `cli_utils.py:35-55`; `taken`: names of options added before. -/
def configure (taken : List Str) (ds : List Decl) : Option (List Opt) :=
  addOptions taken (⟨"-o".toList, 0, .override⟩ :: (numbered ds).flatMap (fun p => options p.1 p.2)) []

/-- An occurrence of an option on the command line, `app.py:116`. -/
structure Occ where
  flag : Str
  value : Option Str := Option.none
deriving DecidableEq, Repr

/-- The parsed arguments, `app.py:116`: values by destination (`conf_utils.py:78,84`), overrides (`cli_utils.py:83`), and
what is left over as positional arguments. -/
structure Args where
  args : Nat → Option Val := fun _ => Option.none
  callbacks : Nat → List Cb := fun _ => []
  overrides : List Str := []
  rest : List Occ := []

/-- The action of an option given on the command line (`app.py:116`, `conf_utils.py:47-72`); `none`: an error. -/
def act (o : Opt) (v : Option Str) (a : Args) : Option Args :=
  match o.action, v with
  | .store, some v => some { a with args := fun j => if j = o.dest then some (.str v) else a.args j }
  | .append, some v =>
    match a.args o.dest with
    | Option.none => some { a with args := fun j => if j = o.dest then some (.list [v]) else a.args j }
    | some (.list l) => some { a with args := fun j => if j = o.dest then some (.list (l ++ [v])) else a.args j }
    | some _ => Option.none
  | .const c, Option.none =>
    some { a with callbacks := fun j => if j = o.dest then a.callbacks j ++ [c] else a.callbacks j }
  | .override, some v => some { a with overrides := a.overrides ++ [v] }
  | _, _ => Option.none

/-- `parse_known_args`, `app.py:116`. -/
def parse (os : List Opt) : List Occ → Args → Option Args
  | [], a => some a
  | x :: xs, a =>
    match os.find? (fun o => o.flag = x.flag) with
    | Option.none => parse os xs { a with rest := a.rest ++ [x] }
    | some o => (act o x.value a).bind (parse os xs)

/-- `required=True`, `conf_utils.py:51`: whether such an option of a declaration is missing. -/
def missing (ds : List Decl) (xs : List Occ) : Bool :=
  ds.any (fun d => d.required && (match d.arg with
    | some f => !xs.any (fun x => x.flag = f)
    | Option.none => false))

/-- `list(value) + arg_value`, `conf_utils.py:81`; `none`: TypeError. -/
def listPlus : Val → Val → Option Val
  | .list l, .list m => some (.list (l ++ m))
  | .str s, .list m => some (.list (s.map (fun c => [c]) ++ m))
  | _, _ => Option.none

/-- What the parsed arguments say about the leaf of a declaration, `conf_utils.py:74-84`. -/
def cmdOf (a : Args) (p : Nat × Decl) : Cmd Val :=
  { path := p.2.path, arg := a.args p.1, append := p.2.append.map (fun _ => listPlus), callbacks := (a.callbacks p.1).map Cb.apply }

/-- What comes of a command line (`app.py:116-122`): two options of the same name, an error of the parser, or the
positional arguments and the context of the configuration. -/
inductive Outcome where
  | conflict
  | usage
  | ran (rest : List Occ) (out : Out Val)

/-- Parsing the command line and running a block with the configuration it stands for, `app.py:116-122`,
`cli_utils.py:35-95`. -/
def run (env : Env Val) (taken : List Str) (ds : List Decl) (xs : List Occ) (body : Config Val → Option Err × Config Val)
    (cfg : Config Val) : Outcome :=
  match configure taken ds with
  | Option.none => .conflict
  | some os =>
    match parse os xs {} with
    | Option.none => .usage
    | some a =>
      if missing ds xs then .usage
      else .ran a.rest (context env ((numbered ds).map (cmdOf a)) a.overrides body cfg)

end Slash.Flags
