/-!
# Imports from `slash.ext`: `exthook.py`
-/
namespace Slash.Ext

/-- Python strings. (`exthook.py:21`) -/
abbrev Str := List Char

/-- `sys.modules`: names and modules. (`exthook.py:41-42`) -/
abbrev Mods := List (Str × Nat)

/-- Lookup in a dictionary, `exthook.py:41-42`. -/
def get (n : Str) (m : Mods) : Option Nat := (m.find? (fun x => x.1 == n)).map (·.2)

/-- `dict.pop`, `exthook.py:60`. -/
def pop (n : Str) (m : Mods) : Mods := m.filter (fun x => x.1 != n)

/-- Assignment in a dictionary, `exthook.py:68`. -/
def set (n : Str) (v : Nat) (m : Mods) : Mods := (n, v) :: pop n m

/-- A frame of a traceback: `__name__` of its globals, the absolute name of its file, `exthook.py:88-102`. -/
structure Frame where
  name : Option Str
  file : Str
deriving DecidableEq, Repr

/-- How an import ends, `exthook.py:46-49`: with the frames of an `ImportError`, or another exception. -/
inductive Imp
  | ok
  | importError (frames : List Frame)
  | other
deriving DecidableEq, Repr

/-- `t in s`, `exthook.py:103-104`. -/
def within (t : Str) : Str → Bool
  | [] => t.isEmpty
  | c :: s => t.isPrefixOf (c :: s) || within t s

/-- `is_important_frame`, `exthook.py:86-105`. -/
def importantFrame (real : Str) (f : Frame) : Bool :=
  match f.name with
  | none => false
  | some n =>
    if n == real then true
    else
      let test := '/' :: real.map (fun c => if c = '.' then '/' else c)
      within (test ++ ".py".toList) f.file || within (test ++ "/__init__.py".toList) f.file

/-- `is_important_traceback`, `exthook.py:74-84`. -/
def important (real : Str) (frames : List Frame) : Bool := frames.any (importantFrame real)

/-- `fullname.split('.', n)[n]`, `exthook.py:43`; `none`: an `IndexError`. -/
def afterDots : Nat → Str → Option Str
  | 0, s => some s
  | _ + 1, [] => none
  | n + 1, c :: s => if c = '.' then afterDots n s else afterDots (n + 1) s

/-- `find_module`, `exthook.py:36-38`, whether the importer is responsible. -/
def finds (wrapper fullname : Str) : Bool := (wrapper ++ ['.']).isPrefixOf fullname

/-- How `load_module` ends, `exthook.py:40-72`. -/
inductive Loaded
  | module (m : Nat)
  | noModule
  | reraised (frames : List Frame)
  | other
  | lookupError
deriving DecidableEq, Repr

/-- The state: `sys.modules`, attributes of the wrapper module, the modules imported so far (`exthook.py:40-72`). -/
structure St where
  mods : Mods := []
  attrs : Mods := []
  imports : List Str := []
deriving DecidableEq, Repr

/-- The loop of `load_module`, `exthook.py:44-72`; `imp` is `__import__`, which runs code that may do anything to `sys.modules`; choices are templates. -/
def loadLoop (imp : Str → Mods → Imp × Mods) (fullname modname : Str) : List (Str → Str) → St → Loaded × St
  | [], s => (.noModule, s)
  | path :: choices, s =>
    let real := path modname
    let (r, mods) := imp real s.mods
    let s := { s with mods := mods, imports := s.imports ++ [real] }
    match r with
    | .importError frames =>
      let s := { s with mods := pop fullname s.mods }
      if important real frames then (.reraised frames, s) else loadLoop imp fullname modname choices s
    | .other => (.other, s)
    | .ok =>
      match get real s.mods with
      | none => (.lookupError, s)
      | some m =>
        let s := { s with mods := set fullname m s.mods }
        (.module m, if modname.contains '.' then s else { s with attrs := set modname m s.attrs })

/-- `load_module`, `exthook.py:40-72`. -/
def load (imp : Str → Mods → Imp × Mods) (wrapper : Str) (choices : List (Str → Str)) (fullname : Str) (s : St) : Loaded × St :=
  match get fullname s.mods with
  | some m => (.module m, s)
  | none =>
    match afterDots (wrapper.count '.' + 1) fullname with
    | none => (.lookupError, s)
    | some modname => loadLoop imp fullname modname choices s

/-- `install`, `exthook.py:33-34`; `same x`: equal to this importer (`exthook.py:24-31`). -/
def install {α : Type} (same : α → Bool) (self : α) (path : List α) : List α := path.filter (fun x => !same x) ++ [self]

end Slash.Ext
