import Verif.Model.Log
/-!
# Indented output, detailed tracebacks, details of results

`utils/formatter.py`; `Error.get_detailed_traceback_str` (`core/error.py:131-156`); `core/details.py`. Left out: colours, streams that fail.
-/
namespace Slash.Fmt

/-- The stack of indentations (`formatter.py:13-14`), whether the current line is empty (74), the text written so far. -/
structure St where
  ind : List (List Char) := []
  empty : Bool := true
  out : List Char := []
deriving DecidableEq, Repr

/-- `LineTracker.write`, `formatter.py:76-79`. -/
def emit (st : St) (s : List Char) : St :=
  { st with out := st.out ++ s, empty := match s.getLast? with | none => st.empty | some c => c == '\n' }

/-- The loop over the lines of one argument, `formatter.py:34-39`. -/
def writeLines (st : St) : List (List Char) → St
  | [] => st
  | [l] => emit (if st.empty then emit st st.ind.flatten else st) l
  | l :: ls => writeLines (emit (emit (if st.empty then emit st st.ind.flatten else st) l) ['\n']) ls

/-- `write` with one argument, `formatter.py:24-43`. -/
def write (st : St) (text : List Char) (end_ : List Char) : St := emit (writeLines st (Log.splitLines [] text)) end_

/-- `_indent` with an increment that is not negative, `formatter.py:51-58`. -/
def indent (istr : List Char) (st : St) (n : Nat) (string : Option (List Char)) : St :=
  { st with ind := st.ind ++ List.replicate n (string.getD istr) }

/-- `_indent(-n)`, `formatter.py:51-58`: `del list[-n:]`, and nothing for `n = 0`. -/
def dedent (st : St) (n : Nat) : St := { st with ind := st.ind.take (st.ind.length - n) }

/-- A program that writes (`formatter.py:18-66`): `writeln`, `write`, a block `with formatter.indented(n, string)`, raising an exception. -/
inductive Prog where
  | done
  | raise
  | writeln (text : List Char) (rest : Prog)
  | write (text : List Char) (rest : Prog)
  | block (n : Nat) (string : Option (List Char)) (body rest : Prog)

/-- Running it, `formatter.py:21-66`; the flag tells that an exception is raised. -/
def run (istr : List Char) : Prog → St → St × Bool
  | .done, st => (st, false)
  | .raise, st => (st, true)
  | .writeln t rest, st => run istr rest (Fmt.write st t ['\n'])
  | .write t rest, st => run istr rest (Fmt.write st t [])
  | .block n s body rest, st =>
    match run istr body (indent istr st n s) with
    | (st, true) => (dedent st n, true)
    | (st, false) => run istr rest (dedent st n)

/-! ## Detailed tracebacks -/

/-- A frame: its global and local variables (`core/error.py:139-143`). -/
structure Frame where
  globals : List String := []
  locals : List String := []
deriving DecidableEq, Repr

/-- A line of a detailed traceback, `core/error.py:137-152`. -/
inductive Line where
  | header | file (i : Nat) | code (i : Nat) | title (i : Nat) (globals : Bool) | var (i : Nat) (globals : Bool) (name : String)
deriving DecidableEq, Repr

/-- The variables of one kind, `core/error.py:148-152`, written at depth `d`; the depth afterwards. -/
def varLines (i : Nat) (globals : Bool) (d : Nat) (vars : List String) : List (Nat × Line) × Nat :=
  match vars with
  | [] => ([], d)
  | _ => ((d, .title i globals) :: vars.map (fun v => (d + 1, .var i globals v)), d + 1)

/-- One frame, `core/error.py:139-153`: `f.dedent()` in 153 is done once, whatever has been indented. -/
def frameLines (i : Nat) (d : Nat) (f : Frame) : List (Nat × Line) × Nat :=
  match varLines i true (d + 2) f.globals with
  | (g, d1) =>
    match varLines i false d1 f.locals with
    | (l, d2) => ((d, .file i) :: (d + 1, .code i) :: g ++ l, d2 - 1 - 1 - 1)

/-- The frames, `core/error.py:139`. -/
def framesLines (i : Nat) (d : Nat) : List Frame → List (Nat × Line)
  | [] => []
  | f :: fs => (frameLines i d f).1 ++ framesLines (i + 1) (frameLines i d f).2 fs

/-- `get_detailed_traceback_str`, `core/error.py:131-156`: the lines with the number of their indentations. -/
def detailed (fs : List Frame) : List (Nat × Line) := (0, .header) :: framesLines 0 1 fs

/-! ## Details -/

/-- The value of a detail: something that is no list, or a list, by reference (`core/details.py:13,18`). -/
inductive Val where
  | atom (n : Nat) | list (r : Nat)
deriving DecidableEq, Repr

/-- The dictionary (`core/details.py:5`), the lists, whether there is a callback (6; for facts there is one, `core/result.py:43-44`), what it has been called with. -/
structure DSt where
  dict : List (String × Val) := []
  lists : List (List Nat) := []
  cb : Bool := true
  calls : List (String × (Nat ⊕ List Nat)) := []
deriving DecidableEq, Repr

/-- What one sees of a value (`core/details.py:13,21`). -/
def DSt.see (st : DSt) : Val → Nat ⊕ List Nat
  | .atom n => .inl n
  | .list r => .inr (st.lists.getD r [])

/-- `dict[key] = v`, `core/details.py:13,18`. -/
def put (d : List (String × Val)) (key : String) (v : Val) : List (String × Val) :=
  if d.any (fun x => x.1 == key) then d.map (fun x => if x.1 = key then (key, v) else x) else d ++ [(key, v)]

/-- `dict.get(key)`, `core/details.py:18`. -/
def look (d : List (String × Val)) (key : String) : Option Val := (d.find? (fun x => x.1 == key)).map (·.2)

/-- How a call ends (`core/details.py:12,20,23`). -/
inductive End where
  | ok | typeError | callback
deriving DecidableEq, Repr

/-- Calling the callback, if there is one, `core/details.py:11-12,22-23`. -/
def DSt.call (st : DSt) (key : String) (value : Nat ⊕ List Nat) : DSt :=
  if st.cb then { st with calls := st.calls ++ [(key, value)] } else st

/-- `self._details[key] = value`, `core/details.py:13`. -/
def store (st : DSt) (key : String) : Nat ⊕ List Nat → DSt
  | .inl n => { st with dict := put st.dict key (.atom n) }
  | .inr l => { st with dict := put st.dict key (.list st.lists.length), lists := st.lists ++ [l] }

/-- `set`, `core/details.py:8-13`, with a value that is not a list or with a list that nothing else refers to; `raises`: the callback raises. -/
def set (st : DSt) (key : String) (value : Nat ⊕ List Nat) (raises : Bool) : DSt × End :=
  if st.cb && raises then (st.call key value, .callback) else (store (st.call key value) key value, .ok)

/-- `lst.append(value)`, `core/details.py:21`. -/
def push (st : DSt) (r : Nat) (value : Nat) : DSt := { st with lists := st.lists.modify r (· ++ [value]) }

/-- The end of `append`, `core/details.py:21-23`. -/
def appendTo (st : DSt) (key : String) (r : Nat) (value : Nat) (raises : Bool) : DSt × End :=
  ((push st r value).call key ((push st r value).see (.list r)), if st.cb && raises then .callback else .ok)

/-- `append`, `core/details.py:15-23`. -/
def append (st : DSt) (key : String) (value : Nat) (raises : Bool) : DSt × End :=
  match look st.dict key with
  | some (.atom _) => (st, .typeError)
  | some (.list r) => appendTo st key r value raises
  | none => appendTo { st with dict := put st.dict key (.list st.lists.length), lists := st.lists ++ [[]] } key st.lists.length value raises

/-- `all`, `core/details.py:25-26`: a copy of the dictionary; lists are shared. -/
def all (st : DSt) : List (String × Val) := st.dict

/-- A use of details or facts (`core/details.py:8,15`). -/
inductive DOp where
  | set (key : String) (value : Nat ⊕ List Nat) (raises : Bool)
  | append (key : String) (value : Nat) (raises : Bool)
deriving DecidableEq, Repr

/-- One of them (`core/details.py:8,15`). -/
def dstep (st : DSt) : DOp → DSt
  | .set k v r => (set st k v r).1
  | .append k v r => (append st k v r).1

/-- A sequence of them (`core/details.py:8,15`). -/
def drun (st : DSt) (ops : List DOp) : DSt := ops.foldl dstep st

end Slash.Fmt
