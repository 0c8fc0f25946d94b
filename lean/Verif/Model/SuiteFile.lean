import Verif.Model.Pattern
/-!
# Suite files (`slash/utils/suite_files.py`)

Strings are `List Char`. Raising (a file that can not be opened, a repeat count that is not a number, a filter that is
not well-formed, too deep recursion) is `none`; generators are consumed to the end by the caller
(`frontend/slash_run.py:124`), so a raising one gives nothing. Recursion is bounded by a fuel; Python's is bounded by the
recursion limit.
-/
namespace Slash.Suite
open Slash.Pat (M matcher andMatchers isIn)

/-- Strings (`suite_files.py:14-66`). -/
abbrev Str := List Char

/-- Whitespace removed by `str.strip` (`suite_files.py:15,55,61`), restricted to ASCII. -/
def isWs (c : Char) : Bool := c = ' ' || c = '\t' || c = '\n' || c = '\r' || c = '\x0b' || c = '\x0c'

/-- `str.strip()`, `suite_files.py:15,55,61`. -/
def strip (s : Str) : Str := ((s.dropWhile isWs).reverse.dropWhile isWs).reverse

/-- `str.startswith`, `suite_files.py:16,62,64`. -/
def startsWith (s p : Str) : Bool := p.isPrefixOf s

/-- `str.split(c)` for one character, `suite_files.py:56`. -/
def splitOn (c : Char) : Str → List Str
  | [] => [[]]
  | x :: xs =>
    match splitOn c xs with
    | [] => [[x]]
    | y :: ys => if x = c then [] :: y :: ys else (x :: y) :: ys

/-- `s.split(c, 1)[1]` for a string that has the character, `suite_files.py:54,63,65`. -/
def afterFirst (c : Char) (s : Str) : Str := (s.dropWhile (· ≠ c)).drop 1

/-- `s.split(c, 1)[0]`, `suite_files.py:54`. -/
def beforeFirst (c : Char) (s : Str) : Str := s.takeWhile (· ≠ c)

/-- What the code asks from its environment: the lines of a file (`open`, `suite_files.py:13-14`), directories (25, 36),
all entities below a directory (37), resolution of a relative path against the directory of the suite file (12, 23)
and `int` (65). -/
structure Env where
  lines : Str → Option (List Str)
  isDir : Str → Bool
  rglob : Str → List Str
  rel : Str → Str → Str
  int : Str → Option Int

/-- `'filter:'`, `suite_files.py:62`. -/
def kwFilter : Str := ['f', 'i', 'l', 't', 'e', 'r', ':']
/-- `'repeat:'`, `suite_files.py:64`. -/
def kwRepeat : Str := ['r', 'e', 'p', 'e', 'a', 't', ':']
/-- `'.py'`, `suite_files.py:25`. -/
def pyExt : Str := ['.', 'p', 'y']
/-- `'.py:'`, `suite_files.py:25`. -/
def pyColon : Str := ['.', 'p', 'y', ':']

/-- The loop over the directives of a line, `suite_files.py:60-65`. -/
def parseParts (env : Env) : List Str → Option M → Int → Option (Option M × Int)
  | [], m, k => some (m, k)
  | r :: rs, m, k =>
    let r := strip r
    match (if startsWith r kwFilter then (matcher (afterFirst ':' r)).map some else some m) with
    | none => none
    | some m =>
      match (if startsWith r kwRepeat then env.int (afterFirst ':' r) else some k) with
      | none => none
      | some k => parseParts env rs m k

/-- `_parse_path_filter_and_repeat`, `suite_files.py:50-66`. -/
def parseEntry (env : Env) (line : Str) : Option (Str × Option M × Int) :=
  if '#' ∉ line then some (line, none, 1)
  else (parseParts env (splitOn ',' (afterFirst '#' line)) none 1).map (fun r => (strip (beforeFirst '#' line), r))

/-- The condition of `suite_files.py:25`: the path names another suite file. -/
def isSuite (env : Env) (path : Str) : Bool :=
  !pyExt.isSuffixOf path && !isIn pyColon path && !env.isDir path

/-- `suite_files.py:22-23`; `os.path.isabs`. -/
def resolve (env : Env) (file path : Str) : Str := if path.head? = some '/' then path else env.rel file path

/-- One line of a suite file, `suite_files.py:15-31`; `nested` is the recursive call of line 26. -/
def iterLine (env : Env) (nested : Str → Option (List (Str × Option M))) (file line : Str) :
    Option (List (Str × Option M)) :=
  let line := strip line
  if line.isEmpty || startsWith line ['#'] then some []
  else
    match parseEntry env line with
    | none => none
    | some (path, m, rep) =>
      let path := resolve env file path
      if isSuite env path then (nested path).map (fun l => l.map (fun p => (p.1, andMatchers m p.2)))
      else some (List.replicate rep.toNat (path, m))

/-- The loop over the lines, `suite_files.py:14-31`. -/
def iterLines (env : Env) (nested : Str → Option (List (Str × Option M))) (file : Str) :
    List Str → Option (List (Str × Option M))
  | [] => some []
  | l :: ls =>
    match iterLine env nested file l with
    | none => none
    | some a =>
      match iterLines env nested file ls with
      | none => none
      | some b => some (a ++ b)

/-- The body of the loop over files, `suite_files.py:12-31`. The nested call is for one path which is not a directory, so
that `_extract_suite_files` gives just that path. -/
def iterFile (env : Env) : Nat → Str → Option (List (Str × Option M))
  | 0, _ => none
  | n + 1, file =>
    match env.lines file with
    | none => none
    | some ls => iterLines env (iterFile env n) file ls

/-- Yielding what each element gives, `suite_files.py:11,35,37`. -/
def concat {α β : Type} (f : α → Option (List β)) : List α → Option (List β)
  | [] => some []
  | e :: es =>
    match f e with
    | none => none
    | some a =>
      match concat f es with
      | none => none
      | some b => some (a ++ b)

/-- `_extract_suite_files`, `suite_files.py:34-39`: everything that is below a directory (at any depth) is extracted in
turn. -/
def extract (env : Env) : Nat → List Str → Option (List Str)
  | 0 => fun _ => none
  | n + 1 => concat (fun e => if env.isDir e then extract env n (env.rglob e) else some [e])

/-- `iter_suite_file_paths`, `suite_files.py:10-31`. -/
def iterPaths (env : Env) (n : Nat) (suiteFiles : List Str) : Option (List (Str × Option M)) :=
  match extract env n suiteFiles with
  | none => none
  | some fs => concat (iterFile env n) fs

end Slash.Suite
