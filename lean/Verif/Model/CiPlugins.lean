/-!
# Plugins `ci links` and `coverage`: `slash/plugins/builtin/ci_links.py`, `slash/plugins/builtin/coverage.py`

Strings are lists of characters. Simplifications: of `%` formatting with a mapping, `%(name)s` and `%%` are modelled, everything else is an error
(other conversions are not used by documented templates). What the package `coverage` does is a parameter; `config_filename`, `append`, `sources`
are passed on to it.
-/
namespace Slash.Ci

/-- Strings, `ci_links.py:15-19`. -/
abbrev Str := List Char

/-- `str.rstrip('/')`, `ci_links.py:32`. -/
def rstripSlash (s : Str) : Str := (s.reverse.dropWhile (· == '/')).reverse

/-- `_get_build_url`, `ci_links.py:21-33`; `env`: the environment variable. -/
def buildUrl (env : Option Str) : Option Str := env.map rstripSlash

/-- `'/'.join(path.split(os.sep))`, `ci_links.py:43`. -/
def slashes (sep : Char) (path : Str) : Str := path.map fun c => if c = sep then '/' else c

/-- Where `%` formatting is, `ci_links.py:41-43`: in text, after `%`, in a name, after the name. -/
inductive Mode
  | text
  | percent
  | name (n : Str)
  | conv (n : Str)

/-- `template % mapping`, `ci_links.py:41-43`; `none` is an exception. -/
def format (f : Str → Option Str) : Mode → Str → Option Str
  | .text, [] => some []
  | _, [] => none
  | .text, c :: t => if c = '%' then format f .percent t else (format f .text t).map (c :: ·)
  | .percent, c :: t => if c = '%' then (format f .text t).map ('%' :: ·) else if c = '(' then format f (.name []) t else none
  | .name n, c :: t => if c = ')' then format f (.conv n) t else format f (.name (n ++ [c])) t
  | .conv n, c :: t =>
    if c = 's' then
      match f n with
      | none => none
      | some v => (format f .text t).map (v ++ ·)
    else none

/-- The mapping, `ci_links.py:42-43`. -/
def mapping (url path : Str) (n : Str) : Option Str :=
  if n = "build_url".toList then some url else if n = "log_path".toList then some path else none

/-- The default template, `ci_links.py:18`. -/
def defaultTemplate : Str := "%(build_url)s/artifact/%(log_path)s".toList

/-- What the hook does to the details of the test: nothing, a link, or it raises (`ci_links.py:35-44`). -/
inductive Effect
  | nothing
  | link (l : Str)
  | raises
deriving DecidableEq, Repr

/-- `test_end`, `ci_links.py:35-44`; `log`: `get_log_path()`, `none` for tests without a log file, which has no `split`. -/
def testEnd (template : Str) (sep : Char) (env : Option Str) (log : Option Str) : Effect :=
  match buildUrl env with
  | none => .nothing
  | some url =>
    match log with
    | none => .raises
    | some path =>
      match format (mapping url (slashes sep path)) .text template with
      | none => .raises
      | some l => .link l

/-! ## Coverage -/

/-- `str.split(',')`, `coverage.py:47`. -/
def splitComma : Str → Str → List Str
  | acc, [] => [acc]
  | acc, c :: t => if c = ',' then acc :: splitComma [] t else splitComma (acc ++ [c]) t

/-- The kinds of reports, `coverage.py:48-51`. -/
inductive Rep
  | html
  | xml
deriving DecidableEq, Repr

/-- One name of a report type, `coverage.py:48-53`; `none`: unknown. -/
def repOf (n : Str) : Option Rep :=
  if n = "html".toList then some .html else if n = "xml".toList then some .xml else none

/-- The loop of `activate`, `coverage.py:46-53`; `none`: the plugin is not activated. -/
def reporters (types : Str) : Option (List Rep) := (splitComma [] types).mapM repOf

/-- Which session this is, `utils/parallel_utils.py:3-12`. -/
inductive Role
  | alone
  | parent
  | child (worker : Str)
deriving DecidableEq, Repr

/-- The name of the file of data, `coverage.py:9,36-38`. -/
def dataFile : Role → Str
  | .child w => ".coverage".toList ++ '.' :: w
  | _ => ".coverage".toList

/-- An exception of the package: whether it is a `CoverageException`, and its message. `coverage.py:69-70`. -/
structure CovExc where
  coverage : Bool
  msg : Str
deriving DecidableEq, Repr

/-- `p in s`, `coverage.py:70`. -/
def hasInfix (p : Str) : Str → Bool
  | [] => p.isEmpty
  | c :: t => p.isPrefixOf (c :: t) || hasInfix p t

/-- `'no data' in str(e).lower()`, `coverage.py:70`. -/
def noData (msg : Str) : Bool := hasInfix "no data".toList (msg.map Char.toLower)

/-- Calls of the package, `coverage.py:59-68`. -/
inductive Call
  | stop
  | save
  | combine
  | report (r : Rep)
deriving DecidableEq, Repr

/-- What combining (for the n-th time) and reporting raise, `coverage.py:66-68`. -/
structure Pkg where
  combine : Nat → Option CovExc := fun _ => none
  report : Nat → Rep → Option CovExc := fun _ _ => none

/-- One turn of the loop in a session that reports, `coverage.py:63-71`: the calls, and the exception that leaves it. -/
def turn (p : Pkg) (role : Role) (n : Nat) (r : Rep) : List Call × Option CovExc :=
  match if role = .parent then p.combine n else none with
  | some e => ([.combine], if e.coverage && noData e.msg then none else some e)
  | none =>
    (if role = .parent then [.combine, .report r] else [.report r],
      match p.report n r with
      | none => none
      | some e => if e.coverage && noData e.msg then none else some e)

/-- The loop, `coverage.py:62-71`. -/
def turns (p : Pkg) (role : Role) : Nat → List Rep → List Call × Option CovExc
  | _, [] => ([], none)
  | n, r :: rs =>
    match role with
    | .child _ => turns p role (n + 1) rs
    | _ =>
      match turn p role n r with
      | (cs, some e) => (cs, some e)
      | (cs, none) => (cs ++ (turns p role (n + 1) rs).1, (turns p role (n + 1) rs).2)

/-- `session_end`, `coverage.py:57-71`. -/
def sessionEnd (p : Pkg) (role : Role) (report : Bool) (rs : List Rep) : List Call × Option CovExc :=
  if report then ([.stop, .save] ++ (turns p role 0 rs).1, (turns p role 0 rs).2) else ([.stop, .save], none)

end Slash.Ci
