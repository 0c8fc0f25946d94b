import Verif.Model.WorkerProc

/-!
# Running in `tmux`: `slash/utils/tmux_utils.py`

With `--tmux`, `slash run` moves itself into a session of `tmux` (`frontend/slash_run.py:41-43`): it replaces itself by `tmux`,
which runs the same command in a new session; the run started there finds the session and gives it the id of its own session.

Simplifications: sessions of `tmux` are their names; the only failure of `libtmux` is the exception that says that no server is
running (`tmux_utils.py:37-39`). A shell cuts the command into words as in `Verif/Model/WorkerProc.lean`. `PATH` is cut at `:`.
-/
namespace Slash.Tmux

open Slash.WP (Arg join)

/-- The process: what it is run as (`sys.executable`), its environment (`PATH`, whether `TMUX` is set), which files are executable,
and the session of `tmux` it runs in, if any. `tmux_utils.py:14-31,65`. -/
structure Proc where
  exe : Arg
  path : Arg
  tmuxVar : Bool := false
  isExe : Arg → Bool

/-- `str.split(sep)` for one character, `tmux_utils.py:23`. The first argument is the piece being read. -/
def splitAt (sep : Char) (cur : List Char) : List Char → List Arg
  | [] => [cur]
  | c :: l => if c = sep then cur :: splitAt sep [] l else splitAt sep (cur ++ [c]) l

/-- `path.strip('"')`, `tmux_utils.py:24`. -/
def strip (l : List Char) : List Char := ((l.dropWhile (· = '"')).reverse.dropWhile (· = '"')).reverse

/-- `os.path.join(path, program)` for a program without `/`, `tmux_utils.py:25`. -/
def pathJoin (d prog : List Char) : List Char :=
  if d = [] then prog else if d.getLast? = some '/' then d ++ prog else d ++ '/' :: prog

/-- The loop of `which`, `tmux_utils.py:23-27`. -/
def firstIn (isExe : Arg → Bool) (prog : Arg) : List Arg → Option Arg
  | [] => none
  | d :: l => if isExe (pathJoin (strip d) prog) then some (pathJoin (strip d) prog) else firstIn isExe prog l

/-- `which`, `tmux_utils.py:14-28`. A program has a directory (18-19) if there is a `/` in it. -/
def which (p : Proc) (prog : Arg) : Option Arg :=
  if '/' ∈ prog then (if p.isExe prog then some prog else none)
  else firstIn p.isExe prog (splitAt ':' [] p.path)

/-- The server of `tmux`: whether it runs, and the names of its sessions. `tmux_utils.py:33-36`. -/
structure Server where
  running : Bool := true
  sessions : List Arg := []
deriving DecidableEq, Repr

/-- `get_slash_tmux_session`, `tmux_utils.py:33-39`: the position of the first session with that name. -/
def Server.find (s : Server) (name : Arg) : Option Nat :=
  if s.running then s.sessions.findIdx? (· = name) else none

/-- `DEFAULT_SESSION_NAME`, `tmux_utils.py:8`. -/
def defaultName : Arg := "slash_session".toList

/-- What comes of the function: it returns, raises `TmuxExecutableNotFound`, or the process has become another program with these
arguments. `tmux_utils.py:55-71`. -/
inductive Out where
  | ok
  | notFound
  | became (file : Arg) (argv : List Arg)
deriving DecidableEq, Repr

/-- `tmux_session.rename_session`, `tmux_utils.py:60`. -/
def rename (l : List Arg) (i : Nat) (name : Arg) : List Arg := l.modify i fun _ => name

/-- `run_slash_in_tmux`, `tmux_utils.py:55-71`: `cmd` and `argv` are those of the command line, `id` the id of the session. -/
def run (p : Proc) (cmd : Arg) (argv : List Arg) (id : Arg) (s : Server) : Server × Out :=
  match s.find defaultName with
  | some i => ({ s with sessions := rename s.sessions i id }, .ok)
  | none =>
    match which p "tmux".toList with
    | none => (s, .notFound)
    | some t =>
      (s, .became t ([t, "new-session".toList, "-s".toList, defaultName, "-n".toList, "master".toList] ++
        (if p.tmuxVar then ["-Ad".toList] else []) ++
        [join ([p.exe, "-m".toList, "slash.frontend.main".toList, cmd] ++ argv)]))

/-- `create_new_window` and `create_new_pane`, `tmux_utils.py:41-53`: the session in which it is made; `TmuxSessionNotExist` is
raised if there is none. -/
def newWindow (s : Server) (id : Arg) : Option Nat := s.find id

/-- What `tmux` does with the arguments given to it (`tmux_utils.py:67`): there is a new session under the name after `-s`, after the
ones there are, and its shell runs the words of the last argument. -/
def tmuxStarts (argv : List Arg) (s : Server) : Server × List Arg :=
  ({ running := true, sessions := (if s.running then s.sessions else []) ++ [argv.getD 3 []] }, WP.words [] (argv.getLastD []))

end Slash.Tmux
