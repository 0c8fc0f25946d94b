/-!
# Error files of parallel workers: `slash/parallel/worker.py:48-55`, `slash/parallel/parallel_manager.py:62-72`

A worker that cannot connect, is interrupted, or fails outside of its tests appends a message to a file of its own in a directory made
by the parent (`parallel_manager.py:27`). The parent logs the content of these files once it gives up a worker or the run.

Simplifications: the directory is a list of files in the order in which `os.listdir` lists them; the files can be read. The order of
new files in the directory is that of their making; theorems are for any order.
-/
namespace Slash.ErrF

/-- Names and texts, `worker.py:50-53`. -/
abbrev Text := List Char

/-- The directory: names and contents, in the order of `os.listdir` (`parallel_manager.py:64`). -/
abbrev Dir := List (Text × Text)

/-- `"{}-{}.log".format(config.root.parallel.worker_error_file, self.client_id)`, `worker.py:50`. -/
def fileName (pre wid : Text) : Text := pre ++ '-' :: wid ++ ".log".toList

/-- `open(path, 'a')` and `write`, `worker.py:52-53`. -/
def append (name msg : Text) : Dir → Dir
  | [] => [(name, msg)]
  | f :: d => if f.1 = name then (f.1, f.2 ++ msg) :: d else f :: append name msg d

/-- A message of a worker; `fails` if the file cannot be opened or written, `worker.py:48-55`. -/
structure Msg where
  wid : Text
  text : Text
  fails : Bool := false
deriving DecidableEq, Repr

/-- `write_to_error_file`, `worker.py:48-55`: an `OSError` is logged by the worker. -/
def write (pre : Text) (d : Dir) (m : Msg) : Dir := if m.fails then d else append (fileName pre m.wid) m.text d

/-- All messages of all workers, in the order in which they are written, `worker.py:48-55`. -/
def writes (pre : Text) (d : Dir) (ms : List Msg) : Dir := ms.foldl (write pre) d

/-- `readlines`, `parallel_manager.py:68`: lines with their line ends. The first argument is the line being read. -/
def readlines (cur : Text) : Text → List Text
  | [] => if cur = [] then [] else [cur]
  | c :: l => if c = '\n' then (cur ++ [c]) :: readlines [] l else readlines (cur ++ [c]) l

/-- A line of the log: a line of a file with its name, or the notice that there are no files. `parallel_manager.py:70,72`. -/
inductive Logged where
  | line (file text : Text)
  | noFiles
deriving DecidableEq, Repr

/-- `file_name.startswith(config.root.parallel.worker_error_file)`, `parallel_manager.py:65`. -/
def isErrorFile (pre : Text) (f : Text × Text) : Bool := pre.isPrefixOf f.1

/-- `report_worker_error_logs`, `parallel_manager.py:62-72`. -/
def report (pre : Text) (d : Dir) : List Logged :=
  (d.filter (isErrorFile pre)).flatMap (fun f => (readlines [] f.2).map (.line f.1)) ++
    (if d.any (isErrorFile pre) then [] else [.noFiles])

end Slash.ErrF
