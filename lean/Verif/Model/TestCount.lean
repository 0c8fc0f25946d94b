import Verif.Model.Loader
/-!
# The number of tests of a session, and the numbers of its tests: `slash/loader.py:55-67,94-104`, `slash/core/session.py:34,162-170`,
`slash/runner.py:203-209`, `slash/core/metadata.py:125-131`

Simplifications: a session that is no worker (workers are told the numbers). Loading that fails is left out.
-/
namespace Slash.Load

/-- The counters of a session (`core/session.py:34,162`), the tests loaded in it and the numbers given, both ghosts. -/
structure CSt where
  total : Nat := 0
  counter : Nat := 0
  loaded : List Nat := []
  nums : List (Nat × Nat) := []
deriving DecidableEq, Repr

/-- What is done in a session: `get_runnables` (`loader.py:55-76`) for some tests, with the interactive test if asked for; the runner takes up a
test (`runner.py:42`). -/
inductive COp where
  | load (each all : Nat) (tests : List T) (next : Nat) (interactive : Option Nat)
  | take (oid : Nat)

/-- The number of a test, `core/metadata.py:16`. -/
def CSt.index0 (s : CSt) (oid : Nat) : Option Nat := (s.nums.find? (·.1 == oid)).map (·.2)

/-- `test_index1`, `core/metadata.py:125-131`. -/
def CSt.index1 (s : CSt) (oid : Nat) : Option Nat := (s.index0 oid).map (· + 1)

/-- `get_total_num_tests`, `core/session.py:164-167`. -/
def CSt.getTotal (s : CSt) : Nat := s.total

/-- One step: tests are counted when they are collected (`loader.py:103`), before the interactive one is put in front (63-64); a test with a number
is not run (`runner.py:205-207`). -/
def cstep (s : CSt) : COp → CSt
  | .load each all tests next interactive =>
    { s with
      total := s.total + (generateRepeats each all tests next).length
      loaded := s.loaded ++ (interactive.toList ++ (generateRepeats each all tests next).map (·.oid)) }
  | .take oid =>
    match s.index0 oid with
    | some _ => s
    | none => { s with counter := s.counter + 1, nums := s.nums ++ [(oid, s.counter)] }

/-- A session, `loader.py:55-104`, `runner.py:40-58`. -/
def crun (ops : List COp) : CSt := ops.foldl cstep {}

end Slash.Load
