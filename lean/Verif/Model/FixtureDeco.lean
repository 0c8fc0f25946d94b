import Verif.Model.Result
/-!
# Ways to write and use fixtures: `slash/core/fixtures/utils.py:28-43` (`use_fixtures`), `116-146` (`yield_fixture`), with the
cleanups of one active fixture, `slash/core/fixtures/active_fixture.py:36-42`
-/
namespace Slash.FixDeco

/-! ## Generators as fixtures -/

/-- A cleanup added with `this.add_cleanup` (`slash/core/fixtures/active_fixture.py:36-37`): a name, and what it raises. -/
structure Cl where
  tag : Nat
  raises : Option Kind := none
deriving DecidableEq, Repr

/-- What the code of a generator function does: something visible, `this.add_cleanup`, `yield`
(`slash/core/fixtures/utils.py:116-126`). -/
inductive GStep where
  | eff (tag : Nat)
  | add (c : Cl)
  | yield (v : Nat)
deriving DecidableEq, Repr

/-- A generator: the steps it has still to make, and what it raises in the end, `slash/core/fixtures/utils.py:135`. -/
structure Gen where
  steps : List GStep := []
  raises : Option Kind := none
deriving DecidableEq, Repr

/-- Observable events: a step of the generator is made; a cleanup is called (`slash/core/fixtures/active_fixture.py:42`). -/
inductive Ev where
  | eff (tag : Nat)
  | cleanup (tag : Nat)
deriving DecidableEq, Repr

/-- What `next(f)` (`slash/core/fixtures/utils.py:136,140`) can do: yield a value, stop, raise. -/
inductive Next where
  | yielded (v : Nat) (rest : Gen)
  | stopped
  | raised (k : Kind)
deriving DecidableEq, Repr

/-- An entry of `ActiveFixture._cleanups` (`slash/core/fixtures/active_fixture.py:12`): a function of the user, or the cleanup of a
generator (`slash/core/fixtures/utils.py:137-144`). -/
inductive Entry where
  | user (c : Cl)
  | gen (g : Gen)
deriving DecidableEq, Repr

/-- `ActiveFixture` (`slash/core/fixtures/active_fixture.py:5-13`): its cleanups, last one last, and the events. -/
structure St where
  cleanups : List Entry := []
  trace : List Ev := []
deriving DecidableEq, Repr

/-- `next(f)`, `slash/core/fixtures/utils.py:136,140`. A generator that has raised or returned stops. -/
def next (raises : Option Kind) : List GStep → St → Next × St
  | [], st => (match raises with | some k => .raised k | none => .stopped, st)
  | .eff t :: l, st => next raises l { st with trace := st.trace ++ [.eff t] }
  | .add c :: l, st => next raises l { st with cleanups := st.cleanups ++ [.user c] }
  | .yield v :: l, st => (.yielded v { steps := l, raises := raises }, st)

/-- The fixture function made of a generator function, `slash/core/fixtures/utils.py:133-145`. A generator that does not yield
makes `next` raise `StopIteration`, which leaves the function. -/
def newFunc (g : Gen) (st : St) : Except Kind Nat × St :=
  match next g.raises g.steps st with
  | (.yielded v rest, st) => (.ok v, { st with cleanups := st.cleanups ++ [.gen rest] })
  | (.stopped, st) => (.error .error, st)
  | (.raised k, st) => (.error k, st)

/-- Calling one cleanup: a function of the user, or `slash/core/fixtures/utils.py:138-144`. -/
def callEntry : Entry → St → Option Kind × St
  | .user c, st => (c.raises, { st with trace := st.trace ++ [.cleanup c.tag] })
  | .gen g, st =>
    match next g.raises g.steps st with
    | (.yielded _ _, st) => (some .error, st)
    | (.stopped, st) => (none, st)
    | (.raised k, st) => (some k, st)

/-- `do_cleanups`, `slash/core/fixtures/active_fixture.py:39-42`. `fuel` bounds the number of iterations; see
`C96_yield_fixture`, `C96_no_yield`. -/
def doCleanups : Nat → St → Option Kind × St
  | 0, st => (none, st)
  | fuel + 1, st =>
    match st.cleanups.getLast? with
    | none => (none, st)
    | some e =>
      match callEntry e { st with cleanups := st.cleanups.dropLast } with
      | (some k, st) => (some k, st)
      | (none, st) => doCleanups fuel st

/-! ## `use_fixtures` -/

/-- List objects (by number) and their contents; the attribute `__extrafixtures__` of functions,
`slash/core/fixtures/utils.py:34-38`. -/
structure Heap where
  lists : Nat → List Nat
  attr : Nat → Option Nat := fun _ => none

/-- Applying the decorator made by `use_fixtures(l)`, with `l` a list object, to a function,
`slash/core/fixtures/utils.py:33-39`. -/
def useFixtures (l f : Nat) (h : Heap) : Heap :=
  match h.attr f with
  | none => { h with attr := fun g => if g = f then some l else h.attr g }
  | some m => { h with lists := fun i => if i = m then h.lists m ++ h.lists l else h.lists i }

/-- Decorators applied one after the other (pairs of a list object and a function), `slash/core/fixtures/utils.py:33-39`. -/
def decorate : List (Nat × Nat) → Heap → Heap
  | [], h => h
  | (l, f) :: ds, h => decorate ds (useFixtures l f h)

/-- The names a function uses apart from its arguments, `slash/core/fixtures/fixture_store.py:62`. -/
def extraFixtures (f : Nat) (h : Heap) : List Nat :=
  match h.attr f with
  | none => []
  | some l => h.lists l

end Slash.FixDeco
