import Verif.Model.FixtureGraph
/-!
# Variations: `slash/core/variation_factory.py:102-120`, `slash/utils/iteration.py:82-87`

Parameters are given by their ids; a parameter with `n` values has the value indices `0, …, n - 1`.
-/
namespace Slash.Var

/-- An element of `_needed_fixtures`, `variation_factory.py:25-28,60-68`: its scope, and the parameters
`get_all_needed_fixture_ids` returns (`fixture_store.py:146-155`, see `FG.needed`; for a parameter, the parameter). -/
structure Need where
  scope : Nat
  params : List Nat
deriving DecidableEq, Repr

/-- One step of the stable sort below. -- `variation_factory.py:104` -/
def insertDesc (x : Need) : List Need → List Need
  | [] => [x]
  | y :: l => if y.scope ≤ x.scope then x :: y :: l else y :: insertDesc x l

/-- `sort(key=lambda x: x.info.scope, reverse=True)`, `variation_factory.py:104`: by decreasing scope, stable. -/
def sortDesc : List Need → List Need
  | [] => []
  | x :: l => insertDesc x (sortDesc l)

/-- `needed_ids`, `variation_factory.py:103-106` (an ordered set). -/
def neededIds (needs : List Need) : List Nat := (sortDesc needs).foldl (fun ids n => FG.addAll ids n.params) []

/-- `itertools.product` of ranges, `variation_factory.py:112`: the last index changes fastest. -/
def product : List Nat → List (List Nat)
  | [] => [[]]
  | n :: ns => (List.range n).flatMap (fun i => (product ns).map (fun l => i :: l))

/-- `_build_variation`, `variation_factory.py:115-120`: the value index of each parameter. -/
def buildVariation (ids : List Nat) (indices : List Nat) : List (Nat × Nat) := ids.zip indices

/-- `iter_variations`, `variation_factory.py:102-113`; `size`: the number of values of each parameter. -/
def iterVariations (size : Nat → Nat) (needs : List Need) : List (List (Nat × Nat)) :=
  let ids := neededIds needs
  if ids = [] then [[]]
  else (product (ids.map size)).map (buildVariation ids)

/-- `itertools.product` of arbitrary lists, as used by `iter_cartesian_dicts`, `utils/iteration.py:86`. -/
def productOf {α : Type} : List (List α) → List (List α)
  | [] => [[]]
  | xs :: xss => xs.flatMap (fun x => (productOf xss).map (fun l => x :: l))

/-- `iter_cartesian_dicts`, `utils/iteration.py:82-87`. -/
def iterCartesianDicts {α β : Type} (d : List (α × List β)) : List (List (α × β)) :=
  (productOf (d.map (·.2))).map (fun c => (d.map (·.1)).zip c)

end Slash.Var
