import Verif.Model.Plugins
/-!
# Dependencies between plugins: `slash/plugins/plugin_manager.py`, `slash/plugins/__init__.py`
-/
namespace Slash.Plug

/-- The dependencies a plugin object declares: with marks on the class (inherited ones included), with marks on methods, and with keyword
arguments of `registers_on`, by method and hook (the last simplification: a method asking twice for the same hook gives both the same
arguments). -- `plugins/__init__.py:44-49`, `plugins/plugin_manager.py:329-330,364-374` -/
structure Deps where
  needs : List Str := []
  provides : List Str := []
  methodNeeds : Str → List Str := fun _ => []
  methodProvides : Str → List Str := fun _ => []
  argNeeds : Str → Str → List Str := fun _ _ => []
  argProvides : Str → Str → List Str := fun _ _ => []

/-- The plugin objects with their dependencies: `if global_provides`, `plugins/plugin_manager.py:329-336`. -/
def withDeps (D : Nat → Deps) (ps : Nat → Plugin) : Nat → Plugin :=
  fun o => { ps o with provides := !(D o).provides.isEmpty }

/-- What a registration needs, `plugins/plugin_manager.py:364-368,391-392`; no-ops and the functions that turn toggles on need nothing,
`plugins/plugin_manager.py:405-412`. -/
def needsOf (D : Nat → Deps) (r : Reg) : List Str :=
  match r.cb with
  | .method o m => (D o).methodNeeds m ++ (D o).needs ++ (D o).argNeeds m r.hook
  | .noop _ => []
  | .toggle _ => []

/-- What a registration provides, `plugins/plugin_manager.py:370-374,393,412`; the functions that turn toggles on provide nothing,
`plugins/plugin_manager.py:405-407`. -/
def providesOf (D : Nat → Deps) (r : Reg) : List Str :=
  match r.cb with
  | .method o m => (D o).methodProvides m ++ (D o).provides ++ (D o).argProvides m r.hook
  | .noop o => (D o).provides
  | .toggle _ => []

/-- Calling a hook: gossip (not part of the repository) puts the registrations of the hook in an order, or raises
`CannotResolveDependencies`. -- `plugins/plugin_manager.py:389-403`, `tests/test_plugin_dependency.py:60-69` -/
def fire (order : List Reg → Option (List Reg)) (h : Str) (s : St) : Option (List Reg) := order (s.regs.filter (fun r => r.hook == h))

/-- What is assumed of gossip: the order is one of all registrations, with those that provide something before those that need it; a call
succeeds only if all that is needed is provided, and does if moreover the dependencies are not circular.
-- `tests/test_plugin_dependency.py:60-69,182-186`, `doc/plugins.rst:163-200` -/
structure Orders (N P : Reg → List Str) (order : List Reg → Option (List Reg)) : Prop where
  perm : ∀ l l', order l = some l' → l'.Perm l
  after : ∀ l a r b, order l = some (a ++ r :: b) → ∀ q ∈ b, ∀ x ∈ N r, x ∉ P q
  met : ∀ l l', order l = some l' → ∀ r ∈ l, ∀ x ∈ N r, ∃ q ∈ l, x ∈ P q
  total : ∀ l, (∀ r ∈ l, ∀ x ∈ N r, ∃ q ∈ l, x ∈ P q) →
    (∃ rank : Reg → Nat, ∀ q ∈ l, ∀ r ∈ l, ∀ x ∈ P q, x ∈ N r → rank q < rank r) → (order l).isSome = true

/-- `a` provides something `r` needs. -- `plugins/plugin_manager.py:364-374` -/
def before (N P : Reg → List Str) (q r : Reg) : Bool := (P q).any (fun x => (N r).contains x)

/-- An order as gossip makes it: again and again, the first registration none of the remaining ones has to come before. It shows that
`Orders` can be satisfied. -- `plugins/plugin_manager.py:389-403` -/
def sortDeps (N P : Reg → List Str) : Nat → List Reg → Option (List Reg)
  | 0, l => if l.isEmpty then some [] else none
  | n + 1, l =>
    if l.isEmpty then some []
    else
      match l.find? (fun r => l.all (fun q => !(before N P q r))) with
      | none => none
      | some r => (sortDeps N P n (l.erase r)).map (r :: ·)

/-- The order, unless something needed is not provided. -- `tests/test_plugin_dependency.py:65-69` -/
def resolve (N P : Reg → List Str) (l : List Reg) : Option (List Reg) :=
  if l.all (fun r => (N r).all (fun x => l.any (fun q => (P q).contains x))) then sortDeps N P l.length l else none

end Slash.Plug
