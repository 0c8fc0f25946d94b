import Verif.Model.ExclName
import Verif.Props.Namespace
import Verif.Props.Exclusion
/-! Dotted names in `slash.exclude`: C175. -/
namespace Slash.NS

/-- The fixture that an argument of a function stands for: looked up from the file of the test for a test, from where it is defined for a fixture
(the fixtures known everywhere see only each other, in the first namespace). -/
def standsFor (st : Store) (ns : Nat) : Pt → Nat → Option Nat
  | .test, n => lookupName st ns n
  | .fixture f, n =>
    match st.fixtures.lookup f with
    | some m => lookupName st m n
    | none => lookupName st 0 n
  | .param _, _ => none

/-- `Gets st fs ns c path id`: following the fixtures `path` from the function `c` by its arguments, one comes to a function that gets the parameter `id`
under the last name. -/
inductive Gets (st : Store) (fs : Funcs) (ns : Nat) : Pt → List Nat → Nat → Prop
  | own {c : Pt} {n id : Nat} : (fs.params c).lookup n = some id → Gets st fs ns c [n] id
  | arg {c : Pt} {a n g id : Nat} {path : List Nat} : (a, n) ∈ fs.args c → (fs.params c).lookup a = none → standsFor st ns c n = some g →
      Gets st fs ns (.fixture g) path id → Gets st fs ns c (n :: path) id

/-- No parameter of a function has the name of a fixture that another argument of that function stands for. -/
def NoClash (fs : Funcs) : Prop := ∀ c a n, (a, n) ∈ fs.args c → (fs.params c).lookup a = none → (fs.params c).lookup n = none

theorem standsFor_fixture (st : Store) (ns f n : Nat) : standsFor st ns (.fixture f) n = lookupName st (nsOf st f) n := by
  simp only [standsFor, nsOf]
  cases st.fixtures.lookup f <;> simp

theorem Gets.ne_nil {st : Store} {fs : Funcs} {ns : Nat} {c : Pt} {path : List Nat} {id : Nat} (h : Gets st fs ns c path id) : path ≠ [] := by
  cases h <;> simp

theorem resolve_gets {st : Store} {fs : Funcs} {ns : Nat} (hc : NoClash fs) {c : Pt} {path : List Nat} {id : Nat} (h : Gets st fs ns c path id)
    (m : Nat) (hm : ∀ n, standsFor st ns c n ≠ none → lookupName st m n = standsFor st ns c n) : resolveFrom st fs c m path = some (.param id) := by
  induction h generalizing m with
  | own hl => simp [resolveFrom, hl]
  | @arg c a n g id path ha hp hs hg ih =>
    unfold resolveFrom
    rw [hc c a n ha hp, hm n (by rw [hs]; simp), hs]
    exact ih (nsOf st g) (fun n _ => (standsFor_fixture st ns g n).symm)

/-- A dotted name in an exclusion of a test leads to the parameter of the fixture that the test gets by way of the named fixtures, as they are seen where they
are used. -/
theorem C175_leads_partial (st : Store) (fs : Funcs) (ns : Nat) (hc : NoClash fs) (path : List Nat) (id : Nat) (h : Gets st fs ns .test path id) :
    resolveFrom st fs .test ns path = some (.param id) :=
  resolve_gets hc h ns (fun _ _ => rfl)

/-- An exclusion of a test for such a name leaves out exactly the variations in which that fixture gets one of the values. -/
theorem C175_excluded_partial (st : Store) (fs : Funcs) (ns : Nat) (hc : NoClash fs) (path : Nat → List Nat) (n id v : Nat) (values : List Nat)
    (variation : Nat → Option Nat) (h : Gets st fs ns .test (path n) id) (hv : variation id = some v)
    (decls : Nat → List Excl.Decl) (d : Excl.Decl) (hd : Excl.exclude (.single n (some values)) = some d) (ht : decls 0 = [d])
    (nofix : Bool) (fixtures : List Nat) (hf : ∀ f ∈ fixtures, decls (f + 1) = []) :
    excludedByName st fs ns path variation decls nofix fixtures = if v ∈ values then .yes else .no := by
  simp only [Excl.exclude, Option.some.injEq] at hd
  subst hd
  have hval : namedValue st fs ns path variation .test n = some v := by
    unfold namedValue
    rw [C175_leads_partial st fs ns hc _ id h]
    exact hv
  have hrest : ∀ l : List Nat, (∀ e ∈ l, decls e = []) → ∀ value, Excl.checkAll value decls (l ++ [0]) = Excl.checkAll value decls [0] := by
    intro l hl value
    induction l with
    | nil => rfl
    | cons e l ih =>
      rw [List.cons_append, Excl.checkAll, hl e (List.mem_cons_self ..), if_neg (by simp)]
      simp only [Excl.toDict, List.foldl_nil, Excl.checkDecls]
      exact ih (fun e he => hl e (List.mem_cons_of_mem _ he))
  unfold excludedByName Excl.isExcluded
  rw [hrest]
  · rw [Excl.checkAll, ht, if_neg (by simp)]
    simp only [Excl.toDict, List.foldl_cons, List.foldl_nil, Excl.dset, Excl.checkDecls, Excl.paramValues, entityOf, hval, Option.map_some]
    by_cases hm : v ∈ values
    · rw [if_pos (by simpa using hm), if_pos hm]
    · rw [if_neg (by simpa using hm), if_neg hm]
      rfl
  · intro e he
    cases nofix with
    | true => simp at he
    | false =>
      simp only [Bool.false_eq_true, if_false] at he
      obtain ⟨f, hf', rfl⟩ := List.mem_map.1 he
      exact hf f hf'

/-- An exclusion of a fixture: the same, if the fixtures it uses are the same ones when seen from the file of the test. -/
theorem C175_fixture_partial (st : Store) (fs : Funcs) (ns : Nat) (hc : NoClash fs) (f : Nat) (path : List Nat) (id : Nat)
    (h : Gets st fs ns (.fixture f) path id) (hs : ∀ a n, (a, n) ∈ fs.args (.fixture f) → lookupName st ns n = lookupName st (nsOf st f) n) :
    resolveFrom st fs (.fixture f) ns path = some (.param id) := by
  cases h with
  | own hl => simp [resolveFrom, hl]
  | @arg _ a n g _ path ha hp hst hg =>
    unfold resolveFrom
    rw [hc _ a n ha hp, hs a n ha, ← standsFor_fixture st ns f n, hst]
    exact resolve_gets hc hg (nsOf st g) (fun n _ => (standsFor_fixture st ns g n).symm)

/-- ... so an exclusion of a fixture among the arguments of the test leaves out exactly the variations in which that parameter has one of the values. -/
theorem C175_excluded_fixture_partial (st : Store) (fs : Funcs) (ns : Nat) (hc : NoClash fs) (f : Nat) (path : Nat → List Nat) (n id v : Nat) (values : List Nat)
    (variation : Nat → Option Nat) (h : Gets st fs ns (.fixture f) (path n) id) (hv : variation id = some v)
    (hs : ∀ a n, (a, n) ∈ fs.args (.fixture f) → lookupName st ns n = standsFor st ns (.fixture f) n)
    (decls : Nat → List Excl.Decl) (d : Excl.Decl) (hd : Excl.exclude (.single n (some values)) = some d) (ht : decls (f + 1) = [d])
    (h0 : decls 0 = []) (fixtures : List Nat) (hf : f ∈ fixtures) (hf' : ∀ g ∈ fixtures, g ≠ f → decls (g + 1) = []) :
    excludedByName st fs ns path variation decls false fixtures = if v ∈ values then .yes else .no := by
  simp only [Excl.exclude, Option.some.injEq] at hd
  subst hd
  have hval : namedValue st fs ns path variation (.fixture f) n = some v := by
    unfold namedValue
    rw [C175_fixture_partial st fs ns hc f _ id h (fun a n ha => by rw [hs a n ha, standsFor_fixture])]
    exact hv
  have one : ∀ l : List Nat, (∀ g ∈ l, g ≠ f → decls (g + 1) = []) →
      Excl.checkAll (fun e n => namedValue st fs ns path variation (entityOf e) n) decls (l.map (· + 1) ++ [0]) =
        if f ∈ l ∧ v ∈ values then .yes else .no := by
    intro l hl
    induction l with
    | nil => simp [Excl.checkAll, h0, Excl.toDict, Excl.checkDecls]
    | cons g l ih =>
      have ih := ih (fun g hg => hl g (List.mem_cons_of_mem _ hg))
      rw [List.map_cons, List.cons_append, Excl.checkAll]
      by_cases hg : g = f
      · subst hg
        rw [ht, if_neg (by simp)]
        have he : namedValue st fs ns path variation (entityOf (g + 1)) n = some v := hval
        simp only [Excl.toDict, List.foldl_cons, List.foldl_nil, Excl.dset, Excl.checkDecls, Excl.paramValues, he, Option.map_some]
        by_cases hm : v ∈ values
        · rw [if_pos (by simpa using hm), if_pos ⟨List.mem_cons_self .., hm⟩]
        · rw [if_neg (by simpa using hm), if_neg (fun x => hm x.2)]
          simp only
          rw [ih, if_neg (fun x => hm x.2)]
      · rw [hl g (List.mem_cons_self ..) hg, if_neg (by simp)]
        simp only [Excl.toDict, List.foldl_nil, Excl.checkDecls]
        rw [ih]
        simp only [List.mem_cons, Ne.symm hg, false_or]
  unfold excludedByName Excl.isExcluded
  simp only [Bool.false_eq_true, if_false]
  rw [one fixtures hf']
  by_cases hm : v ∈ values
  · rw [if_pos ⟨hf, hm⟩, if_pos hm]
  · rw [if_neg (fun x => hm x.2), if_neg hm]

/-- `Reaches st fs c ns path id`: by names of fixtures, each seen from where the one before is defined, `path` comes to a function with the parameter `id`. -/
inductive Reaches (st : Store) (fs : Funcs) : Pt → Nat → List Nat → Nat → Prop
  | own {c : Pt} {ns n id : Nat} : (fs.params c).lookup n = some id → Reaches st fs c ns [n] id
  | step {c : Pt} {ns n g id : Nat} {path : List Nat} : lookupName st ns n = some g →
      Reaches st fs (.fixture g) ((st.fixtures.lookup g).getD 0) path id → Reaches st fs c ns (n :: path) id

theorem resolve_reaches {st : Store} {fs : Funcs} {c : Pt} {ns id : Nat} {path : List Nat} (hc : ∀ p, c ≠ .param p)
    (h : resolveFrom st fs c ns path = some (.param id)) : Reaches st fs c ns path id := by
  induction path generalizing c ns with
  | nil => simp only [resolveFrom, Option.some.injEq] at h; exact absurd h (hc id)
  | cons n path ih =>
    simp only [resolveFrom] at h
    cases hp : (fs.params c).lookup n with
    | some p =>
      rw [hp] at h
      cases path with
      | nil => simp only [List.isEmpty_nil, if_true, Option.some.injEq, Pt.param.injEq] at h; subst h; exact .own hp
      | cons a path => simp at h
    | none =>
      rw [hp] at h
      cases hl : lookupName st ns n with
      | none => rw [hl] at h; cases h
      | some g => rw [hl] at h; exact .step hl (ih (fun p e => nomatch e) h)

/-- A name that leads to no parameter, or to one that the test does not have, is not passed over: a test is run with an exclusion only if each name in the
exclusions of the test, and in those of the fixtures among its arguments, leads to a parameter the test has. -/
theorem C175_unknown (st : Store) (fs : Funcs) (ns : Nat) (path : Nat → List Nat) (variation : Nat → Option Nat) (decls : Nat → List Excl.Decl)
    (nofix : Bool) (fixtures : List Nat) (h : excludedByName st fs ns path variation decls nofix fixtures = .no) :
    (∀ d ∈ decls 0, ∀ n ∈ d.names, ∃ id, Reaches st fs .test ns (path n) id ∧ variation id ≠ none) ∧
    (nofix = false → ∀ f ∈ fixtures, ∀ d ∈ decls (f + 1), ∀ n ∈ d.names, ∃ id, Reaches st fs (.fixture f) ns (path n) id ∧ variation id ≠ none) := by
  have key : ∀ c n, (∀ p, c ≠ .param p) → namedValue st fs ns path variation c n ≠ none → ∃ id, Reaches st fs c ns (path n) id ∧ variation id ≠ none := by
    intro c n hc hn
    unfold namedValue at hn
    split at hn
    · rename_i p hp
      exact ⟨p, resolve_reaches hc hp, hn⟩
    · exact absurd rfl hn
  have hno := fun e he => Excl.C27_unknown_not_ignored _ decls nofix (fixtures.map (· + 1)) 0 h e he
  refine ⟨fun d hd n hn => key _ n (fun p e => nomatch e) (hno 0 (.inl rfl) d hd n hn), fun hx f hf d hd n hn => ?_⟩
  exact key _ n (fun p e => nomatch e) (hno (f + 1) (.inr ⟨hx, List.mem_map_of_mem hf⟩) d hd n hn)

/-- A directory whose `slashconf` has the fixtures 1 and 2, of which 1 uses 2, and a file in it that defines 2 again. Both fixtures called 2 have a parameter
called 3: `7` in the `slashconf`, `8` in the file. The test uses 1 and 2. -/
def exStore : Store := (enterFile [[(1, ⟨1, 100, false⟩), (2, ⟨2, 101, false⟩)]] [(2, ⟨2, 102, false⟩)] {}).getD {}

/-- See `exStore`. -/
def exFuncs : Funcs where
  params
    | .fixture 101 => [(3, 7)]
    | .fixture 102 => [(3, 8)]
    | _ => []
  args
    | .test => [(1, 1), (2, 2)]
    | .fixture 100 => [(2, 2)]
    | _ => []

theorem exNoClash : NoClash exFuncs := by
  intro c a n h1 h2
  unfold exFuncs at h1 h2 ⊢
  simp only at h1 h2 ⊢
  split at h1 <;> simp_all

theorem exGets1 : Gets exStore exFuncs (current exStore) .test [1, 2, 3] 7 :=
  .arg (a := 1) (g := 100) (by decide) (by decide) (by decide)
    (.arg (a := 2) (g := 101) (by decide) (by decide) (by decide) (.own (by decide)))

theorem exGets2 : Gets exStore exFuncs (current exStore) .test [2, 3] 8 :=
  .arg (a := 2) (g := 102) (by decide) (by decide) (by decide) (.own (by decide))

/-- `exclude("1.2.3", [5])` for that test, with 5 for the one parameter and 6 for the other. -/
example : excludedByName exStore exFuncs (current exStore) (fun _ => [1, 2, 3]) (fun p => if p = 7 then some 5 else some 6)
    (fun e => if e = 0 then [⟨false, [0], [[5]]⟩] else []) false [100, 102] = .yes :=
  C175_excluded_partial exStore exFuncs (current exStore) exNoClash _ 0 7 5 [5] _ exGets1 rfl _ _ rfl rfl false [100, 102]
    (by intro f _; exact if_neg (Nat.succ_ne_zero f))

/-- `exclude("3", [6])` for the fixture 102 of the file; and a name which is no parameter -/
example : excludedByName exStore exFuncs (current exStore) (fun _ => [3]) (fun p => if p = 7 then some 5 else some 6)
      (fun e => if e = 103 then [⟨false, [0], [[6]]⟩] else []) false [100, 102] = .yes ∧
    excludedByName exStore exFuncs (current exStore) (fun _ => [1, 2]) (fun p => if p = 7 then some 5 else some 6)
      (fun e => if e = 0 then [⟨false, [0], [[6]]⟩] else []) false [100, 102] = .unknown :=
  ⟨C175_excluded_fixture_partial exStore exFuncs (current exStore) exNoClash 102 _ 0 8 6 [6] _ (.own (by decide)) rfl
    (by intro a n h; simp [exFuncs] at h) _ _ rfl rfl rfl [100, 102] (by decide) (by intro g hg hne; have : g ≠ 102 := hne; simp only [show (g + 1 = 103) = False from by simp; omega, if_false]),
    by decide⟩

/-- Names in an exclusion of a fixture are looked up from the file of the test, not from where the fixture is defined: `exclude("2.3", …)` for fixture 1, which
gets the parameter 7, goes by the parameter 8 of the fixture defined in the file. The value 5 of the former is not left out, and 6 is although it is
not a value of the former; if the test does not use that fixture, loading fails. -/
theorem C175_fixture_violated :
    Gets exStore exFuncs (current exStore) (.fixture 100) [2, 3] 7 ∧
    resolveFrom exStore exFuncs (.fixture 100) (current exStore) [2, 3] = some (.param 8) ∧
    let excluded := fun values variation => excludedByName exStore exFuncs (current exStore) (fun _ => [2, 3]) variation
      (fun e => if e = 101 then [⟨false, [0], values⟩] else []) false [100, 102]
    excluded [[5]] (fun p => if p = 7 then some 5 else some 6) = .no ∧
    excluded [[6]] (fun p => if p = 7 then some 5 else some 6) = .yes ∧
    excluded [[5]] (fun p => if p = 7 then some 5 else none) = .unknown :=
  ⟨.arg (a := 2) (g := 101) (by decide) (by decide) (by decide) (.own (by decide)), by decide, by decide, by decide, by decide⟩

/-- A fixture need not use the one named after it: fixture 102 has no arguments, but the name 2.1.2.3 leads to a parameter. -/
theorem C175_unused_violated :
    resolveFrom exStore exFuncs .test (current exStore) [2, 1, 2, 3] = some (.param 7) ∧
    ∀ id, ¬ Gets exStore exFuncs (current exStore) .test [2, 1, 2, 3] id := by
  refine ⟨by decide, fun id h => ?_⟩
  cases h with
  | arg h1 h2 h3 h4 =>
    have e : standsFor exStore (current exStore) .test 2 = some 102 := by decide
    rw [e] at h3
    cases h3
    cases h4 with
    | arg h1 _ _ _ => exact absurd h1 (by simp [exFuncs])

/-- If a function has a parameter with the name of a fixture that another of its arguments stands for (`slash.use`), the name does not lead to that fixture. -/
theorem C175_clash_violated :
    let fs : Funcs := { params := fun c => if c = .test then [(2, 9)] else if c = .fixture 102 then [(3, 8)] else [], args := fun c => if c = .test then [(4, 2)] else [] }
    Gets exStore fs (current exStore) .test [2, 3] 8 ∧ resolveFrom exStore fs .test (current exStore) [2, 3] = none :=
  ⟨.arg (a := 4) (g := 102) (by decide) (by decide) (by decide) (.own (by decide)), by decide⟩

end Slash.NS
