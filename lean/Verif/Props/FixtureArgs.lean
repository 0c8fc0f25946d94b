import Verif.Model.FixtureArgs
import Verif.Lemmas.Util
import Verif.Props.Pattern
/-!
# The fixtures given to a function: properties C67, C68
-/
namespace Slash.Args

theorem mem_addSet (x y : Name × Nat) (s : List (Name × Nat)) : y ∈ addSet x s ↔ y = x ∨ y ∈ s := by
  unfold addSet
  split
  · rename_i h
    constructor
    · exact .inr
    · rintro (rfl | h')
      · simpa using h
      · exact h'
  · simp [or_comm]

/-- Where the members of the set come from. -/
theorem mem_fixturesSet (lookup : Name → Option Nat) (extra : Nat → List Name) (n : Nat) (es : List Elem) (s s' : List (Name × Nat))
    (h : fixturesSet lookup extra n es s = .ok s') :
    (∀ x ∈ s, x ∈ s') ∧ (∀ e ∈ es, e ≠ this → ∃ f, lookup e.real = some f ∧ (e.arg, f) ∈ s') ∧
    (∀ x ∈ s', x ∈ s ∨ (∃ e ∈ es, e ≠ this ∧ x.1 = e.arg ∧ lookup e.real = some x.2) ∨ ∃ f, x.1 ∈ extra f) := by
  induction n generalizing es s s' with
  | zero => cases h
  | succ n ih =>
    cases es with
    | nil => simp only [fixturesSet, R.ok.injEq] at h; subst h; exact ⟨fun x hx => hx, by simp, fun x hx => .inl hx⟩
    | cons e es =>
      simp only [fixturesSet] at h
      split at h
      · rename_i he
        subst he
        obtain ⟨h1, h2, h3⟩ := ih _ _ _ h
        refine ⟨h1, ?_, ?_⟩
        · intro e he hne
          rcases List.mem_cons.1 he with rfl | he
          · exact absurd rfl hne
          · exact h2 e he hne
        · intro x hx
          rcases h3 x hx with h | ⟨e, he, r⟩ | h
          · exact .inl h
          · exact .inr (.inl ⟨e, by simp [he], r⟩)
          · exact .inr (.inr h)
      · rename_i hne
        cases hl : lookup e.real with
        | none => rw [hl] at h; cases h
        | some f =>
          rw [hl] at h
          simp only at h
          cases h1 : fixturesSet lookup extra n ((extra f).map .one) (addSet (e.arg, f) s) with
          | unknown => rw [h1] at h; cases h
          | deep => rw [h1] at h; cases h
          | ok s1 =>
            rw [h1] at h
            simp only at h
            obtain ⟨a1, a2, a3⟩ := ih _ _ _ h1
            obtain ⟨b1, b2, b3⟩ := ih _ _ _ h
            have hin : ∀ x ∈ addSet (e.arg, f) s, x ∈ s' := fun x hx => b1 x (a1 x hx)
            refine ⟨fun x hx => hin x ((mem_addSet _ _ _).2 (.inr hx)), ?_, ?_⟩
            · intro e' he' hne'
              rcases List.mem_cons.1 he' with rfl | he'
              · exact ⟨f, hl, hin _ ((mem_addSet _ _ _).2 (.inl rfl))⟩
              · exact b2 e' he' hne'
            · intro x hx
              rcases b3 x hx with h | ⟨e', he', r⟩ | h
              · rcases a3 x h with h | ⟨e', he', -, r1, r2⟩ | h
                · rcases (mem_addSet _ _ _).1 h with rfl | h
                  · exact .inr (.inl ⟨e, by simp, hne, rfl, hl⟩)
                  · exact .inl h
                · obtain ⟨y, hy, rfl⟩ := List.mem_map.1 he'
                  exact .inr (.inr ⟨f, by rw [r1]; exact hy⟩)
                · exact .inr (.inr h)
              · exact .inr (.inl ⟨e', by simp [he'], r⟩)
              · exact .inr (.inr h)

theorem wanted_arg (names : List Elem) (e : Elem) (he : e ∈ names) : wanted names e.arg = true := by
  unfold wanted
  cases e with
  | one n => simp [Elem.arg, he]
  | two a b =>
    simp only [Elem.arg, Bool.or_eq_true, List.any_eq_true]
    exact .inr ⟨_, he, by simp [inElem]⟩

theorem mem_dset (k : Name) (v : Nat) (t : List (Name × Nat)) (ht : (t.map (·.1)).Nodup) :
    ((dset k v t).map (·.1)).Nodup ∧ ∀ x, x ∈ dset k v t ↔ x = (k, v) ∨ (x.1 ≠ k ∧ x ∈ t) := by
  induction t with
  | nil => simp [dset]
  | cons e t ih =>
    simp only [List.map_cons, List.nodup_cons] at ht
    obtain ⟨h1, h2⟩ := ih ht.2
    simp only [dset]
    split
    · rename_i he
      subst he
      refine ⟨by simpa using ht, fun x => ?_⟩
      simp only [List.mem_cons]
      constructor
      · rintro (h | h)
        · exact .inl h
        · exact .inr ⟨fun e' => ht.1 (e' ▸ List.mem_map.2 ⟨x, h, rfl⟩), .inr h⟩
      · rintro (h | ⟨h, h' | h'⟩)
        · exact .inl h
        · subst h'; exact absurd rfl h
        · exact .inr h'
    · rename_i he
      constructor
      · simp only [List.map_cons, List.nodup_cons]
        refine ⟨fun hm => ?_, h1⟩
        obtain ⟨y, hy, e'⟩ := List.mem_map.1 hm
        rcases (h2 y).1 hy with rfl | ⟨_, hy⟩
        · exact he e'.symm
        · exact ht.1 (List.mem_map.2 ⟨y, hy, e'⟩)
      · intro x
        simp only [List.mem_cons, h2]
        constructor
        · rintro (rfl | h | ⟨h, h'⟩)
          · exact .inr ⟨he, .inl rfl⟩
          · exact .inl h
          · exact .inr ⟨h, .inr h'⟩
        · rintro (h | ⟨h, h' | h'⟩)
          · exact .inr (.inl h)
          · exact .inl h'
          · exact .inr (.inr ⟨h, h'⟩)

/-- C67, the part that holds (no name that some fixture names by `use_fixtures` is part of the name of an argument, or is the argument or the
fixture of an argument declared with `slash.use`): a function gets a value for each of its arguments (but `this`), which is that of the fixture
the argument names, and nothing else. -/
theorem C67_exactly_the_arguments_partial (lookup : Name → Option Nat) (extra : Nat → List Name) (n : Nat) (names : List Elem)
    (hn : (names.map Elem.arg).Nodup) (hx : ∀ f, ∀ x ∈ extra f, wanted names x = false) (d : List (Name × Nat))
    (h : fixtureDict lookup extra n names = .ok d) :
    (d.map (·.1)).Nodup ∧ ∀ a f, (a, f) ∈ d ↔ ∃ e ∈ names, e ≠ this ∧ e.arg = a ∧ lookup e.real = some f := by
  unfold fixtureDict at h
  cases hs : fixturesSet lookup extra n names [] with
  | unknown => rw [hs] at h; cases h
  | deep => rw [hs] at h; cases h
  | ok s =>
    rw [hs] at h
    simp only [R.ok.injEq] at h
    obtain ⟨-, h2, h3⟩ := mem_fixturesSet _ _ _ _ _ _ hs
    have hdirect : ∀ x ∈ s, wanted names x.1 = true → ∃ e ∈ names, e ≠ this ∧ e.arg = x.1 ∧ lookup e.real = some x.2 := by
      intro x hxs hw
      rcases h3 x hxs with h | ⟨e, he, hne, h4, h5⟩ | ⟨f, hf⟩
      · cases h
      · exact ⟨e, he, hne, h4.symm, h5⟩
      · rw [hx f _ hf] at hw; cases hw
    have huniq : ∀ x ∈ s, ∀ y ∈ s, wanted names x.1 = true → wanted names y.1 = true → x.1 = y.1 → x = y := by
      intro x hx1 y hy1 hw hw' e
      obtain ⟨e1, m1, -, a1, l1⟩ := hdirect x hx1 hw
      obtain ⟨e2, m2, -, a2, l2⟩ := hdirect y hy1 hw'
      have : e1 = e2 := by
        exact inj_on_of_nodup_map hn m1 m2 (by rw [a1, a2, e])
      subst this
      rw [l1] at l2
      obtain ⟨x1, x2⟩ := x
      obtain ⟨y1, y2⟩ := y
      simp only [Option.some.injEq] at e l2
      rw [e, l2]
    have hfold : ∀ (l : List (Name × Nat)) (d0 : List (Name × Nat)), (∀ x ∈ l, x ∈ s) → (∀ x ∈ d0, x ∈ s ∧ wanted names x.1 = true) →
        (d0.map (·.1)).Nodup →
        ((l.foldl (fun d x => if wanted names x.1 then dset x.1 x.2 d else d) d0).map (·.1)).Nodup ∧
        ∀ x, x ∈ l.foldl (fun d x => if wanted names x.1 then dset x.1 x.2 d else d) d0 ↔ x ∈ d0 ∨ (x ∈ l ∧ wanted names x.1 = true) := by
      intro l
      induction l with
      | nil => intro d0 _ _ hnd; exact ⟨hnd, by simp⟩
      | cons y l ih =>
        intro d0 hl hd0 hnd
        rw [List.foldl_cons]
        by_cases hw : wanted names y.1 = true
        · rw [if_pos hw]
          obtain ⟨m1, m2⟩ := mem_dset y.1 y.2 d0 hnd
          have hy := hl y (by simp)
          obtain ⟨r1, r2⟩ := ih (dset y.1 y.2 d0) (fun x hx => hl x (by simp [hx])) (by
            intro x hx
            rcases (m2 x).1 hx with rfl | ⟨_, hx⟩
            · exact ⟨hy, hw⟩
            · exact hd0 x hx) m1
          refine ⟨r1, fun x => ?_⟩
          rw [r2, m2, List.mem_cons]
          constructor
          · rintro ((rfl | ⟨_, h⟩) | ⟨h, h'⟩)
            · exact .inr ⟨.inl rfl, hw⟩
            · exact .inl h
            · exact .inr ⟨.inr h, h'⟩
          · rintro (h | ⟨rfl | h, h'⟩)
            · by_cases e : x.1 = y.1
              · exact .inl (.inl (huniq x (hd0 x h).1 y hy (hd0 x h).2 hw e))
              · exact .inl (.inr ⟨e, h⟩)
            · exact .inl (.inl rfl)
            · exact .inr ⟨h, h'⟩
        · rw [if_neg hw]
          obtain ⟨r1, r2⟩ := ih d0 (fun x hx => hl x (by simp [hx])) hd0 hnd
          refine ⟨r1, fun x => ?_⟩
          rw [r2, List.mem_cons]
          constructor
          · rintro (h | ⟨h, h'⟩)
            · exact .inl h
            · exact .inr ⟨.inr h, h'⟩
          · rintro (h | ⟨rfl | h, h'⟩)
            · exact .inl h
            · exact absurd h' hw
            · exact .inr ⟨h, h'⟩
    obtain ⟨r1, r2⟩ := hfold s [] (fun x hx => hx) (by simp) (by simp)
    rw [h] at r1 r2
    refine ⟨r1, fun a f => ?_⟩
    rw [r2]
    simp only [List.not_mem_nil, false_or]
    constructor
    · rintro ⟨hm, hw⟩
      exact hdirect _ hm hw
    · rintro ⟨e, he, hne, rfl, hl⟩
      obtain ⟨f', hf', hm⟩ := h2 e he hne
      rw [hl] at hf'
      simp only [Option.some.injEq] at hf'
      subst hf'
      exact ⟨hm, wanted_arg names e he⟩

theorem requiredNames_mem (skip : List Name) (args : List (Name × Name)) (a r : Name) :
    (∃ e ∈ requiredNames skip args, e.arg = a ∧ e.real = r ∧ (e = this ↔ a = r ∧ a = "this".toList)) ↔ (a, r) ∈ args ∧ a ∉ skip := by
  have ht : ("this".toList : Name) = ['t', 'h', 'i', 's'] := by decide
  constructor
  · rintro ⟨e, he, rfl, rfl, -⟩
    obtain ⟨⟨x, y⟩, hx, rfl⟩ := List.mem_map.1 he
    obtain ⟨h1, h2⟩ := List.mem_filter.1 hx
    simp only [Bool.not_eq_true', List.contains_eq_mem, decide_eq_false_iff_not] at h2
    by_cases h : y = x
    · subst h; simpa [Elem.arg, Elem.real] using ⟨h1, h2⟩
    · simpa [h, Elem.arg, Elem.real] using ⟨h1, h2⟩
  · rintro ⟨h1, h2⟩
    refine ⟨if r = a then .one a else .two a r, ?_, ?_⟩
    · exact List.mem_map.2 ⟨(a, r), List.mem_filter.2 ⟨h1, by simpa using h2⟩, rfl⟩
    · rw [ht]
      by_cases h : r = a
      · subst h; simp [Elem.arg, Elem.real, this]
      · simp [h, Elem.arg, Elem.real, this, Ne.symm h]

/-- C67, for the arguments of a function (each with the name of the fixture it stands for, which is its own unless declared with
`slash.use`), some of which are parameters: the part that holds, if no name that some fixture names by `use_fixtures` is part of the
name of an argument or is the name an argument stands for. The function gets, for each of its arguments that is not a parameter (nor
`this`), the value of the fixture the argument stands for, and nothing else. -/
theorem C67_function_arguments_partial (lookup : Name → Option Nat) (extra : Nat → List Name) (n : Nat) (skip : List Name)
    (args : List (Name × Name)) (hn : (args.map (·.1)).Nodup)
    (hx : ∀ f, ∀ x ∈ extra f, ∀ a ∈ args, ¬ x <:+: a.1 ∧ x ≠ a.2) (d : List (Name × Nat))
    (h : fixtureDict lookup extra n (requiredNames skip args) = .ok d) :
    (d.map (·.1)).Nodup ∧ ∀ a f, (a, f) ∈ d ↔
      ∃ r, (a, r) ∈ args ∧ a ∉ skip ∧ ¬ (a = r ∧ a = "this".toList) ∧ lookup r = some f := by
  have harg : (requiredNames skip args).map Elem.arg = (args.filter (fun a => !(skip.contains a.1))).map (·.1) := by
    unfold requiredNames
    rw [List.map_map]
    apply List.map_congr_left
    intro x _
    by_cases h : x.2 = x.1 <;> simp [h, Elem.arg]
  have key := C67_exactly_the_arguments_partial lookup extra n (requiredNames skip args)
    (by rw [harg]; exact hn.sublist (List.filter_sublist.map _))
    (by
      intro f x hxf
      unfold wanted
      have hno : ∀ e ∈ requiredNames skip args, inElem x e = false ∧ e ≠ .one x := by
        intro e he
        obtain ⟨⟨a, r⟩, ha, rfl⟩ := List.mem_map.1 he
        obtain ⟨h1, h2⟩ := hx f x hxf _ (List.mem_filter.1 ha).1
        by_cases h : r = a
        · subst h
          refine ⟨?_, by simpa using h2.symm⟩
          simp only [if_true, inElem]
          rw [Bool.eq_false_iff]
          intro hi
          exact h1 ((Pat.isIn_iff x r).1 hi)
        · simp only [h, if_false, inElem, ne_eq, reduceCtorEq, not_false_eq_true, and_true, Bool.or_eq_false_iff, beq_eq_false_iff_ne]
          refine ⟨?_, h2⟩
          rintro rfl
          exact h1 (List.infix_refl _)
      rw [Bool.or_eq_false_iff]
      constructor
      · simp only [List.contains_eq_mem, decide_eq_false_iff_not]
        intro hm; exact (hno _ hm).2 rfl
      · rw [List.any_eq_false]
        intro e he; simp [(hno e he).1]) d h
  refine ⟨key.1, fun a f => (key.2 a f).trans ?_⟩
  constructor
  · rintro ⟨e, he, hne, rfl, hl⟩
    obtain ⟨⟨x, y⟩, hm, hxy⟩ := List.mem_map.1 he
    have hxm := List.mem_filter.1 hm
    have e1 : e.arg = x ∧ e.real = y ∧ (e = this ↔ x = y ∧ x = "this".toList) := by
      rw [← hxy]
      have ht : ("this".toList : Name) = ['t', 'h', 'i', 's'] := by decide
      rw [ht]
      by_cases h : y = x
      · subst h; simp [Elem.arg, Elem.real, this]
      · simp [h, Elem.arg, Elem.real, this, Ne.symm h]
    obtain ⟨e1, e2, e3⟩ := e1
    rw [e1]
    refine ⟨y, hxm.1, by simpa using hxm.2, fun hh => hne (e3.2 hh), e2 ▸ hl⟩
  · rintro ⟨r, h1, h2, h3, h4⟩
    obtain ⟨e, he, a1, a2, a3⟩ := (requiredNames_mem skip args a r).2 ⟨h1, h2⟩
    exact ⟨e, he, fun hh => h3 (a3.1 hh), a1, a2 ▸ h4⟩

/-- parameter `p`, `this`, and an argument standing for another fixture -/
example : fixtureDict (fun n => if n = ['a'] then some 1 else if n = ['c'] then some 3 else none) (fun _ => []) 9
    (requiredNames [['p']] [(['p'], ['p']), ("this".toList, "this".toList), (['a'], ['a']), (['b'], ['c'])]) = .ok [(['a'], 1), (['b'], 3)] := by
  decide

/-- arguments `a` and `b` (standing for `c`), with `a` using `d` -/
example : fixtureDict (fun n => if n = ['a'] then some 1 else if n = ['c'] then some 3 else if n = ['d'] then some 4 else none)
    (fun f => if f = 1 then [['d']] else []) 9 (requiredNames [] [(['a'], ['a']), (['b'], ['c'])]) = .ok [(['a'], 1), (['b'], 3)] := by
  decide

/-- C67 fails if a fixture names by `use_fixtures` something that is part of the name of an argument: for the argument `ab`, whose fixture uses
`b`, the function is given a value for `b` as well, which it does not take. -/
theorem C67_part_of_name_violated :
    fixtureDict (fun n => if n = ['a', 'b'] then some 1 else if n = ['b'] then some 2 else none) (fun f => if f = 1 then [['b']] else []) 9
      [.one ['a', 'b']] = .ok [(['a', 'b'], 1), (['b'], 2)] := by
  decide

/-- C67 fails if a fixture names by `use_fixtures` the same name as an argument which stands for another fixture: for the arguments `a` and
`b`, the latter standing for `c`, where the fixture of `a` uses `b`, the argument `b` gets the fixture `b`. -/
theorem C67_wrong_fixture_violated :
    fixtureDict (fun n => if n = ['a'] then some 1 else if n = ['b'] then some 2 else if n = ['c'] then some 3 else none)
      (fun f => if f = 1 then [['b']] else []) 9 [.two ['b'] ['c'], .one ['a']] = .ok [(['b'], 2), (['a'], 1)] := by
  decide

/-! ## C68 -/

/-- C68, the part that holds (each function has its own list): applying `use_fixtures` to a function adds the names to those of the function,
and does not change those of any other function. -/
theorem C68_use_fixtures_local_partial (h : Lists) (l func : Nat) (hown : ∀ g, g ≠ func → h.ref g = h.ref func → h.ref g = none) :
    attached (useFixtures h l func) func = (match h.ref func with | none => h.list l | some r => h.list r ++ h.list l) ∧
    ∀ g, g ≠ func → attached (useFixtures h l func) g = attached h g := by
  unfold useFixtures attached
  cases hr : h.ref func with
  | none =>
    refine ⟨by simp, fun g hg => ?_⟩
    simp [hg]
  | some r =>
    refine ⟨by simp [hr], fun g hg => ?_⟩
    cases hg' : h.ref g with
    | none => rfl
    | some r' =>
      have : r' ≠ r := by
        rintro rfl
        have := hown g hg (by rw [hg', hr])
        rw [this] at hg'; cases hg'
      simp [this]

/-- a second list for function 0 -/
example : let h := useFixtures (useFixtures ⟨fun _ => none, fun l => [l + 10]⟩ 0 0) 1 0
    attached h 0 = [10, 11] ∧ attached h 1 = [] := by
  decide

/-- C68 fails if one list is given to two functions: names added to the first of them by another `use_fixtures` are added to the second one
too. -/
theorem C68_shared_list_violated :
    let h1 := useFixtures (useFixtures ⟨fun _ => none, fun l => [l + 10]⟩ 0 0) 0 1
    let h2 := useFixtures h1 1 0
    attached h1 1 = [10] ∧ attached h2 1 = [10, 11] := by
  decide

end Slash.Args
