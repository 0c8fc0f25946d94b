import Verif.Model.Exclusion
/-!
# Exclusions: property C27
-/
namespace Slash.Excl

theorem paramValues_some (value : Nat → Option Nat) (ns : List Nat) (h : ∀ n ∈ ns, value n ≠ none) :
    ∃ vs, paramValues value ns = some vs ∧ vs.map some = ns.map value := by
  induction ns with
  | nil => exact ⟨[], rfl, rfl⟩
  | cons n ns ih =>
    obtain ⟨vs, h1, h2⟩ := ih (fun n hn => h n (by simp [hn]))
    cases hv : value n with
    | none => exact absurd hv (h n (by simp))
    | some v => exact ⟨v :: vs, by simp [paramValues, hv, h1], by simp [h2, hv]⟩

theorem map_some_inj {a b : List Nat} (h : a.map some = b.map some) : a = b := by
  induction a generalizing b with
  | nil => cases b <;> simp_all
  | cons x a ih => cases b with
    | nil => simp at h
    | cons y b => simp only [List.map_cons, List.cons.injEq, Option.some.injEq] at h; rw [h.1, ih h.2]

theorem dset_new (k : List Nat) (v : List (List Nat)) (t : List (List Nat × List (List Nat))) (h : k ∉ t.map (·.1)) : dset k v t = t ++ [(k, v)] := by
  induction t with
  | nil => rfl
  | cons e t ih =>
    simp only [List.map_cons, List.mem_cons, not_or] at h
    rw [dset, if_neg (fun e => h.1 e.symm), ih h.2]
    rfl

theorem toDict_distinct (ds : List Decl) (h : (ds.map (·.names)).Nodup) : toDict ds = ds.map (fun d => (d.names, d.sets)) := by
  unfold toDict
  have : ∀ (l : List Decl) t, (l.map (·.names)).Nodup → (∀ d ∈ l, d.names ∉ t.map (·.1)) →
      l.foldl (fun t d => dset d.names d.sets t) t = t ++ l.map (fun d => (d.names, d.sets)) := by
    intro l
    induction l with
    | nil => intro t _ _; simp
    | cons d l ih =>
      intro t hn ht
      simp only [List.map_cons, List.nodup_cons] at hn
      rw [List.foldl_cons, dset_new _ _ _ (ht d (by simp)), ih _ hn.2]
      · simp
      · intro d' hd'
        simp only [List.map_append, List.map_cons, List.map_nil, List.mem_append, List.mem_singleton, not_or]
        exact ⟨ht d' (by simp [hd']), fun e => hn.1 (e ▸ List.mem_map.2 ⟨d', hd', rfl⟩)⟩
  rw [this ds [] h (by simp)]
  rfl

theorem checkDecls_spec (value : Nat → Option Nat) (ds : List (List Nat × List (List Nat))) (h : ∀ d ∈ ds, ∀ n ∈ d.1, value n ≠ none) :
    (checkDecls value ds = .yes ↔ ∃ d ∈ ds, ∃ vs ∈ d.2, vs.map some = d.1.map value) ∧
    (checkDecls value ds = .no ↔ ¬ ∃ d ∈ ds, ∃ vs ∈ d.2, vs.map some = d.1.map value) := by
  induction ds with
  | nil => simp [checkDecls]
  | cons d ds ih =>
    obtain ⟨ns, sets⟩ := d
    obtain ⟨ih1, ih2⟩ := ih (fun d hd => h d (by simp [hd]))
    obtain ⟨vs, h1, h2⟩ := paramValues_some value ns (h (ns, sets) (by simp))
    simp only [checkDecls, h1]
    by_cases hc : sets.contains vs = true
    · rw [if_pos hc]
      have : ∃ d ∈ (ns, sets) :: ds, ∃ vs ∈ d.2, vs.map some = d.1.map value := ⟨(ns, sets), by simp, vs, by simpa using hc, h2⟩
      exact ⟨⟨fun _ => this, fun _ => rfl⟩, ⟨fun h => (by cases h), fun h => absurd this h⟩⟩
    · rw [if_neg hc, ih1, ih2]
      have : (∃ d ∈ (ns, sets) :: ds, ∃ vs ∈ d.2, vs.map some = d.1.map value) ↔ ∃ d ∈ ds, ∃ vs ∈ d.2, vs.map some = d.1.map value := by
        constructor
        · rintro ⟨d, hd, vs', h3, h4⟩
          rcases List.mem_cons.1 hd with rfl | hd
          · simp only at h3 h4
            have : vs' = vs := map_some_inj (h4.trans h2.symm)
            subst this
            exact absurd (by simpa using h3) hc
          · exact ⟨d, hd, vs', h3, h4⟩
        · rintro ⟨d, hd, r⟩
          exact ⟨d, by simp [hd], r⟩
      rw [this]
      exact ⟨Iff.rfl, Iff.rfl⟩

/-- C27, the part that holds (the declarations name parameters the test has, in tuples, no two declarations on one function name the same
parameters; and only those on the test and on the fixtures among its arguments count): a test is excluded iff for one of the declarations,
the values of all the named parameters are one of the listed combinations. -/
theorem C27_excluded_iff_partial (value : Nat → Nat → Option Nat) (decls : Nat → List Decl) (nofix : Bool) (fixtures : List Nat) (test : Nat)
    (h1 : ∀ e, e = test ∨ e ∈ fixtures → ∀ d ∈ decls e, d.isList = false ∧ ∀ n ∈ d.names, value e n ≠ none)
    (h2 : ∀ e, e = test ∨ e ∈ fixtures → ((decls e).map (·.names)).Nodup) :
    let listed := ∃ e, (e = test ∨ (nofix = false ∧ e ∈ fixtures)) ∧ ∃ d ∈ decls e, ∃ vs ∈ d.sets, vs.map some = d.names.map (value e)
    (isExcluded value decls nofix fixtures test = .yes ↔ listed) ∧ (isExcluded value decls nofix fixtures test = .no ↔ ¬ listed) := by
  have hall : ∀ es : List Nat, (∀ e ∈ es, e = test ∨ e ∈ fixtures) →
      (checkAll value decls es = .yes ↔ ∃ e ∈ es, ∃ d ∈ decls e, ∃ vs ∈ d.sets, vs.map some = d.names.map (value e)) ∧
      (checkAll value decls es = .no ↔ ¬ ∃ e ∈ es, ∃ d ∈ decls e, ∃ vs ∈ d.sets, vs.map some = d.names.map (value e)) := by
    intro es
    induction es with
    | nil => intro _; simp [checkAll]
    | cons e es ih =>
      intro hes
      obtain ⟨ih1, ih2⟩ := ih (fun e he => hes e (by simp [he]))
      have he := hes e (by simp)
      have hl : (decls e).any (·.isList) = false := by
        simp only [List.any_eq_false]
        intro d hd
        simp [(h1 e he d hd).1]
      have hspec := checkDecls_spec (value e) (toDict (decls e)) (by
        rw [toDict_distinct _ (h2 e he)]
        intro d hd
        obtain ⟨d', hd', rfl⟩ := List.mem_map.1 hd
        exact (h1 e he d' hd').2)
      have hconv : (∃ d ∈ toDict (decls e), ∃ vs ∈ d.2, vs.map some = d.1.map (value e)) ↔
          ∃ d ∈ decls e, ∃ vs ∈ d.sets, vs.map some = d.names.map (value e) := by
        rw [toDict_distinct _ (h2 e he)]
        constructor
        · rintro ⟨d, hd, r⟩
          obtain ⟨d', hd', rfl⟩ := List.mem_map.1 hd
          exact ⟨d', hd', r⟩
        · rintro ⟨d, hd, r⟩
          exact ⟨_, List.mem_map.2 ⟨d, hd, rfl⟩, r⟩
      rw [hconv] at hspec
      simp only [checkAll, hl, Bool.false_eq_true, if_false]
      by_cases hy : ∃ d ∈ decls e, ∃ vs ∈ d.sets, vs.map some = d.names.map (value e)
      · rw [hspec.1.2 hy]
        have : ∃ e' ∈ e :: es, ∃ d ∈ decls e', ∃ vs ∈ d.sets, vs.map some = d.names.map (value e') := ⟨e, by simp, hy⟩
        exact ⟨⟨fun _ => this, fun _ => rfl⟩, ⟨fun h => (by cases h), fun h => absurd this h⟩⟩
      · rw [hspec.2.2 hy]
        simp only
        rw [ih1, ih2]
        have : (∃ e' ∈ e :: es, ∃ d ∈ decls e', ∃ vs ∈ d.sets, vs.map some = d.names.map (value e')) ↔
            ∃ e' ∈ es, ∃ d ∈ decls e', ∃ vs ∈ d.sets, vs.map some = d.names.map (value e') := by
          constructor
          · rintro ⟨e', he', r⟩
            rcases List.mem_cons.1 he' with rfl | he'
            · exact absurd r hy
            · exact ⟨e', he', r⟩
          · rintro ⟨e', he', r⟩
            exact ⟨e', by simp [he'], r⟩
        rw [this]
        exact ⟨Iff.rfl, Iff.rfl⟩
  have := hall ((if nofix then [] else fixtures) ++ [test]) (by
    intro e he
    rcases List.mem_append.1 he with h | h
    · cases nofix
      · exact .inr (by simpa using h)
      · simp at h
    · exact .inl (by simpa using h))
  have hmem : ∀ e, e ∈ (if nofix then [] else fixtures) ++ [test] ↔ e = test ∨ (nofix = false ∧ e ∈ fixtures) := by
    intro e
    cases nofix <;> simp [or_comm]
  simp only [hmem] at this
  exact this

/-- C27: what `exclude` makes of its arguments: for one name, each of the values by itself; for several, the tuples of values. -/
theorem C27_declaration (n : Nat) (vs : List Nat) (ns : List Nat) (ts : List (List Nat)) (isList : Bool) :
    exclude (.single n (some vs)) = some ⟨false, [n], vs.map (fun v => [v])⟩ ∧
    exclude (.many isList ns (some (ts.map some))) = some ⟨isList, ns, ts⟩ := by
  refine ⟨rfl, ?_⟩
  have : allTuples (ts.map some) = some ts := by
    induction ts with
    | nil => rfl
    | cons t ts ih => simp [allTuples, ih]
  simp [exclude, this]

/-- C27: values that are not a sequence, or of which one is not a tuple (when there are several names), are refused. -/
theorem C27_malformed_refused (c : Call) :
    exclude c = none ↔ (∃ n, c = .single n none) ∨ (∃ l ns, c = .many l ns none) ∨ (∃ l ns vs, c = .many l ns (some vs) ∧ none ∈ vs) := by
  have key : ∀ vs, allTuples vs = none ↔ none ∈ vs := by
    intro vs
    induction vs with
    | nil => simp [allTuples]
    | cons v vs ih => cases v <;> simp [allTuples, ih]
  cases c with
  | single n v => cases v <;> simp [exclude]
  | many l ns v =>
    cases v with
    | none => simp [exclude]
    | some vs =>
      simp only [exclude, Option.map_eq_none_iff, key]
      constructor
      · intro h; exact .inr (.inr ⟨l, ns, vs, rfl, h⟩)
      · rintro (⟨n, h⟩ | ⟨_, _, h⟩ | ⟨_, _, _, h, hv⟩)
        · cases h
        · cases h
        · cases h; exact hv

example : exclude (.many false [3, 4] (some [some [1, 2], none])) = none := rfl

theorem paramValues_none (value : Nat → Option Nat) (ns : List Nat) : paramValues value ns = none ↔ ∃ n ∈ ns, value n = none := by
  induction ns with
  | nil => simp [paramValues]
  | cons n ns ih =>
    cases h : value n with
    | none => simp [paramValues, h]
    | some v => simp [paramValues, h, ih]

theorem dset_keys (k : List Nat) (v : List (List Nat)) (t : List (List Nat × List (List Nat))) :
    ∀ x, x ∈ (dset k v t).map (·.1) ↔ x = k ∨ x ∈ t.map (·.1) := by
  intro x
  induction t with
  | nil => simp [dset]
  | cons e t ih =>
    simp only [dset]
    split
    · rename_i h; subst h; simp
    · simp only [List.map_cons, List.mem_cons, ih]
      constructor
      · rintro (h | h | h) <;> simp [h]
      · rintro (h | h | h) <;> simp [h]

theorem toDict_keys (ds : List Decl) (x : List Nat) : x ∈ (toDict ds).map (·.1) ↔ ∃ d ∈ ds, d.names = x := by
  have key : ∀ (ds : List Decl) t, x ∈ (ds.foldl (fun t d => dset d.names d.sets t) t).map (·.1) ↔ (∃ d ∈ ds, d.names = x) ∨ x ∈ t.map (·.1) := by
    intro ds
    induction ds with
    | nil => intro t; simp
    | cons d ds ih =>
      intro t
      rw [List.foldl_cons, ih, dset_keys]
      constructor
      · rintro (⟨d', h, e⟩ | h | h)
        · exact .inl ⟨d', by simp [h], e⟩
        · exact .inl ⟨d, by simp, h.symm⟩
        · exact .inr h
      · rintro (⟨d', h, e⟩ | h)
        · rcases List.mem_cons.1 h with rfl | h
          · exact .inr (.inl e.symm)
          · exact .inl ⟨d', h, e⟩
        · exact .inr (.inr h)
  rw [toDict, key]
  simp

theorem checkDecls_not_no (value : Nat → Option Nat) (ds : List (List Nat × List (List Nat))) (h : checkDecls value ds = .no) :
    ∀ d ∈ ds, ∀ n ∈ d.1, value n ≠ none := by
  induction ds with
  | nil => simp
  | cons d ds ih =>
    obtain ⟨ns, sets⟩ := d
    rw [checkDecls] at h
    cases hp : paramValues value ns with
    | none => rw [hp] at h; cases h
    | some vs =>
      rw [hp] at h
      simp only at h
      split at h
      · cases h
      · intro d hd
        rcases List.mem_cons.1 hd with rfl | hd
        · intro n hn hv
          rw [(paramValues_none value ns).2 ⟨n, hn, hv⟩] at hp
          cases hp
        · exact ih h d hd

theorem checkDecls_unknown (value : Nat → Option Nat) (ds : List (List Nat × List (List Nat))) (h : checkDecls value ds = .unknown) :
    ∃ d ∈ ds, ∃ n ∈ d.1, value n = none := by
  induction ds with
  | nil => cases h
  | cons d ds ih =>
    obtain ⟨ns, sets⟩ := d
    rw [checkDecls] at h
    cases hp : paramValues value ns with
    | none => exact ⟨(ns, sets), by simp, (paramValues_none value ns).1 hp⟩
    | some vs =>
      rw [hp] at h
      simp only at h
      split at h
      · cases h
      · obtain ⟨d, hd, r⟩ := ih h
        exact ⟨d, by simp [hd], r⟩

/-- C27: a declaration that names a parameter the test does not have is never passed over: if the answer is that the test is
not excluded, every name in every declaration on the test and on the fixtures among its arguments has a value; ... -/
theorem C27_unknown_not_ignored (value : Nat → Nat → Option Nat) (decls : Nat → List Decl) (nofix : Bool) (fixtures : List Nat) (test : Nat)
    (h : isExcluded value decls nofix fixtures test = .no) (e : Nat) (he : e = test ∨ (nofix = false ∧ e ∈ fixtures)) :
    ∀ d ∈ decls e, ∀ n ∈ d.names, value e n ≠ none := by
  have key : ∀ es, checkAll value decls es = .no → ∀ e ∈ es, ∀ d ∈ decls e, ∀ n ∈ d.names, value e n ≠ none := by
    intro es
    induction es with
    | nil => simp
    | cons e es ih =>
      intro h
      rw [checkAll] at h
      split at h
      · cases h
      · split at h
        · next hc =>
          intro e' he'
          rcases List.mem_cons.1 he' with rfl | he'
          · intro d hd n hn
            obtain ⟨d', hd', hk⟩ := List.mem_map.1 ((toDict_keys _ _).2 ⟨d, hd, rfl⟩)
            exact checkDecls_not_no _ _ hc d' hd' n (hk ▸ hn)
          · exact ih h e' he'
        · next hc => exact absurd h hc
  apply key _ h
  rcases he with rfl | ⟨rfl, he⟩
  · simp
  · simp [he]

/-- ... and unknown names are only complained about if there is one. -/
theorem C27_unknown_complaint (value : Nat → Nat → Option Nat) (decls : Nat → List Decl) (nofix : Bool) (fixtures : List Nat) (test : Nat)
    (h : isExcluded value decls nofix fixtures test = .unknown) :
    ∃ e, (e = test ∨ (nofix = false ∧ e ∈ fixtures)) ∧ ∃ d ∈ decls e, ∃ n ∈ d.names, value e n = none := by
  have key : ∀ es, checkAll value decls es = .unknown → ∃ e ∈ es, ∃ d ∈ decls e, ∃ n ∈ d.names, value e n = none := by
    intro es
    induction es with
    | nil => intro h; cases h
    | cons e es ih =>
      intro h
      rw [checkAll] at h
      split at h
      · cases h
      · split at h
        · obtain ⟨e', he', r⟩ := ih h
          exact ⟨e', by simp [he'], r⟩
        · obtain ⟨d, hd, n, hn, hv⟩ := checkDecls_unknown _ _ h
          obtain ⟨d', hd', hk⟩ := (toDict_keys (decls e) d.1).1 (List.mem_map.2 ⟨d, hd, rfl⟩)
          exact ⟨e, by simp, d', hd', n, hk ▸ hn, hv⟩
  obtain ⟨e, he, r⟩ := key _ h
  refine ⟨e, ?_, r⟩
  cases nofix <;> simp at he
  · exact he.symm.imp_right (fun h => ⟨rfl, h⟩)
  · exact .inl he

example : isExcluded (fun _ n => if n = 3 then none else some 1) (fun e => if e = 1 then [⟨false, [4], [[2]]⟩, ⟨false, [4, 3], []⟩] else []) false [1] 2 = .unknown := by
  decide

/-- a test (2) with an argument whose fixture (1) excludes a combination -/
example : isExcluded (fun _ n => some (n + 10)) (fun e => if e = 1 then [⟨false, [3, 4], [[0, 0], [13, 14]]⟩] else []) false [1] 2 = .yes ∧
    isExcluded (fun _ n => some (n + 10)) (fun e => if e = 1 then [⟨false, [3, 4], [[13, 0], [0, 14]]⟩] else []) false [1] 2 = .no := by
  decide

/-- C27 fails for two declarations with the same names: only the one applied last (the outer one) counts. -/
theorem C27_same_names_violated :
    isExcluded (fun _ _ => some 1) (fun _ => [⟨false, [3], [[1]]⟩, ⟨false, [3], [[2]]⟩]) false [] 0 = .no := by
  decide

/-- C27 fails for declarations on a fixture the test uses through another fixture: only the fixtures among the arguments are looked at.
(Fixture 1 is an argument, and uses fixture 5, on which the value of parameter 3 is excluded.) -/
theorem C27_indirect_fixture_violated :
    isExcluded (fun _ _ => some 1) (fun e => if e = 5 then [⟨false, [3], [[1]]⟩] else []) false [1] 0 = .no := by
  decide

/-- C27 fails for several names given as a list (which `exclude` accepts): the check itself raises an error. -/
theorem C27_names_in_list_violated :
    ∃ d, exclude (.many true [3, 4] (some [some [0, 0]])) = some d ∧
      isExcluded (fun _ _ => some 1) (fun _ => [d]) false [] 0 = .typeError :=
  ⟨_, rfl, by decide⟩

end Slash.Excl
