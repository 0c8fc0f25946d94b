import Verif.Model.Override
import Verif.Model.FixtureGraph
import Verif.Props.Namespace
/-! The marks of fixtures in the output of `slash list`: C174. -/
namespace Slash.NS

theorem overrideFrom_base {st : Store} (hok : Ok st) {base : List (Nat × Nat)} (h0 : st.nss[0]? = some { names := base }) (name id fuel : Nat) :
    overrideFrom st name id (fuel + 1) (some 0) = true ↔ ∃ g, base.lookup name = some g ∧ g ≠ id := by
  unfold overrideFrom
  rw [lookupName_unfold hok h0]
  simp only [Option.bind_none, Option.or_none, h0, Option.bind_some]
  cases base.lookup name with
  | none => simp
  | some g =>
    by_cases e : g = id
    · subst e
      cases fuel <;> simp [overrideFrom]
    · simp [e]

/-- A namespace without that name or with that fixture: the answer is the one of the next namespace. -/
theorem overrideFrom_step {st : Store} (hok : Ok st) {p q : Nat} {names : List (Nat × Nat)}
    (hp : st.nss[p]? = some { parent := some q, names := names }) (name id fuel : Nat) :
    overrideFrom st name id (fuel + 1) (some p) =
      match (names.lookup name).or (lookupName st q name) with
      | none => false
      | some f => if f ≠ id then true else overrideFrom st name id fuel (some q) := by
  rw [overrideFrom, lookupName_unfold hok hp]
  simp only [Option.bind_some, hp]
  rfl

/-- All fixtures of a file and of its `slashconf` files are known in it, and have their names. -/
theorem enterFile_known {confs : List (List (Nat × FDecl))} {module : List (Nat × FDecl)} {st st' : Store} (hok : Ok st)
    (h : enterFile confs module st = some st') :
    (∀ d ∈ module.map (·.2), (∃ n, st'.fixtures.lookup d.id = some n) ∧
      ∃ ns, st'.nss[current st']? = some ns ∧ ns.names.lookup d.name = some d.id) ∧
    ∀ d ∈ (buildConfig confs).map (·.2), (∃ n, st'.fixtures.lookup d.id = some n) ∧
      ∃ ns, st'.nss[st.nss.length]? = some ns ∧ ns.names.lookup d.name = some d.id := by
  unfold enterFile at h
  cases hA : addDict ((buildConfig confs).map (·.2)) (pushNs st) with
  | none => rw [hA] at h; cases h
  | some s1 =>
    rw [hA] at h
    simp only at h
    obtain ⟨o0, c0, -, -⟩ := ok_push hok
    obtain ⟨g1, f1, -, ns, nc, -, a2, -, a4, -⟩ := addDict_spec _ o0 hA
    obtain ⟨o2, c2, -, q2⟩ := ok_push g1.ok
    obtain ⟨g3, f3, -, ns', nm, -, b2, -, b4, -⟩ := addDict_spec _ o2 h
    rw [c0] at a2
    have hlen : st.nss.length < s1.nss.length := by
      have := g1.len
      simp only [pushNs, List.length_append, List.length_singleton] at this
      omega
    refine ⟨fun d hd => ⟨f3 d hd, _, by rw [g3.cur]; exact b2, b4 d hd⟩, fun d hd => ⟨?_, { ns with names := nc }, ?_, a4 d hd⟩⟩
    · obtain ⟨n, hn⟩ := f1 d hd
      exact ⟨n, g3.fixOld _ _ hn⟩
    · rw [g3.old st.nss.length (by simp only [pushNs, List.length_append, List.length_singleton]; omega) (by rw [c2]; omega), q2 _ hlen]
      exact a2

theorem firstOf_none {confs : List (List (Nat × FDecl))} (k : Nat) : firstOf confs k = none ↔ ∀ c ∈ confs, c.lookup k = none := by
  induction confs with
  | nil => simp [firstOf]
  | cons c cs ih => simp [firstOf, ih]

theorem firstOf_mem {confs : List (List (Nat × FDecl))} {k : Nat} {e : FDecl} (h : firstOf confs k = some e) : ∃ c ∈ confs, c.lookup k = some e := by
  induction confs with
  | nil => cases h
  | cons c cs ih =>
    simp only [firstOf] at h
    cases hc : c.lookup k with
    | some e' =>
      rw [hc] at h
      simp only [Option.some_or, Option.some.injEq] at h
      exact ⟨c, List.mem_cons_self .., by rw [hc, h]⟩
    | none =>
      rw [hc] at h
      obtain ⟨c', h1, h2⟩ := ih h
      exact ⟨c', List.mem_cons_of_mem _ h1, h2⟩

/-- A fixture of a test file is marked as overriding another one exactly if a fixture of that name is defined in a `slashconf` of a directory
above, or is known everywhere; whatever files were loaded before. -/
theorem C174_file_partial (base : List (Nat × Nat)) (st st' : Store) (hst : Files base st)
    (confs : List (List (Nat × FDecl))) (module : List (Nat × FDecl)) (hp : Plain confs) (h : enterFile confs module st = some st')
    (d : FDecl) (hd : d ∈ module.map (·.2)) (hnew : st.fixtures.lookup d.id = none)
    (hc : ∀ c ∈ confs, ∀ p ∈ c, p.2.id ≠ d.id) (hb : ∀ p ∈ base, p.2 ≠ d.id) :
    isOverride st' d.name d.id = true ↔ (∃ c ∈ confs, ∃ p ∈ c, p.2.name = d.name) ∨ ∃ p ∈ base, p.1 = d.name := by
  obtain ⟨hok, hs, h0⟩ := files_spec hst
  obtain ⟨o, ⟨m, hst', ⟨nm, k1, k2⟩, kf⟩, ⟨nc, k3, k4⟩, hold, -, -⟩ := enterFile_spec hok h
  have hc0 : current st = 0 := by simp [current, hs]
  have hlt : 0 < st.nss.length := hc0 ▸ hok.current
  have h0' := (hold 0 hlt).trans h0
  obtain ⟨hb1, hb2⟩ := buildConfig_spec confs (fun c hc => (hp c hc).1)
  have hnb : ¬ ∃ p ∈ buildConfig confs, p.2.id = d.id := by
    rintro ⟨p, hpm, e⟩
    have := lookup_of_mem hb1 (show (p.1, p.2) ∈ buildConfig confs from hpm)
    rw [hb2] at this
    obtain ⟨c, hcm, hl⟩ := firstOf_mem this
    exact hc c hcm _ (mem_of_lookup hl) e
  obtain ⟨n, hn⟩ : ∃ n, st'.fixtures.lookup d.id = some n := ((enterFile_known hok h).1 d hd).1
  have hpar : st'.nss[n]? = some { parent := some m } := by
    rcases kf d.id n hnew hn with ⟨e, -⟩ | ⟨-, e⟩
    · exact absurd e hnb
    · exact e
  have hmn : m < n := o.parent n _ m hpar rfl
  have hsm : st.nss.length < m := o.parent m _ _ k1 rfl
  obtain ⟨j, hj⟩ : ∃ j, n = j + 2 := ⟨n - 2, by omega⟩
  unfold isOverride
  rw [hn]
  simp only [hpar, Option.bind_some]
  rw [hj, overrideFrom_step o k1, k2]
  have hdef : defOf (module.map (·.2)) d.name = some d.id := by
    obtain ⟨ns, e1, e2⟩ := ((enterFile_known hok h).1 d hd).2
    rw [show current st' = m by simp [current, hst'], k1] at e1
    cases e1
    rw [← k2]; exact e2
  rw [hdef]
  simp only [Option.some_or, ne_eq, not_true_eq_false, if_false]
  rw [hc0] at k3
  rw [overrideFrom_step o k3, k4, conf_defOf hp]
  have hbase : lookupName st' 0 d.name = base.lookup d.name := by
    rw [lookupName_unfold o h0']; simp
  rw [hbase]
  cases hf : firstOf confs d.name with
  | some e =>
    obtain ⟨c, hcm, hl⟩ := firstOf_mem hf
    have hne : e.id ≠ d.id := hc c hcm _ (mem_of_lookup hl)
    simp only [Option.map_some, Option.some_or, ne_eq, hne, not_false_eq_true, if_true, true_iff]
    exact .inl ⟨c, hcm, _, mem_of_lookup hl, ((hp c hcm).2 _ (mem_of_lookup hl)).symm⟩
  | none =>
    have hnone := (firstOf_none d.name).1 hf
    have hleft : ¬ ∃ c ∈ confs, ∃ p ∈ c, p.2.name = d.name := by
      rintro ⟨c, hcm, p, hpm, e⟩
      have := lookup_of_mem (hp c hcm).1 (show (p.1, p.2) ∈ c from hpm)
      rw [(hp c hcm).2 p hpm, e, hnone c hcm] at this
      cases this
    simp only [Option.map_none, Option.none_or, hleft, false_or]
    cases hbl : base.lookup d.name with
    | none =>
      simp only [Bool.false_eq_true, false_iff]
      rintro ⟨p, hpm, e⟩
      have := List.lookup_eq_none_iff.1 hbl p hpm
      simp [e] at this
    | some g =>
      have := mem_of_lookup hbl
      simp only [ne_eq, hb _ this, not_false_eq_true, if_true, true_iff]
      exact ⟨_, this, rfl⟩

/-- A fixture of a `slashconf` is marked exactly if a fixture of that name is known everywhere; the `slashconf` files of directories further up are not
considered. -/
theorem C174_slashconf_partial (base : List (Nat × Nat)) (st st' : Store) (hst : Files base st)
    (confs : List (List (Nat × FDecl))) (module : List (Nat × FDecl)) (h : enterFile confs module st = some st')
    (d : FDecl) (hd : d ∈ (buildConfig confs).map (·.2)) (hnew : st.fixtures.lookup d.id = none) (hb : ∀ p ∈ base, p.2 ≠ d.id) :
    isOverride st' d.name d.id = true ↔ ∃ p ∈ base, p.1 = d.name := by
  obtain ⟨hok, hs, h0⟩ := files_spec hst
  obtain ⟨o, ⟨m, hst', -, kf⟩, ⟨nc, k3, k4⟩, hold, -, -⟩ := enterFile_spec hok h
  have hc0 : current st = 0 := by simp [current, hs]
  have hlt : 0 < st.nss.length := hc0 ▸ hok.current
  have h0' := (hold 0 hlt).trans h0
  obtain ⟨⟨n, hn⟩, ns, e1, e2⟩ := (enterFile_known hok h).2 d hd
  rw [k3] at e1
  cases e1
  obtain ⟨p, hp, hpd⟩ := List.mem_map.1 hd
  have hpar : st'.nss[n]? = some { parent := some st.nss.length } := by
    rcases kf d.id n hnew hn with ⟨-, e⟩ | ⟨e, -⟩
    · exact e
    · exact absurd ⟨p, hp, by rw [hpd]⟩ e
  have hmn : st.nss.length < n := o.parent n _ _ hpar rfl
  obtain ⟨j, hj⟩ : ∃ j, n = j + 1 := ⟨n - 1, by omega⟩
  unfold isOverride
  rw [hn]
  simp only [hpar, Option.bind_some]
  rw [hc0] at k3
  rw [hj, overrideFrom_step o k3, e2]
  simp only [Option.some_or, ne_eq, not_true_eq_false, if_false]
  rw [overrideFrom_base o h0']
  constructor
  · rintro ⟨g, hg, -⟩
    exact ⟨_, mem_of_lookup hg, rfl⟩
  · rintro ⟨q, hq, e⟩
    cases hl : base.lookup d.name with
    | none =>
      have := List.lookup_eq_none_iff.1 hl q hq
      simp [e] at this
    | some g => exact ⟨g, rfl, hb _ (mem_of_lookup hl)⟩

theorem overrideFrom_congr {st st' : Store} (hok : Ok st) (n : Nat) (hold : ∀ m, m ≤ n → st'.nss[m]? = st.nss[m]?) (name id fuel : Nat)
    (p : Option Nat) (hp : ∀ q, p = some q → q ≤ n) : overrideFrom st' name id fuel p = overrideFrom st name id fuel p := by
  induction fuel generalizing p with
  | zero => rfl
  | succ fuel ih =>
    cases p with
    | none => rfl
    | some q =>
      have hq := hp q rfl
      have e : lookupName st' q name = lookupName st q name :=
        lookupIn_congr st.nss st'.nss hok.parent _ _ q name (by omega) (by omega) (fun m hm => hold m (by omega))
      simp only [overrideFrom, e, hold q hq]
      cases lookupName st q name with
      | none => rfl
      | some f =>
        simp only
        rw [ih]
        intro r hr
        cases hn : st.nss[q]? with
        | none => rw [hn] at hr; cases hr
        | some ns =>
          rw [hn] at hr
          have := hok.parent q ns r hn hr
          omega

/-- Files that are loaded later do not change the mark. -/
theorem C174_stays (base : List (Nat × Nat)) (st st' : Store) (hst : Files base st)
    (confs : List (List (Nat × FDecl))) (module : List (Nat × FDecl)) (h : enterFile confs module st = some st')
    (name f n : Nat) (hf : st.fixtures.lookup f = some n) :
    isOverride st' name f = isOverride st name f ∧ isOverride (leaveFile st') name f = isOverride st name f := by
  obtain ⟨hok, -, -⟩ := files_spec hst
  obtain ⟨-, -, -, hold, -, hfix⟩ := enterFile_spec hok h
  have hlt := hok.fix f n (mem_of_lookup hf)
  have : isOverride st' name f = isOverride st name f := by
    unfold isOverride
    rw [hfix f n hf, hf]
    simp only
    rw [hold n hlt]
    refine overrideFrom_congr hok n (fun m hm => hold m (by omega)) _ _ _ _ ?_
    intro q hq
    cases hn : st.nss[n]? with
    | none => rw [hn] at hq; cases hq
    | some ns =>
      rw [hn] at hq
      have := hok.parent n ns q hn hq
      omega
  have e : isOverride (leaveFile st') name f = isOverride st' name f := by
    unfold isOverride
    have : ∀ fuel p, overrideFrom (leaveFile st') name f fuel p = overrideFrom st' name f fuel p := by
      intro fuel
      induction fuel with
      | zero => intro p; rfl
      | succ fuel ih =>
        intro p
        cases p with
        | none => rfl
        | some q =>
          simp only [overrideFrom, ih]
          rfl
    simp only [this]
    rfl
  exact ⟨this, e.trans this⟩

/-- A fixture known everywhere, not defined in any file, is not marked. -/
theorem C174_known_everywhere (base : List (Nat × Nat)) (st st' : Store) (hst : Files base st)
    (confs : List (List (Nat × FDecl))) (module : List (Nat × FDecl)) (h : enterFile confs module st = some st')
    (name f : Nat) (hnew : st.fixtures.lookup f = none) (hc : ∀ c ∈ confs, ∀ p ∈ c, p.2.id ≠ f) (hm : ∀ p ∈ module, p.2.id ≠ f) :
    isOverride st' name f = false := by
  obtain ⟨hok, -, -⟩ := files_spec hst
  have hnb : ∀ p ∈ buildConfig confs, p.2.id ≠ f := by
    have hmem : ∀ l : List (List (Nat × FDecl)), (∀ c ∈ l, ∀ p ∈ c, p.2.id ≠ f) → ∀ d : List (Nat × FDecl), (∀ p ∈ d, p.2.id ≠ f) →
        ∀ p ∈ l.foldl dupdate d, p.2.id ≠ f := by
      intro l
      induction l with
      | nil => intro _ d hd; exact hd
      | cons c l ih =>
        intro hl d hd
        refine ih (fun c hc => hl c (List.mem_cons_of_mem _ hc)) _ ?_
        have hset : ∀ k (v : FDecl), v.id ≠ f → ∀ d : List (Nat × FDecl), (∀ p ∈ d, p.2.id ≠ f) → ∀ p ∈ dset k v d, p.2.id ≠ f := by
          intro k v hv d
          induction d with
          | nil => simp [dset, hv]
          | cons q d ih =>
            intro hd p hp
            simp only [dset] at hp
            split at hp
            · rcases List.mem_cons.1 hp with rfl | hp
              · exact hv
              · exact hd p (List.mem_cons_of_mem _ hp)
            · rcases List.mem_cons.1 hp with rfl | hp
              · exact hd _ (List.mem_cons_self ..)
              · exact ih (fun p hp => hd p (List.mem_cons_of_mem _ hp)) p hp
        have hc := hl c (List.mem_cons_self ..)
        clear ih hl
        induction c generalizing d with
        | nil => exact hd
        | cons q c ih => exact ih _ (hset _ _ (hc q (List.mem_cons_self ..)) d hd) (fun p hp => hc p (List.mem_cons_of_mem _ hp))
    exact hmem confs.reverse (fun c h => hc c (List.mem_reverse.1 h)) [] (by simp)
  have hnone : st'.fixtures.lookup f = none := by
    unfold enterFile at h
    cases hA : addDict ((buildConfig confs).map (·.2)) (pushNs st) with
    | none => rw [hA] at h; cases h
    | some s1 =>
      rw [hA] at h
      simp only at h
      obtain ⟨o0, -, -, -⟩ := ok_push hok
      obtain ⟨g1, -, f2, -⟩ := addDict_spec _ o0 hA
      obtain ⟨o2, -, -, -⟩ := ok_push g1.ok
      obtain ⟨-, -, f4, -⟩ := addDict_spec _ o2 h
      cases hn : st'.fixtures.lookup f with
      | none => rfl
      | some n =>
        exfalso
        rcases f4 f n hn with h1 | ⟨d, hd, e⟩
        · rcases f2 f n h1 with h1 | ⟨d, hd, e⟩
          · have : st.fixtures.lookup f = some n := h1
            rw [hnew] at this
            cases this
          · obtain ⟨p, hp, rfl⟩ := List.mem_map.1 hd
            exact hnb p hp e
        · obtain ⟨p, hp, rfl⟩ := List.mem_map.1 hd
          exact hm p hp e
  unfold isOverride
  rw [hnone]

/-- The fixtures a test uses: those it requires, and those that such fixtures require (`needs`). -/
inductive Uses (needs : Nat → List Nat) (test : List Nat) : Nat → Prop
  | required {f : Nat} : f ∈ test → Uses needs test f
  | needed {f g : Nat} : Uses needs test f → g ∈ needs f → Uses needs test g

/-- Each fixture is listed in its place, with its name and its mark of overriding; it is said to be used automatically exactly if it is; if nothing is said some
listed test uses it, and if it is said to be unused no listed test requires it itself. -/
theorem C174_listed_partial (show' : Nat → String) (st : Store) (fixtures : List Shown) (tests : List (List Nat)) (needs : Nat → List Nat)
    (i : Nat) (f : Shown) (hf : fixtures[i]? = some f) :
    (listFixtures show' st fixtures tests).length = fixtures.length ∧
    ∃ info, (listFixtures show' st fixtures tests)[i]? = some (show' f.decl.name, info, isOverride st f.decl.name f.decl.id) ∧
      (info = .autouse ↔ f.autouse = true) ∧ (info = .used → ∃ t ∈ tests, Uses needs t f.decl.id) ∧
      (info = .unused → ∀ t ∈ tests, f.decl.id ∉ t) := by
  have hfil : ∀ l : List Shown, (l.map (Shown.toFix show' st)).filter (·.hasFunc) = l.map (Shown.toFix show' st) := by
    intro l
    rw [List.filter_eq_self]
    intro x hx
    obtain ⟨y, -, rfl⟩ := List.mem_map.1 hx
    rfl
  unfold listFixtures Rep.reportFixtures
  rw [hfil]
  refine ⟨by simp, (if f.autouse then .autouse else if tests.flatten.contains f.decl.id then .used else .unused),
    by simp only [List.getElem?_map, hf, Option.map_some]; rfl, ?_⟩
  cases f.autouse with
  | true => simp
  | false =>
    by_cases hc : tests.flatten.contains f.decl.id = true
    · obtain ⟨t, ht, hm⟩ := List.mem_flatten.1 (List.contains_iff_mem.1 hc)
      rw [if_neg (by decide), if_pos hc]
      exact ⟨by simp, fun _ => ⟨t, ht, .required hm⟩, fun e => nomatch e⟩
    · rw [if_neg (by decide), if_neg hc]
      exact ⟨by simp, (fun e => nomatch e), fun _ t ht hm => hc (List.contains_iff_mem.2 (List.mem_flatten.2 ⟨t, ht, hm⟩))⟩

/-- A `slashconf` that defines fixture 1 again, with one further up that defines 1 and 2, and a file that defines 2 again: only the latter is marked. -/
theorem C174_slashconf_violated :
    let far := [(1, (⟨1, 100, false⟩ : FDecl)), (2, ⟨2, 101, false⟩)]
    let near := [(1, (⟨1, 102, false⟩ : FDecl))]
    let st := (enterFile [near, far] [(2, ⟨2, 103, false⟩)] {}).getD {}
    lookupName st (current st) 1 = some 102 ∧ isOverride st 1 102 = false ∧ lookupName st (current st) 2 = some 103 ∧ isOverride st 2 103 = true := by
  decide

/-- A fixture that the only test uses by way of another fixture is said to be unused. -/
theorem C174_unused_violated :
    let needs := fun f => if f = 100 then [101] else []
    Uses needs [100] 101 ∧
    listFixtures (fun n => if n = 1 then "a" else "b") ((enterFile [] [(1, ⟨1, 100, false⟩), (2, ⟨2, 101, false⟩)] {}).getD {})
      [{ decl := ⟨1, 100, false⟩ }, { decl := ⟨2, 101, false⟩ }] [[100]] = [("a", .used, false), ("b", .unused, false)] :=
  ⟨.needed (f := 100) (.required (by decide)) (by decide), by decide⟩

/-- A file that defines again a fixture known everywhere, one of a `slashconf`, and a new one. -/
example :
    let st := (enterFile [[(2, ⟨2, 101, false⟩)], [(5, ⟨5, 105, false⟩)]] [(1, ⟨1, 102, false⟩), (5, ⟨5, 106, false⟩), (3, ⟨3, 103, false⟩)]
      { nss := [{ names := [(1, 100)] }] }).getD {}
    isOverride st 1 102 = true ∧ isOverride st 5 106 = true ∧ isOverride st 3 103 = false ∧ isOverride st 2 101 = false ∧ isOverride st 1 100 = false := by
  decide

end Slash.NS
