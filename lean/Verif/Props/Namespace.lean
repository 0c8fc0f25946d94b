import Verif.Lemmas.Namespace
/-!
# Fixture names: property C20
-/
namespace Slash.NS

/-- The states of the store between files: any files were loaded before. `base`: the names known everywhere. -/
inductive Files (base : List (Nat × Nat)) : Store → Prop
  | start : Files base { nss := [{ names := base }] }
  | file {st st'} (confs : List (List (Nat × FDecl))) (module : List (Nat × FDecl)) : Files base st → enterFile confs module st = some st' →
      Files base (leaveFile st')

theorem ok_push {st : Store} (h : Ok st) : Ok (pushNs st) ∧ current (pushNs st) = st.nss.length ∧
    (pushNs st).nss[st.nss.length]? = some { parent := some (current st) } ∧ (∀ n, n < st.nss.length → (pushNs st).nss[n]? = st.nss[n]?) := by
  have hlt := h.current
  refine ⟨⟨?_, ?_, by simp [pushNs], ?_⟩, rfl, by simp [pushNs], fun n hn => by simp only [pushNs]; rw [List.getElem?_append_left hn]⟩
  · intro n ns p h1 h2
    simp only [pushNs] at h1
    by_cases hn : n < st.nss.length
    · rw [List.getElem?_append_left hn] at h1
      exact h.parent n ns p h1 h2
    · by_cases e : n = st.nss.length
      · subst e
        rw [List.getElem?_append_right (Nat.le_refl _)] at h1
        simp at h1
        subst h1
        cases h2
        exact hlt
      · rw [List.getElem?_eq_none (by simp; omega)] at h1; cases h1
  · intro n hn
    simp only [pushNs, List.mem_cons, List.length_append, List.length_singleton] at hn ⊢
    rcases hn with rfl | hn
    · omega
    · have := h.stack n hn; omega
  · intro f n hn
    have := h.fix f n hn
    simp only [pushNs, List.length_append, List.length_singleton]
    omega

/-- the id of the fixture of that name -/
def defOf (l : List FDecl) (name : Nat) : Option Nat := (l.find? (·.name == name)).map (·.id)

theorem lookup_eq_defOf {l : List FDecl} {names : List (Nat × Nat)} (h1 : ∀ d ∈ l, names.lookup d.name = some d.id)
    (h2 : ∀ k v, names.lookup k = some v → ∃ d ∈ l, d.name = k ∧ d.id = v) (k : Nat) : names.lookup k = defOf l k := by
  unfold defOf
  cases hf : l.find? (·.name == k) with
  | none =>
    cases hn : names.lookup k with
    | none => rfl
    | some v =>
      obtain ⟨d, hd, e, -⟩ := h2 k v hn
      have := List.find?_eq_none.1 hf d hd
      simp [e] at this
  | some d =>
    have := h1 d (List.mem_of_find?_eq_some hf)
    have e : d.name = k := by simpa using List.find?_some hf
    rw [← e, this]; rfl

/-- what the store looks like inside a file -/
theorem enterFile_spec {confs : List (List (Nat × FDecl))} {module : List (Nat × FDecl)} {st st' : Store} (hok : Ok st)
    (h : enterFile confs module st = some st') :
    Ok st' ∧ (∃ m, st'.stack = m :: st.nss.length :: st.stack ∧
      (∃ nm, st'.nss[m]? = some { parent := some st.nss.length, names := nm } ∧ ∀ k, nm.lookup k = defOf (module.map (·.2)) k) ∧
      (∀ f n, st.fixtures.lookup f = none → st'.fixtures.lookup f = some n →
        ((∃ p ∈ buildConfig confs, p.2.id = f) ∧ st'.nss[n]? = some { parent := some st.nss.length }) ∨
        ((¬ ∃ p ∈ buildConfig confs, p.2.id = f) ∧ st'.nss[n]? = some { parent := some m }))) ∧
    (∃ nc, st'.nss[st.nss.length]? = some { parent := some (current st), names := nc } ∧ ∀ k, nc.lookup k = defOf ((buildConfig confs).map (·.2)) k) ∧
    (∀ n, n < st.nss.length → st'.nss[n]? = st.nss[n]?) ∧ st.nss.length ≤ st'.nss.length ∧
    (∀ f n, st.fixtures.lookup f = some n → st'.fixtures.lookup f = some n) := by
  unfold enterFile at h
  cases hA : addDict ((buildConfig confs).map (·.2)) (pushNs st) with
  | none => rw [hA] at h; cases h
  | some s1 =>
    rw [hA] at h
    simp only at h
    obtain ⟨o0, c0, p0, q0⟩ := ok_push hok
    obtain ⟨g1, f1, f2, ns, nc, a1, a2, a3, a4, a5⟩ := addDict_spec _ o0 hA
    obtain ⟨o2, c2, p2, q2⟩ := ok_push g1.ok
    obtain ⟨g3, f3, f4, ns', nm, b1, b2, b3, b4, b5⟩ := addDict_spec _ o2 h
    rw [c0] at a1 a2
    cases p0.symm.trans a1
    rw [c2] at b1 b2
    cases p2.symm.trans b1
    have hc1 : current s1 = st.nss.length := g1.cur.trans c0
    have hl0 : (pushNs st).nss.length = st.nss.length + 1 := by simp [pushNs]
    have hl2 : (pushNs s1).nss.length = s1.nss.length + 1 := by simp [pushNs]
    have hl1 := g1.len
    have hl3 := g3.len
    rw [hc1] at b2
    have keep : ∀ n, n < s1.nss.length → st'.nss[n]? = s1.nss[n]? := by
      intro n hn
      rw [g3.old n (by omega) (by rw [c2]; omega), q2 n hn]
    refine ⟨g3.ok, ⟨s1.nss.length, ?_, ⟨nm, by simpa using b2, ?_⟩, ?_⟩, ⟨nc, ?_, ?_⟩, ?_, by omega, ?_⟩
    · rw [g3.stack]; simp only [pushNs]; rw [g1.stack]; rfl
    · refine lookup_eq_defOf b4 (fun k v hk => ?_)
      rcases b5 k v hk with h | h
      · simp at h
      · exact h
    · intro f n hf hf'
      by_cases hfc : ∃ p ∈ buildConfig confs, p.2.id = f
      · obtain ⟨p, hp, e⟩ := hfc
        obtain ⟨n', hn'⟩ := f1 p.2 (List.mem_map.2 ⟨p, hp, rfl⟩)
        rw [e] at hn'
        obtain ⟨k1, k2⟩ := g1.fixNew f n' hf hn'
        have := g3.fixOld f n' hn'
        rw [hf'] at this
        cases this
        refine .inl ⟨⟨p, hp, e⟩, ?_⟩
        rw [keep n (g1.ok.fix f n (mem_of_lookup hn')), k2, c0]
      · have hn1 : s1.fixtures.lookup f = none := by
          cases hs : s1.fixtures.lookup f with
          | none => rfl
          | some n' =>
            rcases f2 f n' hs with h' | ⟨d, hd, e⟩
            · exact absurd (hf.symm.trans h') (by simp)
            · obtain ⟨p, hp, rfl⟩ := List.mem_map.1 hd
              exact absurd ⟨p, hp, e⟩ hfc
        obtain ⟨-, k2⟩ := g3.fixNew f n hn1 hf'
        exact .inr ⟨hfc, by rw [k2, c2]⟩
    · rw [keep _ (by omega)]; simpa using a2
    · refine lookup_eq_defOf a4 (fun k v hk => ?_)
      rcases a5 k v hk with h | h
      · simp at h
      · exact h
    · intro n hn
      rw [keep n (by omega), g1.old n (by omega) (by rw [c0]; omega), q0 n hn]
    · intro f n hf
      exact g3.fixOld f n (g1.fixOld f n hf)

theorem files_spec {base : List (Nat × Nat)} {st : Store} (h : Files base st) :
    Ok st ∧ st.stack = [0] ∧ st.nss[0]? = some { names := base } := by
  induction h with
  | start =>
    refine ⟨⟨?_, by simp, by simp, by simp⟩, rfl, rfl⟩
    intro n ns p h1 h2
    cases n with
    | zero => simp only [List.getElem?_cons_zero, Option.some.injEq] at h1; subst h1; cases h2
    | succ n => simp at h1
  | @file st st' confs module _ he ih =>
    obtain ⟨h1, h2, h3⟩ := ih
    obtain ⟨o, ⟨m, hs, -, -⟩, -, hold, hlen, -⟩ := enterFile_spec h1 he
    have h0 := h1.current
    have hst : (leaveFile st').stack = [0] := by simp only [leaveFile, popNs, hs, h2, List.tail_cons]
    refine ⟨⟨o.parent, ?_, ?_, o.fix⟩, hst, ?_⟩
    · rw [hst]
      intro n hn
      simp only [List.mem_singleton] at hn
      subst hn
      simp only [leaveFile, popNs]
      omega
    · rw [hst]; simp
    · simp only [leaveFile, popNs]
      rw [hold 0 (by omega), h3]

/-- variables of `slashconf` files, each binding a fixture of the same name -/
def Plain (confs : List (List (Nat × FDecl))) : Prop := ∀ c ∈ confs, (c.map (·.1)).Nodup ∧ ∀ p ∈ c, p.1 = p.2.name

theorem firstOf_plain {confs : List (List (Nat × FDecl))} (h : Plain confs) {k : Nat} {d : FDecl} (hf : firstOf confs k = some d) : d.name = k := by
  induction confs with
  | nil => cases hf
  | cons c cs ih =>
    simp only [firstOf] at hf
    cases hl : c.lookup k with
    | some d' =>
      rw [hl] at hf
      simp only [Option.some_or, Option.some.injEq] at hf
      subst hf
      exact ((h c (by simp)).2 _ (mem_of_lookup hl)).symm
    | none =>
      rw [hl] at hf
      exact ih (fun c hc => h c (by simp [hc])) hf

theorem conf_defOf {confs : List (List (Nat × FDecl))} (h : Plain confs) (k : Nat) :
    defOf ((buildConfig confs).map (·.2)) k = (firstOf confs k).map (·.id) := by
  obtain ⟨h1, h2⟩ := buildConfig_spec confs (fun c hc => (h c hc).1)
  have hname : ∀ p ∈ buildConfig confs, p.2.name = p.1 := by
    intro p hp
    have := lookup_of_mem h1 (show (p.1, p.2) ∈ buildConfig confs from hp)
    rw [h2] at this
    exact firstOf_plain h this
  unfold defOf
  rw [← h2 k]
  cases hf : ((buildConfig confs).map (·.2)).find? (·.name == k) with
  | none =>
    cases hl : (buildConfig confs).lookup k with
    | none => rfl
    | some d =>
      have hm := mem_of_lookup hl
      have := List.find?_eq_none.1 hf d (List.mem_map.2 ⟨_, hm, rfl⟩)
      have e : d.name = k := hname _ hm
      simp [e] at this
  | some d =>
    obtain ⟨p, hp, rfl⟩ := List.mem_map.1 (List.mem_of_find?_eq_some hf)
    have e : p.2.name = k := by simpa using List.find?_some hf
    have := lookup_of_mem h1 (show (p.1, p.2) ∈ buildConfig confs from hp)
    rw [← hname p hp, e] at this
    rw [this]

/-- C20: whatever files were loaded before, in a test file a fixture name means the fixture of that name defined in the file,
otherwise the one in the `slashconf` of the closest directory defining one, otherwise the one known everywhere; it is
unknown if there is none. (Provided variables in `slashconf` files have the name of their fixture, see
`C20_renamed_violated`.) -/
theorem C20_closest_definition_partial (base : List (Nat × Nat)) (st st' : Store) (hst : Files base st)
    (confs : List (List (Nat × FDecl))) (module : List (Nat × FDecl)) (hp : Plain confs) (h : enterFile confs module st = some st') (name : Nat) :
    lookupName st' (current st') name =
      (defOf (module.map (·.2)) name).or (((firstOf confs name).map (·.id)).or (base.lookup name)) := by
  obtain ⟨hok, hs, h0⟩ := files_spec hst
  obtain ⟨o, ⟨m, hst', ⟨nm, k1, k2⟩, -⟩, ⟨nc, k3, k4⟩, hold, -, -⟩ := enterFile_spec hok h
  have hc : current st' = m := by simp [current, hst']
  have hc0 : current st = 0 := by simp [current, hs]
  have hlt : 0 < st.nss.length := hc0 ▸ hok.current
  rw [hc, lookupName_unfold o k1, k2]
  simp only [Option.bind_some]
  rw [lookupName_unfold o k3, k4, conf_defOf hp]
  simp only [Option.bind_some, hc0]
  rw [lookupName_unfold o ((hold 0 hlt).trans h0)]
  simp

/-- C20: the names used by a fixture that becomes known with this file have the same meaning if the fixture is defined in the file; if it is
defined in a `slashconf`, the file's own definitions are not considered. -/
theorem C20_names_in_fixtures_partial (base : List (Nat × Nat)) (st st' : Store) (hst : Files base st)
    (confs : List (List (Nat × FDecl))) (module : List (Nat × FDecl)) (hp : Plain confs) (h : enterFile confs module st = some st')
    (f n : Nat) (hnew : st.fixtures.lookup f = none) (hf : st'.fixtures.lookup f = some n) (name : Nat) :
    lookupFrom st' f name =
      (if ∃ p ∈ buildConfig confs, p.2.id = f then none else defOf (module.map (·.2)) name).or
        (((firstOf confs name).map (·.id)).or (base.lookup name)) := by
  have hcl := C20_closest_definition_partial base st st' hst confs module hp h name
  obtain ⟨hok, hs, h0⟩ := files_spec hst
  obtain ⟨o, ⟨m, hst', ⟨nm, k1, k2⟩, kf⟩, ⟨nc, k3, k4⟩, hold, -, -⟩ := enterFile_spec hok h
  have hc : current st' = m := by simp [current, hst']
  have hc0 : current st = 0 := by simp [current, hs]
  have hlt : 0 < st.nss.length := hc0 ▸ hok.current
  unfold lookupFrom
  rw [hf]
  simp only
  rcases kf f n hnew hf with ⟨e, k⟩ | ⟨e, k⟩
  · rw [if_pos e, lookupName_unfold o k]
    simp only [List.lookup_nil, Option.none_or, Option.bind_some]
    rw [lookupName_unfold o k3, k4, conf_defOf hp]
    simp only [Option.bind_some, hc0]
    rw [lookupName_unfold o ((hold 0 hlt).trans h0)]
    simp
  · rw [if_neg e, lookupName_unfold o k]
    simp only [List.lookup_nil, Option.none_or, Option.bind_some]
    rw [← hc, hcl]

/-- C20: loading further files changes nothing in what the names used by a known fixture mean. -/
theorem C20_names_stay (base : List (Nat × Nat)) (st st' : Store) (hst : Files base st)
    (confs : List (List (Nat × FDecl))) (module : List (Nat × FDecl)) (h : enterFile confs module st = some st')
    (f n : Nat) (hf : st.fixtures.lookup f = some n) (name : Nat) :
    lookupFrom st' f name = lookupFrom st f name ∧ lookupFrom (leaveFile st') f name = lookupFrom st f name := by
  obtain ⟨hok, hs, h0⟩ := files_spec hst
  obtain ⟨o, -, -, hold, -, hfix⟩ := enterFile_spec hok h
  have hlt := hok.fix f n (mem_of_lookup hf)
  have : lookupFrom st' f name = lookupFrom st f name := by
    unfold lookupFrom
    rw [hfix f n hf, hf]
    simp only
    exact lookupIn_congr st.nss st'.nss hok.parent _ _ n name (by omega) (by omega) (fun m hm => hold m (by omega))
  exact ⟨this, this⟩

/-- a file whose directory, and its parent, both define the fixture 7; the file itself defines 8 which the parent also does -/
example :
    let confs := [[(7, (⟨7, 100, false⟩ : FDecl))], [(7, ⟨7, 101, false⟩), (8, ⟨8, 102, false⟩)]]
    let st := (enterFile confs [(8, ⟨8, 103, false⟩)] {}).getD {}
    lookupName st (current st) 7 = some 100 ∧ lookupName st (current st) 8 = some 103 ∧ lookupName st (current st) 9 = none := by
  decide

/-- C20 (violated): a fixture of a `slashconf` shared by two directories is bound to the definitions of the directory loaded first. The
common parent defines 1 (which uses the name 2) and 2; directory A overrides 2. In a file of directory B, loaded after one of A,
the name 2 means the parent's fixture, but the parent's fixture 1 uses the one of A. -/
theorem C20_sibling_visible_violated :
    let parent := [(1, (⟨1, 100, false⟩ : FDecl)), (2, ⟨2, 101, false⟩)]
    let a := [(2, (⟨2, 102, false⟩ : FDecl))]
    let st := leaveFile ((enterFile [a, parent] [] {}).getD {})
    let st' := (enterFile [[], parent] [] st).getD {}
    lookupName st' (current st') 2 = some 101 ∧ lookupName st' (current st') 1 = some 100 ∧ lookupFrom st' 100 2 = some 102 := by
  decide

/-- C20 (violated): overriding a fixture of a parent directory by one of the same name, but kept in another variable, fails (an
assertion). -/
theorem C20_renamed_violated :
    enterFile [[(5, (⟨1, 101, false⟩ : FDecl))], [(1, ⟨1, 100, false⟩)]] [] {} = none := by
  decide

end Slash.NS
