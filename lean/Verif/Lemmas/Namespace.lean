import Verif.Model.Namespace
/-!
# Helper lemmas on namespaces
-/
namespace Slash.NS

/-! ## Dictionaries -/

theorem lookup_dset {α : Type} (k k' : Nat) (v : α) (d : List (Nat × α)) :
    (dset k v d).lookup k' = if k' = k then some v else d.lookup k' := by
  induction d with
  | nil => simp only [dset, List.lookup]; split <;> rename_i h <;> simp_all
  | cons p d ih =>
    obtain ⟨k1, v1⟩ := p
    simp only [dset]
    split
    · rename_i e
      subst e
      simp only [List.lookup]
      split <;> rename_i h <;> simp_all
    · rename_i e
      simp only [List.lookup]
      split
      · rename_i h
        have : k' = k1 := by simpa using h
        subst this
        simp [e]
      · exact ih

theorem lookup_dupdate {α : Type} (d e : List (Nat × α)) (he : (e.map (·.1)).Nodup) (k : Nat) :
    (dupdate d e).lookup k = (e.lookup k).or (d.lookup k) := by
  unfold dupdate
  induction e generalizing d with
  | nil => simp
  | cons p e ih =>
    obtain ⟨k1, v1⟩ := p
    simp only [List.map_cons, List.nodup_cons] at he
    simp only [List.foldl_cons]
    rw [ih (dset k1 v1 d) he.2, lookup_dset]
    simp only [List.lookup]
    by_cases h : k = k1
    · subst h
      have hn : e.lookup k = none := by
        rw [List.lookup_eq_none_iff]
        intro p hp
        simp only [bne_iff_ne, ne_eq]
        intro h'
        exact he.1 (List.mem_map.2 ⟨p, hp, by simpa using h'.symm⟩)
      simp [hn]
    · have : (k == k1) = false := by simpa using h
      simp [h, this]

theorem keys_dset {α : Type} (k : Nat) (v : α) (d : List (Nat × α)) : ∀ x ∈ (dset k v d).map (·.1), x = k ∨ x ∈ d.map (·.1) := by
  induction d with
  | nil => simp [dset]
  | cons p d ih =>
    obtain ⟨k1, v1⟩ := p
    simp only [dset]
    split
    · rename_i e; subst e; intro x hx; simp only [List.map_cons, List.mem_cons] at hx ⊢; rcases hx with h | h <;> simp [h]
    · intro x hx
      simp only [List.map_cons, List.mem_cons] at hx ⊢
      rcases hx with h | h
      · simp [h]
      · rcases ih x h with h | h <;> simp [h]

theorem nodup_dset {α : Type} (k : Nat) (v : α) (d : List (Nat × α)) (h : (d.map (·.1)).Nodup) : ((dset k v d).map (·.1)).Nodup := by
  induction d with
  | nil => simp [dset]
  | cons p d ih =>
    obtain ⟨k1, v1⟩ := p
    simp only [List.map_cons, List.nodup_cons] at h
    simp only [dset]
    split
    · rename_i e; subst e; simpa using h
    · rename_i e
      simp only [List.map_cons, List.nodup_cons]
      refine ⟨fun hm => ?_, ih h.2⟩
      rcases keys_dset k v d k1 hm with h' | h'
      · exact e h'
      · exact h.1 h'

theorem nodup_dupdate {α : Type} (d e : List (Nat × α)) (h : (d.map (·.1)).Nodup) : ((dupdate d e).map (·.1)).Nodup := by
  unfold dupdate
  induction e generalizing d with
  | nil => exact h
  | cons p e ih => exact ih _ (nodup_dset _ _ _ h)

theorem lookup_of_mem {α : Type} {d : List (Nat × α)} (h : (d.map (·.1)).Nodup) {k : Nat} {v : α} (hm : (k, v) ∈ d) : d.lookup k = some v := by
  induction d with
  | nil => cases hm
  | cons p d ih =>
    obtain ⟨k1, v1⟩ := p
    simp only [List.map_cons, List.nodup_cons] at h
    simp only [List.lookup]
    rcases List.mem_cons.1 hm with e | hm'
    · cases e; simp
    · have : (k == k1) = false := by
        simp only [beq_eq_false_iff_ne, ne_eq]
        intro e
        subst e
        exact h.1 (List.mem_map.2 ⟨(k, v), hm', rfl⟩)
      simp [this, ih h.2 hm']

theorem mem_of_lookup {α : Type} {d : List (Nat × α)} {k : Nat} {v : α} (h : d.lookup k = some v) : (k, v) ∈ d := by
  induction d with
  | nil => simp at h
  | cons p d ih =>
    obtain ⟨k1, v1⟩ := p
    simp only [List.lookup] at h
    split at h
    · rename_i e
      have : k = k1 := by simpa using e
      cases h; subst this; simp
    · exact List.mem_cons_of_mem _ (ih h)

/-- the first value found for `k`, closest directory first -/
def firstOf (confs : List (List (Nat × FDecl))) (k : Nat) : Option FDecl :=
  match confs with
  | [] => none
  | c :: cs => (c.lookup k).or (firstOf cs k)

theorem firstOf_append (a b : List (List (Nat × FDecl))) (k : Nat) : firstOf (a ++ b) k = (firstOf a k).or (firstOf b k) := by
  induction a with
  | nil => simp [firstOf]
  | cons c a ih => simp [firstOf, ih, Option.or_assoc]

theorem build_spec (l : List (List (Nat × FDecl))) (hk : ∀ c ∈ l, (c.map (·.1)).Nodup) (d : List (Nat × FDecl)) (hd : (d.map (·.1)).Nodup) :
    ((l.foldl dupdate d).map (·.1)).Nodup ∧ ∀ k, (l.foldl dupdate d).lookup k = (firstOf l.reverse k).or (d.lookup k) := by
  induction l generalizing d with
  | nil => exact ⟨hd, fun k => by simp [firstOf]⟩
  | cons c l ih =>
    simp only [List.foldl_cons]
    obtain ⟨h1, h2⟩ := ih (fun c hc => hk c (by simp [hc])) (dupdate d c) (nodup_dupdate d c hd)
    refine ⟨h1, fun k => ?_⟩
    rw [h2 k, lookup_dupdate d c (hk c (by simp)) k, List.reverse_cons, firstOf_append]
    simp [firstOf, Option.or_assoc]

theorem buildConfig_spec (confs : List (List (Nat × FDecl))) (hk : ∀ c ∈ confs, (c.map (·.1)).Nodup) :
    ((buildConfig confs).map (·.1)).Nodup ∧ ∀ k, (buildConfig confs).lookup k = firstOf confs k := by
  have := build_spec confs.reverse (fun c hc => hk c (by simpa using hc)) [] (by simp)
  unfold buildConfig
  refine ⟨this.1, fun k => ?_⟩
  rw [this.2 k]; simp

/-! ## Namespaces -/

/-- namespaces are created after their parents; the stack consists of namespaces -/
structure Ok (st : Store) : Prop where
  parent : ∀ (n : Nat) (ns : Ns) (p : Nat), st.nss[n]? = some ns → ns.parent = some p → p < n
  stack : ∀ n ∈ st.stack, n < st.nss.length
  ne : st.stack ≠ []
  fix : ∀ f n, (f, n) ∈ st.fixtures → n < st.nss.length

theorem Ok.current {st : Store} (h : Ok st) : current st < st.nss.length := by
  unfold NS.current
  cases hs : st.stack with
  | nil => exact absurd hs h.ne
  | cons n l => exact h.stack n (by simp [hs])

theorem lookupIn_congr (nss nss' : List Ns) (hp : ∀ (n : Nat) (ns : Ns) (p : Nat), nss[n]? = some ns → ns.parent = some p → p < n) (fuel fuel' n name : Nat)
    (h1 : n < fuel) (h2 : n < fuel') (h : ∀ m, m ≤ n → nss'[m]? = nss[m]?) : lookupIn nss' fuel' n name = lookupIn nss fuel n name := by
  induction n using Nat.strongRecOn generalizing fuel fuel' with
  | _ n ih =>
    cases fuel with
    | zero => omega
    | succ fuel =>
      cases fuel' with
      | zero => omega
      | succ fuel' =>
        simp only [lookupIn, h n (Nat.le_refl _)]
        cases hn : nss[n]? with
        | none => rfl
        | some ns =>
          simp only
          cases ns.names.lookup name with
          | some f => rfl
          | none =>
            cases hpar : ns.parent with
            | none => rfl
            | some p =>
              have := hp n ns p hn hpar
              exact ih p this fuel fuel' (by omega) (by omega) (fun m hm => h m (by omega))

theorem lookupName_unfold {st : Store} (h : Ok st) {n : Nat} {ns : Ns} (hn : st.nss[n]? = some ns) (name : Nat) :
    lookupName st n name = (ns.names.lookup name).or (ns.parent.bind (fun p => lookupName st p name)) := by
  unfold lookupName
  rw [lookupIn]
  simp only [hn]
  cases ns.names.lookup name with
  | some f => rfl
  | none =>
    cases hp : ns.parent with
    | none => rfl
    | some p =>
      have := h.parent n ns p hn hp
      simp only [Option.bind_some, Option.none_or]
      exact lookupIn_congr st.nss st.nss h.parent _ _ p name (by omega) (by omega) (fun _ _ => rfl)

/-- What adding fixtures to the current namespace does. -/
structure Grows (st st' : Store) : Prop where
  ok : Ok st'
  stack : st'.stack = st.stack
  len : st.nss.length ≤ st'.nss.length
  old : ∀ n, n < st.nss.length → n ≠ current st → st'.nss[n]? = st.nss[n]?
  par : ∀ ns, st.nss[current st]? = some ns → ∃ names, st'.nss[current st]? = some { ns with names := ns.names ++ names }
  fixOld : ∀ f n, st.fixtures.lookup f = some n → st'.fixtures.lookup f = some n
  fixNew : ∀ f n, st.fixtures.lookup f = none → st'.fixtures.lookup f = some n →
    st.nss.length ≤ n ∧ st'.nss[n]? = some { parent := some (current st) }

theorem Grows.refl {st : Store} (h : Ok st) : Grows st st :=
  ⟨h, rfl, Nat.le_refl _, fun _ _ _ => rfl, fun ns hn => ⟨[], by simp [hn]⟩, fun _ _ h => h, fun f n h1 h2 => by rw [h1] at h2; cases h2⟩

theorem Grows.cur {a b : Store} (h : Grows a b) : current b = current a := by unfold current; rw [h.stack]

theorem Grows.trans {a b c : Store} (ha : Ok a) (h1 : Grows a b) (h2 : Grows b c) : Grows a c := by
  have hc := h1.cur
  refine ⟨h2.ok, h2.stack.trans h1.stack, Nat.le_trans h1.len h2.len, ?_, ?_, fun f n h => h2.fixOld f n (h1.fixOld f n h), ?_⟩
  · intro n hn hne
    rw [h2.old n (Nat.lt_of_lt_of_le hn h1.len) (by rw [hc]; exact hne), h1.old n hn hne]
  · intro ns hn
    obtain ⟨l1, e1⟩ := h1.par ns hn
    rw [← hc] at e1
    obtain ⟨l2, e2⟩ := h2.par _ e1
    rw [hc] at e2
    exact ⟨l1 ++ l2, by rw [e2]; simp⟩
  · intro f n hf hf'
    cases hb : b.fixtures.lookup f with
    | some m =>
      have := h2.fixOld f m hb
      rw [this] at hf'
      cases hf'
      obtain ⟨k1, k2⟩ := h1.fixNew f n hf hb
      refine ⟨k1, ?_⟩
      have hlt := ha.current
      have : n < b.nss.length := h1.ok.fix f n (mem_of_lookup hb)
      rw [h2.old n this (by rw [hc]; omega), k2]
    | none =>
      obtain ⟨k1, k2⟩ := h2.fixNew f n hb hf'
      refine ⟨Nat.le_trans h1.len k1, by rw [k2, hc]⟩

theorem set_get {l : List Ns} {n m : Nat} {x : Ns} (hn : n < l.length) : (l.set n x)[m]? = if m = n then some x else l[m]? := by
  rw [List.getElem?_set]
  by_cases h : n = m
  · subst h; simp [hn]
  · have : ¬ m = n := fun e => h e.symm
    simp [h, this]

theorem addName_spec {st st' : Store} {name id : Nat} (hok : Ok st) (h : addName (current st) name id st = some st') :
    Grows st st' ∧ st'.fixtures = st.fixtures ∧ st'.nss.length = st.nss.length ∧ ∃ ns names, st.nss[current st]? = some ns ∧
      st'.nss[current st]? = some { ns with names := names } ∧ names.lookup name = some id ∧
      (∀ k v, ns.names.lookup k = some v → names.lookup k = some v) ∧ (∀ k v, names.lookup k = some v → ns.names.lookup k = some v ∨ (k = name ∧ v = id)) := by
  unfold addName at h
  cases hn : st.nss[current st]? with
  | none => rw [hn] at h; cases h
  | some ns =>
    rw [hn] at h
    simp only at h
    cases hl : ns.names.lookup name with
    | some id' =>
      rw [hl] at h
      simp only at h
      split at h
      · rename_i e
        subst e
        cases h
        exact ⟨Grows.refl hok, rfl, rfl, ns, ns.names, rfl, hn, hl, fun _ _ h => h, fun _ _ h => .inl h⟩
      · cases h
    | none =>
      rw [hl] at h
      simp only [Option.some.injEq] at h
      have hlt := hok.current
      have hget : ∀ m, (st.nss.set (current st) { ns with names := ns.names ++ [(name, id)] })[m]? =
          if m = current st then some { ns with names := ns.names ++ [(name, id)] } else st.nss[m]? := fun m => set_get hlt
      subst h
      refine ⟨⟨⟨?_, ?_, hok.ne, ?_⟩, rfl, by simp, ?_, ?_, fun _ _ h => h, fun f n h1 h2 => by simp only at h2; rw [h1] at h2; cases h2⟩, rfl, by simp, ns,
        ns.names ++ [(name, id)], rfl, by simp [hget], ?_, ?_, ?_⟩
      · intro n ns' p h1 h2
        simp only [hget] at h1
        split at h1
        · rename_i e
          cases h1
          subst e
          exact hok.parent _ ns p hn h2
        · exact hok.parent n ns' p h1 h2
      · simpa using hok.stack
      · simpa using hok.fix
      · intro n _ hne; simp only [hget]; simp [hne]
      · intro ns' hn'
        cases hn.symm.trans hn'
        exact ⟨[(name, id)], by simp [hget]⟩
      · rw [List.lookup_append, hl]; simp [List.lookup]
      · intro k v hk
        rw [List.lookup_append, hk]; rfl
      · intro k v hk
        rw [List.lookup_append] at hk
        cases hk' : ns.names.lookup k with
        | some v' => rw [hk'] at hk; left; simpa using hk
        | none =>
          rw [hk'] at hk
          simp only [Option.none_or, List.lookup] at hk
          split at hk
          · rename_i e; cases hk; right; exact ⟨by simpa using e, rfl⟩
          · cases hk

theorem addFixture_spec {st st' : Store} {d : FDecl} (hok : Ok st) (h : addFixture d st = some st') :
    Grows st st' ∧ (∃ n, st'.fixtures.lookup d.id = some n) ∧ (∀ f n, st'.fixtures.lookup f = some n → st.fixtures.lookup f = some n ∨ f = d.id) ∧
    ∃ ns names, st.nss[current st]? = some ns ∧ st'.nss[current st]? = some { ns with names := names } ∧
      (∀ k v, ns.names.lookup k = some v → names.lookup k = some v) ∧ (∀ k v, names.lookup k = some v → ns.names.lookup k = some v ∨ (k = d.name ∧ v = d.id)) := by
  have hlt := hok.current
  obtain ⟨ns, hns⟩ : ∃ ns, st.nss[current st]? = some ns := ⟨_, List.getElem?_eq_getElem hlt⟩
  unfold addFixture at h
  cases hf : st.fixtures.lookup d.id with
  | some n =>
    rw [hf] at h
    cases h
    exact ⟨Grows.refl hok, ⟨n, hf⟩, fun _ _ h => .inl h, ns, ns.names, hns, hns, fun _ _ h => h, fun _ _ h => .inl h⟩
  | none =>
    rw [hf] at h
    simp only at h
    split at h
    · cases h
    · -- the new namespace
      have hget : ∀ m, (st.nss ++ [({ parent := some (current st) } : Ns)])[m]? = if m = st.nss.length then some { parent := some (current st) } else st.nss[m]? := by
        intro m
        by_cases e : m = st.nss.length
        · subst e; simp
        · by_cases h1 : m < st.nss.length
          · rw [List.getElem?_append_left h1]; simp [e]
          · rw [List.getElem?_eq_none (by simp; omega), List.getElem?_eq_none (by omega)]; simp [e]
      have hok1 : Ok { st with nss := st.nss ++ [{ parent := some (current st) }] } := by
        refine ⟨?_, ?_, hok.ne, ?_⟩
        · intro n ns p h1 h2
          simp only [hget] at h1
          split at h1
          · rename_i e; cases h1; cases h2; omega
          · exact hok.parent n ns p h1 h2
        · intro n hn; have := hok.stack n hn; simp; omega
        · intro f n hn; have := hok.fix f n hn; simp; omega
      generalize hA : addName (current st) d.name d.id { st with nss := st.nss ++ [{ parent := some (current st) }] } = A at h
      cases A with
      | none => cases h
      | some st1 =>
        simp only [Option.some.injEq] at h
        obtain ⟨g, e1, e2, ns', names, k1, k2, k3, k4, k5⟩ := addName_spec hok1 hA
        simp only [List.length_append, List.length_singleton] at e2 h
        have hcur : current { st with nss := st.nss ++ [({ parent := some (current st) } : Ns)] } = current st := rfl
        rw [hcur] at k1 k2
        have hne : current st ≠ st.nss.length := by omega
        simp only [hget, hne, if_false] at k1
        cases hns.symm.trans k1
        have hlk : ∀ f, st'.fixtures.lookup f = if f = d.id then some st.nss.length else st.fixtures.lookup f := by
          intro f
          rw [← h]
          simp only [e1]
          rw [List.lookup_append]
          by_cases e : f = d.id
          · subst e; simp [hf, List.lookup]
          · have : (f == d.id) = false := by simpa using e
            simp [e, List.lookup, this]
        have hnss : st'.nss = st1.nss := by rw [← h]
        have hst : st'.stack = st.stack := by rw [← h]; exact g.stack
        refine ⟨⟨⟨?_, ?_, ?_, ?_⟩, hst, ?_, ?_, ?_, ?_, ?_⟩, ⟨st.nss.length, by simp [hlk]⟩, ?_, ns, names, hns, by rw [hnss]; exact k2, k4, k5⟩
        · rw [hnss]; exact g.ok.parent
        · rw [hnss, hst]; intro n hn; have := hok.stack n hn; omega
        · rw [hst]; exact hok.ne
        · intro f n hm
          rw [← h] at hm
          simp only [e1] at hm
          rw [hnss]
          rcases List.mem_append.1 hm with hm | hm
          · have := hok.fix f n hm; omega
          · simp only [List.mem_singleton, Prod.mk.injEq] at hm; omega
        · rw [hnss]; omega
        · intro n hn hne'
          rw [hnss, g.old n (by simp; omega) hne']
          simp only [hget]
          have : n ≠ st.nss.length := by omega
          simp [this]
        · intro ns' hn'
          rw [hnss]
          refine g.par ns' ?_
          rw [hcur]
          simp only [hget, hne, if_false]; exact hn'
        · intro f n hfn
          rw [hlk]
          split
          · rename_i e; subst e; rw [hf] at hfn; cases hfn
          · exact hfn
        · intro f n hfn hfn'
          rw [hlk] at hfn'
          split at hfn'
          · cases hfn'
            refine ⟨Nat.le_refl _, ?_⟩
            rw [hnss, g.old _ (by simp) (by rw [hcur]; omega)]
            simp
          · rw [hfn] at hfn'; cases hfn'
        · intro f n hfn
          rw [hlk] at hfn
          split at hfn
          · rename_i e; exact .inr e
          · exact .inl hfn

/-- adding the fixtures of a dictionary to the current namespace -/
theorem addDict_spec (ds : List FDecl) {st st' : Store} (hok : Ok st) (h : addDict ds st = some st') :
    Grows st st' ∧ (∀ d ∈ ds, ∃ n, st'.fixtures.lookup d.id = some n) ∧
    (∀ f n, st'.fixtures.lookup f = some n → st.fixtures.lookup f = some n ∨ ∃ d ∈ ds, d.id = f) ∧
    ∃ ns names, st.nss[current st]? = some ns ∧ st'.nss[current st]? = some { ns with names := names } ∧
      (∀ k v, ns.names.lookup k = some v → names.lookup k = some v) ∧ (∀ d ∈ ds, names.lookup d.name = some d.id) ∧
      (∀ k v, names.lookup k = some v → ns.names.lookup k = some v ∨ ∃ d ∈ ds, d.name = k ∧ d.id = v) := by
  induction ds generalizing st with
  | nil =>
    simp only [addDict, Option.some.injEq] at h
    subst h
    obtain ⟨ns, hns⟩ : ∃ ns, st.nss[current st]? = some ns := ⟨_, List.getElem?_eq_getElem hok.current⟩
    exact ⟨Grows.refl hok, by simp, fun _ _ h => .inl h, ns, ns.names, hns, hns, fun _ _ h => h, by simp, fun _ _ h => .inl h⟩
  | cons d ds ih =>
    simp only [addDict] at h
    cases hA : addFixture d st with
    | none => rw [hA] at h; cases h
    | some s1 =>
      rw [hA] at h
      simp only at h
      cases hB : addName (current s1) d.name d.id s1 with
      | none => rw [hB] at h; cases h
      | some s2 =>
        rw [hB] at h
        simp only at h
        obtain ⟨g1, f1, f2, ns, n1, a1, a2, a3, a4⟩ := addFixture_spec hok hA
        obtain ⟨g2, e2, -, ns1, n2, b1, b2, b3, b4, b5⟩ := addName_spec g1.ok hB
        obtain ⟨g3, f3, f4, ns2, n3, c1, c2, c3, c4, c5⟩ := ih g2.ok h
        rw [g2.cur, g1.cur] at c1 c2
        rw [g1.cur] at b1 b2
        cases a2.symm.trans b1
        cases b2.symm.trans c1
        refine ⟨(g1.trans hok g2).trans hok g3, ?_, ?_, ns, n3, a1, c2, fun k v h => c3 k v (b4 k v (a3 k v h)), ?_, ?_⟩
        · intro d' hd'
          rcases List.mem_cons.1 hd' with rfl | hd'
          · obtain ⟨n, hn⟩ := f1
            exact ⟨n, g3.fixOld _ n (g2.fixOld _ n hn)⟩
          · exact f3 d' hd'
        · intro f n hfn
          rcases f4 f n hfn with h' | ⟨d', h1, h2⟩
          · rw [e2] at h'
            rcases f2 f n h' with h' | h'
            · exact .inl h'
            · exact .inr ⟨d, by simp, h'.symm⟩
          · exact .inr ⟨d', by simp [h1], h2⟩
        · intro d' hd'
          rcases List.mem_cons.1 hd' with rfl | hd'
          · exact c3 _ _ b3
          · exact c4 d' hd'
        · intro k v hk
          rcases c5 k v hk with h' | ⟨d', h1, h2⟩
          · rcases b5 k v h' with h' | ⟨h1, h2⟩
            · rcases a4 k v h' with h' | ⟨h1, h2⟩
              · exact .inl h'
              · exact .inr ⟨d, by simp, h1.symm, h2.symm⟩
            · exact .inr ⟨d, by simp, h1.symm, h2.symm⟩
          · exact .inr ⟨d', by simp [h1], h2⟩

end Slash.NS
