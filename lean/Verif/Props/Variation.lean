import Verif.Model.Variation
import Verif.Props.FixtureGraph
import Verif.Props.Fixture
import Verif.Lemmas.Util
/-!
# Variations: properties C21, C22
-/
namespace Slash.Var

/-! ## Sorting -/

theorem mem_insertDesc (x y : Need) (l : List Need) : y ∈ insertDesc x l ↔ y = x ∨ y ∈ l := by
  induction l with
  | nil => simp [insertDesc]
  | cons z l ih =>
    simp only [insertDesc]
    split
    · simp
    · simp only [List.mem_cons, ih]
      constructor
      · rintro (h | h | h) <;> simp [h]
      · rintro (h | h | h) <;> simp [h]

theorem mem_sortDesc (y : Need) (l : List Need) : y ∈ sortDesc l ↔ y ∈ l := by
  induction l with
  | nil => simp [sortDesc]
  | cons x l ih => simp [sortDesc, mem_insertDesc, ih]

theorem insert_sorted (x : Need) (l : List Need) (h : l.Pairwise (fun a b => b.scope ≤ a.scope)) :
    (insertDesc x l).Pairwise (fun a b => b.scope ≤ a.scope) := by
  induction l with
  | nil => simp [insertDesc]
  | cons z l ih =>
    rw [List.pairwise_cons] at h
    simp only [insertDesc]
    split
    · rename_i hz
      refine List.pairwise_cons.2 ⟨?_, List.pairwise_cons.2 h⟩
      intro b hb
      rcases List.mem_cons.1 hb with rfl | hb
      · exact hz
      · exact Nat.le_trans (h.1 b hb) hz
    · refine List.pairwise_cons.2 ⟨?_, ih h.2⟩
      intro b hb
      rcases (mem_insertDesc x b l).1 hb with rfl | hb
      · omega
      · exact h.1 b hb

theorem sort_sorted (l : List Need) : (sortDesc l).Pairwise (fun a b => b.scope ≤ a.scope) := by
  induction l with
  | nil => simp [sortDesc]
  | cons x l ih => exact insert_sorted x _ ih

/-! ## Needed parameters -/

theorem mem_fold (l : List Need) (ids : List Nat) (p : Nat) :
    p ∈ l.foldl (fun ids n => FG.addAll ids n.params) ids ↔ p ∈ ids ∨ ∃ n ∈ l, p ∈ n.params := by
  induction l generalizing ids with
  | nil => simp
  | cons n l ih =>
    simp only [List.foldl_cons, ih, FG.mem_addAll, List.mem_cons]
    constructor
    · rintro ((h | h) | ⟨m, h1, h2⟩)
      · exact .inl h
      · exact .inr ⟨n, .inl rfl, h⟩
      · exact .inr ⟨m, .inr h1, h2⟩
    · rintro (h | ⟨m, rfl | h1, h2⟩)
      · exact .inl (.inl h)
      · exact .inl (.inr h2)
      · exact .inr ⟨m, h1, h2⟩

theorem nodup_fold (l : List Need) (ids : List Nat) (h : ids.Nodup) : (l.foldl (fun ids n => FG.addAll ids n.params) ids).Nodup := by
  induction l generalizing ids with
  | nil => exact h
  | cons n l ih => exact ih _ (FG.nodup_addAll _ _ h)

theorem mem_neededIds (needs : List Need) (p : Nat) : p ∈ neededIds needs ↔ ∃ n ∈ needs, p ∈ n.params := by
  unfold neededIds
  rw [mem_fold]
  simp [mem_sortDesc]

theorem nodup_neededIds (needs : List Need) : (neededIds needs).Nodup := nodup_fold _ _ (by simp)

/-! ## Products -/

theorem mem_product (ns l : List Nat) : l ∈ product ns ↔ l.length = ns.length ∧ ∀ (i v n : Nat), l[i]? = some v → ns[i]? = some n → v < n := by
  induction ns generalizing l with
  | nil =>
    simp only [product, List.mem_singleton]
    constructor
    · rintro rfl; simp
    · rintro ⟨h, -⟩; simpa using h
  | cons n ns ih =>
    simp only [product, List.mem_flatMap, List.mem_map, List.mem_range]
    constructor
    · rintro ⟨i, hi, l', hl', rfl⟩
      obtain ⟨h1, h2⟩ := (ih l').1 hl'
      refine ⟨by simp [h1], ?_⟩
      intro j v m hv hm
      cases j with
      | zero => simp at hv hm; omega
      | succ j => exact h2 j v m (by simpa using hv) (by simpa using hm)
    · rintro ⟨h1, h2⟩
      cases l with
      | nil => simp at h1
      | cons v l =>
        refine ⟨v, h2 0 v n (by simp) (by simp), l, (ih l).2 ⟨by simpa using h1, fun i w m hw hm => h2 (i + 1) w m (by simpa using hw) (by simpa using hm)⟩, rfl⟩

theorem nodup_flatMap {α β : Type} (l : List α) (f : α → List β) (hl : l.Nodup) (hf : ∀ a ∈ l, (f a).Nodup)
    (hd : ∀ a ∈ l, ∀ b ∈ l, a ≠ b → ∀ x ∈ f a, x ∉ f b) : (l.flatMap f).Nodup := by
  induction l with
  | nil => simp
  | cons a l ih =>
    rw [List.nodup_cons] at hl
    rw [List.flatMap_cons, List.nodup_append]
    refine ⟨hf a (by simp), ih hl.2 (fun a ha => hf a (by simp [ha])) (fun a ha b hb => hd a (by simp [ha]) b (by simp [hb])), ?_⟩
    intro x hx y hy e
    subst e
    obtain ⟨b, hb, hx'⟩ := List.mem_flatMap.1 hy
    exact hd a (by simp) b (by simp [hb]) (fun e => hl.1 (e ▸ hb)) x hx hx'

theorem nodup_map_inj {α β : Type} (l : List α) (f : α → β) (hl : l.Nodup) (hf : ∀ a ∈ l, ∀ b ∈ l, f a = f b → a = b) : (l.map f).Nodup := by
  induction l with
  | nil => simp
  | cons a l ih =>
    rw [List.nodup_cons] at hl
    rw [List.map_cons, List.nodup_cons]
    refine ⟨fun hm => ?_, ih hl.2 (fun a ha b hb => hf a (by simp [ha]) b (by simp [hb]))⟩
    obtain ⟨b, hb, e⟩ := List.mem_map.1 hm
    exact hl.1 (hf b (by simp [hb]) a (by simp) e ▸ hb)

theorem nodup_product (ns : List Nat) : (product ns).Nodup := by
  induction ns with
  | nil => simp [product]
  | cons n ns ih =>
    refine nodup_flatMap _ _ List.nodup_range (fun i _ => nodup_map_inj _ _ ih (fun a _ b _ e => by simpa using e)) ?_
    intro i _ j _ hij x hx hy
    obtain ⟨_, _, rfl⟩ := List.mem_map.1 hx
    obtain ⟨_, _, e⟩ := List.mem_map.1 hy
    simp only [List.cons.injEq] at e
    exact hij e.1.symm

theorem length_product (ns : List Nat) : (product ns).length = ns.foldr (· * ·) 1 := by
  induction ns with
  | nil => rfl
  | cons n ns ih =>
    simp only [product, List.length_flatMap, List.length_map, ih, List.foldr_cons]
    generalize ns.foldr (· * ·) 1 = k
    have : ∀ l : List Nat, (l.map (fun _ => k)).sum = l.length * k := by
      intro l
      induction l with
      | nil => simp
      | cons a l ih => simp [ih, Nat.add_mul, Nat.add_comm]
    rw [this]; simp

theorem iterVariations_eq (size : Nat → Nat) (needs : List Need) :
    iterVariations size needs = (product ((neededIds needs).map size)).map ((neededIds needs).zip ·) := by
  unfold iterVariations buildVariation
  simp only
  split
  · rename_i h; rw [h]; rfl
  · rfl

/-! ## C21 -/

theorem map_fst_zip {ids l : List Nat} (h : l.length = ids.length) : (ids.zip l).map (·.1) = ids := by
  induction ids generalizing l with
  | nil => simp
  | cons a ids ih =>
    cases l with
    | nil => simp at h
    | cons v l => simp only [List.zip_cons_cons, List.map_cons]; rw [ih (by simpa using h)]

theorem map_snd_zip {ids l : List Nat} (h : l.length = ids.length) : (ids.zip l).map (·.2) = l := by
  induction ids generalizing l with
  | nil => cases l <;> simp_all
  | cons a ids ih =>
    cases l with
    | nil => simp at h
    | cons v l => simp only [List.zip_cons_cons, List.map_cons]; rw [ih (by simpa using h)]

/-- C21: each variation gives each needed parameter, once, one of its values, and nothing else. -/
theorem C21_each_is_a_combination (size : Nat → Nat) (needs : List Need) (v : List (Nat × Nat)) (hv : v ∈ iterVariations size needs) :
    (v.map (·.1)).Nodup ∧ (∀ p, p ∈ v.map (·.1) ↔ ∃ n ∈ needs, p ∈ n.params) ∧ ∀ p i, (p, i) ∈ v → i < size p := by
  rw [iterVariations_eq] at hv
  obtain ⟨l, hl, rfl⟩ := List.mem_map.1 hv
  obtain ⟨h1, h2⟩ := (mem_product _ l).1 hl
  simp only [List.length_map] at h1
  rw [map_fst_zip h1]
  refine ⟨nodup_neededIds needs, mem_neededIds needs, ?_⟩
  intro p i hm
  obtain ⟨j, hj⟩ := List.getElem?_of_mem hm
  rw [List.getElem?_zip_eq_some] at hj
  exact h2 j i (size p) hj.2 (by simp [hj.1])

/-- C21: each combination of values of the needed parameters occurs exactly once; so with no needed parameters there is exactly one
variation. -/
theorem C21_each_combination_once (size : Nat → Nat) (needs : List Need) (f : Nat → Nat) (hf : ∀ n ∈ needs, ∀ p ∈ n.params, f p < size p) :
    ∃ l1 v l2, iterVariations size needs = l1 ++ v :: l2 ∧ (∀ p i, (p, i) ∈ v → i = f p) ∧
      ∀ w ∈ l1 ++ l2, ∃ p i, (p, i) ∈ w ∧ i ≠ f p := by
  rw [iterVariations_eq]
  have hmem : (neededIds needs).map f ∈ product ((neededIds needs).map size) := by
    rw [mem_product]
    refine ⟨by simp, ?_⟩
    intro i v n hv hn
    rw [List.getElem?_map] at hv hn
    cases hp : (neededIds needs)[i]? with
    | none => rw [hp] at hv; cases hv
    | some p =>
      rw [hp] at hv hn
      cases hv
      cases hn
      obtain ⟨m, hm, hpm⟩ := (mem_neededIds needs p).1 (List.mem_of_getElem? hp)
      exact hf m hm p hpm
  obtain ⟨a, b, e⟩ := List.append_of_mem hmem
  have hnd := nodup_product ((neededIds needs).map size)
  rw [e] at hnd
  have hlen : ∀ l ∈ a ++ b, l.length = (neededIds needs).length := by
    intro l hl
    have : l ∈ product ((neededIds needs).map size) := by
      rw [e]; rcases List.mem_append.1 hl with h | h <;> simp [h]
    simpa using ((mem_product _ l).1 this).1
  refine ⟨a.map ((neededIds needs).zip ·), (neededIds needs).zip ((neededIds needs).map f), b.map ((neededIds needs).zip ·), by rw [e]; simp, ?_, ?_⟩
  · intro p i hm
    obtain ⟨j, hj⟩ := List.getElem?_of_mem hm
    rw [List.getElem?_zip_eq_some] at hj
    have := hj.2
    rw [List.getElem?_map, hj.1] at this
    simpa using this.symm
  · intro w hw
    rw [← List.map_append] at hw
    obtain ⟨l, hl, rfl⟩ := List.mem_map.1 hw
    apply Classical.byContradiction
    intro hno
    have heq : l = (neededIds needs).map f := by
      apply List.ext_getElem?
      intro j
      rw [List.getElem?_map]
      cases hp : (neededIds needs)[j]? with
      | none =>
        rw [List.getElem?_eq_none_iff] at hp
        rw [List.getElem?_eq_none (by rw [hlen l hl]; exact hp)]; rfl
      | some p =>
        have hj : j < l.length := by rw [hlen l hl]; exact (List.getElem?_eq_some_iff.1 hp).1
        rw [List.getElem?_eq_getElem hj]
        simp only [Option.map_some, Option.some.injEq]
        apply Classical.byContradiction
        intro hne
        refine hno ⟨p, l[j], ?_, hne⟩
        apply List.mem_of_getElem? (i := j)
        rw [List.getElem?_zip_eq_some]
        exact ⟨hp, List.getElem?_eq_getElem hj⟩
    subst heq
    rw [List.nodup_append] at hnd
    obtain ⟨-, h2, h3⟩ := hnd
    rw [List.nodup_cons] at h2
    rcases List.mem_append.1 hl with h | h
    · exact h3 _ h _ (by simp) rfl
    · exact h2.1 h

/-- C21: so their number is the product of the numbers of values. -/
theorem C21_count (size : Nat → Nat) (needs : List Need) :
    (iterVariations size needs).length = ((neededIds needs).map size).foldr (· * ·) 1 := by
  rw [iterVariations_eq, List.length_map, length_product]

/-- two parameters with 2 and 3 values, the second needed twice -/
example : iterVariations (fun p => p + 1) [⟨0, [1]⟩, ⟨0, [2, 1]⟩] =
    [[(1, 0), (2, 0)], [(1, 0), (2, 1)], [(1, 0), (2, 2)], [(1, 1), (2, 0)], [(1, 1), (2, 1)], [(1, 1), (2, 2)]] ∧
    iterVariations (fun p => p + 1) [⟨2, []⟩] = [[]] := by
  decide

/-- C21: the parameters are those of the fixtures the test needs, directly or not (`defs`: the fixtures; the needed ones with what the
store computes for them). -/
theorem C21_transitive (defs : Nat → FG.FDef) (memo : Nat → Option (List Nat)) (hm : FG.MemoOk defs memo) (fuel : Nat) (fs : List Nat)
    (needs : List Need) (hn : ∀ n, n ∈ needs ↔ ∃ f ∈ fs, n.scope = (defs f).scope ∧ FG.needed defs memo fuel f = some (some n.params))
    (hall : ∀ f ∈ fs, ∃ l, FG.needed defs memo fuel f = some (some l))
    (size : Nat → Nat) (v : List (Nat × Nat)) (hv : v ∈ iterVariations size needs) (p : Nat) :
    p ∈ v.map (·.1) ↔ ∃ f ∈ fs, FG.Param defs f p := by
  rw [(C21_each_is_a_combination size needs v hv).2.1 p]
  constructor
  · rintro ⟨n, h1, h2⟩
    obtain ⟨f, hf, -, h3⟩ := (hn n).1 h1
    exact ⟨f, hf, (((FG.C18_error_iff_cycle defs memo hm fuel f _ h3).2 _ rfl).2 p).1 h2⟩
  · rintro ⟨f, hf, h⟩
    obtain ⟨l, hl⟩ := hall f hf
    exact ⟨⟨(defs f).scope, l⟩, (hn _).2 ⟨f, hf, rfl, hl⟩, (((FG.C18_error_iff_cycle defs memo hm fuel f _ hl).2 _ rfl).2 p).2 h⟩

/-! ## C22 -/

theorem addAll_append (s l : List Nat) : ∃ t, FG.addAll s l = s ++ t := by
  induction l generalizing s with
  | nil => exact ⟨[], by simp [FG.addAll]⟩
  | cons a l ih =>
    simp only [FG.addAll, List.foldl_cons] at ih ⊢
    split
    · exact ih s
    · obtain ⟨t, ht⟩ := ih (s ++ [a])
      exact ⟨a :: t, by rw [ht]; simp⟩

theorem fold_append (l : List Need) (ids : List Nat) : ∃ t, l.foldl (fun ids n => FG.addAll ids n.params) ids = ids ++ t := by
  induction l generalizing ids with
  | nil => exact ⟨[], by simp⟩
  | cons n l ih =>
    obtain ⟨t1, h1⟩ := addAll_append ids n.params
    obtain ⟨t2, h2⟩ := ih (FG.addAll ids n.params)
    exact ⟨t1 ++ t2, by rw [List.foldl_cons, h2, h1]; simp⟩

theorem split_sorted (s : Nat) (l : List Need) (h : l.Pairwise (fun a b => b.scope ≤ a.scope)) :
    ∃ x y, l = x ++ y ∧ (∀ n ∈ x, s ≤ n.scope) ∧ ∀ n ∈ y, n.scope < s := by
  induction l with
  | nil => exact ⟨[], [], rfl, by simp, by simp⟩
  | cons a l ih =>
    rw [List.pairwise_cons] at h
    by_cases ha : s ≤ a.scope
    · obtain ⟨x, y, rfl, hx, hy⟩ := ih h.2
      refine ⟨a :: x, y, rfl, ?_, hy⟩
      intro n hn
      rcases List.mem_cons.1 hn with rfl | hn
      · exact ha
      · exact hx n hn
    · refine ⟨[], a :: l, rfl, by simp, ?_⟩
      intro n hn
      rcases List.mem_cons.1 hn with rfl | hn
      · omega
      · have := h.1 n hn; omega

theorem neededIds_split (s : Nat) (needs : List Need) :
    ∃ a b, neededIds needs = a ++ b ∧ ∀ p, p ∈ a ↔ ∃ n ∈ needs, s ≤ n.scope ∧ p ∈ n.params := by
  obtain ⟨x, y, e, hx, hy⟩ := split_sorted s (sortDesc needs) (sort_sorted needs)
  unfold neededIds
  rw [e, List.foldl_append]
  obtain ⟨t, ht⟩ := fold_append y (x.foldl (fun ids n => FG.addAll ids n.params) [])
  refine ⟨_, t, ht, ?_⟩
  intro p
  rw [mem_fold]
  simp only [List.not_mem_nil, false_or]
  have hxy : ∀ n, n ∈ needs ↔ n ∈ x ∨ n ∈ y := by intro n; rw [← mem_sortDesc, e, List.mem_append]
  constructor
  · rintro ⟨n, h1, h2⟩
    exact ⟨n, (hxy n).2 (.inl h1), hx n h1, h2⟩
  · rintro ⟨n, h1, h2, h3⟩
    rcases (hxy n).1 h1 with h | h
    · exact ⟨n, h, h3⟩
    · have := hy n h; omega

theorem product_append (ms ns : List Nat) : product (ms ++ ns) = (product ms).flatMap (fun a => (product ns).map (a ++ ·)) := by
  induction ms with
  | nil => simp [product]
  | cons m ms ih =>
    simp only [List.cons_append, product, ih, List.flatMap_assoc, List.map_flatMap, List.flatMap_map, List.map_map]
    rfl

theorem idx_pairwise (l : List (List Nat)) (h : l.Nodup) : l.Pairwise (fun a b => l.idxOf a ≤ l.idxOf b) := by
  rw [List.pairwise_iff_getElem]
  intro i j hi hj hij
  rw [h.idxOf_getElem, h.idxOf_getElem]
  omega

/-- In a list made of blocks with different keys, the elements between two with the same key have that key. -/
theorem contiguous (L : List (List Nat)) (hL : L.Nodup) (f : List Nat → List (List Nat)) (k : List Nat → List Nat)
    (hk : ∀ a ∈ L, ∀ x ∈ f a, k x = a) (l1 l2 l3 : List (List Nat)) (v w : List Nat)
    (e : L.flatMap f = l1 ++ v :: (l2 ++ w :: l3)) (hvw : k v = k w) (u : List Nat) (hu : u ∈ l2) : k u = k v := by
  have hp : (L.flatMap f).Pairwise (fun x y => L.idxOf (k x) ≤ L.idxOf (k y)) := by
    rw [List.pairwise_flatMap]
    constructor
    · intro a ha
      rw [List.pairwise_iff_forall_sublist]
      intro x y hxy
      have hx : x ∈ f a := hxy.subset (by simp)
      have hy : y ∈ f a := hxy.subset (by simp)
      rw [hk a ha x hx, hk a ha y hy]
      exact Nat.le_refl _
    · apply (idx_pairwise L hL).imp_of_mem
      intro a b ha hb hab x hx y hy
      rw [hk a ha x hx, hk b hb y hy]; exact hab
  have hin : ∀ x ∈ L.flatMap f, k x ∈ L := by
    intro x hx
    obtain ⟨a, ha, hx⟩ := List.mem_flatMap.1 hx
    rw [hk a ha x hx]; exact ha
  have hum := hin u (by rw [e]; simp [hu])
  have hvm := hin v (by rw [e]; simp)
  rw [e, List.pairwise_append] at hp
  obtain ⟨-, hp, -⟩ := hp
  rw [List.pairwise_cons] at hp
  have h1 := hp.1 u (by simp [hu])
  have h2 := hp.2
  rw [List.pairwise_append] at h2
  have h3 := h2.2.2 u hu w (by simp)
  rw [← hvw] at h3
  have h4 : L.idxOf (k u) = L.idxOf (k v) := by omega
  have h5 : L[L.idxOf (k u)]? = some (k u) := by
    rw [List.getElem?_eq_getElem (List.idxOf_lt_length_of_mem hum)]; simp
  have h6 : L[L.idxOf (k v)]? = some (k v) := by
    rw [List.getElem?_eq_getElem (List.idxOf_lt_length_of_mem hvm)]; simp
  rw [h4, h6] at h5
  simpa using h5.symm

/-- The value index of a parameter in a variation. -/
def valueOf (v : List (Nat × Nat)) (p : Nat) : Option Nat := (v.find? (fun e => e.1 == p)).map (·.2)

theorem valueOf_zip_append (a b x y : List Nat) (h : x.length = a.length) (p : Nat) (hp : p ∈ a) :
    valueOf ((a ++ b).zip (x ++ y)) p = valueOf (a.zip x) p := by
  induction a generalizing x with
  | nil => simp at hp
  | cons c a ih =>
    cases x with
    | nil => simp at h
    | cons d x =>
      simp only [List.cons_append, List.zip_cons_cons, valueOf, List.find?_cons]
      split
      · rfl
      · rename_i hne
        refine ih x (by simpa using h) ?_
        rcases List.mem_cons.1 hp with rfl | hp
        · simp at hne
        · exact hp

theorem zip_ext (a x y : List Nat) (hx : x.length = a.length) (hy : y.length = a.length) (ha : a.Nodup)
    (h : ∀ p ∈ a, valueOf (a.zip x) p = valueOf (a.zip y) p) : x = y := by
  induction a generalizing x y with
  | nil => cases x <;> cases y <;> simp_all
  | cons c a ih =>
    cases x with
    | nil => simp at hx
    | cons d x =>
      cases y with
      | nil => simp at hy
      | cons e y =>
        rw [List.nodup_cons] at ha
        have h0 := h c (by simp)
        simp only [List.zip_cons_cons, valueOf, List.find?_cons, beq_self_eq_true, Option.map_some, Option.some.injEq] at h0
        subst h0
        rw [ih x y (by simpa using hx) (by simpa using hy) ha.2]
        intro p hp
        have h1 := h p (by simp [hp])
        have hne : (c == p) = false := by
          simp only [beq_eq_false_iff_ne]; rintro rfl; exact ha.1 hp
        simpa only [List.zip_cons_cons, valueOf, List.find?_cons, hne] using h1

/-- C22, the part that holds (the parameters of the wide fixtures which the test itself asks for): two variations that agree on the
parameters of all the fixtures asked for with at least the scope `s` have only such variations between them. So the variations of
these fixtures are gone through one after the other, and the narrower parameters change within. Not so for a wide fixture that is
only asked for by a narrower fixture, see `C22_indirect_violated`. -/
theorem C22_wide_change_least_partial (size : Nat → Nat) (needs : List Need) (s : Nat) (l1 l2 l3 : List (List (Nat × Nat)))
    (v w : List (Nat × Nat)) (e : iterVariations size needs = l1 ++ v :: (l2 ++ w :: l3))
    (hvw : ∀ n ∈ needs, s ≤ n.scope → ∀ p ∈ n.params, valueOf v p = valueOf w p) :
    ∀ u ∈ l2, ∀ n ∈ needs, s ≤ n.scope → ∀ p ∈ n.params, valueOf u p = valueOf v p := by
  obtain ⟨a, b, hab, hmem⟩ := neededIds_split s needs
  have hnd := nodup_neededIds needs
  rw [iterVariations_eq, hab] at e
  rw [hab, List.nodup_append] at hnd
  have hpe : product ((a ++ b).map size) = (product (a.map size)).flatMap (fun x => (product (b.map size)).map (x ++ ·)) := by
    rw [List.map_append, product_append]
  obtain ⟨m1, m2, e1, rfl, e2⟩ := List.map_eq_append_iff.1 e
  obtain ⟨v', m3, rfl, rfl, e3⟩ := List.map_eq_cons_iff.1 e2
  obtain ⟨m4, m5, rfl, rfl, e4⟩ := List.map_eq_append_iff.1 e3
  obtain ⟨w', m6, rfl, rfl, rfl⟩ := List.map_eq_cons_iff.1 e4
  intro u hu n hn hs p hp
  obtain ⟨u', hu', rfl⟩ := List.mem_map.1 hu
  have hdec : ∀ x ∈ product ((a ++ b).map size), (x.take a.length).length = a.length ∧ ∀ p ∈ a,
      valueOf ((a ++ b).zip x) p = valueOf (a.zip (x.take a.length)) p := by
    intro x hx
    have hl := ((mem_product _ x).1 hx).1
    have ht : (x.take a.length).length = a.length := by
      simp only [List.length_map, List.length_append] at hl
      rw [List.length_take]; omega
    refine ⟨ht, fun p hp => ?_⟩
    conv => lhs; rw [← List.take_append_drop a.length x]
    exact valueOf_zip_append a b _ _ ht p hp
  have mv := hdec v' (by rw [e1]; simp)
  have mw := hdec w' (by rw [e1]; simp)
  have mu := hdec u' (by rw [e1]; simp [hu'])
  have hkey : v'.take a.length = w'.take a.length := by
    refine zip_ext a _ _ mv.1 mw.1 hnd.1 ?_
    intro p hp
    obtain ⟨n, h1, h2, h3⟩ := (hmem p).1 hp
    rw [← mv.2 p hp, ← mw.2 p hp]
    exact hvw n h1 h2 p h3
  have := contiguous (product (a.map size)) (nodup_product _) (fun x => (product (b.map size)).map (x ++ ·)) (·.take a.length)
    (by
      intro x hx y hy
      obtain ⟨z, _, rfl⟩ := List.mem_map.1 hy
      have : x.length = a.length := by simpa using ((mem_product _ x).1 hx).1
      simp [← this])
    m1 m4 m6 v' w' (by rw [← hpe, e1]) hkey u' hu'
  have hpa := (hmem p).2 ⟨n, hn, hs, hp⟩
  rw [mu.2 p hpa, mv.2 p hpa, this]

/-- a session fixture with parameter 1, asked for after a test fixture with parameter 2 -/
example : (iterVariations (fun _ => 2) [⟨0, [2]⟩, ⟨2, [1]⟩]).map (fun v => (valueOf v 1, valueOf v 2)) =
    [(some 0, some 0), (some 0, some 1), (some 1, some 0), (some 1, some 1)] := by
  decide

/-- C22 fails when a session fixture is asked for by a test fixture only: below, the test fixture 0 has the parameter 2 and asks for
the session fixture 1, which has the parameter 3. Parameter 3 alternates. -/
theorem C22_indirect_violated :
    let defs : Nat → FG.FDef := fun f =>
      if f = 0 then { scope := 0, needs := [1], params := [2] } else { scope := 2, params := [3] }
    ∃ l, FG.needed defs (fun _ => none) 10 0 = some (some l) ∧
      (iterVariations (fun _ => 2) [⟨0, l⟩]).map (valueOf · 3) = [some 0, some 1, some 0, some 1] := by
  exact ⟨_, rfl, by decide⟩

/-! ## C21: cartesian products of named values -/

/-- C21 for `iter_cartesian_dicts`: exactly the dictionaries that have the given keys, in their order, each with one of its values ... -/
theorem C21_dicts {α β : Type} (d : List (α × List β)) : ∀ l : List (α × β),
    l ∈ iterCartesianDicts d ↔ l.length = d.length ∧ ∀ p ∈ l.zip d, p.1.1 = p.2.1 ∧ p.1.2 ∈ p.2.2 := by
  unfold iterCartesianDicts
  induction d with
  | nil =>
    intro l
    cases l <;> simp [productOf]
  | cons x d ih =>
    intro l
    simp only [List.mem_map] at ih
    simp only [List.map_cons, productOf, List.mem_map, List.mem_flatMap]
    constructor
    · rintro ⟨c, ⟨v, hv, c', hc', rfl⟩, rfl⟩
      obtain ⟨h1, h2⟩ := (ih _).1 ⟨c', hc', rfl⟩
      refine ⟨by simpa using h1, ?_⟩
      simp only [List.zip_cons_cons, List.mem_cons, forall_eq_or_imp, true_and]
      exact ⟨hv, h2⟩
    · rintro ⟨h1, h2⟩
      cases l with
      | nil => simp at h1
      | cons y l =>
        simp only [List.zip_cons_cons, List.mem_cons, forall_eq_or_imp] at h2
        obtain ⟨⟨h3, h4⟩, h5⟩ := h2
        obtain ⟨c, hc, rfl⟩ := (ih l).2 ⟨by simpa using h1, h5⟩
        exact ⟨y.2 :: c, ⟨y.2, h4, c, hc, rfl⟩, by simp [List.zip_cons_cons, ← h3]⟩

/-- ... each of them once, if no value is listed twice for a key ... -/
theorem C21_dicts_nodup {α β : Type} (d : List (α × List β)) (hn : ∀ x ∈ d, x.2.Nodup) : (iterCartesianDicts d).Nodup := by
  unfold iterCartesianDicts
  induction d with
  | nil => simp [productOf]
  | cons x d ih =>
    have ih := ih (fun y hy => hn y (List.mem_cons_of_mem _ hy))
    simp only [List.map_cons, productOf, List.map_flatMap, List.map_map]
    have hx := hn x List.mem_cons_self
    generalize x.2 = vs at hx
    induction vs with
    | nil => simp
    | cons v vs ihv =>
      rw [List.nodup_cons] at hx
      rw [List.flatMap_cons, List.nodup_append]
      refine ⟨?_, ihv hx.2, ?_⟩
      · have he : ∀ L : List (List β), L.map ((fun c => (x.1 :: d.map (·.1)).zip c) ∘ (fun l => v :: l)) =
            (L.map (fun c => (d.map (·.1)).zip c)).map (fun l => (x.1, v) :: l) := by
          intro L; rw [List.map_map]; rfl
        rw [he]
        exact ih.map _ (fun a b h => by simpa using h)
      · intro a ha b hb hab
        subst hab
        simp only [List.mem_map, Function.comp, List.mem_flatMap, List.zip_cons_cons] at ha hb
        obtain ⟨c, -, rfl⟩ := ha
        obtain ⟨w, hw, c', -, e⟩ := hb
        simp only [List.cons.injEq, Prod.mk.injEq, true_and] at e
        exact hx.1 (e.1 ▸ hw)

/-- ... in the order in which the values of the last key change fastest. -/
theorem C21_dicts_order {α β : Type} (k : α) (vs : List β) (d : List (α × List β)) :
    iterCartesianDicts ((k, vs) :: d) = (vs.map (fun v => (iterCartesianDicts d).map (fun l => (k, v) :: l))).flatten := by
  unfold iterCartesianDicts
  simp only [List.map_cons, productOf]
  rw [List.map_flatMap, List.flatMap_def]
  congr 1
  apply List.map_congr_left
  intro v _
  rw [List.map_map, List.map_map]
  rfl

example : iterCartesianDicts [('a', [1, 2]), ('b', [3, 4])] =
    [[('a', 1), ('b', 3)], [('a', 1), ('b', 4)], [('a', 2), ('b', 3)], [('a', 2), ('b', 4)]] := by decide

end Slash.Var
