import Verif.Model.Loader
import Verif.Lemmas.Util
import Verif.Props.IdSpace
import Verif.Props.TestMeta
/-!
# Loading tests: properties C37, C38, C39
-/
namespace Slash.Load

/-! ## C37: repetition -/

theorem countP_copies (p : T → Bool) (hp : ∀ t o, p (t.clone o) = p t) (t : T) (next n : Nat) :
    (copies t next n).countP p = if p t then n else 0 := by
  cases n with
  | zero => simp [copies]
  | succ n =>
    simp only [copies, List.countP_cons, List.countP_map]
    have : (p ∘ fun i => t.clone (next + i)) = fun _ => p t := by funext i; exact hp t _
    rw [this]
    cases p t <;> simp

theorem length_copies (t : T) (next n : Nat) : (copies t next n).length = n := by cases n <;> simp [copies]

theorem countP_repeatEach (p : T → Bool) (hp : ∀ t o, p (t.clone o) = p t) (each : Nat) (ts : List T) (next : Nat) :
    (repeatEach each ts next).1.countP p = (ts.map (fun t => if p t then each * t.rep else 0)).sum := by
  induction ts generalizing next with
  | nil => rfl
  | cons t ts ih =>
    simp only [repeatEach, List.countP_append, List.map_cons, List.sum_cons, ih, countP_copies p hp]

theorem countP_pass (s i j : Nat) (first : List T) (next k : Nat) :
    ((first.zipIdx k).map (fun x => { x.1.clone (next + x.2) with repeatAll := i })).countP (fun t => t.src == s && t.repeatAll == j) =
      if j = i then first.countP (·.src == s) else 0 := by
  induction first generalizing k with
  | nil => simp
  | cons t first ih =>
    rw [List.zipIdx_cons, List.map_cons, List.countP_cons, ih, List.countP_cons]
    by_cases h : j = i
    · subst h; simp [T.clone]
    · have : (i == j) = false := by simpa using fun e => h e.symm
      simp [h, this]

theorem countP_repeatAll (s j : Nat) (first : List T) (next i n : Nat) :
    (repeatAll first next i n).countP (fun t => t.src == s && t.repeatAll == j) =
      if i < j ∧ j ≤ i + n then first.countP (·.src == s) else 0 := by
  induction n generalizing next i with
  | zero => rw [if_neg (by omega)]; rfl
  | succ n ih =>
    simp only [repeatAll, List.countP_append, ih, countP_pass]
    by_cases h : j = i + 1
    · rw [if_pos h, if_neg (by omega), if_pos (by omega)]; omega
    · rw [if_neg h]
      by_cases h' : i + 1 < j ∧ j ≤ i + 1 + n
      · rw [if_pos h', if_pos (by omega)]; omega
      · rw [if_neg h', if_neg (by omega)]

theorem sum_single (ts : List T) (t : T) (ht : t ∈ ts) (hs : (ts.map (·.src)).Nodup) (f : T → Nat) :
    (ts.map (fun u => if u.src == t.src then f u else 0)).sum = f t := by
  induction ts with
  | nil => cases ht
  | cons u ts ih =>
    simp only [List.map_cons, List.nodup_cons] at hs
    simp only [List.map_cons, List.sum_cons]
    rcases List.mem_cons.1 ht with rfl | ht
    · have : (ts.map (fun u => if u.src == t.src then f u else 0)).sum = 0 := by
        rw [List.sum_eq_zero_iff_forall_eq_nat]
        intro x hx
        obtain ⟨v, hv, rfl⟩ := List.mem_map.1 hx
        rw [if_neg]
        intro e
        exact hs.1 (List.mem_map.2 ⟨v, hv, by simpa using e⟩)
      rw [this]
      simp
    · rw [ih ht hs.2, if_neg]
      · omega
      · intro e
        exact hs.1 (List.mem_map.2 ⟨t, ht, (by simpa using e : u.src = t.src).symm⟩)

theorem repeatEach_index (each : Nat) (ts : List T) (next : Nat) (h : ∀ t ∈ ts, t.repeatAll = 0) :
    ∀ t ∈ (repeatEach each ts next).1, t.repeatAll = 0 := by
  induction ts generalizing next with
  | nil => simp [repeatEach]
  | cons u ts ih =>
    intro t ht
    simp only [repeatEach] at ht
    rcases List.mem_append.1 ht with ht | ht
    · unfold copies at ht
      split at ht
      · cases ht
      · rcases List.mem_cons.1 ht with rfl | ht
        · exact h _ (by simp)
        · obtain ⟨i, -, rfl⟩ := List.mem_map.1 ht
          exact h u (by simp)
    · exact ih _ (fun v hv => h v (by simp [hv])) t ht

/-- The number of repetitions of a test in each pass. -/
theorem count_pass (each all : Nat) (tests : List T) (next : Nat) (hs : (tests.map (·.src)).Nodup) (h0 : ∀ t ∈ tests, t.repeatAll = 0)
    (t : T) (ht : t ∈ tests) (i : Nat) :
    (generateRepeats each all tests next).countP (fun u => u.src == t.src && u.repeatAll == i) =
      if i < max 1 all then each * t.rep else 0 := by
  unfold generateRepeats
  simp only [List.countP_append, countP_repeatAll]
  have hf : (repeatEach each tests next).1.countP (·.src == t.src) = each * t.rep := by
    rw [countP_repeatEach _ (fun _ _ => rfl)]
    exact sum_single tests t ht hs (fun u => each * u.rep)
  have hidx := repeatEach_index each tests next h0
  rw [hf]
  by_cases hi : i = 0
  · subst hi
    rw [if_neg (by omega), if_pos (by omega)]
    rw [show (repeatEach each tests next).1.countP (fun u => u.src == t.src && u.repeatAll == 0) =
        (repeatEach each tests next).1.countP (·.src == t.src) from List.countP_congr (fun u hu => by simp [hidx u hu]), hf]
    omega
  · rw [show (repeatEach each tests next).1.countP (fun u => u.src == t.src && u.repeatAll == i) = 0 from
      List.countP_eq_zero.2 (fun u hu => by rw [hidx u hu]; simp; omega)]
    by_cases h : i < max 1 all
    · rw [if_pos (by omega), if_pos h]; omega
    · rw [if_neg (by omega), if_neg h]

theorem oid_copies (t : T) (next n : Nat) (ht : t.oid < next) :
    ((copies t next n).map (·.oid)).Nodup ∧ ∀ u ∈ copies t next n, u.oid = t.oid ∨ (next ≤ u.oid ∧ u.oid < next + n) := by
  cases n with
  | zero => simp [copies]
  | succ n =>
    simp only [copies, List.map_cons, List.map_map]
    have hm : ((fun x : T => x.oid) ∘ fun i => t.clone (next + i)) = fun i => next + i := rfl
    constructor
    · rw [List.nodup_cons, hm]
      refine ⟨?_, ?_⟩
      · intro h
        obtain ⟨i, -, e⟩ := List.mem_map.1 h
        omega
      · refine List.Pairwise.map _ ?_ List.nodup_range
        intro a b hab e
        exact hab (by simpa using e)
    · intro u hu
      rcases List.mem_cons.1 hu with rfl | hu
      · exact .inl rfl
      · obtain ⟨i, hi, rfl⟩ := List.mem_map.1 hu
        simp only [List.mem_range] at hi
        exact .inr ⟨by simp [T.clone], by simp [T.clone]; omega⟩

theorem oid_repeatEach (each : Nat) (ts : List T) (next : Nat) (hn : (ts.map (·.oid)).Nodup) (hlt : ∀ t ∈ ts, t.oid < next) :
    next ≤ (repeatEach each ts next).2 ∧ ((repeatEach each ts next).1.map (·.oid)).Nodup ∧
    ∀ u ∈ (repeatEach each ts next).1, u.oid ∈ ts.map (·.oid) ∨ (next ≤ u.oid ∧ u.oid < (repeatEach each ts next).2) := by
  induction ts generalizing next with
  | nil => simp [repeatEach]
  | cons t ts ih =>
    simp only [List.map_cons, List.nodup_cons] at hn
    have hl := length_copies t next (each * t.rep)
    obtain ⟨a1, a2⟩ := oid_copies t next (each * t.rep) (hlt t (by simp))
    obtain ⟨b1, b2, b3⟩ := ih (next + (copies t next (each * t.rep)).length) hn.2
      (fun u hu => by have := hlt u (by simp [hu]); omega)
    simp only [repeatEach]
    refine ⟨by omega, ?_, ?_⟩
    · rw [List.map_append, List.nodup_append]
      refine ⟨a1, b2, ?_⟩
      intro x hx y hy e
      obtain ⟨u, hu, rfl⟩ := List.mem_map.1 hx
      obtain ⟨v, hv, rfl⟩ := List.mem_map.1 hy
      have hut := hlt t (by simp)
      rcases a2 u hu with h | ⟨h, h'⟩
      · rcases b3 v hv with h'' | ⟨h'', _⟩
        · exact hn.1 (by rw [← h, e]; exact h'')
        · omega
      · rcases b3 v hv with h'' | ⟨h'', _⟩
        · obtain ⟨w, hw, e'⟩ := List.mem_map.1 h''
          have := hlt w (by simp [hw]); omega
        · omega
    · intro u hu
      rcases List.mem_append.1 hu with hu | hu
      · rcases a2 u hu with h | ⟨h, h'⟩
        · exact .inl (by simp [h])
        · exact .inr ⟨h, by omega⟩
      · rcases b3 u hu with h | ⟨h, h'⟩
        · exact .inl (by simp only [List.map_cons, List.mem_cons]; exact .inr h)
        · exact .inr ⟨by omega, h'⟩

theorem oid_repeatAll (first : List T) (next i n : Nat) :
    ((repeatAll first next i n).map (·.oid)).Nodup ∧ ∀ u ∈ repeatAll first next i n, next ≤ u.oid := by
  induction n generalizing next i with
  | zero => simp [repeatAll]
  | succ n ih =>
    obtain ⟨a1, a2⟩ := ih (next + first.length) (i + 1)
    simp only [repeatAll]
    have hb : ∀ u ∈ first.zipIdx.map (fun x => { x.1.clone (next + x.2) with repeatAll := i + 1 }),
        next ≤ u.oid ∧ u.oid < next + first.length := by
      intro u hu
      obtain ⟨x, hx, rfl⟩ := List.mem_map.1 hu
      have := (List.mem_zipIdx' hx).1
      simp only [T.clone]
      omega
    have hn : ((first.zipIdx.map (fun x => ({ x.1.clone (next + x.2) with repeatAll := i + 1 } : T))).map (·.oid)).Nodup := by
      have : (first.zipIdx.map (fun x => ({ x.1.clone (next + x.2) with repeatAll := i + 1 } : T))).map (·.oid) =
          (first.zipIdx.map (·.2)).map (fun k => next + k) := by
        rw [List.map_map, List.map_map]
        rfl
      rw [this, List.zipIdx_map_snd]
      refine List.Pairwise.map _ ?_ (List.nodup_range' ..)
      intro a b hab e
      exact hab (by simpa using e)
    constructor
    · rw [List.map_append, List.nodup_append]
      refine ⟨hn, a1, ?_⟩
      intro x hx y hy e
      obtain ⟨u, hu, rfl⟩ := List.mem_map.1 hx
      obtain ⟨v, hv, rfl⟩ := List.mem_map.1 hy
      have := hb u hu
      have := a2 v hv
      omega
    · intro u hu
      rcases List.mem_append.1 hu with hu | hu
      · exact (hb u hu).1
      · have := a2 u hu; omega

theorem oid_generateRepeats (each all : Nat) (tests : List T) (next : Nat) (hn : (tests.map (·.oid)).Nodup) (hlt : ∀ t ∈ tests, t.oid < next) :
    ((generateRepeats each all tests next).map (·.oid)).Nodup ∧
    ∀ u ∈ generateRepeats each all tests next, u.oid ∈ tests.map (·.oid) ∨ next ≤ u.oid := by
  obtain ⟨a1, a2, a3⟩ := oid_repeatEach each tests next hn hlt
  obtain ⟨b1, b2⟩ := oid_repeatAll (repeatEach each tests next).1 (repeatEach each tests next).2 0 (all - 1)
  unfold generateRepeats
  simp only
  constructor
  · rw [List.map_append, List.nodup_append]
    refine ⟨a2, b1, ?_⟩
    intro x hx y hy e
    obtain ⟨u, hu, rfl⟩ := List.mem_map.1 hx
    obtain ⟨v, hv, rfl⟩ := List.mem_map.1 hy
    have hv' := b2 v hv
    rcases a3 u hu with h | h
    · obtain ⟨w, hw, e'⟩ := List.mem_map.1 h
      have := hlt w hw
      omega
    · omega
  · intro u hu
    rcases List.mem_append.1 hu with hu | hu
    · rcases a3 u hu with h | h
      · exact .inl h
      · exact .inr h.1
    · have := b2 u hu; exact .inr (by omega)

/-! ### sorting -/

theorem keyLe_total (a b : T) : keyLe a b = true ∨ keyLe b a = true := by
  simp only [keyLe, Bool.or_eq_true, Bool.and_eq_true, decide_eq_true_eq, beq_iff_eq]; omega

theorem keyLe_trans (a b c : T) (h : keyLe a b = true) (h' : keyLe b c = true) : keyLe a c = true := by
  simp only [keyLe, Bool.or_eq_true, Bool.and_eq_true, decide_eq_true_eq, beq_iff_eq] at *; omega

theorem insertT_perm (x : T) (l : List T) : (insertT x l).Perm (x :: l) := by
  induction l with
  | nil => exact .refl _
  | cons y l ih =>
    simp only [insertT]
    split
    · exact .refl _
    · exact (ih.cons y).trans (.swap x y l)

theorem sortT_perm (l : List T) : (sortT l).Perm l := by
  induction l with
  | nil => exact .refl _
  | cons x l ih => exact (insertT_perm x _).trans (ih.cons x)

theorem insertT_sorted (x : T) (l : List T) (h : l.Pairwise (fun a b => keyLe a b = true)) :
    (insertT x l).Pairwise (fun a b => keyLe a b = true) := by
  induction l with
  | nil => simp [insertT]
  | cons y l ih =>
    simp only [insertT]
    rw [List.pairwise_cons] at h
    split
    · rename_i hxy
      rw [List.pairwise_cons, List.pairwise_cons]
      refine ⟨?_, h⟩
      intro z hz
      rcases List.mem_cons.1 hz with rfl | hz
      · exact hxy
      · exact keyLe_trans _ _ _ hxy (h.1 z hz)
    · rename_i hxy
      rw [List.pairwise_cons]
      refine ⟨?_, ih h.2⟩
      intro z hz
      rcases List.mem_cons.1 ((insertT_perm x l).mem_iff.1 hz) with rfl | hz
      · exact (keyLe_total z y).resolve_left hxy
      · exact h.1 z hz

theorem sortT_sorted (l : List T) : (sortT l).Pairwise (fun a b => keyLe a b = true) := by
  induction l with
  | nil => exact .nil
  | cons x l ih => exact insertT_sorted x _ ih

theorem insertT_filter (x : T) (l : List T) (c : Nat × Int) :
    (insertT x l).filter (fun t => (t.repeatAll, t.key) == c) = (x :: l).filter (fun t => (t.repeatAll, t.key) == c) := by
  induction l with
  | nil => rfl
  | cons y l ih =>
    simp only [insertT]
    split
    · rfl
    · rename_i hxy
      rw [List.filter_cons, ih, List.filter_cons, List.filter_cons]
      by_cases hx : (x.repeatAll, x.key) = c
      · have hy : ¬ (y.repeatAll, y.key) = c := by
          rintro rfl
          simp only [Prod.mk.injEq] at hx
          apply hxy
          simp [keyLe, hx.1, hx.2]
        simp [hx, hy, List.filter_cons]
      · simp [hx, List.filter_cons]

theorem sortT_filter (l : List T) (c : Nat × Int) :
    (sortT l).filter (fun t => (t.repeatAll, t.key) == c) = l.filter (fun t => (t.repeatAll, t.key) == c) := by
  induction l with
  | nil => rfl
  | cons x l ih => rw [sortT, insertT_filter, List.filter_cons, ih, List.filter_cons]

theorem sortT_of_sorted (l : List T) (h : l.Pairwise (fun a b => keyLe a b = true)) : sortT l = l := by
  induction l with
  | nil => rfl
  | cons x l ih =>
    rw [List.pairwise_cons] at h
    rw [sortT, ih h.2]
    cases l with
    | nil => rfl
    | cons y l => simp only [insertT]; rw [if_pos (h.1 y (by simp))]

/-! ### ids -/

theorem allocateIds_spec (l : List T) (ids : IdSpace.Ids) (hn : (l.map (·.oid)).Nodup) :
    ((allocateIds ids l).isSome = true ↔ ∀ t ∈ l, ids.ids t.oid = none) ∧
    ∀ ids', allocateIds ids l = some ids' → ids' = ids.run (l.map (·.oid)) := by
  induction l generalizing ids with
  | nil => simp [allocateIds, IdSpace.Ids.run]
  | cons t l ih =>
    simp only [List.map_cons, List.nodup_cons] at hn
    simp only [allocateIds]
    cases h : ids.ids t.oid with
    | some i =>
      refine ⟨?_, fun _ h => by cases h⟩
      simp [h]
    | none =>
      obtain ⟨a, b⟩ := ih (ids.allocateId t.oid).2 hn.2
      refine ⟨?_, fun ids' h' => ?_⟩
      · simp only
        rw [a]
        have hsame : ∀ u ∈ l, (ids.allocateId t.oid).2.ids u.oid = ids.ids u.oid := by
          intro u hu
          have : u.oid ≠ t.oid := fun e => hn.1 (List.mem_map.2 ⟨u, hu, e⟩)
          simp [IdSpace.Ids.allocateId, h, this]
        constructor
        · intro hall u hu
          rcases List.mem_cons.1 hu with rfl | hu
          · exact h
          · rw [← hsame u hu]; exact hall u hu
        · intro hall u hu
          rw [hsame u hu]; exact hall u (by simp [hu])
      · rw [b ids' h']; rfl


theorem ids_run_isSome (ts : List Nat) (s : IdSpace.Ids) (t : Nat) (h : t ∈ ts) : ((s.run ts).ids t).isSome = true := by
  induction ts generalizing s with
  | nil => cases h
  | cons u ts ih =>
    rcases List.mem_cons.1 h with rfl | h
    · have : ∃ i, (s.allocateId t).2.ids t = some i := by
        unfold IdSpace.Ids.allocateId
        split
        · exact ⟨_, by assumption⟩
        · exact ⟨_, by simp; rfl⟩
      obtain ⟨i, hi⟩ := this
      have := IdSpace.C49_id_is_permanent _ ts t i hi
      show ((IdSpace.Ids.run ts (s.allocateId t).2).ids t).isSome = true
      rw [this]; rfl
    · exact ih _ h

/-- The tests that are loaded, before they are sorted. -/
def loaded (each all : Nat) (tests : List T) (next : Nat) (interactive : Option Nat) (hook : T → Int) : List T :=
  ((interactive.map interactiveTest).toList ++ generateRepeats each all tests next).map (fun t => { t with key := hook t })

theorem getRunnables_eq (each all : Nat) (tests : List T) (next : Nat) (interactive : Option Nat) (hook : T → Int) (ids : IdSpace.Ids) :
    getRunnables each all tests next interactive hook ids =
      (allocateIds ids (sortT (loaded each all tests next interactive hook))).map
        (fun ids => (sortT (loaded each all tests next interactive hook), ids)) := by
  unfold getRunnables loaded
  cases interactive <;> rfl

/-- C37: if loading succeeds, each test that was found occurs in the result as often in each of the `all` passes as its repeat mark times the
number of repetitions of each test says. -/
theorem C37_each_pass (each all : Nat) (tests : List T) (next : Nat) (interactive : Option Nat) (hook : T → Int) (ids : IdSpace.Ids)
    (hs : (tests.map (·.src)).Nodup) (h0 : ∀ t ∈ tests, t.repeatAll = 0) (hint : ∀ o, interactive = some o → ∀ t ∈ tests, t.src ≠ o)
    (l : List T) (ids' : IdSpace.Ids) (h : getRunnables each all tests next interactive hook ids = some (l, ids'))
    (t : T) (ht : t ∈ tests) (i : Nat) :
    l.countP (fun u => u.src == t.src && u.repeatAll == i) = if i < max 1 all then each * t.rep else 0 := by
  rw [getRunnables_eq] at h
  obtain ⟨ids'', -, e⟩ := Option.map_eq_some_iff.1 h
  simp only [Prod.mk.injEq] at e
  rw [← e.1, (sortT_perm _).countP_eq, loaded, List.countP_map, List.countP_append]
  have h1 : ((fun u : T => u.src == t.src && u.repeatAll == i) ∘ fun t : T => { t with key := hook t }) =
      fun u => u.src == t.src && u.repeatAll == i := rfl
  rw [h1, count_pass each all tests next hs h0 t ht i]
  cases interactive with
  | none => simp
  | some o =>
    have : (interactiveTest o).src ≠ t.src := fun e => hint o rfl t ht e.symm
    simp [this]

theorem repeatAll_le (each : Nat) (tests : List T) (next all : Nat) (h0 : ∀ t ∈ tests, t.repeatAll = 0) :
    ∀ u ∈ generateRepeats each all tests next, u.repeatAll < max 1 all := by
  have : ∀ (first : List T) (next i n : Nat), ∀ u ∈ repeatAll first next i n, u.repeatAll ≤ i + n := by
    intro first next i n
    induction n generalizing next i with
    | zero => simp [repeatAll]
    | succ n ih =>
      intro u hu
      simp only [repeatAll] at hu
      rcases List.mem_append.1 hu with hu | hu
      · obtain ⟨x, -, rfl⟩ := List.mem_map.1 hu
        simp only; omega
      · have := ih _ _ u hu; omega
  intro u hu
  unfold generateRepeats at hu
  simp only at hu
  rcases List.mem_append.1 hu with hu | hu
  · have := repeatEach_index each tests next h0 u hu; omega
  · by_cases ha : all ≤ 1
    · rw [show all - 1 = 0 by omega] at hu
      simp [repeatAll] at hu
    · have := this _ _ _ _ u hu
      omega

/-- C37 for the total: each test occurs `all * each * rep` times (where no repetition of all tests is the same as one). -/
theorem C37_total (each all : Nat) (tests : List T) (next : Nat) (interactive : Option Nat) (hook : T → Int) (ids : IdSpace.Ids)
    (hs : (tests.map (·.src)).Nodup) (h0 : ∀ t ∈ tests, t.repeatAll = 0) (hint : ∀ o, interactive = some o → ∀ t ∈ tests, t.src ≠ o)
    (l : List T) (ids' : IdSpace.Ids) (h : getRunnables each all tests next interactive hook ids = some (l, ids'))
    (t : T) (ht : t ∈ tests) :
    l.countP (·.src == t.src) = max 1 all * (each * t.rep) := by
  have hpass := C37_each_pass each all tests next interactive hook ids hs h0 hint l ids' h t ht
  have hlt : ∀ u ∈ l, u.src = t.src → u.repeatAll < max 1 all := by
    intro u hu hsrc
    apply Nat.lt_of_not_le
    intro hle
    have hz := hpass u.repeatAll
    rw [if_neg (by omega), List.countP_eq_zero] at hz
    exact hz u hu (by simp [hsrc])
  generalize max 1 all = n at hpass hlt
  have key : ∀ (n : Nat) (l : List T), (∀ u ∈ l, u.src = t.src → u.repeatAll < n) →
      l.countP (·.src == t.src) = ((List.range n).map (fun i => l.countP (fun u => u.src == t.src && u.repeatAll == i))).sum := by
    intro n
    induction n with
    | zero =>
      intro l hl
      simp only [List.range_zero, List.map_nil, List.sum_nil]
      rw [List.countP_eq_zero]
      intro u hu e
      exact absurd (hl u hu (by simpa using e)) (by omega)
    | succ n ih =>
      intro l hl
      rw [List.range_succ, List.map_append, List.sum_append]
      simp only [List.map_cons, List.map_nil, List.sum_cons, List.sum_nil, Nat.add_zero]
      have hsplit : l.countP (·.src == t.src) = (l.filter (fun u => !(u.repeatAll == n))).countP (·.src == t.src) +
          l.countP (fun u => u.src == t.src && u.repeatAll == n) := by
        clear hl
        induction l with
        | nil => rfl
        | cons u l ihl =>
          rw [List.countP_cons, ihl, List.filter_cons, List.countP_cons]
          cases hu : (u.repeatAll == n) <;> cases hv : (u.src == t.src) <;> simp [hv] <;> omega
      rw [hsplit, ih]
      · congr 2
        apply List.map_congr_left
        intro i hi
        simp only [List.mem_range] at hi
        rw [List.countP_filter]
        apply List.countP_congr
        intro u _
        simp only [Bool.and_eq_true, beq_iff_eq, Bool.not_eq_true', beq_eq_false_iff_ne]
        constructor
        · rintro ⟨h1, _⟩; exact h1
        · rintro ⟨h1, h2⟩; exact ⟨⟨h1, h2⟩, by omega⟩
      · intro u hu hsrc
        obtain ⟨hu, hne⟩ := List.mem_filter.1 hu
        have := hl u hu hsrc
        simp only [Bool.not_eq_true', beq_eq_false_iff_ne] at hne
        omega
  rw [key n l hlt, List.map_congr_left (g := fun _ => each * t.rep) (fun i hi => by
    rw [hpass i, if_pos (by simpa using hi)]), List.map_const', List.length_range]
  clear hpass hlt key
  induction n with
  | zero => simp
  | succ n ih => rw [List.replicate_succ, List.sum_cons, ih, Nat.succ_mul, Nat.add_comm]

/-- two tests, the second one marked to be repeated twice, each twice, all twice -/
example : ((getRunnables 2 2 [⟨0, 0, 1, 5, 0⟩, ⟨1, 1, 2, 6, 0⟩] 2 none (·.key) { space := IdSpace.Space.new [] }).map (fun r => r.1.map (·.src))) =
    some [0, 0, 1, 1, 1, 1, 0, 0, 1, 1, 1, 1] := by decide

/-- C37 for order: all tests of one pass come before those of the next one, whatever sort keys the hooks set. -/
theorem C37_passes_in_order (each all : Nat) (tests : List T) (next : Nat) (interactive : Option Nat) (hook : T → Int) (ids : IdSpace.Ids)
    (l : List T) (ids' : IdSpace.Ids) (h : getRunnables each all tests next interactive hook ids = some (l, ids')) :
    l.Pairwise (fun a b => a.repeatAll ≤ b.repeatAll) := by
  rw [getRunnables_eq] at h
  obtain ⟨ids'', -, e⟩ := Option.map_eq_some_iff.1 h
  simp only [Prod.mk.injEq] at e
  rw [← e.1]
  refine (sortT_sorted _).imp ?_
  intro a b hab
  simp only [keyLe, Bool.or_eq_true, Bool.and_eq_true, decide_eq_true_eq, beq_iff_eq] at hab
  omega

example : (getRunnables 1 2 [⟨0, 0, 1, 5, 0⟩, ⟨1, 1, 1, 6, 0⟩] 2 none (fun t => -t.key) { space := IdSpace.Space.new [] }).map
    (fun r => r.1.map (fun t => (t.repeatAll, t.src))) = some [(0, 1), (0, 0), (1, 1), (1, 0)] := by decide

/-- C37 for identity: loading tests that were not loaded before succeeds, all the tests it gives are different objects, each gets an id, and
all ids are different. `earlier`: the tests that got ids before. -/
theorem C37_distinct (each all : Nat) (tests : List T) (next : Nat) (interactive : Option Nat) (hook : T → Int) (base : List Char)
    (earlier : List Nat) (hn : (tests.map (·.oid)).Nodup) (hlt : ∀ t ∈ tests, t.oid < next)
    (hint : ∀ o, interactive = some o → o < next ∧ ∀ t ∈ tests, t.oid ≠ o)
    (hnew : ∀ o ∈ earlier, o < next ∧ interactive ≠ some o ∧ ∀ t ∈ tests, t.oid ≠ o) :
    ∃ l ids', getRunnables each all tests next interactive hook (IdSpace.Ids.run earlier { space := IdSpace.Space.new base }) = some (l, ids') ∧
      (l.map (·.oid)).Nodup ∧ (∀ t ∈ l, (ids'.ids t.oid).isSome = true) ∧
      ∀ t ∈ l, ∀ u ∈ l, ids'.ids t.oid = ids'.ids u.oid → t = u := by
  obtain ⟨h1, h2⟩ := oid_generateRepeats each all tests next hn hlt
  have hnd : ((loaded each all tests next interactive hook).map (·.oid)).Nodup := by
    unfold loaded
    rw [List.map_map, show ((fun x : T => x.oid) ∘ fun t : T => { t with key := hook t }) = (fun x => x.oid) from rfl]
    cases interactive with
    | none => simpa using h1
    | some o =>
      simp only [Option.map_some, Option.toList_some, List.cons_append, List.nil_append, List.map_cons, List.nodup_cons]
      refine ⟨?_, h1⟩
      intro hm
      obtain ⟨u, hu, e⟩ := List.mem_map.1 hm
      obtain ⟨ho, hne⟩ := hint o rfl
      have e : u.oid = o := e
      rcases h2 u hu with h | h
      · obtain ⟨t, ht, e'⟩ := List.mem_map.1 h
        exact hne t ht (e'.trans e)
      · omega
  have hsnd : ((sortT (loaded each all tests next interactive hook)).map (·.oid)).Nodup :=
    ((sortT_perm _).map _).nodup_iff.2 hnd
  have hfresh : ∀ t ∈ sortT (loaded each all tests next interactive hook),
      (IdSpace.Ids.run earlier { space := IdSpace.Space.new base }).ids t.oid = none := by
    intro t ht
    have ht := (sortT_perm _).mem_iff.1 ht
    have hno : t.oid ∉ earlier := by
      intro hm
      obtain ⟨a, b, c⟩ := hnew _ hm
      unfold loaded at ht
      obtain ⟨u, hu, rfl⟩ := List.mem_map.1 ht
      rcases List.mem_append.1 hu with hu | hu
      · cases interactive with
        | none => simp at hu
        | some o =>
          simp only [Option.map_some, Option.toList_some, List.mem_singleton] at hu
          subst hu
          exact b rfl
      · rcases h2 u hu with h | h
        · obtain ⟨v, hv, e⟩ := List.mem_map.1 h
          exact c v hv e
        · simp only at a; omega
    have : ∀ (ts : List Nat) (s : IdSpace.Ids), t.oid ∉ ts → (s.run ts).ids t.oid = s.ids t.oid := by
      intro ts
      induction ts with
      | nil => intro s _; rfl
      | cons v ts ih =>
        intro s hv
        simp only [List.mem_cons, not_or] at hv
        show (IdSpace.Ids.run ts (s.allocateId v).2).ids t.oid = _
        rw [ih _ hv.2]
        unfold IdSpace.Ids.allocateId
        split
        · rfl
        · simp [hv.1]
    rw [this earlier _ hno]
  obtain ⟨a, b⟩ := allocateIds_spec _ (IdSpace.Ids.run earlier { space := IdSpace.Space.new base }) hsnd
  have hsome := a.2 hfresh
  rw [Option.isSome_iff_exists] at hsome
  obtain ⟨ids', hids⟩ := hsome
  have hrun := b ids' hids
  refine ⟨_, ids', by rw [getRunnables_eq, hids]; rfl, hsnd, ?_, ?_⟩
  · intro t ht
    rw [hrun]
    exact ids_run_isSome _ _ _ (List.mem_map.2 ⟨t, ht, rfl⟩)
  · intro t ht u hu e
    have hst : (ids'.ids t.oid).isSome = true := by
      rw [hrun]; exact ids_run_isSome _ _ _ (List.mem_map.2 ⟨t, ht, rfl⟩)
    obtain ⟨i, hi⟩ := Option.isSome_iff_exists.1 hst
    have hjoin : ids' = IdSpace.Ids.run (earlier ++ (sortT (loaded each all tests next interactive hook)).map (·.oid))
        { space := IdSpace.Space.new base } := by
      rw [hrun]; simp [IdSpace.Ids.run]
    have := IdSpace.C49_tests_get_distinct_ids base (earlier ++ (sortT (loaded each all tests next interactive hook)).map (·.oid)) t.oid u.oid i
      (by rw [← hjoin]; exact hi) (by rw [← hjoin, ← e]; exact hi)
    exact inj_on_of_nodup_map hsnd ht hu this

example : (getRunnables 2 1 [⟨0, 0, 1, 5, 0⟩] 2 (some 1) (·.key) (IdSpace.Ids.run [] { space := IdSpace.Space.new ['b'] })).map
    (fun r => r.1.map (fun t => (t.oid, r.2.ids t.oid))) =
    some [(1, some ['b', '_', '1']), (0, some ['b', '_', '2']), (2, some ['b', '_', '3'])] := by decide

/-! ## C38 -/

/-- C38: sorting neither drops nor repeats a test, sorts by the keys within each pass, and keeps the order of tests with the same key. -/
theorem C38_stable (each all : Nat) (tests : List T) (next : Nat) (interactive : Option Nat) (hook : T → Int) (ids : IdSpace.Ids)
    (l : List T) (ids' : IdSpace.Ids) (h : getRunnables each all tests next interactive hook ids = some (l, ids')) :
    l.Perm (loaded each all tests next interactive hook) ∧
    l.Pairwise (fun a b => a.repeatAll < b.repeatAll ∨ a.repeatAll = b.repeatAll ∧ a.key ≤ b.key) ∧
    ∀ i k, l.filter (fun t => (t.repeatAll, t.key) == (i, k)) =
      (loaded each all tests next interactive hook).filter (fun t => (t.repeatAll, t.key) == (i, k)) := by
  rw [getRunnables_eq] at h
  obtain ⟨ids'', -, e⟩ := Option.map_eq_some_iff.1 h
  simp only [Prod.mk.injEq] at e
  rw [← e.1]
  refine ⟨sortT_perm _, (sortT_sorted _).imp ?_, fun i k => sortT_filter _ (i, k)⟩
  intro a b hab
  simpa only [keyLe, Bool.or_eq_true, Bool.and_eq_true, decide_eq_true_eq, beq_iff_eq] using hab

example : (getRunnables 1 1 [⟨0, 0, 1, 5, 0⟩, ⟨1, 1, 1, 6, 0⟩, ⟨2, 2, 1, 7, 0⟩] 3 none (fun t => if t.src = 0 then 9 else 1)
    { space := IdSpace.Space.new [] }).map (fun r => r.1.map (·.src)) = some [1, 2, 0] := by decide

theorem key_repeatEach (each : Nat) (ts : List T) (next : Nat) (h : ts.Pairwise (fun a b => a.key ≤ b.key)) :
    (repeatEach each ts next).1.Pairwise (fun a b => a.key ≤ b.key) ∧ ∀ u ∈ (repeatEach each ts next).1, ∃ t ∈ ts, u.key = t.key := by
  induction ts generalizing next with
  | nil => simp [repeatEach]
  | cons t ts ih =>
    rw [List.pairwise_cons] at h
    obtain ⟨a, b⟩ := ih (next + (copies t next (each * t.rep)).length) h.2
    have hc : ∀ u ∈ copies t next (each * t.rep), u.key = t.key := by
      intro u hu
      unfold copies at hu
      split at hu
      · cases hu
      · rcases List.mem_cons.1 hu with rfl | hu
        · rfl
        · obtain ⟨i, -, rfl⟩ := List.mem_map.1 hu; rfl
    simp only [repeatEach]
    constructor
    · rw [List.pairwise_append]
      refine ⟨List.pairwise_of_forall_mem_list (fun u hu v hv => by rw [hc u hu, hc v hv]; exact Int.le_refl _), a, ?_⟩
      intro u hu v hv
      obtain ⟨w, hw, e⟩ := b v hv
      rw [hc u hu, e]
      exact h.1 w hw
    · intro u hu
      rcases List.mem_append.1 hu with hu | hu
      · exact ⟨t, by simp, hc u hu⟩
      · obtain ⟨w, hw, e⟩ := b u hu
        exact ⟨w, by simp [hw], e⟩

/-- C38 if no hook sets sort keys: tests are run in the order in which they were found (sort keys are handed out in increasing order, from 1),
each with its repetitions, pass by pass, after the interactive test if there is one. -/
theorem C38_default_order (each all : Nat) (tests : List T) (next : Nat) (interactive : Option Nat) (ids : IdSpace.Ids)
    (hk : tests.Pairwise (fun a b => a.key ≤ b.key)) (hpos : ∀ t ∈ tests, 1 ≤ t.key) (h0 : ∀ t ∈ tests, t.repeatAll = 0)
    (l : List T) (ids' : IdSpace.Ids) (h : getRunnables each all tests next interactive (·.key) ids = some (l, ids')) :
    l = (interactive.map interactiveTest).toList ++ generateRepeats each all tests next := by
  rw [getRunnables_eq] at h
  obtain ⟨ids'', -, e⟩ := Option.map_eq_some_iff.1 h
  simp only [Prod.mk.injEq] at e
  have hl : loaded each all tests next interactive (·.key) = (interactive.map interactiveTest).toList ++ generateRepeats each all tests next := by
    unfold loaded; exact List.map_id' _
  rw [← e.1, hl]
  apply sortT_of_sorted
  obtain ⟨k1, k2⟩ := key_repeatEach each tests next hk
  have hidx := repeatEach_index each tests next h0
  have hall : ∀ (n nx i : Nat), (repeatAll (repeatEach each tests next).1 nx i n).Pairwise (fun a b => keyLe a b = true) ∧
      ∀ u ∈ repeatAll (repeatEach each tests next).1 nx i n, i < u.repeatAll := by
    intro n
    induction n with
    | zero => intro nx i; simp [repeatAll]
    | succ n ih =>
      intro nx i
      obtain ⟨a, b⟩ := ih (nx + (repeatEach each tests next).1.length) (i + 1)
      simp only [repeatAll]
      constructor
      · rw [List.pairwise_append]
        refine ⟨?_, a, ?_⟩
        · rw [List.pairwise_map]
          have : (repeatEach each tests next).1.zipIdx.Pairwise (fun x y => x.1.key ≤ y.1.key) := by
            have h' := k1
            rw [← List.zipIdx_map_fst 0 (repeatEach each tests next).1, List.pairwise_map] at h'
            exact h'
          exact this.imp (fun hle => by simp [keyLe, T.clone, hle])
        · intro u hu v hv
          obtain ⟨x, -, rfl⟩ := List.mem_map.1 hu
          have := b v hv
          simp [keyLe, this]
      · intro u hu
        rcases List.mem_append.1 hu with hu | hu
        · obtain ⟨x, -, rfl⟩ := List.mem_map.1 hu
          simp
        · have := b u hu; omega
  have hgen : (generateRepeats each all tests next).Pairwise (fun a b => keyLe a b = true) := by
    unfold generateRepeats
    simp only
    obtain ⟨a, b⟩ := hall (all - 1) (repeatEach each tests next).2 0
    rw [List.pairwise_append]
    refine ⟨?_, a, ?_⟩
    · have hsub : ∀ u v, [u, v].Sublist (repeatEach each tests next).1 → u.key ≤ v.key :=
        fun u v huv => List.pairwise_iff_forall_sublist.1 k1 huv
      rw [List.pairwise_iff_forall_sublist]
      intro u v huv
      have hu := hidx u (huv.subset (by simp))
      have hv := hidx v (huv.subset (by simp))
      simp [keyLe, hu, hv, hsub u v huv]
    · intro u hu v hv
      have := b v hv
      simp [keyLe, hidx u hu, this]
  cases interactive with
  | none => simpa using hgen
  | some o =>
    simp only [Option.map_some, Option.toList_some, List.cons_append, List.nil_append, List.pairwise_cons]
    refine ⟨?_, hgen⟩
    intro u hu
    have hk1 : ∀ u ∈ (repeatEach each tests next).1, 1 ≤ u.key := by
      intro u hu
      obtain ⟨t, ht, e⟩ := k2 u hu
      rw [e]; exact hpos t ht
    unfold generateRepeats at hu
    simp only at hu
    rcases List.mem_append.1 hu with hu | hu
    · have := hk1 u hu
      simp only [keyLe, interactiveTest, Bool.or_eq_true, Bool.and_eq_true, decide_eq_true_eq, beq_iff_eq, hidx u hu]
      exact .inr ⟨trivial, decide_eq_true (Int.le_trans (Int.zero_le_ofNat 1) this)⟩
    · have := (hall (all - 1) (repeatEach each tests next).2 0).2 u hu
      simp [keyLe, interactiveTest, this]

example : (getRunnables 2 1 [⟨0, 0, 1, 5, 0⟩, ⟨1, 1, 1, 6, 0⟩] 3 (some 2) (·.key) { space := IdSpace.Space.new [] }).map
    (fun r => r.1.map (·.src)) = some [2, 0, 0, 1, 1] := by decide

/-! ## C39 -/

theorem splitColon_append (p a : Str) (hp : ':' ∉ p) : splitColon (p ++ ':' :: a) = (p, some a) := by
  induction p with
  | nil => simp [splitColon]
  | cons c p ih =>
    simp only [List.mem_cons, not_or] at hp
    simp only [List.cons_append, splitColon]
    rw [if_neg (fun e => hp.1 e.symm), ih hp.2]

theorem addressMatches_iff (a : Str) (t : Meta.Test) (hp : '(' ∉ t.addressInFile) :
    addressMatches a t = true ↔ a = t.factory ∨ a = t.addressInFile := by
  unfold addressMatches
  have : t.addressInFile.contains '(' = false := by simpa using hp
  rw [this]
  by_cases h1 : a = t.factory
  · simp [h1]
  · by_cases h2 : a = t.addressInFile <;> simp [h1, h2]

/-- C39: the address `path:a` loads exactly the tests of the path whose factory name or whose address in the file is `a`, and which are not
excluded by a filter, in the order of the file; if there are no tests with that name loading fails. -/
theorem C39_selects (path : Str → R (List Meta.Test)) (excluded : Meta.Test → Bool) (p a : Str) (hp : ':' ∉ p) (tests : List Meta.Test)
    (ht : path p = .ok tests) (hpar : ∀ t ∈ tests, '(' ∉ t.addressInFile) :
    (iterAddress path excluded (p ++ ':' :: a) = .cannotLoad ↔ ∀ t ∈ tests, a ≠ t.factory ∧ a ≠ t.addressInFile) ∧
    ∀ l, iterAddress path excluded (p ++ ':' :: a) = .ok l →
      l = tests.filter (fun t => decide (a = t.factory ∨ a = t.addressInFile) && !(excluded t)) := by
  unfold iterAddress
  rw [splitColon_append p a hp]
  simp only [ht]
  have hany : tests.any (addressMatches a) = true ↔ ∃ t ∈ tests, a = t.factory ∨ a = t.addressInFile := by
    rw [List.any_eq_true]
    constructor
    · rintro ⟨t, h1, h2⟩; exact ⟨t, h1, (addressMatches_iff a t (hpar t h1)).1 h2⟩
    · rintro ⟨t, h1, h2⟩; exact ⟨t, h1, (addressMatches_iff a t (hpar t h1)).2 h2⟩
  have hfil : tests.filter (fun t => addressMatches a t && !(excluded t)) =
      tests.filter (fun t => decide (a = t.factory ∨ a = t.addressInFile) && !(excluded t)) := by
    apply List.filter_congr
    intro t h1
    congr 1
    rw [Bool.eq_iff_iff, addressMatches_iff a t (hpar t h1), decide_eq_true_iff]
  by_cases h : tests.any (addressMatches a) = true
  · rw [if_pos h]
    refine ⟨⟨(fun h => by cases h), ?_⟩, ?_⟩
    · intro hno
      obtain ⟨t, h1, h2⟩ := hany.1 h
      rcases h2 with h2 | h2
      · exact absurd h2 (hno t h1).1
      · exact absurd h2 (hno t h1).2
    · intro l hl
      simp only [R.ok.injEq] at hl
      rw [← hl, hfil]
  · rw [if_neg h]
    refine ⟨⟨fun _ => ?_, fun _ => rfl⟩, (fun l h => by cases h)⟩
    intro t h1
    constructor
    · intro e; exact h (hany.2 ⟨t, h1, .inl e⟩)
    · intro e; exact h (hany.2 ⟨t, h1, .inr e⟩)

example : iterAddress (fun _ => .ok [⟨['f'], ['C'], ['.', 't'], none, none⟩, ⟨['f'], ['C'], ['.', 'u'], none, none⟩]) (fun _ => false)
    ['f', ':', 'C', '.', 'u'] = .ok [⟨['f'], ['C'], ['.', 'u'], none, none⟩] := by decide

/-- C39 for paths: an address without a colon loads all the tests of the path that are not excluded. -/
theorem C39_path (path : Str → R (List Meta.Test)) (excluded : Meta.Test → Bool) (p : Str) (hp : ':' ∉ p) :
    iterAddress path excluded p =
      match path p with
      | .cannotLoad => .cannotLoad
      | .ok tests => .ok (tests.filter (fun t => !(excluded t))) := by
  have : splitColon p = (p, none) := by
    induction p with
    | nil => rfl
    | cons c p ih =>
      simp only [List.mem_cons, not_or] at hp
      simp only [splitColon]
      rw [if_neg (fun e => hp.1 e.symm), ih hp.2]
  unfold iterAddress
  rw [this]
  simp only
  cases path p <;> rfl

example : iterAddress (fun _ => .ok []) (fun _ => false) ['d'] = .ok [] := by decide

/-- C39 for the addresses of tests, the part that holds (the test has no variation): each test can be loaded by its own address. -/
theorem C39_own_address_partial (path : Str → R (List Meta.Test)) (excluded : Meta.Test → Bool) (tests : List Meta.Test) (t : Meta.Test)
    (hp : ':' ∉ t.file) (ht : path t.file = .ok tests) (hm : t ∈ tests) (hx : excluded t = false) (hv : t.variation = none) :
    ∃ l, iterAddress path excluded t.address = .ok l ∧ t ∈ l := by
  unfold Meta.Test.address
  rw [hv]
  simp only [List.append_nil]
  unfold iterAddress
  rw [splitColon_append _ _ hp]
  simp only [ht]
  have hmatch : addressMatches t.addressInFile t = true := by
    unfold addressMatches
    by_cases h : t.addressInFile = t.factory
    · rw [if_pos h]
    · rw [if_neg h, if_pos rfl]
  rw [if_pos (List.any_eq_true.2 ⟨t, hm, hmatch⟩)]
  exact ⟨_, rfl, List.mem_filter.2 ⟨hm, by rw [hmatch, hx]; rfl⟩⟩

example : iterAddress (fun _ => .ok [⟨['f'], ['t'], [], none, none⟩]) (fun _ => false) (⟨['f'], ['t'], [], none, none⟩ : Meta.Test).address =
    .ok [⟨['f'], ['t'], [], none, none⟩] := by decide

/-- C39 fails for tests with a variation: loading `f:t(a=1)`, which is the address of a test in `f`, is refused. -/
theorem C39_variation_violated :
    let t : Meta.Test := ⟨['f'], ['t'], [], none, some [(['a'], .index 0, ['1'])]⟩
    iterAddress (fun _ => .ok [t]) (fun _ => false) t.address = .cannotLoad := by decide +kernel


/-! ## C73 -/

theorem strLe_refl (s : Str) : Meta.strLe s s = true := by
  induction s with
  | nil => rfl
  | cons a s ih => simp [Meta.strLe, ih]

theorem char_eq_of_toNat {a b : Char} (h : a.toNat = b.toNat) : a = b := by
  apply Char.ext
  exact UInt32.toNat_inj.1 h

theorem strLe_antisymm (s t : Str) (h : Meta.strLe s t = true) (h' : Meta.strLe t s = true) : s = t := by
  induction s generalizing t with
  | nil => cases t with
    | nil => rfl
    | cons b t => simp [Meta.strLe] at h'
  | cons a s ih => cases t with
    | nil => simp [Meta.strLe] at h
    | cons b t =>
      simp only [Meta.strLe] at h h'
      by_cases e : a = b
      · subst e
        rw [if_pos rfl] at h h'
        rw [ih t h h']
      · rw [if_neg e, decide_eq_true_iff] at h
        rw [if_neg (fun e' => e e'.symm), decide_eq_true_iff] at h'
        omega

theorem strLe_total (s t : Str) : Meta.strLe s t = true ∨ Meta.strLe t s = true := by
  induction s generalizing t with
  | nil => exact .inl (by cases t <;> rfl)
  | cons a s ih => cases t with
    | nil => exact .inr rfl
    | cons b t =>
      simp only [Meta.strLe]
      by_cases e : a = b
      · subst e
        simpa using ih t
      · rw [if_neg e, if_neg (fun e' => e e'.symm), decide_eq_true_iff, decide_eq_true_iff]
        have : a.toNat ≠ b.toNat := fun h => e (char_eq_of_toNat h)
        omega

theorem strLe_trans (s t u : Str) (h : Meta.strLe s t = true) (h' : Meta.strLe t u = true) : Meta.strLe s u = true := by
  induction s generalizing t u with
  | nil => cases u <;> rfl
  | cons a s ih => cases t with
    | nil => simp [Meta.strLe] at h
    | cons b t => cases u with
      | nil => simp [Meta.strLe] at h'
      | cons c u =>
        simp only [Meta.strLe] at h h' ⊢
        by_cases e : a = b
        · subst e
          rw [if_pos rfl] at h
          by_cases e2 : a = c
          · subst e2
            rw [if_pos rfl] at h' ⊢
            exact ih t u h h'
          · rw [if_neg e2] at h' ⊢
            exact h'
        · rw [if_neg e, decide_eq_true_iff] at h
          by_cases e2 : b = c
          · subst e2
            rw [if_neg e, decide_eq_true_iff]
            exact h
          · rw [if_neg e2, decide_eq_true_iff] at h'
            have : a ≠ c := fun e3 => by subst e3; omega
            rw [if_neg this, decide_eq_true_iff]
            omega

theorem insertName_sorted {α : Type} (x : Str × α) (l : List (Str × α)) (h : l.Pairwise (fun a b => Meta.strLe a.1 b.1 = true)) :
    (Meta.insertName x l).Pairwise (fun a b => Meta.strLe a.1 b.1 = true) := by
  induction l with
  | nil => simp [Meta.insertName]
  | cons y l ih =>
    rw [List.pairwise_cons] at h
    simp only [Meta.insertName]
    split
    · rename_i hle
      rw [List.pairwise_cons, List.pairwise_cons]
      refine ⟨?_, h⟩
      intro z hz
      rcases List.mem_cons.1 hz with rfl | hz
      · exact hle
      · exact strLe_trans _ _ _ hle (h.1 z hz)
    · rename_i hle
      rw [List.pairwise_cons]
      refine ⟨?_, ih h.2⟩
      intro z hz
      rcases List.mem_cons.1 ((Meta.insertName_perm x l).mem_iff.1 hz) with rfl | hz
      · rcases strLe_total z.1 y.1 with h' | h'
        · exact absurd h' hle
        · exact h'
      · exact h.1 z hz

theorem sortNames_sorted {α : Type} (l : List (Str × α)) : (Meta.sortNames l).Pairwise (fun a b => Meta.strLe a.1 b.1 = true) := by
  induction l with
  | nil => exact List.Pairwise.nil
  | cons x l ih => exact insertName_sorted x _ ih

/-- names in increasing order, by code points -/
def strLt (s t : Str) : Prop := Meta.strLe s t = true ∧ s ≠ t

theorem sortNames_lt {α : Type} (l : List (Str × α)) (h : (l.map (·.1)).Nodup) :
    (Meta.sortNames l).Pairwise (fun a b => strLt a.1 b.1) := by
  have h1 := sortNames_sorted l
  have h2 : ((Meta.sortNames l).map (·.1)).Nodup := ((Meta.sortNames_perm l).map _).nodup_iff.2 h
  rw [List.Nodup, List.pairwise_map] at h2
  exact List.Pairwise.and h1 h2 

theorem sortNames_eq_of_perm {α : Type} (l l' : List (Str × α)) (h : (l.map (·.1)).Nodup) (hp : l.Perm l') :
    Meta.sortNames l = Meta.sortNames l' := by
  refine List.Perm.eq_of_pairwise (le := fun a b : Str × α => Meta.strLe a.1 b.1 = true) ?_ (sortNames_sorted l) (sortNames_sorted l')
    ((Meta.sortNames_perm l).trans (hp.trans (Meta.sortNames_perm l').symm))
  intro a b ha hb h1 h2
  exact inj_on_of_nodup_map h ((Meta.sortNames_perm l).mem_iff.1 ha) (hp.mem_iff.2 ((Meta.sortNames_perm l').mem_iff.1 hb))
    (strLe_antisymm _ _ h1 h2)

/-- The files below a directory: those in it, and those in its directories whose names do not begin with a dot. -/
inductive Finds : Node → List Str → Prop
  | file {files dirs f} : f ∈ files → Finds (.dir files dirs) [f]
  | dir {files dirs d n p} : (d, n) ∈ dirs → d.head? ≠ some '.' → Finds n p → Finds (.dir files dirs) (d :: p)

/-- In each directory names occur only once. -/
inductive Wf : Node → Prop
  | dir {files dirs} : files.Nodup → (dirs.map (·.1)).Nodup → (∀ d ∈ dirs, Wf d.2) → Wf (.dir files dirs)

/-- The order of files: those of a directory before those of its directories, each by name. -/
def before : List Str → List Str → Prop
  | [f], [g] => strLt f g
  | [_], _ :: _ :: _ => True
  | d :: p :: ps, e :: q :: qs => strLt d e ∨ d = e ∧ before (p :: ps) (q :: qs)
  | _, _ => False

theorem mem_walkDirs (dirs : List (Str × Node)) (x : Str × List (List Str)) :
    x ∈ walkDirs dirs ↔ ∃ d ∈ dirs, hidden d.1 = false ∧ x = (d.1, walk d.2) := by
  induction dirs with
  | nil => simp [walkDirs]
  | cons d ds ih =>
    simp only [walkDirs]
    cases h : hidden d.1 with
    | true =>
      rw [if_pos rfl, ih]
      constructor
      · rintro ⟨e, he, h1, h2⟩; exact ⟨e, by simp [he], h1, h2⟩
      · rintro ⟨e, he, h1, h2⟩
        rcases List.mem_cons.1 he with rfl | he
        · rw [h] at h1; cases h1
        · exact ⟨e, he, h1, h2⟩
    | false =>
      rw [if_neg (by decide), List.mem_cons, ih]
      constructor
      · rintro (rfl | ⟨e, he, h1, h2⟩)
        · exact ⟨d, by simp, h, rfl⟩
        · exact ⟨e, by simp [he], h1, h2⟩
      · rintro ⟨e, he, h1, h2⟩
        rcases List.mem_cons.1 he with rfl | he
        · exact .inl h2
        · exact .inr ⟨e, he, h1, h2⟩

theorem walkDirs_names (dirs : List (Str × Node)) : ((walkDirs dirs).map (·.1)).Sublist (dirs.map (·.1)) := by
  induction dirs with
  | nil => simp [walkDirs]
  | cons d ds ih =>
    simp only [walkDirs]
    split
    · exact ih.cons _
    · exact ih.cons_cons _

theorem hidden_false (s : Str) : hidden s = false ↔ s.head? ≠ some '.' := by
  unfold hidden
  simp

theorem mem_walk_file (files : List Str) (dirs : List (Str × Node)) (p : List Str) :
    p ∈ walk (.dir files dirs) ↔ (∃ f ∈ files, p = [f]) ∨ ∃ d ∈ dirs, hidden d.1 = false ∧ ∃ q ∈ walk d.2, p = d.1 :: q := by
  simp only [walk, List.mem_append, List.mem_map, List.mem_flatten]
  constructor
  · rintro (⟨f, hf, rfl⟩ | ⟨l, ⟨d, hd, rfl⟩, hp⟩)
    · rw [(Meta.sortNames_perm _).mem_iff] at hf
      obtain ⟨g, hg, rfl⟩ := List.mem_map.1 hf
      exact .inl ⟨g, hg, rfl⟩
    · rw [(Meta.sortNames_perm _).mem_iff, mem_walkDirs] at hd
      obtain ⟨e, he, h1, rfl⟩ := hd
      obtain ⟨q, hq, rfl⟩ := List.mem_map.1 hp
      exact .inr ⟨e, he, h1, q, hq, rfl⟩
  · rintro (⟨f, hf, rfl⟩ | ⟨d, hd, h1, q, hq, rfl⟩)
    · exact .inl ⟨(f, ()), (Meta.sortNames_perm _).mem_iff.2 (List.mem_map.2 ⟨f, hf, rfl⟩), rfl⟩
    · exact .inr ⟨_, ⟨(d.1, walk d.2), (Meta.sortNames_perm _).mem_iff.2 ((mem_walkDirs _ _).2 ⟨d, hd, h1, rfl⟩), rfl⟩,
        List.mem_map.2 ⟨q, hq, rfl⟩⟩

/-- C73: walking a directory finds the files in it and in the directories that are not hidden, and no others. -/
theorem C73_finds (n : Node) (p : List Str) : p ∈ walk n ↔ Finds n p := by
  constructor
  · intro h
    induction p generalizing n with
    | nil =>
      obtain ⟨files, dirs⟩ := n
      rw [mem_walk_file] at h
      rcases h with ⟨f, -, e⟩ | ⟨d, -, -, q, -, e⟩ <;> cases e
    | cons x p ih =>
      obtain ⟨files, dirs⟩ := n
      rw [mem_walk_file] at h
      rcases h with ⟨f, hf, e⟩ | ⟨d, hd, h1, q, hq, e⟩
      · cases e; exact .file hf
      · cases e; exact .dir hd ((hidden_false _).1 h1) (ih _ hq)
  · intro h
    induction h with
    | file hf => rw [mem_walk_file]; exact .inl ⟨_, hf, rfl⟩
    | dir hd h1 _ ih => rw [mem_walk_file]; exact .inr ⟨_, hd, (hidden_false _).2 h1, _, ih, rfl⟩

theorem before_irrefl (p : List Str) : ¬ before p p := by
  induction p with
  | nil => exact id
  | cons f p ih =>
    cases p with
    | nil => exact fun h => h.2 rfl
    | cons g p =>
      rintro (h | ⟨-, h⟩)
      · exact h.2 rfl
      · exact ih h

theorem before_asymm (p q : List Str) (h : before p q) : ¬ before q p := by
  induction p generalizing q with
  | nil => exact absurd h (by unfold before; exact id)
  | cons f p ih =>
    cases p with
    | nil =>
      cases q with
      | nil => exact absurd h (by unfold before; exact id)
      | cons g q =>
        cases q with
        | nil => exact fun h' => h.2 (strLe_antisymm _ _ h.1 h'.1)
        | cons g' q => exact fun h' => h'
    | cons f' p =>
      cases q with
      | nil => exact absurd h (by unfold before; exact id)
      | cons g q =>
        cases q with
        | nil => exact absurd h (by unfold before; exact id)
        | cons g' q =>
          rintro (h' | ⟨e, h'⟩)
          · rcases h with h | ⟨e, h⟩
            · exact h.2 (strLe_antisymm _ _ h.1 h'.1)
            · exact h'.2 e.symm
          · rcases h with h | ⟨-, h⟩
            · exact h.2 e.symm
            · exact ih _ h h'

theorem walk_ne_nil (n : Node) (p : List Str) (h : p ∈ walk n) : ∃ x q, p = x :: q := by
  rw [C73_finds] at h
  cases h <;> exact ⟨_, _, rfl⟩

/-- C73 for order: the files of a directory are found in the order of their names, then those of its directories, in the order of the names
of these. -/
theorem C73_order (n : Node) (h : Wf n) : (walk n).Pairwise before := by
  induction h with
  | @dir files dirs hf hd _ ih =>
    simp only [walk]
    rw [List.pairwise_append]
    refine ⟨?_, ?_, ?_⟩
    · rw [List.pairwise_map]
      exact (sortNames_lt _ (by rw [List.map_map]; simpa [Function.comp_def] using hf)).imp (fun h => h)
    · rw [List.pairwise_flatten]
      constructor
      · intro l hl
        obtain ⟨x, hx, rfl⟩ := List.mem_map.1 hl
        rw [(Meta.sortNames_perm _).mem_iff, mem_walkDirs] at hx
        obtain ⟨d, hd', -, rfl⟩ := hx
        rw [List.pairwise_map]
        refine List.Pairwise.imp_of_mem ?_ (ih d hd')
        intro p q hp hq hb
        obtain ⟨x, p, rfl⟩ := walk_ne_nil _ _ hp
        obtain ⟨y, q, rfl⟩ := walk_ne_nil _ _ hq
        exact .inr ⟨rfl, hb⟩
      · rw [List.pairwise_map]
        refine List.Pairwise.imp_of_mem ?_ (sortNames_lt _ ((walkDirs_names dirs).nodup hd))
        intro x y hx hy hlt p hp q hq
        rw [(Meta.sortNames_perm _).mem_iff, mem_walkDirs] at hx hy
        obtain ⟨d, -, -, rfl⟩ := hx
        obtain ⟨e, -, -, rfl⟩ := hy
        obtain ⟨p, hp', rfl⟩ := List.mem_map.1 hp
        obtain ⟨q, hq', rfl⟩ := List.mem_map.1 hq
        obtain ⟨x, p, rfl⟩ := walk_ne_nil _ _ hp'
        obtain ⟨y, q, rfl⟩ := walk_ne_nil _ _ hq'
        exact .inl hlt
    · intro p hp q hq
      obtain ⟨f, -, rfl⟩ := List.mem_map.1 hp
      obtain ⟨l, hl, hq⟩ := List.mem_flatten.1 hq
      obtain ⟨x, hx, rfl⟩ := List.mem_map.1 hl
      rw [(Meta.sortNames_perm _).mem_iff, mem_walkDirs] at hx
      obtain ⟨d, -, -, rfl⟩ := hx
      obtain ⟨q, hq', rfl⟩ := List.mem_map.1 hq
      obtain ⟨y, q, rfl⟩ := walk_ne_nil _ _ hq'
      exact trivial

/-- C73: each file is found once. -/
theorem C73_once (n : Node) (h : Wf n) : (walk n).Nodup := by
  refine (C73_order n h).imp ?_
  intro p q hb e
  subst e
  exact before_irrefl p hb

/-- C73: the order in which the system lists directories has no influence: if the same files are below two directories, walking both finds them in
the same order. -/
theorem C73_listing_order (n n' : Node) (h : Wf n) (h' : Wf n') (hf : ∀ p, Finds n p ↔ Finds n' p) : walk n = walk n' := by
  have hp : (walk n).Perm (walk n') := by
    rw [List.perm_ext_iff_of_nodup (C73_once n h) (C73_once n' h')]
    intro p
    rw [C73_finds, C73_finds, hf]
  refine List.Perm.eq_of_pairwise (le := before) ?_ (C73_order n h) (C73_order n' h') hp
  intro p q _ _ h1 h2
  exact absurd h2 (before_asymm p q h1)

/-- a file, a hidden directory and two others, listed in an order that is not that of the names -/
example : walk (.dir [['z'], ['a']] [(['y'], .dir [['t']] []), (['.', 'g'], .dir [['t']] []), (['b'], .dir [['u'], ['s']] [])]) =
    [[['a']], [['z']], [['b'], ['s']], [['b'], ['u']], [['y'], ['t']]] := by decide +kernel

/-! ## C74 -/

theorem loadFiles_spec {α : Type} (name : List Str → Str) (load : List Str → Option (List α)) (fs : List (List Str)) :
    (loadFiles name load fs = .cannotLoad ↔ ∃ f ∈ fs, isWanted (name f) = true ∧ load f = none) ∧
    ∀ l, loadFiles name load fs = .ok l → l = ((fs.filter (fun f => isWanted (name f))).map (fun f => (load f).getD [])).flatten := by
  induction fs with
  | nil => simp [loadFiles]
  | cons f fs ih =>
    simp only [loadFiles]
    cases hw : isWanted (name f) with
    | false =>
      rw [if_neg (by decide)]
      constructor
      · rw [ih.1]
        constructor
        · rintro ⟨g, hg, h⟩; exact ⟨g, by simp [hg], h⟩
        · rintro ⟨g, hg, h⟩
          rcases List.mem_cons.1 hg with rfl | hg
          · rw [hw] at h; cases h.1
          · exact ⟨g, hg, h⟩
      · intro l hl
        rw [ih.2 l hl, List.filter_cons, hw]; rfl
    | true =>
      rw [if_pos rfl]
      cases hl : load f with
      | none => exact ⟨⟨fun _ => ⟨f, by simp, hw, hl⟩, fun _ => rfl⟩, (fun l h => by cases h)⟩
      | some a =>
        simp only
        cases hr : loadFiles name load fs with
        | cannotLoad =>
          refine ⟨⟨fun _ => ?_, fun _ => rfl⟩, (fun l h => by cases h)⟩
          obtain ⟨g, hg, h⟩ := ih.1.1 hr
          exact ⟨g, by simp [hg], h⟩
        | ok b =>
          constructor
          · refine ⟨(fun h => by cases h), ?_⟩
            rintro ⟨g, hg, h⟩
            rcases List.mem_cons.1 hg with rfl | hg
            · rw [hl] at h; cases h.2
            · have := ih.1.2 ⟨g, hg, h⟩
              rw [hr] at this; cases this
          · intro l h
            simp only [R.ok.injEq] at h
            rw [← h, ih.2 b hr, List.filter_cons, hw]
            simp [hl]

theorem isWanted_eq (f : Str) : isWanted f = decide (['.', 'p', 'y'] <:+ f) := by
  rw [Bool.eq_iff_iff, isWanted, List.isSuffixOf_iff_suffix, decide_eq_true_iff]

/-- The files at a path, relative to it: the path itself if it is a file, and otherwise those below it. -/
def filesAt : Entry → List (List Str)
  | .missing => []
  | .file => [[]]
  | .dir n => walk n

/-- C74: loading a path fails if and only if nothing is there, or importing one of the Python files found there fails; no tests are loaded then. -/
theorem C74_fails_iff {α : Type} (base : Str) (load : List Str → Option (List α)) (e : Entry) :
    iterPath base load e = .cannotLoad ↔
      e = .missing ∨ ∃ f ∈ filesAt e, ['.', 'p', 'y'] <:+ f.getLast?.getD base ∧ load f = none := by
  have key : ∀ f : Str, ['.', 'p', 'y'] <:+ f ↔ isWanted f = true := fun f => by rw [isWanted_eq, decide_eq_true_iff]
  simp only [key]
  cases e with
  | missing => simp [iterPath]
  | file => simp only [iterPath, (loadFiles_spec _ _ _).1, walkEntry, filesAt]; simp
  | dir n => simp only [iterPath, (loadFiles_spec _ _ _).1, walkEntry, filesAt]; simp

/-- C74: otherwise the tests of all Python files found there are loaded, in the order in which the files are found. -/
theorem C74_loads_all {α : Type} (base : Str) (load : List Str → Option (List α)) (e : Entry) (l : List α) (h : iterPath base load e = .ok l) :
    l = (((filesAt e).filter (fun f => decide (['.', 'p', 'y'] <:+ f.getLast?.getD base))).map (fun f => (load f).getD [])).flatten := by
  simp only [← isWanted_eq]
  cases e with
  | missing => cases h
  | file => exact (loadFiles_spec _ _ _).2 l h
  | dir n => exact (loadFiles_spec _ _ _).2 l h

example : iterPath ['d'] (fun f => some [f.length])
    (.dir (.dir [['a', '.', 'p', 'y'], ['R']] [(['s'], .dir [['b', '.', 'p', 'y']] [])])) = .ok [1, 2] := by decide +kernel
example : iterPath ['d'] (fun f => if f.length = 2 then none else some [f.length])
    (.dir (.dir [['a', '.', 'p', 'y'], ['R']] [(['s'], .dir [['b', '.', 'p', 'y']] [])])) = .cannotLoad := by decide +kernel

/-- a single file: whether it is a Python file depends on its own name -/
example : iterPath ['a', '.', 'p', 'y'] (fun f => some [f.length]) .file = .ok [0] ∧ iterPath ['a'] (fun f => some [f.length]) .file = .ok [] ∧
    iterPath ['a', '.', 'p', 'y'] (fun f => some [f.length]) .missing = .cannotLoad := by decide

/-! ## C75 -/

/-- C75: the tests of a module are its functions whose own name begins with `test_`, and the methods beginning with `test` of its test classes that
are not abstract; nothing else is a test. -/
theorem C75_tests (things : List (Str × Thing)) (x a : Str) :
    (x, a) ∈ moduleTests things ↔
      (∃ n, (x, Thing.function n) ∈ things ∧ ['t', 'e', 's', 't', '_'] <+: n ∧ a = []) ∨
      ∃ ms m, (x, Thing.testClass false ms) ∈ things ∧ m ∈ ms ∧ ['t', 'e', 's', 't'] <+: m ∧ a = '.' :: m := by
  unfold moduleTests
  simp only [List.mem_flatten, List.mem_map, (Meta.sortNames_perm things).mem_iff]
  constructor
  · rintro ⟨l, ⟨⟨y, th⟩, hy, rfl⟩, hm⟩
    obtain ⟨b, hb, e⟩ := List.mem_map.1 hm
    cases e
    cases th with
    | function n =>
      simp only [thingTests] at hb
      split at hb
      · rename_i hv
        exact .inl ⟨n, hy, List.isPrefixOf_iff_prefix.1 hv, by simpa using hb⟩
      · cases hb
    | testClass abs ms =>
      cases abs with
      | true => simp [thingTests] at hb
      | false =>
        simp only [thingTests, Bool.false_eq_true, if_false] at hb
        obtain ⟨m, hm, e⟩ := List.mem_filterMap.1 hb
        split at e
        · rename_i hv
          obtain ⟨z, hz, rfl⟩ := List.mem_map.1 hm
          rw [(Meta.sortNames_perm _).mem_iff] at hz
          obtain ⟨w, hw, rfl⟩ := List.mem_map.1 hz
          exact .inr ⟨ms, w, hy, hw, List.isPrefixOf_iff_prefix.1 hv, by simpa using e.symm⟩
        · cases e
    | other => simp [thingTests] at hb
  · rintro (⟨n, hn, hv, rfl⟩ | ⟨ms, m, hx, hm, hv, rfl⟩)
    · refine ⟨_, ⟨_, hn, rfl⟩, ?_⟩
      simp only [thingTests, isValidTestName, List.isPrefixOf_iff_prefix.2 hv, if_true]
      simp
    · refine ⟨_, ⟨_, hx, rfl⟩, List.mem_map.2 ⟨'.' :: m, ?_, rfl⟩⟩
      simp only [thingTests, Bool.false_eq_true, if_false]
      refine List.mem_filterMap.2 ⟨m, ?_, by rw [if_pos (List.isPrefixOf_iff_prefix.2 hv)]⟩
      exact List.mem_map.2 ⟨(m, ()), (Meta.sortNames_perm _).mem_iff.2 (List.mem_map.2 ⟨m, hm, rfl⟩), rfl⟩

/-- C75 for order: the tests of a module come in the order of the names in it, each class' in the order of the methods' names. -/
theorem C75_order (things : List (Str × Thing)) (hn : (things.map (·.1)).Nodup)
    (hm : ∀ x abs ms, (x, Thing.testClass abs ms) ∈ things → ms.Nodup) :
    (moduleTests things).Pairwise (fun a b => strLt a.1 b.1 ∨ a.1 = b.1 ∧ ∃ m m', a.2 = '.' :: m ∧ b.2 = '.' :: m' ∧ strLt m m') := by
  unfold moduleTests
  rw [List.pairwise_flatten]
  constructor
  · intro l hl
    obtain ⟨⟨y, th⟩, hy, rfl⟩ := List.mem_map.1 hl
    rw [(Meta.sortNames_perm things).mem_iff] at hy
    rw [List.pairwise_map]
    cases th with
    | function n => simp only [thingTests]; split <;> simp
    | other => simp [thingTests]
    | testClass abs ms =>
      cases abs with
      | true => simp [thingTests]
      | false =>
        simp only [thingTests, Bool.false_eq_true, if_false]
        rw [List.pairwise_filterMap, List.pairwise_map]
        refine (sortNames_lt (ms.map (fun m => (m, ()))) (by rw [List.map_map]; simpa [Function.comp_def] using hm y false ms hy)).imp ?_
        intro u v huv b hb b' hb'
        split at hb
        · split at hb'
          · cases hb; cases hb'
            exact .inr ⟨trivial, u.1, v.1, rfl, rfl, huv⟩
          · cases hb'
        · cases hb
  · rw [List.pairwise_map]
    refine (sortNames_lt things hn).imp ?_
    intro u v huv a ha b hb
    obtain ⟨_, -, rfl⟩ := List.mem_map.1 ha
    obtain ⟨_, -, rfl⟩ := List.mem_map.1 hb
    exact .inl huv

/-- C75: so the order of definitions in the module has no influence. -/
theorem C75_definition_order (things things' : List (Str × Thing)) (hn : (things.map (·.1)).Nodup) (hp : things.Perm things') :
    moduleTests things = moduleTests things' := by
  unfold moduleTests
  rw [sortNames_eq_of_perm things things' hn hp]

example : moduleTests [(['t', 'e', 's', 't', '_', 'b'], .function ['t', 'e', 's', 't', '_', 'b']), (['x'], .function ['t', 'e', 's', 't', '_', 'b']),
    (['C'], .testClass false [['t', 'e', 's', 't', '2'], ['b', 'e', 'f', 'o', 'r', 'e'], ['t', 'e', 's', 't', '1']]), (['B'], .testClass true [['t', 'e', 's', 't']]),
    (['t', 'e', 's', 't', '_', 'c'], .other)] =
    [(['C'], ['.', 't', 'e', 's', 't', '1']), (['C'], ['.', 't', 'e', 's', 't', '2']), (['t', 'e', 's', 't', '_', 'b'], []), (['x'], [])] := by
  decide +kernel

end Slash.Load
