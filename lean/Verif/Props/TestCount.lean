import Verif.Model.TestCount
import Verif.Lemmas.Util
/-!
# C161: numbers of tests
-/
namespace Slash.Load

/-- The invariant: numbers are given in order, each test has one. -/
structure CInv (s : CSt) : Prop where
  nums : s.nums.map (·.2) = List.range s.nums.length
  counter : s.counter = s.nums.length
  nodup : (s.nums.map (·.1)).Nodup

theorem index0_none (s : CSt) (o : Nat) : s.index0 o = none ↔ o ∉ s.nums.map (·.1) := by
  unfold CSt.index0
  rw [Option.map_eq_none_iff, List.find?_eq_none]
  simp only [List.mem_map, not_exists, not_and, beq_iff_eq]

theorem take_none (s : CSt) (o : Nat) (h : s.index0 o = none) :
    cstep s (.take o) = { s with counter := s.counter + 1, nums := s.nums ++ [(o, s.counter)] } := by simp [cstep, h]

theorem take_some (s : CSt) (o i : Nat) (h : s.index0 o = some i) : cstep s (.take o) = s := by simp [cstep, h]

theorem cinv_step (s : CSt) (h : CInv s) (op : COp) : CInv (cstep s op) := by
  cases op with
  | load each all tests next interactive => exact ⟨h.nums, h.counter, h.nodup⟩
  | take o =>
    rcases hi : s.index0 o with _ | i
    · rw [take_none s o hi]
      refine ⟨?_, ?_, ?_⟩
      · simp only [List.map_append, h.nums, List.map_cons, List.map_nil, List.length_append, List.length_cons, List.length_nil, h.counter]
        rw [List.range_succ]
      · simp [h.counter]
      · simp only [List.map_append, List.map_cons, List.map_nil]
        rw [List.nodup_append]
        refine ⟨h.nodup, by simp, ?_⟩
        intro a ha b hb
        simp only [List.mem_singleton] at hb
        rintro rfl
        rw [index0_none] at hi
        exact hi (hb ▸ ha)
    · rw [take_some s o i hi]; exact h

theorem cinv_run (ops : List COp) : CInv (crun ops) := by
  unfold crun
  suffices h : ∀ s, CInv s → CInv (ops.foldl cstep s) from h {} ⟨rfl, rfl, by simp⟩
  induction ops with
  | nil => intro s h; exact h
  | cons op ops ih => intro s h; exact ih _ (cinv_step s h op)

theorem crun_snoc (ops : List COp) (op : COp) : crun (ops ++ [op]) = cstep (crun ops) op := by simp [crun]

/-- The tests taken up for the first time, in order. -/
def firsts (ops : List COp) : List Nat := ops.foldl (fun l op => match op with | .take o => if o ∈ l then l else l ++ [o] | _ => l) []

theorem firsts_snoc (ops : List COp) (op : COp) :
    firsts (ops ++ [op]) = match op with | .take o => if o ∈ firsts ops then firsts ops else firsts ops ++ [o] | _ => firsts ops := by
  unfold firsts
  rw [List.foldl_append]
  rfl

theorem nums_firsts (ops : List COp) : (crun ops).nums.map (·.1) = firsts ops := by
  induction ops using Slash.snocInd with
  | nil => rfl
  | snoc ops op ih =>
    rw [crun_snoc, firsts_snoc]
    cases op with
    | load each all tests next interactive => exact ih
    | take o =>
      dsimp only
      rcases hi : (crun ops).index0 o with _ | i
      · rw [take_none _ o hi]
        rw [index0_none, ih] at hi
        rw [if_neg hi]
        simp [ih]
      · have : o ∈ firsts ops := by
          rw [← ih]
          refine Classical.byContradiction fun hc => ?_
          rw [(index0_none _ _).2 hc] at hi
          cases hi
        rw [if_pos this, take_some _ o i hi]
        exact ih

/-- The tests that are run have the numbers from 1 on in the order they are taken up, each its own; a number once given stays. -/
theorem C161_numbers (ops : List COp) (o i : Nat) : (crun ops).index1 o = some (i + 1) ↔ (firsts ops)[i]? = some o := by
  have hi := cinv_run ops
  rw [← nums_firsts]
  unfold CSt.index1 CSt.index0
  generalize hs : (crun ops).nums = l at *
  have hget : ∀ j (hj : j < l.length), (l[j]'hj).2 = j := by
    intro j hj
    have h1 : (l.map (·.2))[j]? = some (l[j]'hj).2 := by simp [List.getElem?_map, List.getElem?_eq_getElem hj]
    have h0 : l.map (·.2) = List.range l.length := hs ▸ hi.nums
    rw [h0, List.getElem?_range hj] at h1
    exact (Option.some.inj h1).symm
  have hnd : (l.map (·.1)).Nodup := hs ▸ hi.nodup
  constructor
  · intro h
    simp only [Option.map_map, Option.map_eq_some_iff, Function.comp_apply] at h
    obtain ⟨x, hf, hx⟩ := h
    have hm := List.mem_of_find?_eq_some hf
    have ho := List.find?_some hf
    simp only [beq_iff_eq] at ho
    obtain ⟨j, hj, hjx⟩ := List.mem_iff_getElem.1 hm
    have h2 : x.2 = j := by rw [← hjx]; exact hget j hj
    have : i = j := by omega
    subst this
    rw [List.getElem?_map, List.getElem?_eq_getElem hj, hjx]
    simp [ho]
  · intro h
    rw [List.getElem?_map, Option.map_eq_some_iff] at h
    obtain ⟨x, hx, ho⟩ := h
    obtain ⟨hj, hjx⟩ := List.getElem?_eq_some_iff.1 hx
    have hm : x ∈ l := List.mem_of_getElem? hx
    have h2 : x.2 = i := by rw [← hjx]; exact hget i hj
    rcases hf : l.find? (·.1 == o) with _ | y
    · rw [List.find?_eq_none] at hf
      exact absurd (by simp [ho]) (hf x hm)
    · have hy := List.mem_of_find?_eq_some hf
      have ho' := List.find?_some hf
      simp only [beq_iff_eq] at ho'
      have : y = x := Slash.inj_on_of_nodup_map hnd hy hm (by rw [ho', ho])
      simp only [hf, this, Option.map_some, h2]

/-- Loadings with the interactive test. -/
def interactives (ops : List COp) : Nat := (ops.filter fun | .load _ _ _ _ (some _) => true | _ => false).length

theorem total_eq (ops : List COp) : (crun ops).getTotal + interactives ops = (crun ops).loaded.length := by
  induction ops using Slash.snocInd with
  | nil => rfl
  | snoc ops op ih =>
    rw [crun_snoc]
    have hi : interactives (ops ++ [op]) = interactives ops + (match op with | .load _ _ _ _ (some _) => 1 | _ => 0) := by
      unfold interactives
      rw [List.filter_append, List.length_append]
      congr 1
      cases op with
      | take o => rfl
      | load a b c d e => cases e <;> rfl
    rw [hi]
    cases op with
    | take o =>
      have : cstep (crun ops) (.take o) = crun ops ∨ cstep (crun ops) (.take o) = { crun ops with counter := (crun ops).counter + 1, nums := (crun ops).nums ++ [(o, (crun ops).counter)] } := by
        rcases hi : (crun ops).index0 o with _ | i
        · exact .inr (take_none _ o hi)
        · exact .inl (take_some _ o i hi)
      rcases this with h | h <;> rw [h] <;> exact ih
    | load a b c d e =>
      unfold CSt.getTotal at ih ⊢
      cases e <;> simp [cstep] <;> omega

/-- The total number of tests is that of the tests loaded, without interactive ones. -/
theorem C161_total_partial (ops : List COp) (h : ∀ a b c d o, COp.load a b c d (some o) ∉ ops) : (crun ops).getTotal = (crun ops).loaded.length := by
  have h1 := total_eq ops
  have h2 : interactives ops = 0 := by
    unfold interactives
    rw [List.length_eq_zero_iff, List.filter_eq_nil_iff]
    intro op hop
    cases op with
    | take o => simp
    | load a b c d e =>
      cases e with
      | none => simp
      | some o => exact absurd hop (h a b c d o)
  omega

/-- With the interactive test, there is one test more than the total number says. -/
theorem C161_total_violated (each all : Nat) (tests : List T) (next o : Nat) :
    (crun [.load each all tests next (some o)]).loaded.length = (crun [.load each all tests next (some o)]).getTotal + 1 :=
  (total_eq [.load each all tests next (some o)]).symm

/-- The number of a test that is run is at most the total number of tests, if only loaded tests are run and there is no interactive one. -/
theorem C161_bound_partial (ops : List COp) (h : ∀ a b c d o, COp.load a b c d (some o) ∉ ops) (hl : ∀ o ∈ firsts ops, o ∈ (crun ops).loaded)
    (o n : Nat) (hn : (crun ops).index1 o = some n) : 1 ≤ n ∧ n ≤ (crun ops).getTotal := by
  have hnd : (firsts ops).Nodup := nums_firsts ops ▸ (cinv_run ops).nodup
  have h1 := Slash.nodup_subset_length hnd hl
  rw [C161_total_partial ops h]
  cases n with
  | zero => simp [CSt.index1] at hn
  | succ i =>
    rw [C161_numbers] at hn
    obtain ⟨hi, _⟩ := List.getElem?_eq_some_iff.1 hn
    omega

/-- With the interactive test, the last test has a number beyond the total. -/
theorem C161_bound_violated : ∃ ops o n, (∀ o ∈ firsts ops, o ∈ (crun ops).loaded) ∧ (crun ops).index1 o = some n ∧ (crun ops).getTotal < n :=
  ⟨[.load 1 1 [{ oid := 1, src := 1 }] 10 (some 5), .take 5, .take 1], 1, 2, by decide⟩

-- Two tests, one of them repeated: three tests, numbered as they are taken up.
example : let ops := [COp.load 1 1 [{ oid := 1, src := 1, rep := 2 }, { oid := 2, src := 2 }] 10 none, .take 2, .take 1, .take 2, .take 10]
    (crun ops).getTotal = 3 ∧ (crun ops).index1 2 = some 1 ∧ (crun ops).index1 1 = some 2 ∧ (crun ops).index1 10 = some 3 ∧ firsts ops = [2, 1, 10] := by decide

end Slash.Load
