import Verif.Model.IdSpace
import Verif.Lemmas.Util
import Std.Data.String.ToNat
/-!
# C49: allocated ids are unique
-/
namespace Slash.IdSpace

theorem digits_inj {m n : Nat} : Nat.toDigits 10 m = Nat.toDigits 10 n ↔ m = n := by
  constructor
  · intro h
    apply Nat.repr_injective
    unfold Nat.repr
    rw [h]
  · rintro rfl; rfl

theorem allocateN_eq (n : Nat) (s : Space) :
    s.allocateN n = ((List.range n).map (fun i => s.base ++ Nat.toDigits 10 (s.next + i)), { s with next := s.next + n }) := by
  induction n generalizing s with
  | zero => rfl
  | succ n ih =>
    simp only [Space.allocateN, Space.allocate, ih, List.range_succ_eq_map, List.map_cons, List.map_map, Nat.add_zero]
    have h1 : s.next + 1 + n = s.next + (n + 1) := by omega
    rw [h1]
    congr 2
    apply List.map_congr_left
    intro i _
    simp only [Function.comp_apply]
    congr 2; omega

/-- **C49.** The i-th id allocated is the base, an underscore (not doubled), and the decimal number i (from 1): ids
share the base and increase. -/
theorem C49_ids (base : List Char) (n : Nat) :
    ((Space.new base).allocateN n).1 =
      (List.range n).map (fun i => (if base.getLast? = some '_' then base else base ++ ['_']) ++ Nat.toDigits 10 (i + 1)) := by
  rw [allocateN_eq]
  apply List.map_congr_left
  intro i _
  have : (Space.new base).next + i = i + 1 := by simp [Space.new]; omega
  rw [this]; rfl

/-- **C49.** All ids ever allocated from one space are different. -/
theorem C49_unique (base : List Char) (n : Nat) : ((Space.new base).allocateN n).1.Nodup := by
  rw [C49_ids, List.nodup_iff_pairwise_ne, List.pairwise_map]
  apply List.Pairwise.imp _ List.nodup_range
  intro i j hij h
  rw [List.append_right_inj, digits_inj] at h
  omega

/-- **C49.** Whatever the order of id requests for tests - including repeated ones, which are refused - no two tests
get the same id, and a test's id never changes once given. -/
theorem C49_tests_get_distinct_ids (base : List Char) (ts : List Nat) (t t' : Nat) (i : List Char)
    (h : (Ids.run ts { space := Space.new base }).ids t = some i)
    (h' : (Ids.run ts { space := Space.new base }).ids t' = some i) : t = t' := by
  have inv : ∀ ts, (∀ t i, (Ids.run ts { space := Space.new base }).ids t = some i →
        ∃ k, k < (Ids.run ts { space := Space.new base }).space.next ∧
          i = (Ids.run ts { space := Space.new base }).space.base ++ Nat.toDigits 10 k) ∧
      (∀ t t' i, (Ids.run ts { space := Space.new base }).ids t = some i →
        (Ids.run ts { space := Space.new base }).ids t' = some i → t = t') := by
    intro ts
    induction ts using snocInd with
    | nil =>
      constructor
      · intro t i h; cases h
      · intro t t' i h; cases h
    | snoc ts u ih =>
      have hr : Ids.run (ts ++ [u]) { space := Space.new base } =
          ((Ids.run ts { space := Space.new base }).allocateId u).2 := by simp [Ids.run, List.foldl_append]
      rw [hr]
      generalize Ids.run ts { space := Space.new base } = s at ih
      obtain ⟨i1, i2⟩ := ih
      unfold Ids.allocateId
      split
      · exact ⟨i1, i2⟩
      · refine ⟨?_, ?_⟩
        · intro t i ht
          simp only [Space.allocate] at ht ⊢
          by_cases hu : t = u
          · rw [if_pos hu] at ht; cases ht
            exact ⟨s.space.next, by omega, rfl⟩
          · rw [if_neg hu] at ht
            obtain ⟨k, h1, h2⟩ := i1 t i ht
            exact ⟨k, by omega, h2⟩
        · intro t t' i ht ht'
          simp only [Space.allocate] at ht ht'
          by_cases hu : t = u <;> by_cases hu' : t' = u
          · rw [hu, hu']
          · rw [if_pos hu] at ht; rw [if_neg hu'] at ht'; cases ht
            obtain ⟨k, h1, h2⟩ := i1 t' _ ht'
            rw [List.append_right_inj, digits_inj] at h2; omega
          · rw [if_neg hu] at ht; rw [if_pos hu'] at ht'; cases ht'
            obtain ⟨k, h1, h2⟩ := i1 t _ ht
            rw [List.append_right_inj, digits_inj] at h2; omega
          · rw [if_neg hu] at ht; rw [if_neg hu'] at ht'; exact i2 t t' i ht ht'
  exact (inv ts).2 t t' i h h'

/-- **C49.** A request is refused exactly if the test has an id already. -/
theorem C49_second_request_refused (s : Ids) (t : Nat) : (s.allocateId t).1 = false ↔ ∃ i, s.ids t = some i := by
  unfold Ids.allocateId
  cases s.ids t <;> simp

theorem C49_id_is_permanent (s : Ids) (ts : List Nat) (t : Nat) (i : List Char) (h : s.ids t = some i) :
    (Ids.run ts s).ids t = some i := by
  induction ts generalizing s with
  | nil => exact h
  | cons u ts ih =>
    apply ih
    show (s.allocateId u).2.ids t = some i
    unfold Ids.allocateId
    split
    · exact h
    · rename_i hu
      dsimp only
      rw [if_neg]
      · exact h
      · rintro rfl; rw [h] at hu; cases hu

example : ((Space.new ['s']).allocateN 11).1.getLast? = some ['s', '_', '1', '1'] := by decide
example : ((Ids.run [4, 9, 4] { space := Space.new ['s', '_'] }).ids 9) = some ['s', '_', '2'] := by decide

end Slash.IdSpace
