/-! General list facts used by several areas. -/
namespace Slash

/-- Induction adding elements at the end: histories grow at the end. -/
theorem snocInd {α : Type _} {motive : List α → Prop} (l : List α) (nil : motive [])
    (snoc : ∀ l a, motive l → motive (l ++ [a])) : motive l := by
  rw [← List.reverse_reverse l]
  induction l.reverse with
  | nil => exact nil
  | cons a l ih => rw [List.reverse_cons]; exact snoc _ _ ih

theorem inj_on_of_nodup_map {α β : Type _} {f : α → β} {l : List α} (d : (l.map f).Nodup) {x y : α} (hx : x ∈ l) (hy : y ∈ l)
    (h : f x = f y) : x = y := by
  induction l with
  | nil => cases hx
  | cons a l ih =>
    simp only [List.map_cons, List.nodup_cons, List.mem_map, not_exists, not_and] at d
    rcases List.mem_cons.1 hx with rfl | hx' <;> rcases List.mem_cons.1 hy with rfl | hy'
    · rfl
    · exact absurd h.symm (d.1 y hy')
    · exact absurd h (d.1 x hx')
    · exact ih d.2 hx' hy'

theorem count_eq_one_of_mem {α : Type _} [BEq α] [LawfulBEq α] {a : α} {l : List α} (d : l.Nodup) (h : a ∈ l) :
    l.count a = 1 := by
  have h1 : 1 ≤ l.count a := List.count_pos_iff.2 h
  have h2 : l.count a ≤ 1 := List.nodup_iff_count.1 d a
  omega

theorem nodup_subset_length {α : Type} [DecidableEq α] {l w : List α} (hn : l.Nodup) (hs : l ⊆ w) :
    l.length ≤ w.length := by
  induction l generalizing w with
  | nil => simp
  | cons a l ih =>
    rw [List.nodup_cons] at hn
    have ha : a ∈ w := hs (by simp)
    have := ih (w := w.erase a) hn.2 (fun b hb => by
      have hne : b ≠ a := fun e => hn.1 (e ▸ hb)
      exact (List.mem_erase_of_ne hne).2 (hs (by simp [hb])))
    rw [List.length_erase_of_mem ha] at this
    have := List.length_pos_of_mem ha
    simp only [List.length_cons]
    omega

/-- a duplicate-free list inside another one at least as long covers it -/
theorem subset_of_nodup_subset_length {α : Type} [DecidableEq α] {l w : List α} (hn : l.Nodup) (hs : l ⊆ w)
    (hl : w.length ≤ l.length) : w ⊆ l := by
  intro x hx
  apply Classical.byContradiction
  intro hxl
  have := nodup_subset_length (l := x :: l) (w := w) (List.nodup_cons.2 ⟨hxl, hn⟩)
    (fun y hy => (List.mem_cons.1 hy).elim (fun e => e ▸ hx) (fun h => hs h))
  simp only [List.length_cons] at this
  omega

end Slash
