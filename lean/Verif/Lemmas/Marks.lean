import Verif.Model.Marks
import Verif.Lemmas.Util
/-! Marks. -/
namespace Slash.Marks

theorem dget_set (d : Dict) (n m : String) (v : Val) : (d.set n v).get m = if m = n then some v else d.get m := by
  unfold Dict.set Dict.get
  by_cases h : m = n
  · subst h; simp
  · rw [if_neg h, List.find?_cons_of_neg (by simpa using fun e => h e.symm), List.find?_filter]
    congr 2
    funext x
    by_cases hx : x.1 = m <;> simp [hx, h]

/-- References are valid and not shared between owners. -/
structure Inv (st : St) : Prop where
  valid : ∀ x r, st.own x = some r → r < st.dicts.length
  inj : ∀ x y r, st.own x = some r → st.own y = some r → x = y

theorem inv_init : Inv {} := ⟨by simp, by simp⟩

theorem inv_mark {parents : Id → List Id} {st : St} (h : Inv st) (op : Op) : Inv (mark parents st op).1 := by
  unfold mark
  split
  · split
    · refine ⟨fun x r hx => ?_, fun x y r hx hy => ?_⟩
      · simp only at hx ⊢
        rw [List.length_append, List.length_singleton]
        split at hx
        · cases hx; omega
        · have := h.valid x r hx; omega
      · simp only at hx hy
        split at hx <;> split at hy
        · rename_i a b; rw [a, b]
        · cases hx; have := h.valid _ _ hy; omega
        · cases hy; have := h.valid _ _ hx; omega
        · exact h.inj x y r hx hy
    · exact h
  · split
    · exact ⟨fun x r hx => by simpa using h.valid x r hx, h.inj⟩
    · exact h

theorem inv_run {parents : Id → List Id} {st : St} (h : Inv st) (ops : List Op) : Inv (run parents st ops) := by
  unfold run
  induction ops generalizing st with
  | nil => exact h
  | cons op ops ih => exact ih (inv_mark h op)

/-- The object whose dictionary is found. -/
theorem ref_some {parents : Id → List Id} {st : St} {x : Id} {r : Nat} (h : ref parents st x = some r) : ∃ y ∈ x :: parents x, st.own y = some r := by
  unfold ref at h
  obtain ⟨a, ha, e⟩ := List.exists_of_findSome?_eq_some h
  exact ⟨a, ha, e⟩

theorem findSome_congr {α β : Type} {f g : α → Option β} {l : List α} (h : ∀ a ∈ l, f a = g a) : l.findSome? f = l.findSome? g := by
  induction l with
  | nil => rfl
  | cons a l ih => simp only [List.findSome?_cons, h a (by simp)]; rw [ih (fun b hb => h b (by simp [hb]))]

end Slash.Marks
