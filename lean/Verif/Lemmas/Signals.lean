import Verif.Model.Signals
import Verif.Lemmas.Util
/-! Signal handlers. -/
namespace Slash.Signals

theorem get_set (d : Handlers) (k v s : Nat) : (d.set k v).get s = if s = k then some v else d.get s := by
  induction d with
  | nil =>
    by_cases h : k = s
    · simp [h, Handlers.get, Handlers.set]
    · simp [h, Handlers.get, Handlers.set, Ne.symm h]
  | cons x d ih =>
    obtain ⟨a, b⟩ := x
    unfold Handlers.set
    by_cases h : a = k
    · subst h
      rw [if_pos rfl]
      by_cases h2 : a = s
      · simp [Handlers.get, h2]
      · simp [Handlers.get, h2, Ne.symm h2]
    · rw [if_neg h, Handlers.get, ih, Handlers.get]
      by_cases h2 : a = s
      · subst h2; simp [h]
      · simp [h2]

/-- Keys of a dictionary are distinct. -/
def Handlers.Ok (d : Handlers) : Prop := (d.map (·.1)).Nodup

theorem mem_set {d : Handlers} {k v a : Nat} (h : a ∈ (d.set k v).map (·.1)) : a = k ∨ a ∈ d.map (·.1) := by
  induction d with
  | nil => simp [Handlers.set] at h; exact .inl h
  | cons x d ih =>
    obtain ⟨p, q⟩ := x
    unfold Handlers.set at h
    split at h
    · simp only [List.map_cons, List.mem_cons] at h ⊢; grind
    · simp only [List.map_cons, List.mem_cons] at h ⊢
      rcases h with h | h
      · exact .inr (.inl h)
      · rcases ih h with h | h
        · exact .inl h
        · exact .inr (.inr h)

theorem ok_set {d : Handlers} (h : d.Ok) (k v : Nat) : (d.set k v).Ok := by
  induction d with
  | nil => simp [Handlers.set, Handlers.Ok]
  | cons x d ih =>
    obtain ⟨p, q⟩ := x
    unfold Handlers.Ok at *
    rw [List.map_cons, List.nodup_cons] at h
    unfold Handlers.set
    split
    · rename_i e; subst e; rw [List.map_cons, List.nodup_cons]; exact h
    · rename_i e
      rw [List.map_cons, List.nodup_cons]
      refine ⟨fun hm => ?_, ih h.2⟩
      rcases mem_set hm with h' | h'
      · exact e h'
      · exact h.1 h'

theorem get_none_of {d : Handlers} {s : Nat} (h : s ∉ d.map (·.1)) : d.get s = none := by
  induction d with
  | nil => rfl
  | cons x d ih =>
    simp only [List.map_cons, List.mem_cons, not_or] at h
    rw [Handlers.get, if_neg (fun e => h.1 e.symm), ih h.2]

theorem get_isSome {d : Handlers} {s : Nat} : s ∈ d.map (·.1) ↔ d.get s ≠ none := by
  induction d with
  | nil => simp [Handlers.get]
  | cons x d ih =>
    rw [Handlers.get, List.map_cons, List.mem_cons, ih]
    by_cases h : x.1 = s
    · simp [h]
    · simp [h, Ne.symm h]

/-- Putting all handlers of a dictionary in place. -/
theorem restore_eq {d : Handlers} (h : d.Ok) (f : Nat → Nat) (s : Nat) :
    d.foldl (fun f x s => if s = x.1 then x.2 else f s) f s = (d.get s).getD (f s) := by
  induction d generalizing f with
  | nil => rfl
  | cons x d ih =>
    unfold Handlers.Ok at h
    rw [List.map_cons, List.nodup_cons] at h
    rw [List.foldl_cons, ih h.2, Handlers.get]
    by_cases e : x.1 = s
    · subst e; rw [get_none_of h.1]; simp
    · rw [if_neg e, if_neg (fun e' => e e'.symm)]

/-- Setting all handlers. -/
theorem setAll {l : Handlers} (hl : l.Ok) (st : St) :
    (∀ s, (l.foldl (fun st x => setHandler st x.1 x.2) st).process s = (l.get s).getD (st.process s)) ∧
    (∀ s, (l.foldl (fun st x => setHandler st x.1 x.2) st).orig.get s = if l.get s = none then st.orig.get s else some (st.process s)) ∧
    (l.foldl (fun st x => setHandler st x.1 x.2) st).registered = st.registered ∧
    (l.foldl (fun st x => setHandler st x.1 x.2) st).active = st.active ∧
    (st.orig.Ok → (l.foldl (fun st x => setHandler st x.1 x.2) st).orig.Ok) := by
  induction l generalizing st with
  | nil => simp [Handlers.get]
  | cons x l ih =>
    unfold Handlers.Ok at hl
    rw [List.map_cons, List.nodup_cons] at hl
    obtain ⟨h1, h2, h3, h4, h5⟩ := ih hl.2 (setHandler st x.1 x.2)
    rw [List.foldl_cons]
    refine ⟨fun s => ?_, fun s => ?_, h3, h4, fun h => h5 (ok_set h _ _)⟩
    · rw [h1, Handlers.get, setHandler]
      by_cases e : x.1 = s
      · subst e; rw [get_none_of hl.1]; simp
      · simp [e, Ne.symm e]
    · rw [h2, Handlers.get, setHandler]
      by_cases e : x.1 = s
      · subst e; rw [get_none_of hl.1]; simp [get_set]
      · simp [e, Ne.symm e, get_set]

/-- Dictionaries stay dictionaries; without the plugin nothing is remembered; with it registered handlers are in place. -/
structure Inv (st : St) : Prop where
  reg : st.registered.Ok
  orig : st.orig.Ok
  inactive : st.active = false → st.orig = []
  active : st.active = true → ∀ s h, st.registered.get s = some h → st.process s = h

theorem inv_step {st : St} (hi : Inv st) (op : Op) : Inv (step st op) := by
  cases op with
  | register sig h =>
    cases sig with
    | none => exact hi
    | some sig =>
      show Inv (register st (some sig) h)
      unfold register
      simp only
      split
      · rename_i ha
        refine ⟨ok_set hi.reg _ _, ok_set hi.orig _ _, fun h' => ?_, fun _ s g hg => ?_⟩
        · simp only [setHandler] at h'; rw [ha] at h'; cases h'
        · simp only [setHandler, get_set] at hg ⊢
          split at hg
          · rename_i e; rw [if_pos e]; exact Option.some.inj hg
          · rename_i e; rw [if_neg e]; exact hi.active ha s g hg
      · rename_i ha
        exact ⟨ok_set hi.reg _ _, hi.orig, hi.inactive, fun h' => absurd h' ha⟩
  | activate =>
    show Inv (activate st)
    obtain ⟨h1, h2, h3, h4, h5⟩ := setAll hi.reg st
    refine ⟨by unfold activate; rw [h3]; exact hi.reg, h5 hi.orig, (by intro h; cases h), fun _ s g hg => ?_⟩
    unfold activate at hg ⊢
    simp only at hg ⊢
    rw [h3] at hg
    rw [h1, hg]; rfl
  | deactivate => exact ⟨hi.reg, by simp [step, deactivate, Handlers.Ok], fun _ => rfl, by intro h; cases h⟩

theorem inv_run {st : St} (hi : Inv st) (ops : List Op) : Inv (run st ops) := by
  unfold run
  induction ops generalizing st with
  | nil => exact hi
  | cons op ops ih => exact ih (inv_step hi op)

end Slash.Signals
