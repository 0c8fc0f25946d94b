import Verif.Model.Result
/-! Helper lemmas about results. -/
namespace Slash
namespace Result

/-- fields after a history, in terms of the history -/
theorem after_started (h : List REv) (r : Result) :
    (after h r).started = (r.started || h.contains .start) := by
  induction h generalizing r with
  | nil => simp [after]
  | cons e h ih =>
    have := ih (r.apply e)
    simp only [after, List.foldl_cons] at this ⊢
    rw [this]
    cases e <;> simp [apply, markStarted, markFinished, markInterrupted, addError, addFailure, addSkip]

theorem after_finished (h : List REv) (r : Result) :
    (after h r).finished = (r.finished || h.contains .finish) := by
  induction h generalizing r with
  | nil => simp [after]
  | cons e h ih =>
    have := ih (r.apply e)
    simp only [after, List.foldl_cons] at this ⊢
    rw [this]
    cases e <;> simp [apply, markStarted, markFinished, markInterrupted, addError, addFailure, addSkip]

theorem after_interrupted (h : List REv) (r : Result) :
    (after h r).interrupted = (r.interrupted || h.contains .interrupt) := by
  induction h generalizing r with
  | nil => simp [after]
  | cons e h ih =>
    have := ih (r.apply e)
    simp only [after, List.foldl_cons] at this ⊢
    rw [this]
    cases e <;> simp [apply, markStarted, markFinished, markInterrupted, addError, addFailure, addSkip]

theorem after_errors (h : List REv) (r : Result) :
    (after h r).errors = r.errors ++ h.filterMap (fun e => match e with | .err f => some ⟨f⟩ | _ => none) := by
  induction h generalizing r with
  | nil => simp [after]
  | cons e h ih =>
    have := ih (r.apply e)
    simp only [after, List.foldl_cons] at this ⊢
    rw [this]
    cases e <;> simp [apply, markStarted, markFinished, markInterrupted, addError, addFailure, addSkip]

theorem after_failures (h : List REv) (r : Result) :
    (after h r).failures = r.failures ++ h.filterMap (fun e => match e with | .fail f => some ⟨f⟩ | _ => none) := by
  induction h generalizing r with
  | nil => simp [after]
  | cons e h ih =>
    have := ih (r.apply e)
    simp only [after, List.foldl_cons] at this ⊢
    rw [this]
    cases e <;> simp [apply, markStarted, markFinished, markInterrupted, addError, addFailure, addSkip]

theorem after_skips (h : List REv) (r : Result) :
    (after h r).skips = r.skips ++ h.filterMap (fun e => match e with | .skip f => some f | _ => none) := by
  induction h generalizing r with
  | nil => simp [after]
  | cons e h ih =>
    have := ih (r.apply e)
    simp only [after, List.foldl_cons] at this ⊢
    rw [this]
    cases e <;> simp [apply, markStarted, markFinished, markInterrupted, addError, addFailure, addSkip]

theorem isError_after (h : List REv) : (after h).isError = true ↔ ∃ f, .err f ∈ h := by
  simp only [isError, after_errors, List.nil_append, Bool.not_eq_true', List.isEmpty_eq_false_iff, ne_eq,
    List.filterMap_eq_nil_iff]
  constructor
  · intro hn
    apply Classical.byContradiction
    intro hc
    apply hn
    intro e he
    cases e with
    | err f => exact absurd ⟨f, he⟩ hc
    | _ => rfl
  · rintro ⟨f, hf⟩ hn
    have := hn _ hf
    simp at this

theorem isFailure_after (h : List REv) : (after h).isFailure = true ↔ ∃ f, .fail f ∈ h := by
  simp only [isFailure, after_failures, List.nil_append, Bool.not_eq_true', List.isEmpty_eq_false_iff, ne_eq,
    List.filterMap_eq_nil_iff]
  constructor
  · intro hn
    apply Classical.byContradiction
    intro hc
    apply hn
    intro e he
    cases e with
    | fail f => exact absurd ⟨f, he⟩ hc
    | _ => rfl
  · rintro ⟨f, hf⟩ hn
    have := hn _ hf
    simp at this

theorem isSkip_after (h : List REv) : (after h).isSkip = true ↔ ∃ f, .skip f ∈ h := by
  simp only [isSkip, after_skips, List.nil_append, Bool.not_eq_true', List.isEmpty_eq_false_iff, ne_eq,
    List.filterMap_eq_nil_iff]
  constructor
  · intro hn
    apply Classical.byContradiction
    intro hc
    apply hn
    intro e he
    cases e with
    | skip f => exact absurd ⟨f, he⟩ hc
    | _ => rfl
  · rintro ⟨f, hf⟩ hn
    have := hn _ hf
    simp at this

theorem isStarted_after (h : List REv) : (after h).isStarted = true ↔ .start ∈ h := by
  simp [isStarted, after_started]
theorem isFinished_after (h : List REv) : (after h).isFinished = true ↔ .finish ∈ h := by
  simp [isFinished, after_finished]
theorem isInterrupted_after (h : List REv) : (after h).isInterrupted = true ↔ .interrupt ∈ h := by
  simp [isInterrupted, after_interrupted]

/-- `isSuccess` through the other predicates -/
theorem isSuccess_iff (r : Result) (a : Bool) :
    r.isSuccess a = true ↔ r.isError = false ∧ r.isFailure = false ∧ r.isInterrupted = false ∧
      ((r.isSkip = true ∧ a = true) ∨ (r.isSkip = false ∧ r.isStarted = true)) := by
  unfold isSuccess isError isFailure isInterrupted isSkip
  cases r.errors <;> cases r.failures <;> cases r.interrupted <;> cases r.skips <;> cases a <;>
    cases r.isStarted <;> simp

end Result

namespace SessionResults

theorem step_ids_ev (s : SessionResults) (id : Nat) (e : Result.REv) :
    (s.step (.ev id e)).tests.map (·.1) = s.tests.map (·.1) := by
  simp only [step, List.map_map]
  apply List.map_congr_left
  intro p _
  simp only [Function.comp]
  split <;> rfl

theorem lookup_isSome (s : SessionResults) (id : Nat) :
    (s.lookup id).isSome = true ↔ id ∈ s.tests.map (·.1) := by
  unfold lookup
  rw [Option.isSome_map, List.find?_isSome]
  simp only [List.mem_map, beq_iff_eq]

theorem lookup_append_self (s : SessionResults) (id : Nat) (r : Result) (h : (s.lookup id).isSome = false) (id' : Nat) :
    ({ s with tests := s.tests ++ [(id, r)] } : SessionResults).lookup id' =
      if id' = id then some r else s.lookup id' := by
  unfold lookup at h ⊢
  simp only [List.find?_append]
  by_cases hid : id' = id
  · subst hid
    have hn : s.tests.find? (fun x => x.1 == id') = none := by
      cases hf : s.tests.find? (fun x => x.1 == id') with
      | none => rfl
      | some y => rw [hf] at h; cases h
    rw [hn]; simp
  · have : (id == id') = false := by simp; exact fun h => hid h.symm
    simp [List.find?_cons, this, hid]

theorem lookup_ev (s : SessionResults) (id : Nat) (e : Result.REv) (id' : Nat) :
    (s.step (.ev id e)).lookup id' = if id' = id then (s.lookup id').map (·.apply e) else s.lookup id' := by
  unfold lookup step
  simp only
  induction s.tests with
  | nil => simp
  | cons p ps ih =>
    simp only [List.map_cons, List.find?_cons]
    by_cases hp : p.1 = id'
    · subst hp
      by_cases hid : p.1 = id
      · simp [hid]
      · simp [hid]
    · have h1 : ((if (p.1 == id) = true then (p.1, p.2.apply e) else p).1 == id') = false := by
        split <;> simpa using hp
      have h2 : (p.1 == id') = false := by simpa using hp
      rw [h1, h2]
      exact ih

end SessionResults
end Slash
