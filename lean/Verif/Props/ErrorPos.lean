import Verif.Model.ErrorPos
import Verif.Props.Reports
/-!
# C160: where errors point to
-/
namespace Slash.Rep

theorem callStack_drop (own s : List PFrame) (k : Nat) (h : k < s.length) :
    callStack (own ++ s) (k + own.length + 3) = distill ((s.drop k).dropLast.reverse) := by
  have hne : s ≠ [] := by rintro rfl; simp at h
  unfold callStack sysFrames distillStack
  rw [if_neg (by omega)]
  congr 1
  generalize hg : (⟨"slash.utils.traceback_utils", "_get_sys_trace_frames", 0⟩ : PFrame) = g
  generalize hd : (⟨"slash.utils.traceback_utils", "distill_call_stack", 0⟩ : PFrame) = d
  have h1 : (g :: d :: (own ++ s)).dropLast = (g :: d :: own) ++ s.dropLast := by
    rw [show g :: d :: (own ++ s) = (g :: d :: own) ++ s from rfl, List.dropLast_append_of_ne_nil hne]
  have h2 : (s.drop k).dropLast = s.dropLast.drop k := by
    rw [List.dropLast_eq_take, List.dropLast_eq_take, List.drop_take, List.length_drop]
    congr 1
    omega
  rw [h1, h2, List.reverse_append]
  unfold upTo
  have hl : (s.dropLast.reverse ++ (g :: d :: own).reverse).length = s.length - 1 + (own.length + 2) := by simp
  rw [hl, if_neg (by omega)]
  have h3 : ((((s.length - 1 + (own.length + 2) : Nat) : Int) - ((k + own.length + 3 : Nat) : Int) + 1)).toNat = s.length - 1 - k := by omega
  rw [h3, List.take_append_of_le_length (by simp), List.reverse_drop]
  simp

/-- Whichever function is called with a message, and with whatever correction there are frames for: the frames shown are those of the code that
called it, without as many of the innermost ones as the correction says, without the outermost one, and without muted ones. -/
theorem C160_frames (a : Adder) (s : List PFrame) (k : Nat) (h : k < s.length) :
    a.call s k = distillTb ((s.drop k).dropLast.reverse) 0 := by
  rw [show distillTb ((s.drop k).dropLast.reverse) 0 = distill ((s.drop k).dropLast.reverse) by simp [distillTb]]
  cases a with
  | slashError => exact callStack_drop [_, _, _, _] s k h
  | slashFailure => exact callStack_drop [_, _, _, _] s k h
  | resultError => exact callStack_drop [_, _, _] s k h
  | resultFailure => exact callStack_drop [_, _, _] s k h
  | error => exact callStack_drop [_] s k h

/-- The error points to the caller, with a correction to its caller and so on, if this frame is neither muted nor the outermost one, and it was not
called by `slash.assertions`. -/
theorem C160_caller_partial (a : Adder) (inner outer : List PFrame) (f : PFrame) (hne : outer ≠ []) (hm : muted f = false)
    (ha : ∀ g ∈ f :: outer, g.module ≠ "slash.assertions") :
    cause (a.call (inner ++ f :: outer) inner.length) = some f := by
  rw [C160_frames a _ _ (by simp), List.drop_left, C125_frames, cause]
  have h1 : (f :: outer).dropLast.reverse = outer.dropLast.reverse ++ [f] := by
    cases outer with
    | nil => exact absurd rfl hne
    | cons g gs => simp
  have h2 : ∀ l : List PFrame, (∀ g ∈ l, g.module ≠ "slash.assertions") → l.takeWhile (fun f => f.module != "slash.assertions") = l := by
    intro l
    induction l with
    | nil => intro _; rfl
    | cons x l ih => intro h; rw [List.takeWhile_cons_of_pos (by simpa using h x (by simp)), ih (fun y hy => h y (by simp [hy]))]
  rw [h1, h2]
  · simp [List.filter_append, hm]
  · intro g hg
    apply ha
    rcases List.mem_append.1 hg with hg | hg
    · exact List.mem_cons_of_mem _ ((List.dropLast_sublist outer).subset (List.mem_reverse.1 hg))
    · simp only [List.mem_singleton] at hg
      simp [hg]

/-- An error added at the outermost level of a program points nowhere. -/
theorem C160_outermost_violated : cause (Adder.slashError.call [⟨"__main__", "<module>", 1⟩] 0) = none := by decide

/-- An error added by code that `slash.assertions` called points to the caller of the assertion. -/
theorem C160_assertions_violated :
    cause (Adder.slashError.call [⟨"test_a", "check", 1⟩, ⟨"slash.assertions", "assert_raises", 2⟩, ⟨"test_a", "test_x", 3⟩, ⟨"m", "main", 4⟩] 0) =
      some ⟨"test_a", "test_x", 3⟩ := by decide

/-- An error that was logged points to the handler of slash, not to the code that logged it. -/
theorem C160_log_violated (machinery s : List PFrame) (h : machinery ++ s ≠ []) (ha : ∀ g ∈ machinery ++ s, g.module ≠ "slash.assertions") :
    cause (logged machinery s) = some ⟨"slash.log", "emit", 0⟩ :=
  C160_caller_partial .slashError [] (machinery ++ s) ⟨"slash.log", "emit", 0⟩ h (by decide) (by
    intro g hg
    rcases List.mem_cons.1 hg with rfl | hg
    · decide
    · exact ha g hg)

-- An error added in a helper points to it, with a correction of 1 to the test.
example : ∀ a : Adder,
    cause (a.call [⟨"lib", "helper", 1⟩, ⟨"test_a", "test_x", 2⟩, ⟨"slash.core.function_test", "run", 3⟩, ⟨"m", "main", 4⟩] 0) = some ⟨"lib", "helper", 1⟩ ∧
    cause (a.call [⟨"lib", "helper", 1⟩, ⟨"test_a", "test_x", 2⟩, ⟨"slash.core.function_test", "run", 3⟩, ⟨"m", "main", 4⟩] 1) = some ⟨"test_a", "test_x", 2⟩ := by
  intro a; cases a <;> decide

end Slash.Rep
