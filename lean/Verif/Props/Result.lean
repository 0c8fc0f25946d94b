import Verif.Lemmas.Result
import Verif.Lemmas.Util
/-!
# Properties of results: C07, C09, C10, C11, C51, C57

A result's life is an arbitrary list of events (`Result.REv`); the statements speak about which events
occurred in it.
-/
namespace Slash
open Result

/-! ## C07: the summary hook -/

/-- **C07.** The success hook fires iff the test started and no error, failure, interruption or skip was
recorded. -/
theorem C07_success_hook_iff (h : List REv) :
    summaryHook (after h) = .success ↔
      .start ∈ h ∧ (∀ f, .err f ∉ h) ∧ (∀ f, .fail f ∉ h) ∧ .interrupt ∉ h ∧ (∀ s, .skip s ∉ h) := by
  have he := isError_after h; have hf := isFailure_after h; have hs := isSkip_after h
  have hst := isStarted_after h; have hi := isInterrupted_after h
  have hsu := isSuccess_iff (after h) false
  unfold summaryHook isJustFailure
  constructor
  · intro hh
    split at hh
    · cases hh
    · split at hh
      · cases hh
      · split at hh
        · rename_i h1 h2 h3
          obtain ⟨a, b, c, d⟩ := hsu.1 h3
          rcases d with ⟨_, d⟩ | ⟨d1, d2⟩
          · cases d
          · refine ⟨hst.1 d2, ?_, ?_, ?_, ?_⟩
            · intro f hm; rw [he.2 ⟨f, hm⟩] at a; cases a
            · intro f hm; rw [hf.2 ⟨f, hm⟩] at b; cases b
            · intro hm; rw [hi.2 hm] at c; cases c
            · intro f hm; rw [hs.2 ⟨f, hm⟩] at d1; cases d1
        · cases hh
  · rintro ⟨h1, h2, h3, h4, h5⟩
    have e1 : (after h).isError = false := by
      rw [← Bool.not_eq_true, he]; rintro ⟨f, hm⟩; exact h2 f hm
    have e2 : (after h).isFailure = false := by
      rw [← Bool.not_eq_true, hf]; rintro ⟨f, hm⟩; exact h3 f hm
    have e3 : (after h).isInterrupted = false := by
      rw [← Bool.not_eq_true, hi]; exact h4
    have e4 : (after h).isSkip = false := by
      rw [← Bool.not_eq_true, hs]; rintro ⟨f, hm⟩; exact h5 f hm
    have e5 := hsu.2 ⟨e1, e2, e3, .inr ⟨e4, hst.2 h1⟩⟩
    simp [e2, e4, e5]

/-- **C07.** The failure hook fires iff a failure and no error was recorded. -/
theorem C07_failure_hook_iff (h : List REv) :
    summaryHook (after h) = .failure ↔ (∃ f, .fail f ∈ h) ∧ (∀ f, .err f ∉ h) := by
  have he := isError_after h; have hf := isFailure_after h
  unfold summaryHook isJustFailure
  constructor
  · intro hh
    split at hh
    · rename_i h1
      simp only [Bool.and_eq_true, Bool.not_eq_true'] at h1
      refine ⟨hf.1 h1.1, fun f hm => ?_⟩
      rw [he.2 ⟨f, hm⟩] at h1; cases h1.2
    · split at hh
      · cases hh
      · split at hh <;> cases hh
  · rintro ⟨h1, h2⟩
    have e1 : (after h).isError = false := by
      rw [← Bool.not_eq_true, he]; rintro ⟨f, hm⟩; exact h2 f hm
    simp [hf.2 h1, e1]

/-- **C07.** The skip hook fires iff a skip was recorded and it is not a pure failure; -/
theorem C07_skip_hook_iff (h : List REv) :
    summaryHook (after h) = .skip ↔
      (∃ s, .skip s ∈ h) ∧ ¬ ((∃ f, .fail f ∈ h) ∧ (∀ f, .err f ∉ h)) := by
  rw [← C07_failure_hook_iff, ← isSkip_after]
  unfold summaryHook
  by_cases h1 : (after h).isJustFailure = true
  · simp [h1]
  · by_cases h2 : (after h).isSkip = true
    · simp [h1, h2]
    · by_cases h3 : (after h).isSuccess = true <;> simp [h1, h2, h3]

/-- **C07.** and the error hook in exactly the remaining cases: nothing skipped, no pure failure, and an error, an
interruption, or no start at all. -/
theorem C07_error_hook_iff (h : List REv) :
    summaryHook (after h) = .error ↔
      (∀ s, .skip s ∉ h) ∧ ¬ ((∃ f, .fail f ∈ h) ∧ (∀ f, .err f ∉ h)) ∧
      ((∃ f, .err f ∈ h) ∨ .interrupt ∈ h ∨ .start ∉ h) := by
  have hs := C07_success_hook_iff h
  have hf := C07_failure_hook_iff h
  have hk := C07_skip_hook_iff h
  constructor
  · intro hh
    rw [hh] at hs hf hk
    simp only [reduceCtorEq, false_iff] at hs hf hk
    have h1 : ∀ s, .skip s ∉ h := fun s hm => hk ⟨⟨s, hm⟩, hf⟩
    refine ⟨h1, hf, ?_⟩
    apply Classical.byContradiction
    intro hc
    simp only [not_or, Classical.not_not, not_exists] at hc
    apply hs
    refine ⟨hc.2.2, hc.1, ?_, hc.2.1, h1⟩
    intro f hm
    exact hf ⟨⟨f, hm⟩, hc.1⟩
  · rintro ⟨h1, h2, h3⟩
    cases hh : summaryHook (after h) with
    | error => rfl
    | failure => exact absurd (hf.1 hh) h2
    | skip => obtain ⟨⟨s, hm⟩, _⟩ := hk.1 hh; exact absurd hm (h1 s)
    | success =>
      obtain ⟨a, b, c, d, e⟩ := hs.1 hh
      rcases h3 with ⟨f, hm⟩ | h3 | h3
      · exact absurd hm (b f)
      · exact absurd h3 d
      · exact absurd a h3

example : summaryHook (after [.start, .fail false, .finish]) = .failure := by decide
example : summaryHook (after [.start, .skip "later", .finish]) = .skip := by decide
example : summaryHook (after [.start, .finish]) = .success := by decide
example : summaryHook (after [.start, .fail false, .err true]) = .error := by decide

/-! ## C51: an erroneous test is not announced as skipped -/

/-- **C51 is violated**: an error followed by a skip (e.g. an error added with `slash.add_error`, then
`slash.skip_test`) fires the skip hook; so does an interrupted test that has a skip. -/
theorem C51_error_not_announced_as_skip_violated :
    ∃ h : List REv, .err false ∈ h ∧ .start ∈ h ∧ summaryHook (after h) = .skip :=
  ⟨[.start, .err false, .skip "not today"], by decide⟩

theorem C51_interruption_not_announced_as_skip_violated :
    ∃ h : List REv, .interrupt ∈ h ∧ summaryHook (after h) = .skip :=
  ⟨[.start, .skip "x", .interrupt], by decide⟩

/-- **C51, partial**: without any skip on record, an error always fires the error hook, and an interruption the error
or failure hook. Missing: histories that also contain a skip. -/
theorem C51_error_hook_partial (h : List REv) (hs : ∀ s, .skip s ∉ h) :
    ((∃ f, .err f ∈ h) → summaryHook (after h) = .error) ∧
    (.interrupt ∈ h → summaryHook (after h) = .error ∨ summaryHook (after h) = .failure) := by
  constructor
  · rintro ⟨f, hf⟩
    rw [C07_error_hook_iff]
    exact ⟨hs, fun hc => hc.2 f hf, .inl ⟨f, hf⟩⟩
  · intro hi
    by_cases hc : (∃ f, .fail f ∈ h) ∧ (∀ f, .err f ∉ h)
    · exact .inr ((C07_failure_hook_iff h).2 hc)
    · exact .inl ((C07_error_hook_iff h).2 ⟨hs, hc, .inr (.inl hi)⟩)

example : (∀ s, REv.skip s ∉ [.start, .err false, .fail true]) ∧ ∃ f, REv.err f ∈ [.start, .err false, .fail true] := by
  simp

/-! ## C09: monotone, exclusive -/

/-- **C09.** After an error, failure or interruption no later event makes the result successful. -/
theorem C09_never_success_again (h h' : List REv) (a : Bool)
    (hb : (∃ f, .err f ∈ h) ∨ (∃ f, .fail f ∈ h) ∨ .interrupt ∈ h) :
    (after (h ++ h')).isSuccess a = false := by
  rw [← Bool.not_eq_true, isSuccess_iff]
  rintro ⟨h1, h2, h3, _⟩
  rcases hb with ⟨f, hm⟩ | ⟨f, hm⟩ | hm
  · rw [(isError_after (h ++ h')).2 ⟨f, by simp [hm]⟩] at h1; cases h1
  · rw [(isFailure_after (h ++ h')).2 ⟨f, by simp [hm]⟩] at h2; cases h2
  · rw [(isInterrupted_after (h ++ h')).2 (by simp [hm])] at h3; cases h3

/-- **C09.** `is_success` in terms of the history: nothing bad, and either started without a skip or (if skips
are allowed) skipped. -/
theorem C09_success_iff (h : List REv) (a : Bool) :
    (after h).isSuccess a = true ↔
      (∀ f, .err f ∉ h) ∧ (∀ f, .fail f ∉ h) ∧ .interrupt ∉ h ∧
      ((∃ s, .skip s ∈ h) ∧ a = true ∨ (∀ s, .skip s ∉ h) ∧ .start ∈ h) := by
  rw [isSuccess_iff]
  have he := isError_after h; have hf := isFailure_after h; have hs := isSkip_after h
  have hst := isStarted_after h; have hi := isInterrupted_after h
  rw [← Bool.not_eq_true, ← Bool.not_eq_true, ← Bool.not_eq_true, ← Bool.not_eq_true, he, hf, hi, hs, hst]
  by_cases hk : ∃ s, .skip s ∈ h
  · have hk' : ¬ ∀ s, .skip s ∉ h := by rintro h'; obtain ⟨s, hs⟩ := hk; exact h' s hs
    simp only [hk, hk', true_and, not_true, false_and, or_false, not_exists]
  · have hk' : ∀ s, .skip s ∉ h := fun s hs => hk ⟨s, hs⟩
    simp only [hk, hk', false_and, not_false_eq_true, true_and, false_or, not_exists, implies_true]

/-- **C09.** Success excludes error, failure, interruption and "not run" - the last one for results without
skips (a result skipped before it started counts as both "success, skips allowed" and "not run"). -/
theorem C09_exclusive (r : Result) (a : Bool) (hs : r.isSuccess a = true) :
    r.isError = false ∧ r.isFailure = false ∧ r.isInterrupted = false ∧ r.hasErrorsOrFailures = false ∧
    (r.isNotRun = true → r.isSkip = true ∧ a = true) := by
  obtain ⟨h1, h2, h3, h4⟩ := (isSuccess_iff r a).1 hs
  refine ⟨h1, h2, h3, ?_, ?_⟩
  · unfold isError at h1; unfold isFailure at h2; unfold hasErrorsOrFailures; rw [h1, h2]; rfl
  · intro hn
    rcases h4 with h4 | h4
    · exact h4
    · unfold isNotRun at hn; rw [h4.2] at hn; cases hn

/-- **C09.** A started and finished result on which nothing else happened is a finished success. -/
theorem C09_nothing_recorded (h : List REv) (h1 : .start ∈ h) (h2 : .finish ∈ h)
    (h3 : ∀ e ∈ h, e = .start ∨ e = .finish) : (after h).isSuccessFinished = true := by
  unfold isSuccessFinished
  rw [Bool.and_eq_true, C09_success_iff, isFinished_after]
  refine ⟨⟨?_, ?_, ?_, ?_⟩, h2⟩
  · intro f hm; rcases h3 _ hm with h | h <;> cases h
  · intro f hm; rcases h3 _ hm with h | h <;> cases h
  · intro hm; rcases h3 _ hm with h | h <;> cases h
  · have : ¬ ∃ s, REv.skip s ∈ h := by rintro ⟨s, hm⟩; rcases h3 _ hm with h | h <;> cases h
    exact .inr ⟨fun s hs => this ⟨s, hs⟩, h1⟩

/-- **C09.** A result has a fatal error iff an error or failure marked fatal was added. -/
theorem C09_fatal_iff (h : List REv) :
    (after h).hasFatal = true ↔ .err true ∈ h ∨ .fail true ∈ h := by
  unfold hasFatal
  rw [after_errors, after_failures]
  simp only [List.nil_append, List.any_append, Bool.or_eq_true, List.any_eq_true, List.mem_filterMap]
  constructor
  · rintro (⟨x, ⟨e, he, hx⟩, hf⟩ | ⟨x, ⟨e, he, hx⟩, hf⟩)
    · left; cases e <;> simp at hx; subst hx; simp at hf; subst hf; exact he
    · right; cases e <;> simp at hx; subst hx; simp at hf; subst hf; exact he
  · rintro (h1 | h1)
    · exact .inl ⟨⟨true⟩, ⟨_, h1, rfl⟩, rfl⟩
    · exact .inr ⟨⟨true⟩, ⟨_, h1, rfl⟩, rfl⟩

example : (after [.start, .err false, .finish]).isSuccess true = false ∧
    (after [.start, .skip "a"]).isSuccess true = true ∧ (after [.start, .skip "a"]).isSuccess false = false := by decide

/-! ## C11: the table of results -/

namespace SessionResults

/-- ids in the order of their first creation request -/
def createdIds (ops : List Op) : List Nat :=
  (ops.filterMap (fun o => match o with | .create id => some id | _ => none)).eraseDups

/-- what happened to test `id` since its result was created -/
def history (id : Nat) : List Op → List REv
  | [] => []
  | op :: ops => if op = .create id then
      ops.filterMap (fun o => match o with | .ev i e => if i = id then some e else none | _ => none)
    else history id ops

/-- what happened to the global result -/
def globalHistory (ops : List Op) : List REv :=
  ops.filterMap (fun o => match o with | .gev e => some e | _ => none)

theorem createdIds_snoc (ops : List Op) (op : Op) :
    createdIds (ops ++ [op]) = match op with
      | .create id => if id ∈ createdIds ops then createdIds ops else createdIds ops ++ [id]
      | _ => createdIds ops := by
  unfold createdIds
  cases op with
  | create id =>
    simp only [List.filterMap_append, List.filterMap_cons, List.filterMap_nil]
    generalize ops.filterMap _ = l
    rw [List.eraseDups_append]
    by_cases hm : id ∈ l
    · have h2 : id ∈ l.eraseDups := by rw [List.mem_eraseDups]; exact hm
      have h3 : [id].removeAll l = [] := by simp [List.removeAll, hm]
      rw [if_pos h2, h3]; simp
    · have h2 : id ∉ l.eraseDups := by rw [List.mem_eraseDups]; exact hm
      have h3 : [id].removeAll l = [id] := by simp [List.removeAll, hm]
      rw [if_neg h2, h3]; rfl
  | _ => simp

theorem createdIds_nodup (ops : List Op) : (createdIds ops).Nodup := by
  induction ops using snocInd with
  | nil => exact List.nodup_nil
  | snoc ops op ih =>
    rw [createdIds_snoc]
    cases op with
    | create id =>
      dsimp only
      split
      · exact ih
      · rename_i h
        rw [List.nodup_append]
        refine ⟨ih, by simp, ?_⟩
        rintro a ha b hb rfl
        rw [List.mem_singleton] at hb
        subst hb; exact h ha
    | _ => exact ih

theorem mem_createdIds (ops : List Op) (id : Nat) : id ∈ createdIds ops ↔ .create id ∈ ops := by
  unfold createdIds
  rw [List.mem_eraseDups, List.mem_filterMap]
  constructor
  · rintro ⟨o, ho, h⟩
    cases o <;> simp at h
    subst h; exact ho
  · intro h; exact ⟨_, h, rfl⟩

theorem history_snoc (id : Nat) (ops : List Op) (op : Op) :
    history id (ops ++ [op]) = if .create id ∈ ops then
      history id ops ++ (match op with | .ev i e => if i = id then [e] else [] | _ => []) else [] := by
  induction ops with
  | nil =>
    simp only [List.nil_append, history, List.not_mem_nil, if_false, List.filterMap_nil]
    split <;> rfl
  | cons o ops ih =>
    simp only [List.cons_append, history]
    by_cases h : o = .create id
    · subst h
      simp only [if_true, List.filterMap_append, List.mem_cons, true_or]
      congr 1
      cases op with
      | ev i e => by_cases hi : i = id <;> simp [hi]
      | _ => rfl
    · have : (Op.create id ∈ o :: ops) ↔ Op.create id ∈ ops := by
        simp only [List.mem_cons, or_iff_right_iff_imp]; intro h'; exact absurd h'.symm h
      rw [if_neg h, if_neg h, ih]
      simp only [this]

theorem run_snoc (ops : List Op) (op : Op) : run (ops ++ [op]) = (run ops).step op := by
  simp [run, List.foldl_append]

/-- **C11.** Iteration is in order of first creation, each test once. -/
theorem C11_iteration_order (ops : List Op) : (run ops).tests.map (·.1) = createdIds ops := by
  induction ops using snocInd with
  | nil => rfl
  | snoc ops op ih =>
    rw [run_snoc, createdIds_snoc]
    cases op with
    | create id =>
      simp only [step, create]
      by_cases h : id ∈ createdIds ops
      · have h1 : ((run ops).lookup id).isSome = true := by rw [lookup_isSome, ih]; exact h
        simp only [h1, if_true, h, Option.getD_none]; exact ih
      · have h1 : ¬ ((run ops).lookup id).isSome = true := by rw [lookup_isSome, ih]; exact h
        rw [if_neg h1, if_neg h]
        simp only [Option.getD_some, List.map_append, ih, List.map_cons, List.map_nil]
    | ev id e => rw [step_ids_ev]; exact ih
    | gev e => exact ih
    | workerError => exact ih

/-- **C11.** Looking up a test gives the result created for it, carrying exactly what happened to that test;
events of other tests, and refused second creations, have no effect on it. -/
theorem C11_lookup (ops : List Op) (id : Nat) :
    (run ops).get id = if .create id ∈ ops then some (after (history id ops)) else none := by
  unfold get
  induction ops using snocInd with
  | nil => rfl
  | snoc ops op ih =>
    rw [run_snoc, history_snoc]
    have hmem : (Op.create id ∈ ops ++ [op]) ↔ (Op.create id ∈ ops ∨ op = .create id) := by
      simp [eq_comm]
    cases op with
    | create id' =>
      have hsome : ((run ops).lookup id').isSome = true ↔ .create id' ∈ ops := by
        rw [lookup_isSome, C11_iteration_order, mem_createdIds]
      simp only [step, create]
      by_cases h : .create id' ∈ ops
      · rw [if_pos (hsome.2 h)]
        simp only [Option.getD_none, ih, List.append_nil]
        by_cases h2 : .create id ∈ ops
        · simp [h2, hmem]
        · have : ¬ (Op.create id ∈ ops ++ [.create id']) := by
            rw [hmem]; rintro (h3 | h3)
            · exact h2 h3
            · cases h3; exact h2 h
          simp [h2, this]
      · have hf : ((run ops).lookup id').isSome = false := by
          rw [← Bool.not_eq_true, hsome]; exact h
        rw [if_neg (by rw [hf]; simp), Option.getD_some, lookup_append_self _ _ _ hf]
        by_cases h2 : id = id'
        · subst h2
          simp [h, hmem, after]
        · have h3 : ¬ (Op.create id' = Op.create id) := by intro hc; cases hc; exact h2 rfl
          simp only [h2, if_false, ih, List.append_nil, hmem, h3, or_false]
          by_cases h4 : Op.create id ∈ ops <;> simp [h4]
    | ev i e =>
      rw [lookup_ev, ih]
      have h3 : ¬ (Op.ev i e = Op.create id) := by intro hc; cases hc
      simp only [hmem, h3, or_false]
      by_cases h4 : Op.create id ∈ ops
      · by_cases hi : id = i
        · subst hi; simp [h4, after, List.foldl_append]
        · have hi' : ¬ i = id := fun h => hi h.symm
          simp [h4, hi, hi']
      · simp [h4]
    | gev e =>
      have h3 : ¬ (Op.gev e = Op.create id) := by intro hc; cases hc
      simp only [hmem, h3, or_false, List.append_nil]
      have : ((run ops).step (.gev e)).lookup id = (run ops).lookup id := rfl
      rw [this, ih]
      by_cases h4 : Op.create id ∈ ops <;> simp [h4]
    | workerError =>
      have h3 : ¬ (Op.workerError = Op.create id) := by intro hc; cases hc
      simp only [hmem, h3, or_false, List.append_nil]
      have : ((run ops).step .workerError).lookup id = (run ops).lookup id := rfl
      rw [this, ih]
      by_cases h4 : Op.create id ∈ ops <;> simp [h4]

/-- **C11.** A second creation for the same test is refused. -/
theorem C11_no_second_creation (ops : List Op) (id : Nat) :
    (run ops).create id = none ↔ .create id ∈ ops := by
  unfold create
  have : ((run ops).lookup id).isSome = true ↔ .create id ∈ ops := by
    rw [lookup_isSome, C11_iteration_order, mem_createdIds]
  by_cases h : .create id ∈ ops
  · simp [this.2 h, h]
  · have h' : ((run ops).lookup id).isSome = false := by rw [← Bool.not_eq_true, this]; exact h
    simp [h', h]

/-- **C11.** Access by position agrees with iteration order. -/
theorem C11_index (ops : List Op) (i : Nat) :
    (run ops).getIndex i = ((createdIds ops)[i]?).map (fun id => after (history id ops)) := by
  unfold getIndex
  have hids := C11_iteration_order ops
  have hi : (createdIds ops)[i]? = ((run ops).tests[i]?).map (·.1) := by rw [← hids]; simp
  rw [hi]
  cases ht : (run ops).tests[i]? with
  | none => rfl
  | some p =>
    simp only [Option.map_some, Option.some.injEq]
    -- p is the entry found by lookup of its id, since ids are distinct
    have hmem : p ∈ (run ops).tests := List.mem_of_getElem? ht
    have hnd : ((run ops).tests.map (·.1)).Nodup := by
      rw [hids]; exact createdIds_nodup ops
    have hl : (run ops).lookup p.1 = some p.2 := by
      unfold lookup
      clear ht hi hids
      generalize (run ops).tests = l at hmem hnd
      induction l with
      | nil => cases hmem
      | cons q qs ih =>
        simp only [List.map_cons, List.nodup_cons] at hnd
        rcases List.mem_cons.1 hmem with h | h
        · subst h; simp
        · have : (q.1 == p.1) = false := by
            simp only [beq_eq_false_iff_ne]; intro hq
            exact hnd.1 (hq ▸ List.mem_map_of_mem h)
          simp only [List.find?_cons, this]
          exact ih h hnd.2
    have hg := C11_lookup ops p.1
    have hc : .create p.1 ∈ ops := by
      rw [← mem_createdIds, ← hids]; exact List.mem_map_of_mem hmem
    unfold get at hg
    rw [hl, if_pos hc, Option.some.injEq] at hg
    exact hg

theorem testResults_eq (ops : List Op) :
    (run ops).testResults = (createdIds ops).map (fun id => after (history id ops)) := by
  apply List.ext_getElem?
  intro i
  have := C11_index ops i
  unfold getIndex at this
  simp only [testResults, List.getElem?_map]
  exact this

example : (run [.create 7, .ev 7 .start, .create 3, .ev 3 (.err false), .create 7, .ev 7 .finish]).get 7
    = some { started := true, finished := true } ∧
    (run [.create 7, .create 3, .create 7]).tests.map (·.1) = [7, 3] := by decide

/-! ## C10: session statistics -/

theorem global_eq (ops : List Op) : (run ops).global = after (globalHistory ops) := by
  induction ops using snocInd with
  | nil => rfl
  | snoc ops op ih =>
    rw [run_snoc]
    cases op with
    | create id =>
      have : ((run ops).step (.create id)).global = (run ops).global := by
        simp only [step, create]; split <;> rfl
      rw [this, ih]; simp [globalHistory]
    | ev id e =>
      have : ((run ops).step (.ev id e)).global = (run ops).global := rfl
      rw [this, ih]; simp [globalHistory]
    | gev e =>
      have : ((run ops).step (.gev e)).global = (run ops).global.apply e := rfl
      rw [this, ih]
      simp [globalHistory, after, List.foldl_append]
    | workerError =>
      have : ((run ops).step .workerError).global = (run ops).global := rfl
      rw [this, ih]; simp [globalHistory]

theorem workerError_eq (ops : List Op) : (run ops).workerError = ops.contains .workerError := by
  induction ops using snocInd with
  | nil => rfl
  | snoc ops op ih =>
    rw [run_snoc]
    cases op with
    | create id =>
      have : ((run ops).step (.create id)).workerError = (run ops).workerError := by
        simp only [step, create]; split <;> rfl
      rw [this, ih]; simp
    | ev id e =>
      have : ((run ops).step (.ev id e)).workerError = (run ops).workerError := rfl
      rw [this, ih]; simp
    | gev e =>
      have : ((run ops).step (.gev e)).workerError = (run ops).workerError := rfl
      rw [this, ih]; simp
    | workerError => simp [step]

/-- **C10.** The session is successful exactly if the global result is, no worker error was reported, and every test
with a result is successful. -/
theorem C10_session_success_iff (ops : List Op) (a : Bool) :
    (run ops).isSuccess a = true ↔
      (after (globalHistory ops)).isSuccess a = true ∧ .workerError ∉ ops ∧
      ∀ id, .create id ∈ ops → (after (history id ops)).isSuccess a = true := by
  unfold isSuccess
  rw [global_eq, workerError_eq, testResults_eq]
  cases h1 : (after (globalHistory ops)).isSuccess a
  · simp
  · cases h2 : ops.contains .workerError
    · have h2' : Op.workerError ∉ ops := by simpa using h2
      simp only [Bool.not_true, Bool.false_eq_true, if_false, List.all_map, List.all_eq_true, true_and, h2',
        not_false_eq_true]
      constructor
      · intro h id hid; exact h id ((mem_createdIds ops id).2 hid)
      · intro h id hid; exact h id ((mem_createdIds ops id).1 hid)
    · have h2' : Op.workerError ∈ ops := by simpa using h2
      simp [h2']

/-- **C10.** Consequently one bad event anywhere - in any test that has a result or globally - makes the session
unsuccessful for good. -/
theorem C10_bad_event_is_final (ops ops' : List Op) (a : Bool) (id : Nat) (e : REv)
    (hc : .create id ∈ ops) (hbad : e = .interrupt ∨ ∃ f, e = .err f ∨ e = .fail f) :
    (run (ops ++ [.ev id e] ++ ops')).isSuccess a = false := by
  rw [← Bool.not_eq_true, C10_session_success_iff]
  rintro ⟨h8, h9, h⟩
  have hc' : Op.create id ∈ ops ++ [Op.ev id e] ++ ops' := by simp [hc]
  have := h id hc'
  have hmem : e ∈ history id (ops ++ [.ev id e] ++ ops') := by
    clear h this hc' h8 h9
    induction ops with
    | nil => cases hc
    | cons o ops ih =>
      simp only [List.cons_append, history]
      by_cases ho : o = .create id
      · simp only [ho, if_true]
        simp [List.filterMap_append]
      · rw [if_neg ho]
        apply ih
        rcases List.mem_cons.1 hc with h | h
        · exact absurd h.symm ho
        · exact h
  rw [C09_success_iff] at this
  rcases hbad with rfl | ⟨f, rfl | rfl⟩
  · exact this.2.2.1 hmem
  · exact this.1 f hmem
  · exact this.2.1 f hmem

/-- **C10.** The counts are the numbers of tests (plus the global result where it is included) with the given
property, in terms of what happened to them. -/
theorem C10_counts (ops : List Op) :
    let tests := (createdIds ops).map (fun id => history id ops)
    let all := tests ++ [globalHistory ops]
    (run ops).numStarted = (tests.filter (fun h => decide (REv.start ∈ h))).length ∧
    (run ops).numSuccessful = (tests.filter (fun h => (after h).isSuccess && decide (REv.finish ∈ h))).length ∧
    (run ops).numErrors = (all.filter (fun h => decide (REv.err true ∈ h ∨ REv.err false ∈ h))).length ∧
    (run ops).numFailures = (all.filter (fun h => decide ((REv.fail true ∈ h ∨ REv.fail false ∈ h) ∧
        ¬ (REv.err true ∈ h ∨ REv.err false ∈ h)))).length ∧
    (run ops).numNotRun = (tests.filter (fun h => decide (REv.start ∉ h ∧
        ¬ (REv.fail true ∈ h ∨ REv.fail false ∈ h ∨ REv.err true ∈ h ∨ REv.err false ∈ h)))).length := by
  intro tests all
  have hT : (run ops).testResults = tests.map after := by
    rw [testResults_eq]; simp [tests, Function.comp_def]
  have hA : (run ops).allResults = all.map after := by
    simp only [allResults, hT, global_eq, all, List.map_append, List.map_cons, List.map_nil]
  have herr : ∀ h : List REv, (after h).isError = decide (REv.err true ∈ h ∨ REv.err false ∈ h) := by
    intro h
    rw [Bool.eq_iff_iff, isError_after, decide_eq_true_eq]
    constructor
    · rintro ⟨f, hf⟩; cases f <;> simp [hf]
    · rintro (h | h) <;> exact ⟨_, h⟩
  have hfail : ∀ h : List REv, (after h).isFailure = decide (REv.fail true ∈ h ∨ REv.fail false ∈ h) := by
    intro h
    rw [Bool.eq_iff_iff, isFailure_after, decide_eq_true_eq]
    constructor
    · rintro ⟨f, hf⟩; cases f <;> simp [hf]
    · rintro (h | h) <;> exact ⟨_, h⟩
  have hstart : ∀ h : List REv, (after h).isStarted = decide (REv.start ∈ h) := by
    intro h; rw [Bool.eq_iff_iff, isStarted_after, decide_eq_true_eq]
  have hfin : ∀ h : List REv, (after h).isFinished = decide (REv.finish ∈ h) := by
    intro h; rw [Bool.eq_iff_iff, isFinished_after, decide_eq_true_eq]
  have key : ∀ (l : List (List REv)) (p : Result → Bool) (q : List REv → Bool),
      (∀ h, p (after h) = q h) → ((l.map after).filter p).length = (l.filter q).length := by
    intro l p q hpq
    rw [List.filter_map, List.length_map]
    have : (p ∘ after) = q := by funext h; exact hpq h
    rw [this]
  refine ⟨?_, ?_, ?_, ?_, ?_⟩
  · simp only [numStarted, count, Bool.false_eq_true, if_false, hT]; exact key _ _ _ hstart
  · simp only [numSuccessful, count, Bool.false_eq_true, if_false, hT]
    apply key; intro h; simp only [isSuccessFinished, hfin]
  · simp only [numErrors, count, if_true, hA]; exact key _ _ _ herr
  · simp only [numFailures, count, if_true, hA]
    apply key; intro h; simp only [isJustFailure, herr, hfail]
    by_cases h1 : (REv.fail true ∈ h ∨ REv.fail false ∈ h) <;>
      by_cases h2 : (REv.err true ∈ h ∨ REv.err false ∈ h) <;> simp [h1, h2]
  · simp only [numNotRun, count, Bool.false_eq_true, if_false, hT]
    apply key; intro h
    have : (after h).hasErrorsOrFailures = ((after h).isFailure || (after h).isError) := rfl
    simp only [isNotRun, this, herr, hfail, hstart]
    by_cases h0 : REv.start ∈ h <;> by_cases h1 : (REv.fail true ∈ h ∨ REv.fail false ∈ h) <;>
      by_cases h2 : (REv.err true ∈ h ∨ REv.err false ∈ h) <;> simp [h0, h1, h2] <;> grind

/-- **C10.** Likewise for skips (of all tests, or of those that were started only) and fatal errors. -/
theorem C10_skips_and_fatal (ops : List Op) :
    let all := (createdIds ops).map (fun id => history id ops) ++ [globalHistory ops]
    (run ops).numSkipped = (all.filter (fun h => h.any (fun e => match e with | .skip _ => true | _ => false))).length ∧
    (run ops).numSkipped false = (all.filter (fun h => decide (REv.start ∈ h) &&
      h.any (fun e => match e with | .skip _ => true | _ => false))).length ∧
    ((run ops).hasFatal = true ↔ ∃ h ∈ all, REv.err true ∈ h ∨ REv.fail true ∈ h) := by
  intro all
  have hA : (run ops).allResults = all.map after := by
    simp only [allResults, testResults_eq, global_eq, all, List.map_append, List.map_cons, List.map_nil, List.map_map,
      Function.comp_def]
  have hskip : ∀ h : List REv, (after h).isSkip = h.any (fun e => match e with | .skip _ => true | _ => false) := by
    intro h
    rw [Bool.eq_iff_iff, isSkip_after, List.any_eq_true]
    constructor
    · rintro ⟨s, hs⟩; exact ⟨_, hs, rfl⟩
    · rintro ⟨e, he, h2⟩
      cases e <;> simp at h2
      exact ⟨_, he⟩
  refine ⟨?_, ?_, ?_⟩
  · simp only [numSkipped, count, if_true, hA, List.filter_map, List.length_map]
    congr 2
    funext h
    rw [Function.comp_apply, hskip]
  · simp only [numSkipped, count, if_true, Bool.false_eq_true, if_false, hA, List.filter_map, List.length_map]
    congr 2
    funext h
    have hs : (after h).isStarted = decide (REv.start ∈ h) := by rw [Bool.eq_iff_iff, isStarted_after, decide_eq_true_eq]
    rw [Function.comp_apply, isRunAndSkip, hskip, hs]
  · simp only [hasFatal, count, if_true, hA, bne_iff_ne, ne_eq, List.length_eq_zero_iff, List.filter_eq_nil_iff,
      List.mem_map, forall_exists_index, and_imp, forall_apply_eq_imp_iff₂, C09_fatal_iff]
    constructor
    · intro h
      apply Classical.byContradiction
      intro hc
      apply h
      intro a ha hb
      exact hc ⟨a, ha, hb⟩
    · rintro ⟨a, ha, hb⟩ h
      exact h a ha hb

/-- **C10.** A successful session has no errors and no failures; and no test is counted both as successful and as
erroneous, failed or not run. -/
theorem C10_success_means_no_errors (ops : List Op) (a : Bool) (h : (run ops).isSuccess a = true) :
    (run ops).numErrors = 0 ∧ (run ops).numFailures = 0 := by
  have hall : ∀ r ∈ (run ops).allResults, r.isSuccess a = true := by
    unfold isSuccess at h
    split at h
    · cases h
    · split at h
      · cases h
      · rename_i hg _
        intro r hr
        simp only [allResults, List.mem_append, List.mem_singleton] at hr
        rcases hr with hr | rfl
        · exact List.all_eq_true.1 h r hr
        · simpa using hg
  constructor
  · simp only [numErrors, count, if_true, List.length_eq_zero_iff, List.filter_eq_nil_iff]
    intro r hr
    rw [(C09_exclusive r a (hall r hr)).1]; simp
  · simp only [numFailures, count, if_true, List.length_eq_zero_iff, List.filter_eq_nil_iff]
    intro r hr
    rw [isJustFailure, (C09_exclusive r a (hall r hr)).2.1]; simp

theorem C10_disjoint (s : SessionResults) :
    s.numSuccessful + s.count Result.isError false + s.count Result.isJustFailure false + s.numNotRun
      ≤ s.tests.length := by
  simp only [numSuccessful, numNotRun, count, Bool.false_eq_true, if_false]
  have : s.tests.length = s.testResults.length := by simp [testResults]
  rw [this]
  induction s.testResults with
  | nil => simp
  | cons r rs ih =>
    simp only [List.filter_cons, List.length_cons]
    have hx := C09_exclusive r false
    cases h1 : r.isSuccessFinished <;> cases h2 : r.isError <;> cases h3 : r.isJustFailure <;> cases h4 : r.isNotRun <;>
      simp only [Bool.false_eq_true, if_false, if_true, List.length_cons] <;> try omega
    all_goals exfalso
    all_goals
      simp only [isSuccessFinished, isJustFailure, isNotRun, hasErrorsOrFailures, isError, isFailure, Result.isSuccess,
        isStarted, isFinished] at h1 h2 h3 h4
      revert h1 h2 h3 h4
      cases r.errors <;> cases r.failures <;> cases r.interrupted <;> cases r.skips <;> cases r.started <;>
        cases r.finished <;> simp

example : (run [.gev .start, .create 1, .ev 1 .start, .ev 1 .finish, .create 2, .ev 2 .start, .ev 2 (.skip "")]).isSuccess true = true
    ∧ (run [.gev .start, .create 1, .ev 1 .start, .ev 1 .finish, .create 2, .ev 2 .start, .ev 2 (.skip "")]).isSuccess false = false
    ∧ (run [.gev .start, .create 1, .ev 1 .start, .ev 1 (.err false)]).numErrors = 1 := by decide

/-! ## C57: an interrupted session says so -/

/-- **C57 is violated**: an interruption outside any test marks the global result, which `is_interrupted` of the
session ignores. -/
theorem C57_interrupted_session_violated :
    ∃ ops : List Op, .gev .interrupt ∈ ops ∧ (run ops).isInterrupted = false :=
  ⟨[.gev .start, .create 1, .ev 1 .start, .ev 1 .finish, .gev .interrupt], by decide⟩

/-- **C57, partial**: an interruption of a test is reported, and only then; and an interruption anywhere makes the
session unsuccessful. Missing: interruptions outside tests. -/
theorem C57_interrupted_session_partial (ops : List Op) :
    ((run ops).isInterrupted = true ↔ ∃ id, .create id ∈ ops ∧ .interrupt ∈ history id ops) ∧
    (.gev .interrupt ∈ ops → ∀ a, (run ops).isSuccess a = false) := by
  constructor
  · unfold isInterrupted
    rw [testResults_eq]
    simp only [List.any_map, List.any_eq_true, Function.comp_apply, isInterrupted_after, mem_createdIds]
  · intro h a
    rw [← Bool.not_eq_true, C10_session_success_iff]
    rintro ⟨h1, _, _⟩
    rw [C09_success_iff] at h1
    apply h1.2.2.1
    unfold globalHistory
    rw [List.mem_filterMap]
    exact ⟨_, h, rfl⟩

example : (run [.create 1, .ev 1 .start, .ev 1 .interrupt]).isInterrupted = true := by decide

end SessionResults
end Slash
