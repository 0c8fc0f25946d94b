import Verif.Model.ExitCode
import Verif.Props.Runner
/-!
# Properties of the exit code (C47)
-/
namespace Slash.Exit

/-- SystemExit with a code that means success. -/
def Exc.Quiet (e : Exc) : Prop := ∃ c, e = .systemExit c ∧ c.status = 0

/-- Nothing raises SystemExit with a code that means success. -/
structure NoQuiet (i : Inp) : Prop where
  enter : ∀ e, i.enter = some e → ¬ e.Quiet
  callback : ∀ e, i.callback = some e → ¬ e.Quiet
  attempt : ∀ e, (attempt i).1 = some e → ¬ e.Quiet
  save : ∀ e, i.save = some e → ¬ e.Quiet
  exit : ∀ o e, i.exit o = some e → ¬ e.Quiet

/-- Nothing is raised anywhere. -/
structure Clean (i : Inp) : Prop where
  enter : i.enter = none
  callback : i.callback = none
  attempt : (attempt i).1 = none
  save : i.child = true ∨ i.save = none
  exit : i.exit none = none

theorem exitCodeOf_status (e : Exc) (h : ¬ e.Quiet) : (exitCodeOf e).status ≠ 0 := by
  cases e with
  | exception => simp [exitCodeOf, Code.status]
  | interruption => simp [exitCodeOf, Code.status]
  | systemExit c => exact fun hc => h ⟨c, rfl, hc⟩

/-- How the process ends, given what `with app` raised and the exit code. -/
def finish (r : Option Exc × Code) : Int :=
  match r with
  | (none, code) => code.status
  | (some .exception, code) => if code ≠ .int 0 then code.status else 1
  | (some (.systemExit c), _) => c.status
  | (some .interruption, _) => 1

theorem status_eq (i : Inp) : status i = finish (withApp i) := by
  unfold status slashRun finish
  generalize withApp i = r
  obtain ⟨e, c⟩ := r
  cases e with
  | none => rfl
  | some e =>
    cases e with
    | exception => simp only; split <;> (split <;> simp_all)
    | systemExit c => rfl
    | interruption => rfl

theorem finish_some (e : Exc) (code : Code) (he : ¬ e.Quiet) (hc : code = .int 0 ∨ code.status ≠ 0) : finish (some e, code) ≠ 0 := by
  cases e with
  | exception =>
    simp only [finish]
    split
    · next h => exact hc.resolve_left h
    · decide
  | systemExit c => exact fun h => he ⟨c, rfl, h⟩
  | interruption => simp [finish]

theorem appExit_bad (i : Inp) (h : NoQuiet i) (e : Exc) (he : ¬ e.Quiet) (code : Code) : finish (appExit i (some e) code) ≠ 0 := by
  unfold appExit
  have hs := exitCodeOf_status e he
  cases hx : i.exit (some e) with
  | none => exact hs
  | some x => exact finish_some x _ (h.exit _ x hx) (.inr hs)

/-- C47 (partial: if nothing raises SystemExit with a code that means success): the status is 0 iff nothing was raised
and the session is successful (skips are allowed). -/
theorem C47_zero_iff_partial (i : Inp) (h : NoQuiet i) :
    status i = 0 ↔ Clean i ∧ (attempt i).2.isSuccess true = true := by
  rw [status_eq]
  constructor
  · intro hz
    cases he : i.enter with
    | some e =>
      exfalso
      have hq := h.enter e he
      have hs := exitCodeOf_status e hq
      have : withApp i = (some ((i.exit (some e)).getD e), exitCodeOf e) := by simp [withApp, he, appExit]
      rw [this] at hz
      refine finish_some _ _ ?_ (.inr hs) hz
      cases hx : i.exit (some e) with
      | none => exact hq
      | some x => exact h.exit _ x hx
    | none =>
      have hw : withApp i = appExit i (body i).1 (body i).2 := by simp [withApp, he]
      rw [hw] at hz
      cases hb : (body i).1 with
      | some e =>
        exfalso
        rw [hb] at hz
        refine appExit_bad i h e ?_ _ hz
        unfold body at hb
        cases hc : i.callback with
        | some x => rw [hc] at hb; cases hb; exact h.callback _ hc
        | none =>
          rw [hc] at hb
          simp only at hb
          cases hs : (if i.child then none else i.save) with
          | some x =>
            rw [hs] at hb
            cases hb
            refine h.save _ ?_
            split at hs
            · cases hs
            · exact hs
          | none =>
            rw [hs] at hb
            cases ha : (attempt i).1 with
            | some x => rw [ha] at hb; cases hb; exact h.attempt _ ha
            | none => rw [ha] at hb; cases hb
      | none =>
        rw [hb] at hz
        unfold body at hb hz
        cases hc : i.callback with
        | some x => rw [hc] at hb; cases hb
        | none =>
          rw [hc] at hb hz
          simp only at hb hz
          cases hs : (if i.child then none else i.save) with
          | some x => rw [hs] at hb; cases hb
          | none =>
            rw [hs] at hb hz
            cases ha : (attempt i).1 with
            | some x => rw [ha] at hb; cases hb
            | none =>
              rw [ha] at hz
              simp only [Option.none_or, appExit] at hz
              cases hx : i.exit none with
              | some x =>
                exfalso
                rw [hx] at hz
                refine finish_some x _ (h.exit _ x hx) ?_ hz
                cases (attempt i).2.isSuccess true <;> simp [Code.status]
              | none =>
                rw [hx] at hz
                refine ⟨⟨he, hc, ha, ?_, hx⟩, ?_⟩
                · by_cases hch : i.child = true
                  · exact .inl hch
                  · rw [if_neg hch] at hs; exact .inr hs
                · cases hsu : (attempt i).2.isSuccess true with
                  | true => rfl
                  | false => rw [hsu] at hz; exact absurd hz (by decide)
  · rintro ⟨⟨h1, h2, h3, h4, h5⟩, hsu⟩
    have hs : (if i.child then none else i.save) = none := by
      rcases h4 with h4 | h4 <;> simp [h4]
    have hb : body i = (none, .int 0) := by simp [body, h2, h3, hs, hsu]
    have : withApp i = (none, .int 0) := by simp [withApp, h1, hb, appExit, h5]
    rw [this]; rfl

/-- A session with one successful test. -/
def exResults : SessionResults := { tests := [(1, { started := true, finished := true })], global := { started := true } }

example : NoQuiet { positional := [1], run := fun _ => (none, exResults) } ∧
    status { positional := [1], run := fun _ => (none, exResults) } = 0 := by
  refine ⟨⟨by simp, by simp, ?_, by simp, by simp⟩, by decide⟩
  intro e he
  have : (attempt { positional := [1], run := fun _ => (none, exResults) }).1 = none := by decide
  rw [this] at he; cases he

/-- C47: interruptions, exceptions and unsuccessful sessions give a nonzero status. -/
example : status { positional := [1], run := fun _ => (some .interruption, exResults) } ≠ 0 ∧
    status { positional := [1], run := fun _ => (none, { exResults with global := { started := true, errors := [{}] } }) } ≠ 0 ∧
    status { positional := [1], run := fun _ => (none, exResults), exit := fun _ => some .exception } ≠ 0 ∧
    status { positional := [1], run := fun _ => (none, exResults), save := some .exception } ≠ 0 ∧
    status { enter := some .exception, run := fun _ => (none, exResults) } ≠ 0 ∧
    status { run := fun _ => (none, exResults) } ≠ 0 := by decide

/-- C47: `slash run` (not resuming) runs something or fails: with nothing selected the status is not 0. -/
theorem C47_empty_selection_partial (i : Inp) (h : NoQuiet i) (hr : i.resume = none) (hz : status i = 0) :
    ∃ l, l ≠ [] ∧ collect i = .ok l ∧ attempt i = i.run l := by
  obtain ⟨hc, -⟩ := (C47_zero_iff_partial i h).1 hz
  have ha := hc.attempt
  unfold attempt at ha ⊢
  cases hp : i.prepare with
  | some e => rw [hp] at ha; cases ha
  | none =>
    rw [hp] at ha
    simp only at ha ⊢
    cases hcl : collect i with
    | error e => rw [hcl] at ha; cases ha
    | ok l =>
      refine ⟨l, ?_, rfl, rfl⟩
      rintro rfl
      rw [collect, hr] at hcl
      simp only [collectTests] at hcl
      repeat' split at hcl
      all_goals first | cases hcl | skip
      all_goals next hne => simp at hne

/-- C47: what is selected: the tests found at the paths of the command line and of the suite files; if there are none (and
the session is not interactive), at the default sources. -/
theorem C47_selection (i : Inp) (hr : i.resume = none) (l : List Nat) (h : collect i = .ok l) :
    ∃ fromSuites paths, i.suites = .ok fromSuites ∧ i.load paths i.interactive = .ok l ∧ l ≠ [] ∧
      (i.positional ≠ [] ∨ fromSuites ≠ [] ∨ i.interactive = true → paths = i.positional ++ fromSuites) ∧
      (i.positional = [] → fromSuites = [] → i.interactive = false → paths = i.defaults) ∧
      (i.interactive = false → paths ≠ []) := by
  rw [collect, hr] at h
  simp only [collectTests] at h
  cases hs : i.suites with
  | error e => rw [hs] at h; cases h
  | ok s =>
    rw [hs] at h
    simp only at h
    generalize hp : (if ((i.positional ++ s).isEmpty && !i.interactive) = true then i.defaults else i.positional ++ s) = paths at *
    split at h
    · cases h
    · rename_i hne
      cases hl : i.load paths i.interactive with
      | error e => rw [hl] at h; cases h
      | ok l' =>
        rw [hl] at h
        simp only at h
        split at h
        · cases h
        · rename_i hne'
          cases h
          refine ⟨s, paths, rfl, hl, by simpa using hne', ?_, ?_, ?_⟩
          · rintro (h | h | h) <;> rw [← hp, if_neg] <;> simp [h]
          · intro h1 h2 h3; rw [← hp, if_pos]; simp [h1, h2, h3]
          · intro h; simpa [h] using hne

/-- C47: with no path on the command line, in suite files or in the default sources, `slash run` fails. -/
theorem C47_no_paths_fails (i : Inp) (hr : i.resume = none) (h1 : i.positional = []) (h2 : i.suites = .ok [])
    (h3 : i.defaults = []) (h4 : i.interactive = false) : collect i = .error .exception := by
  simp [collect, hr, collectTests, h1, h2, h3, h4]

example : collect { positional := [4], suites := .ok [5], defaults := [9], load := fun l _ => .ok (l.map (· + 1)), run := fun _ => (none, {}) } = .ok [5, 6] ∧
    collect { defaults := [9], load := fun l _ => .ok (l.map (· + 1)), run := fun _ => (none, {}) } = .ok [10] := ⟨rfl, rfl⟩

/-- C47 is violated: a test that raises SystemExit with code 0 (or without a code) ends the run with status 0, though its
result has an error and other tests were not run. -/
theorem C47_system_exit_violated :
    ∃ i : Inp, status i = 0 ∧ (attempt i).1 ≠ none ∧ (attempt i).2.isSuccess true = false ∧ i.resume = none ∧
      collect i = .ok [1, 2] ∧ (attempt i).2.get 2 = none :=
  ⟨{ positional := [1, 2],
     run := fun _ => (some (.systemExit .none), { tests := [(1, { started := true, errors := [{}] })], global := { started := true } }) },
   by decide, by decide, by decide, rfl, rfl, by decide⟩

/-- That is what `run_tests` does with such a test: the exception leaves it, with the results of the witness above. -/
theorem C47_system_exit_run :
    let r := Runner.runTests {} [{ id := 1, file := 0, module := 0, body := { raises := some { kind := .other } } },
      { id := 2, file := 0, module := 0 }] Runner.started
    r.1.map (·.kind) = some .other ∧ (r.2.res.get 1).map (·.errors.length) = some 1 ∧ r.2.res.get 2 = none := by decide

/-- C47 is violated for `slash resume`: if there is nothing to resume, the status is 0 though no test was run. -/
theorem C47_resume_nothing_violated :
    ∃ i : Inp, NoQuiet i ∧ status i = 0 ∧ collect i = .ok [] :=
  ⟨{ resume := some (.ok []), run := fun _ => (none, { global := { started := true } }) },
   ⟨by simp, by simp, by simp [attempt, collect], by simp, by simp⟩, by decide, rfl⟩

/-- C47, together with the runner: if the tests are run by `run_tests` (what follows it may not change the results of
tests, and may raise), status 0 means that at least one test was selected and every selected test has a result which is
successful or skipped. -/
theorem C47_zero_means_passed_partial (i : Inp) (h : NoQuiet i) (hr : i.resume = none) (env : Runner.Env)
    (ts : List Nat → List Runner.T) (hts : ∀ l, (ts l).map (·.id) = l) (hf : ∀ l, Runner.Fresh (ts l) Runner.started)
    (hrun : ∀ l, (i.run l).2.tests = (Runner.runTests env (ts l)).2.res.tests ∧
      ((i.run l).1 = none → (Runner.runTests env (ts l)).1 = none))
    (hz : status i = 0) :
    ∃ l, l ≠ [] ∧ collect i = .ok l ∧
      ∀ id ∈ l, ∃ r, (i.run l).2.get id = some r ∧ r.isSuccess true = true := by
  obtain ⟨l, h1, h2, h3⟩ := C47_empty_selection_partial i h hr hz
  obtain ⟨hc, hs⟩ := (C47_zero_iff_partial i h).1 hz
  refine ⟨l, h1, h2, fun id hid => ?_⟩
  rw [h3] at hs
  have hn := (hrun l).2 (by rw [← h3]; exact hc.attempt)
  rw [← hts l] at hid
  obtain ⟨t, ht, rfl⟩ := List.mem_map.1 hid
  obtain ⟨r, hg, -⟩ := Runner.C12_all_have_results env (ts l) Runner.started (hf l) rfl hn t ht
  have hg' : (i.run l).2.get t.id = some r := by
    rw [← hg]; simp only [SessionResults.get, SessionResults.lookup, (hrun l).1]
  refine ⟨r, hg', ?_⟩
  have hall : ∀ r ∈ (i.run l).2.testResults, r.isSuccess true = true := by
    unfold SessionResults.isSuccess at hs
    split at hs
    · cases hs
    · split at hs
      · cases hs
      · exact List.all_eq_true.1 hs
  simp only [SessionResults.get, SessionResults.lookup, Option.map_eq_some_iff] at hg'
  obtain ⟨p, hp, rfl⟩ := hg'
  exact hall p.2 (List.mem_map.2 ⟨p, List.mem_of_find?_eq_some hp, rfl⟩)

end Slash.Exit
