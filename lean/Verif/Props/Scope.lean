import Verif.Model.Scope
/-!
# C05, C06: nesting of scopes
-/
namespace Slash.Scope

/-! ## C06 -/

/-- **C06.** Closing the innermost scope always tears down its cleanups, and - unless that was cut short by an
interruption (or another non-ordinary exception) - its fixtures too, whatever ordinary exception the
first raised. -/
theorem C06_both_mechanisms (s : Sc) (rest : List Sc) (o : Out) (st : St) (h : st.scopes = s :: rest) :
    (popScope s o st).2.scopes = rest ∧
    (popScope s o st).2.trace = st.trace ++ (if (o.cleanups.all (·.isException)) = true
      then [.popCleanups s, .popFixtures s] else [.popCleanups s]) := by
  obtain ⟨c, f⟩ := o
  rw [popScope, h]
  simp only [ne_eq, not_true, if_false, teardown, callAll]
  rcases c with _ | c <;> rcases f with _ | f
  · simp
  · cases f <;> simp [Exn.isException, Kind.isException]
  · cases c <;> simp [Exn.isException, Kind.isException]
  · cases c <;> cases f <;> simp [Exn.isException, Kind.isException]

/-- **C06.** If either raised, one of the raised exceptions propagates; an interruption takes precedence; if none
raised, nothing does. -/
theorem C06_exception_propagates (s : Sc) (rest : List Sc) (o : Out) (st : St) (h : st.scopes = s :: rest) :
    ((popScope s o st).1 = none ↔ o.cleanups = none ∧ o.fixtures = none) ∧
    (∀ e, (popScope s o st).1 = some e → e = .user (o.cleanups.getD .error) ∧ o.cleanups ≠ none ∨
      e = .user (o.fixtures.getD .error) ∧ o.fixtures ≠ none) ∧
    (∀ k, k.isException = false → o.cleanups = some k → (popScope s o st).1 = some (.user k)) := by
  obtain ⟨c, f⟩ := o
  rw [popScope, h]
  simp only [ne_eq, not_true, if_false, teardown, callAll]
  rcases c with _ | c <;> rcases f with _ | f
  · simp
  · cases f <;> simp [Exn.isException, Kind.isException]
  · cases c <;> simp [Exn.isException, Kind.isException] <;> intro k <;> cases k <;> simp
  · cases c <;> cases f <;> simp [Exn.isException, Kind.isException] <;> intro k <;> cases k <;> simp

/-- **C06**, for the helper in general: as long as only ordinary exceptions are raised every function is called, in
order, ... -/
theorem C06_call_all {σ : Type} (fs : List (σ → Option Exn × σ)) (st : σ) (p : Option Exn)
    (hf : ∀ f ∈ fs, ∀ s e, (f s).1 = some e → e.isException = true) :
    (callAll fs p st).2 = fs.foldl (fun s f => (f s).2) st := by
  induction fs generalizing st p with
  | nil => rfl
  | cons f fs ih =>
    simp only [callAll, List.foldl_cons]
    have h1 := hf f (by simp) st
    rcases hfs : f st with ⟨_ | e, st'⟩
    · simp only [hfs]; exact ih st' p (fun g hg => hf g (by simp [hg]))
    · rw [hfs] at h1
      simp only [h1 e rfl, if_true]
      exact ih st' _ (fun g hg => hf g (by simp [hg]))

theorem callAll_pending {σ : Type} (fs : List (σ → Option Exn × σ)) (st : σ) (p : Option Exn)
    (hf : ∀ f ∈ fs, ∀ s e, (f s).1 = some e → e.isException = true) :
    ((∀ pre f post, fs = pre ++ f :: post → (f (pre.foldl (fun s f => (f s).2) st)).1 = none) ∧ (callAll fs p st).1 = p) ∨
    ∃ pre f post e, fs = pre ++ f :: post ∧ (f (pre.foldl (fun s f => (f s).2) st)).1 = some e ∧ (callAll fs p st).1 = some e := by
  induction fs generalizing st p with
  | nil => exact .inl ⟨fun pre f post h => by simp at h, rfl⟩
  | cons g fs ih =>
    simp only [callAll]
    have h1 := hf g (by simp) st
    rcases hg : g st with ⟨_ | e, st'⟩
    · rcases ih st' p (fun f hx => hf f (by simp [hx])) with ⟨h2, h3⟩ | ⟨pre, f, post, e, h2, h3, h4⟩
      · refine .inl ⟨?_, by simpa using h3⟩
        intro pre f post h
        cases pre with
        | nil => simp only [List.nil_append, List.cons.injEq] at h; rw [← h.1]; simp [hg]
        | cons a pre =>
          simp only [List.cons_append, List.cons.injEq] at h
          obtain ⟨rfl, h⟩ := h
          simpa [hg] using h2 pre f post h
      · exact .inr ⟨g :: pre, f, post, e, by simp [h2], by simpa [hg] using h3, by simpa using h4⟩
    · rw [hg] at h1
      simp only [h1 e rfl, if_true]
      rcases ih st' (some e) (fun f hx => hf f (by simp [hx])) with ⟨-, h3⟩ | ⟨pre, f, post, e', h2, h3, h4⟩
      · exact .inr ⟨[], g, fs, e, rfl, by simp [hg], h3⟩
      · exact .inr ⟨g :: pre, f, post, e', by simp [h2], by simpa [hg] using h3, h4⟩

/-- **C06** ... and something is raised iff one of them raised; what is raised is what one of them raised. -/
theorem C06_call_all_raises {σ : Type} (fs : List (σ → Option Exn × σ)) (st : σ)
    (hf : ∀ f ∈ fs, ∀ s e, (f s).1 = some e → e.isException = true) :
    ((callAll fs none st).1 = none ↔ ∀ pre f post, fs = pre ++ f :: post → (f (pre.foldl (fun s f => (f s).2) st)).1 = none) ∧
    ∀ e, (callAll fs none st).1 = some e → ∃ pre f post, fs = pre ++ f :: post ∧ (f (pre.foldl (fun s f => (f s).2) st)).1 = some e := by
  rcases callAll_pending fs st none hf with ⟨h1, h2⟩ | ⟨pre, f, post, e, h1, h2, h3⟩
  · rw [h2]
    exact ⟨⟨fun _ => h1, fun _ => rfl⟩, nofun⟩
  · rw [h3]
    refine ⟨⟨nofun, fun h => ?_⟩, ?_⟩
    · rw [h pre f post h1] at h2; cases h2
    · rintro e' ⟨⟩
      exact ⟨pre, f, post, h1, h2⟩

/-- three functions, of which the first and the second raise; all are called, and what the second raised is raised -/
example : callAll [fun n : Nat => (some (.user .error), n + 1), fun n => (some (.user .failure), n + 10), fun n => (none, n + 100)] none 0 =
    (some (.user .failure), 111) := by decide

example : popScope .test { cleanups := some .error, fixtures := some .failure } { scopes := [.test, .module] } =
    (some (.user .failure), { scopes := [.module], trace := [.popCleanups .test, .popFixtures .test] }) := by decide
example : popScope .test { cleanups := some .interrupt } { scopes := [.test, .module] } =
    (some (.user .interrupt), { scopes := [.module], trace := [.popCleanups .test] }) := by decide

/-! ## C05 -/

/-- Maximal runs of consecutive tests of one module. -/
def groups : List TestRun → List (List TestRun)
  | [] => []
  | t :: ts => match groups ts with
    | [] => [[t]]
    | [] :: gs => [t] :: gs
    | (u :: g) :: gs => if u.module = t.module then (t :: u :: g) :: gs else [t] :: (u :: g) :: gs

/-- the observable opening and closing of scopes; the closing of a scope is the teardown of its cleanups -/
inductive Br where
  | openS (s : Sc) | closeS (s : Sc)
deriving DecidableEq, Repr

/-- What the user expects: one session scope around everything, one module scope around each maximal run, one test
scope per test. -/
def expected (ts : List TestRun) : List Br :=
  if ts = [] then [] else
  [.openS .session] ++ (groups ts).flatMap (fun g =>
    [.openS .module] ++ g.flatMap (fun _ => [.openS .test, .closeS .test]) ++ [.closeS .module]) ++
  [.closeS .session]

/-- observable brackets of a trace -/
def brackets (tr : List Ev) : List Br :=
  tr.filterMap (fun e => match e with | .push s => some (.openS s) | .popCleanups s => some (.closeS s) | .popFixtures _ => none)

/-- **C05 is violated** if teardown of a module scope raises a skip (e.g. `slash.skip_test` in a module cleanup):
the next test does not get a scope, and the one after that destroys the session scope: the third test of this run
never gets its module and test scopes. -/
theorem C05_nesting_violated :
    ∃ (ts : List TestRun) (os : Nat → Out),
      (∀ t ∈ ts, (∀ k, t.moduleOut.cleanups = some k → k = .skip) ∧ t.moduleOut.fixtures = none ∧
        t.testOut = {}) ∧ (∀ i, os i = {}) ∧
      brackets (session ts os).2.trace =
        [.openS .session, .openS .module, .openS .test, .closeS .test, .closeS .module] ∧
      expected ts = [.openS .session, .openS .module, .openS .test, .closeS .test, .closeS .module,
        .openS .module, .openS .test, .closeS .test, .closeS .module,
        .openS .module, .openS .test, .closeS .test, .closeS .module, .closeS .session] :=
  ⟨[{ id := 1, module := 1 }, { id := 2, module := 2, moduleOut := { cleanups := some .skip } }, { id := 3, module := 3 }],
   fun _ => {}, by
    refine ⟨?_, fun _ => rfl, by decide, by decide⟩
    intro t ht
    simp only [List.mem_cons, List.not_mem_nil, or_false] at ht
    rcases ht with rfl | rfl | rfl <;> simp⟩

/-- **C05 is violated** by a second run in the same session: the manager does not forget the last module when the
scopes are flushed, so the second run does not get session and module scopes. -/
theorem C05_second_run_violated :
    ∃ (t : TestRun) (os : Nat → Out), (∀ i, os i = {}) ∧ t.moduleOut = {} ∧ t.testOut = {} ∧
      let st := (session [t] os).2
      st.scopes = [] ∧
      brackets ((session [t] os { st with trace := [] }).2.trace) = [.openS .test, .closeS .test] :=
  ⟨{ id := 1, module := 1 }, fun _ => {}, fun _ => rfl, rfl, rfl, by decide⟩

/-- tests actually run: up to and including the first whose test scope teardown is interrupted -/
def executed : List TestRun → List TestRun
  | [] => []
  | t :: ts => if (t.testOut.cleanups.all (·.isException) && t.testOut.fixtures.all (·.isException)) = true
      then t :: executed ts else [t]

/-- brackets still to come when the scopes of module `m` are open and no test is -/
def cont (m : Nat) : List TestRun → List Br
  | [] => [.closeS .module, .closeS .session]
  | t :: ts => (if t.module = m then [] else [.closeS .module, .openS .module]) ++ [.openS .test, .closeS .test] ++
      cont t.module ts

theorem expected_cons (t : TestRun) (ts : List TestRun) :
    expected (t :: ts) = [.openS .session, .openS .module, .openS .test, .closeS .test] ++ cont t.module ts := by
  have key : ∀ (ts : List TestRun) (t : TestRun), (∃ g gs, groups (t :: ts) = (t :: g) :: gs) ∧
      (groups (t :: ts)).flatMap (fun g => [Br.openS .module] ++ g.flatMap (fun _ => [.openS .test, .closeS .test]) ++ [.closeS .module])
        ++ [.closeS .session] = [.openS .module, .openS .test, .closeS .test] ++ cont t.module ts := by
    intro ts
    induction ts with
    | nil => intro t; exact ⟨⟨[], [], rfl⟩, rfl⟩
    | cons u us ih =>
      intro t
      obtain ⟨⟨g, gs, hg⟩, h2⟩ := ih u
      have hgr : groups (t :: u :: us) = if u.module = t.module then (t :: u :: g) :: gs else [t] :: (u :: g) :: gs := by
        rw [groups, hg]
      rw [hgr]
      by_cases hm : u.module = t.module
      · rw [if_pos hm]
        refine ⟨⟨_, _, rfl⟩, ?_⟩
        rw [hg] at h2
        simp only [List.flatMap_cons, List.append_assoc, List.cons_append, List.nil_append, List.cons.injEq,
          true_and] at h2 ⊢
        simp only [cont, hm, if_true, List.nil_append, List.cons_append]
        rw [h2, hm]
      · rw [if_neg hm]
        refine ⟨⟨_, _, rfl⟩, ?_⟩
        rw [hg] at h2
        simp only [List.flatMap_cons, List.append_assoc, List.cons_append, List.nil_append, List.flatMap_nil,
          List.cons.injEq, true_and] at h2 ⊢
        simp only [cont, hm, if_false, List.cons_append, List.nil_append]
        rw [h2]
  rw [expected, if_neg (by simp), List.append_assoc, (key ts t).2]
  rfl

theorem executed_cons_head (t : TestRun) (ts : List TestRun) : ∃ r, executed (t :: ts) = t :: r := by
  unfold executed; split <;> exact ⟨_, rfl⟩

theorem brackets_append (a b : List Ev) : brackets (a ++ b) = brackets a ++ brackets b := by
  simp [brackets]

/-- closing the open test scope -/
theorem endTest_eq (t : TestRun) (rest : List Sc) (st : St) (h1 : st.scopes = .test :: rest) (h2 : st.lastTest = some t.id) :
    (endTest t.id t.testOut st).2.scopes = rest ∧
    (endTest t.id t.testOut st).2.lastModule = st.lastModule ∧
    brackets (endTest t.id t.testOut st).2.trace = brackets st.trace ++ [.closeS .test] ∧
    ((∀ e, (endTest t.id t.testOut st).1 = some e → e.isException = true) ↔
      (t.testOut.cleanups.all (·.isException) && t.testOut.fixtures.all (·.isException)) = true) := by
  obtain ⟨id, m, mo, ⟨c, f⟩⟩ := t
  have h2' : ¬ (st.lastTest ≠ some id) := by simp [h2]
  unfold endTest
  simp only [h2, ne_eq, not_true, if_false, popScope, h1, teardown, callAll]
  rcases c with _ | c <;> rcases f with _ | f
  · simp [brackets]
  · cases f <;> simp [Exn.isException, Kind.isException, brackets]
  · cases c <;> simp [Exn.isException, Kind.isException, brackets]
  · cases c <;> cases f <;> simp [Exn.isException, Kind.isException, brackets]

/-- beginning a test when `[module, session]` are open -/
theorem beginTest_eq (t : TestRun) (st : St) (m : Nat) (h0 : t.moduleOut = {}) (h1 : st.scopes = [.module, .session])
    (h2 : st.lastModule = some m) :
    (beginTest t.id t.module t.moduleOut st).1 = none ∧
    (beginTest t.id t.module t.moduleOut st).2.scopes = [.test, .module, .session] ∧
    (beginTest t.id t.module t.moduleOut st).2.lastModule = some t.module ∧
    (beginTest t.id t.module t.moduleOut st).2.lastTest = some t.id ∧
    brackets (beginTest t.id t.module t.moduleOut st).2.trace =
      brackets st.trace ++ (if t.module = m then [] else [.closeS .module, .openS .module]) ++ [.openS .test] := by
  rw [h0]
  by_cases hm : t.module = m
  · simp [beginTest, h1, h2, hm, pushScope, brackets]
  · have hm' : ¬ m = t.module := fun h => hm h.symm
    simp [beginTest, h1, h2, hm, hm', pushScope, popScope, teardown, callAll, brackets]

/-- beginning the very first test -/
theorem beginTest_first (t : TestRun) :
    beginTest t.id t.module t.moduleOut {} =
      (none, { scopes := [.test, .module, .session], lastModule := some t.module, lastTest := some t.id,
               trace := [.push .session, .push .module, .push .test] }) := by
  simp [beginTest, pushScope]

/-- closing `[module, session]` -/
theorem flush_eq (os : Nat → Out) (st : St) (h : st.scopes = [.module, .session])
    (hos : ∀ i, (os i).cleanups.all (·.isException) = true ∧ (os i).fixtures.all (·.isException) = true) :
    (flush os st).2.scopes = [] ∧ brackets (flush os st).2.trace = brackets st.trace ++ [.closeS .module, .closeS .session] := by
  have hex : ∀ s (o : Out) (st : St), o.cleanups.all (·.isException) = true → o.fixtures.all (·.isException) = true →
      ∀ e, (popScope s o st).1 = some e → e.isException = true := by
    intro s o st h1 h2 e he
    cases hs : st.scopes with
    | nil => simp only [popScope, hs, Option.some.injEq] at he; subst he; rfl
    | cons p rest =>
      by_cases hp : p = s
      · subst hp
        rcases (C06_exception_propagates p rest o st hs).2.1 e he with ⟨rfl, hc⟩ | ⟨rfl, hc⟩
        · obtain ⟨k, hk⟩ := Option.ne_none_iff_exists'.1 hc
          rw [hk] at h1 ⊢; exact h1
        · obtain ⟨k, hk⟩ := Option.ne_none_iff_exists'.1 hc
          rw [hk] at h2 ⊢; exact h2
      · simp only [popScope, hs, ne_eq, hp, not_false_eq_true, if_true, Option.some.injEq] at he
        subst he; rfl
  unfold flush
  rw [h, C06_call_all]
  · simp only [List.zipIdx_cons, List.zipIdx_nil, List.map_cons, List.map_nil, List.foldl_cons, List.foldl_nil]
    have p1 := C06_both_mechanisms .module [.session] (os 0) st h
    have p2 := C06_both_mechanisms .session [] (os (0 + 1)) (popScope .module (os 0) st).2 p1.1
    rw [(hos 0).1] at p1
    rw [(hos (0 + 1)).1] at p2
    refine ⟨p2.1, ?_⟩
    rw [p2.2, p1.2]
    simp [brackets]
  · intro f hf s e he
    simp only [List.zipIdx_cons, List.zipIdx_nil, List.map_cons, List.map_nil, List.mem_cons, List.not_mem_nil, or_false] at hf
    rcases hf with rfl | rfl
    · exact hex _ _ _ (hos _).1 (hos _).2 e he
    · exact hex _ _ _ (hos _).1 (hos _).2 e he

/-- **C05, partial**: for every list of tests, whatever the closing of test scopes raises (including interruptions,
which end the run early) and whatever ordinary exceptions the final closing of module and session scopes raises, the
scopes are opened and closed exactly as expected for the tests that were run, and nothing stays open. Missing: closing
a module scope between two tests raising something (skips and interruptions are what cleanups can raise there), and
an interruption during the final flush; see the violations above. -/
theorem C05_nesting_partial (ts : List TestRun) (os : Nat → Out) (hm : ∀ t ∈ ts, t.moduleOut = {})
    (hos : ∀ i, (os i).cleanups.all (·.isException) = true ∧ (os i).fixtures.all (·.isException) = true) :
    brackets (session ts os).2.trace = expected (executed ts) ∧ (session ts os).2.scopes = [] := by
  have step : ∀ (ts : List TestRun) (st : St) (m : Nat), (∀ t ∈ ts, t.moduleOut = {}) →
      st.scopes = [.module, .session] → st.lastModule = some m →
      brackets (flush os (runTests ts st)).2.trace = brackets st.trace ++ cont m (executed ts) ∧
      (flush os (runTests ts st)).2.scopes = [] := by
    intro ts
    induction ts with
    | nil =>
      intro st m _ h1 h2
      exact ⟨(flush_eq os st h1 hos).2, (flush_eq os st h1 hos).1⟩
    | cons t ts ih =>
      intro st m hm h1 h2
      obtain ⟨b1, b2, b3, b4, b5⟩ := beginTest_eq t st m (hm t (by simp)) h1 h2
      obtain ⟨st1, hst1⟩ : ∃ st1, beginTest t.id t.module t.moduleOut st = (none, st1) :=
        ⟨_, Prod.ext b1 rfl⟩
      rw [hst1] at b2 b3 b4 b5
      obtain ⟨e1, e2, e3, e4⟩ := endTest_eq t [.module, .session] st1 b2 b4
      have hrun : runTest t st = endTest t.id t.testOut st1 := by simp [runTest, hst1]
      simp only [runTests, hrun]
      rcases he : endTest t.id t.testOut st1 with ⟨_ | e, st2⟩
      · rw [he] at e1 e2 e3 e4
        have hok := e4.1 (by intro e h; cases h)
        have := ih st2 t.module (fun t ht => hm t (by simp [ht])) e1 (by rw [← b3]; exact e2)
        simp only [executed, hok, if_true, cont]
        refine ⟨?_, this.2⟩
        rw [this.1, e3, b5]; simp
      · rw [he] at e1 e2 e3 e4
        by_cases hx : e.isException = true
        · have hok := e4.1 (by intro e' h; cases h; exact hx)
          have := ih st2 t.module (fun t ht => hm t (by simp [ht])) e1 (by rw [← b3]; exact e2)
          simp only [hx, if_true, executed, hok, cont]
          refine ⟨?_, this.2⟩
          rw [this.1, e3, b5]; simp
        · have hok : ¬ (t.testOut.cleanups.all (·.isException) && t.testOut.fixtures.all (·.isException)) = true := by
            intro h; exact hx (e4.2 h e rfl)
          simp only [hx, if_false, executed, hok, cont]
          have f := flush_eq os st2 e1 hos
          refine ⟨?_, f.1⟩
          simp only [Bool.false_eq_true, if_false, cont]
          rw [f.2, e3, b5]; simp
  cases ts with
  | nil => exact ⟨rfl, rfl⟩
  | cons t ts =>
    unfold session
    have hb := beginTest_first t
    obtain ⟨e1, e2, e3, e4⟩ := endTest_eq t [.module, .session]
      { scopes := [.test, .module, .session], lastModule := some t.module, lastTest := some t.id,
        trace := [.push .session, .push .module, .push .test] } rfl rfl
    have hrun : runTest t {} = endTest t.id t.testOut
      { scopes := [.test, .module, .session], lastModule := some t.module, lastTest := some t.id,
        trace := [.push .session, .push .module, .push .test] } := by simp [runTest, hb]
    simp only [runTests, hrun]
    rcases he : endTest t.id t.testOut _ with ⟨_ | e, st2⟩
    · rw [he] at e1 e2 e3 e4
      have hok := e4.1 (by intro e h; cases h)
      have := step ts st2 t.module (fun t ht => hm t (by simp [ht])) e1 e2
      simp only [executed, hok, if_true, expected_cons]
      refine ⟨?_, this.2⟩
      rw [this.1, e3]; rfl
    · rw [he] at e1 e2 e3 e4
      by_cases hx : e.isException = true
      · have hok := e4.1 (by intro e' h; cases h; exact hx)
        have := step ts st2 t.module (fun t ht => hm t (by simp [ht])) e1 e2
        simp only [hx, if_true, executed, hok, expected_cons]
        refine ⟨?_, this.2⟩
        rw [this.1, e3]; rfl
      · have hok : ¬ (t.testOut.cleanups.all (·.isException) && t.testOut.fixtures.all (·.isException)) = true := by
          intro h; exact hx (e4.2 h e rfl)
        simp only [hx, executed, hok, if_false, expected_cons]
        have f := flush_eq os st2 e1 hos
        refine ⟨?_, f.1⟩
        simp only [Bool.false_eq_true, if_false, expected_cons, cont]
        rw [f.2, e3]; rfl

/-- in the scope structure expected, the tests that are run are all of them unless a teardown is interrupted -/
theorem C05_all_tests_run (ts : List TestRun)
    (h : ∀ t ∈ ts, t.testOut.cleanups.all (·.isException) = true ∧ t.testOut.fixtures.all (·.isException) = true) :
    executed ts = ts := by
  induction ts with
  | nil => rfl
  | cons t ts ih =>
    have := h t (by simp)
    simp [executed, this.1, this.2, ih (fun t ht => h t (by simp [ht]))]

example : brackets (session [{ id := 1, module := 7 }, { id := 2, module := 7, testOut := { cleanups := some .error } },
      { id := 3, module := 8 }] (fun _ => { fixtures := some .error })).2.trace =
    [.openS .session, .openS .module, .openS .test, .closeS .test, .openS .test, .closeS .test, .closeS .module,
     .openS .module, .openS .test, .closeS .test, .closeS .module, .closeS .session] := by decide

end Slash.Scope
