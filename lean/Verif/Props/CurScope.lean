import Verif.Model.CurScope
/-!
# What `get_current_scope` answers: C190
-/
namespace Slash.CurScope

open Slash.Scope (Sc Exn Out callAll TestRun)

/-! ## The answers while a test is run -/

/-- Answers within tests. -/
def InTest (l : List (Moment × Option Sc)) : Prop := ∀ p ∈ l, ∀ i, p.1 = .inTest i → p.2 = some .test

theorem InTest.ask {st : St} {m : Moment} (h : InTest st.seen) (hm : ∀ i, m = .inTest i → st.current = some .test) : InTest (ask m st).seen := by
  intro p hp i hi
  rcases List.mem_append.1 hp with hp | hp
  · exact h p hp i hi
  · rw [List.mem_singleton.1 hp] at hi ⊢; exact hm i hi

theorem callAll_keeps {σ : Type} {P : σ → Prop} (fs : List (σ → Option Exn × σ)) (hf : ∀ f ∈ fs, ∀ s, P s → P (f s).2) (p : Option Exn) (s : σ) (h : P s) : P (callAll fs p s).2 := by
  induction fs generalizing p s with
  | nil => exact h
  | cons f fs ih =>
    have h1 := hf f (by simp) s h
    have hr : ∀ g ∈ fs, ∀ s, P s → P (g s).2 := fun g hg => hf g (by simp [hg])
    simp only [callAll]
    split <;> rename_i heq <;> rw [heq] at h1
    · exact ih hr _ _ h1
    · split
      · exact ih hr _ _ h1
      · exact h1

theorem inTest_teardown (s : Sc) (o : Out) : ∀ f ∈ teardown s o, ∀ st : St, InTest st.seen → InTest (f st).2.seen := by
  intro f hf st h
  simp only [teardown, List.mem_cons, List.not_mem_nil, or_false] at hf
  rcases hf with rfl | rfl
  · exact h.ask (fun i hi => by cases hi)
  · exact h.ask (fun i hi => by cases hi)

theorem inTest_pop (s : Sc) (o : Out) {st : St} (h : InTest st.seen) : InTest (pop s o st).2.seen := by
  unfold pop
  split
  · exact h
  · split
    · exact h
    · exact callAll_keeps (P := fun st : St => InTest st.seen) _ (inTest_teardown s o) _ _ h

theorem beginTest_top (test module : Nat) (o : Out) {st st' : St} (h : beginTest test module o st = (none, st')) : st'.current = some .test ∧ st'.lastTest = some test := by
  unfold beginTest at h
  dsimp only at h
  generalize (if st.lastModule = none then push .session st else st) = v at h
  split at h
  · split at h
    · cases h
    · split at h
      · cases h
      · cases h; exact ⟨rfl, rfl⟩
  · cases h; exact ⟨rfl, rfl⟩

theorem inTest_begin (test module : Nat) (o : Out) {st : St} (h : InTest st.seen) : InTest (beginTest test module o st).2.seen := by
  have h0 : InTest (if st.lastModule = none then push .session st else st).seen := by split <;> exact h
  unfold beginTest
  dsimp only
  generalize (if st.lastModule = none then push .session st else st) = v at h0 ⊢
  split
  · have h1 : InTest (if v.lastModule ≠ none then pop .module o v else (none, v)).2.seen := by
      split
      · exact inTest_pop _ _ h0
      · exact h0
    split <;> rename_i heq <;> rw [heq] at h1
    · exact h1
    · split <;> exact h1
  · exact h0

theorem inTest_run (t : TestRun) {st : St} (h : InTest st.seen) : InTest (runTest t st).2.seen := by
  have h1 := inTest_begin t.id t.module t.moduleOut h
  unfold runTest
  split <;> rename_i heq
  · rw [heq] at h1; exact h1
  · rw [heq] at h1
    have h2 : InTest (ask (.inTest t.id) _).seen := InTest.ask h1 (fun _ _ => (beginTest_top _ _ _ heq).1)
    unfold endTest
    split
    · exact h2
    · exact inTest_pop _ _ h2

theorem inTest_loop (ts : List TestRun) {st : St} (h : InTest st.seen) : InTest (runTests ts st).seen := by
  induction ts generalizing st with
  | nil => exact h
  | cons t ts ih =>
    have h1 := inTest_run t h
    simp only [runTests]
    split <;> rename_i heq <;> rw [heq] at h1
    · split
      · exact ih (h1.ask (fun i hi => by cases hi))
      · exact h1
    · exact ih (h1.ask (fun i hi => by cases hi))

/-- **C190.** Hooks for the start of a test, fixtures being set up for it and its function get `test`, whatever happened in the session before. -/
theorem C190_in_test (ts : List TestRun) (os : Nat → Out) (i : Nat) (a : Option Sc) (h : (.inTest i, a) ∈ (session ts os).seen) : a = some .test := by
  have h0 : InTest (runTests ts (ask .sessionStart {})).seen :=
    inTest_loop ts (InTest.ask (st := {}) (fun p hp => by cases hp) (fun i hi => by cases hi))
  have h1 : InTest (cleanup os (runTests ts (ask .sessionStart {}))).seen := by
    unfold cleanup
    split
    · exact h0
    · refine callAll_keeps (P := fun st : St => InTest st.seen) _ ?_ _ _ (h0.ask (fun i hi => by cases hi))
      intro f hf st hs
      obtain ⟨p, -, rfl⟩ := List.mem_map.1 hf
      exact inTest_pop _ _ hs
  exact (h1.ask (fun i hi => by cases hi) : InTest (session ts os).seen) _ h i rfl

/-- after a module that could not be closed because of a skip, and an internal error -/
example : (session [⟨1, 0, {}, {}⟩, ⟨2, 1, { cleanups := some .skip }, {}⟩, ⟨3, 2, {}, {}⟩, ⟨4, 0, {}, {}⟩] (fun _ => {})).seen.filter (fun p => match p.1 with | .inTest _ => true | _ => false) =
    [(.inTest 1, some .test), (.inTest 4, some .test)] := by decide

/-! ## The answers elsewhere -/

/-- The scope around a scope. -/
def outer : Sc → Option Sc
  | .test => some .module
  | .module => some .session
  | .session => none

/-- What is to be answered. -/
def answer : Moment → Option Sc
  | .sessionStart => none
  | .inTest _ => some .test
  | .cleanups s => outer s
  | .fixtures s => outer s
  | .afterTest _ => some .module
  | .sessionCleanup => some .module
  | .sessionEnd => none

/-- All answers are as expected. -/
def Right (st : St) : Prop := ∀ p ∈ st.seen, p.2 = answer p.1

theorem Right.ask {st : St} {m : Moment} (h : Right st) (hm : st.current = answer m) : Right (ask m st) := by
  intro p hp
  rcases List.mem_append.1 hp with hp | hp
  · exact h p hp
  · rw [List.mem_singleton.1 hp]; exact hm

/-- The scopes around a scope. -/
def around : Sc → List Sc
  | .test => [.module, .session]
  | .module => [.session]
  | .session => []

theorem head_around (s : Sc) : (around s).head? = outer s := by cases s <;> rfl

/-- Between tests. -/
structure Idle (st : St) : Prop where
  scopes : st.lastModule = none ∧ st.scopes = [] ∨ st.lastModule ≠ none ∧ st.scopes = [.module, .session]
  right : Right st

theorem pop_right (s : Sc) (o : Out) {st : St} (h : Right st) (hs : st.scopes = s :: around s) :
    Right (pop s o st).2 ∧ (pop s o st).2.scopes = around s ∧ (pop s o st).2.lastModule = st.lastModule ∧ (o = {} → (pop s o st).1 = none) := by
  unfold pop
  rw [hs]
  simp only [ne_eq, not_true_eq_false, if_false]
  refine ⟨?_, ?_⟩
  · have : ∀ v : St, Right v ∧ v.scopes = around s → ∀ p, Right (callAll (teardown s o) p v).2 ∧ (callAll (teardown s o) p v).2.scopes = around s := by
      intro v hv p
      refine callAll_keeps (P := fun st : St => Right st ∧ st.scopes = around s) _ ?_ _ _ hv
      intro f hf st' h'
      have hc : st'.current = outer s := by unfold St.current; rw [h'.2, head_around]
      simp only [teardown, List.mem_cons, List.not_mem_nil, or_false] at hf
      rcases hf with rfl | rfl
      · exact ⟨h'.1.ask hc, h'.2⟩
      · exact ⟨h'.1.ask hc, h'.2⟩
    exact (this { st with scopes := around s } ⟨h, rfl⟩ none).1
  · have : ∀ v : St, v.scopes = around s ∧ v.lastModule = st.lastModule → ∀ p, (callAll (teardown s o) p v).2.scopes = around s ∧ (callAll (teardown s o) p v).2.lastModule = st.lastModule := by
      intro v hv p
      refine callAll_keeps (P := fun v : St => v.scopes = around s ∧ v.lastModule = st.lastModule) _ ?_ _ _ hv
      intro f hf st' h'
      simp only [teardown, List.mem_cons, List.not_mem_nil, or_false] at hf
      rcases hf with rfl | rfl <;> exact h'
    obtain ⟨h1, h2⟩ := this { st with scopes := around s } ⟨rfl, rfl⟩ none
    exact ⟨h1, h2, fun ho => by subst ho; rfl⟩

theorem begin_right (test module : Nat) {st : St} (h : Idle st) :
    ∃ st', beginTest test module {} st = (none, st') ∧ Right st' ∧ st'.scopes = .test :: around .test ∧ st'.lastModule = some module := by
  unfold beginTest
  rcases h.scopes with ⟨h1, h2⟩ | ⟨h1, h2⟩
  · have e : (if st.lastModule = none then push .session st else st) = push .session st := if_pos h1
    have e1 : (push .session st).lastModule = none := h1
    simp only [e, e1]
    refine ⟨_, rfl, h.right, ?_, rfl⟩
    simp [opened, push, h2, around]
  · have e : (if st.lastModule = none then push .session st else st) = st := if_neg h1
    simp only [e]
    by_cases hm : st.lastModule = some module
    · rw [if_neg (by simp [hm])]
      exact ⟨_, rfl, h.right, by simp [opened, push, h2, around], rfl⟩
    · rw [if_pos hm, if_pos h1]
      obtain ⟨p1, p2, p3, p4⟩ := pop_right .module {} h.right (by rw [h2]; rfl)
      rcases hq : pop .module {} st with ⟨o, v⟩
      rw [hq] at p1 p2 p3 p4
      have := p4 rfl
      dsimp only at this p1 p2 p3
      subst this
      have hc : v.current = some .session := by unfold St.current; rw [p2]; rfl
      dsimp only
      rw [if_neg (by rw [hc]; decide)]
      exact ⟨_, rfl, p1, by simp [opened, push, p2, around], rfl⟩

theorem run_right (t : TestRun) (hm : t.moduleOut = {}) {st : St} (h : Idle st) :
    Right (runTest t st).2 ∧ (runTest t st).2.scopes = [.module, .session] ∧ (runTest t st).2.lastModule ≠ none := by
  obtain ⟨v, h1, h2, h3, h4⟩ := begin_right t.id t.module h
  have hl := (beginTest_top _ _ _ h1).2
  unfold runTest
  rw [hm, h1]
  dsimp only
  have h5 : Right (ask (.inTest t.id) v) := h2.ask (by unfold St.current; rw [h3]; rfl)
  unfold endTest
  rw [if_neg (by show ¬ v.lastTest ≠ some t.id; simp [hl])]
  obtain ⟨p1, p2, p3, -⟩ := pop_right .test t.testOut h5 h3
  refine ⟨p1, p2, ?_⟩
  rw [p3]
  show v.lastModule ≠ none
  rw [h4]; simp

theorem loop_right (ts : List TestRun) (hm : ∀ t ∈ ts, t.moduleOut = {}) {st : St} (h : Idle st) : Idle (runTests ts st) := by
  induction ts generalizing st with
  | nil => exact h
  | cons t ts ih =>
    obtain ⟨h1, h2, h3⟩ := run_right t (hm t (by simp)) h
    have hr : ∀ t ∈ ts, t.moduleOut = {} := fun x hx => hm x (by simp [hx])
    simp only [runTests]
    split <;> rename_i heq <;> rw [heq] at h1 h2 h3
    · split
      · exact ih hr ⟨.inr ⟨h3, h2⟩, h1.ask (by unfold St.current; rw [h2]; rfl)⟩
      · exact ⟨.inr ⟨h3, h2⟩, h1⟩
    · exact ih hr ⟨.inr ⟨h3, h2⟩, h1.ask (by unfold St.current; rw [h2]; rfl)⟩

theorem flush_right (os : Nat → Out) {st : St} (h : Right st) (hs : st.scopes = [.module, .session]) :
    Right (flush os st).2 ∧ ((∀ k, (os 0).cleanups = some k ∨ (os 0).fixtures = some k → k.isException = true) → (flush os st).2.scopes = []) := by
  unfold flush
  rw [hs]
  obtain ⟨p1, p2, -, -⟩ := pop_right .module (os 0) h (by rw [hs]; rfl)
  have hx : ∀ e, (pop .module (os 0) st).1 = some e → (∀ k, (os 0).cleanups = some k ∨ (os 0).fixtures = some k → k.isException = true) → e.isException = true := by
    intro e he hk
    revert he
    unfold pop
    rw [hs]
    simp only [ne_eq, not_true_eq_false, if_false, teardown, callAll]
    rcases hc : (os 0).cleanups with _ | a <;> rcases hf : (os 0).fixtures with _ | b <;> simp only [Option.map]
    · intro he; cases he
    · have hb := hk b (.inr hf)
      have : Exn.isException (.user b) = true := hb
      simp only [this, if_true]
      intro he; cases he; exact this
    · have ha := hk a (.inl hc)
      have : Exn.isException (.user a) = true := ha
      simp only [this, if_true]
      intro he; cases he; exact this
    · have ha := hk a (.inl hc)
      have hb := hk b (.inr hf)
      have h1 : Exn.isException (.user a) = true := ha
      have h2 : Exn.isException (.user b) = true := hb
      simp only [h1, h2, if_true]
      intro he; cases he; exact h2
  simp only [List.zipIdx, List.map, callAll]
  rcases hq : pop .module (os 0) st with ⟨o, v⟩
  rw [hq] at p1 p2 hx
  obtain ⟨q1, q2, -, -⟩ := pop_right .session (os 1) p1 (by dsimp only at p2; rw [p2]; rfl)
  rw [show (0 : Nat) + 1 = 1 from rfl]
  rcases hw : pop .session (os 1) v with ⟨o', w⟩
  rw [hw] at q1 q2
  have hz : ∀ e : Exn, (if e.isException then (some e, w) else (some e, w) : Option Exn × St) = (some e, w) := by intro e; split <;> rfl
  rcases o with _ | e
  · dsimp only
    rw [hw]
    rcases o' with _ | e'
    · exact ⟨q1, fun _ => q2⟩
    · dsimp only; rw [hz]; exact ⟨q1, fun _ => q2⟩
  · dsimp only
    by_cases he : e.isException = true
    · rw [if_pos he, hw]
      rcases o' with _ | e'
      · exact ⟨q1, fun _ => q2⟩
      · dsimp only; rw [hz]; exact ⟨q1, fun _ => q2⟩
    · rw [if_neg he]; exact ⟨p1, fun hk => absurd (hx e rfl hk) he⟩

theorem idle_start : Idle (ask .sessionStart {}) := ⟨.inl ⟨rfl, rfl⟩, by intro p hp; rw [List.mem_singleton.1 hp]; rfl⟩

/-- **C190.** If closing a module before the next one raises nothing, and closing the last one is not interrupted: hooks for the start and the end of the session get `None`; within a test the answer is `test`;
hooks for the outcome and the end of a test, and before the session is cleaned up, get `module`; and cleanups and fixtures being torn down get the scope *around* the one they belong to: those of a test get
`module`, those of a module `session`, and those of the session `None`. -/
theorem C190_answers_partial (ts : List TestRun) (os : Nat → Out) (hm : ∀ t ∈ ts, t.moduleOut = {})
    (ho : ∀ k, (os 0).cleanups = some k ∨ (os 0).fixtures = some k → k.isException = true) :
    ∀ p ∈ (session ts os).seen, p.2 = answer p.1 := by
  have h := loop_right ts hm idle_start
  have hc : Right (cleanup os (runTests ts (ask .sessionStart {}))) ∧ (cleanup os (runTests ts (ask .sessionStart {}))).scopes = [] := by
    unfold cleanup
    rcases h.scopes with ⟨-, h2⟩ | ⟨-, h2⟩
    · rw [if_pos h2]; exact ⟨h.right, h2⟩
    · rw [if_neg (by rw [h2]; simp)]
      obtain ⟨r1, r2⟩ := flush_right os (h.right.ask (m := .sessionCleanup) (by unfold St.current; rw [h2]; rfl)) h2
      exact ⟨r1, r2 ho⟩
  exact hc.1.ask (by unfold St.current; rw [hc.2]; rfl)

example : (session [⟨1, 0, {}, { cleanups := some .error }⟩, ⟨2, 1, {}, {}⟩] (fun _ => { fixtures := some .failure })).seen =
    [(.sessionStart, none), (.inTest 1, some .test), (.cleanups .test, some .module), (.fixtures .test, some .module), (.afterTest 1, some .module),
     (.cleanups .module, some .session), (.fixtures .module, some .session), (.inTest 2, some .test), (.cleanups .test, some .module), (.fixtures .test, some .module),
     (.afterTest 2, some .module), (.sessionCleanup, some .module), (.cleanups .module, some .session), (.fixtures .module, some .session), (.cleanups .session, none),
     (.fixtures .session, none), (.sessionEnd, none)] := by decide

/-! ## The scopes are those of `Verif.Model.Scope` -/

/-- What is closed when user code asks. -/
def closing : Moment × Option Sc → Option Scope.Ev
  | (.cleanups s, _) => some (.popCleanups s)
  | (.fixtures s, _) => some (.popFixtures s)
  | _ => none

/-- What is closed at an event of `Verif.Model.Scope`. -/
def closed : Scope.Ev → Option Scope.Ev
  | .push _ => none
  | e => some e

/-- The states of the two models agree. -/
structure Agree (c : St) (v : Scope.St) : Prop where
  scopes : c.scopes = v.scopes
  lastModule : c.lastModule = v.lastModule
  lastTest : c.lastTest = v.lastTest
  log : c.seen.filterMap closing = v.trace.filterMap closed

theorem Agree.push {c : St} {v : Scope.St} (h : Agree c v) (s : Sc) : Agree (push s c) (Scope.pushScope s v) :=
  ⟨by simp [CurScope.push, Scope.pushScope, h.scopes], h.lastModule, h.lastTest, by simp [CurScope.push, Scope.pushScope, closed, h.log]⟩

theorem Agree.ask {c : St} {v : Scope.St} (h : Agree c v) (m : Moment) (hm : ∀ a, closing (m, a) = none) : Agree (ask m c) v :=
  ⟨h.scopes, h.lastModule, h.lastTest, by simp [CurScope.ask, hm, h.log]⟩

/-- Agreeing results. -/
def Same (x : Option Exn × St) (y : Option Exn × Scope.St) : Prop := x.1 = y.1 ∧ Agree x.2 y.2

/-- Functions that agree pairwise. -/
inductive Pairs : List (St → Option Exn × St) → List (Scope.St → Option Exn × Scope.St) → Prop
  | nil : Pairs [] []
  | cons {f g fs gs} (h : ∀ c v, Agree c v → Same (f c) (g v)) (t : Pairs fs gs) : Pairs (f :: fs) (g :: gs)

theorem callAll_agree (fs : List (St → Option Exn × St)) (gs : List (Scope.St → Option Exn × Scope.St)) (hl : Pairs fs gs)
    (p : Option Exn) {c : St} {v : Scope.St} (h : Agree c v) : Same (callAll fs p c) (callAll gs p v) := by
  induction hl generalizing p c v with
  | nil => exact ⟨rfl, h⟩
  | @cons f g fs gs hfg _ ih =>
    obtain ⟨h1, h2⟩ := hfg c v h
    simp only [callAll]
    rcases hf : f c with ⟨o, c'⟩
    rcases hg : g v with ⟨o', v'⟩
    rw [hf, hg] at h1 h2
    dsimp only at h1 h2
    subst h1
    cases o with
    | none => exact ih _ h2
    | some e =>
      dsimp only
      split
      · exact ih _ h2
      · exact ⟨rfl, h2⟩

theorem pop_agree (s : Sc) (o : Out) {c : St} {v : Scope.St} (h : Agree c v) : Same (pop s o c) (Scope.popScope s o v) := by
  unfold pop Scope.popScope
  have hs := h.scopes
  rcases hc : c.scopes with _ | ⟨popped, rest⟩ <;> rw [hc] at hs <;> rw [← hs]
  · exact ⟨rfl, h⟩
  · dsimp only
    have h' : Agree { c with scopes := rest } { v with scopes := rest } := ⟨rfl, h.lastModule, h.lastTest, h.log⟩
    split
    · exact ⟨rfl, h'⟩
    · refine callAll_agree _ _ ?_ _ h'
      refine .cons ?_ (.cons ?_ .nil)
      · intro c v h
        exact ⟨rfl, h.scopes, h.lastModule, h.lastTest, by simp [ask, closing, closed, h.log]⟩
      · intro c v h
        exact ⟨rfl, h.scopes, h.lastModule, h.lastTest, by simp [ask, closing, closed, h.log]⟩

theorem opened_agree (test module : Nat) {c : St} {v : Scope.St} (h : Agree c v) :
    Agree (opened test module c) { Scope.pushScope .test { v with lastModule := some module } with lastTest := some test } := by
  have h1 : Agree { c with lastModule := some module } { v with lastModule := some module } := ⟨h.scopes, rfl, h.lastTest, h.log⟩
  have h2 := h1.push .test
  exact ⟨h2.scopes, h2.lastModule, rfl, h2.log⟩

theorem begin_agree (test module : Nat) (o : Out) {c : St} {v : Scope.St} (h : Agree c v) : Same (beginTest test module o c) (Scope.beginTest test module o v) := by
  unfold beginTest Scope.beginTest
  have h0 : Agree (if c.lastModule = none then push .session c else c) (if v.lastModule = none then Scope.pushScope .session v else v) := by
    rw [h.lastModule]
    split
    · exact h.push _
    · exact h
  dsimp only
  generalize (if c.lastModule = none then push .session c else c) = c at h0 ⊢
  generalize (if v.lastModule = none then Scope.pushScope .session v else v) = v at h0 ⊢
  rw [h0.lastModule]
  split
  · have h1 : Same (if v.lastModule ≠ none then pop .module o c else (none, c)) (if v.lastModule ≠ none then Scope.popScope .module o v else (none, v)) := by
      split
      · exact pop_agree _ _ h0
      · exact ⟨rfl, h0⟩
    generalize (if v.lastModule ≠ none then pop .module o c else (none, c)) = x at h1 ⊢
    generalize (if v.lastModule ≠ none then Scope.popScope .module o v else (none, v)) = y at h1 ⊢
    obtain ⟨x1, c'⟩ := x
    obtain ⟨y1, v'⟩ := y
    obtain ⟨h1, h2⟩ := h1
    dsimp only at h1 h2
    subst h1
    cases x1 with
    | some e => exact ⟨rfl, h2⟩
    | none =>
      dsimp only
      rw [show c'.current = v'.scopes.head? by unfold St.current; rw [h2.scopes]]
      split
      · exact ⟨rfl, h2⟩
      · exact ⟨rfl, opened_agree _ _ (h2.push _)⟩
  · exact ⟨rfl, opened_agree _ _ h0⟩

theorem run_agree (t : TestRun) {c : St} {v : Scope.St} (h : Agree c v) : Same (runTest t c) (Scope.runTest t v) := by
  unfold runTest Scope.runTest
  have h1 := begin_agree t.id t.module t.moduleOut h
  generalize beginTest t.id t.module t.moduleOut c = x at h1 ⊢
  generalize Scope.beginTest t.id t.module t.moduleOut v = y at h1 ⊢
  obtain ⟨x1, c'⟩ := x
  obtain ⟨y1, v'⟩ := y
  obtain ⟨h1, h2⟩ := h1
  dsimp only at h1 h2
  subst h1
  cases x1 with
  | some e => exact ⟨rfl, h2⟩
  | none =>
    have h3 := h2.ask (.inTest t.id) (fun _ => rfl)
    dsimp only
    unfold endTest Scope.endTest
    rw [h3.lastTest]
    split
    · exact ⟨rfl, h3⟩
    · exact pop_agree _ _ h3

theorem loop_agree (ts : List TestRun) {c : St} {v : Scope.St} (h : Agree c v) : Agree (runTests ts c) (Scope.runTests ts v) := by
  induction ts generalizing c v with
  | nil => exact h
  | cons t ts ih =>
    have h1 := run_agree t h
    simp only [runTests, Scope.runTests]
    generalize runTest t c = x at h1 ⊢
    generalize Scope.runTest t v = y at h1 ⊢
    obtain ⟨x1, c'⟩ := x
    obtain ⟨y1, v'⟩ := y
    obtain ⟨h1, h2⟩ := h1
    dsimp only at h1 h2
    subst h1
    have h3 := h2.ask (.afterTest t.id) (fun _ => rfl)
    cases x1 with
    | none => exact ih h3
    | some e =>
      dsimp only
      split
      · exact ih h3
      · exact h2

/-- **C190.** User code that asks while scopes are closed is called exactly as scopes are closed in the model of the scope manager (C05), in this order, and the scopes that are open in the end
are the same, whatever is raised. -/
theorem C190_closings (ts : List TestRun) (os : Nat → Out) :
    (session ts os).seen.filterMap closing = (Scope.session ts os).2.trace.filterMap closed ∧ (session ts os).scopes = (Scope.session ts os).2.scopes := by
  have h : Agree (runTests ts (ask .sessionStart {})) (Scope.runTests ts {}) := loop_agree ts ⟨rfl, rfl, rfl, rfl⟩
  have h1 : Agree (cleanup os (runTests ts (ask .sessionStart {}))) (Scope.session ts os).2 := by
    unfold cleanup Scope.session
    split
    · rename_i he
      have : Scope.flush os (Scope.runTests ts {}) = (none, Scope.runTests ts {}) := by
        unfold Scope.flush
        rw [← h.scopes, he]; rfl
      rw [this]; exact h
    · have h2 := h.ask .sessionCleanup (fun _ => rfl)
      unfold flush Scope.flush
      rw [h2.scopes]
      refine (callAll_agree _ _ ?_ none h2).2
      generalize (Scope.runTests ts {}).scopes.zipIdx = l
      induction l with
      | nil => exact .nil
      | cons p l ih => exact .cons (fun c v hc => pop_agree _ _ hc) ih
  have h2 := h1.ask .sessionEnd (fun _ => rfl)
  exact ⟨h2.log, h2.scopes⟩

example : (session [⟨1, 0, {}, { cleanups := some .interrupt }⟩, ⟨2, 1, {}, {}⟩] (fun _ => { fixtures := some .failure })).seen.filterMap closing =
    [.popCleanups .test, .popCleanups .module, .popFixtures .module, .popCleanups .session, .popFixtures .session] := by decide

/-- **C190 is violated** for cleanups: a cleanup of a scope is told that the scope is another one than its own, already in the simplest session. -/
theorem C190_cleanup_violated : (.cleanups .test, some .module) ∈ (session [⟨1, 0, {}, {}⟩] (fun _ => {})).seen ∧
    (.cleanups .session, none) ∈ (session [⟨1, 0, {}, {}⟩] (fun _ => {})).seen := by decide

/-- **C190 is violated** when closing a module raised a skip: the next test of a known module runs with a scope of the test alone, so its end is told that there is no scope. -/
theorem C190_lost_violated : (.afterTest 4, none) ∈
    (session [⟨1, 0, {}, {}⟩, ⟨2, 1, { cleanups := some .skip }, {}⟩, ⟨3, 2, {}, {}⟩, ⟨4, 0, {}, {}⟩] (fun _ => {})).seen := by decide

end Slash.CurScope
