import Verif.Lemmas.WholeRefine
/-! Whole sessions are runs of the runner model: closing and opening of scopes, one test. -/
namespace Slash.Whole

open Slash.Scope (Sc)
open Slash.Cleanup (RKey Reg St Exn)
open Slash.Result (REv)

/-! ## Scopes -/

/-- How exceptions of the scope manager count. -/
def kindOf : Scope.Exn → Kind
  | .user k => k
  | .assertion => .failure
  | _ => .error

/-- The exceptions of scope managers agree. -/
def ER : Option X → Option Scope.Exn → Prop
  | none, none => True
  | some x, some e => x.kind = kindOf e ∧ ((∃ k, e = .user k) ∨ x.handled = false)
  | _, _ => False

theorem kindOf_isException (e : Scope.Exn) : e.isException = (kindOf e).isException := by cases e <;> rfl

/-- closing a scope -/
theorem pop_tame (env : Env) (s : Sc) (hk : Option Kind) {w : W} (hg : Good w.tests w.cl) : Tame w (pop env s hk w).2 := by
  unfold pop
  split
  · exact Tame.refl hg
  · rename_i p rest hs
    split
    · exact ⟨rfl, rfl, rfl, rfl, Moved.refl hg⟩
    · have h0 : Tame w (emit (.closing s) { w with scopes := rest }) :=
        Tame.trans (b := { w with scopes := rest }) ⟨rfl, rfl, rfl, rfl, Moved.refl hg⟩ (tame_emit (w := { w with scopes := rest }) hg rfl)
      have h1 : Tame w (callBoth (clPop (scName s) hk) (fxPop env s) (emit (.closing s) { w with scopes := rest })).2 := by
        have h2 := h0.trans (tame_clPop h0.good (scName s) hk)
        unfold callBoth
        split <;> rename_i heq <;> rw [heq] at h2
        · exact h2.trans (tame_fxPop env s h2.good)
        · split
          · exact h2.trans (tame_fxPop env s h2.good)
          · exact h2
      split <;> rename_i heq <;> rw [heq] at h1
      · exact h1.trans (tame_emit h1.good rfl)
      · exact h1

theorem pop_sc (env : Env) (s : Sc) (hk : Option Kind) (w : W) : ∃ o : Scope.Out, ((pop env s hk w).1 = none → o = {}) ∧
    ∀ sc, ScSim w sc → ScSim (pop env s hk w).2 (Scope.popScope s o sc).2 ∧ ER (pop env s hk w).1 (Scope.popScope s o sc).1 := by
  unfold pop
  split
  · rename_i hs
    refine ⟨{}, fun _ => rfl, fun sc h => ?_⟩
    have : sc.scopes = [] := h.scopes.trans hs
    simp only [Scope.popScope, this]
    exact ⟨h, rfl, .inr rfl⟩
  · rename_i p rest hs
    split
    · rename_i hp
      refine ⟨{}, fun _ => rfl, fun sc h => ?_⟩
      have : sc.scopes = p :: rest := h.scopes.trans hs
      simp only [Scope.popScope, this, hp, ne_eq, not_false_eq_true, if_true]
      exact ⟨⟨rfl, h.lastModule, h.lastTest⟩, rfl, .inr rfl⟩
    · rename_i hp
      have hp : p = s := Decidable.of_not_not hp
      -- the exceptions of cleanups and of fixtures
      generalize hw0 : emit (.closing s) { w with scopes := rest } = w0
      have e0 : w0.scopes = rest ∧ w0.lastModule = w.lastModule ∧ w0.lastTest = w.lastTest := by subst hw0; exact ⟨rfl, rfl, rfl⟩
      have e1 : (clPop (scName s) hk w0).2.scopes = rest ∧ (clPop (scName s) hk w0).2.lastModule = w.lastModule ∧
          (clPop (scName s) hk w0).2.lastTest = w.lastTest := by rw [(clPop_fields _ _ _).1]; exact e0
      unfold callBoth
      generalize clPop (scName s) hk w0 = q at e1
      rcases q with ⟨x1, w1⟩
      have e2 : (fxPop env s w1).2.scopes = rest ∧ (fxPop env s w1).2.lastModule = w.lastModule ∧ (fxPop env s w1).2.lastTest = w.lastTest := by
        have := (fxPop_spec env s w1).1
        exact ⟨this.scopes.trans e1.1, this.lastModule.trans e1.2.1, this.lastTest.trans e1.2.2⟩
      simp only at e1
      have hpop : ∀ (o : Scope.Out) (sc : Scope.St), ScSim w sc → Scope.popScope s o sc = Scope.callAll (Scope.teardown s o) none { sc with scopes := rest } := by
        intro o sc h
        have : sc.scopes = p :: rest := h.scopes.trans hs
        simp only [Scope.popScope, this, hp, ne_eq, not_true_eq_false, if_false]
      cases x1 with
      | none =>
        simp only
        generalize fxPop env s w1 = q2 at e2
        rcases q2 with ⟨x2, w2⟩
        simp only at e2 ⊢
        cases x2 with
        | none =>
          refine ⟨{}, fun _ => rfl, fun sc h => ?_⟩
          rw [hpop _ _ h]
          exact ⟨⟨e2.1.symm, h.lastModule.trans e2.2.1.symm, h.lastTest.trans e2.2.2.symm⟩, trivial⟩
        | some y =>
          refine ⟨{ fixtures := some y.kind }, (fun h => by cases h), fun sc h => ?_⟩
          rw [hpop _ _ h]
          simp only [Scope.teardown, Scope.callAll, Option.map_none, Option.map_some]
          split
          all_goals exact ⟨⟨e2.1.symm, h.lastModule.trans e2.2.1.symm, h.lastTest.trans e2.2.2.symm⟩, rfl, .inl ⟨_, rfl⟩⟩
      | some x =>
        by_cases hx : x.kind.isException = true
        · simp only [hx, if_true]
          generalize fxPop env s w1 = q2 at e2
          rcases q2 with ⟨x2, w2⟩
          simp only at e2 ⊢
          cases x2 with
          | none =>
            refine ⟨{ cleanups := some x.kind }, (fun h => by cases h), fun sc h => ?_⟩
            rw [hpop _ _ h]
            simp only [Scope.teardown, Scope.callAll, Option.map_none, Option.map_some, Scope.Exn.isException, hx, if_true]
            exact ⟨⟨e2.1.symm, h.lastModule.trans e2.2.1.symm, h.lastTest.trans e2.2.2.symm⟩, rfl, .inl ⟨_, rfl⟩⟩
          | some y =>
            refine ⟨{ cleanups := some x.kind, fixtures := some y.kind }, (fun h => by cases h), fun sc h => ?_⟩
            rw [hpop _ _ h]
            simp only [Scope.teardown, Scope.callAll, Option.map_some, Scope.Exn.isException, hx, if_true]
            by_cases hy : y.kind.isException = true <;> simp only [hy, if_true, if_false, Bool.false_eq_true]
            all_goals exact ⟨⟨e2.1.symm, h.lastModule.trans e2.2.1.symm, h.lastTest.trans e2.2.2.symm⟩, rfl, .inl ⟨_, rfl⟩⟩
        · simp only [hx, Bool.false_eq_true, if_false]
          refine ⟨{ cleanups := some x.kind }, (fun h => by cases h), fun sc h => ?_⟩
          rw [hpop _ _ h]
          simp only [Scope.teardown, Scope.callAll, Option.map_some, Scope.Exn.isException, hx, Bool.false_eq_true, if_false]
          exact ⟨⟨e1.1.symm, h.lastModule.trans e1.2.1.symm, h.lastTest.trans e1.2.2.symm⟩, rfl, .inl ⟨_, rfl⟩⟩

/-- An operation of the scope manager inside the runner. -/
theorem scopeOp_sim {w : W} {r : Option X × W} {f : Scope.St → Option Scope.Exn × Scope.St} (ht : Tame w r.2)
    (hf : ∀ sc, ScSim w sc → ScSim r.2 (f sc).2 ∧ ER r.1 (f sc).1) :
    ∃ evs h, ∀ x st, Sim x w st → RR x r (Runner.scopeOp evs h h f st) := by
  obtain ⟨es, hes⟩ := ht.sim
  rcases r with ⟨y, w'⟩
  refine ⟨es, (y.map (·.handled)).getD false, fun x st hs => ?_⟩
  obtain ⟨h1, h2⟩ := hf _ hs.scope
  have h3 := hes x st (f st.scope).2 hs h1
  have hsc : (es.foldl Runner.St.uev st).scope = st.scope := by
    have : ∀ (es : List Runner.UEv) (st : Runner.St), (es.foldl Runner.St.uev st).scope = st.scope := by
      intro es
      induction es with
      | nil => intro st; rfl
      | cons e es ih =>
        intro st
        rw [List.foldl_cons, ih]
        cases e with
        | cur e => show (Runner.St.evAt st st.cur e).scope = _; unfold Runner.St.evAt; split <;> rfl
        | of id e => rfl
        | glob e => rfl
    exact this es st
  unfold Runner.scopeOp
  simp only [hsc]
  generalize hfs : f st.scope = q at h1 h2 h3
  rcases q with ⟨e, sc'⟩
  simp only at h1 h2 h3
  cases y with
  | none =>
    cases e with
    | none => exact ⟨trivial, h3⟩
    | some e => exact h2.elim
  | some y =>
    cases e with
    | none => exact h2.elim
    | some e =>
      obtain ⟨hk, hu⟩ := h2
      simp only [Option.map_some, Option.getD_some]
      have hx : XR (some y) (some (Runner.ofExn y.handled y.handled e)) := by
        rcases hu with ⟨k, rfl⟩ | hu
        · exact ⟨hk.symm, rfl, rfl, fun h => h⟩
        · rw [hu]
          cases e with
          | user k => exact ⟨hk.symm, hu.symm, rfl, fun h => h⟩
          | assertion => exact ⟨hk.symm, hu.symm, rfl, fun h => by cases h⟩
          | internal => exact ⟨hk.symm, hu.symm, rfl, fun h => by cases h⟩
          | index => exact ⟨hk.symm, hu.symm, rfl, fun h => by cases h⟩
      have hnr : ((Runner.ofExn y.handled y.handled e).handled && !(Runner.ofExn y.handled y.handled e).elsewhere) = false := by
        cases e <;> simp [Runner.ofExn]
      rw [hnr]
      exact ⟨hx, h3⟩

/-- a scope is opened -/
theorem push_sc (s : Sc) {w : W} {sc : Scope.St} (h : ScSim w sc) : ScSim (push s w) (Scope.pushScope s sc) :=
  ⟨by simp [push, Scope.pushScope, h.scopes], h.lastModule, h.lastTest⟩

theorem beginTest_tame (env : Env) (t : T) {w : W} (hg : Good w.tests w.cl) : Tame w (beginTest env t w).2 := by
  have h0 : Tame w (if w.lastModule = none then push .session w else w) := by
    split
    · exact tame_push hg _
    · exact Tame.refl hg
  unfold beginTest
  generalize (if w.lastModule = none then push .session w else w) = w0 at h0 ⊢
  have h1 : Tame w (changeModule env t w0).2 := by
    unfold changeModule
    split
    · have h2 : Tame w (if w0.lastModule ≠ none then pop env .module none w0 else (none, w0)).2 := by
        split
        · exact h0.trans (pop_tame env _ _ h0.good)
        · exact h0
      split <;> rename_i heq <;> rw [heq] at h2
      · exact h2
      · split
        · exact h2
        · exact h2.trans (tame_push h2.good _)
    · exact h0
  split <;> rename_i heq <;> rw [heq] at h1
  · exact h1.trans (tame_emit h1.good rfl)
  · rename_i w1
    have h2 : Tame w1 { w1 with lastModule := some t.module } := ⟨rfl, rfl, rfl, rfl, Moved.refl h1.good⟩
    have h3 := h1.trans (h2.trans (tame_push h2.good .test))
    exact h3.trans ⟨rfl, rfl, rfl, rfl, Moved.refl h3.good⟩

/-- `begin_test` -/
theorem beginTest_sc (env : Env) (t : T) (w : W) : ∃ o : Scope.Out,
    ∀ sc, ScSim w sc → ScSim (beginTest env t w).2 (Scope.beginTest t.id t.module o sc).2 ∧ ER (beginTest env t w).1 (Scope.beginTest t.id t.module o sc).1 := by
  generalize hw0 : (if w.lastModule = none then push .session w else w) = w0
  obtain ⟨o, -, ho⟩ := pop_sc env .module none w0
  refine ⟨o, fun sc hsc => ?_⟩
  generalize hsc0 : (if sc.lastModule = none then Scope.pushScope .session sc else sc) = sc0
  have h0 : ScSim w0 sc0 := by
    subst hw0 hsc0
    rw [hsc.lastModule]
    split
    · exact push_sc _ hsc
    · exact hsc
  have h1 := ho sc0 h0
  unfold beginTest Scope.beginTest
  simp only [hw0, hsc0]
  unfold changeModule
  rw [h0.lastModule]
  by_cases hm : w0.lastModule ≠ some t.module
  · rw [if_pos hm, if_pos hm]
    have h2 : ScSim (if w0.lastModule ≠ none then pop env .module none w0 else (none, w0)).2
          (if w0.lastModule ≠ none then Scope.popScope .module o sc0 else (none, sc0)).2 ∧
        ER (if w0.lastModule ≠ none then pop env .module none w0 else (none, w0)).1
          (if w0.lastModule ≠ none then Scope.popScope .module o sc0 else (none, sc0)).1 := by
      split
      · exact h1
      · exact ⟨h0, trivial⟩
    generalize (if w0.lastModule ≠ none then pop env .module none w0 else (none, w0)) = q at h2
    generalize (if w0.lastModule ≠ none then Scope.popScope .module o sc0 else (none, sc0)) = q' at h2
    rcases q with ⟨y, w1⟩
    rcases q' with ⟨e, sc1⟩
    obtain ⟨h3, h4⟩ := h2
    simp only at h3 h4
    cases y with
    | some y =>
      cases e with
      | none => exact h4.elim
      | some e => exact ⟨⟨h3.1, h3.2, h3.3⟩, h4⟩
    | none =>
      cases e with
      | some e => exact h4.elim
      | none =>
        simp only [h3.scopes]
        by_cases hh : w1.scopes.head? = some .module
        · simp only [hh, if_true]
          exact ⟨⟨h3.1, h3.2, h3.3⟩, rfl, .inr rfl⟩
        · simp only [hh, if_false]
          have h5 := push_sc .module h3
          refine ⟨⟨?_, rfl, rfl⟩, trivial⟩
          show Scope.Sc.test :: _ = Scope.Sc.test :: _
          rw [h5.scopes]
  · rw [if_neg hm, if_neg hm]
    refine ⟨⟨?_, rfl, rfl⟩, trivial⟩
    show Scope.Sc.test :: _ = Scope.Sc.test :: _
    rw [h0.scopes]

theorem endTest_tame (env : Env) (t : T) {w : W} (hg : Good w.tests w.cl) : Tame w (endTest env t w).2 := by
  unfold endTest
  split
  · exact Tame.refl hg
  · exact pop_tame env _ _ hg

/-- `end_test` -/
theorem endTest_sc (env : Env) (t : T) (w : W) : ∃ o : Scope.Out, ((endTest env t w).1 = none → o = {}) ∧
    ∀ sc, ScSim w sc → ScSim (endTest env t w).2 (Scope.endTest t.id o sc).2 ∧ ER (endTest env t w).1 (Scope.endTest t.id o sc).1 := by
  obtain ⟨o, h1, h2⟩ := pop_sc env .test t.beforeCleanups w
  unfold endTest
  by_cases h : w.lastTest ≠ some t.id
  · rw [if_pos h]
    refine ⟨{}, fun _ => rfl, fun sc hsc => ?_⟩
    unfold Scope.endTest
    rw [hsc.lastTest, if_pos h]
    exact ⟨hsc, rfl, .inr rfl⟩
  · rw [if_neg h]
    refine ⟨o, h1, fun sc hsc => ?_⟩
    unfold Scope.endTest
    rw [hsc.lastTest, if_neg h]
    exact h2 sc hsc

theorem flushLoop_tame (env : Env) (ss : List Sc) (p : Option X) {w : W} (hg : Good w.tests w.cl) : Tame w (flushLoop env ss p w).2 := by
  induction ss generalizing p w with
  | nil => exact Tame.refl hg
  | cons s ss ih =>
    have h := pop_tame env s none hg
    simp only [flushLoop]
    split <;> rename_i heq <;> rw [heq] at h
    · exact h.trans (ih _ h.good)
    · split
      · exact h.trans (ih _ h.good)
      · exact h

theorem flushLoop_sc (env : Env) (ss : List Sc) (i : Nat) (p : Option X) (w : W) : ∃ os : Nat → Scope.Out,
    ∀ sc e, ScSim w sc → ER p e →
      ScSim (flushLoop env ss p w).2 (Scope.callAll ((ss.zipIdx i).map (fun q => Scope.popScope q.1 (os q.2))) e sc).2 ∧
      ER (flushLoop env ss p w).1 (Scope.callAll ((ss.zipIdx i).map (fun q => Scope.popScope q.1 (os q.2))) e sc).1 := by
  induction ss generalizing i p w with
  | nil => exact ⟨fun _ => {}, fun sc e h h' => ⟨h, h'⟩⟩
  | cons s ss ih =>
    obtain ⟨o, -, ho⟩ := pop_sc env s none w
    have hbig : ∀ q ∈ ss.zipIdx (i + 1), q.2 ≠ i := by
      intro q hq h
      have := List.mem_zipIdx hq
      omega
    have hmap : ∀ os : Nat → Scope.Out, (ss.zipIdx (i + 1)).map (fun q => Scope.popScope q.1 ((fun n => if n = i then o else os n) q.2)) =
        (ss.zipIdx (i + 1)).map (fun q => Scope.popScope q.1 (os q.2)) := by
      intro os
      apply List.map_congr_left
      intro q hq
      simp only [hbig q hq, if_false]
    simp only [flushLoop, List.zipIdx_cons, List.map_cons]
    split
    · rename_i w1 heq
      rw [heq] at ho
      obtain ⟨os, hos⟩ := ih (i + 1) p w1
      refine ⟨fun n => if n = i then o else os n, fun sc e hsc he => ?_⟩
      obtain ⟨h1, h2⟩ := ho sc hsc
      rw [hmap]
      simp only [Scope.callAll, if_true]
      generalize Scope.popScope s o sc = q at h1 h2
      rcases q with ⟨e', sc'⟩
      cases e' with
      | some e' => exact h2.elim
      | none => exact hos sc' e h1 he
    · rename_i y w1 heq
      rw [heq] at ho
      split
      · rename_i hy
        obtain ⟨os, hos⟩ := ih (i + 1) (some y) w1
        refine ⟨fun n => if n = i then o else os n, fun sc e hsc he => ?_⟩
        obtain ⟨h1, h2⟩ := ho sc hsc
        rw [hmap]
        simp only [Scope.callAll, if_true]
        generalize Scope.popScope s o sc = q at h1 h2
        rcases q with ⟨e', sc'⟩
        cases e' with
        | none => exact h2.elim
        | some e' =>
          simp only [kindOf_isException, ← h2.1, hy, if_true]
          exact hos sc' (some e') h1 h2
      · rename_i hy
        refine ⟨fun n => if n = i then o else {}, fun sc e hsc he => ?_⟩
        obtain ⟨h1, h2⟩ := ho sc hsc
        simp only [Scope.callAll, if_true]
        generalize Scope.popScope s o sc = q at h1 h2
        rcases q with ⟨e', sc'⟩
        cases e' with
        | none => exact h2.elim
        | some e' =>
          simp only [kindOf_isException, ← h2.1, hy, Bool.false_eq_true, if_false]
          exact ⟨h1, h2⟩

theorem seq_none {m k : M} {w w1 : W} (h : m w = (none, w1)) : seq m k w = k w1 := by unfold seq; rw [h]
theorem seq_some {m k : M} {w w1 : W} {x : X} (h : m w = (some x, w1)) : seq m k w = (some x, w1) := by unfold seq; rw [h]

theorem XR.or {a b : Option X} {c d : Option Runner.X} (h : XR a c) (h' : XR b d) : XR (b.or a) (d.or c) := by
  cases b <;> cases d
  · exact h
  · exact h'.elim
  · exact h'.elim
  · exact h'

theorem rr_fin {x y : RCtx} {m f : M} {w : W} {q q2 : Option Runner.X × Runner.St} (h : RR x (m w) q) (h2 : RR y (f (m w).2) q2) :
    RR y (fin m f w) (q2.1.or q.1, q2.2) := ⟨h.1.or h2.1, h2.2⟩

/-! ## Pieces that leave the list of tests and the number of session cleanups -/

/-- No test gets a result, no session cleanup begins. -/
structure Kept (w w' : W) : Prop where
  tests : w'.tests = w.tests
  cleanups : w'.cleanups = w.cleanups
  good : Good w'.tests w'.cl

def Keeps (m : M) : Prop := ∀ w, Good w.tests w.cl → Kept w (m w).2

theorem Kept.trans {a b c : W} (h : Kept a b) (h' : Kept b c) : Kept a c := ⟨h'.tests.trans h.tests, h'.cleanups.trans h.cleanups, h'.good⟩
theorem Kept.refl {w : W} (h : Good w.tests w.cl) : Kept w w := ⟨rfl, rfl, h⟩
theorem Tame.kept {w w' : W} (h : Tame w w') : Kept w w' := ⟨h.tests, h.cleanups, h.good⟩

theorem keeps_seq {m k : M} (hm : Keeps m) (hk : Keeps k) : Keeps (seq m k) := by
  intro w h
  have h1 := hm w h
  unfold seq
  split <;> rename_i heq <;> rw [heq] at h1
  · exact h1
  · exact h1.trans (hk _ h1.good)
theorem keeps_fin {m k : M} (hm : Keeps m) (hk : Keeps k) : Keeps (fin m k) := by
  intro w h
  have h1 := hm w h
  exact h1.trans (hk _ h1.good)
theorem keeps_handle {b : Bool} {m : M} (hm : Keeps m) : Keeps (handle b m) := by
  intro w h
  have h1 := hm w h
  unfold handle
  split <;> rename_i heq <;> rw [heq] at h1
  · exact h1
  · rename_i x w1
    have h2 : Kept w (if x.handled = true then w1 else record x.kind w1) := by
      split
      · exact h1
      · exact h1.trans (tame_record h1.good _).kept
    simp only
    split <;> exact h2
theorem keeps_exceptSkip {m : M} (hm : Keeps m) : Keeps (exceptSkip m) := by
  intro w h
  have h1 := hm w h
  unfold exceptSkip
  cases hmw : m w with
  | mk o w1 =>
    rw [hmw] at h1
    cases o with
    | none => exact h1
    | some x => simp only; split <;> exact h1
theorem keeps_user (c : Code) : Keeps (user c) := fun _ h => (tame_user h c).kept
theorem keeps_emit (e : Ev) : Keeps (act (emit e)) := fun _ h => ⟨rfl, rfl, h⟩
theorem keeps_hook (e : Ev) (c : Code) : Keeps (hook e c) := keeps_seq (keeps_emit e) (keeps_user c)
theorem keeps_beginTest (env : Env) (t : T) : Keeps (beginTest env t) := fun _ h => (beginTest_tame env t h).kept
theorem keeps_endTest (env : Env) (t : T) : Keeps (endTest env t) := fun _ h => (endTest_tame env t h).kept
theorem keeps_mark (t : T) (b : Bool) : Keeps (act (mark t b)) := fun _ h => ⟨rfl, rfl, sg_mark t b h⟩
theorem keeps_ctrlStart (t : T) : Keeps (ctrlStart t) := by
  intro w h
  unfold ctrlStart
  split
  · exact Kept.refl h
  · exact keeps_seq (keeps_mark t true) (keeps_hook _ _) w h
theorem tame_setUp (env : Env) (t : T) {w : W} (h : Good w.tests w.cl) : Tame w (setUp env t w).2 := by
  unfold setUp; split <;> exact tame_fx h _
theorem keeps_testRun (env : Env) (t : T) : Keeps (testRun env t) :=
  keeps_seq (fun _ h => (tame_setUp env t h).kept) (keeps_hook _ _)
theorem keeps_beginRunEnd (env : Env) (t : T) : Keeps (beginRunEnd env t) :=
  keeps_seq (keeps_beginTest env t) (keeps_fin (keeps_seq (keeps_ctrlStart t) (keeps_handle (keeps_testRun env t))) (keeps_endTest env t))
theorem keeps_fireSummary (t : T) : Keeps (fireSummary t) := keeps_handle (fun w h => keeps_hook _ _ w h)
theorem keeps_ctrlEnd (t : T) {prev : Option RKey} {w : W} (h : Good w.tests w.cl) (hp : OkR w.tests prev) : Kept w (ctrlEnd t prev w).2 := by
  refine ⟨?_, ?_, ?_⟩
  rotate_left 2
  · have h1 : (ctrlEnd t prev w).2.tests = w.tests := by
      unfold ctrlEnd
      split
      · rfl
      · exact (keeps_hook (.fin t.id) t.endHook (forbid w) (h.same rfl rfl rfl rfl [] (by simp [forbid]) (by simp))).tests
    rw [h1]; exact sg_ctrlEnd t hp w h
  · unfold ctrlEnd
    split
    · rfl
    · exact (keeps_hook (.fin t.id) t.endHook (forbid w) (h.same rfl rfl rfl rfl [] (by simp [forbid]) (by simp))).tests
  · unfold ctrlEnd
    split
    · rfl
    · exact (keeps_hook (.fin t.id) t.endHook (forbid w) (h.same rfl rfl rfl rfl [] (by simp [forbid]) (by simp))).cleanups

/-! ## Events -/

theorem Sim.emit {x : RCtx} {w : W} {st : Runner.St} (h : Sim x w st) {e : Ev} {r : Runner.Ev} (he : evR e = [r]) (hv : vis r = true) :
    Sim x (emit e w) (st.emit r) := by
  refine ⟨h.cur, h.stCur, h.test, h.stTest, h.indexed, h.good, h.res, ⟨h.scope.1, h.scope.2, h.scope.3⟩, h.started, h.cleanups, ?_, ?_⟩
  · have := h.trace
    simp only [wTrace, rTrace] at this
    simp only [wTrace, rTrace, Whole.emit, Runner.St.emit, List.flatMap_append, List.filter_append, this, List.flatMap_cons, List.flatMap_nil,
      List.append_nil, he, List.filter_cons, hv, if_true, List.filter_nil]
  · have := h.bodies
    simp only [wTrace, rTrace] at this
    simp only [wTrace, rTrace, Whole.emit, Runner.St.emit, List.flatMap_append, List.filter_append, List.flatMap_cons, List.flatMap_nil,
      List.append_nil, he, List.filter_cons, hv, if_true, List.filter_nil]
    exact this.append (List.Sublist.refl _)

/-- an event that whole sessions do not have -/
theorem Sim.hidden {x : RCtx} {w : W} {st : Runner.St} (h : Sim x w st) {r : Runner.Ev} (hv : vis r = false) : Sim x w (st.emit r) := by
  have e : rTrace (st.emit r) = rTrace st := by simp [rTrace, Runner.St.emit, hv]
  exact ⟨h.cur, h.stCur, h.test, h.stTest, h.indexed, h.good, h.res, h.scope, h.started, h.cleanups, by rw [e]; exact h.trace, by rw [e]; exact h.bodies⟩

/-- a test function that was not reached -/
theorem Sim.extraBody {x : RCtx} {w : W} {st : Runner.St} (h : Sim x w st) (id : Nat) : Sim x w (st.emit (.body id)) := by
  have e : rTrace (st.emit (.body id)) = rTrace st ++ [.body id] := by simp [rTrace, Runner.St.emit, vis]
  refine ⟨h.cur, h.stCur, h.test, h.stTest, h.indexed, h.good, h.res, h.scope, h.started, h.cleanups, ?_, ?_⟩
  · rw [e, List.filter_append, h.trace]; simp [notBody]
  · rw [e]; exact h.bodies.trans (List.sublist_append_left _ _)

theorem Sim.tame' {x : RCtx} {w w' : W} {st : Runner.St} (h : Sim x w st) (ht : w'.trace = w.trace) (h1 : w'.cl = w.cl) (h2 : w'.tests = w.tests)
    (h3 : w'.scopes = w.scopes) (h4 : w'.lastModule = w.lastModule) (h5 : w'.lastTest = w.lastTest) (h6 : w'.started = w.started)
    (h7 : w'.cleanups = w.cleanups) : Sim x w' st := by
  have e : wTrace w' = wTrace w := by simp [wTrace, ht]
  exact ⟨by rw [h1]; exact h.cur, h.stCur, by rw [h1]; exact h.test, h.stTest, h.indexed, by rw [h1, h2]; exact h.good, by rw [h1, h2]; exact h.res,
    ⟨h.scope.1.trans h3.symm, h.scope.2.trans h4.symm, h.scope.3.trans h5.symm⟩, h.started.trans h6.symm, h.cleanups.trans h7.symm,
    by rw [e]; exact h.trace, by rw [e]; exact h.bodies⟩

/-- hooks -/
theorem step_hook {e : Ev} {r : Runner.Ev} (c : Code) (he : evR e = [r]) (hv : vis r = true) {w : W} (hg : Good w.tests w.cl) :
    ∃ s : Runner.Step, ∀ x st, Sim x w st → RR x (hook e c w) (Runner.runStep s (st.emit r)) := by
  obtain ⟨s, -, hs⟩ := step_user c (w := emit e w) hg
  exact ⟨s, fun x st h => hs x _ (h.emit he hv)⟩

/-- the test's function and its fixtures -/
theorem step_testRun (env : Env) (t : T) {w : W} (hg : Good w.tests w.cl) :
    ∃ s : Runner.Step, ∀ x st, Sim x w st → RR x (testRun env t w) (Runner.runStep s (st.emit (.body t.id))) := by
  have hf : ∀ fx, Good ({ w with fx := fx } : W).tests ({ w with fx := fx } : W).cl := fun _ => hg
  unfold testRun seq setUp
  split
  · rename_i y w1 heq
    split at heq
    · cases heq
    · cases heq
      rename_i e fx _
      refine ⟨{ raises := some { kind := fixKind e } }, fun x st h => ⟨⟨rfl, rfl, rfl, fun h => by cases h⟩, ?_⟩⟩
      exact (h.extraBody t.id).tame' rfl rfl rfl rfl rfl rfl rfl rfl
  · rename_i w1 heq
    split at heq
    · cases heq
      rename_i fx _
      obtain ⟨s, hs⟩ := step_hook (e := .body t.id) t.body rfl rfl (hf fx)
      exact ⟨s, fun x st h => hs x st (h.tame' rfl rfl rfl rfl rfl rfl rfl rfl)⟩
    · cases heq

/-! ## One test -/

/-- Marking of results as started. -/
theorem Sim.mark {id : Nat} {o : Option Nat} {i : List Nat} {w : W} {st : Runner.St} (h : Sim ⟨.test id, o, i⟩ w st) {t : T} (ht : t.id = id) (b : Bool) :
    Sim ⟨.test id, o, i⟩ (mark t b w) { st.ev .start with started := b } := by
  have hok : OkR w.tests (some (.test id)) := by have := h.good.cur; rw [h.cur] at this; exact this
  have e : st.ev .start = { st with res := st.res.step (.ev id .start) } := by simp only [Runner.St.ev, h.stCur, Runner.St.evAt]
  rw [e]
  refine ⟨h.cur, h.stCur, h.test, h.stTest, h.indexed, sg_mark t b h.good, ?_, ⟨h.scope.1, h.scope.2, h.scope.3⟩, rfl, h.cleanups, h.trace, h.bodies⟩
  have := h.res.step (.test id, .start) hok trivial
  have e2 : (Whole.mark t b w).cl.results = upd w.cl.results (.test id, .start) := by
    funext k
    simp only [Whole.mark, markStarted, St.updResult, ht, upd]
    rfl
  rw [e2]; exact this

theorem step_ctrlStart (t : T) {w : W} (hg : Good w.tests w.cl) : ∃ s : Runner.Step, ∀ t' : Runner.T, t'.id = t.id → t'.startHook = s →
    ∀ o i st, Sim ⟨.test t.id, o, i⟩ w st → RR ⟨.test t.id, o, i⟩ (ctrlStart t w) (Runner.ctrlStart t' st) := by
  obtain ⟨s, hs⟩ := step_hook (e := .start t.id t.module) t.startHook rfl rfl (w := mark t true w) (sg_mark t true hg)
  refine ⟨s, fun t' h1 h2 o i st h => ?_⟩
  unfold ctrlStart Runner.ctrlStart
  rw [h.started, h1, h2]
  split
  · exact ⟨trivial, h⟩
  · have e : ({ st with started := true } : Runner.St).ev .start = { st.ev .start with started := true } := by
      simp only [Runner.St.ev, Runner.St.evAt]; split <;> rfl
    rw [e]
    exact hs _ _ (h.mark (t := t) rfl true)

/-- `runner.py:108-115` -/
theorem sim_beginRunEnd (env : Env) (t : T) {w : W} (hg : Good w.tests w.cl) : ∃ t0 : Runner.T, t0.id = t.id ∧ t0.module = t.module ∧
    ∀ o i st, Sim ⟨.test t.id, o, i⟩ w st → RR ⟨.test t.id, o, i⟩ (beginRunEnd env t w) (Runner.beginRunEnd t0 st) := by
  obtain ⟨mo, hmo⟩ := beginTest_sc env t w
  obtain ⟨be, bh, hb⟩ := scopeOp_sim (beginTest_tame env t hg) hmo
  have hk1 := keeps_beginTest env t w hg
  unfold beginRunEnd
  rcases heq : beginTest env t w with ⟨_ | y, w1⟩
  rotate_left
  · rw [seq_some heq]
    rw [heq] at hb
    refine ⟨{ id := t.id, file := 0, module := t.module, moduleOut := mo, beginEvs := be, beginHandled := bh, beginElsewhere := bh }, rfl, rfl, ?_⟩
    intro o i st h
    have := hb _ _ h
    unfold Runner.beginRunEnd Runner.doBegin
    generalize Runner.scopeOp be bh bh (Scope.beginTest t.id t.module mo) st = q at this
    rcases q with ⟨z, st1⟩
    cases z with
    | none => exact this.1.elim
    | some z => exact this
  · rw [seq_none heq]
    rw [heq] at hb hk1
    obtain ⟨sh, hsh⟩ := step_ctrlStart t hk1.good
    have hk2 := keeps_ctrlStart t w1 hk1.good
    obtain ⟨bd, hbd⟩ := step_testRun env t hk2.good
    have hk3 : Kept w1 (seq (ctrlStart t) (handle true (testRun env t)) w1).2 :=
      keeps_seq (keeps_ctrlStart t) (keeps_handle (keeps_testRun env t)) w1 hk1.good
    obtain ⟨to, -, hto⟩ := endTest_sc env t (seq (ctrlStart t) (handle true (testRun env t)) w1).2
    obtain ⟨ee, eh, he⟩ := scopeOp_sim (endTest_tame env t hk3.good) hto
    let t0 : Runner.T := { id := t.id, file := 0, module := t.module, moduleOut := mo, beginEvs := be, beginHandled := bh, beginElsewhere := bh, startHook := sh, body := bd, testOut := to, endEvs := ee, endHandled := eh, endElsewhere := eh }
    refine ⟨t0, rfl, rfl, ?_⟩
    intro o i st h
    have h1 := hb _ _ h
    have h2 := hsh t0 rfl rfl o i
    unfold Runner.beginRunEnd
    have hdb : Runner.doBegin t0 st = Runner.scopeOp be bh bh (Scope.beginTest t.id t.module mo) st := rfl
    rw [hdb]
    generalize Runner.scopeOp be bh bh (Scope.beginTest t.id t.module mo) st = q at h1
    rcases q with ⟨z, st1⟩
    cases z with
    | some z => exact h1.1.elim
    | none =>
      simp only
      have h3 := h2 st1 h1.2
      have h4 : RR ⟨.test t.id, o, i⟩ (seq (ctrlStart t) (handle true (testRun env t)) w1)
          (match Runner.ctrlStart t0 st1 with
            | (some x, st) => (some x, st)
            | (none, st) => Runner.handle true (Runner.runStep t0.body (st.emit (.body t0.id)))) := by
        generalize Runner.ctrlStart t0 st1 = q at h3
        rcases q with ⟨z, st2⟩
        rcases heq2 : ctrlStart t w1 with ⟨_ | y, w2⟩ <;> rw [heq2] at h3
        rotate_left
        · rw [seq_some heq2]
          cases z with
          | none => exact h3.1.elim
          | some z => exact h3
        · rw [seq_none heq2]
          cases z with
          | some z => exact h3.1.elim
          | none =>
            rw [heq2] at hbd
            exact rr_handle (hbd _ _ h3.2)
      exact rr_fin h4 (he _ _ h4.2)

end Slash.Whole
