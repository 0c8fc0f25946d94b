import Verif.Model.Whole
import Verif.Lemmas.CleanupRec
import Verif.Props.Fixture
/-! Whole sessions: every state of the cleanup manager is reached by calls of its interface, and every state of the fixture
store by setups and ends of scopes. -/
namespace Slash.Whole

open Slash.Scope (Sc)
open Slash.Cleanup (Op RKey)

/-! ## Reachability in the cleanup manager -/

def Reach (a b : Cleanup.St) : Prop := ∃ ops, b = Cleanup.run ops a

theorem Reach.refl (a : Cleanup.St) : Reach a a := ⟨[], rfl⟩
theorem Reach.trans {a b c : Cleanup.St} (h : Reach a b) (h' : Reach b c) : Reach a c := by
  obtain ⟨o, rfl⟩ := h
  obtain ⟨o', rfl⟩ := h'
  exact ⟨o ++ o', by simp [Cleanup.run, List.foldl_append]⟩
theorem Reach.op (a : Cleanup.St) (o : Op) : Reach a (Cleanup.step a o).2 := ⟨[o], rfl⟩
theorem reach_record (a : Cleanup.St) (r : RKey) (k : Kind) : Reach a (a.record r k) := Reach.op a (.note r k)
theorem reach_push (a : Cleanup.St) (n : String) : Reach a (Cleanup.pushScope n a) := Reach.op a (.push n)
theorem reach_pop (a : Cleanup.St) (n : String) (h : Option Kind) (ts : List Nat) :
    Reach a (Cleanup.popScope n h ts a).2 := Reach.op a (.pop n h ts)
theorem reach_ctx (a : Cleanup.St) (r : Option RKey) (t : Option Nat) :
    Reach a { a with curResult := r, curTest := t } := Reach.op a (.setContext r t)
theorem reach_result (a : Cleanup.St) (r : Option RKey) : Reach a { a with curResult := r } := reach_ctx a r a.curTest
theorem reach_implicit (a : Cleanup.St) (b : Bool) : Reach a { a with allowImplicit := b } := Reach.op a (.setImplicit b)
theorem reach_start (a : Cleanup.St) (r : RKey) : Reach a (a.updResult r Result.markStarted) := Reach.op a (.start r)

theorem reach_runActs (acts : List Cleanup.Act) (a : Cleanup.St) : Reach a (Cleanup.runActs acts a).2 := by
  induction acts generalizing a with
  | nil => exact Reach.refl a
  | cons x rest ih =>
    cases x with
    | add sc cb =>
      have h1 : Reach a (Cleanup.addCleanup sc cb a).2 := Reach.op a (.add sc cb)
      simp only [Cleanup.runActs]
      split <;> rename_i heq <;> rw [heq] at h1
      · exact h1
      · exact h1.trans (ih _)
    | note k =>
      simp only [Cleanup.runActs]
      split
      · exact (reach_record ..).trans (ih _)
      · exact Reach.refl a

/-! ## Cleanups of a scope that were registered during one test -/

/-- All cleanups on scope `u` were registered while the result of test `t` was current. -/
def Own (t u : Nat) (a : Cleanup.St) : Prop :=
  ∀ r, .placed r u ∈ a.log → ∃ c s, .added r c s (some (.test t)) ∈ a.log

theorem own_log {t u : Nat} {a b : Cleanup.St} (h : Own t u a) (hl : b.log = a.log) : Own t u b := by
  intro r hr; rw [hl] at hr ⊢; exact h r hr

theorem own_addCleanup {t u : Nat} {a : Cleanup.St} (h : Own t u a) (hc : a.curResult = some (.test t)) (sc : Cleanup.ScopeArg) (cb : Cleanup.Cb) :
    Own t u (Cleanup.addCleanup sc cb a).2 := by
  unfold Cleanup.addCleanup
  split
  · exact h
  · split
    · exact h
    · rename_i uid _
      intro r hr
      cases uid with
      | none =>
        simp only [Cleanup.place, Cleanup.St.emit, List.mem_append, List.mem_singleton, reduceCtorEq, or_false] at hr ⊢
        obtain ⟨c, s, h1⟩ := h r hr
        exact ⟨c, s, .inl h1⟩
      | some v =>
        simp only [Cleanup.place, Cleanup.St.emit, List.mem_append, List.mem_singleton, reduceCtorEq, or_false, Cleanup.Ev.placed.injEq] at hr ⊢
        rcases hr with hr | ⟨rfl, rfl⟩
        · obtain ⟨c, s, h1⟩ := h r hr
          exact ⟨c, s, .inl h1⟩
        · exact ⟨_, _, .inr (by rw [hc])⟩

theorem own_runActs {t u : Nat} (acts : List Cleanup.Act) {a : Cleanup.St} (h : Own t u a) (hc : a.curResult = some (.test t)) :
    Own t u (Cleanup.runActs acts a).2 := by
  induction acts generalizing a with
  | nil => exact h
  | cons x rest ih =>
    cases x with
    | add sc cb =>
      have h1 := own_addCleanup h hc sc cb
      have h2 := (Cleanup.frame_addCleanup sc cb a).curResult
      simp only [Cleanup.runActs]
      split <;> rename_i heq <;> rw [heq] at h1 h2
      · exact h1
      · exact ih h1 (h2.trans hc)
    | note k =>
      simp only [Cleanup.runActs]
      split
      · exact ih (own_log h (Cleanup.log_record ..)) ((Cleanup.frame_record ..).curResult.trans hc)
      · exact h

/-! ## Pieces of the program that change neither scopes nor the context -/

/-- What user code and exception handling leave alone. -/
structure Side (w w' : W) : Prop where
  reach : Reach w.cl w'.cl
  frame : Cleanup.Frame w.cl w'.cl
  scopes : w'.scopes = w.scopes
  lastModule : w'.lastModule = w.lastModule
  lastTest : w'.lastTest = w.lastTest
  started : w'.started = w.started
  tests : w'.tests = w.tests
  trace : w'.trace = w.trace
  startCalled : w'.startCalled = w.startCalled
  own : ∀ t u, w.cl.curResult = some (.test t) → Own t u w.cl → Own t u w'.cl

theorem Side.refl (w : W) : Side w w := ⟨Reach.refl _, Cleanup.Frame.refl _, rfl, rfl, rfl, rfl, rfl, rfl, rfl, fun _ _ _ h => h⟩
theorem Side.trans {a b c : W} (h : Side a b) (h' : Side b c) : Side a c :=
  ⟨h.reach.trans h'.reach, h.frame.trans h'.frame, h'.scopes.trans h.scopes, h'.lastModule.trans h.lastModule, h'.lastTest.trans h.lastTest,
   h'.started.trans h.started, h'.tests.trans h.tests, h'.trace.trans h.trace, h'.startCalled.trans h.startCalled,
   fun t u hc ho => h'.own t u (h.frame.curResult.trans hc) (h.own t u hc ho)⟩

theorem side_record (k : Kind) (w : W) : Side w (record k w) :=
  ⟨reach_record .., Cleanup.frame_record .., rfl, rfl, rfl, rfl, rfl, rfl, rfl, fun _ _ _ h => own_log h (Cleanup.log_record ..)⟩

theorem side_user (c : Code) (w : W) : Side w (user c w).2 := by
  have h1 := reach_runActs c.acts w.cl
  have h2 := Cleanup.frame_runActs c.acts w.cl
  have h3 := fun t u hc ho => own_runActs (t := t) (u := u) c.acts (a := w.cl) ho hc
  unfold user
  split <;> rename_i heq <;> rw [heq] at h1 h2 h3 <;> exact ⟨h1, h2, rfl, rfl, rfl, rfl, rfl, rfl, rfl, h3⟩

theorem user_fx (c : Code) (w : W) : (user c w).2.fx = w.fx := by unfold user; split <;> rfl

theorem side_setUp (env : Env) (t : T) (w : W) : Side w (setUp env t w).2 := by
  unfold setUp
  split <;> exact ⟨Reach.refl _, Cleanup.Frame.refl _, rfl, rfl, rfl, rfl, rfl, rfl, rfl, fun _ _ _ h => h⟩

theorem setUp_fx (env : Env) (t : T) (w : W) :
    (setUp env t w).2.fx = (Fix.setup (fixEnv env t) env.fuel t.fixtures w.fx).2 := by
  unfold setUp
  split <;> rename_i heq <;> rw [heq]

theorem fxLoop_spec (fs : List Nat) (w : W) : Side w (fxLoop fs w).2 ∧
    (fxLoop fs w).2.fx = (Fix.popLoop fs w.fx).2 ∧ (fxLoop fs w).1.map (·.kind) = (Fix.popLoop fs w.fx).1 := by
  induction fs generalizing w with
  | nil => exact ⟨Side.refl w, rfl, rfl⟩
  | cons f fs ih =>
    simp only [fxLoop, Fix.popLoop]
    generalize Fix.deactivate f w.fx = p
    rcases p with ⟨k, fx⟩
    cases k with
    | none =>
      have h := ih { w with fx := fx }
      have h0 : Side w { w with fx := fx } := ⟨Reach.refl _, Cleanup.Frame.refl _, rfl, rfl, rfl, rfl, rfl, rfl, rfl, fun _ _ _ h => h⟩
      exact ⟨h0.trans h.1, h.2⟩
    | some k =>
      have h1 : Side w { w with fx := fx } := ⟨Reach.refl _, Cleanup.Frame.refl _, rfl, rfl, rfl, rfl, rfl, rfl, rfl, fun _ _ _ h => h⟩
      have h0 := h1.trans (side_record k { w with fx := fx })
      simp only
      split
      · exact ⟨h0, rfl, rfl⟩
      · have h := ih (record k { w with fx := fx })
        exact ⟨h0.trans h.1, h.2⟩

theorem fxLoops_spec (env : Env) (s : Nat) (ks : List Nat) (w : W) : Side w (fxLoops env s ks w).2 ∧
    (fxLoops env s ks w).2.fx = (Fix.popScopes env.defs s ks w.fx).2 ∧
    (fxLoops env s ks w).1.map (·.kind) = (Fix.popScopes env.defs s ks w.fx).1 := by
  induction ks generalizing w with
  | nil => exact ⟨Side.refl w, rfl, rfl⟩
  | cons k ks ih =>
    simp only [fxLoops, Fix.popScopes]
    split
    · have h := fxLoop_spec ((w.fx.active.filter (fun a => (env.defs a.id).scope == k)).map (·.id)).reverse w
      generalize fxLoop ((w.fx.active.filter (fun a => (env.defs a.id).scope == k)).map (·.id)).reverse w = p at h ⊢
      generalize Fix.popLoop ((w.fx.active.filter (fun a => (env.defs a.id).scope == k)).map (·.id)).reverse w.fx = q at h ⊢
      rcases p with ⟨x, w1⟩
      rcases q with ⟨y, fx1⟩
      obtain ⟨h1, h2, h3⟩ := h
      simp only at h1 h2 h3
      subst h2; subst h3
      cases x with
      | some x => exact ⟨h1, rfl, rfl⟩
      | none => have h := ih w1; exact ⟨h1.trans h.1, h.2⟩
    · exact ih w

/-- Tearing down the fixtures of a scope is what `FixtureStore.pop_scope` does to the store. -/
theorem fxPop_spec (env : Env) (s : Sc) (w : W) : Side (emit (.fixturesDown s) w) (fxPop env s w).2 ∧
    (fxPop env s w).2.fx = (Fix.popScope env.defs (scNum s) (interrupted w.cl) w.fx).2 ∧
    (fxPop env s w).1.map (·.kind) = (Fix.popScope env.defs (scNum s) (interrupted w.cl) w.fx).1 := by
  unfold fxPop Fix.popScope
  simp only
  have hi : interrupted (emit (.fixturesDown s) w).cl = interrupted w.cl := rfl
  rw [hi]
  split
  · exact ⟨Side.refl _, rfl, rfl⟩
  · exact fxLoops_spec env (scNum s) w.fx.keys (emit (.fixturesDown s) w)

/-! ## Growth -/

/-- From one state of a session to a later one. -/
structure Grow (env : Env) (w w' : W) : Prop where
  reach : Reach w.cl w'.cl
  trace : ∃ d, w'.trace = w.trace ++ d ∧ (∀ s ∈ d, Reach w.cl s.cl ∧ Reach s.cl w'.cl) ∧
    (Fix.Session env.defs env.fixture w.fx → ∀ s ∈ d, Fix.Session env.defs env.fixture s.fx)
  fx : Fix.Session env.defs env.fixture w.fx → Fix.Session env.defs env.fixture w'.fx
  tests : w.tests <+: w'.tests

theorem Grow.refl (env : Env) (w : W) : Grow env w w :=
  ⟨Reach.refl _, ⟨[], by simp, by simp, by simp⟩, id, List.prefix_refl _⟩

theorem Grow.trans {env : Env} {a b c : W} (h : Grow env a b) (h' : Grow env b c) : Grow env a c := by
  refine ⟨h.reach.trans h'.reach, ?_, fun hf => h'.fx (h.fx hf), h.tests.trans h'.tests⟩
  obtain ⟨d, hd, h1, h2⟩ := h.trace
  obtain ⟨d', hd', h1', h2'⟩ := h'.trace
  refine ⟨d ++ d', by rw [hd', hd, List.append_assoc], fun s hs => ?_, fun hf s hs => ?_⟩
  · rcases List.mem_append.1 hs with hs | hs
    · exact ⟨(h1 s hs).1, (h1 s hs).2.trans h'.reach⟩
    · exact ⟨h.reach.trans (h1' s hs).1, (h1' s hs).2⟩
  · rcases List.mem_append.1 hs with hs | hs
    · exact h2 hf s hs
    · exact h2' (h.fx hf) s hs

/-- no event, the same fixtures -/
theorem grow_same (env : Env) {w w' : W} (hr : Reach w.cl w'.cl) (ht : w'.trace = w.trace) (hf : w'.fx = w.fx) (hn : w'.tests = w.tests) :
    Grow env w w' :=
  ⟨hr, ⟨[], by simp [ht], by simp, by simp⟩, fun h => hf ▸ h, hn ▸ List.prefix_refl _⟩

theorem grow_emit (env : Env) (e : Ev) (w : W) : Grow env w (emit e w) :=
  ⟨Reach.refl _, ⟨[⟨e, w.cl, w.fx⟩], rfl, by intro s hs; rw [List.mem_singleton.1 hs]; exact ⟨Reach.refl _, Reach.refl _⟩,
    by intro h s hs; rw [List.mem_singleton.1 hs]; exact h⟩, id, List.prefix_refl _⟩

def Grows (env : Env) (m : M) : Prop := ∀ w, Grow env w (m w).2

theorem grows_seq {env : Env} {m k : M} (hm : Grows env m) (hk : Grows env k) : Grows env (seq m k) := by
  intro w
  have h := hm w
  unfold seq
  split <;> rename_i heq <;> rw [heq] at h
  · exact h
  · exact h.trans (hk _)

theorem grows_fin {env : Env} {m k : M} (hm : Grows env m) (hk : Grows env k) : Grows env (fin m k) := by
  intro w
  exact (hm w).trans (hk _)

theorem grows_act {env : Env} {f : W → W} (h : ∀ w, Grow env w (f w)) : Grows env (act f) := fun w => h w

theorem grow_record (env : Env) (k : Kind) (w : W) : Grow env w (record k w) :=
  grow_same env (reach_record ..) rfl rfl rfl

theorem grows_handle {env : Env} {b : Bool} {m : M} (hm : Grows env m) : Grows env (handle b m) := by
  intro w
  have h := hm w
  unfold handle
  split <;> rename_i heq <;> rw [heq] at h
  · exact h
  · rename_i x w1
    have h2 : Grow env w (if x.handled = true then w1 else record x.kind w1) := by
      split
      · exact h
      · exact h.trans (grow_record ..)
    simp only
    generalize (if x.handled = true then w1 else record x.kind w1) = w2 at h2 ⊢
    split <;> exact h2

theorem grows_exceptSkip {env : Env} {m : M} (hm : Grows env m) : Grows env (exceptSkip m) := by
  intro w
  have h := hm w
  unfold exceptSkip
  split
  · rename_i heq; rw [heq] at h; split <;> exact h
  · exact h

theorem grows_user (env : Env) (c : Code) : Grows env (user c) := fun w =>
  grow_same env (side_user c w).reach (side_user c w).trace (user_fx c w) (side_user c w).tests

theorem grows_hook (env : Env) (e : Ev) (c : Code) : Grows env (hook e c) :=
  grows_seq (grows_act (grow_emit env e)) (grows_user env c)

theorem grow_push (env : Env) (s : Sc) (w : W) : Grow env w (push s w) := grow_same env (reach_push ..) rfl rfl rfl

theorem clPop_fields (n : String) (h : Option Kind) (w : W) :
    (clPop n h w).2 = { w with cl := (Cleanup.popScope n h w.tests w.cl).2 } ∧
    (clPop n h w).1 = (Cleanup.popScope n h w.tests w.cl).1.map ofExn := by
  unfold clPop; split; rename_i heq; rw [heq]; exact ⟨rfl, rfl⟩

theorem grows_clPop (env : Env) (n : String) (h : Option Kind) : Grows env (clPop n h) := by
  intro w
  rw [(clPop_fields n h w).1]
  exact grow_same env (reach_pop ..) rfl rfl rfl

theorem grows_fxPop (env : Env) (s : Sc) : Grows env (fxPop env s) := by
  intro w
  obtain ⟨h1, h2, -⟩ := fxPop_spec env s w
  refine (grow_emit env (.fixturesDown s) w).trans ⟨h1.reach, ⟨[], by simp [h1.trace], by simp, by simp⟩, fun h => ?_, by rw [h1.tests]; exact List.prefix_refl _⟩
  rw [h2]; exact .scopeEnd _ _ h

theorem grows_callBoth {env : Env} {a b : M} (ha : Grows env a) (hb : Grows env b) : Grows env (callBoth a b) := by
  intro w
  have h := ha w
  unfold callBoth
  split <;> rename_i heq <;> rw [heq] at h
  · exact h.trans (hb _)
  · split
    · exact h.trans (hb _)
    · exact h

theorem grows_pop (env : Env) (s : Sc) (hk : Option Kind) : Grows env (pop env s hk) := by
  intro w
  unfold pop
  split
  · exact Grow.refl env w
  · rename_i p rest hs
    have h0 : Grow env w { w with scopes := rest } := grow_same env (Reach.refl _) rfl rfl rfl
    split
    · exact h0
    · have h1 := (h0.trans (grow_emit env (.closing s) _)).trans
        (grows_callBoth (grows_clPop env (scName s) hk) (grows_fxPop env s) (emit (.closing s) { w with scopes := rest }))
      split <;> rename_i heq <;> rw [heq] at h1
      · exact h1.trans (grow_emit ..)
      · exact h1

theorem grows_changeModule (env : Env) (t : T) : Grows env (changeModule env t) := by
  intro w
  unfold changeModule
  split
  · have h : Grow env w (if w.lastModule ≠ none then pop env .module none w else (none, w)).2 := by
      split
      · exact grows_pop env _ _ _
      · exact Grow.refl ..
    split <;> rename_i heq <;> rw [heq] at h
    · exact h
    · split
      · exact h
      · exact h.trans (grow_push ..)
  · exact Grow.refl ..

theorem grows_beginTest (env : Env) (t : T) : Grows env (beginTest env t) := by
  intro w
  unfold beginTest
  have h0 : Grow env w (if w.lastModule = none then push .session w else w) := by
    split
    · exact grow_push ..
    · exact Grow.refl ..
  generalize (if w.lastModule = none then push .session w else w) = w0 at h0 ⊢
  have h := h0.trans (grows_changeModule env t w0)
  split <;> rename_i heq <;> rw [heq] at h
  · exact h.trans (grow_emit ..)
  · exact h.trans (grow_same env (reach_push ..) rfl rfl rfl)

theorem grows_endTest (env : Env) (t : T) : Grows env (endTest env t) := by
  intro w
  unfold endTest
  split
  · exact Grow.refl ..
  · exact grows_pop env _ _ _

theorem grows_flushLoop (env : Env) (ss : List Sc) (p : Option X) : Grows env (flushLoop env ss p) := by
  induction ss generalizing p with
  | nil => intro w; exact Grow.refl ..
  | cons s ss ih =>
    intro w
    have h := grows_pop env s none w
    simp only [flushLoop]
    split <;> rename_i heq <;> rw [heq] at h
    · exact h.trans (ih _ _)
    · split
      · exact h.trans (ih _ _)
      · exact h

theorem grows_flush (env : Env) : Grows env (flush env) := fun w => grows_flushLoop env w.scopes none w

theorem grows_initiateCleanup (env : Env) : Grows env (initiateCleanup env) := by
  intro w
  unfold initiateCleanup
  split
  · exact Grow.refl ..
  · have h0 : Grow env w { w with cleanups := w.cleanups + 1 } := grow_same env (Reach.refl _) rfl rfl rfl
    exact h0.trans (grows_fin (grows_handle (grows_hook env .sessionCleanup (env.beforeCleanup w.cleanups))) (grows_handle (grows_flush env)) _)

theorem grow_markStarted (env : Env) (r : RKey) (w : W) : Grow env w (markStarted r w) :=
  grow_same env (reach_start ..) rfl rfl rfl

theorem grow_mark (env : Env) (t : T) (b : Bool) (w : W) : Grow env w (mark t b w) := grow_same env (reach_start ..) rfl rfl rfl
theorem grow_forbid (env : Env) (w : W) : Grow env w (forbid w) := grow_same env (reach_implicit ..) rfl rfl rfl
theorem grow_permit (env : Env) (b : Bool) (w : W) : Grow env w (permit b w) := grow_same env (reach_implicit ..) rfl rfl rfl
theorem grow_setResult (env : Env) (r : Option RKey) (w : W) : Grow env w (setResult r w) := grow_same env (reach_result ..) rfl rfl rfl
theorem grow_setContext (env : Env) (r : Option RKey) (t : Option Nat) (w : W) : Grow env w (setContext r t w) :=
  grow_same env (reach_ctx ..) rfl rfl rfl
theorem grow_addTest (env : Env) (t : T) (w : W) : Grow env w (addTest t w) :=
  ⟨Reach.refl _, ⟨[], by simp [addTest], by simp, by simp⟩, id, List.prefix_append _ _⟩
theorem grow_addSkip (env : Env) (w : W) : Grow env w (addSkip w) := by
  unfold addSkip
  split
  · rename_i r _; exact grow_same env (reach_record w.cl r .skip) rfl rfl rfl
  · exact Grow.refl ..

theorem grows_ctrlStart (env : Env) (t : T) : Grows env (ctrlStart t) := by
  intro w
  unfold ctrlStart
  split
  · exact Grow.refl ..
  · exact grows_seq (grows_act (grow_mark env t true)) (grows_hook env _ _) w

theorem grows_ctrlEnd (env : Env) (t : T) (prev : Option RKey) : Grows env (ctrlEnd t prev) := by
  intro w
  unfold ctrlEnd
  split
  · exact Grow.refl ..
  · exact grows_fin (grows_fin (grows_seq (grows_act (grow_forbid env)) (grows_hook env _ _)) (grows_act (grow_permit env _)))
      (grows_act (grow_setResult env prev)) w

theorem grows_setUp (env : Env) (t : T) : Grows env (setUp env t) := by
  intro w
  have h := side_setUp env t w
  refine ⟨h.reach, ⟨[], by simp [h.trace], by simp, by simp⟩, fun hs => ?_, by rw [h.tests]; exact List.prefix_refl _⟩
  rw [setUp_fx]
  exact .setup _ _ _ hs rfl rfl

theorem grows_testRun (env : Env) (t : T) : Grows env (testRun env t) := grows_seq (grows_setUp env t) (grows_hook env _ _)

theorem grow_addSkips (env : Env) (n : Nat) (w : W) : Grow env w (addSkips n w) := by
  induction n generalizing w with
  | zero => exact Grow.refl ..
  | succ n ih =>
    exact (grow_addSkip env w).trans (ih _)

theorem grows_processReqs {env : Env} {t : T} {m : M} (hm : Grows env m) : Grows env (processReqs t m) := by
  unfold processReqs
  refine grows_seq (grows_user env _) ?_
  split
  · exact hm
  · exact grows_seq (grows_act (grow_addSkips env t.avoid)) (grows_hook env _ _)

theorem grows_beginRunEnd (env : Env) (t : T) : Grows env (beginRunEnd env t) :=
  grows_seq (grows_beginTest env t) (grows_fin (grows_seq (grows_ctrlStart env t) (grows_handle (grows_testRun env t))) (grows_endTest env t))

theorem grows_fireSummary (env : Env) (t : T) : Grows env (fireSummary t) := grows_handle (fun w => grows_hook env _ _ w)

theorem grows_block (env : Env) (t : T) (l : Bool) (prev : Option RKey) : Grows env (block env t l prev) := by
  unfold block
  refine grows_exceptSkip (grows_seq (grows_exceptSkip (grows_handle (grows_beginRunEnd env t))) (grows_seq (grows_fireSummary env t) ?_))
  split
  · exact grows_seq (grows_ctrlEnd env t prev) (grows_handle (grows_initiateCleanup env))
  · exact grows_act (fun w => Grow.refl env w)

theorem grows_inner (env : Env) (t : T) (l : Bool) (prev : Option RKey) : Grows env (inner env t l prev) :=
  grows_processReqs (grows_seq (grows_act (grow_mark env t false))
    (grows_fin (grows_block env t l prev) (grows_ctrlEnd env t prev)))

theorem grows_runSingle (env : Env) (t : T) (l : Bool) : Grows env (runSingle env t l) := by
  intro w
  unfold runSingle
  split
  · exact Grow.refl ..
  · exact ((grow_addTest env t w).trans (grow_setContext env _ _ _)).trans
      (grows_fin (grows_handle (grows_inner env t l w.cl.curResult)) (grows_act (grow_setContext env _ _)) _)

theorem grow_loop (env : Env) (ts : List T) (w : W) : Grow env w (loop env ts w).2.2 := by
  induction ts generalizing w with
  | nil => exact Grow.refl ..
  | cons t ts ih =>
    have h := grows_runSingle env t ts.isEmpty w
    simp only [loop]
    split <;> rename_i heq <;> rw [heq] at h
    · exact h
    · split
      · exact h
      · exact h.trans (ih _)

theorem grows_markUnrun (env : Env) (ts : List T) : Grows env (markUnrun ts) := by
  induction ts with
  | nil => intro w; exact Grow.refl ..
  | cons t ts ih =>
    intro w
    simp only [markUnrun]
    split
    · exact Grow.refl ..
    · exact (grow_addTest env t w).trans (ih _)

theorem grows_runTests (env : Env) (ts : List T) : Grows env (runTests env ts) := by
  intro w
  unfold runTests
  have h := (grow_loop env ts w).trans (grows_initiateCleanup env _)
  simp only
  split
  · exact h
  · exact h.trans (grows_markUnrun env ..)

theorem grows_startHooks (env : Env) : Grows env (startHooks env) :=
  grows_handle (grows_seq (grows_user env _) (grows_seq (grows_hook env _ _)
    (grows_seq (grows_act (fun w => grow_same env (Reach.refl _) rfl rfl rfl)) (grows_user env _))))

theorem grows_onInterrupt {env : Env} {m : M} (hm : Grows env m) : Grows env (onInterrupt env m) := by
  intro w
  have h := hm w
  unfold onInterrupt
  split
  · rename_i x w1 heq
    rw [heq] at h
    have h2 := h.trans (grows_user env env.interrupt w1)
    split
    · split <;> rename_i heq2 <;> rw [heq2] at h2 <;> exact h2
    · exact h
  · exact h

theorem grows_endSession (env : Env) : Grows env (endSession env) := by
  refine grows_seq (grows_handle (grows_clPop env _ _)) (fun w => ?_)
  split
  · exact grows_seq (grows_handle (grows_hook env _ _)) (grows_handle (grows_user env _)) w
  · exact Grow.refl ..

theorem grow_session (env : Env) (ts : List T) : Grow env initial (session env ts).2 :=
  grows_fin (grows_onInterrupt (grows_seq (grows_startHooks env) (grows_runTests env ts))) (grows_endSession env) initial

/-! ## Every state of a session -/

theorem reach_initial : Reach {} initial.cl := ⟨_, rfl⟩

theorem session_cl (env : Env) (ts : List T) : ∃ ops, (session env ts).2.cl = Cleanup.run ops {} :=
  reach_initial.trans (grow_session env ts).reach

theorem snap_reach (env : Env) (ts : List T) (s : Snap) (hs : s ∈ (session env ts).2.trace) :
    Reach {} s.cl ∧ Reach s.cl (session env ts).2.cl ∧ Fix.Session env.defs env.fixture s.fx := by
  obtain ⟨d, hd, h1, h2⟩ := (grow_session env ts).trace
  have he : initial.trace = [] := rfl
  rw [he, List.nil_append] at hd
  rw [hd] at hs
  exact ⟨reach_initial.trans (h1 s hs).1, (h1 s hs).2, h2 .start s hs⟩

end Slash.Whole
