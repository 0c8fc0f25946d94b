import Verif.Lemmas.WholeMark
/-! Whole sessions: the invariant between tests and its preservation by the runner. -/
namespace Slash.Whole

open Slash.Scope (Sc)
open Slash.Cleanup (Op RKey)

/-- The state whenever no test scope is open. -/
structure Out (env : Env) (ts : List T) (w : W) : Prop where
  reach : Reach {} w.cl
  fx : Fix.Session env.defs env.fixture w.fx
  shape : w.scopes = [] ∨ w.scopes = [.session] ∨ w.scopes = [.module, .session]
  pre : ∃ r, names w.cl = w.scopes.map scName ++ (r ++ ["session-global"])
  noTest : NoTest w.cl
  trace : TraceOk env ts w.trace
  last : ∀ b, w.trace.getLast? = some b → ∀ t, b.ev ≠ .body t
  calm : Calm w.trace → names w.cl = w.scopes.map scName ++ ["session-global"]

/-- The state between tests. -/
def Idle (w : W) : Prop :=
  (w.lastModule = none → w.scopes = []) ∧ (Calm w.trace → w.lastModule ≠ none → w.scopes = [.module, .session]) ∧
  (Calm w.trace → ∀ m0 st0, lastStart w.trace = some (m0, st0) → w.lastModule = some m0 ∧ w.cl.stack = st0.tail)

/-- Steps that neither touch scopes nor emit events. -/
structure Keep (w w' : W) : Prop where
  reach : Reach w.cl w'.cl
  stack : w'.cl.stack = w.cl.stack
  scopeName : w'.cl.scopeName = w.cl.scopeName
  scopes : w'.scopes = w.scopes
  lastModule : w'.lastModule = w.lastModule
  fx : w'.fx = w.fx
  trace : w'.trace = w.trace
  ctx : ∀ t, Ctx t w.cl → Ctx t w'.cl

theorem Keep.trans {a b c : W} (h : Keep a b) (h' : Keep b c) : Keep a c :=
  ⟨h.reach.trans h'.reach, h'.stack.trans h.stack, h'.scopeName.trans h.scopeName, h'.scopes.trans h.scopes,
   h'.lastModule.trans h.lastModule, h'.fx.trans h.fx, h'.trace.trans h.trace, fun t ht => h'.ctx t (h.ctx t ht)⟩

theorem keep_side {w w' : W} (h : Side w w') (hf : w'.fx = w.fx) : Keep w w' :=
  ⟨h.reach, h.frame.stack, h.frame.scopeName, h.scopes, h.lastModule, hf, h.trace,
   fun _ ht => ⟨h.frame.curResult.trans ht.1, h.frame.curTest.trans ht.2⟩⟩

theorem keep_refl (w : W) : Keep w w := keep_side (Side.refl w) rfl
theorem keep_record (k : Kind) (w : W) : Keep w (record k w) := keep_side (side_record k w) rfl
theorem keep_user (c : Code) (w : W) : Keep w (user c w).2 := keep_side (side_user c w) (user_fx c w)
theorem keep_mark (t : T) (b : Bool) (w : W) : Keep w (mark t b w) :=
  ⟨reach_start .., rfl, rfl, rfl, rfl, rfl, rfl, fun _ ht => ⟨ht.1, ht.2⟩⟩
theorem keep_forbid (w : W) : Keep w (forbid w) := ⟨reach_implicit .., rfl, rfl, rfl, rfl, rfl, rfl, fun _ ht => ⟨ht.1, ht.2⟩⟩
theorem keep_permit (b : Bool) (w : W) : Keep w (permit b w) := ⟨reach_implicit .., rfl, rfl, rfl, rfl, rfl, rfl, fun _ ht => ⟨ht.1, ht.2⟩⟩
theorem keep_addTest (t : T) (w : W) : Keep w (addTest t w) := ⟨Reach.refl _, rfl, rfl, rfl, rfl, rfl, rfl, fun _ ht => ht⟩
theorem keep_addSkip (w : W) : Keep w (addSkip w) := by
  unfold addSkip
  split
  · rename_i r _
    have h := Cleanup.frame_record w.cl r .skip
    exact ⟨reach_record w.cl r .skip, h.stack, h.scopeName, rfl, rfl, rfl, rfl, fun _ ht => ⟨h.curResult.trans ht.1, h.curTest.trans ht.2⟩⟩
  · exact keep_refl w
theorem keep_addSkips (n : Nat) (w : W) : Keep w (addSkips n w) := by
  induction n generalizing w with
  | zero => exact keep_refl w
  | succ n ih => exact (keep_addSkip w).trans (ih _)

section
variable {env : Env} {ts : List T}

theorem Out.move {w w' : W} (h : Out env ts w) (hr : Reach w.cl w'.cl) (h1 : w'.cl.stack = w.cl.stack) (h2 : w'.cl.scopeName = w.cl.scopeName)
    (h3 : w'.scopes = w.scopes) (h4 : w'.fx = w.fx) (h5 : w'.trace = w.trace) : Out env ts w' := by
  have hn : names w'.cl = names w.cl := by unfold names; rw [h1, h2]
  refine ⟨h.reach.trans hr, h4 ▸ h.fx, h3 ▸ h.shape, ?_, ?_, h5 ▸ h.trace, h5 ▸ h.last, ?_⟩
  · rw [hn, h3]; exact h.pre
  · unfold NoTest; rw [hn]; exact h.noTest
  · rw [hn, h3, h5]; exact h.calm

theorem Out.keep {w w' : W} (h : Out env ts w) (k : Keep w w') : Out env ts w' :=
  h.move k.reach k.stack k.scopeName k.scopes k.fx k.trace

theorem Idle.keep {w w' : W} (h : Idle w) (k : Keep w w') : Idle w' := by
  unfold Idle; rw [k.lastModule, k.scopes, k.trace, k.stack]; exact h

theorem Out.setContext {w : W} (h : Out env ts w) (r : Option RKey) (t : Option Nat) : Out env ts (setContext r t w) :=
  h.move (reach_ctx ..) rfl rfl rfl rfl rfl

theorem Out.setResult {w : W} (h : Out env ts w) (r : Option RKey) : Out env ts (setResult r w) :=
  h.move (reach_result ..) rfl rfl rfl rfl rfl

theorem Out.emit {w : W} (h : Out env ts w) {e : Ev} (hs : SnapAt env ts w.trace ⟨e, w.cl, w.fx⟩) (hb : ∀ t, e ≠ .body t)
    (hf : ∀ x, e ≠ .fixturesDown x) : Out env ts (emit e w) := by
  refine ⟨h.reach, h.fx, h.shape, h.pre, h.noTest, h.trace.snoc hs ?_, ?_, fun hc => h.calm hc.left⟩
  · intro b hb'
    exact ⟨fun t ht => absurd ht (h.last b hb' t), fun _ y _ hx => absurd hx (hf y)⟩
  · intro b hb' t
    simp only [Whole.emit, List.getLast?_append, List.getLast?_singleton, Option.some_or, Option.some.injEq] at hb'
    subst hb'
    exact hb t

theorem Idle.emit {w : W} (h : Idle w) {e : Ev} (he : ∀ t m, e ≠ .start t m) : Idle (emit e w) := by
  refine ⟨h.1, fun hc => h.2.1 hc.left, fun hc m0 st0 hl => ?_⟩
  exact h.2.2 hc.left m0 st0 (by rw [← lastStart_none w.trace (s := ⟨e, w.cl, w.fx⟩) he]; exact hl)

/-- The state while a test is current and its scope is not open. -/
def Pt (env : Env) (ts : List T) (t : Nat) (w : W) : Prop := Out env ts w ∧ Ctx t w.cl ∧ Idle w

theorem Pt.keep {t : Nat} {w w' : W} (h : Pt env ts t w) (k : Keep w w') : Pt env ts t w' := ⟨h.1.keep k, k.ctx t h.2.1, h.2.2.keep k⟩

theorem Pt.emit {t : Nat} {w : W} (h : Pt env ts t w) {e : Ev} (hs : SnapAt env ts w.trace ⟨e, w.cl, w.fx⟩) (hb : ∀ t, e ≠ .body t)
    (hf : ∀ x, e ≠ .fixturesDown x) (he : ∀ t m, e ≠ .start t m) : Pt env ts t (emit e w) := ⟨h.1.emit hs hb hf, h.2.1, h.2.2.emit he⟩

/-! ## The pieces before and after the scope of the test -/

/-- `P` is kept by a piece of the program, whatever it raises. -/
def Stays (P : W → Prop) (m : M) : Prop := ∀ w, P w → P (m w).2

theorem stays_seq {P : W → Prop} {m k : M} (hm : Stays P m) (hk : Stays P k) : Stays P (seq m k) := by
  intro w hw
  have h := hm w hw
  unfold seq
  split <;> rename_i heq <;> rw [heq] at h
  · exact h
  · exact hk _ h

theorem stays_fin {P : W → Prop} {m k : M} (hm : Stays P m) (hk : Stays P k) : Stays P (fin m k) := fun w hw => hk _ (hm w hw)

theorem handle_or (b : Bool) (m : M) (w : W) :
    (handle b m w).2 = (m w).2 ∨ ∃ x, (m w).1 = some x ∧ (handle b m w).2 = record x.kind (m w).2 := by
  unfold handle
  split
  · rename_i heq; rw [heq]; exact .inl rfl
  · rename_i x w1 heq
    rw [heq]
    simp only
    by_cases hh : x.handled = true
    · rw [if_pos hh]; left; split <;> rfl
    · rw [if_neg hh]; right; refine ⟨x, rfl, ?_⟩; split <;> rfl

theorem stays_handle {P : W → Prop} {b : Bool} {m : M} (hm : Stays P m) (hP : ∀ w w', P w → Keep w w' → P w') : Stays P (handle b m) := by
  intro w hw
  rcases handle_or b m w with h | ⟨x, -, h⟩ <;> rw [h]
  · exact hm w hw
  · exact hP _ _ (hm w hw) (keep_record ..)

theorem stays_user {P : W → Prop} (c : Code) (hP : ∀ w w', P w → Keep w w' → P w') : Stays P (user c) := fun w hw => hP w _ hw (keep_user c w)

theorem stays_hook {P : W → Prop} {e : Ev} (c : Code) (hP : ∀ w w', P w → Keep w w' → P w') (he : ∀ w, P w → P (emit e w)) :
    Stays P (hook e c) := stays_seq (m := act (emit e)) he (stays_user c hP)

theorem pt_avoided (t : T) : Stays (Pt env ts t.id) (seq (act (addSkips t.avoid)) (hook (.avoided t.id) t.avoidedHook)) :=
  stays_seq (fun _ h => h.keep (keep_addSkips ..)) (stays_hook _ (fun _ _ h => h.keep)
    (fun _ h => h.emit ⟨h.1.noTest, h.2.1⟩ (by simp) (by simp) (by simp)))

theorem pt_summary (t : T) (w : W) (h : Pt env ts t.id w) (hr : Calm w.trace → Marked t.id w.cl ∨ RanOk ts w.trace t.id) :
    Pt env ts t.id (fireSummary t w).2 := by
  have h1 := stays_user (P := Pt env ts t.id) t.summary (fun _ _ h => h.keep) _
    (h.emit (e := .summary t.id (summaryHook (w.cl.results (.test t.id)))) ⟨h.1.noTest, h.2.1, rfl, hr⟩ (by simp) (by simp) (by simp))
  rcases handle_or false (fun w => hook (.summary t.id (summaryHook (w.cl.results (.test t.id)))) t.summary w) w with h' | ⟨x, -, h'⟩
  · rw [fireSummary, h']; exact h1
  · rw [fireSummary, h']; exact h1.keep (keep_record ..)

theorem ctrlEnd_spec (t : T) (prev : Option RKey) {w : W} (h : Out env ts w) (hc : w.started = true → Ctx t.id w.cl) :
    Out env ts (ctrlEnd t prev w).2 ∧ (ctrlEnd t prev w).2.started = false ∧ (Idle w → Idle (ctrlEnd t prev w).2) ∧
    (w.started = false → ctrlEnd t prev w = (none, w)) := by
  unfold ctrlEnd
  by_cases hs : w.started = true
  · rw [if_neg (by simp [hs])]
    have hk := keep_forbid w
    have h1 : Out env ts (emit (.fin t.id) (forbid w)) :=
      (h.keep hk).emit ⟨(h.keep hk).noTest, hk.ctx _ (hc hs)⟩ (by simp) (by simp)
    have hk2 := (keep_user t.endHook (emit (.fin t.id) (forbid w))).trans (keep_permit w.cl.allowImplicit _)
    have hst : (user t.endHook (emit (.fin t.id) (forbid w))).2.started = false := (side_user _ _).started
    refine ⟨(h1.keep hk2).setResult prev, hst, fun hi => ?_, fun h => (by rw [h] at hs; cases hs)⟩
    have := ((hi.keep hk).emit (e := .fin t.id) (by simp)).keep hk2
    exact this
  · simp only [Bool.not_eq_true] at hs
    rw [if_pos (by simp [hs])]
    exact ⟨h, hs, id, fun _ => rfl⟩

/-! ## Closing scopes -/

theorem Popped.ok {s : Sc} {hk : Option Kind} {w : W} {rest : List Sc} {tl : List Nat} {r : Option X × W}
    (p : Popped s hk w rest tl r) (ht : TraceOk env ts w.trace) (hc : SnapAt env ts w.trace ⟨.closing s, w.cl, w.fx⟩)
    (hn : "test" ∉ tl.map w.cl.scopeName) (hu : ∃ u, w.cl.stack = u :: tl ∧ w.cl.scopeName u = scName s)
    (hl : ∀ b, w.trace.getLast? = some b → ∀ t, b.ev = .body t → s = .test ∧ w.fx = b.fx) :
    TraceOk env ts r.2.trace ∧ (∀ b, r.2.trace.getLast? = some b → ∀ t, b.ev ≠ .body t) ∧ (Calm r.2.trace → Calm w.trace) ∧ lastStart r.2.trace = lastStart w.trace := by
  obtain ⟨F, R, htr, hF, hR⟩ := p.trace
  have hnt : ∀ cl : Cleanup.St, cl.stack = tl → cl.scopeName = w.cl.scopeName → NoTest cl := by
    intro cl h1 h2; unfold NoTest names; rw [h1, h2]; exact hn
  have h1 : TraceOk env ts (w.trace ++ [⟨.closing s, w.cl, w.fx⟩]) := by
    refine ht.snoc hc ?_
    intro b hb
    refine ⟨fun t hbt => ?_, fun _ _ _ hx => (by cases hx)⟩
    have hx := hl b hb t hbt
    exact ⟨(by rw [hx.1]), hx.2⟩
  have h2 : TraceOk env ts (w.trace ++ [⟨.closing s, w.cl, w.fx⟩] ++ F) ∧
      ∀ b, (w.trace ++ [(⟨.closing s, w.cl, w.fx⟩ : Snap)] ++ F).getLast? = some b → ∀ t, b.ev ≠ .body t := by
    rcases hF with rfl | ⟨cl, rfl, hcl1, hcl2⟩
    · rw [List.append_nil]
      refine ⟨h1, fun b hb t => ?_⟩
      simp only [List.getLast?_append, List.getLast?_singleton, Option.some_or, Option.some.injEq] at hb
      subst hb; simp
    · refine ⟨h1.snoc ?_ ?_, fun b hb t => ?_⟩
      · have := hnt cl hcl1 hcl2; cases s <;> exact this
      · intro b hb
        simp only [List.getLast?_append, List.getLast?_singleton, Option.some_or, Option.some.injEq] at hb
        subst hb
        exact ⟨fun t ht => (by cases ht), fun x y hx hy => (by cases hx; cases hy; obtain ⟨u, hu1, hu2⟩ := hu; exact ⟨rfl, rfl, u, by rw [hcl1]; exact hu1, hu2⟩)⟩
      · simp only [List.getLast?_append, List.getLast?_singleton, Option.some_or, Option.some.injEq] at hb
        subst hb; simp
  refine ⟨?_, ?_, fun h => ?_, ?_⟩
  · rw [htr]
    rcases hR with ⟨rfl, -⟩ | ⟨x, -, rfl⟩
    · rw [List.append_nil]; exact h2.1
    · refine h2.1.snoc ?_ ?_
      · have := hnt r.2.cl p.stack p.scopeName; cases s <;> exact this
      · intro b hb
        exact ⟨fun t ht => absurd ht (h2.2 b hb t), fun _ _ _ hx => (by cases hx)⟩
  · rw [htr]
    rcases hR with ⟨rfl, -⟩ | ⟨x, -, rfl⟩
    · rw [List.append_nil]; exact h2.2
    · intro b hb t
      simp only [List.getLast?_append, List.getLast?_singleton, Option.some_or, Option.some.injEq] at hb
      subst hb; simp
  · rw [htr] at h
    exact h.left.left.left
  · have e1 : lastStart (w.trace ++ [⟨.closing s, w.cl, w.fx⟩]) = lastStart w.trace := lastStart_none _ (by simp)
    have e2 : lastStart (w.trace ++ [⟨.closing s, w.cl, w.fx⟩] ++ F) = lastStart w.trace := by
      rcases hF with rfl | ⟨cl, rfl, -⟩
      · rw [List.append_nil]; exact e1
      · rw [lastStart_none _ (by simp)]; exact e1
    rw [htr]
    rcases hR with ⟨rfl, -⟩ | ⟨x, -, rfl⟩
    · rw [List.append_nil]; exact e2
    · rw [lastStart_none _ (by simp)]; exact e2

theorem mem_tail_names {cl : Cleanup.St} {n : String} {l : List String} (h : names cl = n :: l) :
    ∃ u tl, cl.stack = u :: tl ∧ cl.scopeName u = n ∧ tl.map cl.scopeName = l := by
  unfold names at h
  cases hs : cl.stack with
  | nil => rw [hs] at h; cases h
  | cons u tl =>
    rw [hs] at h
    simp only [List.map_cons, List.cons.injEq] at h
    exact ⟨u, tl, rfl, h.1, h.2⟩

/-- Closing the innermost scope outside of tests. -/
theorem Out.pop {w : W} (h : Out env ts w) {s : Sc} {rest : List Sc} (hs : w.scopes = s :: rest) :
    Out env ts (pop env s none w).2 ∧ lastStart (Whole.pop env s none w).2.trace = lastStart w.trace ∧ (∃ u, w.cl.stack = u :: (Whole.pop env s none w).2.cl.stack) ∧
    ∃ tl, Popped s none w rest tl (Whole.pop env s none w) := by
  obtain ⟨rr, hpre⟩ := h.pre
  rw [hs, List.map_cons, List.cons_append] at hpre
  obtain ⟨u, tl, h1, h2, h3⟩ := mem_tail_names hpre
  have p := pop_match env s none w hs h1 h2
  have hg := grows_pop env s none w
  have hst : s ≠ .test := by rcases h.shape with h' | h' | h' <;> rw [hs] at h' <;> cases h' <;> simp
  have hno : "test" ∉ tl.map w.cl.scopeName := by
    have := h.noTest
    unfold NoTest names at this
    rw [h1] at this
    exact fun hm => this (List.mem_cons_of_mem _ hm)
  obtain ⟨t1, t2, t3, t4⟩ := p.ok h.trace (by have := h.noTest; cases s <;> first | exact absurd rfl hst | exact this) hno ⟨u, h1, h2⟩
    (fun b hb t hbt => absurd hbt (h.last b hb t))
  have hn : names (Whole.pop env s none w).2.cl = tl.map w.cl.scopeName := by unfold names; rw [p.stack, p.scopeName]
  refine ⟨⟨h.reach.trans hg.reach, hg.fx h.fx, ?_, ⟨rr, ?_⟩, ?_, t1, t2, fun hc => ?_⟩, t4, ⟨u, by rw [p.stack]; exact h1⟩, tl, p⟩
  · rw [p.scopes]
    rcases h.shape with h' | h' | h' <;> rw [hs] at h' <;> cases h' <;> simp
  · rw [hn, h3, p.scopes]
  · unfold NoTest; rw [hn]; exact hno
  · have := h.calm (t3 hc)
    rw [hs, List.map_cons, List.cons_append] at this
    unfold names at this
    rw [h1, List.map_cons, List.cons.injEq] at this
    rw [hn, p.scopes]
    exact this.2

/-! ## The scope of a test -/

structure In (env : Env) (ts : List T) (t : T) (u : Nat) (w : W) : Prop where
  reach : Reach {} w.cl
  fx : Fix.Session env.defs env.fixture w.fx
  scopes : ∃ rest, w.scopes = .test :: rest ∧ (rest = [] ∨ rest = [.session] ∨ rest = [.module, .session])
  inTest : InTest t.id u w.cl
  pre : ∃ r, names w.cl = w.scopes.map scName ++ (r ++ ["session-global"])
  trace : TraceOk env ts w.trace
  last : ∀ b, w.trace.getLast? = some b → ∀ t, b.ev = .body t → b.fx = w.fx
  calm : Calm w.trace → names w.cl = fullNames ∧ w.scopes = [.test, .module, .session]
  lastModule : w.lastModule = some t.module
  lastTest : w.lastTest = some t.id
  cont : Calm w.trace → ∀ m0 st0, lastStart w.trace = some (m0, st0) → Cont m0 st0 t.module w.cl.stack

theorem In.side {t : T} {u : Nat} {w w' : W} (h : In env ts t u w) (k : Side w w') (hf : w'.fx = w.fx) : In env ts t u w' := by
  have hn := names_frame k.frame
  obtain ⟨tl, hs, hno⟩ := h.inTest.tl
  refine ⟨h.reach.trans k.reach, hf ▸ h.fx, k.scopes ▸ h.scopes, ⟨⟨k.frame.curResult.trans h.inTest.ctx.1, k.frame.curTest.trans h.inTest.ctx.2⟩,
    ⟨tl, k.frame.stack.trans hs, by rw [k.frame.scopeName]; exact hno⟩, by rw [k.frame.scopeName]; exact h.inTest.name,
    k.own t.id u h.inTest.ctx.1 h.inTest.own⟩, ?_, k.trace ▸ h.trace, ?_, ?_, k.lastModule ▸ h.lastModule, k.lastTest ▸ h.lastTest,
    by rw [k.trace, k.frame.stack]; exact h.cont⟩
  · rw [hn, k.scopes]; exact h.pre
  · rw [k.trace, hf]; exact h.last
  · rw [k.trace, hn, k.scopes]; exact h.calm

theorem In.mark {t : T} {u : Nat} {b : Bool} {w : W} (h : In env ts t u w) : In env ts t u (mark t b w) :=
  ⟨h.reach.trans (reach_start ..), h.fx, h.scopes, ⟨h.inTest.ctx, h.inTest.tl, h.inTest.name, h.inTest.own⟩, h.pre, h.trace, h.last, h.calm,
   h.lastModule, h.lastTest, h.cont⟩

theorem In.setUp {t : T} {u : Nat} {w : W} (h : In env ts t u w) (hl : ∀ b, w.trace.getLast? = some b → ∀ t, b.ev ≠ .body t) :
    In env ts t u (setUp env t w).2 ∧ (setUp env t w).2.trace = w.trace := by
  have hg := grows_setUp env t w
  have k := side_setUp env t w
  have hn := names_frame k.frame
  obtain ⟨tl, hs, hno⟩ := h.inTest.tl
  refine ⟨⟨h.reach.trans k.reach, hg.fx h.fx, k.scopes ▸ h.scopes, ⟨⟨k.frame.curResult.trans h.inTest.ctx.1, k.frame.curTest.trans h.inTest.ctx.2⟩,
    ⟨tl, k.frame.stack.trans hs, by rw [k.frame.scopeName]; exact hno⟩, by rw [k.frame.scopeName]; exact h.inTest.name,
    k.own t.id u h.inTest.ctx.1 h.inTest.own⟩, ?_, k.trace ▸ h.trace, ?_, ?_, k.lastModule ▸ h.lastModule, k.lastTest ▸ h.lastTest,
    (by rw [k.trace, k.frame.stack]; exact h.cont)⟩, k.trace⟩
  · rw [hn, k.scopes]; exact h.pre
  · rw [k.trace]; exact fun b hb t ht => absurd ht (hl b hb t)
  · rw [k.trace, hn, k.scopes]; exact h.calm

theorem In.emit {t : T} {u : Nat} {w : W} (h : In env ts t u w) {e : Ev} (hs : SnapAt env ts w.trace ⟨e, w.cl, w.fx⟩)
    (hl : ∀ b, w.trace.getLast? = some b → ∀ t, b.ev ≠ .body t) (hf : ∀ x, e ≠ .fixturesDown x)
    (hm : ∀ i m, e = .start i m → m = t.module) : In env ts t u (emit e w) := by
  refine ⟨h.reach, h.fx, h.scopes, h.inTest, h.pre, h.trace.snoc hs ?_, ?_, fun hc => h.calm hc.left, h.lastModule, h.lastTest, ?_⟩
  · intro b hb
    exact ⟨fun t ht => absurd ht (hl b hb t), fun _ y _ hx => absurd hx (hf y)⟩
  · intro b hb t _
    simp only [Whole.emit, List.getLast?_append, List.getLast?_singleton, Option.some_or, Option.some.injEq] at hb
    subst hb; rfl
  · intro hc m0 st0 hl
    simp only [Whole.emit] at hl
    rw [lastStart_snoc] at hl
    cases hso : startOf ⟨e, w.cl, w.fx⟩ with
    | none => rw [hso] at hl; exact h.cont hc.left m0 st0 hl
    | some p =>
      rw [hso] at hl
      simp only [Option.some_or, Option.some.injEq] at hl
      subst hl
      have hst : st0 = w.cl.stack := by
        unfold startOf at hso; split at hso <;> simp_all
      subst hst
      refine ⟨fun _ => rfl, fun hne => absurd ?_ hne⟩
      unfold startOf at hso
      split at hso
      · rename_i heq
        simp only [Option.some.injEq, Prod.mk.injEq] at hso
        rw [← hso.1]
        exact (hm _ _ heq).symm
      · cases hso

theorem In.handle {t : T} {u : Nat} {m : M} {b : Bool} {w : W} (h : In env ts t u (m w).2) : In env ts t u (handle b m w).2 := by
  rcases handle_or b m w with h' | ⟨x, -, h'⟩ <;> rw [h']
  · exact h
  · exact h.side (side_record ..) rfl

/-- The function of the test. -/
theorem In.testRun {t : T} {u : Nat} {w : W} (h : In env ts t u w) (hm : t ∈ ts) (hl : ∀ b, w.trace.getLast? = some b → ∀ t, b.ev ≠ .body t) :
    In env ts t u (testRun env t w).2 ∧ lastStart (Whole.testRun env t w).2.trace = lastStart w.trace := by
  obtain ⟨h1, h2⟩ := h.setUp hl
  have hok : (Whole.setUp env t w).1 = none → ∃ vs, Fix.setup (fixEnv env t) env.fuel t.fixtures w.fx = (.ok vs, (Whole.setUp env t w).2.fx) := by
    unfold Whole.setUp
    split
    · rename_i vs fx heq; intro _; exact ⟨vs, heq⟩
    · intro h; cases h
  unfold Whole.testRun seq
  split
  · rename_i heq; rw [heq] at h1 h2; exact ⟨h1, congrArg lastStart h2⟩
  · rename_i w1 heq
    rw [heq] at h1 h2 hok
    simp only at h1 h2 hok
    obtain ⟨vs, hvs⟩ := hok (by trivial)
    have h3 : In env ts t u (Whole.emit (.body t.id) w1) := by
      refine h1.emit (e := .body t.id) ⟨u, h1.inTest, fun hc => (h1.calm hc).1, t, hm, rfl, w.fx, vs, h.fx, hvs⟩ (h2 ▸ hl) (by simp) (by simp)
    refine ⟨h3.side (side_user t.body _) (user_fx _ _), ?_⟩
    have he : (hook (.body t.id) t.body w1).2.trace = (Whole.emit (.body t.id) w1).trace := (side_user t.body (Whole.emit (.body t.id) w1)).trace
    rw [he]
    show lastStart (w1.trace ++ [_]) = _
    rw [lastStart_none _ (by simp), h2]

/-- Begin to end of the test scope. -/
theorem In.run {t : T} {u : Nat} {w : W} (h : In env ts t u w) (hm : t ∈ ts) (hl : ∀ b, w.trace.getLast? = some b → ∀ t, b.ev ≠ .body t)
    (hfresh : ∀ r, .placed r u ∉ w.cl.log) (hs : w.started = false) :
    In env ts t u (seq (ctrlStart t) (Whole.handle true (Whole.testRun env t)) w).2 ∧
    ∃ st, lastStart (seq (ctrlStart t) (Whole.handle true (Whole.testRun env t)) w).2.trace = some (t.module, st) := by
  have h1 : In env ts t u (ctrlStart t w).2 ∧ (∀ b, (ctrlStart t w).2.trace.getLast? = some b → ∀ t, b.ev ≠ .body t) ∧
      ∃ st, lastStart (ctrlStart t w).2.trace = some (t.module, st) := by
    unfold ctrlStart
    split
    · rename_i hst; rw [hs] at hst; cases hst
    · have h2 := (h.mark (b := true)).emit (e := .start t.id t.module) ⟨⟨u, (h.mark (b := true)).inTest, hfresh, fun hc => ((h.mark (b := true)).calm hc).1⟩, h.cont⟩ hl (by simp) (by simp)
      refine ⟨h2.side (side_user t.startHook _) (user_fx _ _), ?_⟩
      have he : (seq (act (Whole.mark t true)) (hook (.start t.id t.module) t.startHook) w).2.trace = w.trace ++ [⟨.start t.id t.module, (Whole.mark t true w).cl, w.fx⟩] :=
        (side_user t.startHook (Whole.emit (.start t.id t.module) (Whole.mark t true w))).trace
      rw [he]
      refine ⟨fun b hb => ?_, _, lastStart_snoc _ _⟩
      simp only [List.getLast?_append, List.getLast?_singleton, Option.some_or, Option.some.injEq] at hb
      subst hb; simp
  unfold seq
  split <;> rename_i heq <;> rw [heq] at h1
  · exact ⟨h1.1, h1.2.2⟩
  · obtain ⟨h2, h3⟩ := h1.1.testRun hm h1.2.1
    refine ⟨h2.handle, ?_⟩
    obtain ⟨st, hst⟩ := h1.2.2
    refine ⟨st, ?_⟩
    rename_i w1
    have : (Whole.handle true (Whole.testRun env t) w1).2.trace = (Whole.testRun env t w1).2.trace := by
      rcases handle_or true (Whole.testRun env t) w1 with h' | ⟨x, -, h'⟩ <;> rw [h']
      rfl
    rw [this, h3]; exact hst

/-- Closing the scope of the test. -/
theorem In.endTest {t : T} {u : Nat} {w : W} (h : In env ts t u w) {st : List Nat} (hst : lastStart w.trace = some (t.module, st)) : Pt env ts t.id (endTest env t w).2 := by
  unfold Whole.endTest
  rw [if_neg (by rw [h.lastTest]; simp)]
  obtain ⟨rest, hs, hrest⟩ := h.scopes
  obtain ⟨tl, h1, hno⟩ := h.inTest.tl
  have p := pop_match env .test t.beforeCleanups w hs h1 h.inTest.name
  have hg := grows_pop env .test t.beforeCleanups w
  obtain ⟨t1, t2, t3, t4⟩ := p.ok h.trace ⟨t.id, u, h.inTest⟩ hno ⟨u, h1, h.inTest.name⟩ (fun b hb t' hbt => ⟨rfl, (h.last b hb t' hbt).symm⟩)
  have hn : names (Whole.pop env .test t.beforeCleanups w).2.cl = tl.map w.cl.scopeName := by unfold names; rw [p.stack, p.scopeName]
  have hnw : names w.cl = "test" :: tl.map w.cl.scopeName := by unfold names; rw [h1, List.map_cons, h.inTest.name]
  refine ⟨⟨h.reach.trans hg.reach, hg.fx h.fx, p.scopes ▸ hrest, ?_, ?_, t1, t2, fun hc => ?_⟩,
    ⟨p.curResult.trans h.inTest.ctx.1, p.curTest.trans h.inTest.ctx.2⟩, (fun hl => by rw [p.lastModule, h.lastModule] at hl; cases hl), fun hc _ => ?_, fun hc m0 st0 hl => ?_⟩
  · obtain ⟨rr, hpre⟩ := h.pre
    rw [hnw, hs] at hpre
    simp only [List.map_cons, List.cons_append, List.cons.injEq] at hpre
    exact ⟨rr, by rw [hn, p.scopes]; exact hpre.2⟩
  · unfold NoTest; rw [hn]; exact hno
  · obtain ⟨c1, c2⟩ := h.calm (t3 hc)
    rw [hs] at c2; cases c2
    rw [hnw] at c1
    simp only [fullNames, List.cons.injEq] at c1
    rw [hn, p.scopes, c1.2]; rfl
  · obtain ⟨c1, c2⟩ := h.calm (t3 hc)
    rw [hs] at c2; cases c2
    exact p.scopes
  · rw [t4] at hl
    have hl' := hl
    rw [hst] at hl'
    cases hl'
    have := (h.cont (t3 hc) _ _ hl).1 rfl
    rw [h1] at this
    exact ⟨p.lastModule.trans h.lastModule, p.stack.trans this⟩

/-! ## Beginning a test -/

theorem Out.push {w : W} (h : Out env ts w) (s : Sc) (hs : s ≠ .test)
    (hshape : s :: w.scopes = [.session] ∨ s :: w.scopes = [.module, .session]) : Out env ts (Whole.push s w) := by
  have hn : names (Whole.push s w).cl = scName s :: names w.cl := names_push h.reach _
  refine ⟨h.reach.trans (reach_push ..), h.fx, .inr hshape, ?_, ?_, h.trace, h.last, fun hc => ?_⟩
  · obtain ⟨r, hr⟩ := h.pre
    exact ⟨r, by rw [hn, hr]; rfl⟩
  · unfold NoTest; rw [hn]
    intro hm
    rcases List.mem_cons.1 hm with hm | hm
    · cases s <;> simp_all [scName]
    · exact h.noTest hm
  · rw [hn, h.calm hc]; rfl

theorem Out.dropScopes {w : W} (h : Out env ts w) (hc : ¬ Calm w.trace) : Out env ts { w with scopes := [] } := by
  obtain ⟨r, hr⟩ := h.pre
  exact ⟨h.reach, h.fx, .inl rfl, ⟨w.scopes.map scName ++ r, by simp [hr]⟩, h.noTest, h.trace, h.last, fun h' => absurd h' hc⟩

theorem escapes_cases {k : Kind} (h : k.escapes = true) : k = .skip ∨ k.isException = false := by cases k <;> simp_all [Kind.escapes, Kind.isException]

/-- Changing the module. -/
theorem changeModule_spec (t : T) {w : W} (h : Out env ts w) (hc : Ctx t.id w.cl)
    (hi : w.lastModule = none ∧ w.scopes = [.session] ∨ w.lastModule ≠ none ∧ (Calm w.trace → w.scopes = [.module, .session]))
    (hl : Calm w.trace → ∀ m0 st0, lastStart w.trace = some (m0, st0) → w.lastModule = some m0 ∧ w.cl.stack = st0.tail) :
    let r := changeModule env t w
    Out env ts r.2 ∧ Ctx t.id r.2.cl ∧ r.2.started = w.started ∧ r.2.lastModule = w.lastModule ∧
    (r.1 = none → Calm r.2.trace → r.2.scopes = [.module, .session]) ∧
    (∀ x, r.1 = some x → w.lastModule ≠ none ∧ (Calm r.2.trace → x.kind = .skip ∨ x.kind.isException = false)) ∧
    (r.1 = none → Calm r.2.trace → ∀ m0 st0, lastStart r.2.trace = some (m0, st0) → Cont m0 st0 t.module (r.2.cl.nextUid :: r.2.cl.stack)) := by
  simp only
  unfold changeModule
  by_cases hm : w.lastModule = some t.module
  · rw [if_neg (by simp [hm])]
    rcases hi with ⟨h1, -⟩ | ⟨h1, h2⟩
    · rw [h1] at hm; cases hm
    · refine ⟨h, hc, rfl, rfl, fun _ => h2, fun x hx => (by cases hx), fun _ hcalm m0 st0 hst => ?_⟩
      obtain ⟨e1, e2⟩ := hl hcalm m0 st0 hst
      rw [hm] at e1; cases e1
      exact ⟨fun _ => e2, fun hne => absurd rfl hne⟩
  · rw [if_pos hm]
    rcases hi with ⟨h1, h2⟩ | ⟨h1, h2⟩
    · rw [if_neg (by simp [h1])]
      simp only
      rw [if_neg (by rw [h2]; simp)]
      refine ⟨h.push .module (by simp) (by simp [h2]), hc, rfl, rfl, fun _ _ => by simp [push, h2], fun x hx => (by cases hx), fun _ hcalm m0 st0 hst => ?_⟩
      have := (hl hcalm m0 st0 hst).1
      rw [h1] at this; cases this
    · rw [if_pos h1]
      by_cases hs : ∃ rest, w.scopes = .module :: rest
      · obtain ⟨rest, hs⟩ := hs
        have hrest : rest = [.session] := by rcases h.shape with h' | h' | h' <;> rw [hs] at h' <;> cases h'; rfl
        subst hrest
        have hg := grows_pop env .module none w
        obtain ⟨o, e4, ⟨u, e5⟩, tl, p⟩ := h.pop hs
        split <;> rename_i heq <;> rw [heq] at o p e4 e5 hg
        · rename_i x w1
          refine ⟨o, ⟨p.curResult.trans hc.1, p.curTest.trans hc.2⟩, p.started, p.lastModule, fun hx => (by cases hx), fun x' hx => ⟨h1, fun _ => ?_⟩, fun hx => (by cases hx)⟩
          cases hx
          exact escapes_cases (p.escapes (by simp) x rfl)
        · rename_i w1
          have hsc : w1.scopes = [.session] := p.scopes
          rw [if_neg (by rw [hsc]; simp)]
          refine ⟨o.push .module (by simp) (by simp [hsc]), ⟨p.curResult.trans hc.1, p.curTest.trans hc.2⟩, p.started, p.lastModule,
            fun _ _ => by simp [push, hsc], fun x hx => (by cases hx), fun _ hcalm m0 st0 hst => ?_⟩
          have hcw : Calm w.trace := by
            obtain ⟨F, R, htr, -⟩ := p.trace
            have hcalm' : Calm w1.trace := hcalm
            simp only at htr
            rw [htr] at hcalm'
            exact hcalm'.left.left.left
          obtain ⟨e1, e2⟩ := hl hcw m0 st0 (e4 ▸ hst)
          simp only at e5
          refine ⟨fun he => absurd (he ▸ e1) hm, fun _ => ⟨?_, fun b hb => ?_⟩⟩
          · simp only [push, Cleanup.pushScope, Cleanup.St.emit, List.drop_succ_cons, List.drop_zero]
            rw [← List.tail_drop, List.drop_one, ← e2, e5, List.tail_cons]
          · have hbu : b = u := by
              rw [e5] at e2
              cases st0 with
              | nil => cases e2
              | cons a st0 => rw [List.tail_cons] at e2; subst e2; simpa using hb.symm
            subst hbu
            have hlt := h.reach.inv.lt b (by rw [e5]; simp)
            have hle := hg.reach.nextUid
            have hnd := h.reach.inv.nodup
            rw [e5] at hnd
            have := (List.nodup_cons.1 hnd).1
            simp only at hle
            simp only [push, Cleanup.pushScope, Cleanup.St.emit, List.mem_cons, not_or]
            exact ⟨by omega, by omega, this⟩
      · -- the scope manager is out of step
        have hnc : ¬ Calm w.trace := fun hcalm => hs ⟨_, h2 hcalm⟩
        have hp : ∃ x, pop env .module none w = (some x, { w with scopes := [] }) := by
          unfold Whole.pop
          rcases h.shape with h' | h' | h'
          · refine ⟨{ kind := .error }, ?_⟩
            obtain ⟨cl, fx, sc, lm, lt, st, te, cu, sca, tr⟩ := w
            simp only at h'; subst h'; rfl
          · rw [h']; exact ⟨_, rfl⟩
          · exact absurd ⟨_, h'⟩ hs
        obtain ⟨x, hp⟩ := hp
        rw [hp]
        exact ⟨h.dropScopes hnc, hc, rfl, rfl, fun hx => (by cases hx), fun x' hx => ⟨h1, fun hcalm => absurd hcalm hnc⟩, fun hx => (by cases hx)⟩

/-- `begin_test` raises or opens a fresh scope. -/
theorem beginTest_spec (t : T) {w : W} (h : Pt env ts t.id w) :
    let r := beginTest env t w
    r.2.started = w.started ∧
    ((∃ x, r.1 = some x ∧ Out env ts r.2 ∧ Ctx t.id r.2.cl ∧ (Idle r.2 ∨ x.kind.isException = false) ∧ (Calm r.2.trace → x.kind.isException = false)) ∨
     (r.1 = none ∧ ∃ u, In env ts t u r.2 ∧ (∀ b, r.2.trace.getLast? = some b → ∀ t, b.ev ≠ .body t) ∧ ∀ c, .placed c u ∉ r.2.cl.log)) := by
  simp only
  obtain ⟨ho, hc, hi⟩ := h
  unfold beginTest
  have h0 : let w0 := (if w.lastModule = none then push .session w else w)
      Out env ts w0 ∧ Ctx t.id w0.cl ∧ w0.started = w.started ∧
      (w0.lastModule = none ∧ w0.scopes = [.session] ∨ w0.lastModule ≠ none ∧ (Calm w0.trace → w0.scopes = [.module, .session])) ∧
      (Calm w0.trace → ∀ m0 st0, lastStart w0.trace = some (m0, st0) → w0.lastModule = some m0 ∧ w0.cl.stack = st0.tail) := by
    simp only
    split
    · rename_i hl
      have hs := hi.1 hl
      exact ⟨ho.push .session (by simp) (by simp [hs]), hc, rfl, .inl ⟨hl, by simp [push, hs]⟩, fun hcalm m0 st0 hst => absurd (hi.2.2 hcalm m0 st0 hst).1 (by rw [hl]; simp)⟩
    · rename_i hl
      exact ⟨ho, hc, rfl, .inr ⟨hl, fun hcalm => hi.2.1 hcalm hl⟩, hi.2.2⟩
  simp only at h0
  generalize (if w.lastModule = none then push .session w else w) = w0 at h0
  obtain ⟨o0, c0, s0, i0, j0⟩ := h0
  obtain ⟨o1, c1, s1, l1, n1, x1, y1⟩ := changeModule_spec t o0 c0 i0 j0
  split <;> rename_i heq <;> rw [heq] at o1 c1 s1 l1 n1 x1 y1 <;> simp only at o1 c1 s1 l1 n1 x1 y1
  · rename_i x w1
    refine ⟨s1.trans s0, .inl ⟨x, rfl, ?_, c1, ?_, ?_⟩⟩
    · exact o1.emit ⟨o1.noTest, c1⟩ (by simp) (by simp)
    · obtain ⟨x2, x3⟩ := x1 x rfl
      by_cases hcalm : Calm w1.trace
      · rcases x3 hcalm with hk | hk
        · left
          have hno : ¬ Calm (emit (.beginRaised t.id x.kind) w1).trace := fun hcalm' =>
            absurd (hcalm' ⟨.beginRaised t.id x.kind, w1.cl, w1.fx⟩ (by simp [emit]) t.id) (by simp [hk])
          exact ⟨fun hl => absurd (l1 ▸ hl) x2, fun hcalm' => absurd hcalm' hno, fun hcalm' => absurd hcalm' hno⟩
        · exact .inr hk
      · left
        exact ⟨fun hl => absurd (l1 ▸ hl) x2, fun hcalm' => absurd hcalm'.left hcalm, fun hcalm' => absurd hcalm'.left hcalm⟩
    · intro hcalm
      rcases (x1 x rfl).2 hcalm.left with hk | hk
      · exact absurd (hcalm ⟨.beginRaised t.id x.kind, w1.cl, w1.fx⟩ (by simp [emit]) t.id) (by simp [hk])
      · exact hk
  · rename_i w1
    refine ⟨s1.trans s0, .inr ⟨rfl, w1.cl.nextUid, ?_, o1.last, ?_⟩⟩
    · have hn : names (push .test w1).cl = "test" :: names w1.cl := names_push o1.reach _
      have hne : w1.cl.stack ≠ [] := by
        obtain ⟨r, hr⟩ := o1.pre
        intro he
        unfold names at hr
        rw [he] at hr
        have := congrArg List.length hr
        simp at this
      refine ⟨o1.reach.trans (reach_push ..), o1.fx, ⟨w1.scopes, rfl, o1.shape⟩, ⟨c1, ⟨w1.cl.stack, rfl, ?_⟩, ?_, ?_⟩, ?_, o1.trace,
        fun b hb t' ht => absurd ht (o1.last b hb t'), fun hcalm => ?_, (by simp [push]), rfl, fun hcalm => y1 trivial hcalm⟩
      · have := tl_push o1.reach "test"
        exact this ▸ o1.noTest
      · simp [push, Cleanup.pushScope, Cleanup.St.emit, scName]
      · intro r hr
        exact absurd hr (by
          simp only [push, Cleanup.pushScope, Cleanup.St.emit, o1.reach.inv.pend hne, List.map_nil, List.append_nil, List.mem_append, List.mem_singleton, reduceCtorEq, or_false]
          intro hp; have := o1.reach.inv.ltLog _ _ hp; omega)
      · obtain ⟨r, hr⟩ := o1.pre
        exact ⟨r, by have := hn; simp only [push] at this ⊢; rw [this, hr]; rfl⟩
      · have hs := n1 trivial hcalm
        refine ⟨?_, by simp [push, hs]⟩
        have := hn; simp only [push] at this ⊢
        rw [this, o1.calm hcalm, hs]; rfl
    · have hne : w1.cl.stack ≠ [] := by
        obtain ⟨r, hr⟩ := o1.pre
        intro he
        unfold names at hr
        rw [he] at hr
        have := congrArg List.length hr
        simp at this
      intro c
      simp only [push, Cleanup.pushScope, Cleanup.St.emit, o1.reach.inv.pend hne, List.map_nil, List.append_nil, List.mem_append, List.mem_singleton, reduceCtorEq, or_false]
      intro hp; have := o1.reach.inv.ltLog _ _ hp; omega

/-! ## The runner -/

/-- Stopped by an exception that nothing in the runner catches, or ready for the next test. -/
def Going (r : Option X × W) : Prop := Idle r.2 ∨ ∃ x, r.1 = some x ∧ x.kind.isException = false ∧ r.2.started = false

def Post (env : Env) (ts : List T) (t : Nat) (r : Option X × W) : Prop := Out env ts r.2 ∧ Ctx t r.2.cl ∧ Going r

theorem beginRunEnd_post (t : T) (hm : t ∈ ts) {w : W} (h : Pt env ts t.id w) (hs : w.started = false) : Post env ts t.id (beginRunEnd env t w) := by
  obtain ⟨s1, h1⟩ := beginTest_spec (env := env) t h
  unfold beginRunEnd seq
  rcases h1 with ⟨x, hx, ho, hc, hi, -⟩ | ⟨hx, u, hin, hl, hf⟩
  · split <;> rename_i heq <;> rw [heq] at hx s1 ho hc hi
    · cases hx
      refine ⟨ho, hc, ?_⟩
      rcases hi with hi | hi
      · exact .inl hi
      · exact .inr ⟨_, rfl, hi, s1.trans hs⟩
    · cases hx
  · split <;> rename_i heq <;> rw [heq] at hx hin hl hf s1
    · cases hx
    · obtain ⟨h3, st, hst⟩ := hin.run hm hl hf (s1.trans hs)
      have h2 := h3.endTest hst
      exact ⟨h2.1, h2.2.1, .inl h2.2.2⟩

theorem notExc_escapes {k : Kind} (h : k.isException = false) : k.escapes = true := by cases k <;> simp_all [Kind.escapes, Kind.isException]

theorem going_handle {m : M} {w : W} (h : Going (m w)) (b : Bool) : Going (handle b m w) := by
  rcases h with h | ⟨x, hx, hk, hs⟩
  · left
    rcases handle_or b m w with h' | ⟨x, -, h'⟩ <;> rw [h']
    · exact h
    · exact h.keep (keep_record ..)
  · right
    unfold handle
    split <;> rename_i heq <;> rw [heq] at hx hs
    · cases hx
    · cases hx
      simp only at hs
      have hst : (if x.handled = true then ‹W› else record x.kind ‹W›).started = false := by split <;> exact hs
      simp only [notExc_escapes hk, Bool.not_true, Bool.and_false, Bool.false_eq_true, if_false]
      exact ⟨_, rfl, hk, hst⟩

/-! ### Tests announced as successful were run -/

theorem exceptSkip_snd (m : M) (w : W) : (exceptSkip m w).2 = (m w).2 := by
  unfold exceptSkip; split
  · rename_i heq; rw [heq]; split <;> rfl
  · rfl

theorem side_handle {m : M} {b : Bool} {w : W} : Side (m w).2 (handle b m w).2 := by
  rcases handle_or b m w with h | ⟨x, -, h⟩ <;> rw [h]
  · exact Side.refl _
  · exact side_record ..

theorem user_returns (c : Code) (w : W) : ((user c w).1 = none → Returns c w.cl) ∧ ∀ x, (user c w).1 = some x → x.handled = false := by
  unfold user Returns
  split <;> rename_i heq
  · exact ⟨fun h => (by cases h), fun x hx => (by cases hx; rfl)⟩
  · refine ⟨fun h => ⟨by rw [heq], ?_⟩, fun x hx => ?_⟩
    · cases hc : c.out with
      | none => rfl
      | some k => rw [hc] at h; cases h
    · simp only [Option.map_eq_some_iff] at hx
      obtain ⟨k, -, rfl⟩ := hx; rfl

theorem ctrlStart_ran (t : T) {w : W} (hs : w.started = false) :
    ((ctrlStart t w).1 = none → ∃ s ∈ (ctrlStart t w).2.trace, s.ev = .start t.id t.module ∧ Returns t.startHook s.cl) ∧
    ∀ x, (ctrlStart t w).1 = some x → x.handled = false := by
  unfold ctrlStart
  rw [if_neg (by simp [hs])]
  have h := user_returns t.startHook (emit (.start t.id t.module) (mark t true w))
  have he : (seq (act (mark t true)) (hook (.start t.id t.module) t.startHook) w).2.trace = w.trace ++ [⟨.start t.id t.module, (mark t true w).cl, w.fx⟩] :=
    (side_user t.startHook (emit (.start t.id t.module) (mark t true w))).trace
  refine ⟨fun hn => ⟨⟨.start t.id t.module, (mark t true w).cl, w.fx⟩, by rw [he]; simp, rfl, h.1 hn⟩, h.2⟩

theorem testRun_ran (env : Env) (t : T) (w : W) :
    ((testRun env t w).1 = none → ∃ s ∈ (testRun env t w).2.trace, s.ev = .body t.id ∧ Returns t.body s.cl) ∧
    ∀ x, (testRun env t w).1 = some x → x.handled = false := by
  have h0 : ∀ x, (setUp env t w).1 = some x → x.handled = false := by
    unfold setUp; split
    · intro x hx; cases hx
    · intro x hx; cases hx; rfl
  unfold testRun seq
  split <;> rename_i heq <;> rw [heq] at h0
  · exact ⟨fun h => (by cases h), fun x hx => h0 x hx⟩
  · rename_i w1
    have h := user_returns t.body (emit (.body t.id) w1)
    have he : (hook (.body t.id) t.body w1).2.trace = w1.trace ++ [⟨.body t.id, w1.cl, w1.fx⟩] := (side_user t.body (emit (.body t.id) w1)).trace
    exact ⟨fun hn => ⟨⟨.body t.id, w1.cl, w1.fx⟩, by rw [he]; simp, rfl, h.1 hn⟩, h.2⟩

theorem record_marked {t : Nat} {w : W} (h : w.cl.curTest = some t) (k : Kind) : Marked t (record k w).cl := by
  simp only [record, Cleanup.St.currentForUpdate, h]
  exact marked_record t _ k

theorem handle_snd (b : Bool) {m : M} {w w1 : W} {x : X} (h : m w = (some x, w1)) :
    (handle b m w).2 = if x.handled then w1 else record x.kind w1 := by
  unfold handle; rw [h]; simp only; split <;> rfl

theorem handle_marked {t : Nat} (b : Bool) {m : M} {w : W} {x : X} (hx : (m w).1 = some x) (hc : (m w).2.cl.curTest = some t)
    (hm : x.handled = true → Marked t (m w).2.cl) : Marked t (handle b m w).2.cl := by
  rw [handle_snd b (x := x) (w1 := (m w).2) (by rw [← hx])]
  split
  · rename_i hh; exact hm hh
  · exact record_marked hc _

theorem handle_none {b : Bool} {m : M} {w : W} (h : (m w).1 = none) : handle b m w = (none, (m w).2) := by
  unfold handle; split <;> rename_i heq
  · rw [heq]
  · rw [heq] at h; cases h

theorem testRun_curTest (env : Env) (t : T) (w : W) : (testRun env t w).2.cl.curTest = w.cl.curTest := by
  have h := (side_setUp env t w).frame.curTest
  unfold testRun seq
  split <;> rename_i heq <;> rw [heq] at h
  · exact h
  · rename_i w1
    exact (side_user t.body (emit (.body t.id) w1)).frame.curTest.trans h

theorem run_ran (env : Env) (t : T) {w : W} (hs : w.started = false) (hc : w.cl.curTest = some t.id) :
    let r := seq (ctrlStart t) (handle true (testRun env t)) w
    (∀ x, r.1 = some x → x.handled = true → Marked t.id r.2.cl) ∧
    (r.1 = none → Marked t.id r.2.cl ∨ (∃ s ∈ r.2.trace, s.ev = .start t.id t.module ∧ Returns t.startHook s.cl) ∧
      ∃ s ∈ r.2.trace, s.ev = .body t.id ∧ Returns t.body s.cl) := by
  simp only
  obtain ⟨h1, h2⟩ := ctrlStart_ran t hs
  have hc1 : (ctrlStart t w).2.cl.curTest = some t.id := by
    unfold ctrlStart
    rw [if_neg (by simp [hs])]
    exact (side_user t.startHook (emit (.start t.id t.module) (mark t true w))).frame.curTest.trans hc
  unfold seq
  split <;> rename_i heq <;> rw [heq] at h1 h2 hc1
  · refine ⟨fun x hx hh => ?_, fun h => (by cases h)⟩
    rw [h2 x hx] at hh; cases hh
  · rename_i w1
    simp only at h1 hc1
    obtain ⟨g1, g2⟩ := testRun_ran env t w1
    have hc2 := (testRun_curTest env t w1).trans hc1
    cases ht : (testRun env t w1).1 with
    | some x =>
      have := handle_marked true ht hc2 (fun hh => by rw [g2 x ht] at hh; cases hh)
      exact ⟨fun _ _ _ => this, fun _ => .inl this⟩
    | none =>
      rw [handle_none ht]
      refine ⟨fun x hx => (by cases hx), fun _ => .inr ⟨?_, g1 ht⟩⟩
      obtain ⟨s, hsm, hs2⟩ := h1 trivial
      obtain ⟨d, hd, -⟩ := (grows_testRun env t w1).trace
      exact ⟨s, by rw [hd]; exact List.mem_append_left _ hsm, hs2⟩

theorem beginRunEnd_ran (t : T) (hm : t ∈ ts) {w : W} (h : Pt env ts t.id w) (hs : w.started = false)
    (hn : (exceptSkip (handle true (beginRunEnd env t)) w).1 = none)
    (hcalm : Calm (exceptSkip (handle true (beginRunEnd env t)) w).2.trace) :
    Marked t.id (exceptSkip (handle true (beginRunEnd env t)) w).2.cl ∨ RanOk ts (exceptSkip (handle true (beginRunEnd env t)) w).2.trace t.id := by
  have htr : (exceptSkip (handle true (beginRunEnd env t)) w).2.trace = (beginRunEnd env t w).2.trace := by
    rw [exceptSkip_snd]
    rcases handle_or true (beginRunEnd env t) w with h' | ⟨x, -, h'⟩ <;> rw [h']
    rfl
  have hgrow : Cleanup.Grow (beginRunEnd env t w).2.cl (exceptSkip (handle true (beginRunEnd env t)) w).2.cl := by
    rw [exceptSkip_snd]
    exact (side_handle (m := beginRunEnd env t) (b := true)).reach.grow
  rw [htr] at hcalm ⊢
  have hcur := (beginRunEnd_post (env := env) t hm h hs).2.1.2
  -- what it raises
  have hmk : ∀ x, (beginRunEnd env t w).1 = some x → (x.handled = true → Marked t.id (beginRunEnd env t w).2.cl) →
      Marked t.id (exceptSkip (handle true (beginRunEnd env t)) w).2.cl := by
    intro x hx hh
    rw [exceptSkip_snd]
    exact handle_marked true hx hcur hh
  obtain ⟨s1, h1⟩ := beginTest_spec (env := env) t h
  have hb : beginRunEnd env t w = seq (beginTest env t) (fin (seq (ctrlStart t) (handle true (testRun env t))) (endTest env t)) w := rfl
  rcases h1 with ⟨x, hx, ho, hc, -, hi⟩ | ⟨hx, u, hin, hl, hf⟩
  · exfalso
    have he : beginRunEnd env t w = (some x, (beginTest env t w).2) := by
      rw [hb]; unfold seq
      split <;> rename_i heq <;> rw [heq] at hx <;> cases hx
      rw [heq]
    rw [he] at hcalm
    have hk := hi hcalm
    have hh : (handle true (beginRunEnd env t) w).1 = some { x with handled := true } := by
      unfold handle; rw [he]; simp [notExc_escapes hk]
    unfold exceptSkip at hn
    split at hn <;> rename_i heq
    · rw [heq] at hh
      cases hh
      rw [if_neg (by intro e; simp only at e; rw [e] at hk; cases hk)] at hn
      cases hn
    · rw [hh] at hn; cases hn
  · have he : beginRunEnd env t w = fin (seq (ctrlStart t) (handle true (testRun env t))) (endTest env t) (beginTest env t w).2 := by
      rw [hb]; conv => lhs; unfold seq
      split <;> rename_i heq <;> rw [heq] at hx <;> cases hx
      rw [heq]; rfl
    generalize (beginTest env t w).2 = w1 at hin hl hf s1 he
    obtain ⟨r1, r2⟩ := run_ran env t (w := w1) (s1.trans hs) hin.inTest.ctx.2
    obtain ⟨h3, st, hst⟩ := hin.run hm hl hf (s1.trans hs)
    generalize hq : seq (ctrlStart t) (handle true (testRun env t)) w1 = q at r1 r2 h3
    rcases q with ⟨x, w2⟩
    simp only at r1 r2 h3
    have he2 : beginRunEnd env t w = ((endTest env t w2).1.or x, (endTest env t w2).2) := by
      rw [he]; unfold fin; rw [hq]
    have hend : (∀ y, (endTest env t w2).1 = some y → Marked t.id (endTest env t w2).2.cl) ∧ ((endTest env t w2).1 = none → t.beforeCleanups = none) := by
      unfold endTest
      rw [if_neg (by rw [h3.lastTest]; simp)]
      obtain ⟨rest, hsc, -⟩ := h3.scopes
      exact pop_marked env t.beforeCleanups hsc h3.inTest h3.reach
    have hge := (grows_endTest env t w2)
    rw [he2] at hmk hgrow ⊢
    generalize endTest env t w2 = q2 at hend hge hmk hgrow ⊢
    rcases q2 with ⟨y, w3⟩
    simp only at hend hge hmk hgrow ⊢
    cases y with
    | some y => exact .inl (hmk y rfl (fun _ => hend.1 y rfl))
    | none =>
      cases x with
      | some x => exact .inl (hmk x rfl (fun hh => (r1 x rfl hh).mono hge.reach.grow))
      | none =>
        rcases r2 rfl with hm2 | ⟨⟨s, hsm, hs2⟩, s', hsm', hs2'⟩
        · exact .inl ((hm2.mono hge.reach.grow).mono hgrow)
        · obtain ⟨d, hd, -⟩ := hge.trace
          exact .inr ⟨t, hm, rfl, hend.2 rfl, ⟨s, by rw [hd]; exact List.mem_append_left _ hsm, hs2⟩,
            s', by rw [hd]; exact List.mem_append_left _ hsm', hs2'⟩

theorem going_exceptSkip {m : M} {w : W} (h : Going (m w)) : Going (exceptSkip m w) := by
  have h2 : (exceptSkip m w).2 = (m w).2 := by
    unfold exceptSkip; split
    · rename_i heq; rw [heq]; split <;> rfl
    · rfl
  rcases h with h | ⟨x, hx, hk, hs⟩
  · exact .inl (h2 ▸ h)
  · refine .inr ⟨x, ?_, hk, h2 ▸ hs⟩
    unfold exceptSkip
    split
    · rename_i heq; rw [heq] at hx; cases hx
      rw [if_neg (by intro he; rw [he] at hk; cases hk)]
    · rename_i hne
      exact hx

theorem Post.handle {t : Nat} {m : M} {w : W} (h : Post env ts t (m w)) (b : Bool) : Post env ts t (handle b m w) := by
  refine ⟨?_, ?_, going_handle h.2.2 b⟩ <;> rcases handle_or b m w with h' | ⟨x, -, h'⟩ <;> rw [h']
  · exact h.1
  · exact h.1.keep (keep_record ..)
  · exact h.2.1
  · exact (keep_record ..).ctx t h.2.1

theorem Post.exceptSkip {t : Nat} {m : M} {w : W} (h : Post env ts t (m w)) : Post env ts t (exceptSkip m w) :=
  ⟨exceptSkip_snd m w ▸ h.1, exceptSkip_snd m w ▸ h.2.1, going_exceptSkip h.2.2⟩

/-! ### The end of the session's scopes -/

theorem flushLoop_spec (ss : List Sc) (p : Option X) {w : W} (h : Out env ts w) (hs : w.scopes = ss) :
    Out env ts (flushLoop env ss p w).2 ∧ (flushLoop env ss p w).2.started = w.started ∧
    (flushLoop env ss p w).2.startCalled = w.startCalled ∧
    (flushLoop env ss p w).2.cl.curResult = w.cl.curResult ∧ (flushLoop env ss p w).2.cl.curTest = w.cl.curTest ∧
    ((flushLoop env ss p w).2.scopes = [] ∨ Cut (flushLoop env ss p w).2.trace) := by
  induction ss generalizing p w with
  | nil => exact ⟨h, rfl, rfl, rfl, rfl, .inl hs⟩
  | cons s ss ih =>
    obtain ⟨o, -, -, tl, p'⟩ := h.pop hs
    simp only [flushLoop]
    split <;> rename_i heq <;> rw [heq] at o p'
    · obtain ⟨a, b, b', c, d, e⟩ := ih p o p'.scopes
      exact ⟨a, b.trans p'.started, b'.trans p'.startCalled, c.trans p'.curResult, d.trans p'.curTest, e⟩
    · rename_i x w1
      split
      · obtain ⟨a, b, b', c, d, e⟩ := ih (some x) o p'.scopes
        exact ⟨a, b.trans p'.started, b'.trans p'.startCalled, c.trans p'.curResult, d.trans p'.curTest, e⟩
      · rename_i hx
        refine ⟨o, p'.started, p'.startCalled, p'.curResult, p'.curTest, .inr ?_⟩
        obtain ⟨F, R, htr, -, hR⟩ := p'.trace
        rcases hR with ⟨-, h'⟩ | ⟨y, hy, rfl⟩
        · cases h'
        · cases hy
          refine ⟨⟨.closeRaised s x.kind, w1.cl, w1.fx⟩, ?_, s, x.kind, rfl, by simpa using hx⟩
          simp only at htr
          rw [htr]; simp

/-- What `initiate_cleanup` guarantees. -/
structure Flushed (env : Env) (ts : List T) (w w' : W) : Prop where
  out : Out env ts w'
  started : w'.started = w.started
  startCalled : w'.startCalled = w.startCalled
  curResult : w'.cl.curResult = w.cl.curResult
  curTest : w'.cl.curTest = w.cl.curTest
  done : w'.scopes = [] ∨ Cut w'.trace

theorem handle_fx {m : M} {b : Bool} {w : W} : (handle b m w).2.fx = (m w).2.fx := by
  rcases handle_or b m w with h | ⟨x, -, h⟩ <;> rw [h]
  rfl

theorem initiateCleanup_spec {w : W} (h : Out env ts w) : Flushed env ts w (initiateCleanup env w).2 := by
  unfold initiateCleanup
  split
  · rename_i hs; exact ⟨h, rfl, rfl, rfl, rfl, .inl hs⟩
  · rename_i hs
    generalize hw0 : ({ w with cleanups := w.cleanups + 1 } : W) = w0
    have h0 : Out env ts w0 := h.move (by rw [← hw0]; exact Reach.refl _) (by rw [← hw0]) (by rw [← hw0]) (by rw [← hw0]) (by rw [← hw0]) (by rw [← hw0])
    have e1 : w0.started = w.started := by rw [← hw0]
    have e1' : w0.startCalled = w.startCalled := by rw [← hw0]
    have e2 : w0.cl = w.cl := by rw [← hw0]
    generalize env.beforeCleanup w.cleanups = c
    have h1 : Out env ts (emit .sessionCleanup w0) := h0.emit h0.noTest (by simp) (by simp)
    have k1 := side_user c (emit .sessionCleanup w0)
    have h2 := h1.keep (keep_user c _)
    have k2 : Side (user c (emit .sessionCleanup w0)).2 (handle true (hook .sessionCleanup c) w0).2 := side_handle (m := hook .sessionCleanup c)
    have h3 := h2.keep (keep_side k2 (handle_fx (m := hook .sessionCleanup c)))
    have k3 := k1.trans k2
    show Flushed env ts w (handle true (flush env) (handle true (hook .sessionCleanup c) w0).2).2
    generalize (handle true (hook .sessionCleanup c) w0).2 = w2 at k3 h3
    obtain ⟨a, b, b', c', d, e⟩ := flushLoop_spec (env := env) w2.scopes none h3 rfl
    have k4 : Side (flush env w2).2 (handle true (flush env) w2).2 := side_handle
    have hfl : flush env w2 = flushLoop env w2.scopes none w2 := rfl
    rw [← hfl] at a b b' c' d e
    refine ⟨a.keep (keep_side k4 handle_fx), ?_, ?_, ?_, ?_, ?_⟩
    · rw [k4.started, b, k3.started]; exact e1
    · rw [k4.startCalled, b', k3.startCalled]; exact e1'
    · rw [k4.frame.curResult, c', k3.frame.curResult]; exact congrArg _ e2
    · rw [k4.frame.curTest, d, k3.frame.curTest]; exact congrArg _ e2
    · rw [k4.scopes, k4.trace]; exact e

/-! ### One test -/

/-- After the block inside the controller. -/
structure Blk (env : Env) (ts : List T) (t : Nat) (last : Bool) (r : Option X × W) : Prop where
  out : Out env ts r.2
  ctx : r.2.started = true → Ctx t r.2.cl
  going : last = false → Going r

theorem block_spec (t : T) (hm : t ∈ ts) (l : Bool) (prev : Option RKey) {w : W} (h : Pt env ts t.id w) (hs : w.started = false) :
    Blk env ts t.id l (block env t l prev w) := by
  unfold block
  have h1 := ((beginRunEnd_post (env := env) t hm h hs).handle true).exceptSkip
  have h0 := beginRunEnd_ran (env := env) t hm h hs
  generalize exceptSkip (handle true (beginRunEnd env t)) = m1 at h1 h0
  have key : Blk env ts t.id l (seq m1 (seq (fireSummary t) (if l = true then seq (ctrlEnd t prev) (handle true (initiateCleanup env)) else act id)) w) := by
    unfold seq
    split <;> rename_i heq <;> rw [heq] at h1 h0
    · exact ⟨h1.1, fun _ => h1.2.1, fun _ => h1.2.2⟩
    · rename_i w1
      have hp : Pt env ts t.id w1 := by
        refine ⟨h1.1, h1.2.1, ?_⟩
        rcases h1.2.2 with hi | ⟨x, hx, -⟩
        · exact hi
        · cases hx
      have h2 := pt_summary t w1 hp (h0 rfl)
      split <;> rename_i heq2 <;> rw [heq2] at h2
      · exact ⟨h2.1, fun _ => h2.2.1, fun _ => .inl h2.2.2⟩
      · rename_i w2
        cases l with
        | false => exact ⟨h2.1, fun _ => h2.2.1, fun _ => .inl h2.2.2⟩
        | true =>
          simp only [if_true]
          obtain ⟨a, b, -, -⟩ := ctrlEnd_spec t prev h2.1 (fun _ => h2.2.1)
          split <;> rename_i heq3 <;> rw [heq3] at a b
          · exact ⟨a, fun hst => (by rw [b] at hst; cases hst), fun hl => (by cases hl)⟩
          · rename_i w3
            have hf := initiateCleanup_spec a
            have k : Side (initiateCleanup env w3).2 (handle true (initiateCleanup env) w3).2 := side_handle
            refine ⟨hf.out.keep (keep_side k handle_fx), fun hst => ?_, fun hl => (by cases hl)⟩
            rw [k.started, hf.started] at hst
            simp only at b
            rw [b] at hst; cases hst
  refine ⟨?_, ?_, fun hl => going_exceptSkip (key.going hl)⟩
  · rw [exceptSkip_snd]; exact key.out
  · rw [exceptSkip_snd]; exact key.ctx

theorem inner_spec (t : T) (hm : t ∈ ts) (l : Bool) (prev : Option RKey) {w : W} (h : Pt env ts t.id w) :
    Out env ts (inner env t l prev w).2 ∧ (l = false → (inner env t l prev w).1 = none ∨ Idle (inner env t l prev w).2 ∨
      ∃ x, (inner env t l prev w).1 = some x ∧ x.kind.isException = false) ∧
    (l = false → (inner env t l prev w).1 = none → Idle (inner env t l prev w).2) := by
  have hu := h.keep (keep_user t.reqs w)
  unfold inner processReqs
  unfold seq
  split <;> rename_i heq <;> rw [heq] at hu
  · exact ⟨hu.1, fun _ => .inr (.inl hu.2.2), fun _ _ => hu.2.2⟩
  · rename_i w1
    split
    · -- run
      have h2 := hu.keep (keep_mark t false w1)
      have hb := block_spec (env := env) t hm l prev h2 rfl
      simp only [act]
      show _ ∧ _ ∧ _
      have he : ∀ (m f : M) (w : W), fin m f w = ((f (m w).2).1.or (m w).1, (f (m w).2).2) := fun _ _ _ => rfl
      rw [he]
      generalize block env t l prev (mark t false w1) = r at hb
      obtain ⟨x, w2⟩ := r
      obtain ⟨a, b, c, d⟩ := ctrlEnd_spec t prev hb.out hb.ctx
      simp only at a b c d ⊢
      refine ⟨a, fun hl => ?_, fun hl hn => ?_⟩
      · rcases hb.going hl with hi | ⟨y, hy, hk, hst⟩
        · exact .inr (.inl (c hi))
        · simp only at hy hst
          rw [d hst, hy]
          exact .inr (.inr ⟨y, rfl, hk⟩)
      · rcases hb.going hl with hi | ⟨y, hy, hk, hst⟩
        · exact c hi
        · simp only at hy hst
          rw [d hst, hy] at hn; cases hn
    · have h2 := pt_avoided t w1 hu
      unfold seq at h2
      exact ⟨h2.1, fun _ => .inr (.inl h2.2.2), fun _ _ => h2.2.2⟩

theorem runSingle_spec (t : T) (hm : t ∈ ts) (l : Bool) {w : W} (h : Out env ts w) (hi : Idle w) :
    Out env ts (runSingle env t l w).2 ∧ (runSingle env t l w).2.cl.curResult = w.cl.curResult ∧ (runSingle env t l w).2.cl.curTest = w.cl.curTest ∧
    (l = false → (runSingle env t l w).1 = none → Idle (runSingle env t l w).2) := by
  unfold runSingle
  split
  · exact ⟨h, rfl, rfl, fun _ _ => hi⟩
  · have he : ∀ (m f : M) (w : W), fin m f w = ((f (m w).2).1.or (m w).1, (f (m w).2).2) := fun _ _ _ => rfl
    rw [he]
    have hp : Pt env ts t.id (setContext (some (.test t.id)) (some t.id) (addTest t w)) :=
      ⟨(h.keep (keep_addTest t w)).setContext _ _, ⟨rfl, rfl⟩, hi⟩
    obtain ⟨a, b, c⟩ := inner_spec t hm l w.cl.curResult hp
    generalize setContext (some (.test t.id)) (some t.id) (addTest t w) = w0 at a b c
    have k : Side (inner env t l w.cl.curResult w0).2 (handle true (inner env t l w.cl.curResult) w0).2 := side_handle
    have a' := a.keep (keep_side k handle_fx)
    refine ⟨a'.setContext _ _, rfl, rfl, fun hl hn => ?_⟩
    have hn' : (handle true (inner env t l w.cl.curResult) w0).1 = none := hn
    have hidle : Idle (inner env t l w.cl.curResult w0).2 := by
      rcases b hl with h1 | h1 | ⟨x, hx, hk⟩
      · exact c hl h1
      · exact h1
      · exfalso
        unfold handle at hn'
        split at hn' <;> rename_i heq <;> rw [heq] at hx
        · cases hx
        · cases hx
          simp only [notExc_escapes hk, Bool.not_true, Bool.and_false, Bool.false_eq_true, if_false] at hn'
          cases hn'
    have hk := hidle.keep (keep_side k handle_fx)
    exact hk

theorem loop_spec (l : List T) (hl : ∀ t ∈ l, t ∈ ts) {w : W} (h : Out env ts w) (hi : Idle w) :
    Out env ts (loop env l w).2.2 ∧ (loop env l w).2.2.cl.curResult = w.cl.curResult ∧ (loop env l w).2.2.cl.curTest = w.cl.curTest := by
  induction l generalizing w with
  | nil => exact ⟨h, rfl, rfl⟩
  | cons t l ih =>
    obtain ⟨a, b, c, d⟩ := runSingle_spec (env := env) t (hl t (by simp)) l.isEmpty h hi
    simp only [loop]
    split <;> rename_i heq <;> rw [heq] at a b c d
    · exact ⟨a, b, c⟩
    · split
      · exact ⟨a, b, c⟩
      · cases hl' : l with
        | nil => exact ⟨a, b, c⟩
        | cons t' l' =>
          have hidle := d (by rw [hl']; rfl) rfl
          rw [← hl']
          obtain ⟨a', b', c'⟩ := ih (fun t ht => hl t (List.mem_cons_of_mem _ ht)) a hidle
          exact ⟨a', b'.trans b, c'.trans c⟩

theorem markUnrun_keep (l : List T) (w : W) : Keep w (markUnrun l w).2 := by
  induction l generalizing w with
  | nil => exact keep_refl w
  | cons t l ih =>
    simp only [markUnrun]
    split
    · exact keep_refl w
    · exact (keep_addTest t w).trans (ih _)

theorem runTests_spec (l : List T) (hl : ∀ t ∈ l, t ∈ ts) {w : W} (h : Out env ts w) (hi : Idle w) :
    Out env ts (runTests env l w).2 ∧ ((runTests env l w).2.scopes = [] ∨ Cut (runTests env l w).2.trace) := by
  obtain ⟨a, -, -⟩ := loop_spec (env := env) l hl h hi
  have f := initiateCleanup_spec a
  unfold runTests
  simp only
  split
  · exact ⟨f.out, f.done⟩
  · have k := markUnrun_keep (loop env l w).2.1 (initiateCleanup env (loop env l w).2.2).2
    exact ⟨f.out.keep k, by rw [k.scopes, k.trace]; exact f.done⟩

/-! ### The session -/

theorem out_initial : Out env ts initial ∧ Idle initial := by
  refine ⟨⟨reach_initial, .start, .inl rfl, ⟨[], rfl⟩, (by unfold NoTest; decide), ?_, (by intro b hb; cases hb), fun _ => rfl⟩, fun _ => rfl, fun _ h => absurd rfl h, fun _ _ _ h => (by cases h)⟩
  intro pre s post he
  have : initial.trace = [] := rfl
  rw [this] at he
  simp at he

def Po (env : Env) (ts : List T) (w : W) : Prop := Out env ts w ∧ Idle w ∧ w.scopes = []

theorem Po.keep {w w' : W} (h : Po env ts w) (k : Keep w w') : Po env ts w' := ⟨h.1.keep k, h.2.1.keep k, k.scopes.trans h.2.2⟩

theorem startHooks_spec {w : W} (h : Po env ts w) : Po env ts (startHooks env w).2 := by
  refine stays_handle (P := Po env ts) ?_ (fun _ _ h => h.keep) w h
  refine stays_seq (stays_user _ (fun _ _ h => h.keep)) (stays_seq (stays_hook _ (fun _ _ h => h.keep) ?_) (stays_seq ?_ (stays_user _ (fun _ _ h => h.keep))))
  · intro w h; exact ⟨h.1.emit h.1.noTest (by simp) (by simp), h.2.1.emit (by simp), h.2.2⟩
  · intro w h; exact ⟨h.1.move (Reach.refl _) rfl rfl rfl rfl rfl, h.2⟩

/-- The state before the outermost scope is closed. -/
theorem main_spec : Out env ts (onInterrupt env (seq (startHooks env) (runTests env ts)) initial).2 ∧
    ((onInterrupt env (seq (startHooks env) (runTests env ts)) initial).2.scopes = [] ∨
     Cut (onInterrupt env (seq (startHooks env) (runTests env ts)) initial).2.trace) := by
  have h0 := startHooks_spec (env := env) (ts := ts) (w := initial) ⟨out_initial.1, (out_initial (env := env) (ts := ts)).2, rfl⟩
  have h1 : Out env ts (seq (startHooks env) (runTests env ts) initial).2 ∧
      ((seq (startHooks env) (runTests env ts) initial).2.scopes = [] ∨ Cut (seq (startHooks env) (runTests env ts) initial).2.trace) := by
    unfold seq
    split <;> rename_i heq <;> rw [heq] at h0
    · exact ⟨h0.1, .inl h0.2.2⟩
    · exact runTests_spec ts (fun _ h => h) h0.1 h0.2.1
  generalize seq (startHooks env) (runTests env ts) = m at h1
  unfold onInterrupt
  split
  · rename_i x w1 heq
    rw [heq] at h1
    have k := keep_user env.interrupt w1
    have h2 : Out env ts (user env.interrupt w1).2 ∧ ((user env.interrupt w1).2.scopes = [] ∨ Cut (user env.interrupt w1).2.trace) :=
      ⟨h1.1.keep k, by rw [k.scopes, k.trace]; exact h1.2⟩
    split
    · split <;> rename_i heq2 <;> rw [heq2] at h2 <;> exact h2
    · exact h1
  · exact h1

/-- The state after the outermost scope was closed. -/
structure Ended (env : Env) (ts : List T) (w : W) : Prop where
  reach : Reach {} w.cl
  noTest : NoTest w.cl
  trace : TraceOk env ts w.trace
  last : ∀ b, w.trace.getLast? = some b → ∀ t, b.ev ≠ .body t
  done : Calm w.trace → ¬ Cut w.trace → w.cl.stack = []

theorem Ended.keep {w w' : W} (h : Ended env ts w) (k : Keep w w') : Ended env ts w' := by
  have hn : names w'.cl = names w.cl := by unfold names; rw [k.stack, k.scopeName]
  refine ⟨h.reach.trans k.reach, ?_, k.trace ▸ h.trace, k.trace ▸ h.last, ?_⟩
  · unfold NoTest; rw [hn]; exact h.noTest
  · rw [k.trace, k.stack]; exact h.done

theorem cut_left {a b : List Snap} (h : Cut a) : Cut (a ++ b) := by
  obtain ⟨s, hs, h⟩ := h
  exact ⟨s, List.mem_append_left _ hs, h⟩

theorem Ended.sessionEnd {w : W} (h : Ended env ts w) : Ended env ts (emit .sessionEnd w) := by
  refine ⟨h.reach, h.noTest, h.trace.snoc ⟨h.noTest, h.done⟩ ?_, ?_, fun hc hnc => h.done hc.left (fun h' => hnc (cut_left h'))⟩
  · intro b hb
    exact ⟨fun t ht => absurd ht (h.last b hb t), fun _ _ _ hx => (by cases hx)⟩
  · intro b hb t
    simp only [emit, List.getLast?_append, List.getLast?_singleton, Option.some_or, Option.some.injEq] at hb
    subst hb; simp

theorem Out.ended {w : W} (h : Out env ts w) (hd : w.scopes = [] ∨ Cut w.trace) : Ended env ts (clPop "session-global" none w).2 := by
  obtain ⟨hf, -⟩ := clPop_fields "session-global" none w
  rw [hf]
  refine ⟨h.reach.trans (reach_pop ..), ?_, h.trace, h.last, fun hc hnc => ?_⟩
  · rcases Cleanup.popScope_cases "session-global" none w.tests w.cl with ⟨_, h1⟩ | ⟨_, _, _, _, h1⟩ | ⟨u, tl, h1, h2, _⟩
    · rw [h1]; exact h.noTest
    · rw [h1]; exact h.noTest
    · obtain ⟨p1, p2, -⟩ := popScope_match (a := w.cl) (n := "session-global") (hk := none) (ts := w.tests) (u := u) (tl := tl) h1 h2
      unfold NoTest names
      simp only
      rw [p1, p2]
      have := h.noTest
      unfold NoTest names at this
      rw [h1] at this
      exact fun hm => this (List.mem_cons_of_mem _ hm)
  · rcases hd with hd | hd
    · have hn := h.calm hc
      rw [hd] at hn
      obtain ⟨u, tl, h1, h2, h3⟩ := mem_tail_names hn
      obtain ⟨p1, -⟩ := popScope_match (a := w.cl) (n := "session-global") (hk := none) (ts := w.tests) (u := u) (tl := tl) h1 h2
      simp only
      rw [p1]
      simpa using h3
    · exact absurd hd hnc

theorem session_ended : Ended env ts (session env ts).2 := by
  obtain ⟨h1, h2⟩ := main_spec (env := env) (ts := ts)
  unfold session fin
  simp only
  generalize onInterrupt env (seq (startHooks env) (runTests env ts)) initial = r at h1 h2
  obtain ⟨x, w⟩ := r
  simp only at h1 h2 ⊢
  have h3 := h1.ended h2
  have k : Side (clPop "session-global" none w).2 (handle false (clPop "session-global" none) w).2 := side_handle
  have h4 := h3.keep (keep_side k handle_fx)
  unfold endSession seq
  split <;> rename_i heq <;> rw [heq] at h4
  · exact h4
  · simp only
    split
    · rename_i w1 _
      have hs : Stays (Ended env ts) (handle false (hook .sessionEnd env.sessionEnd)) :=
        stays_handle (stays_hook _ (fun _ _ h => h.keep) (fun _ h => h.sessionEnd)) (fun _ _ h => h.keep)
      have ha : Stays (Ended env ts) (handle false (user env.afterEnd)) :=
        stays_handle (stays_user _ (fun _ _ h => h.keep)) (fun _ _ h => h.keep)
      exact stays_seq hs ha w1 h4
    · exact h4

end
end Slash.Whole
