import Verif.Lemmas.WholeRun
/-! Whole sessions: every exception of a cleanup ends up in a result of the session. -/
namespace Slash.Whole

open Slash.Scope (Sc)
open Slash.Cleanup (Op RKey Reg St Exn)

/-- The results of a session: the global one and those of its tests. -/
def OkR (F : List Nat) (x : Option RKey) : Prop := x = some .global ∨ ∃ t ∈ F, x = some (.test t)

/-- Everything refers to results of the session. -/
structure Good (F : List Nat) (a : St) : Prop where
  cur : OkR F a.curResult
  curT : ∀ t, a.curTest = some t → t ∈ F
  pend : ∀ c ∈ a.pending, OkR F c.result
  regs : ∀ u, ∀ c ∈ a.cleanups u, OkR F c.result
  ended : ∀ r k, .ended r (some k) ∈ a.log → ∃ x, OkR F (some x) ∧ .recorded r x k ∈ a.log

theorem Good.updForUpdate {F : List Nat} {a : St} (h : Good F a) : OkR F (some a.currentForUpdate) := by
  unfold St.currentForUpdate
  split
  · rename_i t ht; exact .inr ⟨t, h.curT t ht, rfl⟩
  · exact .inl rfl

/-- nothing relevant changes -/
theorem Good.same {F : List Nat} {a b : St} (h : Good F a) (h1 : b.curResult = a.curResult) (h2 : b.curTest = a.curTest)
    (h3 : b.pending = a.pending) (h4 : b.cleanups = a.cleanups) (m : List Cleanup.Ev) (h5 : b.log = a.log ++ m)
    (hm : ∀ r k, .ended r (some k) ∉ m) : Good F b := by
  refine ⟨h1 ▸ h.cur, h2 ▸ h.curT, h3 ▸ h.pend, h4 ▸ h.regs, fun r k hr => ?_⟩
  rw [h5] at hr ⊢
  rcases List.mem_append.1 hr with hr | hr
  · obtain ⟨x, hx, hl⟩ := h.ended r k hr
    exact ⟨x, hx, List.mem_append_left _ hl⟩
  · exact absurd hr (hm r k)

theorem good_record {F : List Nat} {a : St} (h : Good F a) (r : RKey) (k : Kind) : Good F (a.record r k) := by
  unfold St.record
  simp only
  split <;> exact h.same rfl rfl rfl rfl [] (by simp [St.updResult]) (by simp)

theorem good_place {F : List Nat} {a : St} (h : Good F a) (cb : Cleanup.Cb) (uid : Option Nat) : Good F (Cleanup.place cb uid a) := by
  cases uid with
  | none =>
    refine ⟨h.cur, h.curT, ?_, h.regs, fun r k hr => ?_⟩
    · intro c hc
      simp only [Cleanup.place, St.emit, List.mem_append, List.mem_singleton] at hc
      rcases hc with hc | rfl
      · exact h.pend c hc
      · exact h.cur
    · simp only [Cleanup.place, St.emit, List.mem_append, List.mem_singleton, reduceCtorEq, or_false] at hr ⊢
      exact h.ended r k hr
  | some v =>
    refine ⟨h.cur, h.curT, h.pend, ?_, fun r k hr => ?_⟩
    · intro u c hc
      simp only [Cleanup.place, St.emit] at hc
      split at hc
      · rcases List.mem_cons.1 hc with rfl | hc
        · exact h.cur
        · exact h.regs u c hc
      · exact h.regs u c hc
    · simp only [Cleanup.place, St.emit, List.mem_append, List.mem_singleton, reduceCtorEq, or_false] at hr ⊢
      exact h.ended r k hr

theorem good_addCleanup {F : List Nat} {a : St} (h : Good F a) (sc : Cleanup.ScopeArg) (cb : Cleanup.Cb) :
    Good F (Cleanup.addCleanup sc cb a).2 := by
  unfold Cleanup.addCleanup
  split
  · exact h
  · split
    · exact h
    · exact good_place h cb _

theorem good_runActs {F : List Nat} (acts : List Cleanup.Act) {a : St} (h : Good F a) : Good F (Cleanup.runActs acts a).2 := by
  induction acts generalizing a with
  | nil => exact h
  | cons x rest ih =>
    cases x with
    | add sc cb =>
      have h1 := good_addCleanup h sc cb
      simp only [Cleanup.runActs]
      split <;> rename_i heq <;> rw [heq] at h1
      · exact h1
      · exact ih h1
    | note k =>
      simp only [Cleanup.runActs]
      split
      · exact ih (good_record h _ _)
      · exact h

theorem Good.after {F : List Nat} {a b : St} (h : Good F a) (h1 : b.curResult = a.curResult) (h2 : b.curTest = a.curTest)
    (h3 : b.pending = a.pending) (h4 : b.cleanups = a.cleanups) (r : Nat) (x : RKey) (k : Kind) (hx : OkR F (some x))
    (h5 : b.log = a.log ++ [.ended r (some k), .recorded r x k]) : Good F b := by
  refine ⟨h1 ▸ h.cur, h2 ▸ h.curT, h3 ▸ h.pend, h4 ▸ h.regs, fun r' k' hr => ?_⟩
  rw [h5] at hr ⊢
  rcases List.mem_append.1 hr with hr | hr
  · obtain ⟨x, hx, hl⟩ := h.ended r' k' hr
    exact ⟨x, hx, List.mem_append_left _ hl⟩
  · simp only [List.mem_cons, Cleanup.Ev.ended.injEq, Option.some.injEq, reduceCtorEq, List.not_mem_nil, or_false] at hr
    obtain ⟨rfl, rfl⟩ := hr
    exact ⟨x, hx, by simp⟩

theorem record_fields (a : St) (r : RKey) (k : Kind) : (a.record r k).curResult = a.curResult ∧ (a.record r k).curTest = a.curTest ∧
    (a.record r k).pending = a.pending ∧ (a.record r k).cleanups = a.cleanups ∧ (a.record r k).log = a.log := by
  unfold St.record
  simp only
  split <;> exact ⟨rfl, rfl, rfl, rfl, rfl⟩

theorem good_guardedCall {F : List Nat} {a : St} (c : Reg) (h : Good F a) (hc : OkR F c.result) : Good F (Cleanup.guardedCall c a).2 := by
  have h1 := good_runActs c.cb.acts h
  unfold Cleanup.guardedCall Cleanup.callCleanup
  cases hra : Cleanup.runActs c.cb.acts a with
  | mk o1 a1 =>
    rw [hra] at h1
    simp only at h1 ⊢
    cases Cleanup.endOf o1 c.cb with
    | none => exact h1.same rfl rfl rfl rfl [.ended c.reg none] rfl (by simp)
    | some e =>
      simp only [Option.map_some]
      by_cases hex : e.kind.isException = true
      · simp only [hex, if_true]
        obtain ⟨x, hx⟩ : ∃ x, c.result = some x := by rcases hc with hc | ⟨t, -, hc⟩ <;> exact ⟨_, hc⟩
        rw [hx] at hc
        simp only [hx, Bool.true_or, if_true]
        have h2 : Good F (((a1.emit (.ended c.reg (some e.kind))).record x e.kind).emit (.recorded c.reg x e.kind)) := by
          obtain ⟨e1, e2, e3, e4, e5⟩ := record_fields (a1.emit (.ended c.reg (some e.kind))) x e.kind
          refine h1.after e1 e2 e3 e4 c.reg x e.kind hc ?_
          simp only [St.emit] at e5 ⊢
          rw [e5]; simp
        split <;> exact h2
      · simp only [hex, Bool.false_eq_true, if_false, Bool.false_or]
        have hcn : (a1.emit (.ended c.reg (some e.kind))).curResult.isNone = false := by
          rcases h1.cur with hq | ⟨t, -, hq⟩ <;> simp [St.emit, hq]
        simp only [hcn, Bool.false_eq_true, if_false]
        have h2 : Good F (((a1.emit (.ended c.reg (some e.kind))).record (a1.emit (.ended c.reg (some e.kind))).currentForUpdate e.kind).emit
            (.recorded c.reg (a1.emit (.ended c.reg (some e.kind))).currentForUpdate e.kind)) := by
          obtain ⟨e1, e2, e3, e4, e5⟩ := record_fields (a1.emit (.ended c.reg (some e.kind))) (a1.emit (.ended c.reg (some e.kind))).currentForUpdate e.kind
          refine h1.after e1 e2 e3 e4 c.reg _ e.kind h1.updForUpdate ?_
          simp only [St.emit] at e5 ⊢
          rw [e5]; simp [St.currentForUpdate]
        split <;> exact h2

theorem good_taken {F : List Nat} {a : St} (h : Good F a) {u : Nat} {c : Reg} {rest : List Reg} (hc : a.cleanups u = c :: rest) (e : Cleanup.Ev)
    (he : ∀ r k, e ≠ .ended r (some k)) : Good F (Cleanup.taken a u rest e) := by
  refine ⟨h.cur, h.curT, h.pend, ?_, fun r k hr => ?_⟩
  · intro v c' hc'
    simp only [Cleanup.taken, St.emit] at hc'
    split at hc'
    · exact h.regs u c' (by rw [hc]; exact List.mem_cons_of_mem _ hc')
    · exact h.regs v c' hc'
  · simp only [Cleanup.taken, St.emit, List.mem_append, List.mem_singleton] at hr ⊢
    rcases hr with hr | hr
    · obtain ⟨x, hx, hl⟩ := h.ended r k hr
      exact ⟨x, hx, .inl hl⟩
    · exact absurd hr.symm (he r k)

theorem good_callLoop {F : List Nat} {u : Nat} {f i : Bool} {a : St} (h : Good F a) : Good F (Cleanup.callLoop u f i a).2 := by
  revert h
  apply Cleanup.callLoop_ind (P := fun a _ a' => Good F a → Good F a')
  · intro a _ h; exact h
  · intro a c rest o a' hc hp ih h; exact ih (good_taken h hc _ (by simp))
  · intro a c rest e a' hc hp hg h
    have h1 := good_guardedCall c (good_taken h hc (.ran c.reg u) (by simp)) (h.regs u c (by rw [hc]; simp))
    rw [hg] at h1; exact h1
  · intro a c rest a1 o a' hc hp hg ih h
    have h1 := good_guardedCall c (good_taken h hc (.ran c.reg u) (by simp)) (h.regs u c (by rw [hc]; simp))
    rw [hg] at h1; exact ih h1

theorem good_popScope {F : List Nat} {a : St} (h : Good F a) (n : String) (hk : Option Kind) (ts : List Nat) :
    Good F (Cleanup.popScope n hk ts a).2 := by
  rcases Cleanup.popScope_cases n hk ts a with ⟨_, heq⟩ | ⟨_, _, _, _, heq⟩ | ⟨u, tl, _, _, heq⟩ <;> rw [heq]
  · exact h
  · exact h
  · have h1 : Good F (a.emit (.closing u (Cleanup.popFlags a ts).1 (Cleanup.popFlags a ts).2)) :=
      h.same rfl rfl rfl rfl [.closing u (Cleanup.popFlags a ts).1 (Cleanup.popFlags a ts).2] rfl (by simp)
    have h2 : Good F (Cleanup.callCleanups u (Cleanup.popFlags a ts).1 (Cleanup.popFlags a ts).2 hk
        (a.emit (.closing u (Cleanup.popFlags a ts).1 (Cleanup.popFlags a ts).2))).2 := by
      unfold Cleanup.callCleanups
      split
      · simp only; split
        · exact h1
        · exact good_record h1 _ _
      · exact good_callLoop h1
    generalize (Cleanup.callCleanups u (Cleanup.popFlags a ts).1 (Cleanup.popFlags a ts).2 hk
        (a.emit (.closing u (Cleanup.popFlags a ts).1 (Cleanup.popFlags a ts).2))).2 = b at h2
    refine ⟨h2.cur, h2.curT, h2.pend, ?_, fun r k hr => ?_⟩
    · intro v c hc
      simp only [Cleanup.discarded] at hc
      split at hc
      · cases hc
      · exact h2.regs v c hc
    · simp only [Cleanup.discarded, List.mem_append, List.mem_map, List.mem_singleton, reduceCtorEq, or_false, and_false, exists_false] at hr ⊢
      obtain ⟨x, hx, hl⟩ := h2.ended r k hr
      exact ⟨x, hx, hl⟩

theorem good_push {F : List Nat} {a : St} (h : Good F a) (n : String) : Good F (Cleanup.pushScope n a) := by
  refine ⟨h.cur, h.curT, (by intro c hc; cases hc), ?_, fun r k hr => ?_⟩
  · intro v c hc
    simp only [Cleanup.pushScope, St.emit] at hc
    split at hc
    · exact h.pend c (List.mem_reverse.1 hc)
    · exact h.regs v c hc
  · simp only [Cleanup.pushScope, St.emit, List.mem_append, List.mem_map, List.mem_singleton, reduceCtorEq, or_false, and_false, exists_false] at hr ⊢
    obtain ⟨x, hx, hl⟩ := h.ended r k hr
    exact ⟨x, hx, hl⟩

/-! ## Along a session -/

/-- The state of the cleanup manager stays good. -/
def SG (F : List Nat) (w : W) : Prop := Good F w.cl
abbrev St' (F : List Nat) (m : M) : Prop := Stays (SG F) m

variable {F : List Nat}

theorem sg_record (k : Kind) {w : W} (h : SG F w) : SG F (record k w) := good_record h _ _
theorem sg_handle {b : Bool} {m : M} (hm : St' F m) : St' F (handle b m) := by
  intro w hw
  rcases handle_or b m w with h | ⟨x, -, h⟩ <;> rw [h]
  · exact hm w hw
  · exact sg_record _ (hm w hw)
theorem sg_exceptSkip {m : M} (hm : St' F m) : St' F (exceptSkip m) := by
  intro w hw; rw [exceptSkip_snd]; exact hm w hw
theorem sg_user (c : Code) : St' F (user c) := by
  intro w hw
  have h := good_runActs c.acts hw
  unfold user
  split <;> rename_i heq <;> rw [heq] at h <;> exact h
theorem sg_emit (e : Ev) : St' F (act (emit e)) := fun _ h => h
theorem sg_hook (e : Ev) (c : Code) : St' F (hook e c) := stays_seq (sg_emit e) (sg_user c)
theorem sg_push (s : Sc) {w : W} (h : SG F w) : SG F (push s w) := good_push h _
theorem sg_clPop (n : String) (hk : Option Kind) : St' F (clPop n hk) := by
  intro w hw
  rw [(clPop_fields n hk w).1]
  exact good_popScope hw n hk w.tests
theorem sg_fxLoop (fs : List Nat) : St' F (fxLoop fs) := by
  induction fs with
  | nil => intro w hw; exact hw
  | cons f fs ih =>
    intro w hw
    simp only [fxLoop]
    split
    · exact ih _ hw
    · split
      · exact good_record hw _ _
      · exact ih _ (good_record hw _ _)
theorem sg_fxLoops (env : Env) (s : Nat) (ks : List Nat) : St' F (fxLoops env s ks) := by
  induction ks with
  | nil => intro w hw; exact hw
  | cons k ks ih =>
    intro w hw
    simp only [fxLoops]
    split
    · have h := sg_fxLoop ((w.fx.active.filter (fun a => (env.defs a.id).scope == k)).map (·.id)).reverse w hw
      split <;> rename_i heq <;> rw [heq] at h
      · exact h
      · exact ih _ h
    · exact ih w hw
theorem sg_fxPop (env : Env) (s : Sc) : St' F (fxPop env s) := by
  intro w hw
  unfold fxPop
  simp only
  split
  · exact hw
  · exact sg_fxLoops env _ _ _ hw
theorem sg_callBoth {a b : M} (ha : St' F a) (hb : St' F b) : St' F (callBoth a b) := by
  intro w hw
  have h := ha w hw
  unfold callBoth
  split <;> rename_i heq <;> rw [heq] at h
  · exact hb _ h
  · split
    · exact hb _ h
    · exact h
theorem sg_pop (env : Env) (s : Sc) (hk : Option Kind) : St' F (pop env s hk) := by
  intro w hw
  unfold pop
  split
  · exact hw
  · split
    · exact hw
    · rename_i p rest _ _
      have h := sg_callBoth (sg_clPop (scName s) hk) (sg_fxPop env s) (emit (.closing s) { w with scopes := rest }) hw
      split <;> rename_i heq <;> rw [heq] at h <;> exact h
theorem sg_changeModule (env : Env) (t : T) : St' F (changeModule env t) := by
  intro w hw
  unfold changeModule
  split
  · have h : SG F (if w.lastModule ≠ none then pop env .module none w else (none, w)).2 := by
      split
      · exact sg_pop env _ _ w hw
      · exact hw
    split <;> rename_i heq <;> rw [heq] at h
    · exact h
    · split
      · exact h
      · exact sg_push _ h
  · exact hw
theorem sg_beginTest (env : Env) (t : T) : St' F (beginTest env t) := by
  intro w hw
  unfold beginTest
  have h0 : SG F (if w.lastModule = none then push .session w else w) := by
    split
    · exact sg_push _ hw
    · exact hw
  have h := sg_changeModule env t _ h0
  split <;> rename_i heq <;> rw [heq] at h
  · exact h
  · exact good_push h _
theorem sg_endTest (env : Env) (t : T) : St' F (endTest env t) := by
  intro w hw
  unfold endTest
  split
  · exact hw
  · exact sg_pop env _ _ w hw
theorem sg_flushLoop (env : Env) (ss : List Sc) (p : Option X) : St' F (flushLoop env ss p) := by
  induction ss generalizing p with
  | nil => intro w hw; exact hw
  | cons s ss ih =>
    intro w hw
    have h := sg_pop env s none w hw
    simp only [flushLoop]
    split <;> rename_i heq <;> rw [heq] at h
    · exact ih _ _ h
    · split
      · exact ih _ _ h
      · exact h
theorem sg_initiateCleanup (env : Env) : St' F (initiateCleanup env) := by
  intro w hw
  unfold initiateCleanup
  split
  · exact hw
  · exact stays_fin (sg_handle (sg_hook _ _)) (sg_handle (fun w h => sg_flushLoop env w.scopes none w h)) { w with cleanups := w.cleanups + 1 } hw
theorem sg_mark (t : T) (b : Bool) {w : W} (h : SG F w) : SG F (mark t b w) :=
  Good.same (b := (mark t b w).cl) h rfl rfl rfl rfl [] (by simp [mark, markStarted, St.updResult]) (by simp)
theorem sg_ctrlStart (t : T) : St' F (ctrlStart t) := by
  intro w hw
  unfold ctrlStart
  split
  · exact hw
  · exact stays_seq (m := act (mark t true)) (fun _ h => sg_mark t true h) (sg_hook _ _) w hw
theorem sg_ctrlEnd (t : T) {prev : Option RKey} (hp : OkR F prev) : St' F (ctrlEnd t prev) := by
  intro w hw
  unfold ctrlEnd
  split
  · exact hw
  · refine stays_fin (P := SG F) (stays_fin (stays_seq (m := act forbid) ?_ (sg_hook _ _)) (k := act (permit w.cl.allowImplicit)) ?_) (k := act (setResult prev)) ?_ w hw
    · exact fun w h => Good.same (b := (forbid w).cl) h rfl rfl rfl rfl [] (by simp [forbid]) (by simp)
    · exact fun w' h => Good.same (b := (permit w.cl.allowImplicit w').cl) h rfl rfl rfl rfl [] (by simp [permit]) (by simp)
    · exact fun w' h => ⟨hp, h.curT, h.pend, h.regs, h.ended⟩
theorem sg_setUp (env : Env) (t : T) : St' F (setUp env t) := by
  intro w hw
  unfold setUp
  split <;> exact hw
theorem sg_testRun (env : Env) (t : T) : St' F (testRun env t) := stays_seq (sg_setUp env t) (sg_hook _ _)
theorem sg_addSkips (n : Nat) {w : W} (h : SG F w) : SG F (addSkips n w) := by
  induction n generalizing w with
  | zero => exact h
  | succ n ih =>
    refine ih ?_
    unfold addSkip
    split
    · rename_i r _; exact good_record (a := w.cl) h r .skip
    · exact h
theorem sg_beginRunEnd (env : Env) (t : T) : St' F (beginRunEnd env t) :=
  stays_seq (sg_beginTest env t) (stays_fin (stays_seq (sg_ctrlStart t) (sg_handle (sg_testRun env t))) (sg_endTest env t))
theorem sg_block (env : Env) (t : T) (l : Bool) {prev : Option RKey} (hp : OkR F prev) : St' F (block env t l prev) := by
  unfold block
  refine sg_exceptSkip (stays_seq (sg_exceptSkip (sg_handle (sg_beginRunEnd env t)))
    (stays_seq (sg_handle (fun w h => sg_hook _ _ w h)) ?_))
  split
  · exact stays_seq (sg_ctrlEnd t hp) (sg_handle (sg_initiateCleanup env))
  · exact fun w h => h
theorem sg_inner (env : Env) (t : T) (l : Bool) {prev : Option RKey} (hp : OkR F prev) : St' F (inner env t l prev) := by
  unfold inner processReqs
  refine stays_seq (sg_user _) ?_
  split
  · exact stays_seq (m := act (mark t false)) (fun _ h => sg_mark t false h) (stays_fin (sg_block env t l hp) (sg_ctrlEnd t hp))
  · exact stays_seq (m := act (addSkips t.avoid)) (fun _ h => sg_addSkips _ h) (sg_hook _ _)

theorem sg_runSingle (env : Env) (t : T) (l : Bool) {w : W} (h : SG F w) (ht : ∀ x ∈ (runSingle env t l w).2.tests, x ∈ F) :
    SG F (runSingle env t l w).2 := by
  have hm : t.id ∉ w.tests → t.id ∈ F := by
    intro hn
    have hg : Grow env (setContext (some (.test t.id)) (some t.id) (addTest t w)) (runSingle env t l w).2 := by
      unfold runSingle
      rw [if_neg hn]
      exact grows_fin (grows_handle (grows_inner env t l w.cl.curResult)) (grows_act (grow_setContext env _ _)) _
    obtain ⟨r, hr⟩ := hg.tests
    apply ht
    rw [← hr]
    simp [setContext, addTest]
  unfold runSingle at ht ⊢
  split
  · exact h
  · rename_i hn
    have h0 : SG F (setContext (some (.test t.id)) (some t.id) (addTest t w)) :=
      ⟨.inr ⟨t.id, hm hn, rfl⟩, (fun t' ht' => by cases ht'; exact hm hn), h.pend, h.regs, h.ended⟩
    refine stays_fin (P := SG F) (sg_handle (sg_inner env t l h.cur)) (k := act (setContext w.cl.curResult w.cl.curTest)) ?_ _ h0
    exact fun w' h' => ⟨h.cur, h.curT, h'.pend, h'.regs, h'.ended⟩

theorem sg_loop (env : Env) (ts : List T) {w : W} (h : SG F w) (ht : ∀ x ∈ (loop env ts w).2.2.tests, x ∈ F) : SG F (loop env ts w).2.2 := by
  induction ts generalizing w with
  | nil => exact h
  | cons t ts ih =>
    have h1 := sg_runSingle env t ts.isEmpty (F := F) h
    have hg := grow_loop env ts (runSingle env t ts.isEmpty w).2
    simp only [loop] at ht ⊢
    split <;> rename_i heq <;> rw [heq] at h1 hg
    · rw [heq] at ht; exact h1 ht
    · rw [heq] at ht
      simp only at ht
      split <;> rename_i hst
      · rw [if_pos hst] at ht; exact h1 ht
      · rw [if_neg hst] at ht
        refine ih (h1 (fun x hx => ht x ?_)) ht
        obtain ⟨r, hr⟩ := hg.tests
        rw [← hr]; exact List.mem_append_left _ hx

theorem sg_markUnrun (ts : List T) : St' F (markUnrun ts) := by
  induction ts with
  | nil => exact fun w h => h
  | cons t ts ih =>
    intro w h
    simp only [markUnrun]
    split
    · exact h
    · exact ih _ h

theorem sg_runTests (env : Env) (ts : List T) {w : W} (h : SG F w) (ht : ∀ x ∈ (runTests env ts w).2.tests, x ∈ F) : SG F (runTests env ts w).2 := by
  have hg : Grow env (loop env ts w).2.2 (runTests env ts w).2 := by
    unfold runTests
    have h := grows_initiateCleanup env (loop env ts w).2.2
    simp only
    split
    · exact h
    · exact h.trans (grows_markUnrun env ..)
  have h1 : SG F (loop env ts w).2.2 := sg_loop env ts h (fun x hx => ht x (by obtain ⟨r, hr⟩ := hg.tests; rw [← hr]; exact List.mem_append_left _ hx))
  have h2 := sg_initiateCleanup env _ h1
  unfold runTests
  simp only
  split
  · exact h2
  · exact sg_markUnrun _ _ h2

theorem sg_initial : SG F initial := by
  refine ⟨.inl rfl, (by intro t ht; cases ht), (by intro c hc; cases hc), ?_, ?_⟩
  · intro u c hc
    have : initial.cl.cleanups u = [] := by
      show (if u = 0 then _ else _) = _
      split <;> rfl
    rw [this] at hc; cases hc
  · intro r k hr
    have : initial.cl.log = [.opened 0 "session-global"] := rfl
    rw [this] at hr
    simp at hr

theorem sg_session (env : Env) (ts : List T) : SG (session env ts).2.tests (session env ts).2 := by
  generalize hF : (session env ts).2.tests = F
  have h0 : SG F (startHooks env initial).2 := by
    refine sg_handle (stays_seq (sg_user _) (stays_seq (sg_hook _ _) (stays_seq (m := act (fun w => { w with startCalled := true })) (fun w h => h) (sg_user _)))) initial sg_initial
  have hE : ∀ w, Grow env w (endSession env w).2 := fun w => grows_endSession env w
  have hend : St' F (endSession env) := by
    refine stays_seq (sg_handle (sg_clPop _ _)) ?_
    intro w h
    simp only
    split
    · exact stays_seq (sg_handle (sg_hook _ _)) (sg_handle (sg_user _)) w h
    · exact h
  unfold session fin at hF ⊢
  simp only at hF ⊢
  refine hend _ ?_
  have hsub : ∀ x ∈ (onInterrupt env (seq (startHooks env) (runTests env ts)) initial).2.tests, x ∈ F := by
    intro x hx
    obtain ⟨r, hr⟩ := (hE (onInterrupt env (seq (startHooks env) (runTests env ts)) initial).2).tests
    rw [← hF, ← hr]; exact List.mem_append_left _ hx
  have hI : Grow env (seq (startHooks env) (runTests env ts) initial).2 (onInterrupt env (seq (startHooks env) (runTests env ts)) initial).2 := by
    unfold onInterrupt
    split
    · rename_i x w1 heq
      have h2 := grows_user env env.interrupt w1
      rw [heq]
      split
      · split <;> rename_i heq2 <;> rw [heq2] at h2 <;> exact h2
      · exact Grow.refl ..
    · exact Grow.refl ..
  have h1 : SG F (seq (startHooks env) (runTests env ts) initial).2 := by
    have hsub' : ∀ x ∈ (seq (startHooks env) (runTests env ts) initial).2.tests, x ∈ F := by
      intro x hx
      obtain ⟨r, hr⟩ := hI.tests
      apply hsub
      rw [← hr]; exact List.mem_append_left _ hx
    unfold seq at hsub' ⊢
    split <;> rename_i heq <;> rw [heq] at h0
    · exact h0
    · rw [heq] at hsub'
      exact sg_runTests env ts h0 hsub'
  unfold onInterrupt
  split
  · rename_i x w1 heq
    rw [heq] at h1
    have h2 := sg_user env.interrupt w1 h1
    split
    · split <;> rename_i heq2 <;> rw [heq2] at h2 <;> exact h2
    · exact h1
  · exact h1

end Slash.Whole
