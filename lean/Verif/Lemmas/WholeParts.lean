import Verif.Lemmas.WholeOnly
/-! Whole sessions: the trace is a start, a run and an end. -/
namespace Slash.Whole

open Slash.Scope (Sc)
open Slash.Cleanup (RKey Reg St Exn)

theorem user_trace (c : Code) (w : W) : (user c w).2.trace = w.trace ∧ (user c w).2.startCalled = w.startCalled := by
  unfold user; split <;> exact ⟨rfl, rfl⟩

theorem handle_trace (b : Bool) (m : M) (w : W) : (handle b m w).2.trace = (m w).2.trace ∧ (handle b m w).2.startCalled = (m w).2.startCalled := by
  rcases handle_or b m w with h | ⟨x, -, h⟩ <;> rw [h] <;> exact ⟨rfl, rfl⟩

theorem handle_false (m : M) (w : W) : (handle false m w).1 = none ↔ (m w).1 = none := by
  unfold handle
  split <;> rename_i heq <;> rw [heq] <;> simp

theorem clPop_trace (n : String) (hk : Option Kind) (w : W) : (clPop n hk w).2.trace = w.trace ∧ (clPop n hk w).2.startCalled = w.startCalled := by
  rw [(clPop_fields n hk w).1]; exact ⟨rfl, rfl⟩

/-! ## Start -/

/-- State when `session_start` is fired, and after its hooks. -/
def w1 (env : Env) : W := (user env.beforeStart initial).2
def w2 (env : Env) : W := (hook .sessionStart env.sessionStart (w1 env)).2

structure StartFacts (env : Env) (r : Option X × W) : Prop where
  fst : r.1 = none ↔ (user env.beforeStart initial).1 = none ∧ (hook .sessionStart env.sessionStart (w1 env)).1 = none ∧
    (user env.afterStart { w2 env with startCalled := true }).1 = none
  trace : r.2.trace = if (user env.beforeStart initial).1 = none then [⟨.sessionStart, (w1 env).cl, (w1 env).fx⟩] else []
  called : r.2.startCalled = true ↔ (user env.beforeStart initial).1 = none ∧ (hook .sessionStart env.sessionStart (w1 env)).1 = none

theorem start_facts (env : Env) : StartFacts env (startHooks env initial) := by
  have hb := user_trace env.beforeStart initial
  have ht2 : (w2 env).trace = (w1 env).trace ++ [⟨.sessionStart, (w1 env).cl, (w1 env).fx⟩] ∧ (w2 env).startCalled = (w1 env).startCalled :=
    user_trace env.sessionStart (emit .sessionStart (w1 env))
  have ht3 := user_trace env.afterStart { w2 env with startCalled := true }
  have hw1 : (w1 env).trace = [] ∧ (w1 env).startCalled = false := hb
  rw [hw1.1, hw1.2] at ht2
  unfold startHooks
  generalize hm : seq (user env.beforeStart) (seq (hook .sessionStart env.sessionStart) (seq (act (fun w => { w with startCalled := true })) (user env.afterStart))) = m
  have h : StartFacts env (m initial) := by
    subst hm
    rcases h1 : user env.beforeStart initial with ⟨_ | x, v1⟩
    rotate_left
    · rw [seq_some h1]
      have hv : v1 = w1 env := by unfold w1; rw [h1]
      rw [hv]
      exact ⟨by simp [h1], by rw [h1]; simpa using hw1.1, by simp [h1, hw1.2]⟩
    · rw [seq_none h1]
      have hv : v1 = w1 env := by unfold w1; rw [h1]
      rw [hv]
      rcases h2 : hook .sessionStart env.sessionStart (w1 env) with ⟨_ | x, v2⟩
      rotate_left
      · rw [seq_some h2]
        have hv2 : v2 = w2 env := by unfold w2; rw [h2]
        rw [hv2]
        exact ⟨by simp [h2], by rw [h1]; simpa using ht2.1, by simp [h2, ht2.2]⟩
      · rw [seq_none h2]
        have hv2 : v2 = w2 env := by unfold w2; rw [h2]
        rw [hv2]
        have e : seq (act (fun w => { w with startCalled := true })) (user env.afterStart) (w2 env) = user env.afterStart { w2 env with startCalled := true } := rfl
        rw [e]
        refine ⟨by simp [h1, h2], by rw [h1, ht3.1]; simpa using ht2.1, ?_⟩
        rw [ht3.2]; simp [h1, h2]
  refine ⟨(handle_false m initial).trans h.fst, (handle_trace false m initial).1.trans h.trace, ?_⟩
  rw [(handle_trace false m initial).2]; exact h.called

/-! ## Run -/

theorem loop_inRun (env : Env) (ts : List T) (w : W) :
    ∃ d, (loop env ts w).2.2.trace = w.trace ++ d ∧ (∀ s ∈ d, inRun s.ev = true) ∧ (loop env ts w).2.2.cl.curTest = w.cl.curTest ∧
      (loop env ts w).2.2.startCalled = w.startCalled := by
  induction ts generalizing w with
  | nil => exact ⟨[], by simp [loop], by simp, rfl, rfl⟩
  | cons t ts ih =>
    obtain ⟨hc, hs, d, hd, hE⟩ := runSingle_only env t ts.isEmpty w
    simp only [loop]
    rcases heq : runSingle env t ts.isEmpty w with ⟨_ | x, v⟩ <;> rw [heq] at hd hc hs
    rotate_left
    · exact ⟨d, hd, fun s h => (hE s h).2.2, hc, hs⟩
    · simp only
      split
      · exact ⟨d, hd, fun s h => (hE s h).2.2, hc, hs⟩
      · obtain ⟨d2, hd2, hE2, hc2, hs2⟩ := ih v
        refine ⟨d ++ d2, by rw [hd2, show v.trace = _ from hd, List.append_assoc], fun s h => ?_, hc2.trans hc, hs2.trans hs⟩
        rcases List.mem_append.1 h with h | h
        · exact (hE s h).2.2
        · exact hE2 s h


theorem runTests_trace (env : Env) (ts : List T) {w : W} (hc : w.cl.curTest = none) :
    ∃ d, (runTests env ts w).2.trace = w.trace ++ d ∧ (∀ s ∈ d, inRun s.ev = true) ∧ (runTests env ts w).2.startCalled = w.startCalled ∧
      (env.stop = true → (∃ i st, Sim ⟨.global, none, i⟩ w st) → Stops d) := by
  obtain ⟨d1, h1, h2, h3, h4⟩ := loop_inRun env ts w
  have hst := fun hs => loop_stops env hs ts (w := w)
  rcases hl : loop env ts w with ⟨x, rest, v⟩
  rw [hl] at h1 h3 h4 hst
  simp only at h1 h3 h4 hst
  have h5 := only_initiateCleanup (quiet_ok none) env v (⟨h3.trans hc, h4, [], by simp, by simp⟩ : Only (Ok none) none v.trace w.startCalled v)
  obtain ⟨d2, h6, h7⟩ := h5.since
  have h8 := h5.called
  rcases hic : initiateCleanup env v with ⟨y, v2⟩
  rw [hic] at h6 h8
  have key : (runTests env ts w).2.trace = v2.trace ∧ (runTests env ts w).2.startCalled = v2.startCalled := by
    unfold runTests
    rw [hl]; simp only; rw [hic]; simp only
    split
    · exact ⟨rfl, rfl⟩
    · exact ⟨(markUnrun_spec rest v2).2.1, (markUnrun_spec rest v2).2.2.1⟩
  refine ⟨d1 ++ d2, by rw [key.1, show v2.trace = _ from h6, h1, List.append_assoc], fun s hs => ?_, key.2.trans h8, fun hs hS => ?_⟩
  · rcases List.mem_append.1 hs with hs | hs
    · exact h2 s hs
    · exact (h7 s hs).2.2
  · obtain ⟨d', hd', hst'⟩ := hst hs hS
    rw [h1] at hd'
    have := List.append_cancel_left hd'
    subst this
    refine stops_append hst' ?_ (fun s _ _ _ s' hs' => ?_)
    · rintro pre s post rfl i hi
      have := (h7 s (by simp)).1
      rw [this] at hi; cases hi
    · rcases (h7 s' hs').2.1 with h | h <;> exact h

/-! ## End -/

theorem onInterrupt_trace (env : Env) (m : M) (w : W) : (onInterrupt env m w).2.trace = (m w).2.trace ∧
    (onInterrupt env m w).2.startCalled = (m w).2.startCalled ∧ ((onInterrupt env m w).1 = none ↔ (m w).1 = none) := by
  unfold onInterrupt
  split
  · rename_i x v heq
    rw [heq]
    have h := user_trace env.interrupt v
    split
    · split <;> rename_i heq2 <;> rw [heq2] at h <;> exact ⟨h.1, h.2, by simp⟩
    · exact ⟨rfl, rfl, by simp⟩
  · exact ⟨rfl, rfl, Iff.rfl⟩

theorem onInterrupt_soft {F : List Nat} (env : Env) (m : M) (w : W) (h : Good F (m w).2.cl) : Soft F (m w).2 (onInterrupt env m w).2 := by
  unfold onInterrupt
  split
  · rename_i x v heq
    rw [heq] at h ⊢
    have h1 := soft_user env.interrupt v h
    split
    · split <;> rename_i heq2 <;> rw [heq2] at h1 <;> exact h1
    · exact Soft.refl h
  · exact Soft.refl h

theorem end_trace (env : Env) (w : W) : ∃ c, (endSession env w).2.trace = w.trace ++ c ∧ (c = [] ∨ ∃ s, s.ev = .sessionEnd ∧ c = [s]) ∧
    (c ≠ [] → w.startCalled = true) ∧ ((endSession env w).1 = none → w.startCalled = true → c ≠ []) ∧
    ((endSession env w).1 = none → ∀ s ∈ c, Returns env.sessionEnd s.cl) := by
  have hp := clPop_trace "session-global" none w
  have hh := handle_trace false (clPop "session-global" none) w
  rcases h1 : handle false (clPop "session-global" none) w with ⟨_ | x, v⟩ <;> rw [h1, hp.1, hp.2] at hh
  rotate_left
  · refine ⟨[], ?_, .inl rfl, by simp, fun h => ?_, by simp⟩
    · unfold endSession; rw [seq_some h1, List.append_nil]; exact hh.1
    · unfold endSession at h; rw [seq_some h1] at h; cases h
  · unfold endSession
    rw [seq_none h1]
    have hv : v.startCalled = w.startCalled := hh.2
    have hvt : v.trace = w.trace := hh.1
    split
    · rename_i hsc
      refine ⟨[⟨.sessionEnd, v.cl, v.fx⟩], ?_, .inr ⟨_, rfl, rfl⟩, fun _ => hv ▸ hsc, by simp, fun h => ?_⟩
      have t1 := handle_trace false (hook .sessionEnd env.sessionEnd) v
      have t2 := user_trace env.sessionEnd (emit .sessionEnd v)
      have t3 : (handle false (hook .sessionEnd env.sessionEnd) v).2.trace = w.trace ++ [⟨.sessionEnd, v.cl, v.fx⟩] := by
        rw [t1.1, ← hvt]; exact t2.1
      rcases h2 : handle false (hook .sessionEnd env.sessionEnd) v with ⟨_ | x, u⟩ <;> rw [h2] at t3
      · rw [seq_none h2, (handle_trace false (user env.afterEnd) u).1, (user_trace env.afterEnd u).1]; exact t3
      · rw [seq_some h2]; exact t3
      · rcases h2 : handle false (hook .sessionEnd env.sessionEnd) v with ⟨_ | x, u⟩
        · have : (hook .sessionEnd env.sessionEnd v).1 = none := (handle_false _ _).1 (by rw [h2])
          have h5 := (user_returns env.sessionEnd (emit .sessionEnd v)).1 this
          intro s hs
          rw [List.mem_singleton.1 hs]; exact h5
        · rw [seq_some h2] at h; cases h
    · rename_i hsc
      refine ⟨[], by rw [List.append_nil]; exact hvt, .inl rfl, by simp, fun _ h => absurd (hv.trans h) hsc, by simp⟩

/-- A session: start, run, end. -/
structure Parts (env : Env) (ts : List T) (a d c : List Snap) : Prop where
  trace : (session env ts).2.trace = a ++ d ++ c
  start : a = if (user env.beforeStart initial).1 = none then [⟨.sessionStart, (w1 env).cl, (w1 env).fx⟩] else []
  run : ∀ s ∈ d, inRun s.ev = true
  stops : env.stop = true → Stops d
  quiet : (startHooks env initial).1 ≠ none → d = [] ∧ (session env ts).1 ≠ none
  «end» : c = [] ∨ ∃ s, s.ev = .sessionEnd ∧ c = [s]
  called : c ≠ [] → (user env.beforeStart initial).1 = none ∧ (hook .sessionStart env.sessionStart (w1 env)).1 = none
  ended : (session env ts).1 = none → c ≠ []
  ret : (session env ts).1 = none → ∀ s ∈ c, Returns env.sessionEnd s.cl

theorem fin_none {m f : M} {w : W} (h : (fin m f w).1 = none) : (m w).1 = none ∧ (f (m w).2).1 = none := by
  have : (fin m f w).1 = (f (m w).2).1.or (m w).1 := rfl
  rw [this, Option.or_eq_none_iff] at h
  exact ⟨h.2, h.1⟩

theorem fin_some {m f : M} {w : W} (h : (m w).1 ≠ none) : (fin m f w).1 ≠ none := fun hn => h (fin_none hn).1

theorem parts (env : Env) (ts : List T) : ∃ a d c, Parts env ts a d c := by
  have S := start_facts env
  obtain ⟨st, hsim, -, -⟩ := sim_start env
  have hI := onInterrupt_trace env (seq (startHooks env) (runTests env ts)) initial
  obtain ⟨c, c1, c2, c3, c4, c5⟩ := end_trace env (onInterrupt env (seq (startHooks env) (runTests env ts)) initial).2
  have htr : (session env ts).2.trace = (seq (startHooks env) (runTests env ts) initial).2.trace ++ c := by rw [← hI.1]; exact c1
  have hend : (session env ts).1 = none → (seq (startHooks env) (runTests env ts) initial).1 = none ∧
      (endSession env (onInterrupt env (seq (startHooks env) (runTests env ts)) initial).2).1 = none :=
    fun h => ⟨hI.2.2.1 (fin_none h).1, (fin_none h).2⟩
  rcases hs : startHooks env initial with ⟨_ | x, w0⟩ <;> rw [hs] at S hsim
  rotate_left
  · rw [seq_some hs] at hI htr hend
    refine ⟨w0.trace, [], c, ⟨by rw [htr, List.append_nil], S.trace, by simp, fun _ pre s post h => by simp at h, fun _ => ⟨rfl, fun h => ?_⟩, c2, fun h => ?_, fun h => ?_, fun h => c5 (hend h).2⟩⟩
    · have := (hend h).1; cases this
    · exact S.called.1 ((hI.2.1).symm.trans (c3 h))
    · have := (hend h).1; cases this
  · rw [seq_none hs] at hI htr hend
    obtain ⟨d, d1, d2, d3, d4⟩ := runTests_trace env ts hsim.test
    refine ⟨w0.trace, d, c, ⟨by rw [htr, d1], S.trace, d2, fun h => d4 h ⟨[], st, hsim⟩, fun h => (by rw [hs] at h; exact absurd rfl h), c2, fun h => ?_, fun h => ?_, fun h => c5 (hend h).2⟩⟩
    · exact S.called.1 (d3.symm.trans ((hI.2.1).symm.trans (c3 h)))
    · refine c4 (hend h).2 (hI.2.1.trans (d3.trans ?_))
      have := S.fst.1 rfl
      exact S.called.2 ⟨this.1, this.2.1⟩

theorem reach_session (env : Env) (ts : List T) : Reach (seq (startHooks env) (runTests env ts) initial).2.cl (session env ts).2.cl := by
  have e1 : Reach (seq (startHooks env) (runTests env ts) initial).2.cl (onInterrupt env (seq (startHooks env) (runTests env ts)) initial).2.cl := by
    unfold onInterrupt
    split
    · rename_i x v heq
      rw [heq]
      have h := (grows_user env env.interrupt v).reach
      split
      · split <;> rename_i heq2 <;> rw [heq2] at h <;> exact h
      · exact Reach.refl _
    · exact Reach.refl _
  exact e1.trans (grows_endSession env _).reach

theorem reach_startHooks (env : Env) (ts : List T) : Reach (startHooks env initial).2.cl (session env ts).2.cl := by
  refine Reach.trans ?_ (reach_session env ts)
  rcases hs : startHooks env initial with ⟨_ | x, w0⟩
  · rw [seq_none hs]; exact (grows_runTests env ts w0).reach
  · rw [seq_some hs]; exact Reach.refl _

/-- The tests of a session. -/
theorem session_facts (env : Env) (ts : List T) (hn : (ts.map (·.id)).Nodup) : ∃ ps, RunFacts env ts (session env ts) ps ∧
    ((startHooks env initial).1 ≠ none → ps = []) := by
  obtain ⟨st, hsim, h1, h2⟩ := sim_start env
  have htests : (startHooks env initial).2.tests = [] := (inert_startHooks env initial).tests
  have hgs : ((startHooks env initial).2.cl.results .global).started = true := (grows_startHooks env initial).reach.grow.started _ rfl
  have hI := onInterrupt_trace env (seq (startHooks env) (runTests env ts)) initial
  have main : ∃ ps, RunFacts env ts (seq (startHooks env) (runTests env ts) initial) ps ∧ ((startHooks env initial).1 ≠ none → ps = []) := by
    rcases hs : startHooks env initial with ⟨_ | x, w0⟩ <;> rw [hs] at hsim htests hgs
    · rw [seq_none hs]
      obtain ⟨ps, h⟩ := run_facts env ts hn hsim hgs htests h1 h2
      exact ⟨ps, h, fun h => absurd rfl h⟩
    · rw [seq_some hs]
      have ht := tame_startHooks env initial sg_initial
      rw [hs] at ht
      refine ⟨[], ⟨rfl, ?_, by simp, (fun h => by cases h), ⟨0, htests⟩, by simp, fun id _ => hsim.res.new id (by show id ∉ w0.tests; rw [show w0.tests = [] from htests]; simp), ?_, (fun h => by cases h)⟩, fun _ => rfl⟩
      · rw [seen, ht.trace]; rfl
      · have := hsim.good; rw [show w0.tests = [] from htests] at this; exact this
  obtain ⟨ps, R, hps⟩ := main
  refine ⟨ps, ?_, hps⟩
  have hA := onInterrupt_soft env _ _ R.good
  have hB := soft_endSession env _ hA.moved.good
  have hC := hA.trans hB
  have hr := reach_session env ts
  have hcl : (session env ts).2 = (endSession env (onInterrupt env (seq (startHooks env) (runTests env ts)) initial).2).2 := rfl
  rw [← hcl] at hC
  have hnone : (session env ts).1 = none → (seq (startHooks env) (runTests env ts) initial).1 = none := fun h => hI.2.2.1 (fin_none h).1
  refine ⟨R.ids, hC.trace.trans R.trace, R.each, fun h => hC.tests.trans (R.tests (hnone h)), ?_, fun p hp => Begun.mono hr.grow (R.begun p hp), fun id hid => ?_, hC.moved.good, fun h hl => ?_⟩
  · obtain ⟨n, hn⟩ := R.sub; exact ⟨n, hC.tests.trans hn⟩
  · rw [changed_new hC.moved.res hid]; exact R.new id hid
  · obtain ⟨g1, g2⟩ := R.stop (hnone h) hl
    refine ⟨g1, ?_⟩
    rcases g2 with g | ⟨p, hp, g⟩
    · exact .inl (Bad.mono hr.grow g)
    · exact .inr ⟨p, hp, Bad.mono hr.grow g⟩

end Slash.Whole
