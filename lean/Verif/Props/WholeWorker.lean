import Verif.Model.WholeWorker
import Verif.Props.WholeMany
import Verif.Lemmas.WholeFx
import Verif.Lemmas.WholeWorker
/-!
# The session of a parallel worker: C189
-/
namespace Slash.Whole

open Slash.Scope (Sc)
open Slash.Cleanup (RKey)

/-! ## The last test of a session, and the same test in a worker -/

/-- What happens when the session is cleaned up. -/
def Tail (e : Ev) : Prop :=
  match e with
  | .sessionCleanup | .closing _ | .fixturesDown _ | .closeRaised _ _ => True
  | _ => False

theorem quiet_tail : Quiet Tail := ⟨trivial, fun _ => trivial, fun _ => trivial, fun _ _ => trivial⟩

theorem cleanup_tail (env : Env) (w : W) : ∃ d, (initiateCleanup env w).2.trace = w.trace ++ d ∧ ∀ s ∈ d, Tail s.ev := by
  obtain ⟨d, h1, h2⟩ := (only_initiateCleanup quiet_tail env w (⟨rfl, rfl, [], by simp, by simp⟩ : Only Tail w.cl.curTest w.trace w.startCalled w)).since
  exact ⟨d, h1, fun s hs => (h2 s hs).2⟩

theorem flushLoop_started (env : Env) (ss : List Sc) (p : Option X) (w : W) : (flushLoop env ss p w).2.started = w.started := by
  induction ss generalizing p w with
  | nil => rfl
  | cons s ss ih =>
    have h := popped_started (env := env) s none w
    simp only [flushLoop]
    split <;> rename_i heq <;> rw [heq] at h
    · exact (ih _ _).trans h
    · split
      · exact (ih _ _).trans h
      · exact h

theorem handle_started (b : Bool) (m : M) (w : W) : (handle b m w).2.started = (m w).2.started := by
  rcases handle_or b m w with h | ⟨x, -, h⟩ <;> rw [h] <;> rfl

theorem cleanup_started (env : Env) (w : W) : (initiateCleanup env w).2.started = w.started := by
  unfold initiateCleanup
  split
  · rfl
  · rename_i h
    generalize hv : ({ w with cleanups := w.cleanups + 1 } : W) = v
    have e : (fin (handle true (hook .sessionCleanup (env.beforeCleanup w.cleanups))) (handle true (flush env)) v).2 =
      (handle true (flush env) (handle true (hook .sessionCleanup (env.beforeCleanup w.cleanups)) v).2).2 := rfl
    rw [e, handle_started]
    have h2 : ∀ x : W, (flush env x).2.started = x.started := fun x => flushLoop_started env x.scopes none x
    rw [h2, handle_started]
    have h3 : (hook .sessionCleanup (env.beforeCleanup w.cleanups) v).2.started = (emit .sessionCleanup v).started := (side_user ..).started
    rw [h3, ← hv]; rfl

theorem ctrlEnd_noop (t : T) (prev : Option RKey) {w : W} (h : w.started = false) : ctrlEnd t prev w = (none, w) := by
  unfold ctrlEnd; rw [h]; rfl

theorem exceptSkip_trace (m : M) (w : W) : (exceptSkip m w).2.trace = (m w).2.trace := by rw [exceptSkip_snd]

theorem block_last (env : Env) (t : T) (prev : Option RKey) (w : W) :
    ∃ d, (fin (block env t true prev) (ctrlEnd t prev) w).2.trace = (fin (block env t false prev) (ctrlEnd t prev) w).2.trace ++ d ∧ ∀ s ∈ d, Tail s.ev := by
  show ∃ d, (ctrlEnd t prev (block env t true prev w).2).2.trace = (ctrlEnd t prev (block env t false prev w).2).2.trace ++ d ∧ _
  unfold block
  rw [exceptSkip_snd, exceptSkip_snd]
  generalize exceptSkip (handle true (beginRunEnd env t)) = A
  rcases hA : A w with ⟨_ | x, w1⟩
  rotate_left
  · rw [seq_some hA, seq_some hA]; exact ⟨[], by simp, by simp⟩
  rw [seq_none hA, seq_none hA]
  rcases hS : fireSummary t w1 with ⟨_ | x, w2⟩
  rotate_left
  · rw [seq_some hS, seq_some hS]; exact ⟨[], by simp, by simp⟩
  rw [seq_none hS, seq_none hS]
  simp only [if_true, Bool.false_eq_true, if_false]
  have hst := ctrlEnd_started t prev w2
  rcases hC : ctrlEnd t prev w2 with ⟨_ | x, w3⟩ <;> rw [hC] at hst
  rotate_left
  · rw [seq_some hC]
    refine ⟨[], ?_, by simp⟩
    dsimp only
    rw [ctrlEnd_noop t prev hst]
    show w3.trace = (ctrlEnd t prev w2).2.trace ++ []
    rw [hC, List.append_nil]
  · rw [seq_none hC]
    obtain ⟨d, h1, h2⟩ := cleanup_tail env w3
    refine ⟨d, ?_, h2⟩
    rw [ctrlEnd_noop t prev (by rw [handle_started, cleanup_started]; exact hst)]
    show _ = (ctrlEnd t prev w2).2.trace ++ d
    rw [hC, (handle_trace ..).1, h1]

theorem inner_last (env : Env) (t : T) (prev : Option RKey) (w : W) :
    ∃ d, (inner env t true prev w).2.trace = (inner env t false prev w).2.trace ++ d ∧ ∀ s ∈ d, Tail s.ev := by
  unfold inner processReqs
  rcases hU : user t.reqs w with ⟨_ | x, w1⟩
  rotate_left
  · rw [seq_some hU, seq_some hU]; exact ⟨[], by simp, by simp⟩
  rw [seq_none hU, seq_none hU]
  split
  · exact block_last env t prev _
  · exact ⟨[], by simp, by simp⟩

theorem runSingle_last (env : Env) (t : T) (w : W) :
    ∃ d, (runSingle env t true w).2.trace = (runSingle env t false w).2.trace ++ d ∧ ∀ s ∈ d, Tail s.ev := by
  by_cases h : t.id ∈ w.tests
  · unfold runSingle; rw [if_pos h, if_pos h]; exact ⟨[], by simp, by simp⟩
  · rw [runSingle_new env t true h, runSingle_new env t false h]
    show ∃ d, (handle true (inner env t true w.cl.curResult) (entered t w)).2.trace = (handle true (inner env t false w.cl.curResult) (entered t w)).2.trace ++ d ∧ _
    rw [(handle_trace ..).1, (handle_trace ..).1]
    exact inner_last ..

theorem loop_worker (env : Env) (hs : env.stop = false) (ts : List T) (w : W) :
    ∃ d, (loop env ts w).2.2.trace = (workerLoop env ts w).2.trace ++ d ∧ ∀ s ∈ d, Tail s.ev := by
  induction ts generalizing w with
  | nil => exact ⟨[], by simp [loop, workerLoop, act], by simp⟩
  | cons t ts ih =>
    cases ts with
    | nil =>
      obtain ⟨d, h1, h2⟩ := runSingle_last env t w
      refine ⟨d, ?_, h2⟩
      have e1 : (loop env [t] w).2.2 = (runSingle env t true w).2 := by
        simp only [loop, List.isEmpty_nil]
        split <;> rename_i heq <;> rw [heq]
        split <;> rfl
      have e2 : (workerLoop env [t] w).2 = (runSingle env t false w).2 := by
        simp only [workerLoop, seq]
        split <;> rename_i heq <;> rw [heq]
        rfl
      rw [e1, e2, h1]
    | cons t' ts =>
      rw [loop, workerLoop]
      simp only [List.isEmpty_cons, hs, Bool.false_and, Bool.false_eq_true, if_false, seq]
      rcases runSingle env t false w with ⟨_ | x, w1⟩
      · exact ih w1
      · exact ⟨[], by simp, by simp⟩

/-! ## The scope of the session stays open -/

/-- Not part of cleaning up the session. -/
def Inside (e : Ev) : Prop := e ≠ .sessionCleanup ∧ e ≠ .closing .session ∧ e ≠ .fixturesDown .session

/-- The trace was only continued, as `G` says. -/
def Ext (G : Ev → Prop) (tr : List Snap) (w : W) : Prop := ∃ d, w.trace = tr ++ d ∧ ∀ s ∈ d, G s.ev

section
variable {G : Ev → Prop} {tr : List Snap}

theorem Ext.same {w w' : W} (h : Ext G tr w) (ht : w'.trace = w.trace) : Ext G tr w' := by unfold Ext at h ⊢; rw [ht]; exact h
theorem Ext.emit {w : W} (h : Ext G tr w) {e : Ev} (he : G e) : Ext G tr (emit e w) := by
  obtain ⟨d, h1, h2⟩ := h
  refine ⟨d ++ [⟨e, w.cl, w.fx⟩], by rw [Whole.emit, h1, List.append_assoc], fun s hs => ?_⟩
  rcases List.mem_append.1 hs with hs | hs
  · exact h2 s hs
  · rw [List.mem_singleton.1 hs]; exact he
theorem Ext.mid {w w' : W} (h : Ext G tr w) (hm : Mid G w w') : Ext G tr w' := by
  obtain ⟨d, h1, h2⟩ := h
  obtain ⟨d', h3, h4⟩ := hm.trace
  refine ⟨d ++ d', by rw [h3, h1, List.append_assoc], fun s hs => ?_⟩
  rcases List.mem_append.1 hs with hs | hs
  · exact h2 s hs
  · exact h4 s hs
theorem ext_user (c : Code) : Stays (Ext G tr) (user c) := fun _ h => h.same (side_user ..).trace
theorem ext_hook {e : Ev} (he : G e) (c : Code) : Stays (Ext G tr) (hook e c) := fun w h => h.mid (mid_hook he c w)
theorem ext_handle {b : Bool} {m : M} (hm : Stays (Ext G tr) m) : Stays (Ext G tr) (handle b m) :=
  fun w h => (hm w h).same (handle_trace b m w).1
theorem ext_act {f : W → W} (hf : ∀ w, (f w).trace = w.trace) : Stays (Ext G tr) (act f) := fun w h => h.same (hf w)
end

theorem kept_pop (env : Env) {s : Sc} (hs : s ≠ .session) (hk : Option Kind) {tr : List Snap} : Stays (Ext Inside tr) (pop env s hk) := fun w h =>
  h.mid (mid_pop env (by unfold Inside; simp [hs]) (by unfold Inside; simp [hs]) (fun k => by unfold Inside; simp) hk w)

theorem kept_beginTest (env : Env) (t : T) {tr : List Snap} : Stays (Ext Inside tr) (beginTest env t) := by
  intro w hw
  have h0 : Ext Inside tr (if w.lastModule = none then push .session w else w) := by
    split
    · exact hw.same rfl
    · exact hw
  have h1 : Ext Inside tr (changeModule env t (if w.lastModule = none then push .session w else w)).2 := by
    generalize (if w.lastModule = none then push .session w else w) = v at h0
    unfold changeModule
    split
    · have h2 : Ext Inside tr (if v.lastModule ≠ none then pop env .module none v else (none, v)).2 := by
        split
        · exact kept_pop env (by decide) none v h0
        · exact h0
      split <;> rename_i heq <;> rw [heq] at h2
      · exact h2
      · split
        · exact h2
        · exact h2.same rfl
    · exact h0
  unfold beginTest
  split <;> rename_i heq <;> rw [heq] at h1
  · exact h1.emit (by unfold Inside; simp)
  · exact h1.same rfl

theorem kept_endTest (env : Env) (t : T) {tr : List Snap} : Stays (Ext Inside tr) (endTest env t) := by
  intro w hw
  unfold endTest
  split
  · exact hw
  · exact kept_pop env (by decide) _ w hw

theorem kept_ctrlEnd (t : T) (prev : Option RKey) {tr : List Snap} : Stays (Ext Inside tr) (ctrlEnd t prev) := by
  intro w hw
  unfold ctrlEnd
  split
  · exact hw
  · exact stays_fin (stays_fin (stays_seq (ext_act (f := forbid) (fun _ => rfl)) (ext_hook (by unfold Inside; simp) _))
      (ext_act (f := permit w.cl.allowImplicit) (fun _ => rfl))) (ext_act (f := setResult prev) (fun _ => rfl)) w hw

theorem kept_runSingle (env : Env) (t : T) {tr : List Snap} : Stays (Ext Inside tr) (runSingle env t false) := by
  intro w hw
  by_cases h : t.id ∈ w.tests
  · unfold runSingle; rw [if_pos h]; exact hw
  · rw [runSingle_new env t false h]
    refine Ext.same (w := (handle true (inner env t false w.cl.curResult) (entered t w)).2) ?_ rfl
    refine ext_handle ?_ _ (hw.same rfl)
    have hstart : Stays (Ext Inside tr) (ctrlStart t) := by
      intro w hw
      unfold ctrlStart
      split
      · exact hw
      · exact stays_seq (ext_act (f := mark t true) (fun _ => rfl)) (ext_hook (e := .start t.id t.module) (by unfold Inside; simp) _) w hw
    have hrun : Stays (Ext Inside tr) (testRun env t) := by
      refine stays_seq ?_ (ext_hook (by unfold Inside; simp) _)
      intro w hw
      exact hw.same (side_setUp env t w).trace
    have hskips : ∀ n, Stays (Ext Inside tr) (act (addSkips n)) := by
      intro n
      induction n with
      | zero => intro w hw; exact hw
      | succ n ih =>
        intro w hw
        refine ih (addSkip w) (hw.same ?_)
        unfold addSkip
        split <;> rfl
    refine stays_seq (ext_user _) ?_
    split
    · refine stays_seq (ext_act (fun _ => rfl)) (stays_fin ?_ (kept_ctrlEnd t _))
      refine stays_exceptSkip (stays_seq (stays_exceptSkip (ext_handle ?_)) (stays_seq ?_ (fun _ h => h)))
      · exact stays_seq (kept_beginTest env t) (stays_fin (stays_seq hstart (ext_handle hrun)) (kept_endTest env t))
      · exact ext_handle (fun w hw => ext_hook (e := .summary t.id _) (by unfold Inside; simp) _ w hw)
    · exact stays_seq (hskips _) (ext_hook (by unfold Inside; simp) _)

theorem kept_workerLoop (env : Env) (ts : List T) {tr : List Snap} : Stays (Ext Inside tr) (workerLoop env ts) := by
  induction ts with
  | nil => exact fun _ h => h
  | cons t ts ih => exact stays_seq (kept_runSingle env t) ih

/-! ## When no closing of a scope is interrupted, all scopes are closed -/

theorem pop_raises (env : Env) (s : Sc) (hk : Option Kind) (w : W) (x : X) (h : (pop env s hk w).1 = some x) :
    x.kind.isException = true ∨ ∃ b ∈ (pop env s hk w).2.trace, b.ev = .closeRaised s x.kind := by
  unfold pop at h ⊢
  split
  · rename_i he; simp only [he, err] at h; cases h; exact .inl rfl
  · rename_i q rest he
    simp only [he] at h
    split
    · rename_i hne; simp only [hne, ne_eq, not_false_eq_true, if_true, err] at h; cases h; exact .inl rfl
    · rename_i hne
      simp only [hne, if_false] at h
      revert h
      rcases callBoth (clPop (scName s) hk) (fxPop env s) (emit (.closing s) { w with scopes := rest }) with ⟨_ | y, v⟩
      · intro h; cases h
      · intro h; cases h
        exact .inr ⟨⟨.closeRaised s x.kind, v.cl, v.fx⟩, by simp [emit], rfl⟩

theorem flushLoop_raises (env : Env) (ss : List Sc) (p : Option X) (w : W) (x : X) (h : (flushLoop env ss p w).1 = some x) (hp : ∀ y, p = some y → y.kind.isException = true) :
    x.kind.isException = true ∨ ∃ b ∈ (flushLoop env ss p w).2.trace, ∃ s, b.ev = .closeRaised s x.kind := by
  induction ss generalizing p w with
  | nil => exact .inl (hp x h)
  | cons s ss ih =>
    have hr := pop_raises env s none w
    simp only [flushLoop] at h ⊢
    rcases hq : pop env s none w with ⟨_ | y, v⟩ <;> rw [hq] at h hr
    · exact ih _ _ h hp
    · dsimp only at h ⊢
      by_cases hy : y.kind.isException = true
      · simp only [hy, if_true] at h ⊢
        exact ih _ _ h (fun z hz => by cases hz; exact hy)
      · simp only [hy, if_false] at h ⊢
        cases h
        rcases hr x rfl with h1 | ⟨b, hb, he⟩
        · exact absurd h1 hy
        · exact .inr ⟨b, hb, s, he⟩

/-- After an attempt to clean up the session that is not interrupted, no scope is open. -/
theorem cleanup_closes (env : Env) (w : W) (h : ¬ Cut (initiateCleanup env w).2.trace) : (initiateCleanup env w).2.scopes = [] := by
  unfold initiateCleanup at h ⊢
  split
  · rename_i hs; exact hs
  · rename_i hs
    rw [if_neg hs] at h
    generalize ({ w with cleanups := w.cleanups + 1 } : W) = v at h ⊢
    have e : (fin (handle true (hook .sessionCleanup (env.beforeCleanup w.cleanups))) (handle true (flush env)) v).2 =
      (handle true (flush env) (handle true (hook .sessionCleanup (env.beforeCleanup w.cleanups)) v).2).2 := rfl
    rw [e] at h ⊢
    generalize (handle true (hook .sessionCleanup (env.beforeCleanup w.cleanups)) v).2 = u at h ⊢
    rw [(handle_trace ..).1] at h
    have hf : (flush env u).2.scopes = [] := by
      refine flushLoop_scopes env _ _ _ rfl ?_
      intro x hx
      rcases flushLoop_raises env u.scopes none u x hx (by simp) with h1 | ⟨b, hb, s, he⟩
      · exact h1
      · cases hk : x.kind.isException with
        | true => rfl
        | false => exact absurd ⟨b, hb, s, _, he, hk⟩ h
    rcases handle_or true (flush env) u with h' | ⟨y, -, h'⟩ <;> rw [h'] <;> exact hf

/-! ## C189 -/

/-- Neither of the ends of the session, nor of its cleanup. -/
def OfTests (s : Snap) : Bool := (evId s.ev).isSome

theorem tail_ofTests {s : Snap} (h : Tail s.ev ∨ s.ev = .sessionEnd) : OfTests s = false := by
  unfold OfTests
  cases he : s.ev <;> rw [he] at h <;> simp [Tail, evId] at h ⊢

theorem workerRun_trace (env : Env) (ts : List T) (comm : Option X) (w : W) :
    ∃ d, (workerRun env ts comm w).2.trace = (workerLoop env ts w).2.trace ++ d ∧ ∀ s ∈ d, Tail s.ev := by
  have h1 : ∃ d, (seq (seq (workerLoop env ts) (fun w => (comm, w))) (initiateCleanup env) w).2.trace = (workerLoop env ts w).2.trace ++ d ∧ ∀ s ∈ d, Tail s.ev := by
    rcases hl : workerLoop env ts w with ⟨_ | x, v⟩
    rotate_left
    · rw [seq_some (seq_some hl)]; exact ⟨[], by simp, by simp⟩
    · cases comm with
      | none =>
        have : seq (workerLoop env ts) (fun w => ((none : Option X), w)) w = (none, v) := by rw [seq_none hl]
        rw [seq_none this]; exact cleanup_tail env v
      | some x =>
        have : seq (workerLoop env ts) (fun w => (some x, w)) w = (some x, v) := by rw [seq_none hl]
        rw [seq_some this]; exact ⟨[], by simp, by simp⟩
  obtain ⟨d, hd, ht⟩ := h1
  obtain ⟨d', hd', ht'⟩ := cleanup_tail env (seq (seq (workerLoop env ts) (fun w => (comm, w))) (initiateCleanup env) w).2
  refine ⟨d ++ d', ?_, fun s hs => ?_⟩
  · rw [← List.append_assoc, ← hd, ← hd']; rfl
  · rcases List.mem_append.1 hs with hs | hs
    · exact ht s hs
    · exact ht' s hs

theorem runTests_worker (env : Env) (hs : env.stop = false) (ts : List T) (w : W) :
    ∃ d, (runTests env ts w).2.trace = (workerLoop env ts w).2.trace ++ d ∧ ∀ s ∈ d, Tail s.ev := by
  obtain ⟨d, hd, ht⟩ := loop_worker env hs ts w
  unfold runTests
  rcases hl : loop env ts w with ⟨x, rest, v⟩
  rw [hl] at hd
  dsimp only at hd ⊢
  obtain ⟨d', hd', ht'⟩ := cleanup_tail env v
  rcases hc : initiateCleanup env v with ⟨y, u⟩
  rw [hc] at hd'
  dsimp only at hd' ⊢
  refine ⟨d ++ d', ?_, fun s hs => ?_⟩
  · rw [← List.append_assoc, ← hd, ← hd']
    split
    · rfl
    · exact (markUnrun_scopes rest u).2.2
  · rcases List.mem_append.1 hs with hs | hs
    · exact ht s hs
    · exact ht' s hs

/-- What is left of a session after this piece of it. -/
theorem rest_trace (env : Env) (m : M) : ∃ c, (fin (onInterrupt env m) (endSession env) initial).2.trace = (m initial).2.trace ++ c ∧ ∀ s ∈ c, s.ev = .sessionEnd := by
  obtain ⟨c, hc, h, -⟩ := end_trace env (onInterrupt env m initial).2
  refine ⟨c, ?_, ?_⟩
  · rw [← (onInterrupt_trace env m initial).1]; exact hc
  · rcases h with rfl | ⟨s, hs, rfl⟩
    · simp
    · simpa using hs

theorem worker_parts (env : Env) (ts : List T) (comm : Option X) : ∃ p b, (workerSession env ts comm).2.trace = p ++ b ∧ (∀ s ∈ b, Tail s.ev ∨ s.ev = .sessionEnd) ∧
    (∀ s ∈ p, Inside s.ev) ∧ (env.stop = false → ∃ a, (session env ts).2.trace = p ++ a ∧ ∀ s ∈ a, Tail s.ev ∨ s.ev = .sessionEnd) := by
  have hst : Ext Inside [] (startHooks env initial).2 := by
    have hi : Inside .sessionStart := by unfold Inside; simp
    exact ext_handle (stays_seq (ext_user _) (stays_seq (ext_hook hi _) (stays_seq (ext_act (f := fun w => { w with startCalled := true }) (fun _ => rfl)) (ext_user _)))) initial
      ⟨[], rfl, by simp⟩
  obtain ⟨c1, hc1, e1⟩ := rest_trace env (seq (startHooks env) (workerRun env ts comm))
  obtain ⟨c2, hc2, e2⟩ := rest_trace env (seq (startHooks env) (runTests env ts))
  change (workerSession env ts comm).2.trace = _ at hc1
  change (session env ts).2.trace = _ at hc2
  rcases hh : startHooks env initial with ⟨_ | x, w⟩ <;> rw [hh] at hst
  rotate_left
  · rw [seq_some hh] at hc1 hc2
    obtain ⟨d, hd, hi⟩ := hst
    rw [List.nil_append] at hd
    dsimp only at hd
    exact ⟨w.trace, c1, hc1, fun s hs => .inr (e1 s hs), fun s hs => hi s (by rw [← hd]; exact hs), fun _ => ⟨c2, hc2, fun s hs => .inr (e2 s hs)⟩⟩
  · rw [seq_none hh] at hc1 hc2
    obtain ⟨d1, hd1, t1⟩ := workerRun_trace env ts comm w
    obtain ⟨q, hq, hi⟩ := kept_workerLoop env ts w hst
    rw [List.nil_append] at hq
    refine ⟨(workerLoop env ts w).2.trace, d1 ++ c1, by rw [hc1, hd1, List.append_assoc], fun s hs => ?_, fun s hs => hi s (by rw [← hq]; exact hs), fun hstop => ?_⟩
    · rcases List.mem_append.1 hs with hs | hs
      · exact .inl (t1 s hs)
      · exact .inr (e1 s hs)
    · obtain ⟨d2, hd2, t2⟩ := runTests_worker env hstop ts w
      refine ⟨d2 ++ c2, by rw [hc2, hd2, List.append_assoc], fun s hs => ?_⟩
      rcases List.mem_append.1 hs with hs | hs
      · exact .inl (t2 s hs)
      · exact .inr (e2 s hs)

/-- **C189.** All that happens to the tests of a worker happens as in a run of the same tests without workers: the same hooks and functions are called, in the same order,
and each time with the same fixtures, the same cleanups and the same results up to then. -/
theorem C189_tests (env : Env) (hs : env.stop = false) (ts : List T) (comm : Option X) :
    (workerSession env ts comm).2.trace.filter (fun s => (evId s.ev).isSome) = (session env ts).2.trace.filter (fun s => (evId s.ev).isSome) := by
  obtain ⟨p, b, hb, tb, -, h⟩ := worker_parts env ts comm
  obtain ⟨a, ha, ta⟩ := h hs
  have hz : ∀ l : List Snap, (∀ s ∈ l, Tail s.ev ∨ s.ev = .sessionEnd) → l.filter (fun s => (evId s.ev).isSome) = [] := by
    intro l hl
    rw [List.filter_eq_nil_iff]
    intro s hs
    have := tail_ofTests (hl s hs)
    unfold OfTests at this
    simp [this]
  rw [hb, ha, List.filter_append, List.filter_append, hz b tb, hz a ta]

/-- **C189.** The session of a worker is cleaned up after all of its tests: after the hook that announces it, or when the scope of the session begins to be closed, nothing more happens to
any test. So what belongs to the session (or to a module, between tests of it) is there for all tests of the worker, although they are run by one call of `run_tests` each. -/
theorem C189_open (env : Env) (ts : List T) (comm : Option X) (pre post : List Snap) (s : Snap) (h : (workerSession env ts comm).2.trace = pre ++ s :: post)
    (he : s.ev = .sessionCleanup ∨ s.ev = .closing .session ∨ s.ev = .fixturesDown .session) : ∀ s' ∈ post, evId s'.ev = none := by
  obtain ⟨p, b, hb, tb, hp, -⟩ := worker_parts env ts comm
  rw [hb, List.append_eq_append_iff] at h
  have hn : ∀ s' ∈ b, evId s'.ev = none := fun s' hs' => by
    have := tail_ofTests (tb s' hs')
    unfold OfTests at this
    simpa using this
  have hni : s ∉ p := fun hm => by
    obtain ⟨h1, h2, h3⟩ := hp s hm
    rcases he with he | he | he
    · exact h1 he
    · exact h2 he
    · exact h3 he
  rcases h with ⟨c, -, hc⟩ | ⟨c, hc, hc'⟩
  · intro s' hs'
    exact hn s' (by rw [hc]; simp [hs'])
  · rcases c with _ | ⟨y, c⟩
    · intro s' hs'
      rw [List.nil_append] at hc'
      exact hn s' (by rw [← hc']; simp [hs'])
    · rw [List.cons_append, List.cons.injEq] at hc'
      exact absurd (by rw [hc, hc'.1]; simp) hni

/-- **C189.** However a worker ends (also with an exception out of a test, or of the communication), all scopes are closed, unless the closing of one is interrupted. -/
theorem C189_closed (env : Env) (ts : List T) (comm : Option X)
    (h : ∀ s ∈ (workerSession env ts comm).2.trace, ∀ sc k, s.ev = .closeRaised sc k → k.isException = true) : (workerSession env ts comm).2.scopes = [] := by
  have hend : ∀ m : M, (fin (onInterrupt env m) (endSession env) initial).2.scopes = (m initial).2.scopes := by
    intro m
    have h1 : ∀ w, (endSession env w).2.scopes = w.scopes := by
      intro w
      have hk : ∀ b m w, (m w).2.scopes = w.scopes → (handle b m w).2.scopes = w.scopes := by
        intro b m w hm
        rcases handle_or b m w with h | ⟨x, -, h⟩ <;> rw [h] <;> exact hm
      have hp := hk false (clPop "session-global" none) w (by rw [(clPop_fields ..).1])
      unfold endSession
      rcases hq : handle false (clPop "session-global" none) w with ⟨_ | x, v⟩ <;> rw [hq] at hp
      rotate_left
      · rw [seq_some hq]; exact hp
      · rw [seq_none hq]
        split
        · have h2 := hk false (hook .sessionEnd env.sessionEnd) v (side_user ..).scopes
          rcases hr : handle false (hook .sessionEnd env.sessionEnd) v with ⟨_ | x, u⟩ <;> rw [hr] at h2
          · rw [seq_none hr, hk false (user env.afterEnd) u (side_user ..).scopes, h2]; exact hp
          · rw [seq_some hr]; exact h2.trans hp
        · exact hp
    have h2 : (onInterrupt env m initial).2.scopes = (m initial).2.scopes := by
      unfold onInterrupt
      rcases m initial with ⟨_ | x, w⟩
      · rfl
      · dsimp only
        split
        · have hu := (side_user env.interrupt w).scopes
          split <;> rename_i heq <;> rw [heq] at hu <;> exact hu
        · rfl
    show (endSession env (onInterrupt env m initial).2).2.scopes = _
    rw [h1, h2]
  obtain ⟨c1, hc1, -⟩ := rest_trace env (seq (startHooks env) (workerRun env ts comm))
  change (workerSession env ts comm).2.trace = _ at hc1
  show (fin (onInterrupt env (seq (startHooks env) (workerRun env ts comm))) (endSession env) initial).2.scopes = []
  rw [hend]
  have h0 := (startHooks_late env).1
  rcases hh : startHooks env initial with ⟨_ | x, w⟩ <;> rw [hh] at h0
  · rw [seq_none hh] at hc1 ⊢
    refine cleanup_closes env _ ?_
    rintro ⟨s, hs, sc, k, he, hk⟩
    have := h s (by rw [hc1]; exact List.mem_append_left _ hs) sc k he
    rw [hk] at this
    cases this
  · rw [seq_some hh]; exact h0

/-! ## Examples and what is violated -/

/-- the events of the session of a worker -/
def evsWorker (env : Env) (ts : List T) (comm : Option X) : List Ev := (workerSession env ts comm).2.trace.map (·.ev)

example : 9 < ((session {} demo).2.trace.filter (fun s => (evId s.ev).isSome)).length ∧ evsWorker {} demo none = evs {} demo := by decide +kernel

/-- A worker that loses the server. -/
example : (workerSession {} demo (some { kind := .error })).1 = some { kind := .error } ∧ (workerSession {} demo (some { kind := .error })).2.scopes = [] ∧
    .closing .session ∈ evsWorker {} demo (some { kind := .error }) := by decide +kernel

/-- a fixture of the session, with a cleanup that fails -/
def sesFix : Env := { defs := fun _ => { scope := 2 }, fixture := fun f _ => { cleanups := [{ tag := f, raises := some .error }] }, fuel := 9 }

/-- **C189 is violated** for the results: the error of a cleanup of a session-wide fixture is one of the last test if there are no workers, and of no test in a worker. -/
theorem C189_results_violated :
    ((session sesFix [{ id := 1, fixtures := [0] }]).2.cl.results (.test 1)).errors.length = 1 ∧
    ((session sesFix [{ id := 1, fixtures := [0] }]).2.cl.results .global).errors = [] ∧
    ((workerSession sesFix [{ id := 1, fixtures := [0] }] none).2.cl.results (.test 1)).errors = [] ∧
    ((workerSession sesFix [{ id := 1, fixtures := [0] }] none).2.cl.results .global).errors.length = 1 := by decide +kernel

/-! ## The whole session -/

/-- What is left of an exception after `except` for skips. -/
def dropSkip (o : Option X) : Option X := (exceptSkip (fun w => (o, w)) initial).1

theorem exceptSkip_fst (m : M) (w : W) : exceptSkip m w = (dropSkip (m w).1, (m w).2) := by
  unfold dropSkip exceptSkip
  rcases m w with ⟨_ | x, v⟩
  · rfl
  · dsimp only
    by_cases h : x.kind = .skip
    · simp only [h, if_true]
    · simp only [h, if_false]

theorem handle_out {m : M} {w : W} {x : X} (h : (handle true m w).1 = some x) : x.handled = true ∧ x.kind.escapes = true := by
  unfold handle at h
  revert h
  rcases m w with ⟨_ | y, v⟩
  · intro h; cases h
  · dsimp only
    cases he : y.kind.escapes
    · intro h; simp at h
    · intro h; simp at h; rw [← h]; exact ⟨rfl, he⟩

theorem cleanup_out {env : Env} {w : W} {x : X} (h : (initiateCleanup env w).1 = some x) : x.handled = true ∧ x.kind.escapes = true := by
  unfold initiateCleanup at h
  split at h
  · cases h
  · generalize ({ w with cleanups := w.cleanups + 1 } : W) = v at h
    generalize hc : handle true (hook .sessionCleanup (env.beforeCleanup w.cleanups)) = m at h
    have e : (fin m (handle true (flush env)) v).1 = ((handle true (flush env) (m v).2).1).or (m v).1 := rfl
    rw [e] at h
    rcases hq : (handle true (flush env) (m v).2).1 with _ | y <;> rw [hq] at h
    · subst hc; exact handle_out h
    · cases h; exact handle_out hq

theorem handle_handled {m : M} {w : W} (h : ∀ x, (m w).1 = some x → x.handled = true ∧ x.kind.escapes = true) : handle true m w = m w := by
  unfold handle
  revert h
  rcases m w with ⟨_ | x, v⟩
  · intro h; rfl
  · intro h
    obtain ⟨h1, h2⟩ := h x rfl
    obtain ⟨k, b⟩ := x
    dsimp only at h1 h2 ⊢
    subst h1
    simp [h2]

theorem beginRunEnd_started (env : Env) (t : T) {w : W} (h : (beginTest env t w).1 = none) (hs : w.started = false) : (beginRunEnd env t w).2.started = true := by
  have h1 := beginTest_started (env := env) t w
  unfold beginRunEnd
  rcases hb : beginTest env t w with ⟨o, w1⟩
  rw [hb] at h h1
  dsimp only at h h1
  subst h
  rw [seq_none hb]
  have he : ∀ v : W, (endTest env t v).2.started = v.started := by
    intro v
    unfold endTest
    split
    · rfl
    · exact popped_started ..
  show (endTest env t (seq (ctrlStart t) (handle true (testRun env t)) w1).2).2.started = true
  rw [he]
  have hc : (ctrlStart t w1).2.started = true := by
    unfold ctrlStart
    rw [h1, hs]
    exact (side_user ..).started
  rcases hq : ctrlStart t w1 with ⟨_ | x, w2⟩ <;> rw [hq] at hc
  · rw [seq_none hq, handle_started]
    have h3 := (side_setUp env t w2).started
    unfold testRun
    rcases hu : setUp env t w2 with ⟨_ | x, w3⟩ <;> rw [hu] at h3
    · rw [seq_none hu]
      exact ((side_user t.body (emit (.body t.id) w3)).started.trans h3).trans hc
    · rw [seq_some hu]; exact h3.trans hc
  · rw [seq_some hq]; exact hc

theorem beginTest_raises (env : Env) (t : T) {w : W} {x : X} (h : (beginTest env t w).1 = some x) : ∃ s ∈ (beginTest env t w).2.trace, s.ev = .beginRaised t.id x.kind := by
  unfold beginTest at h ⊢
  split <;> rename_i heq <;> rw [heq] at h
  · cases h
    rename_i v
    exact ⟨⟨.beginRaised t.id x.kind, v.cl, v.fx⟩, by simp [emit], rfl⟩
  · cases h

/-- Between tests. -/
structure Rest (w : W) : Prop where
  res : w.cl.curResult = some .global
  test : w.cl.curTest = none
  started : (w.cl.results .global).started = true

theorem Rest.run {env : Env} {t : T} {w : W} (h : Rest w) (l : Bool) : Rest (runSingle env t l w).2 := by
  refine ⟨?_, ?_, (grows_runSingle env t l w).reach.grow.started _ h.started⟩
  · by_cases hn : t.id ∈ w.tests
    · unfold runSingle; rw [if_pos hn]; exact h.res
    · rw [runSingle_new env t l hn]; exact h.res
  · by_cases hn : t.id ∈ w.tests
    · unfold runSingle; rw [if_pos hn]; exact h.test
    · rw [runSingle_new env t l hn]; exact h.test

/-- The last test of a session, and the same test in a worker. -/
theorem last_or (env : Env) (t : T) {w : W} (hw : Rest w) (hb : ∀ s ∈ (runSingle env t false w).2.trace, ∀ i k, s.ev ≠ .beginRaised i k) :
    runSingle env t true w = runSingle env t false w ∨
    (∃ v u, runSingle env t false w = (none, u) ∧ TwinW t.id v u ∧
      runSingle env t true w = (dropSkip (initiateCleanup env v).1, setContext (some .global) none (initiateCleanup env v).2)) ∨
    ∃ v u x, x.kind = .skip ∧ runSingle env t false w = (some x, u) ∧ TwinW t.id v u ∧ runSingle env t true w = (none, v) := by
  by_cases hn : t.id ∈ w.tests
  · left; unfold runSingle; rw [if_pos hn, if_pos hn]
  rw [runSingle_new env t true hn, runSingle_new env t false hn]
  rw [runSingle_new env t false hn] at hb
  rw [hw.res, hw.test] at hb ⊢
  have hent : (entered t w).cl.curTest = some t.id ∧ t.id ∈ (entered t w).tests ∧ ((entered t w).cl.results .global).started = true :=
    ⟨rfl, by simp [entered, addTest, setContext], hw.started⟩
  generalize entered t w = w0 at hb hent ⊢
  unfold inner processReqs at hb ⊢
  have g0 := grows_user env t.reqs w0
  have c0 : (user t.reqs w0).2.cl.curTest = some t.id := (side_user t.reqs w0).frame.curTest.trans hent.1
  rcases hU : user t.reqs w0 with ⟨_ | x, w1⟩ <;> rw [hU] at g0 c0
  rotate_left
  · left
    have e : ∀ m : M, handle true (seq (user t.reqs) m) w0 = handle true (user t.reqs) w0 := by
      intro m; unfold handle; rw [seq_some hU, hU]
    rw [e, e]
  have e : ∀ m : M, handle true (seq (user t.reqs) m) w0 = handle true m w1 := by
    intro m; unfold handle; rw [seq_none hU]
  rw [e] at hb
  rw [e, e]
  by_cases ha : t.avoid = 0
  rotate_left
  · left; simp only [ha, if_false]
  simp only [ha, if_true] at hb ⊢
  have e2 : ∀ m : M, handle true (seq (act (mark t false)) m) w1 = handle true m (mark t false w1) := fun m => rfl
  rw [e2] at hb
  rw [e2, e2]
  have hm : (mark t false w1).cl.curTest = some t.id ∧ t.id ∈ (mark t false w1).tests ∧ ((mark t false w1).cl.results .global).started = true ∧
      ((mark t false w1).cl.results (.test t.id)).started = true ∧ (mark t false w1).started = false := by
    refine ⟨c0, (g0.tests).subset hent.2.1, ?_, ?_, rfl⟩
    · have := g0.reach.grow.started _ hent.2.2
      simpa [mark, markStarted, Cleanup.St.updResult] using this
    · simp [mark, markStarted, Cleanup.St.updResult, Result.markStarted]
  generalize mark t false w1 = w2 at hb hm ⊢
  obtain ⟨hm1, hm2, hm3, hm4, hm5⟩ := hm
  have ok1 := (only_exceptSkip (only_handle (b := true) (only_beginRunEnd (ok := fun _ => True) (o := some t.id) (tr := w2.trace) (c := w2.startCalled)
    ⟨trivial, fun _ => trivial, fun _ => trivial, fun _ _ => trivial⟩ env t (by constructor <;> intros <;> trivial)))) w2 ⟨hm1, rfl, [], by simp, by simp⟩
  have g1 := grows_exceptSkip (grows_handle (b := true) (grows_beginRunEnd env t)) w2
  have st1 : (exceptSkip (handle true (beginRunEnd env t)) w2).2.started = (beginRunEnd env t w2).2.started := by
    rw [exceptSkip_snd, handle_started]
  have tr1 : (exceptSkip (handle true (beginRunEnd env t)) w2).2.trace = (beginRunEnd env t w2).2.trace := by
    rw [exceptSkip_snd, (handle_trace ..).1]
  unfold block at hb ⊢
  generalize hA : exceptSkip (handle true (beginRunEnd env t)) = A at hb ok1 g1 st1 tr1 ⊢
  have eb : ∀ (l : Bool) (v : W), fin (exceptSkip (seq A (seq (fireSummary t) (if l = true then seq (ctrlEnd t (some .global)) (handle true (initiateCleanup env)) else act id)))) (ctrlEnd t (some .global)) v =
      (((ctrlEnd t (some .global) (seq A (seq (fireSummary t) (if l = true then seq (ctrlEnd t (some .global)) (handle true (initiateCleanup env)) else act id)) v).2).1).or
        (dropSkip (seq A (seq (fireSummary t) (if l = true then seq (ctrlEnd t (some .global)) (handle true (initiateCleanup env)) else act id)) v).1),
       (ctrlEnd t (some .global) (seq A (seq (fireSummary t) (if l = true then seq (ctrlEnd t (some .global)) (handle true (initiateCleanup env)) else act id)) v).2).2) := by
    intro l v
    unfold fin
    rw [exceptSkip_fst]
  have eh : ∀ (m m' : M) (v : W), m v = m' v → handle true m v = handle true m' v := by intro m m' v h; unfold handle; rw [h]
  rcases h1 : A w2 with ⟨_ | x, w3⟩ <;> rw [h1] at ok1 g1 st1 tr1
  rotate_left
  · left
    rw [eh _ _ w2 ((eb true w2).trans (Eq.trans (by rw [seq_some h1, seq_some h1]) (eb false w2).symm))]
  have ok2 := only_fireSummary (ok := fun _ => True) t (fun _ => trivial) w3 ok1
  have g2 := grows_fireSummary env t w3
  have st2 : (fireSummary t w3).2.started = w3.started := by
    unfold fireSummary
    rw [handle_started]; exact (side_user ..).started
  rcases h2 : fireSummary t w3 with ⟨_ | x, w4⟩ <;> rw [h2] at ok2 g2 st2
  rotate_left
  · left
    rw [eh _ _ w2 ((eb true w2).trans (Eq.trans (by rw [seq_none h1, seq_none h1, seq_some h2, seq_some h2]) (eb false w2).symm))]
  have ok3 := only_ctrlEnd (ok := fun _ => True) t (some .global) trivial w4 ok2
  have g3 := grows_ctrlEnd env t (some .global) w4
  have st3 := ctrlEnd_started t (some .global) w4
  have hst4 : ctrlEnd t (some .global) w4 = (ctrlEnd t (some .global) w4) := rfl
  have tr5 : ∀ s ∈ (beginRunEnd env t w2).2.trace, s ∈ (ctrlEnd t (some .global) w4).2.trace := by
    intro s hs
    obtain ⟨d2, hd2, -⟩ := g2.trace
    obtain ⟨d3, hd3, -⟩ := g3.trace
    rw [hd3]
    exact List.mem_append_left _ (by rw [hd2]; exact List.mem_append_left _ (by rw [← tr1] at hs; exact hs))
  have hcur : w4.started = true → (ctrlEnd t (some .global) w4).2.cl.curResult = some .global := by
    intro h
    unfold ctrlEnd
    rw [h]
    rfl
  have hbeg : (∀ s ∈ (ctrlEnd t (some .global) w4).2.trace, ∀ i k, s.ev ≠ .beginRaised i k) → w4.started = true := by
    intro hno
    have hnone : (beginTest env t w2).1 = none := by
      rcases hq : (beginTest env t w2).1 with _ | x
      · rfl
      · obtain ⟨s, hs, he⟩ := beginTest_raises env t hq
        refine absurd he (hno s (tr5 s ?_) _ _)
        unfold beginRunEnd
        rcases hz : beginTest env t w2 with ⟨o, v⟩
        rw [hz] at hq hs
        dsimp only at hq
        subst hq
        rw [seq_some hz]; exact hs
    rw [st2]
    dsimp only at st1
    rw [st1]
    exact beginRunEnd_started env t hnone hm5
  have hres : ∀ r, (w2.cl.results r).started = true → ((ctrlEnd t (some .global) w4).2.cl.results r).started = true := fun r h =>
    g3.reach.grow.started _ (g2.reach.grow.started _ (g1.reach.grow.started _ h))
  have htests : t.id ∈ (ctrlEnd t (some .global) w4).2.tests := g3.tests.subset (g2.tests.subset (g1.tests.subset hm2))
  have f1 := eb true w2
  have f2 := eb false w2
  rw [seq_none h1, seq_none h2] at f1 f2
  simp only [if_true, Bool.false_eq_true, if_false] at f1 f2
  rcases h3 : ctrlEnd t (some .global) w4 with ⟨_ | x, w5⟩ <;> rw [h3] at ok3 st3 tr5 hcur hbeg hres htests
  · right; left
    rw [seq_none h3, handle_handled (fun x hx => cleanup_out hx)] at f1
    dsimp only [act] at f1 f2
    rw [ctrlEnd_noop t (some .global) (by rw [cleanup_started]; exact st3)] at f1
    rw [id_eq, h3] at f2
    simp only [if_true, Bool.false_eq_true, if_false]
    have k2 : ∀ m : M, m w2 = (none, w5) → handle true m w2 = (none, w5) := by intro m h; unfold handle; rw [h]
    have k1 : ∀ m : M, m w2 = (dropSkip (initiateCleanup env w5).1, (initiateCleanup env w5).2) →
        handle true m w2 = (dropSkip (initiateCleanup env w5).1, (initiateCleanup env w5).2) := by
      intro m h
      rw [handle_handled, h]
      intro x hx
      rw [h] at hx
      dsimp only at hx
      rcases hq : (initiateCleanup env w5).1 with _ | y <;> rw [hq] at hx
      · cases hx
      · have hy := cleanup_out hq
        unfold dropSkip exceptSkip at hx
        dsimp only at hx
        split at hx
        · cases hx
        · cases hx; exact hy
    have e3 := k2 _ f2
    have e4 := k1 _ f1
    simp only [Bool.false_eq_true, if_false] at hb
    rw [e3] at hb
    rw [e3, e4]
    refine ⟨w5, _, rfl, ⟨w5.cl, w5.trace, rfl, ⟨some t.id, w5.cl.results, w5.cl.log, ?_, .inl rfl, rfl, rfl, ?_, rfl⟩, rfl, htests⟩, rfl⟩
    · have h4 := ok3.cur
      have h5 := hcur (hbeg hb)
      show w5.cl = { w5.cl with curTest := some t.id, curResult := some .global }
      dsimp only at h4 h5
      rw [← h4, ← h5]
    · have s1 := hres _ hm3
      have s2 := hres _ hm4
      exact ⟨fun _ _ => rfl, s1, s2, s1, s2, rfl, rfl⟩
  · rw [seq_some h3] at f1
    dsimp only [act] at f1 f2
    rw [ctrlEnd_noop t (some .global) st3] at f1
    rw [id_eq, h3] at f2
    simp only [if_true, Bool.false_eq_true, if_false] at hb ⊢
    by_cases hx : x.kind = .skip
    · right; right
      have e0 : dropSkip (some x) = none := by unfold dropSkip exceptSkip; simp [hx]
      rw [e0] at f1
      have k1 : ∀ m : M, m w2 = (none, w5) → handle true m w2 = (none, w5) := by intro m h; unfold handle; rw [h]
      have k2 : ∀ m : M, m w2 = (some x, w5) → handle true m w2 = (some { x with handled := true }, if x.handled then w5 else record x.kind w5) := by
        intro m h; unfold handle; rw [h]; simp [hx, Kind.escapes]
      have e3 := k2 _ f2
      have e4 := k1 _ f1
      rw [e3] at hb
      rw [e3, e4]
      have hno : ∀ s ∈ w5.trace, ∀ i k, s.ev ≠ .beginRaised i k := by
        intro s hs
        refine hb s ?_
        show s ∈ (if x.handled = true then w5 else record x.kind w5).trace
        split
        · exact hs
        · exact hs
      have tw : TwinW t.id (setContext (some .global) none w5) (setContext (some .global) none w5) := by
        refine ⟨_, _, rfl, ⟨none, w5.cl.results, w5.cl.log, rfl, .inr rfl, rfl, rfl, ?_, rfl⟩, rfl, htests⟩
        have s1 := hres _ hm3
        have s2 := hres _ hm4
        exact ⟨fun _ _ => rfl, s1, s2, s1, s2, rfl, rfl⟩
      refine ⟨_, _, { x with handled := true }, hx, rfl, ?_, rfl⟩
      dsimp only
      split
      · exact tw
      · have h4 := ok3.cur
        have h5 := hcur (hbeg hno)
        dsimp only at h4 h5
        have e5 : (record x.kind w5).cl = { w5.cl with results := entry w5.cl.results (.test t.id) .skip } := by
          show w5.cl.record w5.cl.currentForUpdate x.kind = _
          have e6 : w5.cl.currentForUpdate = .test t.id := by unfold Cleanup.St.currentForUpdate; rw [h4]
          rw [record_entry, hx, e6]
        have s1 := hres _ hm3
        have s2 := hres _ hm4
        dsimp only at s1 s2
        refine ⟨_, _, rfl, ⟨none, w5.cl.results, w5.cl.log, ?_, .inr rfl, rfl, rfl, ?_, ?_⟩, rfl, htests⟩
        · show ({ w5.cl with curResult := some .global, curTest := none } : Cleanup.St) =
            { ({ (record x.kind w5).cl with curResult := some .global, curTest := none } : Cleanup.St) with curTest := none, results := w5.cl.results, log := w5.cl.log }
          rw [e5]
        · show RelR t.id w5.cl.results (record x.kind w5).cl.results
          rw [e5]
          refine ⟨fun n hn => ?_, s1, s2, ?_, ?_, ?_, ?_⟩ <;> simp [entry, *, started_add, fine_add]
        · show w5.cl.log.filter unrecorded = (record x.kind w5).cl.log.filter unrecorded
          rw [e5]
    · left
      have e0 : dropSkip (some x) = some x := by unfold dropSkip exceptSkip; simp [hx]
      rw [e0] at f1
      rw [eh _ _ w2 (f1.trans (Eq.trans rfl f2.symm))]

/-! ### The loop -/

theorem loop_or (env : Env) (hs : env.stop = false) (ts : List T) {w : W} (hw : Rest w) (hb : ∀ s ∈ (workerLoop env ts w).2.trace, ∀ i k, s.ev ≠ .beginRaised i k) :
    ((loop env ts w).1 = (workerLoop env ts w).1 ∧ (loop env ts w).2.2 = (workerLoop env ts w).2 ∧ ((workerLoop env ts w).1 = none → (loop env ts w).2.1 = [])) ∨
    ((loop env ts w).2.1 = [] ∧ ∃ t, ts.getLast? = some t ∧ ∃ v, TwinW t.id v (workerLoop env ts w).2 ∧
      (((workerLoop env ts w).1 = none ∧ (loop env ts w).1 = dropSkip (initiateCleanup env v).1 ∧ (loop env ts w).2.2 = setContext (some .global) none (initiateCleanup env v).2) ∨
        (∃ x, (workerLoop env ts w).1 = some x ∧ x.kind = .skip ∧ (loop env ts w).1 = none ∧ (loop env ts w).2.2 = v))) := by
  induction ts generalizing w with
  | nil => exact .inl ⟨rfl, rfl, fun _ => rfl⟩
  | cons t ts ih =>
    cases ts with
    | nil =>
      have e1 : loop env [t] w = ((runSingle env t true w).1, [], (runSingle env t true w).2) := by
        simp only [loop, List.isEmpty_nil, hs, Bool.false_and, Bool.false_eq_true, if_false]
        split <;> rename_i heq <;> rw [heq]
      have e2 : workerLoop env [t] w = runSingle env t false w := by
        simp only [workerLoop, seq]
        split <;> rename_i heq <;> rw [heq]
        rfl
      rw [e2] at hb ⊢
      rw [e1]
      rcases last_or env t hw hb with h | ⟨v, u, h1, h2, h3⟩ | ⟨v, u, x, hx, h1, h2, h3⟩
      · left; rw [h]; exact ⟨rfl, rfl, fun _ => rfl⟩
      · right; rw [h1, h3]; exact ⟨rfl, t, rfl, v, h2, .inl ⟨rfl, rfl, rfl⟩⟩
      · right; rw [h1, h3]; exact ⟨rfl, t, rfl, v, h2, .inr ⟨x, rfl, hx, rfl, rfl⟩⟩
    | cons t' ts =>
      rw [workerLoop] at hb ⊢
      rw [loop]
      simp only [List.isEmpty_cons, hs, Bool.false_and, Bool.false_eq_true, if_false]
      have hr := hw.run (env := env) (t := t) false
      rcases hq : runSingle env t false w with ⟨_ | x, w1⟩ <;> rw [hq] at hr
      · rw [seq_none hq] at hb ⊢
        rw [List.getLast?_cons_cons]
        exact ih hr hb
      · rw [seq_some hq] at hb ⊢
        exact .inl ⟨rfl, rfl, fun h => by cases h⟩

/-! ### Two sessions -/

/-- The same, or the same but for the test. -/
def Alike (last : Option T) (v w : W) : Prop := v = w ∨ ∃ t, last = some t ∧ TwinW t.id v w

theorem Alike.step {last : Option T} {v w : W} (h : Alike last v w) {m : M} (hm : ∀ t, Both t m) : (m v).1 = (m w).1 ∧ Alike last (m v).2 (m w).2 := by
  rcases h with rfl | ⟨t, ht, h⟩
  · exact ⟨rfl, .inl rfl⟩
  · obtain ⟨h1, h2⟩ := hm t.id v w h
    exact ⟨h1, .inr ⟨t, ht, h2⟩⟩

/-- The same, or a skip that was caught. -/
def Nearly (o o' : Option X) : Prop := o = o' ∨ (o = none ∧ ∃ x, o' = some x ∧ x.kind = .skip)

theorem cleanup_noop (env : Env) {w : W} (h : w.scopes = []) : initiateCleanup env w = (none, w) := by unfold initiateCleanup; rw [if_pos h]

theorem nearly_dropSkip (o : Option X) : Nearly (dropSkip o) o := by
  rcases o with _ | x
  · exact .inl rfl
  · by_cases h : x.kind = .skip
    · exact .inr ⟨by unfold dropSkip exceptSkip; simp [h], x, rfl, h⟩
    · exact .inl (by unfold dropSkip exceptSkip; simp [h])

theorem runs_alike (env : Env) (hs : env.stop = false) (ts : List T) {w : W} (hw : Rest w) (hb : ∀ s ∈ (workerRun env ts none w).2.trace, ∀ i k, s.ev ≠ .beginRaised i k)
    (hc : ¬ Cut (workerRun env ts none w).2.trace) :
    Nearly (runTests env ts w).1 (workerRun env ts none w).1 ∧ Alike ts.getLast? (runTests env ts w).2 (workerRun env ts none w).2 := by
  obtain ⟨d, hd, -⟩ := workerRun_trace env ts none w
  have hl := loop_or env hs ts hw (fun s hs => hb s (by rw [hd]; exact List.mem_append_left _ hs))
  -- the run of a worker, when the tests returned, and when they raised
  have hwr : ∀ u, workerLoop env ts w = (none, u) → workerRun env ts none w = initiateCleanup env u ∧ (initiateCleanup env u).2.scopes = [] := by
    intro u hu
    have e1 : seq (seq (workerLoop env ts) (fun w => (none, w))) (initiateCleanup env) w = initiateCleanup env u := by
      have : seq (workerLoop env ts) (fun w => ((none : Option X), w)) w = (none, u) := by rw [seq_none hu]
      rw [seq_none this]
    have e2 : workerRun env ts none w = (((initiateCleanup env (initiateCleanup env u).2).1).or (initiateCleanup env u).1, (initiateCleanup env (initiateCleanup env u).2).2) := by
      unfold workerRun fin; rw [e1]
    have e3 : (initiateCleanup env u).2.scopes = [] := by
      refine cleanup_closes env u ?_
      rintro ⟨s, hs', h⟩
      obtain ⟨d', hd', -⟩ := cleanup_tail env (initiateCleanup env u).2
      exact hc ⟨s, by rw [e2]; dsimp only; rw [hd']; exact List.mem_append_left _ hs', h⟩
    rw [cleanup_noop env e3] at e2
    exact ⟨e2, e3⟩
  have hwx : ∀ x u, workerLoop env ts w = (some x, u) → workerRun env ts none w = ((initiateCleanup env u).1.or (some x), (initiateCleanup env u).2) := by
    intro x u hu
    unfold workerRun fin
    rw [seq_some (seq_some hu)]
  unfold runTests
  rcases hq : loop env ts w with ⟨o, rest, v'⟩
  rw [hq] at hl
  dsimp only at hl ⊢
  rcases hu : workerLoop env ts w with ⟨o', u⟩
  rw [hu] at hl
  dsimp only at hl
  rcases hl with ⟨h1, h2, h3⟩ | ⟨h1, t, ht, v, tw, h | ⟨x, h4, h5, h6, h7⟩⟩
  · subst h1 h2
    rcases o with _ | x
    · rw [(hwr _ hu).1, h3 rfl]
      rcases initiateCleanup env v' with ⟨_ | y, z⟩
      · exact ⟨.inl rfl, .inl rfl⟩
      · exact ⟨.inl rfl, .inl rfl⟩
    · rw [hwx x _ hu]
      rcases initiateCleanup env v' with ⟨_ | y, z⟩
      · exact ⟨.inl rfl, .inl rfl⟩
      · exact ⟨.inl rfl, .inl rfl⟩
  · obtain ⟨h4, h5, h6⟩ := h
    subst h1 h4 h6
    obtain ⟨e1, e2⟩ := hwr _ hu
    obtain ⟨b1, b2⟩ := both_initiateCleanup env v u tw
    have hsc : (setContext (some .global) none (initiateCleanup env v).2).scopes = [] := by
      show (initiateCleanup env v).2.scopes = []
      rw [b2.scopes]; exact e2
    rw [cleanup_noop env hsc, e1]
    have tw' : TwinW t.id (setContext (some .global) none (initiateCleanup env v).2) (initiateCleanup env u).2 := by
      obtain ⟨a, tr, ha, ⟨x, f, l, hx, hx', hx2, hx3, hx4, hx5⟩, h8, h9⟩ := b2
      rw [ha]
      refine ⟨_, tr, rfl, ⟨none, f, l, ?_, .inr rfl, hx2, hx3, hx4, hx5⟩, h8, h9⟩
      show ({ a with curResult := some .global, curTest := none } : Cleanup.St) = _
      rw [hx]
      dsimp only
      rw [hx3]
    rw [b1] at h5
    subst h5
    dsimp only [Option.none_or]
    have hn := nearly_dropSkip (initiateCleanup env u).1
    rcases hz : dropSkip (initiateCleanup env u).1 with _ | y <;> rw [hz] at hn
    · exact ⟨hn, .inr ⟨t, ht, tw'⟩⟩
    · exact ⟨hn, .inr ⟨t, ht, tw'⟩⟩
  · subst h1 h4 h6 h7
    rw [hwx x _ hu]
    obtain ⟨b1, b2⟩ := both_initiateCleanup env v' u tw
    rcases hz : initiateCleanup env v' with ⟨_ | y, z⟩ <;> rw [hz] at b1 b2 <;> dsimp only at b1 b2
    · rw [← b1]
      exact ⟨.inr ⟨rfl, x, rfl, h5⟩, .inr ⟨t, ht, b2⟩⟩
    · rw [← b1]
      exact ⟨.inl rfl, .inr ⟨t, ht, b2⟩⟩

theorem alike_interrupt {env : Env} {m k : M} {last : Option T} {w : W} (h1 : Nearly (m w).1 (k w).1) (h2 : Alike last (m w).2 (k w).2) :
    Nearly (onInterrupt env m w).1 (onInterrupt env k w).1 ∧ Alike last (onInterrupt env m w).2 (onInterrupt env k w).2 := by
  unfold onInterrupt
  revert h1 h2
  rcases m w with ⟨o, v⟩
  rcases k w with ⟨o', u⟩
  intro h1 h2
  dsimp only at h1 h2
  rcases h1 with rfl | ⟨rfl, x, rfl, hx⟩
  · rcases o with _ | x
    · exact ⟨.inl rfl, h2⟩
    · dsimp only
      by_cases hk : x.kind = .interrupt
      · simp only [hk, if_true]
        have h3 := h2.step (fun t => both_user (t := t) env.interrupt)
        revert h3
        rcases user env.interrupt v with ⟨_ | y, v'⟩ <;> rcases user env.interrupt u with ⟨_ | y', u'⟩ <;> rintro ⟨h3, h4⟩
        · exact ⟨.inl rfl, h4⟩
        · cases h3
        · cases h3
        · cases h3; exact ⟨.inl rfl, h4⟩
      · simp only [hk, if_false]; exact ⟨.inl rfl, h2⟩
  · dsimp only
    have hk : x.kind ≠ .interrupt := by rw [hx]; decide
    simp only [hk, if_false]
    exact ⟨.inr ⟨rfl, x, rfl, hx⟩, h2⟩

theorem both_seq {t : Nat} {m k : M} (hm : Both t m) (hk : Both t k) : Both t (seq m k) := by
  intro v w h
  have h1 := hm v w h
  unfold seq
  revert h1
  rcases m v with ⟨_ | x, v1⟩ <;> rcases m w with ⟨_ | y, w1⟩ <;> rintro ⟨h1, h2⟩
  · exact hk _ _ h2
  · cases h1
  · cases h1
  · exact ⟨h1, h2⟩

theorem both_endSession (env : Env) (t : Nat) : Both t (endSession env) := by
  refine both_seq (both_handle (both_clPop _ _)) ?_
  intro v w h
  have hc : v.startCalled = w.startCalled := by obtain ⟨a, tr, rfl, -⟩ := h; rfl
  dsimp only
  rw [hc]
  split
  · exact both_seq (both_handle (both_hook _ _)) (both_handle (both_user _)) v w h
  · exact ⟨rfl, h⟩

theorem startHooks_rest (env : Env) : Rest (startHooks env initial).2 := by
  have g := (grows_startHooks env initial).reach.grow.started .global rfl
  have hh : ∀ (m : M) (w : W), (∀ w, (m w).2.cl.curTest = w.cl.curTest ∧ (m w).2.cl.curResult = w.cl.curResult) →
      (handle false m w).2.cl.curTest = w.cl.curTest ∧ (handle false m w).2.cl.curResult = w.cl.curResult := by
    intro m w hm
    rcases handle_or false m w with h | ⟨x, -, h⟩ <;> rw [h]
    · exact hm w
    · unfold record; rw [record_entry]; exact hm w
  have hu : ∀ c w, (user c w).2.cl.curTest = w.cl.curTest ∧ (user c w).2.cl.curResult = w.cl.curResult := fun c w => ⟨(side_user c w).frame.curTest, (side_user c w).frame.curResult⟩
  have hsq : ∀ (m k : M), (∀ w, (m w).2.cl.curTest = w.cl.curTest ∧ (m w).2.cl.curResult = w.cl.curResult) → (∀ w, (k w).2.cl.curTest = w.cl.curTest ∧ (k w).2.cl.curResult = w.cl.curResult) →
      ∀ w, (seq m k w).2.cl.curTest = w.cl.curTest ∧ (seq m k w).2.cl.curResult = w.cl.curResult := by
    intro m k hm hk w
    have h1 := hm w
    unfold seq
    revert h1
    rcases m w with ⟨_ | x, v⟩ <;> intro h1
    · exact ⟨(hk v).1.trans h1.1, (hk v).2.trans h1.2⟩
    · exact h1
  obtain ⟨h1, h2⟩ := hh _ initial (hsq _ _ (hu env.beforeStart) (hsq _ _ (hsq (act (emit .sessionStart)) _ (fun _ => ⟨rfl, rfl⟩) (hu env.sessionStart))
    (hsq (act (fun w => { w with startCalled := true })) _ (fun _ => ⟨rfl, rfl⟩) (hu env.afterStart))))
  exact ⟨h2, h1, g⟩

theorem sessions_alike (env : Env) (hs : env.stop = false) (ts : List T) (hb : ∀ s ∈ (workerSession env ts none).2.trace, ∀ i k, s.ev ≠ .beginRaised i k)
    (hc : ∀ s ∈ (workerSession env ts none).2.trace, ∀ sc k, s.ev = .closeRaised sc k → k.isException = true) :
    Nearly (session env ts).1 (workerSession env ts none).1 ∧ Alike ts.getLast? (session env ts).2 (workerSession env ts none).2 := by
  obtain ⟨c, hct, -⟩ := rest_trace env (seq (startHooks env) (workerRun env ts none))
  change (workerSession env ts none).2.trace = _ at hct
  have key : Nearly (seq (startHooks env) (runTests env ts) initial).1 (seq (startHooks env) (workerRun env ts none) initial).1 ∧
      Alike ts.getLast? (seq (startHooks env) (runTests env ts) initial).2 (seq (startHooks env) (workerRun env ts none) initial).2 := by
    have hr := startHooks_rest env
    rcases hq : startHooks env initial with ⟨_ | x, w⟩ <;> rw [hq] at hr
    · rw [seq_none hq] at hct ⊢
      rw [seq_none hq]
      refine runs_alike env hs ts hr (fun s hs => hb s (by rw [hct]; exact List.mem_append_left _ hs)) ?_
      rintro ⟨s, hs, sc, k, he, hk⟩
      have := hc s (by rw [hct]; exact List.mem_append_left _ hs) sc k he
      rw [hk] at this; cases this
    · rw [seq_some hq, seq_some hq]; exact ⟨.inl rfl, .inl rfl⟩
  obtain ⟨k1, k2⟩ := alike_interrupt (env := env) key.1 key.2
  obtain ⟨k3, k4⟩ := k2.step (both_endSession env)
  refine ⟨?_, k4⟩
  show Nearly (((endSession env (onInterrupt env (seq (startHooks env) (runTests env ts)) initial).2).1).or (onInterrupt env (seq (startHooks env) (runTests env ts)) initial).1)
    (((endSession env (onInterrupt env (seq (startHooks env) (workerRun env ts none)) initial).2).1).or (onInterrupt env (seq (startHooks env) (workerRun env ts none)) initial).1)
  rw [k3]
  rcases (endSession env (onInterrupt env (seq (startHooks env) (workerRun env ts none)) initial).2).1 with _ | y
  · simpa using k1
  · exact .inl rfl

/-- **C189.** A whole session of a worker that gets all tests from the server is the same as the session without workers, also while the session is cleaned up and ends:
the same things happen in the same order; the same cleanups are called, passed over and dropped at the same places; the same is done to the fixtures; all results are the same but
those of the last test and of the session, and whether the run is successful is the same. The worker raises the same exception, but for a skip that the last
test catches. (Unless something keeps a test from beginning, or the closing of a scope is interrupted.) -/
theorem C189_same_session_partial (env : Env) (hs : env.stop = false) (ts : List T) (hb : ∀ s ∈ (workerSession env ts none).2.trace, ∀ i k, s.ev ≠ .beginRaised i k)
    (hc : ∀ s ∈ (workerSession env ts none).2.trace, ∀ sc k, s.ev = .closeRaised sc k → k.isException = true) :
    (workerSession env ts none).2.trace.map (·.ev) = (session env ts).2.trace.map (·.ev) ∧
    (workerSession env ts none).2.cl.log.filter unrecorded = (session env ts).2.cl.log.filter unrecorded ∧
    (workerSession env ts none).2.fx = (session env ts).2.fx ∧
    (workerSession env ts none).2.tests = (session env ts).2.tests ∧
    (∀ n, (∀ t, ts.getLast? = some t → n ≠ t.id) → (workerSession env ts none).2.cl.results (.test n) = (session env ts).2.cl.results (.test n)) ∧
    success (workerSession env ts none).2 = success (session env ts).2 ∧
    ((workerSession env ts none).1 = (session env ts).1 ∨ (session env ts).1 = none ∧ ∃ x, (workerSession env ts none).1 = some x ∧ x.kind = .skip) := by
  obtain ⟨h1, h2⟩ := sessions_alike env hs ts hb hc
  have ho : (workerSession env ts none).1 = (session env ts).1 ∨ (session env ts).1 = none ∧ ∃ x, (workerSession env ts none).1 = some x ∧ x.kind = .skip := by
    rcases h1 with h | h
    · exact .inl h.symm
    · exact .inr h
  rcases h2 with h | ⟨t, ht, tw⟩
  · rw [← h]; exact ⟨rfl, rfl, rfl, rfl, fun _ _ => rfl, rfl, ho⟩
  · generalize (session env ts).2 = v at tw ho ⊢
    generalize (workerSession env ts none).2 = w at tw ho ⊢
    obtain ⟨a, tr, rfl, hT, h3, h4⟩ := tw
    have hfl := hT.flags w.tests h4
    obtain ⟨ca, cb⟩ := hT.cur
    have hsu : success w = success { w with cl := a, trace := tr } := by
      unfold Cleanup.popFlags Cleanup.currentSuccess at hfl
      rw [ca, cb] at hfl
      have := (Prod.mk.injEq .. ▸ hfl).1
      unfold success
      dsimp only at this ⊢
      rw [Bool.not_eq_eq_eq_not, Bool.not_not] at this
      exact this.symm
    obtain ⟨x, f, l, rfl, hx, -, -, hR, hl⟩ := hT
    exact ⟨h3.symm, hl.symm, rfl, rfl, fun n hn => (hR.others n (hn t ht)).symm, hsu, ho⟩

/-- A fixture of the session whose cleanup fails. -/
example : (workerSession sesFix [{ id := 1, fixtures := [0] }] none).2.trace.length = (session sesFix [{ id := 1, fixtures := [0] }]).2.trace.length ∧
    8 < (session sesFix [{ id := 1, fixtures := [0] }]).2.trace.length ∧ success (workerSession sesFix [{ id := 1, fixtures := [0] }] none).2 = false ∧
    (evsWorker sesFix [{ id := 1, fixtures := [0] }] none).all (fun e => match e with | .beginRaised _ _ => false | .closeRaised _ k => k.isException | _ => true) = true := by
  decide +kernel

/-- **C189 is violated** for exceptions: a skip raised when the session is cleaned up ends a worker with that exception; without workers the last test catches it. -/
theorem C189_skip_violated :
    (session { beforeCleanup := fun _ => { out := some .skip } } [{ id := 1 }]).1 = none ∧
    ((workerSession { beforeCleanup := fun _ => { out := some .skip } } [{ id := 1 }] none).1.map (·.kind)) = some .skip ∧
    success (workerSession { beforeCleanup := fun _ => { out := some .skip } } [{ id := 1 }] none).2 = true := by decide +kernel

/-- a cleanup of the module that skips, and a cleanup of the session that adds another one, which fails -/
def skipping : List T :=
  [demoTest 1 0 [.add (.named "module") (demoCb (some .skip)), .add (.named "session") (.mk false false [.add (.named "session") (demoCb (some .error))] none)],
   demoTest 2 1]

/-- **C189 is violated** if beginning the last test raises (a cleanup of the module before it skips; `C189_same_session_partial` excludes this): what cleanups of the session add
belongs to the test that was not begun if there are no workers - its errors too -, and to the session in a worker. -/
theorem C189_begin_violated :
    .beginRaised 2 .skip ∈ evs {} skipping ∧ evsWorker {} skipping none = evs {} skipping ∧
    .added 2 false false (some (.test 2)) ∈ (session {} skipping).2.cl.log ∧ .added 2 false false (some .global) ∈ (workerSession {} skipping none).2.cl.log ∧
    ((session {} skipping).2.cl.results (.test 2)).errors.length = 1 ∧ ((workerSession {} skipping none).2.cl.results (.test 2)).errors = [] ∧
    ((session {} skipping).2.cl.results .global).errors = [] ∧ ((workerSession {} skipping none).2.cl.results .global).errors.length = 1 := by decide +kernel

end Slash.Whole
