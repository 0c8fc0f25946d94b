import Verif.Lemmas.WholeResults
import Verif.Props.Cleanup
/-!
# Properties of whole sessions: C86 - C92

All statements are about `session env ts`: runner, scopes, cleanups, fixtures and results together, for any list of tests and any
scripts of hooks, test functions, cleanups and fixtures. `(session env ts).2.trace` is the list of observable events, each with the
state of cleanups, results (`cl`) and fixtures (`fx`) of its moment. A scope is a number; `cl.stack` are the open scopes, innermost
first, `cl.scopeName` their names. In `cl.log`, `added r _ _ x` is the acceptance of the `r`-th cleanup while `x` was the current
result, `placed r u` says which scope it is on.
-/
namespace Slash.Whole

open Slash.Scope (Sc)
open Slash.Cleanup (RKey)

/-! ## Sample sessions -/

/-- A cleanup (see `slash/__init__.py`, `add_cleanup`, via `cleanup_manager.py:51-80`). -/
def demoCb (out : Option Kind := none) (critical : Bool := false) : Cleanup.Cb := .mk critical false [] out

/-- A test with this function (`runner.py:90`). -/
def demoTest (id m : Nat) (acts : List Cleanup.Act := []) (out : Option Kind := none) : T :=
  { id := id, module := m, body := { acts := acts, out := out } }

/-- Two tests of a module and one of another; cleanups of all scopes, one fails (`runner.py:22`). -/
def demo : List T :=
  [demoTest 1 0 [.add .implicit (demoCb (some .error)), .add (.named "module") demoCb, .add (.named "session") (demoCb none true)],
   demoTest 2 0, demoTest 3 1]

/-- A cleanup of the module of the first test raises a skip when the second test is about to begin (`runner.py:22`). -/
def demoSkip : List T :=
  [demoTest 1 0 [.add (.named "module") (demoCb (some .skip)), .add (.named "session") demoCb], demoTest 2 1, demoTest 3 0]

/-- The same, but the third test is of a third module (`runner.py:22`). -/
def demoSkip3 : List T :=
  [demoTest 1 0 [.add (.named "module") (demoCb (some .skip)), .add (.named "session") demoCb], demoTest 2 1, demoTest 3 2]

/-- The run is stopped by an error of the first test; then a cleanup of the module is interrupted (`runner.py:22`). -/
def demoInt : List T :=
  [demoTest 1 0 [.add (.named "module") (demoCb (some .interrupt)), .add (.named "session") (demoCb none true)] (some .error), demoTest 2 1]

/-- Observable events (`runner.py:147-200`). -/
def evs (env : Env) (ts : List T) : List Ev := (session env ts).2.trace.map (·.ev)

/-- What happens, and the scopes open at these moments. -/
example : ((session {} demo).2.trace.map (fun s => (s.ev, s.cl.stack.map s.cl.scopeName))) =
    [(.sessionStart, ["session-global"]),
     (.start 1 0, ["test", "module", "session", "session-global"]), (.body 1, ["test", "module", "session", "session-global"]),
     (.closing .test, ["test", "module", "session", "session-global"]), (.fixturesDown .test, ["module", "session", "session-global"]),
     (.summary 1 .error, ["module", "session", "session-global"]), (.fin 1, ["module", "session", "session-global"]),
     (.start 2 0, ["test", "module", "session", "session-global"]), (.body 2, ["test", "module", "session", "session-global"]),
     (.closing .test, ["test", "module", "session", "session-global"]), (.fixturesDown .test, ["module", "session", "session-global"]),
     (.summary 2 .success, ["module", "session", "session-global"]), (.fin 2, ["module", "session", "session-global"]),
     (.closing .module, ["module", "session", "session-global"]), (.fixturesDown .module, ["session", "session-global"]),
     (.start 3 1, ["test", "module", "session", "session-global"]), (.body 3, ["test", "module", "session", "session-global"]),
     (.closing .test, ["test", "module", "session", "session-global"]), (.fixturesDown .test, ["module", "session", "session-global"]),
     (.summary 3 .success, ["module", "session", "session-global"]), (.fin 3, ["module", "session", "session-global"]),
     (.sessionCleanup, ["module", "session", "session-global"]),
     (.closing .module, ["module", "session", "session-global"]), (.fixturesDown .module, ["session", "session-global"]),
     (.closing .session, ["session", "session-global"]), (.fixturesDown .session, ["session-global"]),
     (.sessionEnd, [])] := by decide +kernel

/-! ## C86: the scopes a test runs in -/

/-- **C86.** When the start of test `t` is announced, the innermost open scope is a fresh test scope with no cleanups, no other
test scope is open, and the current test and result are those of `t`. -/
theorem C86_start (env : Env) (ts : List T) (s : Snap) (hs : s ∈ (session env ts).2.trace) (t m : Nat) (he : s.ev = .start t m) :
    s.cl.curTest = some t ∧ s.cl.curResult = some (.test t) ∧
    ∃ u tl, s.cl.stack = u :: tl ∧ s.cl.scopeName u = "test" ∧ (∀ v ∈ tl, s.cl.scopeName v ≠ "test") ∧ ∀ r, .placed r u ∉ s.cl.log := by
  obtain ⟨pre, post, h⟩ := List.append_of_mem hs
  have := (session_ended.trace pre s post h).1
  simp only [SnapAt, he] at this
  obtain ⟨⟨u, hi, hf, -⟩, -⟩ := this
  obtain ⟨tl, h1, h2⟩ := hi.tl
  exact ⟨hi.ctx.2, hi.ctx.1, u, tl, h1, hi.name, fun v hv hn => h2 (List.mem_map.2 ⟨v, hv, hn⟩), hf⟩

/-- **C86.** When the function of test `t` is called, the same holds, except that the start hooks may have registered cleanups; all
cleanups of this scope were registered while the result of `t` was the current one. -/
theorem C86_body (env : Env) (ts : List T) (s : Snap) (hs : s ∈ (session env ts).2.trace) (t : Nat) (he : s.ev = .body t) :
    s.cl.curTest = some t ∧ s.cl.curResult = some (.test t) ∧
    ∃ u tl, s.cl.stack = u :: tl ∧ s.cl.scopeName u = "test" ∧ (∀ v ∈ tl, s.cl.scopeName v ≠ "test") ∧
      ∀ r, .placed r u ∈ s.cl.log → ∃ c b, .added r c b (some (.test t)) ∈ s.cl.log := by
  obtain ⟨pre, post, h⟩ := List.append_of_mem hs
  have := (session_ended.trace pre s post h).1
  simp only [SnapAt, he] at this
  obtain ⟨u, hi, -, -⟩ := this
  obtain ⟨tl, h1, h2⟩ := hi.tl
  exact ⟨hi.ctx.2, hi.ctx.1, u, tl, h1, hi.name, fun v hv hn => h2 (List.mem_map.2 ⟨v, hv, hn⟩), hi.own⟩

/-- **C86.** The open scopes at the start and at the call of the function are exactly those of test, module and session, unless an
earlier test did not begin because a cleanup of the module before it raised a skip. -/
theorem C86_scopes_partial (env : Env) (ts : List T) (pre post : List Snap) (s : Snap)
    (h : (session env ts).2.trace = pre ++ s :: post) (he : (∃ t m, s.ev = .start t m) ∨ ∃ t, s.ev = .body t)
    (hc : ∀ b ∈ pre, ∀ t, b.ev ≠ .beginRaised t .skip) :
    s.cl.stack.map s.cl.scopeName = ["test", "module", "session", "session-global"] := by
  have := (session_ended.trace pre s post h).1
  rcases he with ⟨t, m, he⟩ | ⟨t, he⟩ <;> simp only [SnapAt, he] at this
  · obtain ⟨⟨u, -, -, hn⟩, -⟩ := this
    exact hn hc
  · obtain ⟨u, -, hn, -⟩ := this
    exact hn hc

/-- **C86 is violated** without this hypothesis: a test whose function is called while no module scope is open. -/
theorem C86_scopes_violated : ¬ ∀ (env : Env) (ts : List T), ∀ s ∈ (session env ts).2.trace, ∀ t, s.ev = .body t →
    s.cl.stack.map s.cl.scopeName = ["test", "module", "session", "session-global"] := by
  intro h
  have hex : ∃ s ∈ (session {} demoSkip).2.trace, s.ev = .body 3 ∧ s.cl.stack.map s.cl.scopeName = ["test", "session", "session-global"] := by
    have : (session {} demoSkip).2.trace.any (fun s => decide (s.ev = .body 3 ∧ s.cl.stack.map s.cl.scopeName = ["test", "session", "session-global"])) = true := by
      decide +kernel
    obtain ⟨s, hs, h1⟩ := List.any_eq_true.1 this
    exact ⟨s, hs, of_decide_eq_true h1⟩
  obtain ⟨s, hs, h1, h2⟩ := hex
  have := h {} demoSkip s hs 3 h1
  rw [h2] at this
  exact absurd (congrArg List.length this) (by decide)

/-- Cleanups placed on a scope that is not open are settled. -/
theorem settled {a : Cleanup.St} (h : Reach {} a) {u r : Nat} (hu : u ∉ a.stack) (hp : .placed r u ∈ a.log) :
    .ran r u ∈ a.log ∨ .skipped r u ∈ a.log ∨ .dropped r u ∈ a.log := by
  rcases h.inv.outstanding r u hp with h1 | ⟨e, he, h2⟩
  · rw [h.inv.closedEmpty u hu] at h1; cases h1
  · cases e <;> simp only [Cleanup.isDisp, Option.some.injEq, Prod.mk.injEq, reduceCtorEq] at h2
    all_goals obtain ⟨rfl, rfl⟩ := h2
    · exact .inl he
    · exact .inr (.inl he)
    · exact .inr (.inr he)

/-! ## C87: module and session scopes are shared -/

/-- **C87.** Two tests that start one after the other: if they are of the same module they share its scope (and those around it), if
not, the scope of the module of the first one is closed before the second starts, and they share the scopes of the session. -/
theorem C87_shared_partial (env : Env) (ts : List T) (p1 p2 post : List Snap) (s0 s : Snap) (t0 t m0 m : Nat)
    (h : (session env ts).2.trace = p1 ++ s0 :: p2 ++ s :: post) (h0 : s0.ev = .start t0 m0) (he : s.ev = .start t m)
    (hm : ∀ b ∈ p2, ∀ t m, b.ev ≠ .start t m) (hc : ∀ b ∈ p1 ++ s0 :: p2, ∀ t, b.ev ≠ .beginRaised t .skip) :
    ∃ a b c d a' b', s0.cl.stack = [a, b, c, d] ∧ s.cl.stack = [a', b', c, d] ∧ (m = m0 ↔ b' = b) ∧
      (m ≠ m0 → ∀ r, .placed r b ∈ s.cl.log → .ran r b ∈ s.cl.log ∨ .skipped r b ∈ s.cl.log ∨ .dropped r b ∈ s.cl.log) := by
  have hs0 : s0 ∈ (session env ts).2.trace := by rw [h]; simp
  have hs : s ∈ (session env ts).2.trace := by rw [h]; simp
  have n0 := C86_scopes_partial env ts p1 (p2 ++ s :: post) s0 (by rw [h]; simp) (.inl ⟨t0, m0, h0⟩) (fun b hb => hc b (by simp [hb]))
  have n1 := C86_scopes_partial env ts (p1 ++ s0 :: p2) post s h (.inl ⟨t, m, he⟩) hc
  have hat := (session_ended.trace _ s post h).1
  simp only [SnapAt, he] at hat
  obtain ⟨⟨u, hin, hfresh, -⟩, hcont⟩ := hat
  have hlast : lastStart (p1 ++ s0 :: p2) = some (m0, s0.cl.stack) := by
    have : ∀ l : List Snap, (∀ b ∈ l, ∀ t m, b.ev ≠ .start t m) → ∀ pre, lastStart (pre ++ l) = lastStart pre := by
      intro l
      induction l with
      | nil => intro _ pre; simp
      | cons x l ih =>
        intro hl pre
        have e : pre ++ x :: l = pre ++ [x] ++ l := by simp
        rw [e, ih (fun b hb => hl b (List.mem_cons_of_mem _ hb)), lastStart_none _ (hl x (by simp))]
    have e : p1 ++ s0 :: p2 = p1 ++ [s0] ++ p2 := by simp
    rw [e, this p2 hm, lastStart_snoc]
    simp only [startOf, h0, Option.some_or]
  have hcn := hcont hc m0 _ hlast
  obtain ⟨r1, -, -⟩ := snap_reach env ts s hs
  -- lists of four
  have four : ∀ (l : List Nat) (f : Nat → String), l.map f = ["test", "module", "session", "session-global"] → ∃ a b c d, l = [a, b, c, d] := by
    intro l f hl
    have : l.length = 4 := by have := congrArg List.length hl; simpa using this
    match l, this with
    | [a, b, c, d], _ => exact ⟨a, b, c, d, rfl⟩
  obtain ⟨a, b, c, d, e0⟩ := four _ _ n0
  obtain ⟨a', b', c', d', e1⟩ := four _ _ n1
  rw [e0, e1] at hcn
  by_cases hmm : m = m0
  · have := hcn.1 hmm
    simp only [List.tail_cons, List.cons.injEq, and_true] at this
    obtain ⟨rfl, rfl, rfl⟩ := this
    exact ⟨a, b', c', d', a', b', e0, e1, by simp [hmm], fun hne => absurd hmm hne⟩
  · obtain ⟨h1, h2⟩ := hcn.2 hmm
    simp only [List.drop_succ_cons, List.drop_zero, List.cons.injEq, and_true] at h1
    obtain ⟨rfl, rfl⟩ := h1
    have hb := h2 b rfl
    refine ⟨a, b, c', d', a', b', e0, e1, ⟨fun e => absurd e hmm, fun e => absurd (by simp [e]) hb⟩, fun _ r hr => ?_⟩
    exact settled r1 (by rw [e1]; exact hb) hr

/-- The hypotheses are met, and what follows: tests 1 and 2 share the scope of module 0, test 3 has another one. -/
example : ((session {} demo).2.trace.filterMap (fun s => match s.ev with | .start t m => some (t, m, s.cl.stack) | _ => none)) =
    [(1, 0, [3, 2, 1, 0]), (2, 0, [4, 2, 1, 0]), (3, 1, [6, 5, 1, 0])] ∧
    (∀ e ∈ evs {} demo, ∀ t ∈ [1, 2, 3], e ≠ .beginRaised t .skip) ∧
    ((session {} demo).2.trace.filterMap (fun s => match s.ev with
      | .start _ _ => some (decide (.placed 1 2 ∈ s.cl.log), decide (.ran 1 2 ∈ s.cl.log)) | _ => none)) =
    [(false, false), (true, false), (true, true)] := by decide +kernel

/-- **C87 is violated** if a test between them did not begin because of a skip: tests 1 and 3 are of the same module and start one
after the other, but the scope of the module (number 2) was closed in between and test 3 has none. -/
theorem C87_shared_violated :
    ((session {} demoSkip).2.trace.filterMap (fun s => match s.ev with | .start t m => some (t, m, s.cl.stack) | _ => none)) =
    [(1, 0, [3, 2, 1, 0]), (3, 0, [4, 1, 0])] := by decide +kernel

/-! ## C88: the cleanups of a test are done before its outcome is announced -/

/-- **C88.** When the outcome of a test or its end or that it is not run is announced, when the session cleanup begins and when
the end of the session is announced, no test scope is open, and every cleanup ever registered on one was called, passed over, or dropped. -/
theorem C88_test_cleanups_done (env : Env) (ts : List T) (s : Snap) (hs : s ∈ (session env ts).2.trace)
    (he : (∃ t h, s.ev = .summary t h) ∨ (∃ t, s.ev = .fin t) ∨ (∃ t, s.ev = .avoided t) ∨ s.ev = .sessionCleanup ∨ s.ev = .sessionEnd) :
    (∀ v ∈ s.cl.stack, s.cl.scopeName v ≠ "test") ∧
    ∀ r u, s.cl.scopeName u = "test" → .placed r u ∈ s.cl.log → .ran r u ∈ s.cl.log ∨ .skipped r u ∈ s.cl.log ∨ .dropped r u ∈ s.cl.log := by
  obtain ⟨pre, post, h⟩ := List.append_of_mem hs
  have := (session_ended.trace pre s post h).1
  have hn : NoTest s.cl := by
    rcases he with ⟨t, h, he⟩ | ⟨t, he⟩ | ⟨t, he⟩ | he | he <;> simp only [SnapAt, he] at this
    · exact this.1
    · exact this.1
    · exact this.1
    · exact this
    · exact this.1
  have hv : ∀ v ∈ s.cl.stack, s.cl.scopeName v ≠ "test" := fun v hv e => hn (List.mem_map.2 ⟨v, hv, e⟩)
  exact ⟨hv, fun r u hu hp => settled (snap_reach env ts s hs).1 (fun hm => hv u hm hu) hp⟩

/-- **C88.** The outcome announced for a test is the one of its result at that moment, after its cleanups: if a cleanup registered
while this test was the current one raised an error or a failure, success is not announced. -/
theorem C88_announced (env : Env) (ts : List T) (s : Snap) (hs : s ∈ (session env ts).2.trace) (t : Nat) (h : SummaryHook)
    (he : s.ev = .summary t h) :
    (h = .success ↔ (s.cl.results (.test t)).errors = [] ∧ (s.cl.results (.test t)).failures = [] ∧ (s.cl.results (.test t)).skips = [] ∧
      (s.cl.results (.test t)).interrupted = false ∧ (s.cl.results (.test t)).started = true) ∧
    (h = .success → ∀ r c b k, .added r c b (some (.test t)) ∈ s.cl.log → .ended r (some k) ∈ s.cl.log → k.isException = false) := by
  obtain ⟨pre, post, hp⟩ := List.append_of_mem hs
  have := (session_ended.trace pre s post hp).1
  simp only [SnapAt, he] at this
  obtain ⟨-, -, hh, -⟩ := this
  have h1 : (h = .success ↔ (s.cl.results (.test t)).errors = [] ∧ (s.cl.results (.test t)).failures = [] ∧ (s.cl.results (.test t)).skips = [] ∧
      (s.cl.results (.test t)).interrupted = false ∧ (s.cl.results (.test t)).started = true) := by
    rw [hh]
    generalize s.cl.results (.test t) = res
    rcases res with ⟨e, f, sk, st, fi, i⟩
    cases e <;> cases f <;> cases sk <;> cases st <;> cases i <;>
      simp [summaryHook, Result.isJustFailure, Result.isFailure, Result.isError, Result.isSkip, Result.isSuccess, Result.isStarted]
  refine ⟨h1, fun hsu r c b k ha hr => ?_⟩
  obtain ⟨ops, hops⟩ := (snap_reach env ts s hs).1
  rw [hops] at ha hr
  obtain ⟨g1, g2, g3, g4, -⟩ := h1.1 hsu
  rw [hops] at g1 g2 g3
  cases hk : k.isException with
  | false => rfl
  | true =>
    have hrec := Cleanup.C02_recorded ops r k (.test t) c b hr hk ha
    obtain ⟨q1, q2, q3, -⟩ := Cleanup.C02_results ops (.test t)
    rw [g1] at q1; rw [g2] at q2; rw [g3] at q3
    have z : ∀ ks : List Kind, k ∈ ks → 0 < (Cleanup.run ops {}).log.countP (Cleanup.recIn (.test t) ks) := by
      intro ks hks
      rw [List.countP_pos_iff]
      exact ⟨_, hrec, by simpa [Cleanup.recIn] using hks⟩
    cases k with
    | error => exact absurd (Nat.lt_of_lt_of_le (z [.error, .other] (by simp)) q1) (Nat.not_lt_zero _)
    | failure => exact absurd (Nat.lt_of_lt_of_le (z [.failure] (by simp)) q2) (Nat.not_lt_zero _)
    | skip => exact absurd (Nat.lt_of_lt_of_le (z [.skip] (by simp)) q3) (Nat.not_lt_zero _)
    | interrupt => cases hk
    | other => cases hk

/-- **C92.** If success is announced for a test, then the hooks for its start, its function and the hook before its cleanups were
called and returned - unless an earlier test (or this one) did not begin because a cleanup of the module before it raised a skip. -/
theorem C92_success_means_run_partial (env : Env) (ts : List T) (pre post : List Snap) (s : Snap) (t : Nat)
    (h : (session env ts).2.trace = pre ++ s :: post) (he : s.ev = .summary t .success)
    (hc : ∀ b ∈ pre, ∀ t, b.ev ≠ .beginRaised t .skip) :
    ∃ tt ∈ ts, tt.id = t ∧ tt.beforeCleanups = none ∧
      (∃ b ∈ pre, b.ev = .start t tt.module ∧ (Cleanup.runActs tt.startHook.acts b.cl).1 = none ∧ tt.startHook.out = none) ∧
      ∃ b ∈ pre, b.ev = .body t ∧ (Cleanup.runActs tt.body.acts b.cl).1 = none ∧ tt.body.out = none := by
  have := (session_ended.trace pre s post h).1
  simp only [SnapAt, he] at this
  obtain ⟨-, -, hh, hr⟩ := this
  rcases hr hc with hm | hm
  · exact absurd hh.symm hm.summary
  · exact hm

example : .summary 2 .success ∈ evs {} demo ∧ .body 2 ∈ evs {} demo ∧ .summary 1 .error ∈ evs {} demo := by decide +kernel

/-- **C92 is violated** otherwise: the skip is recorded in the result of the test that registered the cleanup, and success is announced
for a test that was never started, whose function was never called. -/
theorem C92_success_means_run_violated : .summary 2 .success ∈ evs {} demoSkip ∧ .body 2 ∉ evs {} demoSkip ∧ .start 2 1 ∉ evs {} demoSkip := by
  decide +kernel

/-! ## C89: nothing is left when the session ends -/

/-- **C89.** When the end of the session is announced, and when it is over, no scope is open and all cleanups registered on scopes
were called, passed over or dropped - unless a skip out of the cleanups of a module prevented a test from beginning, or something
that is no `Exception` was raised out of the closing of a scope. -/
theorem C89_all_done_partial (env : Env) (ts : List T) (cl : Cleanup.St)
    (hcl : cl = (session env ts).2.cl ∨ ∃ s ∈ (session env ts).2.trace, s.ev = .sessionEnd ∧ s.cl = cl)
    (hc : ∀ b ∈ (session env ts).2.trace, ∀ t, b.ev ≠ .beginRaised t .skip)
    (hk : ∀ b ∈ (session env ts).2.trace, ∀ sc k, b.ev = .closeRaised sc k → k.isException = true) :
    cl.stack = [] ∧ ∀ r u, .placed r u ∈ cl.log → .ran r u ∈ cl.log ∨ .skipped r u ∈ cl.log ∨ .dropped r u ∈ cl.log := by
  have hcut : ¬ Cut (session env ts).2.trace := by
    rintro ⟨b, hb, sc, k, he, hf⟩
    rw [hk b hb sc k he] at hf
    cases hf
  have key : cl.stack = [] ∧ Reach {} cl := by
    rcases hcl with rfl | ⟨s, hs, he, rfl⟩
    · exact ⟨session_ended.done hc hcut, session_ended.reach⟩
    · obtain ⟨pre, post, hp⟩ := List.append_of_mem hs
      have := (session_ended.trace pre s post hp).1
      simp only [SnapAt, he] at this
      refine ⟨this.2 (fun b hb => hc b (by rw [hp]; exact List.mem_append_left _ hb)) ?_, (snap_reach env ts s hs).1⟩
      rintro ⟨b, hb, hx⟩
      exact hcut ⟨b, by rw [hp]; exact List.mem_append_left _ hb, hx⟩
  exact ⟨key.1, fun r u hp => settled key.2 (by rw [key.1]; simp) hp⟩

example : (session {} demo).2.cl.stack = [] ∧ .placed 2 1 ∈ (session {} demo).2.cl.log ∧ .ran 2 1 ∈ (session {} demo).2.cl.log ∧
    (∀ e ∈ evs {} demo, ∀ t ∈ [1, 2, 3], e ≠ .beginRaised t .skip) ∧
    (∀ e ∈ evs {} demo, ∀ sc ∈ [Sc.test, .module, .session], ∀ k ∈ [Kind.error, .failure, .skip, .interrupt, .other], e ≠ .closeRaised sc k) := by
  decide +kernel

/-- **C89 is violated** by the first of these: a cleanup of a module raises a skip when the first test of the next module is about to
begin, and the test after it is of a third module. Then a cleanup of the session is never called and the end of the session never announced. -/
theorem C89_skip_violated : (session {} demoSkip3).2.cl.stack = [1, 0] ∧ .placed 1 1 ∈ (session {} demoSkip3).2.cl.log ∧
    .ran 1 1 ∉ (session {} demoSkip3).2.cl.log ∧ .skipped 1 1 ∉ (session {} demoSkip3).2.cl.log ∧
    .dropped 1 1 ∉ (session {} demoSkip3).2.cl.log ∧ .sessionEnd ∉ evs {} demoSkip3 := by decide +kernel

/-- **C89 is violated** by the second: if the run was stopped by an error and a cleanup of the module is then interrupted, a critical
cleanup of the session is never called, the end of the session is never announced, and not the interruption is raised but an error. -/
theorem C89_interrupt_violated : .placed 1 1 ∈ (session { stop := true } demoInt).2.cl.log ∧
    .added 1 true false (some (.test 1)) ∈ (session { stop := true } demoInt).2.cl.log ∧
    .ran 1 1 ∉ (session { stop := true } demoInt).2.cl.log ∧ .sessionEnd ∉ evs { stop := true } demoInt ∧
    (session { stop := true } demoInt).1.map (·.kind) = some .error := by decide +kernel

/-- Neither the theorem nor the code covers cleanups that are on no scope: a cleanup registered when the end of the session is
announced is accepted and never called. -/
theorem C89_unscoped_violated : .added 0 true false (some .global) ∈
      (session { sessionEnd := { acts := [.add .implicit (demoCb none true)] } } [demoTest 1 0]).2.cl.log ∧
    (∀ u ∈ List.range 9, .ran 0 u ∉ (session { sessionEnd := { acts := [.add .implicit (demoCb none true)] } } [demoTest 1 0]).2.cl.log) ∧
    (session { sessionEnd := { acts := [.add .implicit (demoCb none true)] } } [demoTest 1 0]).1 = none := by decide +kernel

/-! ## C90: fixtures and the test -/

/-- **C90.** When the function of a test is called, the fixtures it needs have just been computed without an error, and the
next thing to happen is the closing of its scope with the fixtures still as they were. -/
theorem C90_body (env : Env) (ts : List T) (pre post : List Snap) (s : Snap) (t : Nat)
    (h : (session env ts).2.trace = pre ++ s :: post) (he : s.ev = .body t) :
    (∃ tt ∈ ts, tt.id = t ∧ ∃ fx0 vs, Fix.Session env.defs env.fixture fx0 ∧
      Fix.setup { defs := env.defs, params := env.params, var := tt.var, body := env.fixture } env.fuel tt.fixtures fx0 = (.ok vs, s.fx)) ∧
    ∃ s' post', post = s' :: post' ∧ s'.ev = .closing .test ∧ s'.fx = s.fx := by
  have h1 := (session_ended.trace pre s post h).1
  simp only [SnapAt, he] at h1
  obtain ⟨u, -, -, hsu⟩ := h1
  refine ⟨hsu, ?_⟩
  cases post with
  | nil =>
    have := session_ended.last (env := env) (ts := ts) s (by rw [h]; simp) t
    exact absurd he this
  | cons s' post' =>
    have h2 := (session_ended.trace (pre ++ [s]) s' post' (by rw [h]; simp)).2 s (by simp)
    exact ⟨s', post', rfl, h2.1 t he⟩

/-- **C90.** All cleanups of a scope are called before any of its fixtures is torn down: from the moment when the closing of a scope
begins to the moment when the teardown of fixtures begins, the fixtures stay as they were, and when it begins no cleanup is left. -/
theorem C90_teardown_after_cleanups (env : Env) (ts : List T) (pre post : List Snap) (s s' : Snap) (sc sc' : Sc)
    (h : (session env ts).2.trace = pre ++ s :: s' :: post) (he : s.ev = .closing sc) (he' : s'.ev = .fixturesDown sc') :
    sc' = sc ∧ s'.fx = s.fx ∧ ∃ u tl, s.cl.stack = u :: tl ∧ s'.cl.stack = tl ∧ s.cl.scopeName u = scName sc ∧
      ∀ r, .placed r u ∈ s'.cl.log → .ran r u ∈ s'.cl.log ∨ .skipped r u ∈ s'.cl.log ∨ .dropped r u ∈ s'.cl.log := by
  obtain ⟨e1, e2, u, e3, e4⟩ := (session_ended.trace (pre ++ [s]) s' post (by rw [h]; simp)).2 s (by simp) |>.2 sc sc' he he'
  have hs : s ∈ (session env ts).2.trace := by rw [h]; simp
  have hs' : s' ∈ (session env ts).2.trace := by rw [h]; simp
  have hnd := (snap_reach env ts s hs).1.inv.nodup
  rw [e3] at hnd
  exact ⟨e1, e2, u, _, e3, rfl, e4, fun r hr => settled (snap_reach env ts s' hs').1 (List.nodup_cons.1 hnd).1 hr⟩

/-- Fixture 0 of the session, fixture 1 of the test; each registers a cleanup (`fixture_store.py:385-394`). -/
def demoFix : Env :=
  { defs := fun f => if f = 0 then { scope := 2 } else { needs := [0] }, fixture := fun f _ => { cleanups := [{ tag := f }] }, fuel := 3 }

/-- The active fixtures and the calls of fixture functions and their cleanups at each event. -/
example : ((session demoFix [{ id := 1, fixtures := [1], body := { acts := [.add .implicit (demoCb (some .error))] } }]).2.trace.map
      (fun s => (s.ev, s.fx.active.map (·.id), s.fx.trace))) =
    [(.sessionStart, [], []), (.start 1 0, [], []),
     (.body 1, [0, 1], [.call 0 0 [], .call 1 1 [0]]), (.closing .test, [0, 1], [.call 0 0 [], .call 1 1 [0]]),
     (.fixturesDown .test, [0, 1], [.call 0 0 [], .call 1 1 [0]]),
     (.summary 1 .error, [0], [.call 0 0 [], .call 1 1 [0], .cleanup 1 1 1]), (.fin 1, [0], [.call 0 0 [], .call 1 1 [0], .cleanup 1 1 1]),
     (.sessionCleanup, [0], [.call 0 0 [], .call 1 1 [0], .cleanup 1 1 1]),
     (.closing .module, [0], [.call 0 0 [], .call 1 1 [0], .cleanup 1 1 1]), (.fixturesDown .module, [0], [.call 0 0 [], .call 1 1 [0], .cleanup 1 1 1]),
     (.closing .session, [0], [.call 0 0 [], .call 1 1 [0], .cleanup 1 1 1]),
     (.fixturesDown .session, [0], [.call 0 0 [], .call 1 1 [0], .cleanup 1 1 1]),
     (.sessionEnd, [], [.call 0 0 [], .call 1 1 [0], .cleanup 1 1 1, .cleanup 0 0 0])] := by decide +kernel

/-! ## C91: a successful session had no failing cleanup -/

/-- **C91.** If the session is successful (no errors, failures or interruption in the results of the session and of its tests), then no
cleanup of any scope, whoever registered it and whenever it was called, raised an error, a failure or an interruption. -/
theorem C91_no_error_lost (env : Env) (ts : List T)
    (hg : ((session env ts).2.cl.results .global).isSuccess true = true)
    (ht : ∀ t ∈ (session env ts).2.tests, ((session env ts).2.cl.results (.test t)).isSuccess true = true)
    (r : Nat) (k : Kind) (he : .ended r (some k) ∈ (session env ts).2.cl.log) : k = .skip := by
  obtain ⟨x, hx, hrec⟩ := (sg_session env ts).ended r k he
  have hs : ((session env ts).2.cl.results x).isSuccess true = true := by
    rcases hx with hx | ⟨t, htm, hx⟩ <;> cases hx
    · exact hg
    · exact ht t htm
  obtain ⟨ops, hops⟩ := session_cl env ts
  rw [hops] at hrec hs
  obtain ⟨q1, q2, -, q4⟩ := Cleanup.C02_results ops x
  generalize (Cleanup.run ops {}).results x = res at q1 q2 q4 hs
  have z : ∀ ks : List Kind, k ∈ ks → 0 < (Cleanup.run ops {}).log.countP (Cleanup.recIn x ks) := by
    intro ks hks
    rw [List.countP_pos_iff]
    exact ⟨_, hrec, by simpa [Cleanup.recIn] using hks⟩
  unfold Result.isSuccess at hs
  have hz : res.errors = [] ∧ res.failures = [] ∧ res.interrupted = false := by
    cases h1 : res.errors <;> cases h2 : res.failures <;> cases h3 : res.interrupted <;> simp_all
  rw [hz.1] at q1
  rw [hz.2.1] at q2
  cases k with
  | skip => rfl
  | error => exact absurd (Nat.lt_of_lt_of_le (z [.error, .other] (by simp)) q1) (Nat.not_lt_zero _)
  | other => exact absurd (Nat.lt_of_lt_of_le (z [.error, .other] (by simp)) q1) (Nat.not_lt_zero _)
  | failure => exact absurd (Nat.lt_of_lt_of_le (z [.failure] (by simp)) q2) (Nat.not_lt_zero _)
  | interrupt => exact absurd (q4 ⟨r, hrec⟩) (by rw [hz.2.2]; simp)

/-- The failing cleanup of test 1 makes the session unsuccessful; with a skip instead it is successful. -/
example : .ended 0 (some .error) ∈ (session {} demo).2.cl.log ∧ success (session {} demo).2 = false ∧
    .ended 0 (some .skip) ∈ (session {} [demoTest 1 0 [.add .implicit (demoCb (some .skip))]]).2.cl.log ∧
    success (session {} [demoTest 1 0 [.add .implicit (demoCb (some .skip))]]).2 = true := by decide +kernel

end Slash.Whole
