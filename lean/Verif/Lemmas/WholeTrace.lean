import Verif.Lemmas.Whole
/-! Whole sessions: which scopes are open at each event. -/
namespace Slash.Whole

open Slash.Scope (Sc)
open Slash.Cleanup (Op RKey)

/-- The names of the open scopes, innermost first. -/
def names (cl : Cleanup.St) : List String := cl.stack.map cl.scopeName

def NoTest (cl : Cleanup.St) : Prop := "test" ∉ names cl

def Ctx (t : Nat) (cl : Cleanup.St) : Prop := cl.curResult = some (.test t) ∧ cl.curTest = some t

/-- No test was prevented from beginning by a skip raised when the scope of the previous module was closed. -/
def Calm (tr : List Snap) : Prop := ∀ s ∈ tr, ∀ t, s.ev ≠ .beginRaised t .skip

/-- Something other than an `Exception` was raised when a scope was closed. -/
def Cut (tr : List Snap) : Prop := ∃ s ∈ tr, ∃ sc k, s.ev = .closeRaised sc k ∧ k.isException = false

structure InTest (t u : Nat) (cl : Cleanup.St) : Prop where
  ctx : Ctx t cl
  tl : ∃ tl, cl.stack = u :: tl ∧ "test" ∉ tl.map cl.scopeName
  name : cl.scopeName u = "test"
  own : Own t u cl

def fullNames : List String := ["test", "module", "session", "session-global"]

/-- Setting up the fixtures of the test led to this state of the fixture store. -/
def SetUp (env : Env) (ts : List T) (id : Nat) (fx : Fix.St) : Prop :=
  ∃ t ∈ ts, t.id = id ∧ ∃ fx0 vs, Fix.Session env.defs env.fixture fx0 ∧ Fix.setup (fixEnv env t) env.fuel t.fixtures fx0 = (.ok vs, fx)

/-- Module and open scopes of the last test that started. -/
def startOf (s : Snap) : Option (Nat × List Nat) :=
  match s.ev with
  | .start _ m => some (m, s.cl.stack)
  | _ => none

def lastStart (tr : List Snap) : Option (Nat × List Nat) := tr.reverse.findSome? startOf

theorem lastStart_snoc (tr : List Snap) (s : Snap) : lastStart (tr ++ [s]) = (startOf s).or (lastStart tr) := by
  unfold lastStart
  rw [List.reverse_append, List.reverse_singleton, List.singleton_append, List.findSome?_cons]
  cases startOf s <;> rfl

theorem lastStart_none (tr : List Snap) {s : Snap} (h : ∀ t m, s.ev ≠ .start t m) : lastStart (tr ++ [s]) = lastStart tr := by
  rw [lastStart_snoc]
  have : startOf s = none := by
    unfold startOf; split
    · rename_i heq; exact absurd heq (h _ _)
    · rfl
  rw [this]; rfl

/-- How the open scopes when a test of module `m` starts relate to those when the test before it, of module `m0`, started. -/
def Cont (m0 : Nat) (st0 : List Nat) (m : Nat) (st : List Nat) : Prop :=
  (m = m0 → st.tail = st0.tail) ∧ (m ≠ m0 → st.drop 2 = st0.drop 2 ∧ ∀ b, st0[1]? = some b → b ∉ st)

/-- This code, started in this state, returns. -/
def Returns (c : Code) (cl : Cleanup.St) : Prop := (Cleanup.runActs c.acts cl).1 = none ∧ c.out = none

/-- The test was run: the hooks for its start, its function and the hook before its cleanups were called and returned. -/
def RanOk (ts : List T) (pre : List Snap) (t : Nat) : Prop :=
  ∃ tt ∈ ts, tt.id = t ∧ tt.beforeCleanups = none ∧ (∃ s ∈ pre, s.ev = .start t tt.module ∧ Returns tt.startHook s.cl) ∧
    ∃ s ∈ pre, s.ev = .body t ∧ Returns tt.body s.cl

/-- Something other than success is in the result of the test. -/
def Marked (t : Nat) (cl : Cleanup.St) : Prop :=
  (cl.results (.test t)).errors ≠ [] ∨ (cl.results (.test t)).failures ≠ [] ∨ (cl.results (.test t)).skips ≠ [] ∨
    (cl.results (.test t)).interrupted = true

theorem Marked.summary {t : Nat} {cl : Cleanup.St} (h : Marked t cl) : summaryHook (cl.results (.test t)) ≠ .success := by
  unfold Marked at h
  generalize cl.results (.test t) = res at h
  rcases res with ⟨e, f, sk, st, fi, i⟩
  cases e <;> cases f <;> cases sk <;> cases i <;>
    simp_all [summaryHook, Result.isJustFailure, Result.isFailure, Result.isError, Result.isSkip, Result.isSuccess]

def SnapAt (env : Env) (ts : List T) (pre : List Snap) (s : Snap) : Prop :=
  match s.ev with
  | .start t m => (∃ u, InTest t u s.cl ∧ (∀ r, .placed r u ∉ s.cl.log) ∧ (Calm pre → names s.cl = fullNames)) ∧
      (Calm pre → ∀ m0 st0, lastStart pre = some (m0, st0) → Cont m0 st0 m s.cl.stack)
  | .body t => ∃ u, InTest t u s.cl ∧ (Calm pre → names s.cl = fullNames) ∧ SetUp env ts t s.fx
  | .closing .test => ∃ t u, InTest t u s.cl
  | .summary t h => NoTest s.cl ∧ Ctx t s.cl ∧ h = summaryHook (s.cl.results (.test t)) ∧ (Calm pre → Marked t s.cl ∨ RanOk ts pre t)
  | .fin t | .avoided t | .beginRaised t _ => NoTest s.cl ∧ Ctx t s.cl
  | .sessionEnd => NoTest s.cl ∧ (Calm pre → ¬ Cut pre → s.cl.stack = [])
  | _ => NoTest s.cl

/-- What comes right after a test function and right after the beginning of the closing of a scope. -/
def Adj (pre : List Snap) (s : Snap) : Prop :=
  ∀ b, pre.getLast? = some b → (∀ t, b.ev = .body t → s.ev = .closing .test ∧ s.fx = b.fx) ∧
    (∀ x y, b.ev = .closing x → s.ev = .fixturesDown y → y = x ∧ s.fx = b.fx ∧ ∃ u, b.cl.stack = u :: s.cl.stack ∧ b.cl.scopeName u = scName x)

def TraceOk (env : Env) (ts : List T) (tr : List Snap) : Prop :=
  ∀ pre s post, tr = pre ++ s :: post → SnapAt env ts pre s ∧ Adj pre s

theorem TraceOk.snoc {env : Env} {ts : List T} {tr : List Snap} {s : Snap} (h : TraceOk env ts tr) (hs : SnapAt env ts tr s) (ha : Adj tr s) :
    TraceOk env ts (tr ++ [s]) := by
  intro pre x post he
  rcases List.eq_nil_or_concat post with rfl | ⟨l, y, rfl⟩
  · have := List.append_inj' he rfl
    obtain ⟨rfl, h2⟩ := this
    cases h2
    exact ⟨hs, ha⟩
  · have : tr ++ [s] = (pre ++ x :: l) ++ [y] := by rw [he]; simp
    have := List.append_inj' this rfl
    exact h pre x l this.1

theorem Calm.left {a b : List Snap} (h : Calm (a ++ b)) : Calm a := fun s hs => h s (List.mem_append_left _ hs)

theorem calm_snoc {a : List Snap} {s : Snap} (h : Calm a) (hs : ∀ t, s.ev ≠ .beginRaised t .skip) : Calm (a ++ [s]) := by
  intro x hx
  rcases List.mem_append.1 hx with hx | hx
  · exact h x hx
  · rw [List.mem_singleton.1 hx]; exact hs

/-! ## Scopes of the cleanup manager -/

theorem Reach.inv {a : Cleanup.St} (h : Reach {} a) : Cleanup.Inv none a := by
  obtain ⟨ops, rfl⟩ := h
  exact Cleanup.inv_run ops Cleanup.inv_init

theorem nextUid_run (ops : List Op) (a : Cleanup.St) : a.nextUid ≤ (Cleanup.run ops a).nextUid := by
  induction ops generalizing a with
  | nil => exact Nat.le_refl _
  | cons op ops ih =>
    refine Nat.le_trans ?_ (ih (Cleanup.step a op).2)
    cases op with
    | push n => exact Nat.le_succ _
    | pop n hk ts =>
      simp only [Cleanup.step]
      rcases Cleanup.popScope_cases n hk ts a with ⟨_, h⟩ | ⟨_, _, _, _, h⟩ | ⟨u, tl, _, _, h⟩ <;> rw [h]
      · exact Nat.le_refl _
      · exact Nat.le_refl _
      · exact Nat.le_of_eq ((Cleanup.frame_emit a (.closing u (Cleanup.popFlags a ts).1 (Cleanup.popFlags a ts).2)).trans
          (Cleanup.frame_callCleanups u _ _ hk _)).nextUid.symm
    | add sc cb => exact Nat.le_of_eq (Cleanup.frame_addCleanup sc cb a).nextUid.symm
    | note r k => exact Nat.le_of_eq (Cleanup.frame_record a r k).nextUid.symm
    | setImplicit _ | setDefault _ | setContext _ _ | start _ => exact Nat.le_refl _

theorem Reach.nextUid {a b : Cleanup.St} (h : Reach a b) : a.nextUid ≤ b.nextUid := by
  obtain ⟨ops, rfl⟩ := h
  exact nextUid_run ops a

theorem names_push {a : Cleanup.St} (h : Reach {} a) (n : String) : names (Cleanup.pushScope n a) = n :: names a := by
  simp only [names, Cleanup.pushScope, Cleanup.St.emit, List.map_cons, if_true, List.cons.injEq, true_and]
  apply List.map_congr_left
  intro u hu
  have := h.inv.lt u hu
  rw [if_neg (by omega)]

theorem tl_push {a : Cleanup.St} (h : Reach {} a) (n : String) : a.stack.map (Cleanup.pushScope n a).scopeName = names a := by
  have := names_push h n
  simp only [names, Cleanup.pushScope, Cleanup.St.emit, List.map_cons, List.cons.injEq] at this ⊢
  exact this.2

theorem names_frame {a b : Cleanup.St} (h : Cleanup.Frame a b) : names b = names a := by
  unfold names; rw [h.stack, h.scopeName]

/-! ## Closing a scope -/

theorem popScope_match {a : Cleanup.St} {n : String} {hk : Option Kind} {ts : List Nat} {u : Nat} {tl : List Nat}
    (hs : a.stack = u :: tl) (hn : a.scopeName u = n) :
    (Cleanup.popScope n hk ts a).2.stack = tl ∧ (Cleanup.popScope n hk ts a).2.scopeName = a.scopeName ∧
    (Cleanup.popScope n hk ts a).2.curResult = a.curResult ∧ (Cleanup.popScope n hk ts a).2.curTest = a.curTest ∧
    ((n = "test" → hk = none) → ∀ e, (Cleanup.popScope n hk ts a).1 = some e → e.kind.escapes = true) := by
  rcases Cleanup.popScope_cases n hk ts a with ⟨h1, _⟩ | ⟨u', tl', h1, h2, _⟩ | ⟨u', tl', h1, h2, heq⟩
  · rw [hs] at h1; cases h1
  · rw [hs] at h1; cases h1; exact absurd hn h2
  · rw [hs] at h1; cases h1
    rw [heq]
    have hfr := (Cleanup.frame_emit a (.closing u (Cleanup.popFlags a ts).1 (Cleanup.popFlags a ts).2)).trans
      (Cleanup.frame_callCleanups u (Cleanup.popFlags a ts).1 (Cleanup.popFlags a ts).2 hk
        (a.emit (.closing u (Cleanup.popFlags a ts).1 (Cleanup.popFlags a ts).2)))
    refine ⟨?_, hfr.scopeName, hfr.curResult, hfr.curTest, ?_⟩
    · simp only [Cleanup.discarded]; rw [hfr.stack, hs]; rfl
    · intro hh e he
      simp only [Cleanup.callCleanups] at he
      split at he
      · rename_i hsome
        split at hsome
        · rename_i ht
          have : n = "test" := by rw [← h2]; exact ht
          rw [hh this] at hsome; cases hsome
        · cases hsome
      · exact Cleanup.callLoop_escapes he

theorem popLoop_escapes (fs : List Nat) (st : Fix.St) {k : Kind} (h : (Fix.popLoop fs st).1 = some k) : k.escapes = true := by
  induction fs generalizing st with
  | nil => cases h
  | cons f fs ih =>
    simp only [Fix.popLoop] at h
    generalize Fix.deactivate f st = p at h
    rcases p with ⟨x, st1⟩
    cases x with
    | none => exact ih _ h
    | some k' =>
      simp only at h
      split at h
      · cases h; assumption
      · exact ih _ h

theorem popScopes_escapes (D : Nat → FG.FDef) (s : Nat) (ks : List Nat) (st : Fix.St) {k : Kind} (h : (Fix.popScopes D s ks st).1 = some k) :
    k.escapes = true := by
  induction ks generalizing st with
  | nil => cases h
  | cons k' ks ih =>
    simp only [Fix.popScopes] at h
    split at h
    · split at h <;> rename_i heq
      · cases h; exact popLoop_escapes _ _ (by rw [heq])
      · exact ih _ h
    · exact ih _ h

theorem fxPop_escapes (env : Env) (s : Sc) (w : W) {x : X} (h : (fxPop env s w).1 = some x) : x.kind.escapes = true := by
  obtain ⟨-, -, h3⟩ := fxPop_spec env s w
  rw [h] at h3
  unfold Fix.popScope at h3
  split at h3
  · cases h3
  · exact popScopes_escapes _ _ _ _ h3.symm

theorem ofExn_kind (e : Cleanup.Exn) : (ofExn e).kind = e.kind := by cases e <;> rfl

/-- What closing a scope does to scopes, context and trace, if the scope is on top of both stacks. -/
structure Popped (s : Sc) (hk : Option Kind) (w : W) (rest : List Sc) (tl : List Nat) (r : Option X × W) : Prop where
  scopes : r.2.scopes = rest
  stack : r.2.cl.stack = tl
  scopeName : r.2.cl.scopeName = w.cl.scopeName
  curResult : r.2.cl.curResult = w.cl.curResult
  curTest : r.2.cl.curTest = w.cl.curTest
  lastModule : r.2.lastModule = w.lastModule
  lastTest : r.2.lastTest = w.lastTest
  started : r.2.started = w.started
  tests : r.2.tests = w.tests
  startCalled : r.2.startCalled = w.startCalled
  escapes : (s = .test → hk = none) → ∀ x, r.1 = some x → x.kind.escapes = true
  trace : ∃ F R, r.2.trace = w.trace ++ [⟨.closing s, w.cl, w.fx⟩] ++ F ++ R ∧
    (F = [] ∨ ∃ cl, F = [⟨.fixturesDown s, cl, w.fx⟩] ∧ cl.stack = tl ∧ cl.scopeName = w.cl.scopeName) ∧
    (R = [] ∧ r.1 = none ∨ ∃ x, r.1 = some x ∧ R = [⟨.closeRaised s x.kind, r.2.cl, r.2.fx⟩])

theorem pop_match (env : Env) (s : Sc) (hk : Option Kind) (w : W) {rest : List Sc} {u : Nat} {tl : List Nat}
    (hsc : w.scopes = s :: rest) (hs : w.cl.stack = u :: tl) (hn : w.cl.scopeName u = scName s) :
    Popped s hk w rest tl (pop env s hk w) := by
  unfold pop
  rw [hsc]
  simp only [ne_eq, not_true_eq_false, if_false]
  generalize hw1 : emit (.closing s) { w with scopes := rest } = w1
  have hcl1 : w1.cl = w.cl := by rw [← hw1]; rfl
  have htr1 : w1.trace = w.trace ++ [⟨.closing s, w.cl, w.fx⟩] := by rw [← hw1]; rfl
  -- the two parts
  obtain ⟨hf, hf1⟩ := clPop_fields (scName s) hk w1
  obtain ⟨p1, p2, p3, p4, p5⟩ := popScope_match (a := w1.cl) (n := scName s) (hk := hk) (ts := w1.tests) (u := u) (tl := tl) (by rw [hcl1]; exact hs) (by rw [hcl1]; exact hn)
  have hesc : (s = .test → hk = none) → ∀ x, (clPop (scName s) hk w1).1 = some x → x.kind.escapes = true := by
    intro hh x hx
    rw [hf1] at hx
    obtain ⟨e, he, rfl⟩ := Option.map_eq_some_iff.1 hx
    rw [ofExn_kind]
    exact p5 (fun h => hh (by cases s <;> simp_all [scName])) e he
  generalize hcp : clPop (scName s) hk w1 = cp at hf hf1 hesc
  rcases cp with ⟨x1, w2⟩
  simp only at hf hf1 hesc
  have e_sc : w2.scopes = rest := by rw [hf, ← hw1]; rfl
  have e_lm : w2.lastModule = w.lastModule := by rw [hf, ← hw1]; rfl
  have e_lt : w2.lastTest = w.lastTest := by rw [hf, ← hw1]; rfl
  have e_st : w2.started = w.started := by rw [hf, ← hw1]; rfl
  have e_ts : w2.tests = w.tests := by rw [hf, ← hw1]; rfl
  have e_sd : w2.startCalled = w.startCalled := by rw [hf, ← hw1]; rfl
  have e_fx : w2.fx = w.fx := by rw [hf, ← hw1]; rfl
  have e_tr : w2.trace = w.trace ++ [⟨.closing s, w.cl, w.fx⟩] := by rw [hf]; exact htr1
  have e_stack : w2.cl.stack = tl := by rw [hf]; exact p1
  have e_sn : w2.cl.scopeName = w.cl.scopeName := by rw [hf]; exact p2.trans (by rw [hcl1])
  have e_cr : w2.cl.curResult = w.cl.curResult := by rw [hf]; exact p3.trans (by rw [hcl1])
  have e_ct : w2.cl.curTest = w.cl.curTest := by rw [hf]; exact p4.trans (by rw [hcl1])
  -- the fixtures
  have hfp := (fxPop_spec env s w2).1
  have hfe := fun x => fxPop_escapes env s w2 (x := x)
  generalize hfq : fxPop env s w2 = fq at hfp hfe
  rcases fq with ⟨y, w3⟩
  simp only at hfp hfe
  have f_tr : w3.trace = w.trace ++ [⟨.closing s, w.cl, w.fx⟩] ++ [⟨.fixturesDown s, w2.cl, w.fx⟩] := by
    rw [hfp.trace]; simp only [emit]; rw [e_tr, e_fx]
  have mk : ∀ (o : Option X) (w' : W), w'.scopes = rest → w'.cl.stack = tl → w'.cl.scopeName = w.cl.scopeName →
      w'.cl.curResult = w.cl.curResult → w'.cl.curTest = w.cl.curTest → w'.lastModule = w.lastModule → w'.lastTest = w.lastTest →
      w'.started = w.started → w'.tests = w.tests → w'.startCalled = w.startCalled →
      ((s = .test → hk = none) → ∀ x, o = some x → x.kind.escapes = true) →
      (∃ F, w'.trace = w.trace ++ [⟨.closing s, w.cl, w.fx⟩] ++ F ∧
        (F = [] ∨ ∃ cl, F = [⟨.fixturesDown s, cl, w.fx⟩] ∧ cl.stack = tl ∧ cl.scopeName = w.cl.scopeName)) →
      Popped s hk w rest tl (match (o, w') with
        | (some x, w) => (some x, emit (.closeRaised s x.kind) w)
        | (none, w) => (none, w)) := by
    intro o w' a1 a2 a3 a4 a5 a6 a7 a8 a9 a10 a11 ⟨F, hF, hF'⟩
    cases o with
    | none => exact ⟨a1, a2, a3, a4, a5, a6, a7, a8, a9, a10, a11, F, [], by simpa using hF, hF', .inl ⟨rfl, rfl⟩⟩
    | some x =>
      refine ⟨a1, a2, a3, a4, a5, a6, a7, a8, a9, a10, a11, F, _, ?_, hF', .inr ⟨x, rfl, rfl⟩⟩
      simp only [emit]; rw [hF]
  have both : ∀ (o : Option X), ((s = .test → hk = none) → ∀ x, o = some x → x.kind.escapes = true) → Popped s hk w rest tl (match (o, w3) with
        | (some x, w) => (some x, emit (.closeRaised s x.kind) w)
        | (none, w) => (none, w)) := fun o ho =>
    mk o w3 (hfp.scopes.trans e_sc) (hfp.frame.stack.trans e_stack) (hfp.frame.scopeName.trans e_sn) (hfp.frame.curResult.trans e_cr)
      (hfp.frame.curTest.trans e_ct) (hfp.lastModule.trans e_lm) (hfp.lastTest.trans e_lt) (hfp.started.trans e_st)
      (hfp.tests.trans e_ts) (hfp.startCalled.trans e_sd) ho
      ⟨_, f_tr, .inr ⟨w2.cl, rfl, e_stack, e_sn⟩⟩
  have one : ∀ x, x1 = some x → Popped s hk w rest tl (some x, emit (.closeRaised s x.kind) w2) := fun x hx =>
    mk (some x) w2 e_sc e_stack e_sn e_cr e_ct e_lm e_lt e_st e_ts e_sd (by rw [← hx]; exact hesc) ⟨[], by simpa using e_tr, .inl rfl⟩
  unfold callBoth
  rw [hcp]
  cases x1 with
  | none =>
    simp only
    rw [hfq]
    exact both y (fun _ x hx => hfe x hx)
  | some x =>
    simp only
    by_cases hx : x.kind.isException = true
    · rw [if_pos hx, hfq]
      refine both (y.or (some x)) (fun hh x' hx' => ?_)
      cases y with
      | none => exact hesc hh x' hx'
      | some y => exact hfe x' hx'
    · rw [if_neg hx]
      exact one x rfl

end Slash.Whole
