import Verif.Lemmas.WholeFx
import Verif.Lemmas.WholeImplicit
import Verif.Props.Whole
/-!
# Properties of whole sessions: C98 - C101

Fixtures and scopes; what happens to a test whose fixtures or function raise; tests that are not to run; registration of cleanups
without a scope. As in `Verif.Props.Whole`, `(session env ts).2.trace` is the list of observable events with the state of their moment.
-/
namespace Slash.Whole

open Slash.Scope (Sc)
open Slash.Cleanup (RKey)

/-! ## C98: a scope takes its fixtures along -/

/-- The fixtures at the first of these events, or else at the end of the session (`core/session.py:112-144`). -/
def fixturesAt (w : W) : List Snap → Fix.St
  | [] => w.fx
  | s :: _ => s.fx

/-- The narrowest scope that outlives this one; fixtures have scope 0 (test), 1 (module) or 2 (session), `core/fixtures/utils.py:87-88`. -/
def outliving : Sc → Nat
  | .test => 1
  | .module => 2
  | .session => 3

theorem not_interrupted {cl : Cleanup.St} (hi : ∀ r, cl.curResult = some r → (cl.results r).interrupted = false) : interrupted cl = false := by
  unfold interrupted
  split
  · rename_i r hc; exact hi r hc
  · rfl

/-- **C98.** From the moment when the fixtures of a scope are torn down to the next event (or the end), exactly the fixtures of this
scope and of narrower ones go - if the current result is not interrupted and nothing is raised out of the closing of the scope. -/
theorem C98_scope_end_partial (env : Env) (ts : List T) (pre post : List Snap) (s : Snap) (sc : Sc)
    (h : (session env ts).2.trace = pre ++ s :: post) (he : s.ev = .fixturesDown sc)
    (hi : ∀ r, s.cl.curResult = some r → (s.cl.results r).interrupted = false)
    (hr : ∀ s' ∈ post.head?, ∀ k, s'.ev ≠ .closeRaised sc k) (a : Fix.Act) :
    a ∈ (fixturesAt (session env ts).2 post).active ↔ a ∈ s.fx.active ∧ outliving sc ≤ (env.defs a.id).scope := by
  have hs : s ∈ (session env ts).2.trace := by rw [h]; simp
  have hb := (snap_reach env ts s hs).2.2.base
  have key : Fix.popScope env.defs (scNum sc) (interrupted s.cl) s.fx = (none, fixturesAt (session env ts).2 post) := by
    cases post with
    | nil =>
      have := (session_J (env := env) (ts := ts)).2.1 s (by rw [h]; simp)
      simp only [he] at this
      exact this.1
    | cons s' post =>
      have := ((session_J (env := env) (ts := ts)).1 (pre ++ [s]) s' post (by rw [h]; simp)).2 s (by simp)
      simp only [Next, he] at this
      obtain ⟨h1, h2, -⟩ := this
      refine Prod.ext ?_ h1.symm
      cases hp : (Fix.popScope env.defs (scNum sc) (interrupted s.cl) s.fx).1 with
      | none => rfl
      | some k =>
        obtain ⟨k', hk⟩ := h2 (by simp [hp])
        exact absurd hk (hr s' (by simp) k')
  rw [not_interrupted hi] at key
  simp only [Fix.popScope, Bool.false_eq_true, if_false] at key
  have := Fix.popScopes_active (scNum sc) s.fx.keys s.fx hb (by rw [key]) a
  rw [key] at this
  simp only at this
  rw [this]
  constructor
  · rintro ⟨h1, h2⟩
    refine ⟨h1, ?_⟩
    have hk := hb.keys a h1
    cases sc <;> simp only [scNum, outliving] at h2 ⊢ <;> grind
  · rintro ⟨h1, h2⟩
    refine ⟨h1, ?_⟩
    cases sc <;> simp only [scNum, outliving] at h2 ⊢ <;> grind

/-- **C98.** Between two events nothing happens to the fixtures, unless the first one is the teardown of fixtures or the start of a
test. -/
theorem C98_nothing_else (env : Env) (ts : List T) (pre post : List Snap) (s s' : Snap)
    (h : (session env ts).2.trace = pre ++ s :: s' :: post) (h1 : ∀ sc, s.ev ≠ .fixturesDown sc) (h2 : ∀ t m, s.ev ≠ .start t m) :
    s'.fx = s.fx := by
  have := ((session_J (env := env) (ts := ts)).1 (pre ++ [s]) s' post (by rw [h]; simp)).2 s (by simp)
  unfold Next at this
  split at this <;> rename_i hev
  · exact absurd hev (h1 _)
  · exact this.1
  · exact absurd hev (h2 _ _)
  · obtain ⟨tt, -, -, e⟩ := this; rw [e]
  · exact this.1

theorem popScope_subset (D : Nat → FG.FDef) (n : Nat) (i : Bool) (st : Fix.St) {a : Fix.Act}
    (h : a ∈ (Fix.popScope D n i st).2.active) : a ∈ st.active := by
  have key : ∀ ks st, a ∈ (Fix.popScopes D n ks st).2.active → a ∈ st.active := by
    intro ks
    induction ks with
    | nil => exact fun st h => h
    | cons k ks ih =>
      intro st h
      simp only [Fix.popScopes] at h
      split at h
      · have h1 := (Fix.popLoop_active ((st.active.filter (fun a => (D a.id).scope == k)).map (·.id)).reverse st).1 a
        split at h <;> rename_i heq <;> rw [heq] at h1
        · exact h1 h
        · exact h1 (ih _ h)
      · exact ih st h
  unfold Fix.popScope at h
  split at h
  · exact h
  · exact key _ _ h

/-- The events of which `Q` holds are kept track of along the trace. -/
theorem along (env : Env) (ts : List T) (Q : Snap → Prop) (H : List Snap → Prop) (hH : ∀ a b, H (a ++ b) → H a)
    (h0 : ∀ s, s.fx.active = [] → Q s)
    (h1 : ∀ pre b s post, (session env ts).2.trace = pre ++ b :: s :: post → H (pre ++ [b, s]) → Q b → Next env ts b s → Q s)
    (pre post : List Snap) (s : Snap) (h : (session env ts).2.trace = pre ++ s :: post) (hh : H (pre ++ [s])) : Q s := by
  induction hn : pre.length generalizing pre s post with
  | zero =>
    have : pre = [] := List.eq_nil_of_length_eq_zero hn
    subst this
    exact h0 s (((session_J (env := env) (ts := ts)).1 [] s post h).1.1 rfl)
  | succ n ih =>
    rcases List.eq_nil_or_concat pre with rfl | ⟨l, b, rfl⟩
    · cases hn
    · have hlen : l.length = n := by simpa using hn
      have e1 : (session env ts).2.trace = l ++ b :: s :: post := by rw [h]; simp
      have hb := ih l (s :: post) b e1 (hH (l ++ [b]) [s] (by simpa using hh)) hlen
      have hnx := ((session_J (env := env) (ts := ts)).1 (l ++ [b]) s post (by rw [h]; simp)).2 b (by simp)
      exact h1 l b s post e1 (by simpa using hh) hb hnx

/-- **C98.** No fixture of a test is active outside of it: at every event but those from the call of its function to the teardown of its
fixtures, all active fixtures are of modules or of the session. This holds as long as no interruption was recorded before fixtures were
torn down and nothing was raised out of the closing of a test scope. -/
theorem C98_test_fixtures_partial (env : Env) (ts : List T) (pre post : List Snap) (s : Snap)
    (h : (session env ts).2.trace = pre ++ s :: post)
    (hi : ∀ b ∈ pre, ∀ sc, b.ev = .fixturesDown sc → ∀ r, b.cl.curResult = some r → (b.cl.results r).interrupted = false)
    (hr : ∀ b ∈ pre ++ [s], ∀ k, b.ev ≠ .closeRaised .test k)
    (h1 : ∀ t, s.ev ≠ .body t) (h2 : s.ev ≠ .closing .test) (h3 : s.ev ≠ .fixturesDown .test) :
    ∀ a ∈ s.fx.active, 1 ≤ (env.defs a.id).scope := by
  have key := along env ts
    (fun s => (∃ t, s.ev = .body t) ∨ s.ev = .closing .test ∨ s.ev = .fixturesDown .test ∨ ∀ a ∈ s.fx.active, 1 ≤ (env.defs a.id).scope)
    (fun l => (∀ b ∈ l.dropLast, ∀ sc, b.ev = .fixturesDown sc → ∀ r, b.cl.curResult = some r → (b.cl.results r).interrupted = false) ∧
      ∀ b ∈ l, ∀ k, b.ev ≠ .closeRaised .test k)
    ?_ ?_ ?_ pre post s h ⟨by simpa using hi, hr⟩
  · rcases key with ⟨t, e⟩ | e | e | e
    · exact absurd e (h1 t)
    · exact absurd e h2
    · exact absurd e h3
    · exact e
  · rintro a b ⟨ha, hb⟩
    refine ⟨fun x hx => ha x ?_, fun x hx => hb x (List.mem_append_left _ hx)⟩
    cases b with
    | nil => simpa using hx
    | cons y b => rw [List.dropLast_append_of_ne_nil (by simp)]; exact List.mem_append_left _ ((List.dropLast_subset _ hx))
  · intro s hs
    exact .inr (.inr (.inr (by rw [hs]; simp)))
  · rintro pre b s post hp ⟨hi, hr⟩ hb hn
    have hn0 := hn
    unfold Next at hn
    split at hn <;> rename_i hev
    · rename_i sc
      -- the fixtures of a scope are gone
      by_cases hc : ∃ k, s.ev = .closeRaised sc k
      · obtain ⟨k, hc⟩ := hc
        cases sc with
        | test => exact absurd hc (hr s (by simp) k)
        | module =>
          -- fewer fixtures than before
          rcases hb with ⟨t, e⟩ | e | e | e
          · rw [hev] at e; cases e
          · rw [hev] at e; cases e
          · rw [hev] at e; cases e
          · refine .inr (.inr (.inr (fun a ha => e a ?_)))
            rw [hn.1] at ha
            exact popScope_subset _ _ _ _ ha
        | session =>
          rcases hb with ⟨t, e⟩ | e | e | e
          · rw [hev] at e; cases e
          · rw [hev] at e; cases e
          · rw [hev] at e; cases e
          · refine .inr (.inr (.inr (fun a ha => e a ?_)))
            rw [hn.1] at ha
            exact popScope_subset _ _ _ _ ha
      · have := C98_scope_end_partial env ts pre (s :: post) b sc hp hev (hi b (by simp) sc hev)
          (fun s' hs' k hk => hc ⟨k, by cases hs'; exact hk⟩)
        refine .inr (.inr (.inr (fun a ha => ?_)))
        have h4 := ((this a).1 ha).2
        cases sc <;> simp only [outliving] at h4 <;> omega
    · rename_i sc
      rcases hn.2 with ⟨e, -⟩ | ⟨k, -, e⟩
      · cases sc with
        | test => exact .inr (.inr (.inl e))
        | module =>
          rcases hb with ⟨t, e'⟩ | e' | e' | e'
          · rw [hev] at e'; cases e'
          · rw [hev] at e'; cases e'
          · rw [hev] at e'; cases e'
          · exact .inr (.inr (.inr (by rw [hn.1]; exact e')))
        | session =>
          rcases hb with ⟨t, e'⟩ | e' | e' | e'
          · rw [hev] at e'; cases e'
          · rw [hev] at e'; cases e'
          · rw [hev] at e'; cases e'
          · exact .inr (.inr (.inr (by rw [hn.1]; exact e')))
      · rcases hb with ⟨t, e'⟩ | e' | e' | e'
        · rw [hev] at e'; cases e'
        · rw [hev] at e'
          cases e'
          exact absurd e (hr s (by simp) k)
        · rw [hev] at e'; cases e'
        · exact .inr (.inr (.inr (by rw [hn.1]; exact e')))
    · obtain ⟨tt, -, -, -, -, h4⟩ := hn
      rcases h4 with ⟨k, -, e⟩ | ⟨-, k, -, e⟩ | ⟨-, vs, -, e⟩ <;> rw [e]
      · exact .inr (.inl rfl)
      · exact .inr (.inl rfl)
      · exact .inl ⟨_, rfl⟩
    · obtain ⟨tt, -, -, e⟩ := hn
      rw [e]; exact .inr (.inl rfl)
    · rename_i hnf hnc hns
      rcases hb with ⟨t, e'⟩ | e' | e' | e'
      · exact absurd e' (hev t)
      · exact absurd e' (hnc _)
      · exact absurd e' (hnf _)
      · exact .inr (.inr (.inr (by rw [hn.1]; exact e')))

/-- **C98.** When the end of the session is announced no fixture is active: all were torn down. This holds unless an interruption was
recorded before fixtures were torn down, something was raised out of the closing of a scope, or a skip out of the cleanups of a module
prevented a test from beginning. -/
theorem C98_none_left_partial (env : Env) (ts : List T) (pre post : List Snap) (s : Snap)
    (h : (session env ts).2.trace = pre ++ s :: post) (he : s.ev = .sessionEnd) (hsc : ∀ f, (env.defs f).scope ≤ 2)
    (hi : ∀ b ∈ (session env ts).2.trace, ∀ sc, b.ev = .fixturesDown sc → ∀ r, b.cl.curResult = some r → (b.cl.results r).interrupted = false)
    (hr : ∀ b ∈ (session env ts).2.trace, ∀ sc k, b.ev ≠ .closeRaised sc k)
    (hc : ∀ b ∈ (session env ts).2.trace, ∀ t, b.ev ≠ .beginRaised t .skip) : s.fx.active = [] := by
  have hs : s ∈ (session env ts).2.trace := by rw [h]; simp
  have key := along env ts
    (fun s => ∀ a ∈ s.fx.active, (∃ n ∈ names s.cl, n ≠ "session-global" ∧ ∀ sc, n = scName sc → (env.defs a.id).scope ≤ scNum sc) ∨
      ∃ sc, s.ev = .fixturesDown sc ∧ (env.defs a.id).scope ≤ scNum sc)
    (fun _ => True) (fun _ _ _ => trivial) ?_ ?_ pre post s h trivial
  · have hst := (C89_all_done_partial env ts s.cl (.inr ⟨s, hs, he, rfl⟩) hc (fun b hb sc k hk => absurd hk (hr b hb sc k))).1
    cases hact : s.fx.active with
    | nil => rfl
    | cons a l =>
      rcases key a (by rw [hact]; simp) with ⟨n, hn, -⟩ | ⟨sc, e, -⟩
      · simp [names, hst] at hn
      · rw [he] at e; cases e
  · intro s hs a ha; rw [hs] at ha; cases ha
  · intro pre b s post hp _ hb hn a ha
    have hmem : ∀ x ∈ pre ++ [b, s], x ∈ (session env ts).2.trace := by intro x hx; rw [hp]; simp at hx ⊢; grind
    have hsub : ∀ cl, Sub b.cl cl → (∃ n ∈ names b.cl, n ≠ "session-global" ∧ ∀ sc, n = scName sc → (env.defs a.id).scope ≤ scNum sc) →
        ∃ n ∈ names cl, n ≠ "session-global" ∧ ∀ sc, n = scName sc → (env.defs a.id).scope ≤ scNum sc := by
      rintro cl hsb ⟨n, h1, h2, h3⟩
      rcases hsb n h1 with h4 | h4
      · exact ⟨n, h4, h2, h3⟩
      · exact absurd h4 h2
    unfold Next at hn
    split at hn <;> rename_i hev
    · rename_i sc
      have h1 := (C98_scope_end_partial env ts pre (s :: post) b sc hp hev (hi b (hmem b (by simp)) sc hev)
        (fun s' hs' k => by cases hs'; exact hr s (hmem s (by simp)) sc k) a).1 ha
      rcases hb a h1.1 with h2 | ⟨sc', e, h2⟩
      · exact .inl (hsub _ hn.2.2 h2)
      · rw [hev] at e
        cases e
        have h3 := h1.2
        cases sc <;> simp only [outliving, scNum] at h2 h3 <;> omega
    · rename_i sc
      rw [hn.1] at ha
      rcases hn.2 with ⟨e, h1⟩ | ⟨k, -, e⟩
      · rcases hb a ha with ⟨n, h2, h3, h4⟩ | ⟨sc', e', -⟩
        · rcases h1 n h2 with h5 | h5
          · exact .inl ⟨n, h5, h3, h4⟩
          · exact .inr ⟨sc, e, h4 sc h5⟩
        · rw [hev] at e'; cases e'
      · exact absurd e (hr s (hmem s (by simp)) sc k)
    · rename_i t m
      have h1 := C86_scopes_partial env ts pre (s :: post) b hp (.inl ⟨t, m, hev⟩) (fun x hx => hc x (hmem x (by simp [hx])))
      have h2 : "session" ∈ names b.cl := by unfold names; rw [h1]; simp
      have h3 : Sub b.cl s.cl := by
        obtain ⟨tt, -, -, -, -, h4⟩ := hn
        rcases h4 with ⟨k, -, e⟩ | ⟨-, k, -, e⟩ | ⟨-, vs, -, e⟩ <;> rw [e]
        · exact sub_outcome _ _
        · exact (sub_outcome tt.startHook b.cl).trans (sub_noted (some (fixKind k), (outcome tt.startHook b.cl).2))
        · exact sub_outcome _ _
      rcases h3 _ h2 with h4 | h4
      · refine .inl ⟨"session", h4, by decide, fun sc hsc' => ?_⟩
        cases sc with
        | session => exact hsc _
        | module => exact absurd hsc' (by decide)
        | test => exact absurd hsc' (by decide)
      · exact absurd h4 (by decide)
    · obtain ⟨tt, -, -, e⟩ := hn
      rw [e] at ha ⊢
      rcases hb a ha with h2 | ⟨sc', e', -⟩
      · exact .inl (hsub _ ((sub_outcome tt.body b.cl).trans (sub_noted _)) h2)
      · rw [hev] at e'; cases e'
    · rename_i hnf hnc hns
      rw [hn.1] at ha
      rcases hb a ha with h2 | ⟨sc', e', -⟩
      · exact .inl (hsub _ hn.2 h2)
      · exact absurd e' (hnf _)

/-- Fixtures 0 of the session, 1 of modules, 2 of tests, each needs the one before (`fixture_store.py:321-349`). -/
def demoScopes : Env :=
  { defs := fun f => if f = 0 then { scope := 2 } else if f = 1 then { scope := 1, needs := [0] } else { needs := [1] },
    fixture := fun f _ => { cleanups := [{ tag := f }] }, fuel := 9 }

/-- Two modules: the active fixtures at each event. -/
example : ((session demoScopes [{ id := 1, module := 0, fixtures := [2] }, { id := 2, module := 1, fixtures := [2] }]).2.trace.map
      (fun s => (s.ev, s.fx.active.map (·.id)))) =
    [(.sessionStart, []),
     (.start 1 0, []), (.body 1, [0, 1, 2]), (.closing .test, [0, 1, 2]), (.fixturesDown .test, [0, 1, 2]), (.summary 1 .success, [0, 1]), (.fin 1, [0, 1]),
     (.closing .module, [0, 1]), (.fixturesDown .module, [0, 1]),
     (.start 2 1, [0]), (.body 2, [0, 1, 2]), (.closing .test, [0, 1, 2]), (.fixturesDown .test, [0, 1, 2]), (.summary 2 .success, [0, 1]), (.fin 2, [0, 1]),
     (.sessionCleanup, [0, 1]), (.closing .module, [0, 1]), (.fixturesDown .module, [0, 1]), (.closing .session, [0]), (.fixturesDown .session, [0]),
     (.sessionEnd, [])] := by decide +kernel

/-- **C98 is violated** after an interruption: the function of the test is interrupted, and its fixture is still active and its cleanup
was not called when the end of the session is announced. -/
theorem C98_interrupted_violated :
    ((session demoScopes [{ id := 1, fixtures := [2], body := { out := some .interrupt } }]).2.trace.filterMap
      (fun s => if s.ev = .sessionEnd then some (s.fx.active.map (·.id), s.fx.trace) else none)) =
    [([0, 1, 2], [.call 0 0 [], .call 1 1 [0], .call 2 2 [1]])] := by decide +kernel

/-- **C98 is violated** if the cleanup of a fixture raises a skip: the fixtures activated before it are not torn down with the test. -/
theorem C98_skip_violated :
    ((session { defs := fun _ => {}, fixture := fun f _ => if f = 1 then { cleanups := [{ tag := 1, raises := some .skip }] } else {}, fuel := 9 }
        [{ id := 1, fixtures := [0, 1] }]).2.trace.filterMap
      (fun s => match s.ev with | .summary _ _ => some (s.fx.active.map (·.id)) | _ => none)) = [[0]] := by decide +kernel

/-! ## C99: exceptions of fixtures and of the function of a test -/

theorem outcome_eq (c : Code) (cl : Cleanup.St) :
    outcome c cl = (((Cleanup.runActs c.acts cl).1.map (·.kind)).or c.out, (Cleanup.runActs c.acts cl).2) := by
  unfold outcome
  split <;> rename_i heq <;> rw [heq] <;> rfl

theorem noted_result {t : Nat} {cl : Cleanup.St} (hc : cl.curTest = some t) (k : Kind) :
    (noted (some k, cl)).results (.test t) = (cl.results (.test t)).addKind k := by
  simp only [noted, Cleanup.St.currentForUpdate, hc, Cleanup.St.record]
  split <;> simp [Cleanup.St.updResult]

theorem outcome_curTest (c : Code) (cl : Cleanup.St) : (outcome c cl).2.curTest = cl.curTest := by
  rw [outcome_eq]; exact (Cleanup.frame_runActs c.acts cl).curTest

/-- **C99.** What follows the announcement of the start of test `t`. If the hook raises, the test scope is closed at once. If it
returns, the fixtures are computed; if that raises, the function is not called: the test scope is closed at once, and the exception was
added to the result of `t` - a cycle of fixtures counts as an error. Otherwise the function is called. -/
theorem C99_start (env : Env) (ts : List T) (pre post : List Snap) (s : Snap) (t m : Nat)
    (h : (session env ts).2.trace = pre ++ s :: post) (he : s.ev = .start t m) :
    ∃ tt ∈ ts, tt.id = t ∧ tt.module = m ∧ ∃ s' post', post = s' :: post' ∧
      (((Cleanup.runActs tt.startHook.acts s.cl).1 ≠ none ∨ tt.startHook.out ≠ none) → s'.ev = .closing .test ∧ s'.fx = s.fx) ∧
      ((Cleanup.runActs tt.startHook.acts s.cl).1 = none → tt.startHook.out = none →
        match Fix.setup { defs := env.defs, params := env.params, var := tt.var, body := env.fixture } env.fuel tt.fixtures s.fx with
        | (.ok _, fx) => s'.ev = .body t ∧ s'.fx = fx ∧ s'.cl = (Cleanup.runActs tt.startHook.acts s.cl).2
        | (.error e, fx) => s'.ev = .closing .test ∧ s'.fx = fx ∧
            s'.cl.results (.test t) = ((Cleanup.runActs tt.startHook.acts s.cl).2.results (.test t)).addKind
              (match e with | .cyclic => .error | .assertion => .failure | .user k => k)) := by
  have hs : s ∈ (session env ts).2.trace := by rw [h]; simp
  have hct := (C86_start env ts s hs t m he).1
  cases post with
  | nil =>
    have := (session_J (env := env) (ts := ts)).2.1 s (by rw [h]; simp)
    simp only [he] at this
  | cons s' post' =>
    have hn := ((session_J (env := env) (ts := ts)).1 (pre ++ [s]) s' post' (by rw [h]; simp)).2 s (by simp)
    simp only [Next, he] at hn
    obtain ⟨tt, hm, h1, h2, -, h3⟩ := hn
    refine ⟨tt, hm, h1, h2, s', post', rfl, ?_⟩
    have hoc : (outcome tt.startHook s.cl).2.curTest = some t := (outcome_curTest _ _).trans hct
    have hor : ∀ {a b : Option Kind}, a.or b = none → a = none ∧ b = none := by intro a b; cases a <;> simp
    rcases h3 with ⟨k, h3, e⟩ | ⟨h3, k, h4, e⟩ | ⟨h3, vs, h4, e⟩
    · refine ⟨fun _ => by rw [e]; exact ⟨rfl, rfl⟩, fun h5 h6 => ?_⟩
      rw [outcome_eq] at h3
      simp only [h5, h6] at h3
      cases h3
    · have h5 := h3
      rw [outcome_eq] at h5
      obtain ⟨h5, h6⟩ := hor h5
      rw [Option.map_eq_none_iff] at h5
      refine ⟨fun h => by rcases h with h | h; exact absurd h5 h; exact absurd h6 h, fun _ _ => ?_⟩
      have e4 : Fix.setup { defs := env.defs, params := env.params, var := tt.var, body := env.fixture } env.fuel tt.fixtures s.fx =
          (.error k, s'.fx) := Prod.ext h4 (by rw [e]; rfl)
      rw [e4]
      refine ⟨by rw [e], rfl, ?_⟩
      rw [e]
      have := noted_result hoc (fixKind k)
      simp only
      rw [this, outcome_eq]
      cases k <;> rfl
    · have h5 := h3
      rw [outcome_eq] at h5
      obtain ⟨h5, h6⟩ := hor h5
      rw [Option.map_eq_none_iff] at h5
      refine ⟨fun h => by rcases h with h | h; exact absurd h5 h; exact absurd h6 h, fun _ _ => ?_⟩
      have e4 : Fix.setup { defs := env.defs, params := env.params, var := tt.var, body := env.fixture } env.fuel tt.fixtures s.fx =
          (.ok vs, s'.fx) := Prod.ext h4 (by rw [e]; rfl)
      rw [e4]
      exact ⟨by rw [e], rfl, by rw [e, outcome_eq]⟩

/-- **C99.** The function of test `t` is called: when it ended, the test scope is closed, and if it raised (or one of its calls of the API
did), this exception, and nothing else, was added to the result of `t`. -/
theorem C99_body (env : Env) (ts : List T) (pre post : List Snap) (s : Snap) (t : Nat)
    (h : (session env ts).2.trace = pre ++ s :: post) (he : s.ev = .body t) :
    ∃ tt ∈ ts, tt.id = t ∧ ∃ s' post', post = s' :: post' ∧ s'.ev = .closing .test ∧ s'.fx = s.fx ∧
      s'.cl.results (.test t) =
        match ((Cleanup.runActs tt.body.acts s.cl).1.map (·.kind)).or tt.body.out with
        | none => (Cleanup.runActs tt.body.acts s.cl).2.results (.test t)
        | some k => ((Cleanup.runActs tt.body.acts s.cl).2.results (.test t)).addKind k := by
  have hs : s ∈ (session env ts).2.trace := by rw [h]; simp
  have hct := (C86_body env ts s hs t he).1
  cases post with
  | nil =>
    have := (session_J (env := env) (ts := ts)).2.1 s (by rw [h]; simp)
    simp only [he] at this
  | cons s' post' =>
    have hn := ((session_J (env := env) (ts := ts)).1 (pre ++ [s]) s' post' (by rw [h]; simp)).2 s (by simp)
    simp only [Next, he] at hn
    obtain ⟨tt, hm, h1, e⟩ := hn
    refine ⟨tt, hm, h1, s', post', rfl, by rw [e], by rw [e], ?_⟩
    have hoc : (outcome tt.body s.cl).2.curTest = some t := (outcome_curTest _ _).trans hct
    have heq := outcome_eq tt.body s.cl
    rw [e]
    simp only
    generalize outcome tt.body s.cl = o at hoc heq
    rcases o with ⟨k, cl⟩
    cases heq
    generalize ((Cleanup.runActs tt.body.acts s.cl).1.map (·.kind)).or tt.body.out = k at hoc ⊢
    cases k with
    | none => rfl
    | some k => exact noted_result hoc k

/-- **C99.** The function of a test is called only right after its start was announced. -/
theorem C99_body_after_start (env : Env) (ts : List T) (pre post : List Snap) (s : Snap) (t : Nat)
    (h : (session env ts).2.trace = pre ++ s :: post) (he : s.ev = .body t) :
    ∃ pre' b m, pre = pre' ++ [b] ∧ b.ev = .start t m := by
  have := ((session_J (env := env) (ts := ts)).1 pre s post h).1.2
  simp only [he] at this
  obtain ⟨b, m, h1, h2⟩ := this
  obtain ⟨pre', h3⟩ := List.getLast?_eq_some_iff.1 h1
  exact ⟨pre', b, m, h3, h2⟩

/-- A cycle, a fixture that skips, a function that fails: events, and how many errors, failures, skips the result of the test has. -/
example : (([({ defs := fun _ => { needs := [0] }, fuel := 9 }, { id := 1, fixtures := [0] }),
      ({ fixture := fun _ _ => { raises := some .skip }, fuel := 9 }, { id := 1, fixtures := [0] }),
      ({}, { id := 1, body := { out := some .failure } })] : List (Env × T)).map (fun (env, t) =>
        (session env [t]).2.trace.filterMap (fun s => match s.ev with
          | .start _ _ | .body _ | .closing .test | .summary _ _ => some (s.ev, (s.cl.results (.test 1)).errors.length, (s.cl.results (.test 1)).failures.length,
              (s.cl.results (.test 1)).skips.length)
          | _ => none))) =
    [[(.start 1 0, 0, 0, 0), (.closing .test, 1, 0, 0), (.summary 1 .error, 1, 0, 0)],
     [(.start 1 0, 0, 0, 0), (.closing .test, 0, 0, 1), (.summary 1 .skip, 0, 0, 1)],
     [(.start 1 0, 0, 0, 0), (.body 1, 0, 0, 0), (.closing .test, 0, 1, 0), (.summary 1 .failure, 0, 1, 0)]] := by decide +kernel

/-! ## C100: tests that are not to run -/

/-- **C100.** A test with a reason not to run (an unmet requirement or an exclusion) is never started and its function never called; a
test without is never announced as avoided. -/
theorem C100_avoided (env : Env) (ts : List T) (hu : (ts.map (·.id)).Nodup) (tt : T) (ht : tt ∈ ts) (s : Snap)
    (hs : s ∈ (session env ts).2.trace) :
    (tt.avoid ≠ 0 → (∀ m, s.ev ≠ .start tt.id m) ∧ s.ev ≠ .body tt.id) ∧ (tt.avoid = 0 → s.ev ≠ .avoided tt.id) := by
  have uniq : ∀ t' ∈ ts, t'.id = tt.id → t' = tt := by
    intro t' h1 h2
    have := List.pairwise_map.1 hu
    exact Classical.byContradiction (fun hne => by
      rcases List.append_of_mem ht with ⟨l1, l2, rfl⟩
      rw [List.pairwise_append, List.pairwise_cons] at this
      rcases List.mem_append.1 h1 with h3 | h3
      · exact this.2.2 t' h3 tt (by simp) h2
      · rcases List.mem_cons.1 h3 with h3 | h3
        · exact hne h3
        · exact this.2.1.1 t' h3 h2.symm)
  obtain ⟨pre, post, h⟩ := List.append_of_mem hs
  have start : ∀ pre s post, (session env ts).2.trace = pre ++ s :: post → ∀ m, s.ev = .start tt.id m → tt.avoid = 0 := by
    intro pre s post h m he
    have := ((session_J (env := env) (ts := ts)).1 pre s post h).1.2
    simp only [he] at this
    obtain ⟨t', h1, h2, -, h3⟩ := this
    rw [← uniq t' h1 h2]; exact h3
  refine ⟨fun ha => ⟨fun m he => ha (start pre s post h m he), fun he => ?_⟩, fun ha he => ?_⟩
  · obtain ⟨pre', b, m, h1, h2⟩ := C99_body_after_start env ts pre post s tt.id h he
    exact ha (start pre' b (s :: post) (by rw [h, h1]; simp) m h2)
  · have := ((session_J (env := env) (ts := ts)).1 pre s post h).1.2
    simp only [he] at this
    obtain ⟨t', h1, h2, h3⟩ := this
    rw [uniq t' h1 h2] at h3; exact h3 ha

example : evs {} [{ id := 1, avoid := 1 }, { id := 2 }] =
    [.sessionStart, .avoided 1, .start 2 0, .body 2, .closing .test, .fixturesDown .test, .summary 2 .success, .fin 2,
     .sessionCleanup, .closing .module, .fixturesDown .module, .closing .session, .fixturesDown .session, .sessionEnd] := by decide +kernel

/-! ## C101: cleanups without a scope -/

/-- **C101.** While the end of a test is announced, a cleanup registered without naming a scope is refused: its test scope is closed, and
it would land on the scope of the module or of the session. At every other event it is accepted. -/
theorem C101_implicit (env : Env) (ts : List T) (s : Snap) (hs : s ∈ (session env ts).2.trace) (cb : Cleanup.Cb)
    (hf : ¬ (cb.critical = true ∧ cb.successOnly = true)) :
    ((∃ t, s.ev = .fin t) → Cleanup.addCleanup .implicit cb s.cl = (some .cannotAdd, s.cl)) ∧
    ((∀ t, s.ev ≠ .fin t) → (Cleanup.addCleanup .implicit cb s.cl).1 = none) := by
  have h1 := (imp_session env ts).2 s hs
  have h2 := Cleanup.C04_implicit_registration s.cl cb hf
  refine ⟨fun ⟨t, ht⟩ => h2.1 ?_, fun hn => (h2.2 (h1.2 hn)).1⟩
  cases ha : s.cl.allowImplicit with
  | false => rfl
  | true => exact absurd ht (h1.1 ha t)

/-- **C101.** Also after the session it is accepted again. -/
theorem C101_after (env : Env) (ts : List T) (cb : Cleanup.Cb) (hf : ¬ (cb.critical = true ∧ cb.successOnly = true)) :
    (Cleanup.addCleanup .implicit cb (session env ts).2.cl).1 = none :=
  ((Cleanup.C04_implicit_registration _ cb hf).2 (imp_session env ts).1).1

/-- A hook for the end of a test registers a cleanup: refused, and the session has an error; one that names a scope is accepted. -/
example : ((session {} [{ id := 1, endHook := { acts := [.add .implicit (demoCb)] } }]).2.cl.results (.test 1)).errors.length = 1 ∧
    .added 0 false false (some (.test 1)) ∉ (session {} [{ id := 1, endHook := { acts := [.add .implicit (demoCb)] } }]).2.cl.log ∧
    .placed 0 1 ∈ (session {} [{ id := 1, endHook := { acts := [.add (.named "session") (demoCb)] } }]).2.cl.log := by decide +kernel

end Slash.Whole
