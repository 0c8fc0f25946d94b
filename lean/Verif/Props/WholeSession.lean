import Verif.Lemmas.WholeInterrupt
import Verif.Props.Whole
/-!
# Properties of whole sessions, continued: C102 - C105

The order of what happens in a session, from its first hook to its last (see `Verif.Props.Whole` for the vocabulary).
-/
namespace Slash.Whole

open Slash.Scope (Sc)
open Slash.Cleanup (RKey)

/-! ## C102: the tests are run one after the other -/

/-- What is announced about a test (`runner.py:147,154,173,180,191-200`), and its function being called. -/
inductive Step where
  | avoided | start | body | summary (h : SummaryHook) | fin
deriving DecidableEq, Repr

/-- The test an event is about (`runner.py:147-200`). -/
def step : Ev → Option (Nat × Step)
  | .avoided i => some (i, .avoided)
  | .start i _ => some (i, .start)
  | .body i => some (i, .body)
  | .summary i h => some (i, .summary h)
  | .fin i => some (i, .fin)
  | _ => none

/-- The steps of all tests in a session, in order (`runner.py:22`). -/
def steps (env : Env) (ts : List T) : List (Nat × Step) := (evs env ts).filterMap step

/-- What may happen with one test (`runner.py:90-200`): it is avoided; or it starts, its function is called, a summary is given, it
ends - where the function may be missing, the summary may be missing, and if it does not start it does not end. -/
def Course (l : List Step) : Prop :=
  l = [.avoided] ∨ ∃ core su : List Step, l = core ++ su ++ (if core = [] then [] else [.fin]) ∧
    (core = [] ∨ core = [.start] ∨ core = [.start, .body]) ∧ (su = [] ∨ ∃ h, su = [.summary h])

/-- Steps as events of the runner (`runner.py:147-200`). -/
def toR : Nat × Step → Runner.Ev
  | (i, .avoided) => .avoided i
  | (i, .start) => .hookStart i
  | (i, .body) => .body i
  | (i, .summary h) => .summary i h
  | (i, .fin) => .hookEnd i

theorem toR_inj {a b : Nat × Step} (h : toR a = toR b) : a = b := by
  rcases a with ⟨i, a⟩; rcases b with ⟨j, b⟩
  cases a <;> cases b <;> simp_all [toR]

theorem map_toR_inj {l l' : List (Nat × Step)} (h : l.map toR = l'.map toR) : l = l' := by
  induction l generalizing l' with
  | nil => cases l' <;> simp_all
  | cons a l ih =>
    cases l' with
    | nil => simp at h
    | cons b l' =>
      simp only [List.map_cons, List.cons.injEq] at h
      rw [toR_inj h.1, ih h.2]

theorem seen_steps (env : Env) (ts : List T) : seen (session env ts).2 = (steps env ts).map toR := by
  unfold seen wTrace steps evs
  generalize (session env ts).2.trace = l
  induction l with
  | nil => rfl
  | cons s l ih =>
    rw [List.flatMap_cons, List.filter_append, ih, List.map_cons, List.filterMap_cons]
    rcases s with ⟨e, _, _⟩
    cases e <;> simp [evR, step, toR, notCleanup, List.filter]

theorem course_of {id : Nat} {seg : List Runner.Ev} (h : Piece id seg) : ∃ l : List Step, seg = l.map (fun x => toR (id, x)) ∧ Course l := by
  rcases h with rfl | ⟨core, su, rfl, hc, hs⟩
  · exact ⟨[.avoided], rfl, .inl rfl⟩
  · obtain ⟨su', hsu, hsu'⟩ : ∃ su' : List Step, su = su'.map (fun x => toR (id, x)) ∧ (su' = [] ∨ ∃ h, su' = [.summary h]) := by
      rcases hs with rfl | ⟨h, rfl⟩
      · exact ⟨[], rfl, .inl rfl⟩
      · exact ⟨[.summary h], rfl, .inr ⟨h, rfl⟩⟩
    rcases hc with rfl | rfl | rfl
    · exact ⟨su', by simp [hsu], .inr ⟨[], su', by simp, by simp, hsu'⟩⟩
    · exact ⟨[.start] ++ su' ++ [.fin], by simp [hsu, toR], .inr ⟨[.start], su', by simp, by simp, hsu'⟩⟩
    · exact ⟨[.start, .body] ++ su' ++ [.fin], by simp [hsu, toR], .inr ⟨[.start, .body], su', by simp, by simp, hsu'⟩⟩

/-- Something is recorded in a result: it is not that of a test that was not begun (`core/result.py:147-160`). -/
def Touched (r : Result) : Prop := r.started = true ∨ r.skips ≠ [] ∨ r.errors ≠ [] ∨ r.failures ≠ [] ∨ r.interrupted = true

/-- Something went wrong (`core/result.py:113-139`). -/
def Wrongs (r : Result) : Prop := r.errors ≠ [] ∨ r.failures ≠ [] ∨ r.interrupted = true

/-- **C102.** In a session of different tests, the tests are begun in the given order, each at most once, and what happens for one test is
over before the next one is begun: all that is announced is one course after the other. What is not begun keeps an empty result, what
is begun does not. If the session raises nothing, tests are left out only with `stop_on_error` and if something went wrong. -/
theorem C102_in_order (env : Env) (ts : List T) (hn : (ts.map (·.id)).Nodup) :
    ∃ courses : List (List Step), courses.length ≤ ts.length ∧ (∀ c ∈ courses, Course c) ∧
      steps env ts = (ts.zip courses).flatMap (fun p => p.2.map (fun x => (p.1.id, x))) ∧
      (∀ t ∈ ts.take courses.length, Touched ((session env ts).2.cl.results (.test t.id))) ∧
      (∀ t ∈ ts.drop courses.length, (session env ts).2.cl.results (.test t.id) = {}) ∧
      ((session env ts).1 = none → courses.length < ts.length → env.stop = true ∧
        (Wrongs ((session env ts).2.cl.results .global) ∨ ∃ t ∈ ts.take courses.length, Wrongs ((session env ts).2.cl.results (.test t.id)))) ∧
      ((session env ts).1 = none → (session env ts).2.tests = ts.map (·.id)) := by
  obtain ⟨ps, R, -⟩ := session_facts env ts hn
  have hlen : ps.length ≤ ts.length := by
    have := congrArg List.length R.ids
    simp only [List.length_map, List.length_take] at this; omega
  have hex : ∃ cs : List (List Step), cs.length = ps.length ∧ (∀ c ∈ cs, Course c) ∧
      ∀ (l : List T), l.map (·.id) = ps.map (·.1) → ps.flatMap (·.2) = ((l.zip cs).flatMap (fun p => p.2.map (fun x => (p.1.id, x)))).map toR := by
    have he := R.each
    clear R hlen
    induction ps with
    | nil => exact ⟨[], rfl, by simp, fun l _ => by simp⟩
    | cons p ps ih =>
      obtain ⟨cs, h1, h2, h3⟩ := ih (fun p hp => he p (List.mem_cons_of_mem _ hp))
      obtain ⟨c, hc1, hc2⟩ := course_of (he p (by simp))
      refine ⟨c :: cs, by simp [h1], by simpa using ⟨hc2, h2⟩, fun l hl => ?_⟩
      cases l with
      | nil => simp at hl
      | cons t l =>
        simp only [List.map_cons, List.cons.injEq] at hl
        rw [List.flatMap_cons, h3 l hl.2, hc1, List.zip_cons_cons, List.flatMap_cons, List.map_append, List.map_map]
        congr 1
        apply List.map_congr_left
        intro x _
        simp [hl.1]
  obtain ⟨cs, h1, h2, h3⟩ := hex
  have hz : ∀ (l : List T) (cs : List (List Step)), (l.take cs.length).zip cs = l.zip cs := by
    intro l
    induction l with
    | nil => intro cs; simp
    | cons t l ih => intro cs; cases cs <;> simp [ih]
  have hmem : ∀ t ∈ ts.take cs.length, ∃ p ∈ ps, p.1 = t.id := by
    intro t ht
    have : t.id ∈ ps.map (·.1) := by rw [R.ids]; exact List.mem_map.2 ⟨t, by rw [← h1]; exact ht, rfl⟩
    obtain ⟨p, hp, e⟩ := List.mem_map.1 this
    exact ⟨p, hp, e⟩
  refine ⟨cs, by omega, h2, ?_, fun t ht => ?_, fun t ht => R.new _ fun hid => ?_, fun h hl => ?_, R.tests⟩
  · apply map_toR_inj
    rw [← seen_steps, R.trace, h3 (ts.take ps.length) R.ids.symm, ← h1, hz]
  · obtain ⟨p, hp, e⟩ := hmem t ht
    rw [← e]; exact R.begun p hp
  · rw [R.ids, ← h1] at hid
    have hn' : ((ts.take cs.length).map (·.id) ++ (ts.drop cs.length).map (·.id)).Nodup := by
      rw [← List.map_append, List.take_append_drop]; exact hn
    have hd := List.nodup_append.1 hn'
    exact hd.2.2 _ hid _ (List.mem_map.2 ⟨t, ht, rfl⟩) rfl
  · obtain ⟨g1, g2⟩ := R.stop h (by omega)
    refine ⟨g1, ?_⟩
    rcases g2 with g | ⟨p, hp, g⟩
    · exact .inl g
    · have : p.1 ∈ ps.map (·.1) := List.mem_map.2 ⟨p, hp, rfl⟩
      rw [R.ids, ← h1] at this
      obtain ⟨t, ht, e⟩ := List.mem_map.1 this
      exact .inr ⟨t, ht, by rw [e]; exact g⟩

/-- Three tests, the second one avoided, the third one failing; with a fourth one that is not begun because of `stop_on_error`. -/
example : steps { stop := true } [demoTest 1 0, { id := 2, avoid := 1 }, demoTest 3 1 [] (some .failure), demoTest 4 1] =
      [(1, .start), (1, .body), (1, .summary .success), (1, .fin), (2, .avoided), (3, .start), (3, .body), (3, .summary .failure), (3, .fin)] ∧
    (session { stop := true } [demoTest 1 0, { id := 2, avoid := 1 }, demoTest 3 1 [] (some .failure), demoTest 4 1]).1 = none ∧
    ((session { stop := true } [demoTest 1 0, { id := 2, avoid := 1 }, demoTest 3 1 [] (some .failure), demoTest 4 1]).2.tests) = [1, 2, 3, 4] := by
  decide +kernel

/-! ## C103: stopping on errors -/

/-- The test an event belongs to, if any (`runner.py:109,147-200`). -/
def about : Ev → Option Nat
  | .avoided i | .beginRaised i _ | .start i _ | .body i | .summary i _ | .fin i => some i
  | _ => none

/-- **C103.** With `stop_on_error`: once an error, a failure or an interruption is in a result - of a test or of the session - while test
`i` is the current one, no other test is begun, started or called any more. -/
theorem C103_stop_partial (env : Env) (hs : env.stop = true) (ts : List T) (pre post : List Snap) (s : Snap)
    (h : (session env ts).2.trace = pre ++ s :: post) (i : Nat) (hi : s.cl.curTest = some i)
    (k : RKey) (hk : Wrongs (s.cl.results k)) : ∀ s' ∈ post, ∀ j, about s'.ev = some j → j = i := by
  obtain ⟨a, d, c, P⟩ := parts env ts
  have hc : ∀ s' ∈ c, about s'.ev = none := by
    intro s' hs'
    rcases P.end with rfl | ⟨x, hx, rfl⟩
    · cases hs'
    · simp only [List.mem_singleton] at hs'; subst hs'; rw [hx]; rfl
  have ha : ∀ s' ∈ a, s'.cl.curTest = none := by
    intro s' hs'
    rw [P.start] at hs'
    split at hs'
    · simp only [List.mem_singleton] at hs'; subst hs'
      have := (Cleanup.frame_runActs env.beforeStart.acts initial.cl).curTest
      show (w1 env).cl.curTest = none
      unfold w1
      rw [(user_outcome env.beforeStart initial).2]
      unfold outcome
      split <;> rename_i heq <;> rw [heq] at this <;> exact this
    · cases hs'
  rw [P.trace, List.append_assoc, List.append_eq_append_iff] at h
  rcases h with ⟨e, rfl, h⟩ | ⟨e, rfl, h⟩
  · rw [List.append_eq_append_iff] at h
    rcases h with ⟨e, rfl, h⟩ | ⟨e, rfl, h⟩
    · intro s' hs' j hj
      rw [hc s' (by rw [h]; simp [hs'])] at hj; cases hj
    · rcases e with _ | ⟨x, e⟩
      · intro s' hs' j hj
        rw [List.nil_append] at h
        rw [hc s' (by rw [← h]; simp [hs'])] at hj; cases hj
      · rw [List.cons_append, List.cons.injEq] at h
        obtain ⟨rfl, rfl⟩ := h
        intro s' hs' j hj
        rcases List.mem_append.1 hs' with hs' | hs'
        · have : ∀ e, evId e = about e := fun e => by cases e <;> rfl
          exact P.stops hs _ s e rfl i hi ⟨k, hk⟩ s' hs' j ((this _).trans hj)
        · rw [hc s' hs'] at hj; cases hj
  · rcases e with _ | ⟨x, e⟩
    · intro s' hs' j hj
      rw [List.nil_append] at h
      rcases d with _ | ⟨y, d⟩
      · rw [List.nil_append] at h
        rw [hc s' (by rw [← h]; simp [hs'])] at hj; cases hj
      · rw [List.cons_append, List.cons.injEq] at h
        obtain ⟨rfl, rfl⟩ := h
        rcases List.mem_append.1 hs' with hs' | hs'
        · have : ∀ e, evId e = about e := fun e => by cases e <;> rfl
          exact P.stops hs [] s d rfl i hi ⟨k, hk⟩ s' hs' j ((this _).trans hj)
        · rw [hc s' hs'] at hj; cases hj
    · rw [List.cons_append, List.cons.injEq] at h
      obtain ⟨rfl, -⟩ := h
      rw [ha s (by simp)] at hi; cases hi

/-- The hypotheses are met: a failure of test 1, of a cleanup of its module while test 2 begins, an interruption of the session noted by
a test. -/
example :
    (∃ s ∈ (session { stop := true } [demoTest 1 0 [] (some .failure), demoTest 2 0]).2.trace, s.cl.curTest = some 1 ∧ Wrongs (s.cl.results (.test 1))) ∧
    steps { stop := true } [demoTest 1 0 [] (some .failure), demoTest 2 0] = [(1, .start), (1, .body), (1, .summary .failure), (1, .fin)] ∧
    steps { stop := true } [demoTest 1 0 [.add (.named "module") (demoCb (some .error))], demoTest 2 1, demoTest 3 1] =
      [(1, .start), (1, .body), (1, .summary .success), (1, .fin), (2, .start), (2, .body), (2, .summary .success), (2, .fin)] := by
  refine ⟨?_, by decide +kernel, by decide +kernel⟩
  have : (session { stop := true } [demoTest 1 0 [] (some .failure), demoTest 2 0]).2.trace.any
      (fun s => decide (s.cl.curTest = some 1 ∧ (s.cl.results (.test 1)).failures ≠ [])) = true := by decide +kernel
  obtain ⟨s, hs, h⟩ := List.any_eq_true.1 this
  have h := of_decide_eq_true h
  exact ⟨s, hs, h.1, .inr (.inl h.2)⟩

/-- **C103 is violated** without the hypothesis that a test is the current one: an error noted in the result of the session by a
`session_start` hook does not keep the first test from being run. -/
theorem C103_stop_violated : ¬ ∀ (env : Env) (ts : List T), env.stop = true → ∀ pre s post, (session env ts).2.trace = pre ++ s :: post →
    ∀ k, Wrongs (s.cl.results k) → ∀ s' ∈ post, ∀ j, s'.ev ≠ .body j := by
  intro h
  have hd : (match (session { stop := true, beforeStart := { acts := [.note .error] } } [demoTest 1 0]).2.trace with
      | s :: post => decide ((s.cl.results .global).errors ≠ []) && post.any (fun s' => decide (s'.ev = .body 1))
      | [] => false) = true := by decide +kernel
  have h := h { stop := true, beforeStart := { acts := [.note .error] } } [demoTest 1 0] rfl []
  generalize (session { stop := true, beforeStart := { acts := [.note .error] } } [demoTest 1 0]).2.trace = tr at hd h
  cases tr with
  | nil => cases hd
  | cons s post =>
    simp only [Bool.and_eq_true] at hd
    obtain ⟨s', hs', he⟩ := List.any_eq_true.1 hd.2
    exact h s post rfl .global (.inl (of_decide_eq_true hd.1)) s' hs' 1 (of_decide_eq_true he)

/-! ## C104: the hooks of the session -/

theorem returns_iff (c : Code) (w : W) : (user c w).1 = none ↔ Returns c w.cl := by
  refine ⟨(user_returns c w).1, fun ⟨h1, h2⟩ => ?_⟩
  unfold user
  split <;> rename_i heq
  · rw [heq] at h1; cases h1
  · rw [h2]; rfl

/-- **C104.** `session_start` comes first, unless a hook before it raised; `session_end` comes last, if at all, and only if the hooks before
and those of `session_start` returned; neither happens in between. If the session raises nothing, both happened and all hooks returned. -/
theorem C104_hooks (env : Env) (ts : List T) : ∃ a d c, (session env ts).2.trace = a ++ d ++ c ∧
    (a = [] ∨ ∃ s, s.ev = .sessionStart ∧ a = [s]) ∧ (a = [] ↔ ¬ Returns env.beforeStart initial.cl) ∧
    (c = [] ∨ ∃ s, s.ev = .sessionEnd ∧ c = [s]) ∧ (∀ s ∈ d, s.ev ≠ .sessionStart ∧ s.ev ≠ .sessionEnd) ∧
    (c ≠ [] → a ≠ [] ∧ ∀ s ∈ a, Returns env.sessionStart s.cl) ∧
    ((session env ts).1 = none → a ≠ [] ∧ c ≠ [] ∧ ∀ s ∈ a, Returns env.sessionStart s.cl ∧ Returns env.afterStart (Cleanup.runActs env.sessionStart.acts s.cl).2) ∧
    ((session env ts).1 = none → ∀ s ∈ c, Returns env.sessionEnd s.cl) := by
  obtain ⟨a, d, c, P⟩ := parts env ts
  have hb := returns_iff env.beforeStart initial
  have S := start_facts env
  have hs : ∀ s ∈ a, s = ⟨.sessionStart, (w1 env).cl, (w1 env).fx⟩ := by
    intro s hs; rw [P.start] at hs; split at hs
    · simpa using hs
    · cases hs
  have hh : (hook .sessionStart env.sessionStart (w1 env)).1 = none ↔ Returns env.sessionStart (w1 env).cl :=
    returns_iff env.sessionStart (emit .sessionStart (w1 env))
  have hw2 : (w2 env).cl = (Cleanup.runActs env.sessionStart.acts (w1 env).cl).2 := by
    have := (user_outcome env.sessionStart (emit .sessionStart (w1 env))).2
    show (user env.sessionStart (emit .sessionStart (w1 env))).2.cl = _
    rw [this]
    show (outcome env.sessionStart (w1 env).cl).2 = _
    unfold outcome; split <;> rename_i heq <;> rw [heq]
  have hne : a = [] ↔ ¬ Returns env.beforeStart initial.cl := by
    rw [← hb, P.start]; split <;> simp_all
  refine ⟨a, d, c, P.trace, ?_, hne, P.end, fun s hs => ?_, fun h => ⟨?_, fun s h' => ?_⟩, fun h => ?_, P.ret⟩
  · rw [P.start]; split
    · exact .inr ⟨_, rfl, rfl⟩
    · exact .inl rfl
  · have := P.run s hs
    constructor <;> intro e <;> rw [e] at this <;> cases this
  · rw [ne_eq, hne, Classical.not_not, ← hb]; exact (P.called h).1
  · rw [hs s h']; exact hh.1 (P.called h).2
  · have hq : (startHooks env initial).1 = none := by
      refine Classical.byContradiction fun hc => (P.quiet hc).2 h
    obtain ⟨q1, q2, q3⟩ := S.fst.1 hq
    refine ⟨by rw [ne_eq, hne, Classical.not_not, ← hb]; exact q1, P.ended h, fun s h' => ?_⟩
    rw [hs s h', ← hw2]
    exact ⟨hh.1 q2, (returns_iff env.afterStart { w2 env with startCalled := true }).1 q3⟩

/-- What a piece of user code raises (`core/session.py:123-126`). -/
def raises (c : Code) (cl : Cleanup.St) : Option Kind :=
  match Cleanup.runActs c.acts cl with
  | (some e, _) => some e.kind
  | (none, _) => c.out

/-- What the hooks before the first test raise: the first of them that does (`core/session.py:123-126`). -/
def startRaises (env : Env) : Option Kind :=
  let cl1 := (Cleanup.runActs env.beforeStart.acts initial.cl).2
  let cl2 := (Cleanup.runActs env.sessionStart.acts cl1).2
  (raises env.beforeStart initial.cl).or ((raises env.sessionStart cl1).or (raises env.afterStart cl2))

theorem user_raises (c : Code) (w : W) : user c w = ((raises c w.cl).map (fun k => { kind := k }), { w with cl := (Cleanup.runActs c.acts w.cl).2 }) := by
  unfold user raises
  split <;> rename_i heq <;> simp [heq]

theorem startHooks_raises (env : Env) {k : Kind} (h : startRaises env = some k) :
    ∃ w, w.cl.curTest = none ∧ startHooks env initial = (some { kind := k, handled := true }, record k w) := by
  have hcur : ∀ (c : Code) (cl : Cleanup.St), (Cleanup.runActs c.acts cl).2.curTest = cl.curTest := fun c cl => (Cleanup.frame_runActs c.acts cl).curTest
  have key : ∃ w, w.cl.curTest = none ∧ seq (user env.beforeStart) (seq (hook .sessionStart env.sessionStart)
      (seq (act (fun w => { w with startCalled := true })) (user env.afterStart))) initial = (some { kind := k }, w) := by
    unfold startRaises at h
    simp only at h
    have u1 := user_raises env.beforeStart initial
    cases h1 : raises env.beforeStart initial.cl with
    | some k1 =>
      rw [h1] at h u1
      simp only [Option.some_or, Option.some.injEq] at h
      subst h
      exact ⟨_, hcur env.beforeStart _, by rw [seq_some u1]⟩
    | none =>
      rw [h1] at h u1
      simp only [Option.none_or] at h
      rw [seq_none u1]
      have u2 := user_raises env.sessionStart (emit .sessionStart { initial with cl := (Cleanup.runActs env.beforeStart.acts initial.cl).2 })
      have e2 : ∀ w, hook .sessionStart env.sessionStart w = user env.sessionStart (emit .sessionStart w) := fun _ => rfl
      rw [← e2] at u2
      cases h2 : raises env.sessionStart (Cleanup.runActs env.beforeStart.acts initial.cl).2 with
      | some k2 =>
        rw [h2] at h
        rw [show (emit Ev.sessionStart { initial with cl := (Cleanup.runActs env.beforeStart.acts initial.cl).2 }).cl = (Cleanup.runActs env.beforeStart.acts initial.cl).2 from rfl, h2] at u2
        simp only [Option.some_or, Option.some.injEq] at h
        subst h
        exact ⟨_, (hcur env.sessionStart _).trans (hcur env.beforeStart _), by rw [seq_some u2]⟩
      | none =>
        rw [h2] at h
        rw [show (emit Ev.sessionStart { initial with cl := (Cleanup.runActs env.beforeStart.acts initial.cl).2 }).cl = (Cleanup.runActs env.beforeStart.acts initial.cl).2 from rfl, h2] at u2
        simp only [Option.none_or] at h
        rw [seq_none u2]
        generalize hv : (emit Ev.sessionStart { initial with cl := (Cleanup.runActs env.beforeStart.acts initial.cl).2 }) = v
        have e3 : ∀ w, seq (act (fun w => { w with startCalled := true })) (user env.afterStart) w = user env.afterStart { w with startCalled := true } := fun _ => rfl
        rw [e3, user_raises]
        simp only [h]
        exact ⟨_, (hcur env.afterStart _).trans ((hcur env.sessionStart _).trans (hcur env.beforeStart _)), rfl⟩
  obtain ⟨w, hw, e⟩ := key
  refine ⟨w, hw, ?_⟩
  unfold startHooks handle
  rw [e]
  rfl

/-- **C104.** If a hook raises before the first test is begun, there is no step of any test, the session raises, and - unless it was a
skip - the result of the session is not a success. -/
theorem C104_start_raises (env : Env) (ts : List T) (k : Kind) (h : startRaises env = some k) :
    steps env ts = [] ∧ (session env ts).1 ≠ none ∧ (k ≠ .skip → ((session env ts).2.cl.results .global).isSuccess true = false) := by
  obtain ⟨a, d, c, P⟩ := parts env ts
  obtain ⟨w, hw, e⟩ := startHooks_raises env h
  obtain ⟨rfl, h2⟩ := P.quiet (by rw [e]; simp)
  refine ⟨?_, h2, fun hk => ?_⟩
  · unfold steps evs
    rw [P.trace, List.filterMap_eq_nil_iff]
    intro x hx
    obtain ⟨s, hs, rfl⟩ := List.mem_map.1 hx
    rw [List.append_nil, List.mem_append] at hs
    rcases hs with hs | hs
    · rw [P.start] at hs; split at hs
      · rw [List.mem_singleton.1 hs]; rfl
      · cases hs
    · rcases P.end with rfl | ⟨y, hy, rfl⟩
      · cases hs
      · rw [List.mem_singleton.1 hs, hy]; rfl
  · have hb : Bad ((record k w).cl.results .global) := by
      unfold record
      rw [show w.cl.currentForUpdate = .global by unfold Cleanup.St.currentForUpdate; rw [hw]]
      unfold Cleanup.St.record Cleanup.St.updResult Bad
      cases k <;> simp [Result.addKind, Result.addError, Result.addFailure, Result.markInterrupted] at hk ⊢
    have hr : Reach (record k w).cl (session env ts).2.cl := by
      have := reach_startHooks env ts
      rwa [e] at this
    have := Bad.mono hr.grow hb
    generalize (session env ts).2.cl.results .global = r at this
    unfold Bad at this
    unfold Result.isSuccess
    rcases r with ⟨e, f, sk, st, fi, i⟩
    cases e <;> cases f <;> cases i <;> simp_all

/-- Hooks that raise: before `session_start`, in it, after it; and one of `session_end`. -/
example : evs { beforeStart := { out := some .error } } demo = [] ∧ startRaises { beforeStart := { out := some .error } } = some .error ∧
    evs { sessionStart := { out := some .error } } demo = [.sessionStart] ∧ startRaises { sessionStart := { out := some .error } } = some .error ∧
    evs { afterStart := { out := some .interrupt } } demo = [.sessionStart, .sessionEnd] ∧
    startRaises { afterStart := { out := some .interrupt } } = some .interrupt ∧ startRaises {} = none ∧
    (session { sessionEnd := { out := some .failure } } [demoTest 1 0]).1 = some ⟨.failure, true⟩ ∧ (session {} demo).1 = none := by
  decide +kernel

/-- **C104.** At every moment from `session_start` on the result of the session is marked as started. -/
theorem C104_started (env : Env) (ts : List T) (s : Snap) (hs : s ∈ (session env ts).2.trace) : (s.cl.results .global).started = true := by
  obtain ⟨d, hd, h1, -⟩ := (grow_session env ts).trace
  have he : initial.trace = [] := rfl
  rw [he, List.nil_append] at hd
  rw [hd] at hs
  exact (h1 s hs).1.grow.started _ rfl

/-- The moments of the sample session. -/
example : (session {} demo).2.trace.length = 27 ∧ (initial.cl.results .global).started = true := by decide +kernel

/-- **C104.** The hook `session_interrupt` is called if and only if an interruption left the hooks of the start or the run of the tests: then it is
called in the state they left, before the session ends, and what it raises takes the place of the interruption; otherwise the session ends with the
state they left and raises what they raised, unless its end raises. -/
theorem C104_interrupt_hook (env : Env) (ts : List T) (o : Option X) (w : W) (hb : seq (startHooks env) (runTests env ts) initial = (o, w)) :
    ((∀ x, o = some x → x.kind ≠ .interrupt) → session env ts = (((endSession env w).1.or o), (endSession env w).2)) ∧
    (∀ x, o = some x → x.kind = .interrupt → (session env ts).2 = (endSession env (user env.interrupt w).2).2 ∧
      (session env ts).1 = (endSession env (user env.interrupt w).2).1.or ((user env.interrupt w).1.or (some x))) := by
  unfold session fin onInterrupt
  rw [hb]
  constructor
  · intro h
    cases o with
    | none => rfl
    | some x => simp only [h x rfl, if_false]
  · rintro x rfl hk
    simp only [hk, if_true]
    rcases user env.interrupt w with ⟨_ | y, w'⟩ <;> exact ⟨rfl, rfl⟩

/-- The hook adds an error after a test was interrupted, and is not called in a session that is not interrupted. -/
example : (session { interrupt := { out := some .error } } [{ demoTest 1 0 with body := { out := some .interrupt } }]).1 = some ⟨.error, false⟩ ∧
    (session {} [{ demoTest 1 0 with body := { out := some .interrupt } }]).1.map (·.kind) = some .interrupt ∧
    (session { interrupt := { out := some .error } } demo).1 = none := by decide +kernel

/-! ## C105: an interruption ends the session -/

/-- **C105.** If the function of a test raises an interruption (or any other exception that is not an `Exception`), the session raises, and
no other test is begun or started or called or announced any more. Partial: this is said for the case that the closing of the scope of this test
and its `test_end` hook do not raise an `Exception` of their own. -/
theorem C105_interrupt_partial (env : Env) (ts : List T) (hn : (ts.map (·.id)).Nodup) (pre post : List Snap) (s : Snap)
    (h : (session env ts).2.trace = pre ++ s :: post) (t : T) (ht : t ∈ ts) (hb : s.ev = .body t.id) (k : Kind)
    (hr : raises t.body s.cl = some k) (hk : k.isException = false)
    (hc : ∀ s' ∈ post, ∀ k', s'.ev = .closeRaised .test k' → k'.isException = false)
    (he : ∀ s' ∈ post, s'.ev = .fin t.id → ∀ k', raises t.endHook s'.cl = some k' → k'.isException = false) :
    (session env ts).1 ≠ none ∧ ∀ s' ∈ post, ∀ j, about s'.ev = some j → j = t.id := by
  have hro : ∀ c cl, (outcome c cl).1 = raises c cl := by
    intro c cl; unfold outcome raises; split <;> rename_i heq <;> simp [heq]
  have huniq : ∀ u ∈ ts, u.id = t.id → u = t := by
    intro u hu he
    clear h hb
    induction ts with
    | nil => cases hu
    | cons a ts ih =>
      simp only [List.map_cons, List.nodup_cons] at hn
      rcases List.mem_cons.1 ht with rfl | ht2 <;> rcases List.mem_cons.1 hu with rfl | hu2
      · rfl
      · exact absurd (List.mem_map.2 ⟨u, hu2, he⟩) hn.1
      · exact absurd (List.mem_map.2 ⟨t, ht2, he.symm⟩) hn.1
      · exact ih hn.2 ht2 hu2
  obtain ⟨h1, h2⟩ := session_hit env ts pre post s h ⟨_, hb⟩ (fun u hu he' => by
    have := huniq u hu (by rw [hb] at he'; exact (Ev.body.inj he').symm)
    subst this
    exact ⟨⟨hb, k, by rw [hro]; exact hr, hk⟩, hc, fun s' hs' hf k' hk' => he s' hs' hf k' (by rw [← hro]; exact hk')⟩)
  refine ⟨h1, fun s' hs' j hj => ?_⟩
  have : ∀ e, evId e = about e := fun e => by cases e <;> rfl
  have h3 := h2 s' hs'
  rw [this, this, hb] at h3
  rcases h3 with h | h
  · rw [hj] at h; cases h
  · rw [hj] at h; simpa [about] using h

/-- The hypotheses are met: the first of two tests is interrupted; the scopes are closed and the end of the session is announced. -/
example : evs {} [demoTest 1 0 [] (some .interrupt), demoTest 2 0] =
      [.sessionStart, .start 1 0, .body 1, .closing .test, .fixturesDown .test, .fin 1, .sessionCleanup, .closing .module, .fixturesDown .module,
       .closing .session, .fixturesDown .session, .sessionEnd] ∧
    (session {} [demoTest 1 0 [] (some .interrupt), demoTest 2 0]).1 = some ⟨.interrupt, true⟩ := by decide +kernel

/-- **C105 is violated** without these hypotheses: the interruption of test 1 is replaced by a skip raised by a critical cleanup, by an error
of a `before_test_cleanups` hook, by an error of a `test_end` hook; the session goes on with test 2 and raises nothing. -/
theorem C105_interrupt_violated :
    (.body 2 ∈ evs {} [demoTest 1 0 [.add .implicit (demoCb (some .skip) true)] (some .interrupt), demoTest 2 0] ∧
      (session {} [demoTest 1 0 [.add .implicit (demoCb (some .skip) true)] (some .interrupt), demoTest 2 0]).1 = none) ∧
    (.body 2 ∈ evs {} [{ demoTest 1 0 [] (some .interrupt) with beforeCleanups := some .error }, demoTest 2 0] ∧
      (session {} [{ demoTest 1 0 [] (some .interrupt) with beforeCleanups := some .error }, demoTest 2 0]).1 = none) ∧
    (.body 2 ∈ evs {} [{ demoTest 1 0 [] (some .interrupt) with endHook := { out := some .error } }, demoTest 2 0] ∧
      (session {} [{ demoTest 1 0 [] (some .interrupt) with endHook := { out := some .error } }, demoTest 2 0]).1 = none) := by
  decide +kernel

end Slash.Whole
