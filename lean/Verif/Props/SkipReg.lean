import Verif.Lemmas.SkipReg
/-!
# C180: exception types registered as skips

"Registers a custom exception type to be recognized a test skip. This makes the exception behave just as if the test called
`skip_test`" (`slash.register_skip_exception`).
-/
namespace Slash.SkipReg

open Slash.Exc

variable {T : Type}

/-- Exception classes for the examples: `BaseException`, `Exception`, `KeyboardInterrupt`, `GeneratorExit`, `AssertionError`,
`SkipTest`, a user's `NotSupported(Exception)`, its subclass, and a user's `NotReady(AssertionError)`. -/
inductive C where
  | base | exception | keyboard | genExit | assertion | skipTest | notSupported | noDisk | notReady
deriving DecidableEq

/-- The classes above `c`, itself included. -/
def C.mro : C → List C
  | .base => [.base]
  | .exception => [.exception, .base]
  | .keyboard => [.keyboard, .base]
  | .genExit => [.genExit, .base]
  | .assertion => [.assertion, .exception, .base]
  | .skipTest => [.skipTest, .exception, .base]
  | .notSupported => [.notSupported, .exception, .base]
  | .noDisk => [.noDisk, .notSupported, .exception, .base]
  | .notReady => [.notReady, .assertion, .exception, .base]

/-- A session whose exception hooks do nothing. -/
def demo : Env C :=
  { H := { isa := fun c d => c.mro.contains d, exception := .exception, genExit := .genExit, failureTypes := [.assertion],
           skipTypes := [], interruptTypes := [.keyboard], notCaught := .assertion }
    hasSession := true, beforeRaises := fun _ => none, afterRaises := fun _ => none }

/-- The kinds of the entries of each test. -/
def kinds (r : List (List Ev)) : List (List Entry) :=
  r.map (fun l => l.filterMap (fun | .entry _ k => some k | _ => none))

/-- **C180.** From the moment on when a class is registered, exceptions of this class behave as if they were `SkipTest`: if in some
tests of the session - in any place, within any nesting of contexts, `try`s and registrations - some exceptions of the class are
replaced by ones of another class that is a skip, everything recorded and all hooks called stay the same, and so does what ends the
loop over the tests. The exceptions are of classes that do not count as failures (otherwise the claim is violated, see below), and
neither `except` clauses of the tests nor the hooks called for exceptions tell the classes apart. -/
theorem C180_same_partial {E : Env T} {c k : T} {f : Exc T → Exc T} (hf : Turns c k f)
    (hc : E.H.failureTypes.any (E.H.isa c) = false) (hk : E.H.failureTypes.any (E.H.isa k) = false) (hs : E.hasSession = true)
    (hb : ∀ e, E.beforeRaises (f e) = (E.beforeRaises e).map f) (ha : ∀ e, E.afterRaises (f e) = (E.afterRaises e).map f)
    (ts : List (Test T)) (hts : ∀ t ∈ ts, t.Blind E.H c k) (s : S T)
    (hsc : s.skip.any (E.H.isa c) = true) (hsk : s.skip.any (E.H.isa k) = true) (hi : s.st.ignored = []) :
    runTests E (ts.map (Test.map f)) s = ((runTests E ts s).1, (runTests E ts s).2.1.map f, (runTests E ts s).2.2) := by
  induction ts generalizing s with
  | nil => rfl
  | cons t ts ih =>
    have e1 := eval_turns hf hc hk hs hb ha t.prog (Test.prog_blind (hts t (by simp)))
      { s with st := { s.st with trace := [] }, started := false } hsc hsk (by simp [hi])
    have e2 := eval_grows E t.prog { s with st := { s.st with trace := [] }, started := false }
    have e3 := eval_ignored E t.prog { s with st := { s.st with trace := [] }, started := false }
    simp only [List.map_cons, runTests, Test.map_prog, e1]
    rcases hh : eval E t.prog { s with st := { s.st with trace := [] }, started := false } with ⟨_ | e, s1⟩ <;> rw [hh] at e2 e3
    · simp only [Option.map_none, ih (fun t ht => hts t (by simp [ht])) s1 (any_mono e2 hsc) (any_mono e2 hsk) (e3.trans hi)]
    · rfl

/-- Replaces exceptions of `NotSupported` by `SkipTest`. -/
def demoTurn (e : Exc C) : Exc C := if e.cls = .notSupported then { e with cls := .skipTest } else e

theorem demoTurn_turns : Turns .notSupported .skipTest demoTurn := by
  intro e
  unfold demoTurn
  by_cases h : e.cls = .notSupported
  · rw [if_pos h]; exact ⟨rfl, .inr ⟨h, rfl⟩⟩
  · rw [if_neg h]; exact ⟨rfl, .inl rfl⟩

/-- A test that raises `NotSupported` within a context that swallows, a test that raises an unrelated exception. -/
def demoTests : List (Test C) :=
  [{ body := .seq (guarded (.raise ⟨1, .notSupported⟩)) (.raise ⟨2, .exception⟩) }, { body := .raise ⟨3, .exception⟩ }]

example : let s : S C := { fresh C.skipTest with skip := [.skipTest, .notSupported] }
    runTests demo (demoTests.map (Test.map demoTurn)) s =
      ((runTests demo demoTests s).1, (runTests demo demoTests s).2.1.map demoTurn, (runTests demo demoTests s).2.2) ∧
    kinds (runTests demo demoTests s).1 = [[.skip], [.error]] ∧
    kinds (runTests demo demoTests (fresh C.skipTest)).1 = [[.error, .error], [.error]] := by
  refine ⟨C180_same_partial demoTurn_turns rfl rfl rfl (fun _ => rfl) (fun _ => rfl) demoTests ?_ _ rfl rfl rfl, by decide, by decide⟩
  intro t ht
  simp only [demoTests, List.mem_cons, List.not_mem_nil, or_false] at ht
  rcases ht with rfl | rfl <;> simp [Test.Blind, Prog.Blind, guarded]

/-- **C180 is violated** for classes that count as failures, like a user's subclass of `AssertionError`: registered or not, its
exceptions are recorded as failures, so that the test fails instead of being skipped. -/
theorem C180_failure_violated (E : Env T) (s : S T) (e : Exc T) (hs : E.hasSession = true)
    (hb : E.beforeRaises e = none) (ha : E.afterRaises e = none)
    (hf : E.H.inst e E.H.failureTypes = true) (hm : (s.st.marks e.id).handled = false ∧ (s.st.marks e.id).added = false)
    (hi : s.st.ignored = []) :
    (eval E (guarded (.raise e)) s).2.st.trace = s.st.trace ++ [.entry e.id .failure, .before e.id, .after e.id] := by
  have h1 : (now E s.skip).H.inst e [] = false := rfl
  have h2 : (now E s.skip).beforeRaises e = none := hb
  have h3 : (now E s.skip).afterRaises e = none := ha
  have h4 : classify (now E s.skip).H e = some .failure := by
    unfold classify
    rw [if_pos]
    exact hf
  have h5 : (now E s.skip).hasSession = true := hs
  have h6 : handleException (now E s.skip) e s.st = (none, (handleException (now E s.skip) e s.st).2) ∧
      (handleException (now E s.skip) e s.st).2.trace = s.st.trace ++ [.entry e.id .failure, .before e.id, .after e.id] := by
    simp [handleException, updateCurrentResult, addException, hm, h2, h3, h4, h5, St.setMarks, St.emit]
  simp only [guarded, eval, hi, List.append_nil, handlingExit, h1]
  rw [h6.1]
  dsimp only
  have : ∀ (a b : Bool) (x y z : Option (Exc T)) (st : St T), (if a = true then (x, st) else if b = true then (y, st) else (z, st)).2 = st := by
    intro a b x y z st; cases a <;> cases b <;> rfl
  rw [if_neg (by simp)]
  rw [this]
  exact h6.2

/-- But in contexts that swallow exceptions they count as skips: not registered, they are swallowed; once registered, they leave them,
and the rest of the test is not executed. -/
theorem C180_failure_escapes (E : Env T) (s : S T) (e : Exc T) (hs : E.hasSession = true)
    (hb : E.beforeRaises e = none) (ha : E.afterRaises e = none)
    (he : E.H.isa e.cls E.H.exception = true) (hn : E.H.inst e E.H.interruptTypes = false) (hi : s.st.ignored = []) :
    (eval E (guarded (.raise e)) s).1 = if s.skip.any (E.H.isa e.cls) then some e else none := by
  have h1 : (now E s.skip).H.inst e [] = false := rfl
  have h2 : (now E s.skip).beforeRaises e = none := hb
  have h3 : (now E s.skip).afterRaises e = none := ha
  have h5 : (now E s.skip).hasSession = true := hs
  have h6 : (handleException (now E s.skip) e s.st).1 = none := by
    unfold handleException
    by_cases h : (s.st.marks e.id).handled = true
    · simp only [h, if_true]
    · simp only [h, h2, h3]; rfl
  have hsk : (now E s.skip).skipTypes = s.skip := by unfold Env.skipTypes; rw [h5]; rfl
  have h7 : (now E s.skip).H.inst e (now E s.skip).H.interruptTypes = false := hn
  have h8 : (now E s.skip).H.inst e (Cfg.effSwallow (now E s.skip).H { swallow := true }) = true := by
    simp only [Cfg.effSwallow, Hier.inst, if_true, List.nil_append, List.any_cons, List.any_nil, Bool.or_false]
    exact he
  simp only [guarded, eval, hi, List.append_nil, handlingExit, h1]
  rcases hh : handleException (now E s.skip) e s.st with ⟨_ | x, st'⟩
  · simp only [hsk, h7, Bool.or_false, h8, if_true]
    have h9 : (now E s.skip).H.inst e s.skip = s.skip.any (E.H.isa e.cls) := rfl
    simp only [h9]
    cases s.skip.any (E.H.isa e.cls) <;> rfl
  · rw [hh] at h6; cases h6

/-- Such a session: the test fails although its exception is registered - with `SkipTest` it would be skipped. -/
example : kinds (runTests demo [{ body := .seq (.register .notReady) (.raise ⟨1, .notReady⟩) }] (fresh C.skipTest)).1 = [[.failure]] ∧
    kinds (runTests demo [{ body := .seq (.register .notReady) (.raise ⟨1, .skipTest⟩) }] (fresh C.skipTest)).1 = [[.skip]] := by decide

/-- **C180.** How exceptions are recorded in a session: one whose class counts as a failure always as a failure; one whose class was
registered before the tests began as a skip, whatever it is apart from that (error, interruption); and as a skip only if its class or
one above it was registered by the end. -/
theorem C180_recorded {E : Env T} {cls : Nat → T}
    (hb : ∀ e e', E.beforeRaises e = some e' → e'.cls = cls e'.id) (ha : ∀ e e', E.afterRaises e = some e' → e'.cls = cls e'.id)
    (ts : List (Test T)) (hts : ∀ t ∈ ts, t.Of cls) (s : S T) (evs : List Ev) (he : evs ∈ (runTests E ts s).1) (id : Nat) (k : Entry)
    (hk : .entry id k ∈ evs) :
    (k = .failure ↔ E.H.failureTypes.any (E.H.isa (cls id)) = true) ∧
    (k = .skip → ∃ t ∈ (runTests E ts s).2.2.skip, E.H.isa (cls id) t = true) ∧
    ((∃ t ∈ s.skip, E.H.isa (cls id) t = true) → k = .failure ∨ k = .skip) ∧
    (k = .interruption → E.H.interruptTypes.any (E.H.isa (cls id)) = true) ∧
    (k = .error → E.H.interruptTypes.any (E.H.isa (cls id)) = false) := by
  obtain ⟨m, ⟨x, hx⟩, ⟨y, hy⟩, hc⟩ := runTests_adds hb ha ts hts s evs he id k hk
  unfold classify at hc
  simp only [inst_any] at hc
  have hskip : (∃ t ∈ s.skip, E.H.isa (cls id) t = true) → m.any (E.H.isa (cls id)) = true := by
    rintro ⟨t, ht, hi⟩
    rw [hx, List.any_append, List.any_eq_true.2 ⟨t, ht, hi⟩]; rfl
  by_cases h1 : E.H.failureTypes.any (E.H.isa (cls id)) = true
  · simp only [h1, ↓reduceIte] at hc; injection hc with hc; subst hc
    simp [h1]
  · simp only [h1] at hc
    by_cases h2 : m.any (E.H.isa (cls id)) = true
    · simp only [h2, ↓reduceIte] at hc; injection hc with hc; subst hc
      obtain ⟨t, ht, hi⟩ := List.any_eq_true.1 h2
      exact ⟨⟨(fun h => nomatch h), fun h => absurd h h1⟩, fun _ => ⟨t, by rw [hy]; simp [ht], hi⟩, fun _ => .inr rfl,
        ⟨(fun h => nomatch h), (fun h => nomatch h)⟩⟩
    · simp only [h2] at hc
      by_cases h3 : E.H.interruptTypes.any (E.H.isa (cls id)) = true
      · simp only [h3, ↓reduceIte] at hc; injection hc with hc; subst hc
        exact ⟨⟨(fun h => nomatch h), fun h => absurd h h1⟩, (fun h => nomatch h), fun h => absurd (hskip h) h2, fun _ => h3, (fun h => nomatch h)⟩
      · simp only [h3] at hc
        have hk' : k = .error := by
          by_cases h4 : (![E.H.genExit].any (E.H.isa (cls id))) = true
          · simp only [h4] at hc; injection hc with hc; exact hc.symm
          · simp only [h4] at hc; cases hc
        subst hk'
        exact ⟨⟨(fun h => nomatch h), fun h => absurd h h1⟩, (fun h => nomatch h), fun h => absurd (hskip h) h2, (fun h => nomatch h),
          fun _ => by simpa using h3⟩

/-- Registered by the first test, between its two exceptions: the first one stays an error, the second one and that of the second test
- of a subclass - are skips. If the first test is left out, so is the registration. -/
example : kinds (runTests demo
      [{ body := .seq (guarded (.raise ⟨1, .notSupported⟩)) (.seq (.register .notSupported) (.raise ⟨2, .notSupported⟩)) },
       { body := .raise ⟨3, .noDisk⟩ }] (fresh C.skipTest)).1 = [[.error, .skip], [.skip]] ∧
    kinds (runTests demo [{ body := .raise ⟨3, .noDisk⟩ }] (fresh C.skipTest)).1 = [[.error]] := by decide

/-- **C180.** Registrations last to the end of the session: whatever is registered at some moment stays so, in this test and all that
follow. -/
theorem C180_lasts (E : Env T) (ts : List (Test T)) (p : Prog T) (t : T) (s : S T) :
    t ∈ (eval E (.seq (.register t) p) s).2.skip ∧ (t ∈ s.skip → t ∈ (runTests E ts s).2.2.skip) := by
  constructor
  · obtain ⟨k, hk⟩ := eval_grows E p { s with skip := s.skip ++ [t] }
    simp only [eval]
    rw [hk]; simp
  · intro h
    obtain ⟨k, hk⟩ := runTests_grows E ts s
    rw [hk]; simp [h]

example : (runTests demo [{ body := .seq (.register .notSupported) (.raise ⟨2, .exception⟩) }, { body := .done }] (fresh C.skipTest)).2.2.skip =
    [.skipTest, .notSupported] := by decide

/-- **C180.** The other tests are run: if what a test raises - when its scopes are opened, its start is announced, in its body, when its
scopes are closed and when its outcome is announced - are ordinary exceptions or exceptions of classes registered before (`SkipTest`
among them, but also, say, `KeyboardInterrupt` if someone registered `BaseException`), nothing leaves the test. -/
theorem C180_goes_on {E : Env T} (hb : ∀ e, E.beforeRaises e = none) (ha : ∀ e, E.afterRaises e = none) (hs : E.hasSession = true)
    (ts : List (Test T)) (s : S T) (hi : s.st.ignored = [])
    (hts : ∀ t ∈ ts, t.ended = .done ∧ ∀ p ∈ [t.opening, t.start, t.body, t.closing, t.summary],
      p.All (fun e => E.H.isa e.cls E.H.exception = true ∧ E.H.inst e E.H.interruptTypes = false ∨ E.H.inst e s.skip = true)) :
    (runTests E ts s).2.1 = none ∧ (runTests E ts s).1.length = ts.length := by
  suffices H : ∀ s', (∃ x, s'.skip = s.skip ++ x) → s'.st.ignored = [] →
      (runTests E ts s').2.1 = none ∧ (runTests E ts s').1.length = ts.length from H s ⟨[], by simp⟩ hi
  induction ts with
  | nil => intro s' _ _; exact ⟨rfl, rfl⟩
  | cons t ts ih =>
    intro s' hg hi'
    obtain ⟨he, hp⟩ := hts t (by simp)
    simp only [List.forall_mem_cons, List.not_mem_nil, false_implies, implies_true, and_true] at hp
    obtain ⟨p1, p2, p3, p4, p5⟩ := hp
    generalize hs0 : ({ s' with st := { s'.st with trace := [] }, started := false } : S T) = s0
    have hg0 : ∃ x, s0.skip = s.skip ++ x := by rw [← hs0]; exact hg
    have hi0 : s0.st.ignored = [] := by rw [← hs0]; exact hi'
    generalize hP : (fun e : Exc T => E.H.isa e.cls E.H.exception = true ∧ E.H.inst e E.H.interruptTypes = false ∨
      E.H.inst e s.skip = true) = P at p1 p2 p3 p4 p5
    have hnone : (eval E t.prog s0).1 = none := by
      generalize hX : Prog.seq t.opening (.tryFinally (.seq (.seq .started t.start) (guarded t.body)) t.closing) = X
      have hXall : X.All P := by
        rw [← hX]
        exact ⟨p1, ⟨⟨trivial, p2⟩, p3⟩, p4⟩
      have hB : (eval E (.exceptSkip (guarded X)) s0).1 = none := by
        have := guarded_escapes hb ha hs s.skip X (by rw [hP]; exact hXall) s0 hg0 hi0
        simp only [eval]
        rcases hh : eval E (guarded X) s0 with ⟨_ | e, s1⟩ <;> rw [hh] at this
        have h1 := this e rfl
        simp only [h1, if_true]
      generalize hA : Prog.exceptSkip (.seq (.exceptSkip (guarded X)) t.summary) = A
      have hAall : A.All P := by rw [← hA]; exact ⟨hXall, p5⟩
      have hprog : t.prog = guarded (.tryFinally A (.ifStarted .done)) := by
        unfold Test.prog; rw [hX, hA, he]
      rw [hprog]
      have hesc := guarded_escapes hb ha hs s.skip (.tryFinally A (.ifStarted .done)) (by rw [hP]; exact ⟨hAall, trivial⟩) s0 hg0 hi0
      have hAesc : ∀ e, (eval E A s0).1 = some e → E.H.inst e (eval E A s0).2.skip = false := by
        intro e h
        rw [← hA] at h ⊢
        rw [eval] at h ⊢
        rcases hh : eval E (.seq (.exceptSkip (guarded X)) t.summary) s0 with ⟨_ | x, s1⟩ <;> rw [hh] at h
        · cases h
        · by_cases h1 : E.H.inst x s1.skip = true
          · simp only [h1, if_true] at h; cases h
          · simp only [h1] at h ⊢
            injection h with h; subst h
            simpa using h1
      rcases ho : (eval E (guarded (.tryFinally A (.ifStarted .done))) s0).1 with _ | e
      · rfl
      · exfalso
        have h1 := hesc e ho
        have hfin : ∀ s1 : S T, ∃ s2, eval E (.ifStarted .done) s1 = (none, s2) ∧ s2.skip = s1.skip := by
          intro s1
          simp only [eval]
          by_cases h : s1.started = true
          · simp only [h, if_true]; exact ⟨_, rfl, rfl⟩
          · simp only [h]; exact ⟨s1, rfl, rfl⟩
        simp only [guarded, eval.eq_7, eval.eq_5] at ho h1
        rcases hh : eval E A s0 with ⟨oa, s1⟩
        rw [hh] at hAesc
        obtain ⟨s2, hq, hsk⟩ := hfin s1
        simp only [hh, hq] at ho h1
        rcases oa with _ | x
        · cases ho
        · have h2 := hAesc x rfl
          simp only at ho h1 h2
          have hxe : e = x := handlingExit_all (E := now E s2.skip) (P := fun y => y = x) hb ha _ _ x rfl _ e ho
          subst hxe
          rw [hsk] at h1
          rw [h1] at h2; cases h2
    have e2 := eval_grows E t.prog s0
    have e3 := eval_ignored E t.prog s0
    simp only [runTests, hs0]
    rcases hh : eval E t.prog s0 with ⟨_ | e, s1⟩ <;> rw [hh] at hnone e2 e3
    · obtain ⟨x, hx⟩ := hg0
      obtain ⟨y, hy⟩ := e2
      have := ih (fun t ht => hts t (by simp [ht])) s1 ⟨x ++ y, by rw [← List.append_assoc, ← hx]; exact hy⟩ (e3.trans hi0)
      exact ⟨this.1, by simp [this.2]⟩
    · cases hnone

/-- Someone registered `BaseException`: an interruption by the user is one more skip, and the next test is run. Without that, the
interruption ends the run. -/
example : let ts : List (Test C) := [{ body := .raise ⟨1, .keyboard⟩ }, { body := .done }]
    (runTests demo ts { fresh C.skipTest with skip := [.skipTest, .base] }).2.1 = none ∧
    kinds (runTests demo ts { fresh C.skipTest with skip := [.skipTest, .base] }).1 = [[.skip], []] ∧
    (runTests demo ts (fresh C.skipTest)).2.1 = some ⟨1, .keyboard⟩ ∧
    kinds (runTests demo ts (fresh C.skipTest)).1 = [[.interruption]] := by decide

/-- **C180 is violated** when the end of a test is announced: a skip raised there, registered or `SkipTest` itself, is recorded as a
skip but ends the run, while after the same exception raised by the body the next test is run. -/
theorem C180_end_violated :
    (∀ c ∈ [C.skipTest, C.notSupported],
      let s := { fresh C.skipTest with skip := (fresh C.skipTest).skip ++ [.notSupported] }
      (runTests demo [{ body := .done, ended := .raise ⟨1, c⟩ }, { body := .done }] s).2.1 = some ⟨1, c⟩ ∧
      kinds (runTests demo [{ body := .done, ended := .raise ⟨1, c⟩ }, { body := .done }] s).1 = [[.skip]] ∧
      (runTests demo [{ body := .raise ⟨1, c⟩ }, { body := .done }] s).2.1 = none ∧
      kinds (runTests demo [{ body := .raise ⟨1, c⟩ }, { body := .done }] s).1 = [[.skip], []]) := by decide

end Slash.SkipReg
