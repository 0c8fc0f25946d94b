import Verif.Model.Runner
import Verif.Lemmas.Result
/-!
# Helper lemmas on the runner model
-/
namespace Slash.Runner

/-- ids of the tests having a result -/
def ids (st : St) : List Nat := st.res.tests.map (·.1)

/-- an exception of kind `k` left its trace in a result -/
def Shows (k : Kind) (r : Result) : Prop :=
  match k with
  | .error | .other => r.errors ≠ []
  | .failure => r.failures ≠ []
  | .skip => r.skips ≠ []
  | .interrupt => r.interrupted = true

/-- an exception of kind `k` left its trace in the result of test `id` -/
def Has (st : St) (k : Kind) (id : Nat) : Prop := ∃ p ∈ st.res.tests, p.1 = id ∧ Shows k p.2

/-- `b` differs from `a` in the trace (extended by `evs`), scopes, current result, contents of results only -/
structure Ext (a b : St) (evs : List Ev) : Prop where
  trace : b.trace = a.trace ++ evs
  lastFile : b.lastFile = a.lastFile
  indexed : b.indexed = a.indexed
  complete : b.complete = a.complete
  ids : ids b = ids a
  has : ∀ k id, Has a k id → Has b k id
  test : b.test = a.test

theorem Ext.refl (a : St) : Ext a a [] := ⟨by simp, rfl, rfl, rfl, rfl, fun _ _ h => h, rfl⟩

theorem Ext.trans {a b c : St} {e1 e2 : List Ev} (h1 : Ext a b e1) (h2 : Ext b c e2) : Ext a c (e1 ++ e2) :=
  ⟨by rw [h2.trace, h1.trace, List.append_assoc], h2.lastFile.trans h1.lastFile, h2.indexed.trans h1.indexed,
   h2.complete.trans h1.complete, h2.ids.trans h1.ids, fun k id h => h2.has k id (h1.has k id h), h2.test.trans h1.test⟩

theorem Ext.cast {a b : St} {e1 e2 : List Ev} (h1 : Ext a b e1) (h : e1 = e2) : Ext a b e2 := h ▸ h1

/-- fatal errors of results stay -/
def Grow (a b : SessionResults) : Prop :=
  ∀ id r, a.get id = some r → ∃ r', b.get id = some r' ∧ (r.hasFatal = true → r'.hasFatal = true)

theorem Grow.refl (a : SessionResults) : Grow a a := fun _ r h => ⟨r, h, id⟩

theorem Grow.trans {a b c : SessionResults} (h1 : Grow a b) (h2 : Grow b c) : Grow a c := by
  intro id r h
  obtain ⟨r', h', e'⟩ := h1 id r h
  obtain ⟨r'', h'', e''⟩ := h2 id r' h'
  exact ⟨r'', h'', fun e => e'' (e' e)⟩

theorem hasFatal_apply (r : Result) (e : Result.REv) (h : r.hasFatal = true) : (r.apply e).hasFatal = true := by
  cases e <;> simp only [Result.hasFatal, Result.apply, Result.markStarted, Result.markFinished, Result.markInterrupted,
    Result.addError, Result.addFailure, Result.addSkip, List.any_append, Bool.or_eq_true] at h ⊢ <;> grind

theorem grow_ev (s : SessionResults) (id : Nat) (e : Result.REv) : Grow s (s.step (.ev id e)) := by
  intro i r h
  have hl : (s.step (.ev id e)).get i = _ := SessionResults.lookup_ev s id e i
  unfold SessionResults.get at h
  rw [hl, h]
  simp only [Option.map_some]
  split
  · exact ⟨_, rfl, hasFatal_apply _ _⟩
  · exact ⟨_, rfl, fun h => h⟩

theorem grow_gev (s : SessionResults) (e : Result.REv) : Grow s (s.step (.gev e)) := fun _ r h => ⟨r, h, fun h => h⟩

/-- nothing but the contents of results changes -/
structure Pure (a b : St) : Prop where
  ext : Ext a b []
  scope : b.scope = a.scope
  cur : b.cur = a.cur
  started : b.started = a.started
  cleanups : b.cleanups = a.cleanups
  grow : Grow a.res b.res
  workerError : b.res.workerError = a.res.workerError

theorem Pure.refl (a : St) : Pure a a := ⟨Ext.refl a, rfl, rfl, rfl, rfl, Grow.refl _, rfl⟩

theorem Pure.trans {a b c : St} (h1 : Pure a b) (h2 : Pure b c) : Pure a c :=
  ⟨(h1.ext.trans h2.ext).cast (by simp), h2.scope.trans h1.scope, h2.cur.trans h1.cur, h2.started.trans h1.started,
   h2.cleanups.trans h1.cleanups, h1.grow.trans h2.grow,
   h2.workerError.trans h1.workerError⟩

theorem ids_map (l : List (Nat × Result)) (id : Nat) (e : Result.REv) :
    (l.map (fun p => if p.1 == id then (p.1, p.2.apply e) else p)).map (·.1) = l.map (·.1) := by
  rw [List.map_map]
  apply List.map_congr_left
  intro p _
  simp only [Function.comp]
  split <;> rfl

theorem shows_apply {r : Result} (e : Result.REv) (k : Kind) (h : Shows k r) : Shows k (r.apply e) := by
  cases e <;> cases k <;> simp [Shows, Result.apply, Result.markStarted, Result.markFinished, Result.markInterrupted,
    Result.addError, Result.addFailure, Result.addSkip] <;> simpa [Shows] using h

theorem has_step {st st' : St} {id : Nat} {e : Result.REv}
    (h : st'.res.tests = st.res.tests.map (fun p => if p.1 == id then (p.1, p.2.apply e) else p)) (k : Kind) (i : Nat)
    (hb : Has st k i) : Has st' k i := by
  obtain ⟨p, hp, rfl, hb⟩ := hb
  refine ⟨_, by rw [h]; exact List.mem_map.2 ⟨p, hp, rfl⟩, ?_⟩
  split
  · exact ⟨rfl, shows_apply e k hb⟩
  · exact ⟨rfl, hb⟩

/-- an event on a test is seen in its result -/
theorem has_evAt (st : St) (e : Result.REv) (k : Kind) (id : Nat) (hi : id ∈ ids st)
    (he : ∀ r : Result, Shows k (r.apply e)) : Has (st.evAt (.test id) e) k id := by
  obtain ⟨p, hp, rfl⟩ := List.mem_map.1 hi
  refine ⟨(p.1, p.2.apply e), ?_, rfl, he _⟩
  simp only [St.evAt]
  exact List.mem_map.2 ⟨p, hp, by simp⟩

theorem has_ev (st : St) (e : Result.REv) (k : Kind) (id : Nat) (hc : st.cur = .test id) (hi : id ∈ ids st)
    (he : ∀ r : Result, Shows k (r.apply e)) : Has (st.ev e) k id := by
  rw [St.ev, hc]; exact has_evAt st e k id hi he

theorem pure_evAt (st : St) (c : Cur) (e : Result.REv) : Pure st (st.evAt c e) := by
  unfold St.evAt
  split
  · exact ⟨⟨by simp, rfl, rfl, rfl, rfl, fun _ _ h => h, rfl⟩, rfl, rfl, rfl, rfl, grow_gev _ _, rfl⟩
  · exact ⟨⟨by simp, rfl, rfl, rfl, ids_map _ _ _, has_step rfl, rfl⟩, rfl, rfl, rfl, rfl, grow_ev _ _ _, rfl⟩

theorem pure_ev (st : St) (e : Result.REv) : Pure st (st.ev e) := pure_evAt st _ e

theorem pure_gev (st : St) (e : Result.REv) : Pure st (st.gev e) :=
  ⟨⟨by simp [St.gev], rfl, rfl, rfl, rfl, fun _ _ h => h, rfl⟩, rfl, rfl, rfl, rfl, grow_gev _ _, rfl⟩

theorem pure_uev (st : St) (e : UEv) : Pure st (st.uev e) := by
  cases e with
  | cur e => exact pure_ev st e
  | of id e => exact ⟨⟨by simp [St.uev], rfl, rfl, rfl, ids_map _ _ _, has_step rfl, rfl⟩, rfl, rfl, rfl, rfl, grow_ev _ _ _, rfl⟩
  | glob e => exact pure_gev st e

theorem pure_foldl {α : Type} (f : St → α → St) (h : ∀ st a, Pure st (f st a)) (l : List α) (st : St) :
    Pure st (l.foldl f st) := by
  induction l generalizing st with
  | nil => exact Pure.refl st
  | cons a l ih => exact (h st a).trans (ih _)

theorem pure_record (x : X) (st : St) : Pure st (record x st) := by
  unfold record
  split
  · exact pure_evAt _ _ _
  · exact pure_evAt _ _ _
  · split
    · exact pure_gev _ _
    · exact (pure_evAt _ _ _).trans (pure_gev _ _)
  · exact pure_evAt _ _ _
  · exact pure_evAt _ _ _

/-- a recorded exception is seen in the result of the current test -/
theorem has_record (x : X) (st : St) (id : Nat) (hc : st.test = some id) (hi : id ∈ ids st) :
    Has (record x st) x.kind id := by
  have hh : st.here = .test id := by rw [St.here, hc]
  unfold record
  rw [hh]
  split
  · next h => rw [h]; exact has_evAt _ _ _ _ hi (by intro r; simp [Shows, Result.apply, Result.addFailure])
  · next h => rw [h]; exact has_evAt _ _ _ _ hi (by intro r; simp [Shows, Result.apply, Result.addSkip])
  · next h =>
    rw [h, if_neg (by simp)]
    exact (pure_gev _ _).ext.has _ _ (has_evAt _ _ _ _ hi (by intro r; simp [Shows, Result.apply, Result.markInterrupted]))
  · next h => rw [h]; exact has_evAt _ _ _ _ hi (by intro r; simp [Shows, Result.apply, Result.addError])
  · next h => rw [h]; exact has_evAt _ _ _ _ hi (by intro r; simp [Shows, Result.apply, Result.addError])

theorem pure_runStep (s : Step) (st : St) : Pure st (runStep s st).2 := by
  have h := pure_foldl _ pure_uev s.evs st
  unfold runStep
  simp only
  split
  · exact h
  · next x hx =>
    simp only
    split
    · exact h.trans (pure_record _ _)
    · exact h

theorem pure_handle (b : Bool) (r : Option X × St) : Pure r.2 (handle b r).2 := by
  obtain ⟨x | x, st⟩ := r
  · exact Pure.refl _
  · simp only [handle]
    have h : Pure st (if (x.handled || x.elsewhere) = true then st else record x st) := by
      split
      · exact Pure.refl _
      · exact pure_record _ _
    split <;> exact h

theorem handle_none {b : Bool} {r : Option X × St} (h : r.1 = none) : handle b r = r := by
  obtain ⟨x | x, st⟩ := r
  · rfl
  · cases h

/-- what gets out of a handling context -/
theorem handle_some {b : Bool} {r : Option X × St} {x : X} (h : (handle b r).1 = some x) :
    ∃ y, r.1 = some y ∧ x = { y with handled := true } ∧ (b = true → y.kind.escapes = true) := by
  obtain ⟨y | y, st⟩ := r
  · cases h
  · simp only [handle] at h
    split at h
    · cases h
    · next hh =>
      simp only [Option.some.injEq] at h
      refine ⟨y, rfl, h.symm, ?_⟩
      intro hb
      subst hb
      simpa using hh

theorem exceptSkip_snd (r : Option X × St) : (exceptSkip r).2 = r.2 := by
  obtain ⟨x | x, st⟩ := r
  · rfl
  · simp only [exceptSkip]; split <;> rfl

theorem exceptSkip_some {r : Option X × St} {x : X} (h : (exceptSkip r).1 = some x) :
    r.1 = some x ∧ x.kind ≠ .skip := by
  obtain ⟨y | y, st⟩ := r
  · cases h
  · simp only [exceptSkip] at h
    split at h
    · cases h
    · next hk => simp only [Option.some.injEq] at h; subst h; exact ⟨rfl, hk⟩

theorem ext_emit (st : St) (e : Ev) : Ext st (st.emit e) [e] := ⟨rfl, rfl, rfl, rfl, rfl, fun _ _ h => h, rfl⟩

/-! ## The steps of a single test -/

theorem scopeOp_ext (evs : List UEv) (hd el : Bool) (f : Scope.St → Option Scope.Exn × Scope.St) (st : St) :
    Ext st (scopeOp evs hd el f st).2 [] ∧ (scopeOp evs hd el f st).2.started = st.started ∧
    (scopeOp evs hd el f st).2.cur = st.cur ∧ (scopeOp evs hd el f st).2.scope = (f st.scope).2 ∧
    (scopeOp evs hd el f st).1 = (f st.scope).1.map (ofExn hd el) ∧
    Grow st.res (scopeOp evs hd el f st).2.res ∧
    (scopeOp evs hd el f st).2.res.workerError = st.res.workerError := by
  have h := pure_foldl _ pure_uev evs st
  have hsc := h.scope
  have h2 : Ext (evs.foldl St.uev st) { evs.foldl St.uev st with scope := (f (evs.foldl St.uev st).scope).2 } [] :=
    ⟨by simp, rfl, rfl, rfl, rfl, fun _ _ h => h, rfl⟩
  have h3 := (h.ext.trans h2).cast (by simp : _ = [])
  unfold scopeOp
  simp only
  rcases hf : (f (evs.foldl St.uev st).scope) with ⟨_ | e, sc⟩
  · rw [hf] at h3
    rw [hsc] at hf
    refine ⟨h3, h.started, h.cur, ?_, ?_, h.grow, h.workerError⟩
    · simp only [hf, Option.map_none]
    · simp only [hf, Option.map_none]
  · rw [hf] at h3
    rw [hsc] at hf
    simp only [hf, Option.map_some]
    obtain ⟨b, hb⟩ : ∃ b, b = { evs.foldl St.uev st with scope := sc } := ⟨_, rfl⟩
    have hp : Pure b (if ((ofExn hd el e).handled && !(ofExn hd el e).elsewhere) = true then record (ofExn hd el e) b else b) := by
      split
      · exact pure_record _ _
      · exact Pure.refl _
    simp only at h3
    rw [← hb] at h3 ⊢
    have hbc : b.cur = st.cur := by rw [hb]; exact h.cur
    refine ⟨(h3.trans hp.ext).cast (by simp), ?_, ?_, ?_, trivial, ?_, ?_⟩
    · exact hp.started.trans (by rw [hb]; exact h.started)
    · exact hp.cur.trans hbc
    · exact hp.scope.trans (by rw [hb])
    · exact Grow.trans (by rw [hb]; exact h.grow) hp.grow
    · exact hp.workerError.trans (by rw [hb]; exact h.workerError)

theorem doBegin_ext (t : T) (st : St) :
    Ext st (doBegin t st).2 [] ∧ (doBegin t st).2.started = st.started ∧ (doBegin t st).2.cur = st.cur := by
  have h := scopeOp_ext t.beginEvs t.beginHandled t.beginElsewhere (Scope.beginTest t.id t.module t.moduleOut) st
  exact ⟨h.1, h.2.1, h.2.2.1⟩

theorem doEnd_ext (t : T) (st : St) :
    Ext st (doEnd t st).2 [] ∧ (doEnd t st).2.started = st.started ∧ (doEnd t st).2.cur = st.cur := by
  have h := scopeOp_ext t.endEvs t.endHandled t.endElsewhere (Scope.endTest t.id t.testOut) st
  exact ⟨h.1, h.2.1, h.2.2.1⟩

theorem ctrlStart_ext (t : T) (st : St) (hs : st.started = false) :
    Ext st (ctrlStart t st).2 [.hookStart t.id] ∧ (ctrlStart t st).2.started = true ∧ (ctrlStart t st).2.cur = st.cur := by
  unfold ctrlStart
  simp only [hs, Bool.false_eq_true, if_false]
  have h1 := pure_ev { st with started := true } .start
  have h2 := pure_runStep t.startHook (({ st with started := true }.ev .start).emit (.hookStart t.id))
  refine ⟨?_, ?_, ?_⟩
  · have h0 : Ext st { st with started := true } [] := ⟨by simp, rfl, rfl, rfl, rfl, fun _ _ h => h, rfl⟩
    exact (((h0.trans h1.ext).trans (ext_emit _ _)).trans h2.ext).cast (by simp)
  · rw [h2.started]; exact h1.started
  · rw [h2.cur]; exact h1.cur

theorem ctrlEnd_ext (t : T) (prev : Cur) (st : St) :
    Ext st (ctrlEnd t prev st).2 (if st.started then [.hookEnd t.id] else []) ∧ (ctrlEnd t prev st).2.started = false ∧
    (ctrlEnd t prev st).2.cur = if st.started then prev else st.cur := by
  unfold ctrlEnd
  cases hs : st.started
  · simp only [Bool.not_false, if_true, Bool.false_eq_true, if_false]
    exact ⟨Ext.refl _, hs, trivial⟩
  · simp only [Bool.not_true, Bool.false_eq_true, if_false, if_true]
    have h2 := pure_runStep t.endHook ({ st with started := false }.emit (.hookEnd t.id))
    have h0 : Ext st ({ st with started := false }.emit (.hookEnd t.id)) [.hookEnd t.id] := ⟨rfl, rfl, rfl, rfl, rfl, fun _ _ h => h, rfl⟩
    have h3 := (h0.trans h2.ext).cast (by simp : _ = [Ev.hookEnd t.id])
    refine ⟨?_, ?_, trivial⟩
    · have h4 : ∀ b : St, Ext b { (if (runStep t.endHook ({ st with started := false }.emit (.hookEnd t.id))).1.isNone then
          { b with res := b.res.step (.ev t.id .finish) } else b) with cur := prev } [] := by
        intro b
        split
        · exact ⟨by simp, rfl, rfl, rfl, ids_map _ _ _, has_step rfl, rfl⟩
        · exact ⟨by simp, rfl, rfl, rfl, rfl, fun _ _ h => h, rfl⟩
      exact (h3.trans (h4 _)).cast (by simp)
    · have := h2.started
      show (if _ then _ else _ : St).started = false
      split <;> exact this

theorem initiateCleanup_ext (env : Env) (st : St) :
    (∃ cl, (cl = [] ∨ cl = [.cleanup]) ∧ Ext st (initiateCleanup env st).2 cl) ∧
    (initiateCleanup env st).2.started = st.started ∧ (initiateCleanup env st).2.cur = st.cur ∧
    Grow st.res (initiateCleanup env st).2.res ∧
    (initiateCleanup env st).2.res.workerError = st.res.workerError := by
  unfold initiateCleanup
  split
  · exact ⟨⟨[], .inl rfl, Ext.refl _⟩, rfl, rfl, Grow.refl _, rfl⟩
  · have h0 : Ext st { st.emit .cleanup with cleanups := st.cleanups + 1 } [.cleanup] := ⟨rfl, rfl, rfl, rfl, rfl, fun _ _ h => h, rfl⟩
    obtain ⟨a, ha⟩ : ∃ a, a = { st.emit .cleanup with cleanups := st.cleanups + 1 } := ⟨_, rfl⟩
    have h1 := pure_runStep (env.cleanup st.cleanups).hook a
    have h2 := pure_handle true (runStep (env.cleanup st.cleanups).hook a)
    obtain ⟨b, hb⟩ : ∃ b, b = (handle true (runStep (env.cleanup st.cleanups).hook a)).2 := ⟨_, rfl⟩
    obtain ⟨h3, h31, h32, -, -, h33, h34⟩ := scopeOp_ext (env.cleanup st.cleanups).evs (env.cleanup st.cleanups).handled (env.cleanup st.cleanups).elsewhere
      (Scope.flush (env.cleanup st.cleanups).outs) b
    have h4 := pure_handle true (scopeOp (env.cleanup st.cleanups).evs (env.cleanup st.cleanups).handled (env.cleanup st.cleanups).elsewhere
      (Scope.flush (env.cleanup st.cleanups).outs) b)
    have h12 : Pure a b := by rw [hb]; exact h1.trans h2
    simp only [← ha, ← hb]
    refine ⟨⟨[.cleanup], .inr rfl, ?_⟩, ?_, ?_, ?_, ?_⟩
    · rw [ha] at h12
      exact (((h0.trans h12.ext).trans h3).trans h4.ext).cast (by simp)
    · exact h4.started.trans (h31.trans (h12.started.trans (by rw [ha]; rfl)))
    · exact h4.cur.trans (h32.trans (h12.cur.trans (by rw [ha]; rfl)))
    · exact (Grow.trans (by rw [ha]; exact Grow.refl _) h12.grow).trans (h33.trans h4.grow)
    · exact h4.workerError.trans (h34.trans (h12.workerError.trans (by rw [ha]; rfl)))

theorem processReqs_ext (t : T) (st : St) :
    (∃ av, (av = [] ∨ av = [.avoided t.id]) ∧ ((processReqs t st).2.1 = true → av = []) ∧
      Ext st (processReqs t st).2.2 av) ∧
    (processReqs t st).2.2.started = st.started ∧ (processReqs t st).2.2.cur = st.cur := by
  unfold processReqs
  have h1 := pure_runStep t.reqStep st
  rcases hr : runStep t.reqStep st with ⟨_ | x, s1⟩ <;> rw [hr] at h1 <;> simp only
  · split
    · exact ⟨⟨[], .inl rfl, fun _ => rfl, h1.ext⟩, h1.started, h1.cur⟩
    · have h2 := pure_foldl (fun (st : St) (r : String) => st.ev (.skip r)) (fun st r => pure_ev st _) t.avoid s1
      have h3 := pure_runStep t.avoidedHook ((t.avoid.foldl (fun (st : St) (r : String) => st.ev (.skip r)) s1).emit (.avoided t.id))
      refine ⟨⟨[.avoided t.id], .inr rfl, by simp, ?_⟩, ?_, ?_⟩
      · exact (((h1.trans h2).ext.trans (ext_emit _ _)).trans h3.ext).cast (by simp)
      · exact h3.started.trans (h2.started.trans h1.started)
      · exact h3.cur.trans (h2.cur.trans h1.cur)
  · exact ⟨⟨[], .inl rfl, by simp, h1.ext⟩, h1.started, h1.cur⟩

/-- whatever was marked as handled, and not added to another result, was recorded on the result of test `id` -/
def Recorded (r : Option X × St) (id : Nat) : Prop :=
  ∀ x, r.1 = some x → x.handled = true → x.elsewhere = false → Has r.2 x.kind id

theorem recorded_none {r : Option X × St} {id : Nat} (h : r.1 = none) : Recorded r id := by
  intro x hx; rw [h] at hx; cases hx

theorem recorded_runStep (s : Step) (st : St) (id : Nat) (hc : st.test = some id) (hi : id ∈ ids st) :
    Recorded (runStep s st) id := by
  have h := pure_foldl _ pure_uev s.evs st
  intro x hx hh hel
  unfold runStep at hx ⊢
  simp only at hx ⊢
  cases hs : s.raises with
  | none => rw [hs] at hx; cases hx
  | some y =>
    rw [hs] at hx
    simp only [Option.some.injEq] at hx
    subst hx
    simp only [hh, hel, Bool.not_false, Bool.and_self, if_true]
    exact has_record _ _ _ (h.ext.test.trans hc) (by rw [h.ext.ids]; exact hi)

theorem runStep_fst (s : Step) (st : St) : (runStep s st).1 = s.raises := by
  unfold runStep; cases s.raises <;> rfl

theorem recorded_scopeOp (evs : List UEv) (hd el : Bool) (f : Scope.St → Option Scope.Exn × Scope.St) (st : St)
    (id : Nat) (hc : st.test = some id) (hi : id ∈ ids st) : Recorded (scopeOp evs hd el f st) id := by
  have h := pure_foldl _ pure_uev evs st
  intro x hx hh hel
  unfold scopeOp at hx ⊢
  simp only at hx ⊢
  rcases hf : (f (evs.foldl St.uev st).scope) with ⟨_ | e, sc⟩
  · simp only [hf, Option.map_none] at hx; cases hx
  · simp only [hf, Option.map_some, Option.some.injEq] at hx ⊢
    subst hx
    simp only [hh, hel, Bool.not_false, Bool.and_self, if_true]
    exact has_record _ _ _ (h.ext.test.trans hc) (by show id ∈ ids _; rw [show ids { evs.foldl St.uev st with scope := sc } = ids (evs.foldl St.uev st) from rfl, h.ext.ids]; exact hi)

/-- after a handling context everything raised inside is recorded -/
theorem has_handle (b : Bool) (r : Option X × St) (id : Nat) (hc : r.2.test = some id) (hi : id ∈ ids r.2)
    (hr : Recorded r id) (x : X) (hx : r.1 = some x) (hel : x.elsewhere = false) : Has (handle b r).2 x.kind id := by
  obtain ⟨y | y, st⟩ := r
  · cases hx
  · simp only [Option.some.injEq] at hx
    subst hx
    have h : Has (if (y.handled || y.elsewhere) = true then st else record y st) y.kind id := by
      rw [hel, Bool.or_false]
      split
      · next h => exact hr y rfl h hel
      · exact has_record _ _ _ hc hi
    simp only [handle]
    split <;> exact h

theorem recorded_handle (b : Bool) (r : Option X × St) (id : Nat) (hc : r.2.test = some id) (hi : id ∈ ids r.2)
    (hr : Recorded r id) : Recorded (handle b r) id := by
  intro x hx _ hel
  obtain ⟨y, hy, rfl, -⟩ := handle_some hx
  exact has_handle b r id hc hi hr y hy hel

/-- after a successful begin of a test its scope is the innermost one -/
theorem beginTest_ok (id m : Nat) (o : Scope.Out) (sc : Scope.St) (h : (Scope.beginTest id m o sc).1 = none) :
    (∃ rest, (Scope.beginTest id m o sc).2.scopes = .test :: rest) ∧ (Scope.beginTest id m o sc).2.lastTest = some id := by
  unfold Scope.beginTest at h ⊢
  simp only at h ⊢
  generalize (if sc.lastModule = none then Scope.pushScope Scope.Sc.session sc else sc) = sc' at h ⊢
  by_cases hm : sc'.lastModule ≠ some m
  · simp only [hm, ne_eq, not_false_eq_true, if_true] at h ⊢
    generalize (if ¬sc'.lastModule = none then Scope.popScope Scope.Sc.module o sc' else (none, sc')) = r at h ⊢
    obtain ⟨_ | e, s1⟩ := r
    · simp only at h ⊢
      by_cases hh : s1.scopes.head? = some .module
      · simp [hh] at h
      · rw [if_neg hh]; exact ⟨⟨_, rfl⟩, rfl⟩
    · simp at h
  · rw [if_neg hm]; exact ⟨⟨_, rfl⟩, rfl⟩

/-- ending a test whose scope is innermost: an exception comes from teardown code -/
theorem endTest_ok (id : Nat) (o : Scope.Out) (sc : Scope.St) (rest : List Scope.Sc) (h1 : sc.scopes = .test :: rest)
    (h2 : sc.lastTest = some id) :
    ((Scope.endTest id o sc).1 = none ↔ o = {}) ∧
    (∀ e, (Scope.endTest id o sc).1 = some e → ∃ k, e = .user k ∧ (o.cleanups = some k ∨ o.fixtures = some k)) := by
  obtain ⟨c, f⟩ := o
  unfold Scope.endTest
  simp only [h2, ne_eq, not_true, if_false, Scope.popScope, h1, Scope.teardown, Scope.callAll]
  rcases c with _ | c <;> rcases f with _ | f
  · simp
  · cases f <;> simp [Scope.Exn.isException, Kind.isException]
  · cases c <;> simp [Scope.Exn.isException, Kind.isException]
  · cases c <;> cases f <;> simp [Scope.Exn.isException, Kind.isException]

/-- exceptions of the scope manager when a test is begun: its own, or from closing the previous module -/
theorem beginTest_err (id m : Nat) (o : Scope.Out) (sc : Scope.St) (e : Scope.Exn)
    (h : (Scope.beginTest id m o sc).1 = some e) :
    (∀ k, e ≠ .user k) ∨ ∃ k, e = .user k ∧ (o.cleanups = some k ∨ o.fixtures = some k) := by
  unfold Scope.beginTest at h
  simp only at h
  generalize (if sc.lastModule = none then Scope.pushScope Scope.Sc.session sc else sc) = sc' at h
  by_cases hm : sc'.lastModule ≠ some m
  · simp only [hm, ne_eq, not_false_eq_true, if_true] at h
    have key : ∀ e', (if ¬sc'.lastModule = none then Scope.popScope Scope.Sc.module o sc' else (none, sc')).1 = some e' →
        (∀ k, e' ≠ .user k) ∨ ∃ k, e' = .user k ∧ (o.cleanups = some k ∨ o.fixtures = some k) := by
      intro e' he
      split at he
      · obtain ⟨c, f⟩ := o
        unfold Scope.popScope at he
        split at he
        · simp only [Option.some.injEq] at he; subst he; left; intro k; simp
        · simp only at he
          split at he
          · simp only [Option.some.injEq] at he; subst he; left; intro k; simp
          · right
            simp only [Scope.teardown, Scope.callAll] at he
            rcases c with _ | c <;> rcases f with _ | f
            · simp at he
            · cases f <;> simp [Scope.Exn.isException, Kind.isException] at he <;> subst he <;> simp
            · cases c <;> simp [Scope.Exn.isException, Kind.isException] at he <;> subst he <;> simp
            · cases c <;> cases f <;> simp [Scope.Exn.isException, Kind.isException] at he <;> subst he <;> simp
      · simp at he
    generalize (if ¬sc'.lastModule = none then Scope.popScope Scope.Sc.module o sc' else (none, sc')) = r at h key
    obtain ⟨_ | e', s1⟩ := r
    · simp only at h
      split at h
      · simp only [Option.some.injEq] at h; subst h; left; intro k; simp
      · simp at h
    · simp only [Option.some.injEq] at h
      subst h
      exact key _ rfl
  · rw [if_neg hm] at h; simp at h

/-- nothing in the test raises an interruption or another non-ordinary exception -/
def T.calm (t : T) : Prop :=
  (∀ k, t.moduleOut.cleanups = some k ∨ t.moduleOut.fixtures = some k ∨ t.testOut.cleanups = some k ∨
    t.testOut.fixtures = some k → k.isException = true) ∧
  (∀ x, t.startHook.raises = some x ∨ t.body.raises = some x → x.kind.isException = true)

/-- neither the teardown of the test nor its end hook raises an ordinary exception -/
def T.nothingHides (t : T) : Prop :=
  (∀ k, t.testOut.cleanups = some k ∨ t.testOut.fixtures = some k → k.isException = false) ∧
  (∀ x, t.endHook.raises = some x → x.kind.isException = false)

/-- nothing that is raised in the test was added to another result -/
def T.own (t : T) : Prop :=
  t.beginElsewhere = false ∧ t.endElsewhere = false ∧
  ∀ x, t.reqStep.raises = some x ∨ t.startHook.raises = some x ∨ t.body.raises = some x → x.elsewhere = false

theorem ofExn_elsewhere (hd : Bool) (e : Scope.Exn) : (ofExn hd false e).elsewhere = false := by cases e <;> rfl

/-- the part of a test's protocol up to the end of its scope -/
theorem beginRunEnd_ext (t : T) (st : St) (hs : st.started = false) (hc : st.test = some t.id) (hi : t.id ∈ ids st) :
    ∃ core, (core = [] ∨ core = [.hookStart t.id] ∨ core = [.hookStart t.id, .body t.id]) ∧
      Ext st (beginRunEnd t st).2 core ∧ (beginRunEnd t st).2.started = (!core.isEmpty) ∧
      (beginRunEnd t st).2.cur = st.cur ∧
      Recorded (beginRunEnd t st) t.id ∧
      (.body t.id ∈ core → t.startHook.raises = none ∧ ∀ x, t.body.raises = some x → x.elsewhere = false →
        Has (beginRunEnd t st).2 x.kind t.id) ∧
      ((beginRunEnd t st).1 = none → .body t.id ∈ core ∧ t.testOut = {}) ∧
      (t.calm → ∀ x, (beginRunEnd t st).1 = some x → x.kind.isException = true) ∧
      (.body t.id ∈ core → t.nothingHides → ∀ y, t.body.raises = some y → y.kind.isException = false →
        ∃ z, (beginRunEnd t st).1 = some z ∧ z.kind.isException = false) ∧
      (t.own → ∀ x, (beginRunEnd t st).1 = some x → x.elsewhere = false) ∧
      (core ≠ [] → t.testOut = {} → ∀ x, t.startHook.raises = some x → (beginRunEnd t st).1 = some x) := by
  unfold beginRunEnd
  have hb := doBegin_ext t st
  have hbs : (doBegin t st).2.scope = (Scope.beginTest t.id t.module t.moduleOut st.scope).2 ∧
      (doBegin t st).1 = (Scope.beginTest t.id t.module t.moduleOut st.scope).1.map (ofExn t.beginHandled t.beginElsewhere) :=
    let h := scopeOp_ext t.beginEvs t.beginHandled t.beginElsewhere (Scope.beginTest t.id t.module t.moduleOut) st
    ⟨h.2.2.2.1, h.2.2.2.2.1⟩
  have hbr : Recorded (doBegin t st) t.id := recorded_scopeOp _ _ _ _ _ _ hc hi
  rcases hr : doBegin t st with ⟨_ | x, s1⟩ <;> rw [hr] at hb hbs hbr
  · simp only
    have hbt : (Scope.beginTest t.id t.module t.moduleOut st.scope).1 = none := by
      have := hbs.2.symm; simpa using this
    obtain ⟨⟨rest, hrest⟩, hlast⟩ := beginTest_ok _ _ _ _ hbt
    rw [← hbs.1] at hrest hlast
    have hc1 : s1.test = some t.id := hb.1.test.trans hc
    have hi1 : t.id ∈ ids s1 := by have := hb.1.ids; simp only at this; rw [this]; exact hi
    have hcS := ctrlStart_ext t s1 (hb.2.1.trans hs)
    have hcs : (ctrlStart t s1).1 = t.startHook.raises ∧ Recorded (ctrlStart t s1) t.id ∧ (ctrlStart t s1).2.scope = s1.scope := by
      have hs1 : s1.started = false := hb.2.1.trans hs
      unfold ctrlStart
      simp only [hs1, Bool.false_eq_true, if_false]
      have h1 := pure_ev { s1 with started := true } .start
      refine ⟨runStep_fst _ _, recorded_runStep _ _ _ ?_ ?_, ?_⟩
      · exact h1.ext.test.trans hc1
      · have h2 := h1.ext.ids
        exact (show ids (({ s1 with started := true }.ev .start).emit (.hookStart t.id)) = ids s1 from h2) ▸ hi1
      · exact (pure_runStep _ _).scope.trans h1.scope
    rcases hr2 : ctrlStart t s1 with ⟨_ | x, s2⟩ <;> rw [hr2] at hcS hcs
    · simp only
      have hc2 : s2.test = some t.id := hcS.1.test.trans hc1
      have hi2 : t.id ∈ ids s2 := by have := hcS.1.ids; simp only at this; rw [this]; exact hi1
      have h1 := pure_runStep t.body (s2.emit (.body t.id))
      have h2 := pure_handle true (runStep t.body (s2.emit (.body t.id)))
      have hrb := recorded_runStep t.body (s2.emit (.body t.id)) t.id hc2 hi2
      have hi3 : t.id ∈ ids (runStep t.body (s2.emit (.body t.id))).2 := by rw [h1.ext.ids]; exact hi2
      have hhb := has_handle true _ t.id (h1.ext.test.trans hc2) hi3 hrb
      have hrh := recorded_handle true _ t.id (h1.ext.test.trans hc2) hi3 hrb
      have hxh := @handle_some true (runStep t.body (s2.emit (.body t.id)))
      have hcB : (handle true (runStep t.body (s2.emit (.body t.id)))).1 =
          (t.body.raises.bind (fun x => if x.kind.escapes then some { x with handled := true } else none)) := by
        have hf := runStep_fst t.body (s2.emit (.body t.id))
        rcases hrs : runStep t.body (s2.emit (.body t.id)) with ⟨_ | x, s⟩
        · rw [hrs] at hf; rw [← hf]; rfl
        · rw [hrs] at hf
          simp only at hf
          rw [← hf]
          simp only [handle, Bool.true_and, Option.bind_some]
          cases x.kind.escapes <;> simp
      rw [runStep_fst] at hhb
      simp only [runStep_fst] at hxh
      obtain ⟨s3, hs3⟩ : ∃ s3, s3 = (handle true (runStep t.body (s2.emit (.body t.id)))).2 := ⟨_, rfl⟩
      have h3 := doEnd_ext t s3
      have hc3 : s3.test = some t.id := by rw [hs3]; exact h2.ext.test.trans (h1.ext.test.trans hc2)
      have hi3' : t.id ∈ ids s3 := by rw [hs3, h2.ext.ids]; exact hi3
      have hd := scopeOp_ext t.endEvs t.endHandled t.endElsewhere (Scope.endTest t.id t.testOut) s3
      have hsc3 : s3.scope = s1.scope := by
        rw [hs3]; exact h2.scope.trans (h1.scope.trans hcs.2.2)
      have hend := endTest_ok t.id t.testOut s3.scope rest (by rw [hsc3]; exact hrest) (by rw [hsc3]; exact hlast)
      have hd1 : (doEnd t s3).1 = (Scope.endTest t.id t.testOut s3.scope).1.map (ofExn t.endHandled t.endElsewhere) := hd.2.2.2.2.1
      have hdr : Recorded (doEnd t s3) t.id := recorded_scopeOp _ _ _ _ _ _ hc3 hi3'
      rw [← hs3] at h2 hhb ⊢
      refine ⟨[.hookStart t.id, .body t.id], .inr (.inr rfl), ?_, ?_, ?_, ?_, ?_, ?_, ?_, ?_, ?_,
        fun _ _ x hx => by rw [← hcs.1] at hx; cases hx⟩
      · exact (((((hb.1.trans hcS.1).trans (ext_emit _ _)).trans h1.ext).trans h2.ext).trans h3.1).cast (by simp)
      · exact h3.2.1.trans (h2.started.trans (h1.started.trans hcS.2.1))
      · exact h3.2.2.trans (by rw [hs3]; exact (pure_handle _ _).cur.trans (h1.cur.trans (hcS.2.2.trans hb.2.2)))
      · intro x hx hh hel
        simp only at hx
        cases hde : (doEnd t s3).1 with
        | some y =>
          rw [hde] at hx
          simp only [Option.some_or, Option.some.injEq] at hx
          subst hx
          exact hdr y hde hh hel
        | none =>
          rw [hde, Option.none_or] at hx
          have := hrh x hx hh hel
          rw [← hs3] at this
          exact h3.1.has _ _ this
      · intro _
        exact ⟨hcs.1.symm, fun x hx hel => h3.1.has _ _ (hhb x hx hel)⟩
      · intro hn
        rw [Option.or_eq_none_iff, hd1] at hn
        exact ⟨by simp, hend.1.1 (by simpa using hn.1)⟩
      · intro hcalm x hx
        cases hde : (doEnd t s3).1 with
        | some y =>
          rw [hde] at hx
          simp only [Option.some_or, Option.some.injEq] at hx
          subst hx
          rw [hd1] at hde
          obtain ⟨e, he, rfl⟩ := Option.map_eq_some_iff.1 hde
          obtain ⟨k, rfl, hk⟩ := hend.2 e he
          exact hcalm.1 k (.inr (.inr hk))
        | none =>
          rw [hde, Option.none_or] at hx
          obtain ⟨y, hy, rfl, -⟩ := hxh hx
          exact hcalm.2 y (.inr hy)
      · intro _ ho y hy hk
        cases hde : (doEnd t s3).1 with
        | some z =>
          refine ⟨z, by simp, ?_⟩
          rw [hd1] at hde
          obtain ⟨e, he, rfl⟩ := Option.map_eq_some_iff.1 hde
          obtain ⟨k, rfl, hk⟩ := hend.2 e he
          exact ho.1 k hk
        | none =>
          have hesc : y.kind.escapes = true := by cases y with | mk k f h e => cases k <;> simp_all [Kind.isException, Kind.escapes]
          refine ⟨{ y with handled := true }, ?_, hk⟩
          simp only [Option.none_or]
          rw [hcB, hy, Option.bind_some, if_pos hesc]
      · intro hown x hx
        cases hde : (doEnd t s3).1 with
        | some y =>
          rw [hde] at hx
          simp only [Option.some_or, Option.some.injEq] at hx
          subst hx
          rw [hd1] at hde
          obtain ⟨e, he, rfl⟩ := Option.map_eq_some_iff.1 hde
          rw [hown.2.1]
          exact ofExn_elsewhere _ _
        | none =>
          rw [hde, Option.none_or] at hx
          obtain ⟨y, hy, rfl, -⟩ := hxh hx
          exact hown.2.2 y (.inr (.inr hy))
    · simp only
      have h3 := doEnd_ext t s2
      have hc2 : s2.test = some t.id := hcS.1.test.trans hc1
      have hi2 : t.id ∈ ids s2 := by have := hcS.1.ids; simp only at this; rw [this]; exact hi1
      have hdr : Recorded (doEnd t s2) t.id := recorded_scopeOp _ _ _ _ _ _ hc2 hi2
      have hd := scopeOp_ext t.endEvs t.endHandled t.endElsewhere (Scope.endTest t.id t.testOut) s2
      have hend := endTest_ok t.id t.testOut s2.scope rest (by rw [hcs.2.2]; exact hrest) (by rw [hcs.2.2]; exact hlast)
      have hd1 : (doEnd t s2).1 = (Scope.endTest t.id t.testOut s2.scope).1.map (ofExn t.endHandled t.endElsewhere) := hd.2.2.2.2.1
      refine ⟨[.hookStart t.id], .inr (.inl rfl), ?_, ?_, ?_, ?_, ?_, ?_, ?_, ?_, ?_, fun _ ho x' hx => by
        rw [hd1, hend.1.2 ho, Option.map_none, Option.none_or, ← hx]; exact hcs.1⟩
      · exact ((hb.1.trans hcS.1).trans h3.1).cast (by simp)
      · exact h3.2.1.trans hcS.2.1
      · exact h3.2.2.trans (hcS.2.2.trans hb.2.2)
      · intro x' hx hh hel
        simp only at hx
        cases hde : (doEnd t s2).1 with
        | some y =>
          rw [hde] at hx
          simp only [Option.some_or, Option.some.injEq] at hx
          subst hx
          exact hdr y hde hh hel
        | none =>
          rw [hde, Option.none_or] at hx
          simp only [Option.some.injEq] at hx
          subst hx
          exact h3.1.has _ _ (hcs.2.1 x rfl hh hel)
      · intro h; simp at h
      · intro hn
        simp only [Option.or_eq_none_iff] at hn
        cases hn.2
      · intro hcalm x' hx
        cases hde : (doEnd t s2).1 with
        | some y =>
          rw [hde] at hx
          simp only [Option.some_or, Option.some.injEq] at hx
          subst hx
          rw [hd1] at hde
          obtain ⟨e, he, rfl⟩ := Option.map_eq_some_iff.1 hde
          obtain ⟨k, rfl, hk⟩ := hend.2 e he
          exact hcalm.1 k (.inr (.inr hk))
        | none =>
          rw [hde, Option.none_or] at hx
          simp only [Option.some.injEq] at hx
          subst hx
          exact hcalm.2 x (.inl hcs.1.symm)
      · intro h; simp at h
      · intro hown x' hx
        cases hde : (doEnd t s2).1 with
        | some y =>
          rw [hde] at hx
          simp only [Option.some_or, Option.some.injEq] at hx
          subst hx
          rw [hd1] at hde
          obtain ⟨e, he, rfl⟩ := Option.map_eq_some_iff.1 hde
          rw [hown.2.1]
          exact ofExn_elsewhere _ _
        | none =>
          rw [hde, Option.none_or] at hx
          simp only [Option.some.injEq] at hx
          subst hx
          exact hown.2.2 x (.inr (.inl hcs.1.symm))
  · have hel : t.own → ∀ y, some x = some y → y.elsewhere = false := by
      intro hown y hy
      simp only [Option.some.injEq] at hy
      subst hy
      have := hbs.2.symm
      simp only at this
      obtain ⟨e, he, rfl⟩ := Option.map_eq_some_iff.1 this
      rw [hown.1]
      exact ofExn_elsewhere _ _
    refine ⟨[], .inl rfl, hb.1, hb.2.1.trans hs, hb.2.2, hbr, by simp, by simp, ?_, by simp, hel, fun h => absurd rfl h⟩
    intro hcalm y hy
    simp only [Option.some.injEq] at hy
    subst hy
    have := hbs.2.symm
    simp only at this
    obtain ⟨e, he, rfl⟩ := Option.map_eq_some_iff.1 this
    rcases beginTest_err _ _ _ _ e he with hn | ⟨k, rfl, hk⟩
    · cases e with
      | user k => exact absurd rfl (hn k)
      | _ => rfl
    · exact hcalm.1 k (by rcases hk with h | h <;> simp [h])

theorem fireSummary_ext (t : T) (st : St) :
    Ext st (fireSummary t st).2 [.summary t.id (summaryHook ((st.res.get t.id).getD {}))] ∧
    (fireSummary t st).2.started = st.started ∧ (fireSummary t st).2.cur = st.cur := by
  unfold fireSummary
  have h1 := pure_runStep t.summary (st.emit (.summary t.id (summaryHook ((st.res.get t.id).getD {}))))
  have h2 := pure_handle false (runStep t.summary (st.emit (.summary t.id (summaryHook ((st.res.get t.id).getD {})))))
  exact ⟨(((ext_emit _ _).trans h1.ext).trans h2.ext).cast (by simp), h2.started.trans h1.started, h2.cur.trans h1.cur⟩

/-- the observable protocol of one test -/
def Protocol (i : Nat) (seg : List Ev) : Prop :=
  ∃ av core su cl, seg = av ++ core ++ su ++ (if core = [] then [] else [.hookEnd i]) ++ cl ∧
    (av = [] ∨ (av = [.avoided i] ∧ core = [] ∧ su = [] ∧ cl = [])) ∧
    (core = [] ∨ core = [.hookStart i] ∨ core = [.hookStart i, .body i]) ∧
    (su = [] ∨ ∃ h, su = [.summary i h]) ∧ (cl = [] ∨ cl = [.cleanup])

theorem ctrlEnd_fst (t : T) (prev : Cur) (st : St) :
    (ctrlEnd t prev st).1 = if st.started then t.endHook.raises else none := by
  unfold ctrlEnd
  cases hs : st.started
  · rfl
  · simp only [Bool.not_true, Bool.false_eq_true, if_false, if_true]
    exact runStep_fst _ _

theorem recorded_ctrlEnd (t : T) (prev : Cur) (st : St) (hc : st.test = some t.id) (hi : t.id ∈ ids st) :
    Recorded (ctrlEnd t prev st) t.id := by
  intro x hx hh hel
  have hE := ctrlEnd_fst t prev st
  unfold ctrlEnd at hx ⊢
  cases hs : st.started
  · rw [hs] at hx; cases hx
  · rw [hs] at hx
    simp only [Bool.not_true, Bool.false_eq_true, if_false] at hx ⊢
    have := recorded_runStep t.endHook ({ st with started := false }.emit (.hookEnd t.id)) t.id hc hi x hx hh hel
    rw [hx]
    simpa [Has] using this

/-- an exception raised by a summary hook is recorded -/
theorem has_fireSummary (t : T) (st : St) (hc : st.test = some t.id) (hi : t.id ∈ ids st) (x : X)
    (hx : t.summary.raises = some x) (hel : x.elsewhere = false) : Has (fireSummary t st).2 x.kind t.id := by
  unfold fireSummary
  have h1 := pure_runStep t.summary (st.emit (.summary t.id (summaryHook ((st.res.get t.id).getD {}))))
  exact has_handle false _ t.id (h1.ext.test.trans hc) (by rw [h1.ext.ids]; exact hi)
    (recorded_runStep _ _ _ hc hi) x (by rw [runStep_fst]; exact hx) hel

/-- the block inside the controller together with the exit of the controller (`runner.py:105-127`) -/
def blockEnd (env : Env) (t : T) (isLast : Bool) (prev : Cur) (st : St) : Option X × St :=
  let (x, st) := block env t isLast prev st
  let (x2, st) := ctrlEnd t prev st
  (x2.or x, st)

theorem blockEnd_ext (env : Env) (t : T) (isLast : Bool) (prev : Cur) (st : St) (hs : st.started = false)
    (hc : st.test = some t.id) (hi : t.id ∈ ids st) :
    ∃ core su cl, (core = [] ∨ core = [.hookStart t.id] ∨ core = [.hookStart t.id, .body t.id]) ∧
      (su = [] ∨ ∃ h, su = [.summary t.id h]) ∧ (cl = [] ∨ cl = [.cleanup]) ∧
      Ext st (blockEnd env t isLast prev st).2
        (core ++ su ++ (if core = [] then [] else [.hookEnd t.id]) ++ cl) ∧
      (t.calm → su ≠ []) ∧
      (.body t.id ∈ core → t.startHook.raises = none ∧
        ∀ x, t.body.raises = some x → x.elsewhere = false → Has (blockEnd env t isLast prev st).2 x.kind t.id) ∧
      (t.own → (∀ k, ¬ Has (blockEnd env t isLast prev st).2 k t.id) → .body t.id ∈ core ∧ t.testOut = {}) ∧
      (.body t.id ∈ core → t.nothingHides → ∀ y, t.body.raises = some y → y.kind.isException = false →
        ∃ z, (blockEnd env t isLast prev st).1 = some z ∧ z.kind.isException = false) ∧
      (core ≠ [] → ∀ x, t.endHook.raises = some x → x.kind ≠ .skip → (blockEnd env t isLast prev st).1 = some x ∧
        (x.handled = true → x.elsewhere = false → Has (blockEnd env t isLast prev st).2 x.kind t.id)) ∧
      (su ≠ [] → ∀ x, t.summary.raises = some x → x.elsewhere = false → Has (blockEnd env t isLast prev st).2 x.kind t.id) ∧
      (core ≠ [] → t.testOut = {} → ∀ x, t.startHook.raises = some x → x.elsewhere = false →
        Has (blockEnd env t isLast prev st).2 x.kind t.id) := by
  obtain ⟨core, hcore, he, hst, hcur, hrec, hbody, hnone, hcalm, hint, hown, hsh⟩ := beginRunEnd_ext t st hs hc hi
  have hp := pure_handle true (beginRunEnd t st)
  have hst' : (!core.isEmpty) = decide (core ≠ []) := by cases core <;> rfl
  have hhas := has_handle true (beginRunEnd t st) t.id (he.test.trans hc) (by rw [he.ids]; exact hi) hrec
  have hclean : ∀ s', (∀ k, Has (handle true (beginRunEnd t st)).2 k t.id → Has s' k t.id) → t.own →
      (∀ k, ¬ Has s' k t.id) → .body t.id ∈ core ∧ t.testOut = {} := by
    intro s' hs' ho hn
    apply hnone
    cases hx : (beginRunEnd t st).1 with
    | none => rfl
    | some x => exact absurd (hs' _ (hhas x hx (hown ho x hx))) (hn _)
  have hx := exceptSkip_snd (handle true (beginRunEnd t st))
  have hesc := @exceptSkip_some (handle true (beginRunEnd t st))
  have hint2 : .body t.id ∈ core → t.nothingHides → ∀ y, t.body.raises = some y → y.kind.isException = false →
      ∃ z, (exceptSkip (handle true (beginRunEnd t st))).1 = some z ∧ z.kind.isException = false := by
    intro h1 h2 y hy hk
    obtain ⟨z, hz, hzk⟩ := hint h1 h2 y hy hk
    have hesc : z.kind.escapes = true := by cases z with | mk k f h e => cases k <;> simp_all [Kind.isException, Kind.escapes]
    have hns : z.kind ≠ .skip := by intro h; rw [h] at hzk; cases hzk
    rcases hb : beginRunEnd t st with ⟨_ | x, s⟩
    · rw [hb] at hz; cases hz
    · rw [hb] at hz
      simp only [Option.some.injEq] at hz
      subst hz
      exact ⟨{ x with handled := true }, by simp [handle, exceptSkip, hesc, hns], hzk⟩
  unfold blockEnd block
  simp only
  rw [exceptSkip_snd]
  rcases hr : exceptSkip (handle true (beginRunEnd t st)) with ⟨_ | x, s1⟩ <;> rw [hr] at hx hesc hint2 <;>
    simp only at hx <;> subst hx
  · simp only
    have e1 := (he.trans hp.ext).cast (List.append_nil _)
    have st1 := hp.started.trans hst
    obtain ⟨s1, hs1⟩ : ∃ s1, s1 = (handle true (beginRunEnd t st)).2 := ⟨_, rfl⟩
    rw [← hs1] at e1 st1 hclean hhas ⊢
    have hf := fireSummary_ext t s1
    have hc1 : s1.test = some t.id := e1.test.trans hc
    have hi1 : t.id ∈ ids s1 := by rw [e1.ids]; exact hi
    have fin : ∀ (s' : St) (cl : List Ev) (x' : Option X),
        (core ≠ [] → ∀ x, t.endHook.raises = some x → x.kind ≠ .skip → x' = some x ∧
          (x.handled = true → x.elsewhere = false → Has s' x.kind t.id)) →
        (∀ x, t.summary.raises = some x → x.elsewhere = false → Has s' x.kind t.id) → (cl = [] ∨ cl = [.cleanup]) → Ext s1 s' ([Ev.summary t.id
        (summaryHook ((s1.res.get t.id).getD {}))] ++ (if core = [] then [] else [.hookEnd t.id]) ++ cl) →
        ∃ core su cl, (core = [] ∨ core = [.hookStart t.id] ∨ core = [.hookStart t.id, .body t.id]) ∧
          (su = [] ∨ ∃ h, su = [.summary t.id h]) ∧ (cl = [] ∨ cl = [.cleanup]) ∧
          Ext st s' (core ++ su ++ (if core = [] then [] else [.hookEnd t.id]) ++ cl) ∧
          (t.calm → su ≠ []) ∧
          (.body t.id ∈ core → t.startHook.raises = none ∧ ∀ x, t.body.raises = some x → x.elsewhere = false → Has s' x.kind t.id) ∧
          (t.own → (∀ k, ¬ Has s' k t.id) → .body t.id ∈ core ∧ t.testOut = {}) ∧
          (.body t.id ∈ core → t.nothingHides → ∀ y, t.body.raises = some y → y.kind.isException = false →
            ∃ z, x' = some z ∧ z.kind.isException = false) ∧
          (core ≠ [] → ∀ x, t.endHook.raises = some x → x.kind ≠ .skip → x' = some x ∧
            (x.handled = true → x.elsewhere = false → Has s' x.kind t.id)) ∧
          (su ≠ [] → ∀ x, t.summary.raises = some x → x.elsewhere = false → Has s' x.kind t.id) ∧
          (core ≠ [] → t.testOut = {} → ∀ x, t.startHook.raises = some x → x.elsewhere = false → Has s' x.kind t.id) := by
      intro s' cl x' hEH hSH hcl hE
      refine ⟨core, [.summary t.id (summaryHook ((s1.res.get t.id).getD {}))], cl, hcore, .inr ⟨_, rfl⟩, hcl, ?_, by simp, ?_, ?_, ?_, hEH, fun _ => hSH,
        fun hne ho x hx hel => hE.has _ _ (hhas x (hsh hne ho x hx) hel)⟩
      · exact (e1.trans hE).cast (by simp)
      · intro hb
        refine ⟨(hbody hb).1, fun x hx hel => ?_⟩
        have := (hbody hb).2 x hx hel
        exact hE.has _ _ (by rw [hs1]; exact hp.ext.has _ _ this)
      · exact hclean s' (fun k h => hE.has _ _ h)
      · intro h1 h2 y hy hk
        obtain ⟨z, hz, -⟩ := hint2 h1 h2 y hy hk
        cases hz
    have hsum := has_fireSummary t s1 hc1 hi1
    rcases hr2 : fireSummary t s1 with ⟨_ | x, s2⟩ <;> rw [hr2] at hf hsum <;> simp only
    · have st2 := hf.2.1.trans st1
      have hc2 : s2.test = some t.id := hf.1.test.trans hc1
      have hi2 : t.id ∈ ids s2 := by have := hf.1.ids; simp only at this; rw [this]; exact hi1
      have hst2 : core ≠ [] → s2.started = true := by
        intro hne; rw [show s2.started = _ from st2, hst']; simp [hne]
      split
      · have hE := ctrlEnd_ext t prev s2
        have hEf := ctrlEnd_fst t prev s2
        have hEr := recorded_ctrlEnd t prev s2 hc2 hi2
        rcases hr3 : ctrlEnd t prev s2 with ⟨_ | x, s3⟩ <;> rw [hr3] at hE hEf hEr <;> simp only
        · obtain ⟨⟨cl, hcl, hC⟩, hC2, -⟩ := initiateCleanup_ext env s3
          have hC3 := pure_handle true (initiateCleanup env s3)
          have hE2 := ctrlEnd_ext t prev (handle true (initiateCleanup env s3)).2
          have : (handle true (initiateCleanup env s3)).2.started = false := hC3.started.trans (hC2.trans hE.2.1)
          refine fin _ cl _ (fun hne x hx _ => by rw [hst2 hne, hx] at hEf; cases hEf)
            (fun x hx hel => hE2.1.has _ _ (hC3.ext.has _ _ (hC.has _ _ (hE.1.has _ _ (hsum x hx hel))))) hcl ((((hf.1.trans hE.1).trans hC).trans hC3.ext).trans hE2.1 |>.cast ?_)
          rw [this, show s2.started = _ from st2, hst']
          by_cases hc : core = [] <;> simp [hc]
        · have hE2 := ctrlEnd_ext t prev s3
          refine fin _ [] _ (fun hne x' hx hns => ?_) (fun x hx hel => hE2.1.has _ _ (hE.1.has _ _ (hsum x hx hel)))
            (.inl rfl) ((hf.1.trans hE.1).trans hE2.1 |>.cast ?_)
          · rw [hst2 hne, if_pos rfl, hx] at hEf
            simp only [Option.some.injEq] at hEf
            subst hEf
            refine ⟨?_, fun hh hel => hE2.1.has _ _ (hEr x rfl hh hel)⟩
            rw [ctrlEnd_fst, show s3.started = false from hE.2.1]
            simp [exceptSkip, hns]
          rw [show s3.started = false from hE.2.1, show s2.started = _ from st2, hst']
          by_cases hc : core = [] <;> simp [hc]
      · have hE2 := ctrlEnd_ext t prev s2
        refine fin _ [] _ (fun hne x' hx hns => ?_) (fun x hx hel => hE2.1.has _ _ (hsum x hx hel))
          (.inl rfl) (hf.1.trans hE2.1 |>.cast ?_)
        · have hEf := ctrlEnd_fst t prev s2
          rw [hst2 hne, if_pos rfl, hx] at hEf
          exact ⟨by rw [hEf]; rfl, fun hh hel => recorded_ctrlEnd t prev s2 hc2 hi2 x' hEf hh hel⟩
        rw [show s2.started = _ from st2, hst']
        by_cases hc : core = [] <;> simp [hc]
    · have st2 := hf.2.1.trans st1
      have hE2 := ctrlEnd_ext t prev s2
      have hc2 : s2.test = some t.id := hf.1.test.trans hc1
      have hi2 : t.id ∈ ids s2 := by have := hf.1.ids; simp only at this; rw [this]; exact hi1
      refine fin _ [] _ (fun hne x' hx hns => ?_) (fun x hx hel => hE2.1.has _ _ (hsum x hx hel))
        (.inl rfl) (hf.1.trans hE2.1 |>.cast ?_)
      · have hEf := ctrlEnd_fst t prev s2
        have hst2 : s2.started = true := by rw [show s2.started = _ from st2, hst']; simp [hne]
        rw [hst2, if_pos rfl, hx] at hEf
        exact ⟨by rw [hEf]; rfl, fun hh hel => recorded_ctrlEnd t prev s2 hc2 hi2 x' hEf hh hel⟩
      rw [show s2.started = _ from st2, hst']
      by_cases hc : core = [] <;> simp [hc]
  · have hE2 := ctrlEnd_ext t prev (handle true (beginRunEnd t st)).2
    obtain ⟨hx1, hx2⟩ := hesc rfl
    refine ⟨core, [], [], hcore, .inl rfl, .inl rfl, ?_, ?_, ?_, ?_, ?_, ?_, by simp,
      fun hne ho x hx hel => hE2.1.has _ _ (hhas x (hsh hne ho x hx) hel)⟩
    · refine ((he.trans hp.ext).trans hE2.1).cast ?_
      rw [hp.started.trans hst, hst']
      by_cases hc : core = [] <;> simp [hc]
    · intro hcal
      obtain ⟨y, hy, rfl, hy2⟩ := handle_some hx1
      have h1 := hcalm hcal y hy
      have h2 := hy2 rfl
      have h3 : y.kind ≠ .skip := hx2
      cases y with | mk k f h e => cases k <;> simp_all [Kind.isException, Kind.escapes]
    · intro hb
      refine ⟨(hbody hb).1, fun x hx hel => ?_⟩
      exact hE2.1.has _ _ (hp.ext.has _ _ ((hbody hb).2 x hx hel))
    · exact hclean _ (fun k h => hE2.1.has _ _ h)
    · intro h1 h2 y hy hk
      obtain ⟨z, hz, hzk⟩ := hint2 h1 h2 y hy hk
      simp only [Option.some.injEq] at hz
      subst hz
      simp only [exceptSkip, hx2, if_false, ctrlEnd_fst]
      cases he : t.endHook.raises with
      | none => exact ⟨x, by simp, hzk⟩
      | some e =>
        split
        · exact ⟨e, by simp, h2.2 e he⟩
        · exact ⟨x, by simp, hzk⟩
    · intro hne x' hx hns
      have e1 := (he.trans hp.ext).cast (List.append_nil _)
      have hEf := ctrlEnd_fst t prev (handle true (beginRunEnd t st)).2
      rw [hp.started.trans hst, hst', decide_eq_true hne, if_pos rfl, hx] at hEf
      exact ⟨by rw [hEf]; rfl, fun hh hel => recorded_ctrlEnd t prev _ (e1.test.trans hc) (by rw [e1.ids]; exact hi) x' hEf hh hel⟩

theorem create_some {s s' : SessionResults} {id : Nat} (h : s.create id = some s') :
    s'.tests = s.tests ++ [(id, ({} : Result))] ∧ s'.global = s.global ∧ s'.workerError = s.workerError ∧ id ∉ s.tests.map (·.1) := by
  unfold SessionResults.create at h
  split at h
  · cases h
  · next hl =>
    simp only [Option.some.injEq] at h
    subst h
    refine ⟨rfl, rfl, rfl, ?_⟩
    intro hm
    apply hl
    simp only [SessionResults.lookup, Option.isSome_map]
    rw [List.mem_map] at hm
    obtain ⟨p, hp, rfl⟩ := hm
    rw [List.find?_isSome]
    exact ⟨p, hp, by simp⟩

theorem create_isSome (s : SessionResults) (id : Nat) : (s.create id).isSome = true ↔ id ∉ s.tests.map (·.1) := by
  constructor
  · intro h
    obtain ⟨s', hs'⟩ := Option.isSome_iff_exists.1 h
    exact (create_some hs').2.2.2
  · intro h
    unfold SessionResults.create
    rw [if_neg]
    · rfl
    · intro hl
      simp only [SessionResults.lookup, Option.isSome_map, List.find?_isSome] at hl
      obtain ⟨p, hp, hpe⟩ := hl
      exact h (List.mem_map.2 ⟨p, hp, by simpa using hpe⟩)

theorem get_isSome (s : SessionResults) (id : Nat) : (s.get id).isSome = true ↔ id ∈ s.tests.map (·.1) := by
  simp only [SessionResults.get, SessionResults.lookup, Option.isSome_map, List.find?_isSome, List.mem_map]
  constructor
  · rintro ⟨p, hp, he⟩; exact ⟨p, hp, by simpa using he⟩
  · rintro ⟨p, hp, he⟩; exact ⟨p, hp, by simpa using he⟩

/-- what is known about the run of one test: its part of the trace, the state after it, what it raised -/
structure SegOk (t : T) (seg : List Ev) (st' : St) (x : Option X) : Prop where
  proto : Protocol t.id seg
  calmSummary : t.calm → .hookStart t.id ∈ seg → ∃ h, .summary t.id h ∈ seg
  body : .body t.id ∈ seg → t.reqStep.raises = none ∧ t.avoid = [] ∧ t.startHook.raises = none ∧
    ∀ x, t.body.raises = some x → x.elsewhere = false → Has st' x.kind t.id
  clean : t.own → (∀ k, ¬ Has st' k t.id) → .body t.id ∈ seg ∧ t.testOut = {}
  interrupt : .body t.id ∈ seg → t.nothingHides → ∀ y, t.body.raises = some y →
    y.kind.isException = false → ∃ z, x = some z ∧ z.kind.isException = false
  avoided : t.avoid ≠ [] → .body t.id ∉ seg ∧ .hookStart t.id ∉ seg
  escapes : ∀ y, x = some y → y.kind.escapes = true
  endHook : .hookEnd t.id ∈ seg → ∀ x, t.endHook.raises = some x → x.kind ≠ .skip → x.elsewhere = false → Has st' x.kind t.id
  summary : ∀ h, .summary t.id h ∈ seg → ∀ x, t.summary.raises = some x → x.elsewhere = false → Has st' x.kind t.id
  startHook : .hookStart t.id ∈ seg → t.testOut = {} → ∀ x, t.startHook.raises = some x → x.elsewhere = false → Has st' x.kind t.id

theorem has_avoid (reasons : List String) (st : St) (id : Nat) (hc : st.cur = .test id) (hi : id ∈ ids st)
    (hne : reasons ≠ []) : Has (reasons.foldl (fun (st : St) (r : String) => st.ev (.skip r)) st) .skip id := by
  cases reasons with
  | nil => exact absurd rfl hne
  | cons r rs =>
    rw [List.foldl_cons]
    have h1 := pure_ev st (.skip r)
    exact (pure_foldl (fun (st : St) (r : String) => st.ev (.skip r)) (fun st r => pure_ev st _) rs _).ext.has _ _
      (has_ev _ _ _ _ hc hi (by intro r'; simp [Shows, Result.apply, Result.addSkip]))

theorem innerHandled_ok (env : Env) (t : T) (isLast : Bool) (prev : Cur) (st : St) (hc : st.cur = .test t.id) (hct : st.test = some t.id)
    (hi : t.id ∈ ids st) :
    ∃ seg, Ext st (handle true (inner env t isLast prev st)).2 seg ∧
      SegOk t seg (handle true (inner env t isLast prev st)).2 (handle true (inner env t isLast prev st)).1 := by
  have hesc : ∀ y, (handle true (inner env t isLast prev st)).1 = some y → y.kind.escapes = true := by
    intro y hy
    obtain ⟨z, -, rfl, hz⟩ := handle_some hy
    exact hz rfl
  have hph := pure_handle true (inner env t isLast prev st)
  have h1 := pure_runStep t.reqStep st
  have hr1 := recorded_runStep t.reqStep st t.id hct hi
  have hf1 := runStep_fst t.reqStep st
  rcases hr : runStep t.reqStep st with ⟨_ | x, s1⟩ <;> rw [hr] at h1 hr1 hf1
  · have hc1 : s1.cur = .test t.id := h1.cur.trans hc
    have hi1 : t.id ∈ ids s1 := by have := h1.ext.ids; simp only at this; rw [this]; exact hi
    by_cases ha : t.avoid = []
    · -- runs
      have hin : inner env t isLast prev st = blockEnd env t isLast prev { s1.ev .start with started := false } := by
        simp only [inner, processReqs, hr, ha, if_true, blockEnd]
      have h2 := pure_ev s1 .start
      obtain ⟨core, su, cl, hcore, hsu, hcl, hE, hcalm, hbody, hclean, hint, hEH, hSH, hStart⟩ :=
        blockEnd_ext env t isLast prev { s1.ev .start with started := false } rfl (h2.ext.test.trans (h1.ext.test.trans hct))
          (by have := h2.ext.ids
              exact (show ids { s1.ev .start with started := false } = ids s1 from this) ▸ hi1)
      have h3 : Ext (s1.ev .start) { s1.ev .start with started := false } [] := ⟨by simp, rfl, rfl, rfl, rfl, fun _ _ h => h, rfl⟩
      rw [hin] at hph hesc ⊢
      have hmem : ∀ i, Ev.body i ∈ (core ++ su ++ (if core = [] then [] else [.hookEnd t.id]) ++ cl) → .body i ∈ core := by
        intro i h
        simp only [List.mem_append] at h
        rcases h with ((h | h) | h) | h
        · exact h
        · rcases hsu with rfl | ⟨_, rfl⟩ <;> simp at h
        · split at h <;> simp at h
        · rcases hcl with rfl | rfl <;> simp at h
      refine ⟨_, ((((h1.ext.trans h2.ext).trans h3).trans hE).trans hph.ext).cast
        (by simp : _ = core ++ su ++ (if core = [] then [] else [.hookEnd t.id]) ++ cl), ?_⟩
      refine ⟨⟨[], core, su, cl, by simp, .inl rfl, hcore, hsu, hcl⟩, ?_, ?_, ?_, ?_, ?_, hesc, ?_, ?_, ?_⟩
      · intro hcal _
        rcases hsu with rfl | ⟨h, rfl⟩
        · exact absurd rfl (hcalm hcal)
        · exact ⟨h, by simp⟩
      · intro hb
        have hb := hmem _ hb
        exact ⟨hf1.symm, ha, (hbody hb).1, fun x hx hel => hph.ext.has _ _ ((hbody hb).2 x hx hel)⟩
      · intro ho hn
        have := hclean ho (fun k hk => hn k (hph.ext.has _ _ hk))
        exact ⟨by simp [this.1], this.2⟩
      · intro hb ho y hy hk
        obtain ⟨z, hz, hzk⟩ := hint (hmem _ hb) ho y hy hk
        have hesc : z.kind.escapes = true := by cases z with | mk k f h e => cases k <;> simp_all [Kind.isException, Kind.escapes]
        rcases hbe : blockEnd env t isLast prev { s1.ev .start with started := false } with ⟨_ | x, s⟩
        · rw [hbe] at hz; cases hz
        · rw [hbe] at hz
          simp only [Option.some.injEq] at hz
          subst hz
          exact ⟨{ x with handled := true }, by simp [handle, hesc], hzk⟩
      · intro h; exact absurd ha h
      · intro hm x hx hns hel
        have hne : core ≠ [] := by
          rintro rfl
          rcases hsu with rfl | ⟨h, rfl⟩ <;> rcases hcl with rfl | rfl <;> simp at hm
        obtain ⟨hb1, hb2⟩ := hEH hne x hx hns
        have hi' : t.id ∈ ids (blockEnd env t isLast prev { s1.ev .start with started := false }).2 := by
          rw [hE.ids]
          have := h2.ext.ids
          exact (show ids { s1.ev .start with started := false } = ids s1 from this) ▸ hi1
        exact has_handle true _ t.id (hE.test.trans (h2.ext.test.trans (h1.ext.test.trans hct))) hi'
          (fun y hy hh hel => by rw [hb1] at hy; simp only [Option.some.injEq] at hy; subst hy; exact hb2 hh hel) x hb1 hel
      · intro h hm x hx hel
        have hne : su ≠ [] := by
          rintro rfl
          rcases hcore with rfl | rfl | rfl <;> rcases hcl with rfl | rfl <;> simp at hm
        exact hph.ext.has _ _ (hSH hne x hx hel)
      · intro hm ho x hx hel
        have hne : core ≠ [] := by
          rintro rfl
          rcases hsu with rfl | ⟨h, rfl⟩ <;> rcases hcl with rfl | rfl <;> simp at hm
        exact hph.ext.has _ _ (hStart hne ho x hx hel)
    · -- avoided
      obtain ⟨s2, hs2⟩ : ∃ s2, s2 = t.avoid.foldl (fun (st : St) (r : String) => st.ev (.skip r)) s1 := ⟨_, rfl⟩
      have h2 := pure_foldl (fun (st : St) (r : String) => st.ev (.skip r)) (fun st r => pure_ev st _) t.avoid s1
      have hskip := has_avoid t.avoid s1 t.id hc1 hi1 ha
      rw [← hs2] at h2 hskip
      have h3 := pure_runStep t.avoidedHook (s2.emit (.avoided t.id))
      have hin : inner env t isLast prev st = runStep t.avoidedHook (s2.emit (.avoided t.id)) := by
        simp only [inner, processReqs, hr, ha, if_false, ← hs2]
        rcases runStep t.avoidedHook (s2.emit (.avoided t.id)) with ⟨_ | x, s3⟩ <;> rfl
      rw [hin] at hph hesc ⊢
      have hskip2 := hph.ext.has _ _ (h3.ext.has _ _ ((ext_emit s2 (.avoided t.id)).has _ _ hskip))
      refine ⟨[.avoided t.id], ((((h1.ext.trans h2.ext).trans (ext_emit _ _)).trans h3.ext).trans hph.ext).cast (by simp), ?_⟩
      refine ⟨⟨[.avoided t.id], [], [], [], by simp, .inr ⟨rfl, rfl, rfl, rfl⟩, .inl rfl, .inl rfl, .inl rfl⟩, ?_, ?_, ?_, ?_, ?_, hesc, by simp, by simp, by simp⟩
      · intro _ h; simp at h
      · intro h; simp at h
      · intro _ hn; exact absurd hskip2 (hn _)
      · intro h; simp at h
      · intro _; simp
  · have hin : inner env t isLast prev st = (some x, s1) := by simp [inner, processReqs, hr]
    rw [hin] at hph hesc ⊢
    have hhas := has_handle true (some x, s1) t.id (h1.ext.test.trans hct)
      (by have := h1.ext.ids; simp only at this; rw [this]; exact hi) hr1 x rfl
    refine ⟨[], (h1.ext.trans hph.ext).cast (by simp), ?_⟩
    refine ⟨⟨[], [], [], [], by simp, .inl rfl, .inl rfl, .inl rfl, .inl rfl⟩, ?_, ?_, ?_, ?_, ?_, hesc, by simp, by simp, by simp⟩
    · intro _ h; simp at h
    · intro h; simp at h
    · intro ho hn; exact absurd (hhas (ho.2.2 x (.inl hf1.symm))) (hn _)
    · intro h; simp at h
    · intro _; simp

/-- what running one test does, from the outside -/
theorem runSingle_ok (env : Env) (t : T) (isLast : Bool) (st : St) (hf : t.id ∉ ids st) :
    ∃ seg, SegOk t seg (runSingle env t isLast st).2 (runSingle env t isLast st).1 ∧
      (runSingle env t isLast st).2.trace = st.trace ++ seg ∧
      (runSingle env t isLast st).2.lastFile = st.lastFile ∧
      (runSingle env t isLast st).2.indexed = st.indexed ∧
      (runSingle env t isLast st).2.complete = st.complete ∧
      ids (runSingle env t isLast st).2 = ids st ++ [t.id] ∧
      (runSingle env t isLast st).2.cur = st.cur ∧
      (∀ k id, Has st k id → Has (runSingle env t isLast st).2 k id) := by
  unfold runSingle
  have hcs := (create_isSome st.res t.id).2 hf
  obtain ⟨res, hc⟩ := Option.isSome_iff_exists.1 hcs
  obtain ⟨h1, h2, h3, h4⟩ := create_some hc
  simp only [hc]
  obtain ⟨seg, he, hseg⟩ := innerHandled_ok env t isLast st.cur { st with res := res, cur := .test t.id, test := some t.id } rfl rfl
    (by simp [ids, h1])
  refine ⟨seg, ?_, he.trace, he.lastFile, he.indexed, he.complete, ?_, trivial, ?_⟩
  · exact ⟨hseg.proto, hseg.calmSummary, hseg.body, hseg.clean, hseg.interrupt, hseg.avoided, hseg.escapes, hseg.endHook, hseg.summary, hseg.startHook⟩
  · have := he.ids
    simp only [ids, h1, List.map_append, List.map_cons, List.map_nil] at this ⊢
    exact this
  · intro k id h
    refine he.has k id ?_
    obtain ⟨p, hp, hpi, hps⟩ := h
    exact ⟨p, by simp [h1, hp], hpi, hps⟩

theorem runSingle_dup (env : Env) (t : T) (isLast : Bool) (st : St) (hf : t.id ∈ ids st) :
    runSingle env t isLast st = (some { kind := .error }, st) := by
  unfold runSingle
  cases hc : st.res.create t.id with
  | none => rfl
  | some res => exact absurd hf (create_some hc).2.2.2

/-! ## The loop -/

theorem SegOk.mono {t : T} {seg : List Ev} {a b : St} {x : Option X} (h : SegOk t seg a x)
    (hab : ∀ k id, Has a k id → Has b k id) : SegOk t seg b x :=
  ⟨h.proto, h.calmSummary, fun hb => ⟨(h.body hb).1, (h.body hb).2.1, (h.body hb).2.2.1, fun x hx hel => hab _ _ ((h.body hb).2.2.2 x hx hel)⟩,
   fun ho hn => h.clean ho (fun k hk => hn k (hab _ _ hk)), h.interrupt, h.avoided, h.escapes,
   fun hm x hx hns hel => hab _ _ (h.endHook hm x hx hns hel), fun e hm x hx hel => hab _ _ (h.summary e hm x hx hel),
   fun hm ho x hx hel => hab _ _ (h.startHook hm ho x hx hel)⟩

/-- the trace of the loop: the segments of the tests with the reporter calls around them -/
def render (crashed : Bool) : Option Nat → List (T × List Ev) → List T → List Ev
  | _, [], _ => []
  | last, (t, seg) :: more, rest =>
    (if last = some t.file then [] else [.fileStart t.file]) ++ [.reportStart t.id] ++ seg ++
    (if (more.isEmpty && crashed) = true then [] else [.reportEnd t.id] ++
      (if (more.map (·.1) ++ rest).head?.map (·.file) = some t.file then [] else [.fileEnd t.file])) ++
    render crashed (some t.file) more rest

/-- the tests are distinct, and none of them was run or got an index before -/
structure Fresh (ts : List T) (st : St) : Prop where
  nodup : (ts.map (·.id)).Nodup
  ids : ∀ t ∈ ts, t.id ∉ ids st
  indexed : ∀ t ∈ ts, t.id ∉ st.indexed

theorem runSingle_test (env : Env) (t : T) (isLast : Bool) (st : St) : (runSingle env t isLast st).2.test = st.test := by
  unfold runSingle
  split <;> rfl

theorem loop_test (env : Env) (ts : List T) (st : St) : (loop env ts st).2.2.2.test = st.test := by
  induction ts generalizing st with
  | nil => rfl
  | cons t ts ih =>
    unfold loop
    split
    · rfl
    · simp only
      have h0 : ∀ s0 : St, s0.test = st.test → (runSingle env t ts.isEmpty (s0.emit (.reportStart t.id))).2.test = st.test :=
        fun s0 h => (runSingle_test _ _ _ _).trans h
      split
      · rename_i x s1 hr
        have := h0 (if st.lastFile ≠ some t.file then
          { St.emit { st with indexed := t.id :: st.indexed } (.fileStart t.file) with lastFile := some t.file }
          else { st with indexed := t.id :: st.indexed }) (by split <;> rfl)
        rw [hr] at this
        exact this
      · rename_i s1 hr
        have := h0 (if st.lastFile ≠ some t.file then
          { St.emit { st with indexed := t.id :: st.indexed } (.fileStart t.file) with lastFile := some t.file }
          else { st with indexed := t.id :: st.indexed }) (by split <;> rfl)
        rw [hr] at this
        split
        · exact this
        · repeat' split
          all_goals first | exact this | (rw [ih]; exact this)

/-- what is known about the loop -/
structure LoopOk (env : Env) (ts : List T) (st : St) (r : Option X × Bool × List T × St) (segs : List (T × List Ev)) : Prop where
  split : ts = segs.map (·.1) ++ r.2.2.1
  eachSeg : ∀ p ∈ segs, ∃ y, SegOk p.1 p.2 r.2.2.2 y ∧ (y ≠ none → segs.getLast? = some p ∧ y = r.1)
  lastSeg : ∀ p, segs.getLast? = some p → SegOk p.1 p.2 r.2.2.2 r.1
  trace : r.2.2.2.trace = st.trace ++ render r.1.isSome st.lastFile segs r.2.2.1
  ids : ids r.2.2.2 = ids st ++ segs.map (·.1.id)
  cur : r.2.2.2.cur = st.cur
  flag : r.2.2.2.complete = st.complete
  lastFile : r.2.2.2.lastFile = (segs.getLast?.map (·.1.file)).or st.lastFile
  has : ∀ k id, Has st k id → Has r.2.2.2 k id
  complete : r.2.1 = true → r.2.2.1 = [] ∧ r.1 = none
  crash : r.1 ≠ none → segs ≠ [] ∧ r.2.1 = false
  stop : r.1 = none → r.2.1 = false → ∃ p res, segs.getLast? = some p ∧ r.2.2.2.res.get p.1.id = some res ∧
    (res.hasFatal = true ∨ (env.stop = true ∧ r.2.2.2.res.isSuccess true = false))
  goOn : r.2.1 = true → env.stop = true → segs ≠ [] → r.2.2.2.res.isSuccess true = true

theorem loop_ok (env : Env) (ts : List T) (st : St) (hf : Fresh ts st) : ∃ segs, LoopOk env ts st (loop env ts st) segs := by
  induction ts generalizing st with
  | nil =>
    refine ⟨[], ⟨rfl, by simp, by simp, by simp [loop, render], by simp [loop], rfl, rfl, by simp [loop], fun _ _ h => h, fun _ => ⟨rfl, rfl⟩, ?_, ?_, ?_⟩⟩
    · intro h; exact absurd rfl h
    · intro _ h; cases h
    · intro _ _ h; exact absurd rfl h
  | cons t ts ih =>
    unfold loop
    have hidx : t.id ∉ st.indexed := hf.indexed t (by simp)
    rw [if_neg hidx]
    simp only
    obtain ⟨s0, hs0⟩ : ∃ s0, s0 = (if st.lastFile ≠ some t.file then
      { ({ st with indexed := t.id :: st.indexed } : St).emit (.fileStart t.file) with lastFile := some t.file }
      else { st with indexed := t.id :: st.indexed }) := ⟨_, rfl⟩
    have e0 : s0.trace = st.trace ++ (if st.lastFile = some t.file then [] else [.fileStart t.file]) ∧
        s0.lastFile = some t.file ∧ s0.indexed = t.id :: st.indexed ∧ s0.complete = st.complete ∧ s0.res = st.res ∧
        s0.cur = st.cur := by
      rw [hs0]
      by_cases h : st.lastFile = some t.file
      · simp [h]
      · simp [h, St.emit]
    rw [← hs0]
    have hid : t.id ∉ ids (s0.emit (.reportStart t.id)) := by
      have : ids (s0.emit (.reportStart t.id)) = ids st := by simp [ids, St.emit, e0.2.2.2.2.1]
      rw [this]; exact hf.ids t (by simp)
    obtain ⟨seg, hseg, h1, h2, h3, h4, h5, h6, h7⟩ := runSingle_ok env t ts.isEmpty (s0.emit (.reportStart t.id)) hid
    have h1' : (runSingle env t ts.isEmpty (s0.emit (.reportStart t.id))).2.trace =
        st.trace ++ ((if st.lastFile = some t.file then [] else [.fileStart t.file]) ++ [.reportStart t.id] ++ seg) := by
      rw [h1]; simp [St.emit, e0.1]
    have h5' : ids (runSingle env t ts.isEmpty (s0.emit (.reportStart t.id))).2 = ids st ++ [t.id] := by
      rw [h5]; simp [ids, St.emit, e0.2.2.2.2.1]
    have h7' : ∀ k id, Has st k id → Has (runSingle env t ts.isEmpty (s0.emit (.reportStart t.id))).2 k id := by
      intro k id h
      apply h7
      obtain ⟨p, hp, hh⟩ := h
      exact ⟨p, by simpa [St.emit, e0.2.2.2.2.1] using hp, hh⟩
    rcases hr : runSingle env t ts.isEmpty (s0.emit (.reportStart t.id)) with ⟨_ | x, s1⟩ <;>
      rw [hr] at hseg h1' h2 h3 h4 h5' h6 h7' <;> simp only at hseg h1' h2 h3 h4 h5' h6 h7' ⊢
    · have hget : (s1.res.get t.id).isSome = true := by
        rw [get_isSome]
        have : t.id ∈ ids s1 := by rw [h5']; simp
        exact this
      obtain ⟨res, hres⟩ := Option.isSome_iff_exists.1 hget
      rw [hres]
      simp only
      obtain ⟨s2, hs2⟩ : ∃ s2, s2 = (if ts.head?.map (·.file) ≠ some t.file then
        (s1.emit (.reportEnd t.id)).emit (.fileEnd t.file) else s1.emit (.reportEnd t.id)) := ⟨_, rfl⟩
      have e2 : s2.trace = s1.trace ++ ([.reportEnd t.id] ++ (if ts.head?.map (·.file) = some t.file then [] else [.fileEnd t.file])) ∧
          s2.lastFile = s1.lastFile ∧ s2.indexed = s1.indexed ∧ s2.complete = s1.complete ∧ s2.res = s1.res ∧ s2.cur = s1.cur := by
        rw [hs2]
        by_cases h : ts.head?.map (·.file) = some t.file
        · simp [h, St.emit]
        · simp [h, St.emit]
      rw [← hs2]
      have hasm : ∀ k id, Has s1 k id → Has s2 k id := by
        intro k id ⟨p, hp, hh⟩; exact ⟨p, by rw [e2.2.2.2.2.1]; exact hp, hh⟩
      have ids2 : ids s2 = ids st ++ [t.id] := by
        have : ids s2 = ids s1 := by simp [ids, e2.2.2.2.2.1]
        rw [this, h5']
      have lf2 : s2.lastFile = some t.file := e2.2.1.trans (h2.trans e0.2.1)
      -- the cases where the loop stops here
      have stopHere : ∀ b : Bool, (b = true → ts = []) →
          (b = false → res.hasFatal = true ∨ (env.stop = true ∧ s2.res.isSuccess true = false)) →
          (b = true → env.stop = true → s2.res.isSuccess true = true) →
          LoopOk env (t :: ts) st (none, b, ts, s2) [(t, seg)] := by
        intro b hb1 hb2 hb3
        refine ⟨by simp, ?_, ?_, ?_, by simp [ids2], ?_, ?_, ?_, ?_, ?_, ?_, ?_, ?_⟩
        · intro p hp
          simp only [List.mem_singleton] at hp
          subst hp
          exact ⟨none, hseg.mono hasm, by simp⟩
        · intro p hp
          simp only [List.getLast?_singleton, Option.some.injEq] at hp
          subst hp
          exact hseg.mono hasm
        · simp [e2.1, h1', render]
        · exact e2.2.2.2.2.2.trans (h6.trans e0.2.2.2.2.2)
        · exact e2.2.2.2.1.trans (h4.trans e0.2.2.2.1)
        · simp [lf2]
        · exact fun k id h => hasm k id (h7' k id h)
        · intro h; exact ⟨hb1 h, rfl⟩
        · intro h; exact absurd rfl h
        · intro _ h
          exact ⟨(t, seg), res, by simp, by simp [e2.2.2.2.2.1, hres], hb2 h⟩
        · intro h h' _; exact hb3 h h'
      by_cases hfat : res.hasFatal = true
      · rw [if_pos hfat]
        exact ⟨[(t, seg)], stopHere false (by simp) (fun _ => .inl hfat) (by simp)⟩
      · rw [if_neg hfat]
        by_cases hstop : (env.stop && !s2.res.isSuccess true) = true
        · rw [if_pos hstop]
          exact ⟨[(t, seg)], stopHere false (by simp) (fun _ => .inr (by simpa using hstop)) (by simp)⟩
        · rw [if_neg hstop]
          have hfr : Fresh ts s2 := by
            have hn := hf.nodup
            simp only [List.map_cons, List.nodup_cons, List.mem_map, not_exists, not_and] at hn
            refine ⟨hn.2, ?_, ?_⟩
            · intro u hu
              rw [ids2]
              simp only [List.mem_append, List.mem_singleton, not_or]
              exact ⟨hf.ids u (by simp [hu]), fun h => hn.1 u hu h⟩
            · intro u hu
              have : s2.indexed = t.id :: st.indexed := e2.2.2.1.trans (h3.trans e0.2.2.1)
              rw [this]
              simp only [List.mem_cons, not_or]
              exact ⟨fun h => hn.1 u hu h, hf.indexed u (by simp [hu])⟩
          obtain ⟨segs, ok⟩ := ih s2 hfr
          cases hsegs : segs with
          | nil =>
            subst hsegs
            have hx : (loop env ts s2).1 = none := by
              cases hh : (loop env ts s2).1 with
              | none => rfl
              | some x => exact absurd rfl (ok.crash (by simp [hh])).1
            have hc : (loop env ts s2).2.1 = true := by
              cases hh : (loop env ts s2).2.1 with
              | true => rfl
              | false => obtain ⟨p, _, hp, _⟩ := ok.stop hx hh; cases hp
            have hts : ts = [] := by
              have h1 := ok.split; have h2 := (ok.complete hc).1; rw [h2] at h1; simpa using h1
            subst hts
            refine ⟨[(t, seg)], stopHere true (by simp) (by simp) ?_⟩
            intro _ hs
            simpa [hs] using hstop
          | cons q segs' =>
            have hne : segs ≠ [] := by rw [hsegs]; simp
            refine ⟨(t, seg) :: segs, ⟨?_, ?_, ?_, ?_, ?_, ?_, ?_, ?_, ?_, ?_, ?_, ?_, ?_⟩⟩
            · simp only [List.map_cons, List.cons_append]; rw [← ok.split]
            · intro p hp
              simp only [List.mem_cons] at hp
              rcases hp with rfl | hp
              · exact ⟨none, (hseg.mono hasm).mono ok.has, by simp⟩
              · obtain ⟨y, hy, hy2⟩ := ok.eachSeg p hp
                refine ⟨y, hy, fun h => ?_⟩
                rw [hsegs, List.getLast?_cons_cons, ← hsegs]
                exact hy2 h
            · intro p hp
              rw [hsegs, List.getLast?_cons_cons, ← hsegs] at hp
              exact ok.lastSeg p hp
            · rw [ok.trace, e2.1, h1', lf2]
              have hh : ts.head? = (segs.map (·.1) ++ (loop env ts s2).2.2.1).head? := by rw [← ok.split]
              have hem : segs.isEmpty = false := by rw [hsegs]; rfl
              simp only [render, hem, Bool.false_and, Bool.false_eq_true, if_false]
              rw [← hh]
              simp only [List.append_assoc, List.cons_append, List.nil_append]
            · rw [ok.ids, ids2]; simp
            · exact ok.cur.trans (e2.2.2.2.2.2.trans (h6.trans e0.2.2.2.2.2))
            · exact ok.flag.trans (e2.2.2.2.1.trans (h4.trans e0.2.2.2.1))
            · rw [ok.lastFile, hsegs, List.getLast?_cons_cons]
              cases hl : (q :: segs').getLast? with
              | none => simp at hl
              | some v => simp
            · exact fun k id h => ok.has k id (hasm k id (h7' k id h))
            · exact ok.complete
            · intro h; exact ⟨by simp, (ok.crash h).2⟩
            · intro h h'
              obtain ⟨p, res, hp, hh⟩ := ok.stop h h'
              refine ⟨p, res, ?_, hh⟩
              rw [hsegs, List.getLast?_cons_cons, ← hsegs]; exact hp
            · intro h h' _; exact ok.goOn h h' hne
    · refine ⟨[(t, seg)], ⟨by simp, ?_, ?_, ?_, by simp [h5'], ?_, ?_, ?_, h7', ?_, ?_, ?_, ?_⟩⟩
      · intro p hp
        simp only [List.mem_singleton] at hp
        subst hp
        exact ⟨some x, hseg, by simp⟩
      · intro p hp
        simp only [List.getLast?_singleton, Option.some.injEq] at hp
        subst hp
        exact hseg
      · simp [h1', render]
      · exact h6.trans e0.2.2.2.2.2
      · exact h4.trans e0.2.2.2.1
      · simp [h2, St.emit, e0.2.1]
      · intro h; cases h
      · intro _; exact ⟨by simp, rfl⟩
      · intro h; cases h
      · intro h; cases h

/-! ## After the loop -/

theorem markUnrun_ok (ts : List T) (st : St) (hn : (ts.map (·.id)).Nodup) (hi : ∀ t ∈ ts, t.id ∉ ids st) :
    (markUnrun ts st).1 = none ∧ (markUnrun ts st).2 =
      { st with res := { st.res with tests := st.res.tests ++ ts.map (fun t => (t.id, {})) } } := by
  induction ts generalizing st with
  | nil => simp [markUnrun]
  | cons t ts ih =>
    have hcs := (create_isSome st.res t.id).2 (hi t (by simp))
    obtain ⟨res, hc⟩ := Option.isSome_iff_exists.1 hcs
    obtain ⟨h1, h2, h3, h4⟩ := create_some hc
    simp only [markUnrun, hc]
    simp only [List.map_cons, List.nodup_cons, List.mem_map, not_exists, not_and] at hn
    have := ih { st with res := res } hn.2 (by
      intro u hu
      simp only [ids, h1, List.map_append, List.map_cons, List.map_nil, List.mem_append, List.mem_singleton, not_or]
      exact ⟨hi u (by simp [hu]), fun h => hn.1 u hu h⟩)
    refine ⟨this.1, ?_⟩
    rw [this.2]
    obtain ⟨g, tt, w⟩ := res
    simp only at h1 h2 h3
    subst h1 h2 h3
    simp

end Slash.Runner
