import Verif.Lemmas.FixtureOrder
import Verif.Lemmas.FixtureFuel
/-!
# Fixture values: properties C16, C17, C23 (and C18 at run time)
-/
namespace Slash.Fix

open Slash.FG (FDef)

/-- All that can happen to the fixture store in a session whose fixtures are defined by `D` and whose fixture functions
behave as `B`: any number of tests are set up, with any variation, successfully or not; scopes end, in any order, with or
without exceptions and interruptions. -/
inductive Session (D : Nat → FDef) (B : Nat → Nat → Body) : St → Prop
  | start : Session D B {}
  | setup {st} (E : Env) (fuel : Nat) (fs : List Nat) : Session D B st → E.defs = D → E.body = B → Session D B (setup E fuel fs st).2
  | scopeEnd {st} (s : Nat) (interrupted : Bool) : Session D B st → Session D B (popScope D s interrupted st).2

theorem Session.base {D B} {st : St} (h : Session D B st) : Base D B st := by
  induction h with
  | start => exact base_init D B
  | setup E fuel fs _ h1 h2 ih => subst h1; subst h2; exact ih.steps (setup_steps E fuel fs _)
  | scopeEnd s i _ ih => exact popScope_base s i _ ih

theorem deactivate_computing (f : Nat) (st : St) : (deactivate f st).2.computing = st.computing := by
  obtain ⟨d, h, -, -⟩ := deactivate_spec f st
  rw [h]

theorem popLoop_computing (fs : List Nat) (st : St) : (popLoop fs st).2.computing = st.computing := by
  induction fs generalizing st with
  | nil => rfl
  | cons f fs ih =>
    simp only [popLoop]
    have h := deactivate_computing f st
    generalize deactivate f st = p at h ⊢
    rcases p with ⟨r, st1⟩
    cases r with
    | none => exact (ih st1).trans h
    | some k =>
      simp only
      split
      · exact h
      · exact (ih st1).trans h

theorem popScopes_computing (D : Nat → FDef) (s : Nat) (ks : List Nat) (st : St) : (popScopes D s ks st).2.computing = st.computing := by
  induction ks generalizing st with
  | nil => rfl
  | cons k ks ih =>
    simp only [popScopes]
    split
    · have h := popLoop_computing ((st.active.filter (fun a => (D a.id).scope == k)).map (·.id)).reverse st
      generalize popLoop ((st.active.filter (fun a => (D a.id).scope == k)).map (·.id)).reverse st = p at h ⊢
      rcases p with ⟨r, st1⟩
      cases r with
      | none => exact (ih st1).trans h
      | some e => exact h
    · exact ih st

/-- between tests no fixture is being computed -/
theorem Session.computing {D B} {st : St} (h : Session D B st) : st.computing = [] := by
  induction h with
  | start => rfl
  | setup E fuel fs h h1 h2 ih =>
    obtain ⟨d, hd, -⟩ := setup_spec E fuel fs _ h.base.wf
    exact hd.comp.trans ih
  | scopeEnd s i _ ih =>
    unfold popScope
    split
    · exact ih
    · exact (popScopes_computing D s _ _).trans ih

/-! ## C16 -/

/-- The value of a fixture in the setup of a test whose events are `d`, starting in state `st`: that of a call made in
this setup, or one from before, if all the parameters the fixture depends on have the same value as then. -/
def ValueOf (E : Env) (st : St) (d : List Ev) (g v : Nat) : Prop :=
  (∃ args, .call g v args ∈ d) ∨ ∃ a ∈ st.active, a.id = g ∧ a.value = v ∧ ∀ p ∈ E.params g, (p, E.var p) ∈ a.deps

theorem isValid_iff (E : Env) (a : Act) : isValid E a = true ↔ ∀ p ∈ E.params a.id, (p, E.var p) ∈ a.deps := by
  simp [isValid, depsOf]

theorem mem_calls {d : List Ev} {g v : Nat} : (g, v) ∈ calls d ↔ ∃ args, .call g v args ∈ d := by
  induction d with
  | nil => simp [calls]
  | cons e d ih =>
    cases e with
    | call f n args =>
      simp only [calls, List.mem_cons, Prod.mk.injEq, ih, Ev.call.injEq]
      constructor
      · rintro (⟨rfl, rfl⟩ | ⟨a, h⟩)
        · exact ⟨args, .inl ⟨rfl, rfl, rfl⟩⟩
        · exact ⟨a, .inr h⟩
      · rintro ⟨a, ⟨rfl, rfl, rfl⟩ | h⟩
        · exact .inl ⟨rfl, rfl⟩
        · exact .inr ⟨a, h⟩
    | cleanup f n t => simp [calls, ih]

theorem known_iff {E : Env} {st : St} {d : List Ev} {g v : Nat} : Known E st d g v ↔ ValueOf E st d g v := by
  unfold Known ValueOf Valid
  rw [mem_calls]
  constructor
  · rintro (⟨a, h1, h2, h3, h4⟩ | h)
    · exact .inr ⟨a, h1, h2, h3, h2 ▸ (isValid_iff E a).1 h4⟩
    · exact .inl h
  · rintro (h | ⟨a, h1, h2, h3, h4⟩)
    · exact .inr h
    · subst h2
      exact .inl ⟨a, h1, rfl, h3, (isValid_iff E a).2 h4⟩

/-- C16: in the setup of one test, at any point of any session: no fixture function is called twice; one which is called
has no value from before that may be reused; each call gets, for each fixture it needs, the one value that fixture has
in this setup, computed before; and the test gets these same values. Across tests see `C16_stale_dependency_violated`. -/
theorem C16_called_once_and_shared_partial (D : Nat → FDef) (B : Nat → Nat → Body) (st : St) (hst : Session D B st) (E : Env)
    (hD : E.defs = D) (fuel : Nat) (fs : List Nat) :
    ∃ d, (setup E fuel fs st).2.trace = st.trace ++ d ∧
      ((calls d).map (·.1)).Nodup ∧
      (∀ g v, (∃ args, .call g v args ∈ d) → ∀ a ∈ st.active, a.id = g → ∃ p ∈ E.params g, (p, E.var p) ∉ a.deps) ∧
      (∀ g v v', ValueOf E st d g v → ValueOf E st d g v' → v = v') ∧
      (∀ d1 f n args d2, d = d1 ++ .call f n args :: d2 → All2 (ValueOf E st d1) (D f).needs args) ∧
      (∀ vs, (setup E fuel fs st).1 = .ok vs → All2 (ValueOf E st d) fs vs) := by
  subst hD
  obtain ⟨d, h1, h2⟩ := setup_spec E fuel fs st hst.base.wf
  refine ⟨d, h1.trace, h1.once, ?_, ?_, ?_, ?_⟩
  · intro g v hc a ha e
    apply Classical.byContradiction
    intro hno
    refine h1.fresh g v (mem_calls.2 hc) a.value ⟨a, ha, e, rfl, (isValid_iff E a).2 ?_⟩
    intro p hp
    apply Classical.byContradiction
    intro hp'
    exact hno ⟨p, e ▸ hp, hp'⟩
  · intro g v v' hv hv'
    rcases known_iff.2 hv with k | k <;> rcases known_iff.2 hv' with k' | k'
    · obtain ⟨a, ha, e1, e2, -⟩ := k
      obtain ⟨b, hb, e3, e4, -⟩ := k'
      have := hst.base.wf.eq ha hb (e1.trans e3.symm)
      rw [← e2, ← e4, this]
    · exact absurd k (h1.fresh g v' k' v)
    · exact absurd k' (h1.fresh g v k v')
    · have := inj_on_of_nodup_map (f := (·.1)) h1.once k k' rfl
      simpa using this
  · intro d1 f n args d2 e
    exact forall2_imp (fun g v hk => known_iff.1 hk) (h1.chain d1 f n args d2 e)
  · intro vs hvs
    exact forall2_imp (fun g v hk => known_iff.1 (h1.valid_from hk)) (h2 vs hvs).1

/-- a diamond: the shared fixture `0` is called once, and both others get its value -/
example :
    let E : Env := { defs := fun f => if f = 0 then { scope := 2 } else if f = 3 then { needs := [1, 2] } else { needs := [0] } }
    let r := setup E 9 [3, 0] {}
    r.1 = .ok [3, 0] ∧ r.2.trace = [.call 0 0 [], .call 1 1 [0], .call 2 2 [0], .call 3 3 [1, 2]] := by
  exact ⟨rfl, rfl⟩

/-- C16 (violated): a fixture which outlives the value of a dependency keeps it. Fixture `1` (session scope) depends on
the parametrized fixture `0`; the tests run with parameter 0, 1 (using `0` only) and 0 again: in the third test `1` is still the
one built from the first value of `0`, cleaned up since, while the test gets a new one. -/
theorem C16_stale_dependency_violated :
    let D : Nat → FDef := fun f => if f = 0 then { scope := 2, params := [0] } else { scope := 2, needs := [0] }
    let B : Nat → Nat → Body := fun _ _ => { cleanups := [{ tag := 7 }] }
    let E : Nat → Env := fun p => { defs := D, params := fun _ => [0], var := fun _ => p, body := B }
    let st := (setup (E 1) 9 [0] (setup (E 0) 9 [1] {}).2).2
    let r := setup (E 0) 9 [1, 0] st
    r.1 = .ok [1, 3] ∧ .call 1 1 [0] ∈ r.2.trace ∧ .cleanup 0 0 7 ∈ r.2.trace := by
  exact ⟨rfl, by decide, by decide⟩

/-- C18, when fixtures are computed: without a cycle among their dependencies the only errors are those raised by user
code, however deep the dependencies are. -/
theorem C18_no_spurious_error (D : Nat → FDef) (B : Nat → Nat → Body) (st : St) (hst : Session D B st) (E : Env) (hD : E.defs = D)
    (V : List Nat) (hV : ∀ f ∈ V, ∀ g ∈ (D f).needs, g ∈ V) (hac : ∀ f ∈ V, ¬ Path E f f) (fs : List Nat) (hfs : ∀ f ∈ fs, f ∈ V)
    (fuel : Nat) (hf : V.length < fuel) : ∀ e, (setup E fuel fs st).1 = .error e → ∃ k, e = .user k := by
  subst hD
  refine argsLoop_user (compute_spec E fuel) [] fs ?_ st hst.base.wf hst.computing
  intro g hg st' hw hc
  exact compute_user E V hV hac fuel g st' (hfs g hg) hw (by simp [hc]) (by simp [hc]) (by simpa [hc] using hf)

/-- a two-fixture cycle is an error, without a cycle it is not -/
example :
    let E : Env := { defs := fun f => if f = 0 then { needs := [1] } else { needs := [0] } }
    let E' : Env := { defs := fun f => if f = 0 then { needs := [1] } else {} }
    (setup E 9 [0] {}).1 = .error .cyclic ∧ (setup E' 3 [0] {}).1 = .ok [1] := by
  exact ⟨rfl, rfl⟩

/-- The depth of the recursion in the model does not matter, if it exceeds the number of fixtures. -/
theorem C18_depth_irrelevant (D : Nat → FDef) (B : Nat → Nat → Body) (st : St) (hst : Session D B st) (E : Env) (hD : E.defs = D)
    (V : List Nat) (hV : ∀ f ∈ V, ∀ g ∈ (D f).needs, g ∈ V) (fs : List Nat) (hfs : ∀ f ∈ fs, f ∈ V) (n : Nat) :
    setup E (V.length + 1 + n) fs st = setup E (V.length + 1) fs st := by
  subst hD
  refine argsLoop_congr (compute_spec E _) [] fs ?_ st hst.base.wf hst.computing
  intro g hg st' hw hc
  exact compute_fuel_irrelevant E V hV n g st' (hfs g hg) hw hc

/-! ## C17 -/

/-- C17: at any point of any session, for each call made of a fixture function: either its value is active and none of its
cleanups was called, or it is not and its cleanups were called exactly once, last registered first, up to the first one which
raised. -/
theorem C17_cleaned_once_lifo (D : Nat → FDef) (B : Nat → Nat → Body) (st : St) (hst : Session D B st) (f n : Nat) (args : List Nat)
    (hc : .call f n args ∈ st.trace) :
    (∃ a ∈ st.active, a.id = f ∧ a.value = n) ∧ ranOf n st.trace = [] ∨
    (∀ a ∈ st.active, a.value ≠ n) ∧ ranOf n st.trace = untilRaise (B f n).cleanups.reverse := by
  rcases hst.base.life f n args hc with ⟨⟨a, ha, h⟩, h2⟩ | h
  · refine .inl ⟨⟨a, ha, ?_, h⟩, h2⟩
    have := hst.base.traced a ha
    rw [h] at this
    exact (hst.base.uniq _ _ _ _ _ this hc).1
  · exact .inr h

/-- and if no cleanup raises these are all of them -/
theorem C17_cleaned_all (cs : List Cl) (h : ∀ c ∈ cs, c.raises = none) : untilRaise cs.reverse = (cs.map (·.tag)).reverse := by
  have h' : ∀ l : List Cl, (∀ c ∈ l, c.raises = none) → untilRaise l = l.map (·.tag) := by
    intro l
    induction l with
    | nil => intro _; rfl
    | cons c l ih =>
      intro h
      simp only [untilRaise, h c (by simp), List.map_cons]
      rw [ih (fun c hc => h c (by simp [hc]))]
  rw [h' cs.reverse (fun c hc => h c (by simpa using hc)), List.map_reverse]

/-- C17 (violated): a cleanup of a fixture that raises makes the fixture's other cleanups never be called. -/
theorem C17_raising_cleanup_violated :
    let D : Nat → FDef := fun _ => {}
    let B : Nat → Nat → Body := fun _ _ => { cleanups := [{ tag := 1 }, { tag := 2, raises := some .error }] }
    let st := (popScope D 0 false (setup { defs := D, body := B } 9 [5] {}).2)
    st.1 = none ∧ st.2.active = [] ∧ st.2.trace = [.call 5 0 [], .cleanup 5 0 2] := by
  decide

theorem doCleanups_esc (f n : Nat) (cs : List Cl) (st : St) (k : Kind) (h : (doCleanups f n cs st).1 = some k) :
    ∃ c ∈ cs, c.raises = some k := by
  induction cs generalizing st with
  | nil => simp [doCleanups] at h
  | cons c cs ih =>
    simp only [doCleanups] at h
    cases hc : c.raises with
    | some k' => rw [hc] at h; simp only [Option.some.injEq] at h; subst h; exact ⟨c, by simp, hc⟩
    | none =>
      rw [hc] at h
      obtain ⟨c', h1, h2⟩ := ih _ h
      exact ⟨c', by simp [h1], h2⟩

/-- no cleanup of an active fixture raises an exception that escapes -/
def NoEscape (st : St) : Prop := ∀ a ∈ st.active, ∀ c ∈ a.cleanups, ∀ k, c.raises = some k → k.escapes = false

theorem popLoop_none (fs : List Nat) (st : St) (h : NoEscape st) : (popLoop fs st).1 = none := by
  induction fs generalizing st with
  | nil => rfl
  | cons f fs ih =>
    simp only [popLoop]
    obtain ⟨d, hd, -, -⟩ := deactivate_spec f st
    have hn : NoEscape (deactivate f st).2 := by
      rw [hd]; intro a ha; exact h a (List.mem_filter.1 ha).1
    have he : ∀ k, (deactivate f st).1 = some k → k.escapes = false := by
      intro k hk
      unfold deactivate at hk
      cases hg : getActive st f with
      | none => rw [hg] at hk; cases hk
      | some a =>
        rw [hg] at hk
        obtain ⟨c, hc, hk⟩ := doCleanups_esc _ _ _ _ _ hk
        exact h a (getActive_some hg).1 c (by simpa using hc) k hk
    generalize deactivate f st = p at hn he ⊢
    rcases p with ⟨r, st1⟩
    cases r with
    | none => exact ih st1 hn
    | some k =>
      simp only [he k rfl]
      exact ih st1 hn

theorem popScopes_none (D : Nat → FDef) (s : Nat) (ks : List Nat) (st : St) (h : NoEscape st) : (popScopes D s ks st).1 = none := by
  induction ks generalizing st with
  | nil => rfl
  | cons k ks ih =>
    simp only [popScopes]
    split
    · have h1 := popLoop_none ((st.active.filter (fun a => (D a.id).scope == k)).map (·.id)).reverse st h
      have h2 := (popLoop_active ((st.active.filter (fun a => (D a.id).scope == k)).map (·.id)).reverse st).1
      generalize popLoop ((st.active.filter (fun a => (D a.id).scope == k)).map (·.id)).reverse st = p at h1 h2 ⊢
      rcases p with ⟨r, st1⟩
      cases r with
      | some e => cases h1
      | none => exact ih st1 (fun a ha => h a (h2 a ha))
    · exact ih st h

/-- C17: when a scope ends, at any point of any session, uninterrupted and without an exception escaping from a cleanup,
exactly the fixtures of wider scopes stay active. -/
theorem C17_scope_end_partial (D : Nat → FDef) (B : Nat → Nat → Body) (st : St) (hst : Session D B st) (s : Nat) (hesc : NoEscape st) :
    (popScope D s false st).1 = none ∧
    ∀ a, a ∈ (popScope D s false st).2.active ↔ a ∈ st.active ∧ s < (D a.id).scope := by
  have h : (popScopes D s st.keys st).1 = none := popScopes_none D s _ st hesc
  refine ⟨by simpa [popScope] using h, fun a => ?_⟩
  have := popScopes_active s st.keys st hst.base h a
  simp only [popScope, Bool.false_eq_true, if_false]
  rw [this]
  constructor
  · rintro ⟨h1, h2⟩
    refine ⟨h1, ?_⟩
    have := hst.base.keys a h1
    apply Classical.byContradiction
    intro h3
    exact h2 ⟨this, by omega⟩
  · rintro ⟨h1, h2⟩
    exact ⟨h1, fun h => by omega⟩

/-- C17: if moreover no fixture of a narrower scope is active, the fixtures of the scope are torn down in the reverse of
the order in which they were activated. -/
theorem C17_reverse_order_partial (D : Nat → FDef) (B : Nat → Nat → Body) (st : St) (hst : Session D B st) (s : Nat) (hesc : NoEscape st)
    (hmin : ∀ a ∈ st.active, s ≤ (D a.id).scope) :
    (popScope D s false st).2.trace =
      st.trace ++ (st.active.filter (fun a => (D a.id).scope == s)).reverse.flatMap
        (fun a => (untilRaise a.cleanups.reverse).map (.cleanup a.id a.value)) := by
  simp only [popScope, Bool.false_eq_true, if_false]
  exact popScopes_trace s st.keys st hst.base hmin (fun a ha e => e ▸ hst.base.keys a ha) (popScopes_none D s _ st hesc)

/-- two test fixtures and a session fixture: at the end of the test, the two are torn down, the last one first -/
example :
    let D : Nat → FDef := fun f => if f = 0 then { scope := 2 } else { needs := [0] }
    let B : Nat → Nat → Body := fun _ n => { cleanups := [{ tag := n }, { tag := n + 10 }] }
    let st := (popScope D 0 false (setup { defs := D, body := B } 9 [1, 2] {}).2)
    st.1 = none ∧ st.2.active.map (·.id) = [0] ∧
    st.2.trace = [.call 0 0 [], .call 1 1 [0], .call 2 2 [0], .cleanup 2 2 12, .cleanup 2 2 2, .cleanup 1 1 11, .cleanup 1 1 1] := by
  decide

/-- C17 (violated): after an interruption nothing is torn down. -/
theorem C17_interrupted_violated :
    let D : Nat → FDef := fun _ => {}
    let B : Nat → Nat → Body := fun _ _ => { cleanups := [{ tag := 1 }] }
    let st := (popScope D 0 true (setup { defs := D, body := B } 9 [5] {}).2)
    st.1 = none ∧ st.2.active.map (·.id) = [5] ∧ st.2.trace = [.call 5 0 []] := by
  decide

/-- C17 (violated): a cleanup which skips the test makes the other fixtures of the scope stay active. -/
theorem C17_skip_in_cleanup_violated :
    let D : Nat → FDef := fun _ => {}
    let B : Nat → Nat → Body := fun f _ => { cleanups := [{ tag := 1, raises := if f = 6 then some .skip else none }] }
    let st := (popScope D 0 false (setup { defs := D, body := B } 9 [5, 6] {}).2)
    st.1 = some .skip ∧ st.2.active.map (·.id) = [5] ∧ st.2.trace = [.call 5 0 [], .call 6 1 [], .cleanup 6 1 1] := by
  decide

/-- Sessions in which scopes end properly nested, uninterrupted and without an escaping exception, and in which no fixture
that is still active depends on a parameter whose value changed (in particular: sessions where parametrized fixtures have
the scope of a test, as do the fixtures depending on them). The number is a lower bound of the scopes of active fixtures:
scopes up to it may end. -/
inductive Nested (D : Nat → FDef) (B : Nat → Nat → Body) : Nat → St → Prop
  | start (l : Nat) : Nested D B l {}
  | setup {l st} (E : Env) (fuel : Nat) (fs : List Nat) (l' : Nat) : Nested D B l st → E.defs = D → E.body = B →
      (∀ a ∈ st.active, ∀ p ∈ E.params a.id, (p, E.var p) ∈ a.deps) → (∀ f, l' ≤ (D f).scope) → Nested D B l' (setup E fuel fs st).2
  | scopeEnd {l st} (s : Nat) : Nested D B l st → s ≤ l → (popScope D s false st).1 = none → Nested D B (s + 1) (popScope D s false st).2

theorem Nested.session {D B} {l : Nat} {st : St} (h : Nested D B l st) : Session D B st := by
  induction h with
  | start => exact .start
  | setup E fuel fs l' _ h1 h2 _ _ ih => exact .setup E fuel fs ih h1 h2
  | scopeEnd s _ _ _ ih => exact .scopeEnd s false ih

theorem Nested.ord {D B} (hscope : ∀ f g, g ∈ (D f).needs → (D f).scope ≤ (D g).scope) {l : Nat} {st : St} (h : Nested D B l st) :
    Ord D st ∧ ∀ a ∈ st.active, l ≤ (D a.id).scope := by
  induction h with
  | start => exact ⟨ord_init D, by simp⟩
  | setup E fuel fs l' h h1 h2 h3 h4 ih =>
    subst h1; subst h2
    refine ⟨setup_ord E fuel fs _ h.session.base ih.1 (fun a ha => (isValid_iff E a).2 (h3 a ha)), fun a _ => h4 a.id⟩
  | scopeEnd s h hl hn ih =>
    simp only [popScope, Bool.false_eq_true, if_false] at hn ⊢
    refine ⟨popScopes_ord hscope s _ _ h.session.base ih.1 (fun a ha => Nat.le_trans hl (ih.2 a ha)), fun a ha => ?_⟩
    obtain ⟨h1, h2⟩ := (popScopes_active s _ _ h.session.base hn a).1 ha
    have := h.session.base.keys a h1
    apply Classical.byContradiction
    intro h3
    exact h2 ⟨this, by omega⟩

/-- C17: in such sessions, with dependencies of scopes at least as wide (which C19 proves), whatever was given to a fixture
function is cleaned up only after all the cleanups of what the function returned; and nothing is given to a fixture function
that was cleaned up before. -/
theorem C17_dependents_first_partial (D : Nat → FDef) (B : Nat → Nat → Body) (hscope : ∀ f g, g ∈ (D f).needs → (D f).scope ≤ (D g).scope)
    (l : Nat) (st : St) (h : Nested D B l st) (t1 t2 : List Ev) (g v tag : Nat) (ht : st.trace = t1 ++ .cleanup g v tag :: t2)
    (f n : Nat) (args : List Nat) (hc : .call f n args ∈ st.trace) (hv : v ∈ args) :
    .call f n args ∈ t1 ∧ ∀ tag', .cleanup f n tag' ∉ t2 := (h.ord hscope).1.late t1 g v tag t2 ht f n args hc hv

/-- the hypotheses hold in a session with two tests in one module -/
example :
    let D : Nat → FDef := fun f => if f = 0 then { scope := 2 } else if f = 1 then { scope := 1, needs := [0] } else { needs := [1, 0] }
    let B : Nat → Nat → Body := fun _ n => { cleanups := [{ tag := n }] }
    let E : Nat → Env := fun p => { defs := D, params := fun f => if f = 2 then [9] else [], var := fun _ => p, body := B }
    let s1 := (setup (E 0) 9 [2] {}).2
    let s2 := (popScope D 0 false s1).2
    let s3 := (setup (E 1) 9 [2] s2).2
    let s4 := (popScope D 0 false s3).2
    let s5 := (popScope D 1 false s4).2
    (popScope D 2 false s5).2.trace = [.call 0 0 [], .call 1 1 [0], .call 2 2 [1, 0], .cleanup 2 2 2, .call 2 3 [1, 0],
      .cleanup 2 3 3, .cleanup 1 1 1, .cleanup 0 0 0] ∧ Nested D B 2 s5 := by
  refine ⟨by decide, ?_⟩
  refine .scopeEnd 1 (.scopeEnd 0 (.setup _ 9 [2] 0 (.scopeEnd 0 (.setup _ 9 [2] 0 (.start 0) rfl rfl (by simp) (by simp)) (by decide) (by decide))
    rfl rfl (by decide) (by simp)) (by decide) (by decide)) (by decide) (by decide)

/-- C17 (violated): when the value of a parameter changes, a fixture can be torn down before another one built from it. Two
session fixtures depend on a parametrized session fixture; the next test has another value of the parameter. -/
theorem C17_dependents_first_violated :
    let D : Nat → FDef := fun f => if f = 0 then { scope := 2, params := [0] } else { scope := 2, needs := [0] }
    let B : Nat → Nat → Body := fun f _ => { cleanups := [{ tag := f }] }
    let E : Nat → Env := fun p => { defs := D, params := fun _ => [0], var := fun _ => p, body := B }
    (setup (E 1) 9 [1, 2] (setup (E 0) 9 [1, 2] {}).2).2.trace =
      [.call 0 0 [], .call 1 1 [0], .call 2 2 [0],
       .cleanup 1 1 1, .cleanup 0 0 0, .call 0 3 [], .call 1 4 [3], .cleanup 2 2 2, .call 2 5 [3]] := by
  decide

/-! ## C23 -/

/-- the values of the parameters recorded with a fixture are those of the setup which called it -/
theorem steps_deps {E : Env} {st st' : St} (hs : Steps E st st') : ∀ a ∈ st'.active, a ∈ st.active ∨ a.deps = (E.params a.id).map (fun p => (p, E.var p)) := by
  induction hs with
  | refl => exact fun a ha => .inl ha
  | touch s _ ih => rw [touch_active]; exact ih
  | comp c _ ih => exact ih
  | @deact st' f _ ih =>
    intro a ha
    obtain ⟨d, hd, -, -⟩ := deactivate_spec f st'
    rw [hd] at ha
    exact ih a (List.mem_filter.1 ha).1
  | act f vs _ _ _ ih =>
    intro a ha
    simp only [activate, List.mem_append, List.mem_singleton] at ha
    rcases ha with ha | rfl
    · exact ih a ha
    · exact .inr rfl

/-- C23: let a fixture be computed while a test with the variation `E1` is set up, and still be active when, after anything else
that may happen in a session, it is needed first by a test with variation `E2`. If all parameters the fixture depends on have the same
values, its value is reused and nothing is called. Otherwise its cleanups are called first (up to one which raises), and if the
computation succeeds the value is that of a new call made after them. -/
theorem C23_reused_iff_same_variation (D : Nat → FDef) (B : Nat → Nat → Body) (st0 : St) (h0 : Session D B st0) (E1 E2 : Env)
    (hD1 : E1.defs = D) (hB1 : E1.body = B) (hD2 : E2.defs = D) (hP : E1.params = E2.params)
    (fuel1 fuel2 : Nat) (fs : List Nat) (a : Act) (hnew : a ∉ st0.active) (ha1 : a ∈ (setup E1 fuel1 fs st0).2.active)
    (st : St) (hst : Session D B st) (ha : a ∈ st.active) :
    let r := compute E2 (fuel2 + 1) a.id st
    ((∀ p ∈ E2.params a.id, E2.var p = E1.var p) → r.1 = .ok a.value ∧ r.2.trace = st.trace ∧ r.2.active = st.active) ∧
    ((∃ p ∈ E2.params a.id, E2.var p ≠ E1.var p) →
      ∃ d, r.2.trace = st.trace ++ (untilRaise a.cleanups.reverse).map (.cleanup a.id a.value) ++ d ∧
        ∀ v, r.1 = .ok v → st.clock ≤ v ∧ ∃ args, .call a.id v args ∈ d) := by
  subst hD2
  have hdeps : a.deps = (E2.params a.id).map (fun p => (p, E1.var p)) := by
    rcases steps_deps (setup_steps E1 fuel1 fs st0) a ha1 with h | h
    · exact absurd h hnew
    · rw [h, hP]
  have hw : WF (touch (E2.defs a.id).scope st) := by unfold WF; rw [touch_active]; exact hst.base.wf
  have ha' : a ∈ (touch (E2.defs a.id).scope st).active := by rw [touch_active]; exact ha
  have hg := getActive_of_mem hw ha'
  have hc : a.id ∉ st.computing := by rw [hst.computing]; simp
  simp only [compute, hc, if_false, hg]
  constructor
  · intro h
    have hv : isValid E2 a = true := by
      rw [isValid_iff, hdeps]
      intro p hp
      exact List.mem_map.2 ⟨p, hp, by rw [h p hp]⟩
    simp only [hv, if_true]
    exact ⟨trivial, touch_trace _ _, touch_active _ _⟩
  · rintro ⟨p, hp, hne⟩
    have hv : isValid E2 a = false := by
      cases hv : isValid E2 a with
      | false => rfl
      | true =>
        rw [isValid_iff, hdeps] at hv
        obtain ⟨q, hq, e⟩ := List.mem_map.1 (hv p hp)
        simp only [Prod.mk.injEq] at e
        obtain ⟨rfl, e⟩ := e
        exact absurd e.symm hne
    simp only [hv, Bool.false_eq_true, if_false]
    have hd := deactivate_trace hw ha'
    have htr : (touch (E2.defs a.id).scope st).trace = st.trace := touch_trace _ _
    have hcl : (touch (E2.defs a.id).scope st).clock = st.clock := touch_clock _ _
    have hco : (touch (E2.defs a.id).scope st).computing = st.computing := touch_computing _ _
    generalize touch (E2.defs a.id).scope st = st1 at hw hd htr hcl hco ⊢
    generalize deactivate a.id st1 = q at hd ⊢
    rcases q with ⟨r, st2⟩
    simp only at hd
    cases r with
    | some k => exact ⟨[], by simp [hd, htr, teardown], fun v h => by cases h⟩
    | none =>
      simp only
      have hw2 : WF st2 := by unfold WF; rw [hd]; exact hw.sublist (List.filter_sublist.map _)
      have hc2 : a.id ∉ st2.computing := by rw [hd]; simp only; rw [hco]; exact hc
      have hn2 : ∀ b ∈ st2.active, b.id ≠ a.id := by
        rw [hd]; intro b hb; simpa using (List.mem_filter.1 hb).2
      obtain ⟨d, h1, h2⟩ := computeFresh_spec (compute_spec E2 fuel2) a.id st2 hw2 hc2 hn2
      refine ⟨d, ?_, fun v h => ?_⟩
      · rw [h1.trace, hd]; simp [htr, teardown]
      · obtain ⟨-, -, d1, args, rfl⟩ := h2 v h
        have hm : (a.id, v) ∈ calls (d1 ++ [.call a.id v args]) := by rw [calls_append]; simp [calls]
        have := (h1.range _ _ hm).1
        rw [hd] at this
        simp only at this
        exact ⟨by omega, args, by simp⟩

/-- parameter 3 unchanged: reused; changed: torn down and called again; a parameter the fixture does not depend on: reused -/
example :
    let D : Nat → FDef := fun _ => { scope := 2 }
    let B : Nat → Nat → Body := fun _ _ => { cleanups := [{ tag := 8 }] }
    let E : Nat → Nat → Env := fun p q => { defs := D, params := fun _ => [3], var := fun i => if i = 3 then p else q, body := B }
    let st := (setup (E 0 0) 9 [5] {}).2
    (setup (E 0 0) 9 [5] st).2.trace = [.call 5 0 []] ∧ (setup (E 0 1) 9 [5] st).2.trace = [.call 5 0 []] ∧
    (setup (E 1 0) 9 [5] st).2.trace = [.call 5 0 [], .cleanup 5 0 8, .call 5 1 []] := by
  decide

end Slash.Fix
