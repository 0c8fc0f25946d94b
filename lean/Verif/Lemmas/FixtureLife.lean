import Verif.Lemmas.Fixture
/-!
# The life of fixture values over a whole session
-/
namespace Slash.Fix

open Slash.FG (FDef)

/-! ## Elementary steps -/

/-- the state after a fixture function was called -/
def activate (E : Env) (f : Nat) (vs : List Nat) (st : St) : St :=
  { st with active := st.active ++ [{ id := f, value := st.clock, deps := depsOf E f, args := vs, cleanups := (E.body f st.clock).cleanups }],
            clock := st.clock + 1, trace := st.trace ++ [.call f st.clock vs] }

/-- what setting up consists of -/
inductive Steps (E : Env) : St → St → Prop
  | refl (st) : Steps E st st
  | touch {st st'} (s : Nat) : Steps E st st' → Steps E st (Fix.touch s st')
  | comp {st st'} (c : List Nat) : Steps E st st' → Steps E st { st' with computing := c }
  | deact {st st'} (f : Nat) : Steps E st st' → Steps E st (deactivate f st').2
  | act {st st'} (f : Nat) (vs : List Nat) : Steps E st st' → (∀ a ∈ st'.active, a.id ≠ f) → (E.defs f).scope ∈ st'.keys →
      Steps E st (activate E f vs st')

theorem Steps.trans {E : Env} {a b c : St} (h1 : Steps E a b) (h2 : Steps E b c) : Steps E a c := by
  induction h2 with
  | refl => exact h1
  | touch s _ ih => exact ih.touch s
  | comp c _ ih => exact ih.comp c
  | deact f _ ih => exact ih.deact f
  | act f vs _ h k ih => exact ih.act f vs h k

theorem mem_touch (s : Nat) (st : St) : s ∈ (touch s st).keys := by
  unfold touch
  split
  · assumption
  · simp

theorem argsLoop_steps {E : Env} {rec : Nat → St → Except Err Nat × St} (hr : ∀ f st, Steps E st (rec f st).2) (gs : List Nat) (st : St) :
    Steps E st (argsLoop rec gs st).2 := by
  induction gs generalizing st with
  | nil => exact .refl _
  | cons g gs ih =>
    simp only [argsLoop]
    have h := hr g st
    generalize rec g st = p at h ⊢
    rcases p with ⟨r, st1⟩
    cases r with
    | error e => exact h
    | ok v =>
      have h2 := ih st1
      simp only
      generalize argsLoop rec gs st1 = p at h2 ⊢
      rcases p with ⟨r2, st2⟩
      cases r2 <;> exact h.trans h2

theorem callFixture_steps {E : Env} {rec : Nat → St → Except Err Nat × St} (hr : ∀ f st, Steps E st (rec f st).2) (f : Nat) (st : St) :
    Steps E st (callFixture E rec f st).2 := by
  unfold callFixture
  have h := argsLoop_steps hr (E.defs f).needs st
  generalize argsLoop rec (E.defs f).needs st = p at h ⊢
  rcases p with ⟨r, st1⟩
  cases r with
  | error e => exact h
  | ok vs =>
    simp only
    split
    · exact h.touch _
    · rename_i hact
      have hn : getActive (touch (E.defs f).scope st1) f = none := by
        cases hg : getActive (touch (E.defs f).scope st1) f with
        | none => rfl
        | some a => rw [hg] at hact; simp at hact
      have := (h.touch (E.defs f).scope).act f vs (getActive_none hn) (mem_touch _ _)
      cases (E.body f (touch (E.defs f).scope st1).clock).raises <;> exact this

theorem computeFresh_steps {E : Env} {rec : Nat → St → Except Err Nat × St} (hr : ∀ f st, Steps E st (rec f st).2) (f : Nat) (st : St) :
    Steps E st (computeFresh E rec f st).2 := by
  unfold computeFresh
  have h := ((Steps.refl (E := E) st).comp (f :: st.computing)).trans (callFixture_steps hr f { st with computing := f :: st.computing })
  generalize callFixture E rec f { st with computing := f :: st.computing } = p at h ⊢
  rcases p with ⟨r, st1⟩
  cases r with
  | ok v => exact h.comp _
  | error e =>
    simp only
    have h2 := h.deact f
    simp only at h2
    rcases hd : deactivate f st1 with ⟨r, st2⟩
    rw [hd] at h2
    cases r <;> exact h2.comp _

theorem compute_steps (E : Env) (fuel : Nat) : ∀ f st, Steps E st (compute E fuel f st).2 := by
  induction fuel with
  | zero => intro f st; exact .refl _
  | succ fuel ih =>
    intro f st
    simp only [compute]
    split
    · exact .refl _
    · have h0 := (Steps.refl (E := E) st).touch (E.defs f).scope
      cases getActive (touch (E.defs f).scope st) f with
      | none => exact h0.trans (computeFresh_steps ih f _)
      | some a =>
        simp only
        split
        · exact h0
        · have h1 := h0.deact f
          rcases hd : deactivate f (touch (E.defs f).scope st) with ⟨r, st2⟩
          rw [hd] at h1
          cases r with
          | some k => exact h1
          | none => exact h1.trans (computeFresh_steps ih f _)

theorem setup_steps (E : Env) (fuel : Nat) (fs : List Nat) (st : St) : Steps E st (setup E fuel fs st).2 :=
  argsLoop_steps (compute_steps E fuel) fs st

/-! ## The general invariant -/

/-- the tags of the cleanups of one value, in the order they ran -/
def ranOf (n : Nat) : List Ev → List Nat
  | [] => []
  | .cleanup _ m t :: l => if m = n then t :: ranOf n l else ranOf n l
  | .call _ _ _ :: l => ranOf n l

/-- the tags of a list of cleanups up to the first one which raises -/
def untilRaise : List Cl → List Nat
  | [] => []
  | c :: cs => match c.raises with
    | some _ => [c.tag]
    | none => c.tag :: untilRaise cs

theorem ranOf_append (n : Nat) (a b : List Ev) : ranOf n (a ++ b) = ranOf n a ++ ranOf n b := by
  induction a with
  | nil => rfl
  | cons e a ih => cases e with
    | call => simpa [ranOf] using ih
    | cleanup _ m t => simp only [List.cons_append, ranOf, ih]; split <;> simp

theorem doCleanups_ran (f n : Nat) (cs : List Cl) (st : St) : ∃ d,
    (doCleanups f n cs st).2 = { st with trace := st.trace ++ d } ∧ (∀ e ∈ d, ∃ t, e = .cleanup f n t) ∧
    (∀ m, ranOf m d = if m = n then untilRaise cs else []) := by
  induction cs generalizing st with
  | nil => exact ⟨[], by simp [doCleanups], by simp, by simp [ranOf, untilRaise]⟩
  | cons c cs ih =>
    simp only [doCleanups]
    cases hc : c.raises with
    | some k => exact ⟨[.cleanup f n c.tag], rfl, by simp, by intro m; simp only [ranOf, untilRaise, hc]; split <;> split <;> first | rfl | omega⟩
    | none =>
      obtain ⟨d, h1, h2, h3⟩ := ih { st with trace := st.trace ++ [.cleanup f n c.tag] }
      refine ⟨.cleanup f n c.tag :: d, by simp only; rw [h1]; simp, ?_, ?_⟩
      · intro e he
        rcases List.mem_cons.1 he with rfl | he
        · exact ⟨_, rfl⟩
        · exact h2 e he
      · intro m
        simp only [ranOf, h3, untilRaise, hc]
        by_cases e : m = n
        · subst e; simp
        · have : ¬ n = m := fun h => e h.symm
          simp [e, this]

theorem deactivate_none {f : Nat} {st : St} (h : getActive st f = none) : deactivate f st = (none, st) := by
  unfold deactivate; rw [h]

/-- tearing down an active fixture -/
theorem deactivate_some {f : Nat} {st : St} {a : Act} (h : getActive st f = some a) : ∃ d,
    (deactivate f st).2 = { st with active := st.active.filter (·.id != f), trace := st.trace ++ d } ∧
    (∀ e ∈ d, ∃ t, e = .cleanup f a.value t) ∧ (∀ m, ranOf m d = if m = a.value then untilRaise a.cleanups.reverse else []) := by
  unfold deactivate
  rw [h]
  obtain ⟨d, h1, h2, h3⟩ := doCleanups_ran f a.value a.cleanups.reverse { st with active := st.active.filter (·.id != f) }
  exact ⟨d, h1, h2, h3⟩

/-- Holds at all times. `B`: what the calls of the fixture functions do. -/
structure Base (D : Nat → FDef) (B : Nat → Nat → Body) (st : St) : Prop where
  wf : WF st
  sorted : st.active.Pairwise (fun a b => a.value < b.value)
  lt : ∀ a ∈ st.active, a.value < st.clock
  traced : ∀ a ∈ st.active, .call a.id a.value a.args ∈ st.trace
  body : ∀ a ∈ st.active, a.cleanups = (B a.id a.value).cleanups
  uniq : ∀ f n args f' args', .call f n args ∈ st.trace → .call f' n args' ∈ st.trace → f = f' ∧ args = args'
  callLt : ∀ f n args, .call f n args ∈ st.trace → n < st.clock
  clean : ∀ g v t, .cleanup g v t ∈ st.trace → (∃ args, .call g v args ∈ st.trace) ∧ ∀ a ∈ st.active, a.value ≠ v
  life : ∀ f n args, .call f n args ∈ st.trace → (∃ a ∈ st.active, a.value = n) ∧ ranOf n st.trace = [] ∨
    (∀ a ∈ st.active, a.value ≠ n) ∧ ranOf n st.trace = untilRaise (B f n).cleanups.reverse
  keys : ∀ a ∈ st.active, (D a.id).scope ∈ st.keys

theorem base_init (D : Nat → FDef) (B : Nat → Nat → Body) : Base D B {} :=
  ⟨by simp [WF], by simp, by simp, by simp, by simp, by simp, by simp, by simp, by simp, by simp⟩

/-- active fixtures are told apart by their values -/
theorem Base.eq_of_value {D B} {st : St} (h : Base D B st) {a b : Act} (ha : a ∈ st.active) (hb : b ∈ st.active)
    (e : a.value = b.value) : a = b := by
  have h1 := h.traced a ha
  have h2 := h.traced b hb
  rw [e] at h1
  exact h.wf.eq ha hb (h.uniq _ _ _ _ _ h1 h2).1

theorem ranOf_fresh {n : Nat} {l : List Ev} (h : ∀ g t, .cleanup g n t ∉ l) : ranOf n l = [] := by
  induction l with
  | nil => rfl
  | cons e l ih =>
    have ih := ih (fun g t hm => h g t (by simp [hm]))
    cases e with
    | call => simpa [ranOf] using ih
    | cleanup g m t =>
      simp only [ranOf, ih]
      split
      · rename_i e; subst e; exact absurd (by simp) (h g t)
      · rfl

theorem Base.deact {D B} {st : St} (h : Base D B st) (f : Nat) : Base D B (deactivate f st).2 := by
  cases hg : getActive st f with
  | none => rw [deactivate_none hg]; exact h
  | some a =>
    obtain ⟨ha, haf⟩ := getActive_some hg
    obtain ⟨d, h1, h2, h3⟩ := deactivate_some hg
    rw [h1]
    have hcall : ∀ g n args, .call g n args ∈ st.trace ++ d → .call g n args ∈ st.trace := by
      intro g n args hm
      rcases List.mem_append.1 hm with hm | hm
      · exact hm
      · obtain ⟨t, e⟩ := h2 _ hm; cases e
    have hmem : ∀ b, b ∈ st.active.filter (·.id != f) → b ∈ st.active ∧ b.id ≠ f := by
      intro b hb
      have := List.mem_filter.1 hb
      exact ⟨this.1, by simpa using this.2⟩
    have hval : ∀ b, b ∈ st.active.filter (·.id != f) → b.value ≠ a.value := by
      intro b hb e
      have := h.eq_of_value (hmem b hb).1 ha e
      exact (hmem b hb).2 (this ▸ haf)
    refine ⟨h.wf.sublist (List.filter_sublist.map _), h.sorted.sublist List.filter_sublist, fun b hb => h.lt b (hmem b hb).1, ?_,
      fun b hb => h.body b (hmem b hb).1, ?_, ?_, ?_, ?_, fun b hb => h.keys b (hmem b hb).1⟩
    · intro b hb
      exact List.mem_append_left _ (h.traced b (hmem b hb).1)
    · intro g n args g' args' k1 k2
      exact h.uniq g n args g' args' (hcall _ _ _ k1) (hcall _ _ _ k2)
    · intro g n args k
      exact h.callLt g n args (hcall _ _ _ k)
    · intro g v t hm
      rcases List.mem_append.1 hm with hm | hm
      · obtain ⟨⟨args, k⟩, k2⟩ := h.clean g v t hm
        exact ⟨⟨args, List.mem_append_left _ k⟩, fun b hb => k2 b (hmem b hb).1⟩
      · obtain ⟨t', e⟩ := h2 _ hm
        simp only [Ev.cleanup.injEq] at e
        obtain ⟨rfl, rfl, -⟩ := e
        exact ⟨⟨a.args, List.mem_append_left _ (haf ▸ h.traced a ha)⟩, fun b hb => hval b hb⟩
    · intro g n args hm
      have hm := hcall _ _ _ hm
      simp only [ranOf_append, h3]
      by_cases e : n = a.value
      · subst e
        refine .inr ⟨hval, ?_⟩
        rcases h.life g _ args hm with ⟨-, k⟩ | ⟨k, -⟩
        · have := h.uniq _ _ _ _ _ hm (h.traced a ha)
          simp [k, h.body a ha, this.1]
        · exact absurd rfl (k a ha)
      · rcases h.life g n args hm with ⟨⟨b, hb, k1⟩, k2⟩ | ⟨k1, k2⟩
        · refine .inl ⟨⟨b, ?_, k1⟩, by simp [k2, e]⟩
          simp only [List.mem_filter, bne_iff_ne, ne_eq]
          refine ⟨hb, fun e' => ?_⟩
          have := h.wf.eq hb ha (e'.trans haf.symm)
          subst this
          exact e k1.symm
        · exact .inr ⟨fun b hb => k1 b (hmem b hb).1, by simp [k2, e]⟩

theorem Base.act {E : Env} {st : St} (h : Base E.defs E.body st) (f : Nat) (vs : List Nat) (hn : ∀ a ∈ st.active, a.id ≠ f)
    (hk : (E.defs f).scope ∈ st.keys) : Base E.defs E.body (activate E f vs st) := by
  have hfresh : ∀ g t, .cleanup g st.clock t ∉ st.trace := by
    intro g t hm
    obtain ⟨⟨args, k⟩, -⟩ := h.clean g _ t hm
    have := h.callLt _ _ _ k
    omega
  refine ⟨?_, ?_, ?_, ?_, ?_, ?_, ?_, ?_, ?_, ?_⟩
  · unfold WF activate
    simp only [List.map_append, List.map_cons, List.map_nil]
    rw [List.nodup_append]
    refine ⟨h.wf, by simp, ?_⟩
    intro x hx y hy e
    simp only [List.mem_singleton] at hy
    subst hy
    obtain ⟨a, ha, rfl⟩ := List.mem_map.1 hx
    exact hn a ha e
  · simp only [activate]
    rw [List.pairwise_append]
    refine ⟨h.sorted, by simp, ?_⟩
    intro a ha b hb
    simp only [List.mem_singleton] at hb
    subst hb
    exact h.lt a ha
  · intro a ha
    simp only [activate, List.mem_append, List.mem_singleton] at ha ⊢
    rcases ha with ha | rfl
    · have := h.lt a ha; omega
    · simp
  · intro a ha
    simp only [activate, List.mem_append, List.mem_singleton] at ha ⊢
    rcases ha with ha | rfl
    · exact .inl (h.traced a ha)
    · exact .inr rfl
  · intro a ha
    simp only [activate, List.mem_append, List.mem_singleton] at ha
    rcases ha with ha | rfl
    · exact h.body a ha
    · rfl
  · intro g n args g' args' h1 h2
    simp only [activate, List.mem_append, List.mem_singleton, Ev.call.injEq] at h1 h2
    rcases h1 with h1 | ⟨rfl, rfl, rfl⟩ <;> rcases h2 with h2 | ⟨rfl, h2, rfl⟩
    · exact h.uniq _ _ _ _ _ h1 h2
    · have := h.callLt _ _ _ h1; omega
    · have := h.callLt _ _ _ h2; omega
    · exact ⟨rfl, rfl⟩
  · intro g n args h1
    simp only [activate, List.mem_append, List.mem_singleton, Ev.call.injEq] at h1 ⊢
    rcases h1 with h1 | ⟨rfl, rfl, rfl⟩
    · have := h.callLt _ _ _ h1; omega
    · omega
  · intro g v t h1
    simp only [activate, List.mem_append, List.mem_singleton] at h1 ⊢
    rcases h1 with h1 | h1
    · obtain ⟨⟨args, k⟩, k2⟩ := h.clean g v t h1
      refine ⟨⟨args, .inl k⟩, ?_⟩
      rintro a (ha | rfl)
      · exact k2 a ha
      · simp only
        have := h.callLt _ _ _ k
        omega
    · cases h1
  · intro g n args h1
    have hr : ∀ m, ranOf m (activate E f vs st).trace = ranOf m st.trace := by
      intro m; simp [activate, ranOf_append, ranOf]
    rw [hr]
    simp only [activate, List.mem_append, List.mem_singleton, Ev.call.injEq] at h1 ⊢
    rcases h1 with h1 | ⟨rfl, rfl, rfl⟩
    · have hlt := h.callLt _ _ _ h1
      rcases h.life g n args h1 with ⟨⟨b, hb, k1⟩, k2⟩ | ⟨k1, k2⟩
      · exact .inl ⟨⟨b, .inl hb, k1⟩, k2⟩
      · refine .inr ⟨?_, k2⟩
        rintro a (ha | rfl)
        · exact k1 a ha
        · simp only; omega
    · exact .inl ⟨⟨_, .inr rfl, rfl⟩, ranOf_fresh hfresh⟩
  · intro a ha
    simp only [activate, List.mem_append, List.mem_singleton] at ha ⊢
    rcases ha with ha | rfl
    · exact h.keys a ha
    · exact hk

theorem touch_keys (s k : Nat) (st : St) (h : k ∈ st.keys) : k ∈ (touch s st).keys := by
  unfold touch
  split
  · exact h
  · simp [h]

theorem Base.congr {D B} {st st' : St} (h : Base D B st) (e1 : st'.active = st.active) (e2 : st'.clock = st.clock)
    (e3 : st'.trace = st.trace) (e4 : ∀ k ∈ st.keys, k ∈ st'.keys) : Base D B st' := by
  refine ⟨?_, ?_, ?_, ?_, ?_, ?_, ?_, ?_, ?_, ?_⟩
  · unfold WF; rw [e1]; exact h.wf
  · rw [e1]; exact h.sorted
  · rw [e1, e2]; exact h.lt
  · rw [e1, e3]; exact h.traced
  · rw [e1]; exact h.body
  · rw [e3]; exact h.uniq
  · rw [e3, e2]; exact h.callLt
  · rw [e3, e1]; exact h.clean
  · rw [e3, e1]; exact h.life
  · rw [e1]; exact fun a ha => e4 _ (h.keys a ha)

theorem Base.touch {D B} {st : St} (h : Base D B st) (s : Nat) : Base D B (Fix.touch s st) :=
  h.congr (touch_active _ _) (touch_clock _ _) (touch_trace _ _) (fun k hk => touch_keys s k st hk)

theorem Base.steps {E : Env} {st st' : St} (h : Base E.defs E.body st) (hs : Steps E st st') : Base E.defs E.body st' := by
  induction hs with
  | refl => exact h
  | touch s _ ih => exact ih.touch s
  | comp c _ ih => exact ih.congr rfl rfl rfl (fun _ h => h)
  | deact f _ ih => exact ih.deact f
  | act f vs _ hn hk ih => exact ih.act f vs hn hk

/-! ## Ending scopes -/

theorem popLoop_base {D B} (fs : List Nat) (st : St) (h : Base D B st) : Base D B (popLoop fs st).2 := by
  induction fs generalizing st with
  | nil => exact h
  | cons f fs ih =>
    simp only [popLoop]
    have h1 := h.deact f
    generalize deactivate f st = p at h1 ⊢
    rcases p with ⟨r, st1⟩
    cases r with
    | none => exact ih _ h1
    | some k =>
      simp only
      split
      · exact h1
      · exact ih _ h1

theorem popScopes_base {D B} (s : Nat) (ks : List Nat) (st : St) (h : Base D B st) : Base D B (popScopes D s ks st).2 := by
  induction ks generalizing st with
  | nil => exact h
  | cons k ks ih =>
    simp only [popScopes]
    split
    · have h1 := popLoop_base ((st.active.filter (fun a => (D a.id).scope == k)).map (·.id)).reverse st h
      generalize popLoop ((st.active.filter (fun a => (D a.id).scope == k)).map (·.id)).reverse st = p at h1 ⊢
      rcases p with ⟨r, st1⟩
      cases r with
      | none => exact ih _ h1
      | some e => exact h1
    · exact ih _ h

theorem popScope_base {D B} (s : Nat) (i : Bool) (st : St) (h : Base D B st) : Base D B (popScope D s i st).2 := by
  unfold popScope
  split
  · exact h
  · exact popScopes_base s _ st h

end Slash.Fix
