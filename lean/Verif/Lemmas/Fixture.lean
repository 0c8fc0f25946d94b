import Verif.Model.Fixture
import Verif.Lemmas.Util
/-!
# Helper lemmas on the fixture store model
-/
namespace Slash.Fix

/-- the calls in a list of events -/
def calls : List Ev → List (Nat × Nat)
  | [] => []
  | .call f n _ :: l => (f, n) :: calls l
  | .cleanup _ _ _ :: l => calls l

/-- two lists of the same length, related element by element -/
inductive All2 (R : Nat → Nat → Prop) : List Nat → List Nat → Prop
  | nil : All2 R [] []
  | cons {a b l m} : R a b → All2 R l m → All2 R (a :: l) (b :: m)

theorem calls_append (a b : List Ev) : calls (a ++ b) = calls a ++ calls b := by
  induction a with
  | nil => rfl
  | cons e a ih => cases e <;> simp [calls, ih]

/-- a fixture is active with a value which may be reused -/
def Valid (E : Env) (st : St) (g v : Nat) : Prop := ∃ a ∈ st.active, a.id = g ∧ a.value = v ∧ isValid E a = true

/-- no two active fixtures with the same id -/
def WF (st : St) : Prop := (st.active.map (·.id)).Nodup

theorem getActive_some {st : St} {f : Nat} {a : Act} (h : getActive st f = some a) : a ∈ st.active ∧ a.id = f := by
  unfold getActive at h
  exact ⟨List.mem_of_find?_eq_some h, by simpa using List.find?_some h⟩

theorem getActive_none {st : St} {f : Nat} (h : getActive st f = none) : ∀ a ∈ st.active, a.id ≠ f := by
  unfold getActive at h
  simpa using h

theorem WF.eq {st : St} (h : WF st) {a b : Act} (ha : a ∈ st.active) (hb : b ∈ st.active) (e : a.id = b.id) : a = b :=
  inj_on_of_nodup_map h ha hb e

theorem getActive_of_mem {st : St} (h : WF st) {a : Act} (ha : a ∈ st.active) : getActive st a.id = some a := by
  cases hg : getActive st a.id with
  | none => exact absurd rfl (getActive_none hg a ha)
  | some b =>
    obtain ⟨h1, h2⟩ := getActive_some hg
    rw [h.eq h1 ha h2]

/-! ## Tearing down -/

theorem doCleanups_spec (f n : Nat) (cs : List Cl) (st : St) : ∃ d,
    (doCleanups f n cs st).2 = { st with trace := st.trace ++ d } ∧ calls d = [] ∧
    (∀ e ∈ d, ∃ t, e = .cleanup f n t) ∧
    ((∀ c ∈ cs, c.raises = none) → (doCleanups f n cs st).1 = none) ∧
    ((doCleanups f n cs st).1 = none → d = cs.map (fun c => .cleanup f n c.tag)) := by
  induction cs generalizing st with
  | nil => exact ⟨[], by simp [doCleanups], rfl, by simp, fun _ => rfl, fun _ => rfl⟩
  | cons c cs ih =>
    simp only [doCleanups]
    cases hc : c.raises with
    | some k => exact ⟨[.cleanup f n c.tag], rfl, rfl, by simp, fun h => by simp [hc] at h, fun h => by cases h⟩
    | none =>
      obtain ⟨d, h1, h2, h3, h4, h5⟩ := ih { st with trace := st.trace ++ [.cleanup f n c.tag] }
      refine ⟨.cleanup f n c.tag :: d, by simp only; rw [h1]; simp, by simpa [calls] using h2, ?_, ?_, ?_⟩
      · intro e he
        rcases List.mem_cons.1 he with rfl | he
        · exact ⟨_, rfl⟩
        · exact h3 e he
      · intro h; exact h4 (fun c hc => h c (by simp [hc]))
      · intro h; simp only at h; rw [h5 h]; rfl

/-- tearing a fixture down removes it and calls only its cleanups -/
theorem deactivate_spec (f : Nat) (st : St) : ∃ d,
    (deactivate f st).2 = { st with active := st.active.filter (·.id != f), trace := st.trace ++ d } ∧ calls d = [] ∧
    (∀ e ∈ d, ∃ a ∈ st.active, ∃ t, a.id = f ∧ e = .cleanup f a.value t) := by
  unfold deactivate
  cases h : getActive st f with
  | none =>
    refine ⟨[], ?_, rfl, by simp⟩
    have : st.active.filter (·.id != f) = st.active := by
      rw [List.filter_eq_self]
      intro a ha
      simpa using getActive_none h a ha
    simp [this]
  | some a =>
    obtain ⟨d, h1, h2, h3, -⟩ := doCleanups_spec f a.value a.cleanups.reverse { st with active := st.active.filter (·.id != f) }
    refine ⟨d, by simpa using h1, h2, fun e he => ?_⟩
    obtain ⟨t, rfl⟩ := h3 e he
    obtain ⟨k1, k2⟩ := getActive_some h
    exact ⟨a, k1, t, k2, rfl⟩

/-! ## Setting up -/

/-- a value a requester may get: reusable at the start, or computed since -/
def Known (E : Env) (st : St) (d : List Ev) (g v : Nat) : Prop := Valid E st g v ∨ (g, v) ∈ calls d

/-- each call in `d` got, for each needed fixture, a value known by then -/
def Chain (E : Env) (st : St) (d : List Ev) : Prop :=
  ∀ d1 f n args d2, d = d1 ++ .call f n args :: d2 → All2 (Known E st d1) (E.defs f).needs args

/-- What setting up does while the fixtures `C` are being computed: the events `d` happen, and -/
structure Spec (E : Env) (C : List Nat) (st st' : St) (d : List Ev) : Prop where
  trace : st'.trace = st.trace ++ d
  wf : WF st'
  chain : Chain E st d
  once : ((calls d).map (·.1)).Nodup
  fresh : ∀ g n, (g, n) ∈ calls d → ∀ v, ¬ Valid E st g v
  keep : ∀ g v, Valid E st g v → Valid E st' g v
  from_ : ∀ a ∈ st'.active, a ∈ st.active ∨ (a.id, a.value) ∈ calls d
  comp : st'.computing = st.computing
  notComp : ∀ g n, (g, n) ∈ calls d → g ∉ C
  clock : st.clock ≤ st'.clock
  range : ∀ g n, (g, n) ∈ calls d → st.clock ≤ n ∧ n < st'.clock

/-- all computed values are active at the end -/
def Done (E : Env) (st' : St) (d : List Ev) : Prop := ∀ g n, (g, n) ∈ calls d → Valid E st' g n

theorem chain_nil (E : Env) (st : St) : Chain E st [] := by
  intro d1 f n args d2 h; simp at h

theorem chain_calls_nil {E : Env} {st : St} {d : List Ev} (h : calls d = []) : Chain E st d := by
  intro d1 f n args d2 e
  rw [e, calls_append] at h
  simp [calls] at h

theorem forall2_imp {R S : Nat → Nat → Prop} (h : ∀ a b, R a b → S a b) {l1 l2 : List Nat} (hl : All2 R l1 l2) :
    All2 S l1 l2 := by
  induction hl with
  | nil => exact .nil
  | cons h1 _ ih => exact .cons (h _ _ h1) ih

theorem Spec.refl (E : Env) (C : List Nat) {st : St} (h : WF st) : Spec E C st st [] :=
  ⟨by simp, h, chain_nil E st, by simp [calls], by simp [calls], fun _ _ h => h, fun a ha => .inl ha, rfl, by simp [calls],
   Nat.le_refl _, by simp [calls]⟩

theorem chain_append {E : Env} {st st1 : St} {d1 d2 : List Ev} (h1 : Chain E st d1) (h2 : Chain E st1 d2)
    (hk : ∀ g v, Valid E st1 g v → Valid E st g v ∨ (g, v) ∈ calls d1) : Chain E st (d1 ++ d2) := by
  intro p f n args s e
  rcases List.append_eq_append_iff.1 e with ⟨q, h3, h4⟩ | ⟨q, h3, h4⟩
  · -- the event is in `d2`
    have := h2 q f n args s h4
    refine forall2_imp ?_ this
    rintro g v (h | h)
    · rcases hk g v h with h | h
      · exact .inl h
      · refine .inr ?_
        rw [h3, calls_append]
        simp [h]
    · refine .inr ?_
      rw [h3, calls_append]
      simp [h]
  · cases q with
    | nil =>
      simp only [List.nil_append] at h4
      simp only [List.append_nil] at h3
      have := h2 [] f n args s h4.symm
      refine forall2_imp ?_ this
      rintro g v (h | h)
      · rcases hk g v h with h | h
        · exact .inl h
        · refine .inr ?_; rw [← h3]; exact h
      · simp [calls] at h
    | cons x q =>
      simp only [List.cons_append, List.cons.injEq] at h4
      obtain ⟨rfl, h4⟩ := h4
      exact h1 p f n args q h3

theorem Spec.mono {E : Env} {C C' : List Nat} {st st' : St} {d : List Ev} (h : Spec E C st st' d) (hs : ∀ x ∈ C', x ∈ C) :
    Spec E C' st st' d :=
  ⟨h.trace, h.wf, h.chain, h.once, h.fresh, h.keep, h.from_, h.comp, fun g n hg hx => h.notComp g n hg (hs g hx), h.clock, h.range⟩

theorem Spec.valid_from {E : Env} {C : List Nat} {st st1 : St} {d : List Ev} (h : Spec E C st st1 d) {g v : Nat} (hv : Valid E st1 g v) :
    Valid E st g v ∨ (g, v) ∈ calls d := by
  obtain ⟨a, ha, rfl, rfl, hval⟩ := hv
  rcases h.from_ a ha with h' | h'
  · exact .inl ⟨a, h', rfl, rfl, hval⟩
  · exact .inr h'

theorem Spec.append {E : Env} {C : List Nat} {st st1 st2 : St} {d1 d2 : List Ev} (h1 : Spec E C st st1 d1) (hd : Done E st1 d1)
    (h2 : Spec E C st1 st2 d2) : Spec E C st st2 (d1 ++ d2) := by
  refine ⟨by rw [h2.trace, h1.trace, List.append_assoc], h2.wf, chain_append h1.chain h2.chain (fun g v => h1.valid_from), ?_, ?_,
    fun g v h => h2.keep g v (h1.keep g v h), ?_, h2.comp.trans h1.comp, ?_, Nat.le_trans h1.clock h2.clock, ?_⟩
  · rw [calls_append, List.map_append, List.nodup_append]
    refine ⟨h1.once, h2.once, ?_⟩
    intro a ha b hb e
    subst e
    obtain ⟨⟨g, n⟩, hp, rfl⟩ := List.mem_map.1 ha
    obtain ⟨⟨g', n'⟩, hp', e⟩ := List.mem_map.1 hb
    simp only at e
    subst e
    exact h2.fresh _ _ hp' n (hd _ _ hp)
  · intro g n hg v hv
    rw [calls_append] at hg
    rcases List.mem_append.1 hg with hg | hg
    · exact h1.fresh g n hg v hv
    · exact h2.fresh g n hg v (h1.keep g v hv)
  · intro a ha
    rw [calls_append]
    rcases h2.from_ a ha with h | h
    · rcases h1.from_ a h with h | h
      · exact .inl h
      · exact .inr (List.mem_append_left _ h)
    · exact .inr (List.mem_append_right _ h)
  · intro g n hg
    rw [calls_append] at hg
    rcases List.mem_append.1 hg with hg | hg
    · exact h1.notComp g n hg
    · exact h2.notComp g n hg
  · intro g n hg
    rw [calls_append] at hg
    rcases List.mem_append.1 hg with hg | hg
    · have := h1.range g n hg; have := h2.clock; omega
    · have := h2.range g n hg; have := h1.clock; omega

theorem Done.append {E : Env} {C : List Nat} {st1 st2 : St} {d1 d2 : List Ev} (h1 : Done E st1 d1) (h2 : Spec E C st1 st2 d2) (hd : Done E st2 d2) :
    Done E st2 (d1 ++ d2) := by
  intro g n hg
  rw [calls_append] at hg
  rcases List.mem_append.1 hg with hg | hg
  · exact h2.keep g n (h1 g n hg)
  · exact hd g n hg

/-- what is known of a way to compute fixture values -/
def RecOk (E : Env) (rec : Nat → St → Except Err Nat × St) : Prop :=
  ∀ f st, WF st → ∃ d, Spec E st.computing st (rec f st).2 d ∧ ∀ v, (rec f st).1 = .ok v → Valid E (rec f st).2 f v ∧ Done E (rec f st).2 d

theorem argsLoop_spec {E : Env} {rec : Nat → St → Except Err Nat × St} (hr : RecOk E rec) (gs : List Nat) (st : St) (hw : WF st) :
    ∃ d, Spec E st.computing st (argsLoop rec gs st).2 d ∧ ∀ vs, (argsLoop rec gs st).1 = .ok vs →
      All2 (Valid E (argsLoop rec gs st).2) gs vs ∧ Done E (argsLoop rec gs st).2 d := by
  induction gs generalizing st with
  | nil =>
    refine ⟨[], Spec.refl E _ hw, fun vs h => ?_⟩
    simp only [argsLoop, Except.ok.injEq] at h
    subst h
    exact ⟨.nil, by intro g n hg; simp [calls] at hg⟩
  | cons g gs ih =>
    obtain ⟨d1, h1, h2⟩ := hr g st hw
    simp only [argsLoop]
    rcases hrec : rec g st with ⟨r, st1⟩
    rw [hrec] at h1 h2
    simp only at h1 h2
    cases r with
    | error e => exact ⟨d1, h1, fun vs h => by cases h⟩
    | ok v =>
      obtain ⟨hv, hd⟩ := h2 v rfl
      obtain ⟨d2, h3, h4⟩ := ih st1 h1.wf
      rw [h1.comp] at h3
      simp only
      rcases hl : argsLoop rec gs st1 with ⟨r2, st2⟩
      rw [hl] at h3 h4
      simp only at h3 h4
      cases r2 with
      | error e => exact ⟨d1 ++ d2, h1.append hd h3, fun vs h => by cases h⟩
      | ok vs =>
        refine ⟨d1 ++ d2, h1.append hd h3, fun vs' h => ?_⟩
        simp only [Except.ok.injEq] at h
        subst h
        obtain ⟨h5, h6⟩ := h4 vs rfl
        exact ⟨.cons (h3.keep _ _ hv) h5, hd.append h3 h6⟩

/-- changing keys or the fixtures being computed -/
theorem valid_congr {E : Env} {st st' : St} (h : st'.active = st.active) (g v : Nat) : Valid E st' g v ↔ Valid E st g v := by
  unfold Valid; rw [h]

theorem touch_active (s : Nat) (st : St) : (touch s st).active = st.active := by unfold touch; split <;> rfl
theorem touch_trace (s : Nat) (st : St) : (touch s st).trace = st.trace := by unfold touch; split <;> rfl
theorem touch_computing (s : Nat) (st : St) : (touch s st).computing = st.computing := by unfold touch; split <;> rfl
theorem touch_clock (s : Nat) (st : St) : (touch s st).clock = st.clock := by unfold touch; split <;> rfl

theorem isValid_new (E : Env) (f n : Nat) (args : List Nat) (cs : List Cl) :
    isValid E { id := f, value := n, deps := depsOf E f, args := args, cleanups := cs } = true := by
  simp [isValid]

/-- calling a fixture function: `f` is not active and being computed -/
theorem callFixture_spec {E : Env} {rec : Nat → St → Except Err Nat × St} (hr : RecOk E rec) (f : Nat) (st : St) (hw : WF st)
    (C : List Nat) (hc : st.computing = f :: C) (hfC : f ∉ C) (hn : ∀ a ∈ st.active, a.id ≠ f) :
    ∃ d, Spec E C st (callFixture E rec f st).2 d ∧ ∀ v, (callFixture E rec f st).1 = .ok v →
      Valid E (callFixture E rec f st).2 f v ∧ Done E (callFixture E rec f st).2 d ∧
      ∃ d1 args, d = d1 ++ [.call f v args] := by
  unfold callFixture
  obtain ⟨d, h1, h2⟩ := argsLoop_spec hr (E.defs f).needs st hw
  rcases hl : argsLoop rec (E.defs f).needs st with ⟨r, st1⟩
  rw [hl] at h1 h2
  simp only at h1 h2
  cases r with
  | error e => exact ⟨d, h1.mono (by rw [hc]; intro x hx; simp [hx]), fun v h => by cases h⟩
  | ok vs =>
    obtain ⟨hvs, hd⟩ := h2 vs rfl
    simp only
    have h0 := h1
    have h1 := h1.mono (C' := C) (by rw [hc]; intro x hx; simp [hx])
    have htouch : Spec E C st (touch (E.defs f).scope st1) d :=
      ⟨by rw [touch_trace]; exact h1.trace, by unfold WF; rw [touch_active]; exact h1.wf, h1.chain, h1.once, h1.fresh,
       fun g v h => (valid_congr (touch_active _ _) g v).2 (h1.keep g v h), by rw [touch_active]; exact h1.from_,
       by rw [touch_computing]; exact h1.comp, h1.notComp, by rw [touch_clock]; exact h1.clock, by rw [touch_clock]; exact h1.range⟩
    split
    · exact ⟨d, htouch, fun v h => by cases h⟩
    · rename_i hact
      have hact' : ∀ a ∈ st1.active, a.id ≠ f := by
        rw [← touch_active (E.defs f).scope st1]
        apply getActive_none
        cases hg : getActive (touch (E.defs f).scope st1) f with
        | none => rfl
        | some a => rw [hg] at hact; simp at hact
      have hfd : ∀ n, (f, n) ∉ calls d := fun n hm => h0.notComp f n hm (by simp [hc])
      have key : ∀ (st2 : St), st2.trace = st1.trace ++ [.call f st1.clock vs] → st2.computing = st1.computing →
          st2.clock = st1.clock + 1 →
          st2.active = st1.active ++ [{ id := f, value := st1.clock, deps := depsOf E f, args := vs, cleanups := (E.body f st1.clock).cleanups }] →
          Spec E C st st2 (d ++ [.call f st1.clock vs]) ∧ Valid E st2 f st1.clock ∧ Done E st2 (d ++ [.call f st1.clock vs]) := by
        intro st2 e1 e2 e4 e3
        have hkeep : ∀ g v, Valid E st1 g v → Valid E st2 g v := by
          rintro g v ⟨a, ha, h⟩
          exact ⟨a, by rw [e3]; simp [ha], h⟩
        have hnew : Valid E st2 f st1.clock := ⟨⟨f, st1.clock, depsOf E f, vs, (E.body f st1.clock).cleanups⟩, by rw [e3]; simp, rfl, rfl, isValid_new E f _ _ _⟩
        refine ⟨⟨by rw [e1, h1.trace, List.append_assoc], ?_, ?_, ?_, ?_, fun g v h => hkeep g v (h1.keep g v h), ?_,
          e2.trans h1.comp, ?_, ?_, ?_⟩, hnew, ?_⟩
        · unfold WF
          rw [e3, List.map_append, List.nodup_append]
          refine ⟨h1.wf, by simp, ?_⟩
          intro a ha b hb e
          simp only [List.map_cons, List.map_nil, List.mem_singleton] at hb
          subst hb
          subst e
          obtain ⟨x, hx, hx'⟩ := List.mem_map.1 ha
          exact hact' x hx hx'
        · intro p g n args s e
          rcases List.append_eq_append_iff.1 e with ⟨q, h3, h4⟩ | ⟨q, h3, h4⟩
          · cases q with
            | nil =>
              simp only [List.nil_append, List.cons.injEq] at h4
              obtain ⟨h5, -⟩ := h4
              simp only [List.append_nil] at h3
              simp only [Ev.call.injEq] at h5
              obtain ⟨rfl, rfl, rfl⟩ := h5
              subst h3
              exact forall2_imp (fun g v hv => h1.valid_from hv) hvs
            | cons x q =>
              exfalso
              simp only [List.cons_append, List.cons.injEq] at h4
              have := h4.2
              simp at this
          · cases q with
            | nil =>
              simp only [List.nil_append, List.cons.injEq] at h4
              obtain ⟨h5, -⟩ := h4
              simp only [List.append_nil] at h3
              simp only [Ev.call.injEq] at h5
              obtain ⟨rfl, rfl, rfl⟩ := h5
              subst h3
              exact forall2_imp (fun g v hv => h1.valid_from hv) hvs
            | cons x q =>
              simp only [List.cons_append, List.cons.injEq] at h4
              obtain ⟨rfl, h4⟩ := h4
              exact h1.chain p g n args q h3
        · rw [calls_append, List.map_append, List.nodup_append]
          refine ⟨h1.once, by simp [calls], ?_⟩
          intro a ha b hb e
          simp only [calls, List.map_cons, List.map_nil, List.mem_singleton] at hb
          subst hb
          subst e
          obtain ⟨⟨x, n⟩, hx, hx'⟩ := List.mem_map.1 ha
          simp only at hx'
          subst hx'
          exact hfd n hx
        · intro g n hg v hv
          rw [calls_append] at hg
          rcases List.mem_append.1 hg with hg | hg
          · exact h1.fresh g n hg v hv
          · simp only [calls, List.mem_singleton, Prod.mk.injEq] at hg
            obtain ⟨rfl, rfl⟩ := hg
            obtain ⟨a, ha, ha', -⟩ := hv
            exact hn a ha ha'
        · intro a ha
          rw [e3] at ha
          rw [calls_append]
          rcases List.mem_append.1 ha with ha | ha
          · rcases h1.from_ a ha with h | h
            · exact .inl h
            · exact .inr (List.mem_append_left _ h)
          · simp only [List.mem_singleton] at ha
            subst ha
            exact .inr (List.mem_append_right _ (by simp [calls]))
        · intro g n hg
          rw [calls_append] at hg
          rcases List.mem_append.1 hg with hg | hg
          · exact h1.notComp g n hg
          · simp only [calls, List.mem_singleton, Prod.mk.injEq] at hg
            obtain ⟨rfl, rfl⟩ := hg
            exact hfC
        · have := h1.clock; omega
        · intro g n hg
          rw [calls_append] at hg
          rcases List.mem_append.1 hg with hg | hg
          · have := h1.range g n hg; omega
          · simp only [calls, List.mem_singleton, Prod.mk.injEq] at hg
            obtain ⟨rfl, rfl⟩ := hg
            have := h1.clock; omega
        · intro g n hg
          rw [calls_append] at hg
          rcases List.mem_append.1 hg with hg | hg
          · exact hkeep g n (hd g n hg)
          · simp only [calls, List.mem_singleton, Prod.mk.injEq] at hg
            obtain ⟨rfl, rfl⟩ := hg
            exact hnew
      have hT : (touch (E.defs f).scope st1).clock = st1.clock := touch_clock _ _
      cases hb : (E.body f (touch (E.defs f).scope st1).clock).raises with
      | some k =>
        simp only
        refine ⟨_, (key _ ?_ ?_ ?_ ?_).1, fun v h => by cases h⟩
        · simp only [touch_trace, hT]
        · simp only [touch_computing]
        · simp only [hT]
        · simp only [touch_active, hT]
      | none =>
        simp only
        refine ⟨_, (key _ ?_ ?_ ?_ ?_).1, fun v h => ?_⟩
        · simp only [touch_trace, hT]
        · simp only [touch_computing]
        · simp only [hT]
        · simp only [touch_active, hT]
        · simp only [Except.ok.injEq] at h
          rw [hT] at h
          subst h
          refine ⟨(key _ ?_ ?_ ?_ ?_).2.1, (key _ ?_ ?_ ?_ ?_).2.2, d, vs, rfl⟩ <;>
            first
            | simp only [touch_trace, hT]; done
            | simp only [touch_computing]; done
            | simp only [hT]; done
            | simp only [touch_active, hT]; done

theorem Spec.deact {E : Env} {C : List Nat} {st st1 : St} {d : List Ev} (h : Spec E C st st1 d) (f : Nat)
    (hf : ∀ v, ¬ Valid E st f v) : ∃ dd, calls dd = [] ∧ Spec E C st (deactivate f st1).2 (d ++ dd) := by
  obtain ⟨dd, h1, h2, -⟩ := deactivate_spec f st1
  refine ⟨dd, h2, ?_⟩
  rw [h1]
  have hcalls : calls (d ++ dd) = calls d := by rw [calls_append, h2, List.append_nil]
  refine ⟨by simp only [h.trace, List.append_assoc], ?_, chain_append h.chain (chain_calls_nil (st := st1) h2) (fun g v => h.valid_from), ?_, ?_, ?_,
    ?_, h.comp, ?_, h.clock, ?_⟩
  · unfold WF
    exact h.wf.sublist (List.filter_sublist.map _)
  · rw [hcalls]; exact h.once
  · rw [hcalls]; exact h.fresh
  · intro g v hv
    obtain ⟨a, ha, rfl, rfl, hval⟩ := h.keep g v hv
    refine ⟨a, ?_, rfl, rfl, hval⟩
    simp only [List.mem_filter, bne_iff_ne, ne_eq]
    exact ⟨ha, fun e => hf a.value (e ▸ hv)⟩
  · rw [hcalls]
    intro a ha
    exact h.from_ a (List.mem_filter.1 ha).1
  · rw [hcalls]; exact h.notComp
  · rw [hcalls]; exact h.range

theorem computeFresh_spec {E : Env} {rec : Nat → St → Except Err Nat × St} (hr : RecOk E rec) (f : Nat) (st : St) (hw : WF st)
    (hc : f ∉ st.computing) (hn : ∀ a ∈ st.active, a.id ≠ f) :
    ∃ d, Spec E st.computing st (computeFresh E rec f st).2 d ∧ ∀ v, (computeFresh E rec f st).1 = .ok v →
      Valid E (computeFresh E rec f st).2 f v ∧ Done E (computeFresh E rec f st).2 d ∧ ∃ d1 args, d = d1 ++ [.call f v args] := by
  unfold computeFresh
  obtain ⟨d, h1, h2⟩ := callFixture_spec hr f { st with computing := f :: st.computing } hw st.computing rfl hc hn
  rcases hcf : callFixture E rec f { st with computing := f :: st.computing } with ⟨r, st1⟩
  rw [hcf] at h1 h2
  simp only at h1 h2
  have back : ∀ {st2 : St} {d : List Ev}, Spec E st.computing { st with computing := f :: st.computing } st2 d →
      Spec E st.computing st { st2 with computing := st2.computing.erase f } d := by
    intro st2 d h
    refine ⟨h.trace, h.wf, h.chain, h.once, h.fresh, h.keep, h.from_, ?_, h.notComp, h.clock, h.range⟩
    simp only [h.comp, List.erase_cons_head]
  cases r with
  | ok v => exact ⟨d, back h1, fun v' h => by simp only [Except.ok.injEq] at h; subst h; exact h2 v rfl⟩
  | error e =>
    have hf : ∀ v, ¬ Valid E { st with computing := f :: st.computing } f v := by
      rintro v ⟨a, ha, he, -⟩
      exact hn a ha he
    obtain ⟨dd, -, h3⟩ := h1.deact f hf
    simp only
    rcases hde : deactivate f st1 with ⟨r, st2⟩
    rw [hde] at h3
    cases r with
    | none => exact ⟨_, back h3, fun v h => by cases h⟩
    | some k => exact ⟨_, back h3, fun v h => by cases h⟩

theorem spec_touch {E : Env} {C : List Nat} {s : Nat} {st st' : St} {d : List Ev} (h : Spec E C (touch s st) st' d) : Spec E C st st' d := by
  refine ⟨?_, h.wf, ?_, h.once, ?_, ?_, ?_, ?_, h.notComp, ?_, ?_⟩
  · rw [h.trace, touch_trace]
  · intro d1 f n args d2 e
    refine forall2_imp ?_ (h.chain d1 f n args d2 e)
    rintro g v (h | h)
    · exact .inl ((valid_congr (touch_active _ _) g v).1 h)
    · exact .inr h
  · intro g n hg v hv
    exact h.fresh g n hg v ((valid_congr (touch_active _ _) g v).2 hv)
  · intro g v hv
    exact h.keep g v ((valid_congr (touch_active _ _) g v).2 hv)
  · intro a ha
    have := h.from_ a ha
    rw [touch_active] at this
    exact this
  · rw [h.comp, touch_computing]
  · have := h.clock; rw [touch_clock] at this; exact this
  · intro g n hg
    have := h.range g n hg; rw [touch_clock] at this; exact this

theorem compute_spec (E : Env) (fuel : Nat) : RecOk E (compute E fuel) := by
  induction fuel with
  | zero => intro f st hw; exact ⟨[], Spec.refl E _ hw, fun v h => by cases h⟩
  | succ fuel ih =>
    intro f st hw
    simp only [compute]
    split
    · exact ⟨[], Spec.refl E _ hw, fun v h => by cases h⟩
    · rename_i hc
      have hw' : WF (touch (E.defs f).scope st) := by unfold WF; rw [touch_active]; exact hw
      cases hg : getActive (touch (E.defs f).scope st) f with
      | none =>
        obtain ⟨d, h1, h2⟩ := computeFresh_spec ih f (touch (E.defs f).scope st) hw' (by rw [touch_computing]; exact hc) (getActive_none hg)
        rw [touch_computing] at h1
        exact ⟨d, spec_touch h1, fun v h => ⟨(h2 v h).1, (h2 v h).2.1⟩⟩
      | some a =>
        obtain ⟨ha, haf⟩ := getActive_some hg
        simp only
        split
        · rename_i hv
          refine ⟨[], spec_touch (Spec.refl E _ hw'), fun v h => ?_⟩
          simp only [Except.ok.injEq] at h
          subst h
          exact ⟨⟨a, ha, haf, rfl, hv⟩, by intro g n hg; simp [calls] at hg⟩
        · rename_i hv
          have hf : ∀ v, ¬ Valid E (touch (E.defs f).scope st) f v := by
            rintro v ⟨b, hb, he, -, hvb⟩
            have := hw'.eq ha hb (haf.trans he.symm)
            subst this
            exact hv hvb
          obtain ⟨dd, hdd, h3⟩ := (Spec.refl E (touch (E.defs f).scope st).computing hw').deact f hf
          obtain ⟨_, hde', -⟩ := deactivate_spec f (touch (E.defs f).scope st)
          rcases hde : deactivate f (touch (E.defs f).scope st) with ⟨r, st2⟩
          rw [hde] at h3 hde'
          simp only [List.nil_append] at h3
          rw [touch_computing] at h3
          cases r with
          | some k => exact ⟨dd, spec_touch h3, fun v h => by cases h⟩
          | none =>
            have hn2 : ∀ a ∈ st2.active, a.id ≠ f := by
              intro b hb
              simp only at hde'
              rw [hde'] at hb
              simpa using (List.mem_filter.1 hb).2
            have hcomp : st2.computing = st.computing := by rw [h3.comp, touch_computing]
            obtain ⟨d, h4, h5⟩ := computeFresh_spec ih f st2 h3.wf (by rw [hcomp]; exact hc) hn2
            rw [hcomp] at h4
            have hdone : Done E st2 dd := by intro g n hg; rw [hdd] at hg; cases hg
            refine ⟨dd ++ d, spec_touch (h3.append hdone h4), fun v h => ?_⟩
            obtain ⟨h6, h7, -⟩ := h5 v h
            exact ⟨h6, hdone.append h4 h7⟩

theorem setup_spec (E : Env) (fuel : Nat) (fs : List Nat) (st : St) (hw : WF st) :
    ∃ d, Spec E st.computing st (setup E fuel fs st).2 d ∧ ∀ vs, (setup E fuel fs st).1 = .ok vs →
      All2 (Valid E (setup E fuel fs st).2) fs vs ∧ Done E (setup E fuel fs st).2 d :=
  argsLoop_spec (compute_spec E fuel) fs st hw

end Slash.Fix
