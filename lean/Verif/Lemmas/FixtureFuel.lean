import Verif.Lemmas.Fixture
/-!
# The recursion depth of the fixture store
-/
namespace Slash.Fix

theorem argsLoop_congr {E : Env} {rec rec' : Nat → St → Except Err Nat × St} (hk : RecOk E rec) (C : List Nat) (gs : List Nat)
    (h : ∀ g ∈ gs, ∀ st, WF st → st.computing = C → rec g st = rec' g st) (st : St) (hw : WF st) (hC : st.computing = C) :
    argsLoop rec gs st = argsLoop rec' gs st := by
  induction gs generalizing st with
  | nil => rfl
  | cons g gs ih =>
    simp only [argsLoop]
    rw [← h g (by simp) st hw hC]
    obtain ⟨d, hd, -⟩ := hk g st hw
    generalize rec g st = p at hd ⊢
    rcases p with ⟨r, st1⟩
    cases r with
    | error e => rfl
    | ok v => simp only; rw [ih (fun g hg => h g (by simp [hg])) st1 hd.wf (hd.comp.trans hC)]

theorem callFixture_congr {E : Env} {rec rec' : Nat → St → Except Err Nat × St} (hk : RecOk E rec) (f : Nat) (st : St) (hw : WF st)
    (h : ∀ g ∈ (E.defs f).needs, ∀ st', WF st' → st'.computing = st.computing → rec g st' = rec' g st') :
    callFixture E rec f st = callFixture E rec' f st := by
  unfold callFixture
  rw [argsLoop_congr hk st.computing _ h st hw rfl]

theorem computeFresh_congr {E : Env} {rec rec' : Nat → St → Except Err Nat × St} (hk : RecOk E rec) (f : Nat) (st : St) (hw : WF st)
    (h : ∀ g ∈ (E.defs f).needs, ∀ st', WF st' → st'.computing = f :: st.computing → rec g st' = rec' g st') :
    computeFresh E rec f st = computeFresh E rec' f st := by
  unfold computeFresh
  rw [callFixture_congr hk f _ (by exact hw) h]

/-- With a finite set `V` of fixtures containing all that is needed, one more than the fixtures of `V` not being computed
are enough fuel: the result is that of any more fuel. -/
theorem compute_enough_fuel (E : Env) (V : List Nat) (hV : ∀ f ∈ V, ∀ g ∈ (E.defs f).needs, g ∈ V) (fuel : Nat) :
    ∀ f st, f ∈ V → WF st → st.computing.Nodup → (∀ c ∈ st.computing, c ∈ V) → V.length < fuel + st.computing.length →
      compute E fuel f st = compute E (fuel + 1) f st := by
  induction fuel with
  | zero =>
    intro f st _ _ hn hs hl
    have := nodup_subset_length hn hs
    omega
  | succ fuel ih =>
    intro f st hf hw hn hs hl
    rw [compute, compute]
    split
    · rfl
    · rename_i hc
      have hw' : WF (touch (E.defs f).scope st) := by unfold WF; rw [touch_active]; exact hw
      have hfresh : ∀ st', WF st' → st'.computing = st.computing →
          computeFresh E (compute E fuel) f st' = computeFresh E (compute E (fuel + 1)) f st' := by
        intro st' hw2 hc2
        refine computeFresh_congr (compute_spec E fuel) f st' hw2 ?_
        intro g hg st3 hw3 hc3
        rw [hc2] at hc3
        refine ih g st3 (hV f hf g hg) hw3 ?_ ?_ ?_
        · rw [hc3]; exact List.nodup_cons.2 ⟨hc, hn⟩
        · rw [hc3]; intro c hc'
          rcases List.mem_cons.1 hc' with rfl | hc'
          · exact hf
          · exact hs c hc'
        · rw [hc3]; simp only [List.length_cons]; omega
      cases hg : getActive (touch (E.defs f).scope st) f with
      | none => simp only [hg]; exact hfresh _ hw' (touch_computing _ _)
      | some a =>
        simp only [hg]
        split
        · rfl
        · obtain ⟨d, hd, -, -⟩ := deactivate_spec f (touch (E.defs f).scope st)
          generalize deactivate f (touch (E.defs f).scope st) = p at hd ⊢
          rcases p with ⟨r, st2⟩
          simp only at hd
          cases r with
          | some k => rfl
          | none =>
            refine hfresh st2 ?_ ?_
            · unfold WF; rw [hd]; exact hw'.sublist (List.filter_sublist.map _)
            · rw [hd]; exact touch_computing _ _

theorem compute_fuel_irrelevant (E : Env) (V : List Nat) (hV : ∀ f ∈ V, ∀ g ∈ (E.defs f).needs, g ∈ V) (n : Nat) (f : Nat) (st : St)
    (hf : f ∈ V) (hw : WF st) (hc : st.computing = []) : compute E (V.length + 1 + n) f st = compute E (V.length + 1) f st := by
  induction n with
  | zero => rfl
  | succ n ih =>
    rw [← ih]
    exact (compute_enough_fuel E V hV (V.length + 1 + n) f st hf hw (by simp [hc]) (by simp [hc]) (by omega)).symm

/-! ## Only user code raises -/

/-- a chain of dependencies -/
inductive Path (E : Env) : Nat → Nat → Prop
  | one {f g} : g ∈ (E.defs f).needs → Path E f g
  | snoc {f g h} : Path E f g → h ∈ (E.defs g).needs → Path E f h

/-- the error, if any, is one raised by user code -/
def UserOnly {α : Type} (r : Except Err α) : Prop := ∀ e, r = .error e → ∃ k, e = .user k

theorem argsLoop_user {E : Env} {rec : Nat → St → Except Err Nat × St} (hk : RecOk E rec) (C : List Nat) (gs : List Nat)
    (h : ∀ g ∈ gs, ∀ st, WF st → st.computing = C → UserOnly (rec g st).1) (st : St) (hw : WF st) (hC : st.computing = C) :
    UserOnly (argsLoop rec gs st).1 := by
  induction gs generalizing st with
  | nil => intro e h; cases h
  | cons g gs ih =>
    simp only [argsLoop]
    have hu := h g (by simp) st hw hC
    obtain ⟨d, hd, -⟩ := hk g st hw
    generalize rec g st = p at hd hu ⊢
    rcases p with ⟨r, st1⟩
    cases r with
    | error e => intro e' h'; simp only [Except.error.injEq] at h'; subst h'; exact hu e rfl
    | ok v =>
      have hi := ih (fun g hg => h g (by simp [hg])) st1 hd.wf (hd.comp.trans hC)
      simp only
      generalize argsLoop rec gs st1 = p at hi ⊢
      rcases p with ⟨r2, st2⟩
      cases r2 with
      | error e => intro e' h'; simp only [Except.error.injEq] at h'; subst h'; exact hi e rfl
      | ok vs => intro e' h'; cases h'

theorem computeFresh_user {E : Env} {rec : Nat → St → Except Err Nat × St} (hk : RecOk E rec) (f : Nat) (st : St) (hw : WF st)
    (hn : ∀ a ∈ st.active, a.id ≠ f)
    (h : ∀ g ∈ (E.defs f).needs, ∀ st', WF st' → st'.computing = f :: st.computing → UserOnly (rec g st').1) :
    UserOnly (computeFresh E rec f st).1 := by
  have hcall : UserOnly (callFixture E rec f { st with computing := f :: st.computing }).1 := by
    unfold callFixture
    have hu := argsLoop_user hk (f :: st.computing) (E.defs f).needs h { st with computing := f :: st.computing } hw rfl
    obtain ⟨d, hd, -⟩ := argsLoop_spec hk (E.defs f).needs { st with computing := f :: st.computing } hw
    generalize argsLoop rec (E.defs f).needs { st with computing := f :: st.computing } = p at hu hd ⊢
    rcases p with ⟨r, st1⟩
    cases r with
    | error e => intro e' h'; simp only [Except.error.injEq] at h'; subst h'; exact hu e rfl
    | ok vs =>
      simp only at hd ⊢
      have hnone : getActive (touch (E.defs f).scope st1) f = none := by
        cases hg : getActive (touch (E.defs f).scope st1) f with
        | none => rfl
        | some a =>
          obtain ⟨ha, haf⟩ := getActive_some hg
          rw [touch_active] at ha
          rcases hd.from_ a ha with h' | h'
          · exact absurd haf (hn a h')
          · rw [haf] at h'; exact absurd (by simp) (hd.notComp _ _ h')
      rw [hnone]
      simp only [Option.isSome_none, Bool.false_eq_true, if_false]
      cases (E.body f (touch (E.defs f).scope st1).clock).raises with
      | some k => intro e' h'; simp only [Except.error.injEq] at h'; subst h'; exact ⟨k, rfl⟩
      | none => intro e' h'; cases h'
  unfold computeFresh
  generalize callFixture E rec f { st with computing := f :: st.computing } = p at hcall ⊢
  rcases p with ⟨r, st1⟩
  cases r with
  | ok v => intro e' h'; cases h'
  | error e =>
    simp only
    generalize deactivate f st1 = p
    rcases p with ⟨r, st2⟩
    cases r with
    | none => intro e' h'; simp only [Except.error.injEq] at h'; subst h'; exact hcall e rfl
    | some k => intro e' h'; simp only [Except.error.injEq] at h'; subst h'; exact ⟨k, rfl⟩

/-- With no cycle among the dependencies, and enough fuel, no error but those of user code arises. -/
theorem compute_user (E : Env) (V : List Nat) (hV : ∀ f ∈ V, ∀ g ∈ (E.defs f).needs, g ∈ V) (hac : ∀ f ∈ V, ¬ Path E f f) (fuel : Nat) :
    ∀ f st, f ∈ V → WF st → st.computing.Nodup → (∀ c ∈ st.computing, c ∈ V ∧ Path E c f) → V.length < fuel + st.computing.length →
      UserOnly (compute E fuel f st).1 := by
  induction fuel with
  | zero =>
    intro f st _ _ hn hs hl
    have := nodup_subset_length hn (fun c hc => (hs c hc).1)
    omega
  | succ fuel ih =>
    intro f st hf hw hn hs hl
    rw [compute]
    have hc : f ∉ st.computing := fun hc => hac f hf (hs f hc).2
    simp only [hc, if_false]
    have hw' : WF (touch (E.defs f).scope st) := by unfold WF; rw [touch_active]; exact hw
    have hfresh : ∀ st', WF st' → st'.computing = st.computing → (∀ a ∈ st'.active, a.id ≠ f) →
        UserOnly (computeFresh E (compute E fuel) f st').1 := by
      intro st' hw2 hc2 hn2
      refine computeFresh_user (compute_spec E fuel) f st' hw2 hn2 ?_
      intro g hg st3 hw3 hc3
      rw [hc2] at hc3
      refine ih g st3 (hV f hf g hg) hw3 ?_ ?_ ?_
      · rw [hc3]; exact List.nodup_cons.2 ⟨hc, hn⟩
      · rw [hc3]; intro c hc'
        rcases List.mem_cons.1 hc' with rfl | hc'
        · exact ⟨hf, .one hg⟩
        · exact ⟨(hs c hc').1, (hs c hc').2.snoc hg⟩
      · rw [hc3]; simp only [List.length_cons]; omega
    cases hg : getActive (touch (E.defs f).scope st) f with
    | none => exact hfresh _ hw' (touch_computing _ _) (getActive_none hg)
    | some a =>
      simp only
      split
      · intro e h; cases h
      · obtain ⟨d, hd, -, -⟩ := deactivate_spec f (touch (E.defs f).scope st)
        generalize deactivate f (touch (E.defs f).scope st) = p at hd ⊢
        rcases p with ⟨r, st2⟩
        simp only at hd
        cases r with
        | some k => intro e' h'; simp only [Except.error.injEq] at h'; subst h'; exact ⟨k, rfl⟩
        | none =>
          refine hfresh st2 ?_ ?_ ?_
          · unfold WF; rw [hd]; exact hw'.sublist (List.filter_sublist.map _)
          · rw [hd]; exact touch_computing _ _
          · rw [hd]; intro b hb; simpa using (List.mem_filter.1 hb).2

end Slash.Fix
