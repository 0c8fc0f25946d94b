import Verif.Lemmas.FixtureLife
/-!
# Dependents are torn down before what they depend on, and the end of scopes
-/
namespace Slash.Fix

open Slash.FG (FDef)

/-- The values given to a call are cleaned up only after the call's own value. -/
def Late (t : List Ev) : Prop :=
  ∀ t1 g v tag t2, t = t1 ++ .cleanup g v tag :: t2 → ∀ f n args, .call f n args ∈ t → v ∈ args →
    .call f n args ∈ t1 ∧ ∀ tag', .cleanup f n tag' ∉ t2

/-- The values given to active fixtures are active. -/
structure Ord (D : Nat → FDef) (st : St) : Prop where
  args : ∀ a ∈ st.active, ∀ v ∈ a.args, v < a.value ∧ ∃ b ∈ st.active, b.value = v ∧ b.id ∈ (D a.id).needs
  late : Late st.trace

theorem ord_init (D : Nat → FDef) : Ord D {} :=
  ⟨by simp, by intro t1 g v tag t2 h; simp at h⟩

theorem late_cleanups {t d : List Ev} {f n : Nat} (h : Late t) (hd : ∀ e ∈ d, ∃ tag, e = .cleanup f n tag)
    (hn : ∀ args, .call f n args ∈ t → ∀ v ∈ args, v ≠ n ∧ ∀ g tag, .cleanup g v tag ∉ t) : Late (t ++ d) := by
  intro t1 g v tag t2 e f' n' args hc hv
  have hc' : .call f' n' args ∈ t := by
    rcases List.mem_append.1 hc with hc | hc
    · exact hc
    · obtain ⟨_, e⟩ := hd _ hc; cases e
  have key : ∀ q, .cleanup g v tag ∈ d → t1 = t ++ q → (∀ x ∈ t2, x ∈ d) → .call f' n' args ∈ t1 ∧ ∀ tag', .cleanup f' n' tag' ∉ t2 := by
    intro q hm h3 hsub
    refine ⟨h3 ▸ List.mem_append_left _ hc', fun tag' hm' => ?_⟩
    obtain ⟨_, e1⟩ := hd _ hm
    obtain ⟨_, e2⟩ := hd _ (hsub _ hm')
    simp only [Ev.cleanup.injEq] at e1 e2
    obtain ⟨rfl, rfl, -⟩ := e1
    obtain ⟨rfl, rfl, -⟩ := e2
    exact (hn args hc' _ hv).1 rfl
  rcases List.append_eq_append_iff.1 e with ⟨q, h3, h4⟩ | ⟨q, h3, h4⟩
  · exact key q (by rw [h4]; simp) h3 (fun x hx => by rw [h4]; simp [hx])
  · cases q with
    | nil =>
      simp only [List.nil_append] at h4
      simp only [List.append_nil] at h3
      exact key [] (by rw [← h4]; simp) (by simp [h3]) (fun x hx => by rw [← h4]; simp [hx])
    | cons x q =>
      simp only [List.cons_append, List.cons.injEq] at h4
      obtain ⟨rfl, h4⟩ := h4
      obtain ⟨k1, k2⟩ := h t1 g v tag q h3 f' n' args hc' hv
      refine ⟨k1, fun tag' hm => ?_⟩
      rw [h4] at hm
      rcases List.mem_append.1 hm with hm | hm
      · exact k2 tag' hm
      · obtain ⟨_, e2⟩ := hd _ hm
        simp only [Ev.cleanup.injEq] at e2
        obtain ⟨rfl, rfl, -⟩ := e2
        exact (hn args hc' _ hv).2 g tag (by rw [h3]; simp)

theorem Ord.deact {D B} {st : St} (hb : Base D B st) (h : Ord D st) (f : Nat)
    (hfree : ∀ a ∈ st.active, a.id ≠ f → ∀ b ∈ st.active, b.id = f → b.value ∉ a.args) : Ord D (deactivate f st).2 := by
  cases hg : getActive st f with
  | none => rw [deactivate_none hg]; exact h
  | some a =>
    obtain ⟨ha, haf⟩ := getActive_some hg
    obtain ⟨d, h1, h2, -⟩ := deactivate_some hg
    rw [h1]
    refine ⟨?_, ?_⟩
    · intro c hc v hv
      simp only [List.mem_filter, bne_iff_ne, ne_eq] at hc ⊢
      obtain ⟨k1, b, hb', k2, k3⟩ := h.args c hc.1 v hv
      refine ⟨k1, b, ⟨hb', fun e => ?_⟩, k2, k3⟩
      exact hfree c hc.1 hc.2 b hb' e (k2 ▸ hv)
    · refine late_cleanups h.late h2 ?_
      intro args hc v hv
      have := (hb.uniq _ _ _ _ _ hc (hb.traced a ha)).2
      subst this
      obtain ⟨k1, b, hb', k2, k3⟩ := h.args a ha v hv
      refine ⟨by omega, fun g tag hm => ?_⟩
      exact (hb.clean g v tag hm).2 b hb' k2

theorem Ord.act {E : Env} {B} {st : St} (hb : Base E.defs B st) (h : Ord E.defs st) (f : Nat) (vs : List Nat)
    (hvs : ∀ v ∈ vs, ∃ b ∈ st.active, b.value = v ∧ b.id ∈ (E.defs f).needs) : Ord E.defs (activate E f vs st) := by
  refine ⟨?_, ?_⟩
  · intro a ha v hv
    simp only [activate, List.mem_append, List.mem_singleton] at ha ⊢
    rcases ha with ha | rfl
    · obtain ⟨k1, b, hb', k2⟩ := h.args a ha v hv
      exact ⟨k1, b, .inl hb', k2⟩
    · obtain ⟨b, hb', k1, k2⟩ := hvs v hv
      refine ⟨?_, b, .inl hb', k1, k2⟩
      have := hb.lt b hb'
      simp only; omega
  · intro t1 g v tag t2 e f' n args hc hv
    simp only [activate] at e hc
    rcases List.append_eq_append_iff.1 e with ⟨q, h3, h4⟩ | ⟨q, h3, h4⟩
    · cases q with
      | nil => simp at h4
      | cons x q => simp at h4
    · cases q with
      | nil => simp at h4
      | cons x q =>
        simp only [List.cons_append, List.cons.injEq] at h4
        obtain ⟨rfl, h4⟩ := h4
        have hcl : .cleanup g v tag ∈ st.trace := by rw [h3]; simp
        rcases List.mem_append.1 hc with hc | hc
        · obtain ⟨k1, k2⟩ := h.late t1 g v tag q h3 f' n args hc hv
          refine ⟨k1, fun tag' hm => ?_⟩
          rw [h4] at hm
          rcases List.mem_append.1 hm with hm | hm
          · exact k2 tag' hm
          · simp at hm
        · simp only [List.mem_singleton, Ev.call.injEq] at hc
          obtain ⟨rfl, rfl, rfl⟩ := hc
          obtain ⟨b, hb', k1, k2⟩ := hvs v hv
          exact absurd k1 ((hb.clean g v tag hcl).2 b hb')

theorem Ord.congr {D} {st st' : St} (h : Ord D st) (e1 : st'.active = st.active) (e3 : st'.trace = st.trace) : Ord D st' :=
  ⟨by rw [e1]; exact h.args, by rw [e3]; exact h.late⟩

/-! ## Setting up when nothing active is outdated -/

def AllValid (E : Env) (st : St) : Prop := ∀ a ∈ st.active, isValid E a = true

/-- what is known of a way to compute fixture values, if nothing active is outdated -/
def OrdOk (E : Env) (rec : Nat → St → Except Err Nat × St) : Prop :=
  ∀ f st, Base E.defs E.body st → Ord E.defs st → AllValid E st →
    Ord E.defs (rec f st).2 ∧ AllValid E (rec f st).2 ∧ (∀ a ∈ st.active, a ∈ (rec f st).2.active) ∧
    ∀ v, (rec f st).1 = .ok v → ∃ a ∈ (rec f st).2.active, a.id = f ∧ a.value = v

theorem argsLoop_ord {E : Env} {rec : Nat → St → Except Err Nat × St} (hs : ∀ f st, Steps E st (rec f st).2) (hr : OrdOk E rec)
    (gs : List Nat) (st : St) (hb : Base E.defs E.body st) (ho : Ord E.defs st) (hv : AllValid E st) :
    Ord E.defs (argsLoop rec gs st).2 ∧ AllValid E (argsLoop rec gs st).2 ∧ (∀ a ∈ st.active, a ∈ (argsLoop rec gs st).2.active) ∧
    ∀ vs, (argsLoop rec gs st).1 = .ok vs → All2 (fun g v => ∃ a ∈ (argsLoop rec gs st).2.active, a.id = g ∧ a.value = v) gs vs := by
  induction gs generalizing st with
  | nil =>
    refine ⟨ho, hv, fun a ha => ha, fun vs h => ?_⟩
    simp only [argsLoop, Except.ok.injEq] at h
    subst h
    exact .nil
  | cons g gs ih =>
    simp only [argsLoop]
    have h := hr g st hb ho hv
    have hb1 := hb.steps (hs g st)
    generalize rec g st = p at h hb1 ⊢
    rcases p with ⟨r, st1⟩
    obtain ⟨h1, h2, h3, h4⟩ := h
    simp only at h1 h2 h3 h4
    cases r with
    | error e => exact ⟨h1, h2, h3, fun vs h => by cases h⟩
    | ok v =>
      have h' := ih st1 hb1 h1 h2
      simp only
      generalize argsLoop rec gs st1 = p at h' ⊢
      rcases p with ⟨r2, st2⟩
      obtain ⟨k1, k2, k3, k4⟩ := h'
      simp only at k1 k2 k3 k4
      cases r2 with
      | error e => exact ⟨k1, k2, fun a ha => k3 a (h3 a ha), fun vs h => by cases h⟩
      | ok vs =>
        refine ⟨k1, k2, fun a ha => k3 a (h3 a ha), fun vs' h => ?_⟩
        simp only [Except.ok.injEq] at h
        subst h
        obtain ⟨a, ha, ha'⟩ := h4 v rfl
        exact .cons ⟨a, k3 a ha, ha'⟩ (k4 vs rfl)

theorem All2.get {R : Nat → Nat → Prop} {l m : List Nat} (h : All2 R l m) : ∀ v ∈ m, ∃ g ∈ l, R g v := by
  induction h with
  | nil => simp
  | cons h1 _ ih =>
    intro v hv
    rcases List.mem_cons.1 hv with rfl | hv
    · exact ⟨_, by simp, h1⟩
    · obtain ⟨g, hg, h2⟩ := ih v hv
      exact ⟨g, by simp [hg], h2⟩

theorem callFixture_ord {E : Env} {rec : Nat → St → Except Err Nat × St} (hs : ∀ f st, Steps E st (rec f st).2) (hk : RecOk E rec)
    (hr : OrdOk E rec) (f : Nat) (st : St) (hb : Base E.defs E.body st) (ho : Ord E.defs st) (hv : AllValid E st)
    (hc : f ∈ st.computing) (hn : ∀ a ∈ st.active, a.id ≠ f) :
    Ord E.defs (callFixture E rec f st).2 ∧ AllValid E (callFixture E rec f st).2 ∧
    (∀ a ∈ st.active, a ∈ (callFixture E rec f st).2.active) ∧
    (∀ b ∈ (callFixture E rec f st).2.active, b.id = f → ∀ a ∈ (callFixture E rec f st).2.active, a.value ≤ b.value) ∧
    ∀ v, (callFixture E rec f st).1 = .ok v → ∃ a ∈ (callFixture E rec f st).2.active, a.id = f ∧ a.value = v := by
  unfold callFixture
  have h := argsLoop_ord hs hr (E.defs f).needs st hb ho hv
  have hb1 := hb.steps (argsLoop_steps hs (E.defs f).needs st)
  obtain ⟨d, hd, -⟩ := argsLoop_spec hk (E.defs f).needs st hb.wf
  generalize argsLoop rec (E.defs f).needs st = p at h hb1 hd ⊢
  rcases p with ⟨r, st1⟩
  obtain ⟨h1, h2, h3, h4⟩ := h
  simp only at h1 h2 h3 h4 hb1 hd
  have hn1 : ∀ b ∈ st1.active, b.id ≠ f := by
    intro b hb e
    rcases hd.from_ b hb with h | h
    · exact hn b h e
    · rw [e] at h; exact hd.notComp _ _ h hc
  cases r with
  | error e => exact ⟨h1, h2, h3, fun b hb e => absurd e (hn1 b hb), fun v h => by cases h⟩
  | ok vs =>
    simp only
    have hb2 := hb1.touch (E.defs f).scope
    have ho2 : Ord E.defs (touch (E.defs f).scope st1) := h1.congr (touch_active _ _) (touch_trace _ _)
    have ha2 : (touch (E.defs f).scope st1).active = st1.active := touch_active _ _
    have hm2 := mem_touch (E.defs f).scope st1
    generalize touch (E.defs f).scope st1 = st2 at hb2 ho2 ha2 hm2 ⊢
    split
    · refine ⟨ho2, ?_, ?_, ?_, fun v h => by cases h⟩
      · simp only; unfold AllValid; rw [ha2]; exact h2
      · rw [ha2]; exact h3
      · rw [ha2]; exact fun b hb e => absurd e (hn1 b hb)
    · have ho3 : Ord E.defs (activate E f vs st2) := by
        refine ho2.act hb2 f vs (fun v hv => ?_)
        obtain ⟨g, hg, a, ha, k1, k2⟩ := (h4 vs rfl).get v hv
        exact ⟨a, by rw [ha2]; exact ha, k2, k1 ▸ hg⟩
      have hall : AllValid E (activate E f vs st2) := by
        intro a ha
        simp only [activate, List.mem_append, List.mem_singleton] at ha
        rcases ha with ha | rfl
        · exact h2 a (ha2 ▸ ha)
        · exact isValid_new E f _ _ _
      have hmono : ∀ a ∈ st.active, a ∈ (activate E f vs st2).active := by
        intro a ha
        simp only [activate, List.mem_append]
        exact .inl (ha2 ▸ h3 a ha)
      have hlast : ∀ b ∈ (activate E f vs st2).active, b.id = f → ∀ a ∈ (activate E f vs st2).active, a.value ≤ b.value := by
        intro b hb e a ha
        simp only [activate, List.mem_append, List.mem_singleton] at ha hb
        rcases hb with hb | rfl
        · exact absurd e (hn1 b (ha2 ▸ hb))
        · rcases ha with ha | rfl
          · have := hb2.lt a ha; simp only; omega
          · simp
      cases (E.body f st2.clock).raises with
      | some k => exact ⟨ho3, hall, hmono, hlast, fun v h => by cases h⟩
      | none =>
        refine ⟨ho3, hall, hmono, hlast, fun v h => ?_⟩
        simp only [Except.ok.injEq] at h
        subst h
        exact ⟨⟨f, st2.clock, depsOf E f, vs, (E.body f st2.clock).cleanups⟩, by simp, rfl, rfl⟩

theorem computeFresh_ord {E : Env} {rec : Nat → St → Except Err Nat × St} (hs : ∀ f st, Steps E st (rec f st).2) (hk : RecOk E rec)
    (hr : OrdOk E rec) (f : Nat) (st : St) (hb : Base E.defs E.body st) (ho : Ord E.defs st) (hv : AllValid E st)
    (hn : ∀ a ∈ st.active, a.id ≠ f) :
    Ord E.defs (computeFresh E rec f st).2 ∧ AllValid E (computeFresh E rec f st).2 ∧
    (∀ a ∈ st.active, a ∈ (computeFresh E rec f st).2.active) ∧
    ∀ v, (computeFresh E rec f st).1 = .ok v → ∃ a ∈ (computeFresh E rec f st).2.active, a.id = f ∧ a.value = v := by
  unfold computeFresh
  have hb0 : Base E.defs E.body { st with computing := f :: st.computing } := hb.congr rfl rfl rfl (fun _ h => h)
  have h := callFixture_ord hs hk hr f { st with computing := f :: st.computing } hb0 (ho.congr rfl rfl) hv (by simp) hn
  have hb1 := hb0.steps (callFixture_steps hs f _)
  generalize callFixture E rec f { st with computing := f :: st.computing } = p at h hb1 ⊢
  rcases p with ⟨r, st1⟩
  obtain ⟨h1, h2, h3, h4, h5⟩ := h
  simp only at h1 h2 h3 h4 h5 hb1
  cases r with
  | ok v => exact ⟨h1.congr rfl rfl, h2, h3, h5⟩
  | error e =>
    have ho2 : Ord E.defs (deactivate f st1).2 := by
      refine h1.deact hb1 f ?_
      intro a ha hne b hb' hbf hm
      have := (h1.args a ha _ hm).1
      have := h4 b hb' hbf a ha
      omega
    obtain ⟨d, hd, -, -⟩ := deactivate_spec f st1
    have hall : AllValid E (deactivate f st1).2 := by
      rw [hd]; intro a ha; exact h2 a (List.mem_filter.1 ha).1
    have hmono : ∀ a ∈ st.active, a ∈ (deactivate f st1).2.active := by
      rw [hd]; intro a ha
      simp only [List.mem_filter, bne_iff_ne, ne_eq]
      exact ⟨h3 a ha, hn a ha⟩
    simp only
    generalize deactivate f st1 = p at ho2 hall hmono ⊢
    rcases p with ⟨r, st2⟩
    cases r <;> exact ⟨ho2.congr rfl rfl, hall, hmono, fun v h => by cases h⟩

theorem compute_ord (E : Env) (fuel : Nat) : OrdOk E (compute E fuel) := by
  induction fuel with
  | zero => intro f st hb ho hv; exact ⟨ho, hv, fun a ha => ha, fun v h => by cases h⟩
  | succ fuel ih =>
    intro f st hb ho hv
    simp only [compute]
    split
    · exact ⟨ho, hv, fun a ha => ha, fun v h => by cases h⟩
    · have hb2 := hb.touch (E.defs f).scope
      have ho2 : Ord E.defs (touch (E.defs f).scope st) := ho.congr (touch_active _ _) (touch_trace _ _)
      have ha2 : (touch (E.defs f).scope st).active = st.active := touch_active _ _
      generalize touch (E.defs f).scope st = st2 at hb2 ho2 ha2 ⊢
      have hv2 : AllValid E st2 := by unfold AllValid; rw [ha2]; exact hv
      rw [← ha2]
      cases hg : getActive st2 f with
      | none => exact computeFresh_ord (compute_steps E fuel) (compute_spec E fuel) ih f st2 hb2 ho2 hv2 (getActive_none hg)
      | some a =>
        obtain ⟨ha, haf⟩ := getActive_some hg
        simp only [hv2 a ha, if_true]
        refine ⟨ho2, hv2, fun a ha => ha, fun v h => ?_⟩
        simp only [Except.ok.injEq] at h
        exact ⟨a, ha, haf, h⟩

theorem setup_ord (E : Env) (fuel : Nat) (fs : List Nat) (st : St) (hb : Base E.defs E.body st) (ho : Ord E.defs st) (hv : AllValid E st) :
    Ord E.defs (setup E fuel fs st).2 := (argsLoop_ord (compute_steps E fuel) (compute_ord E fuel) fs st hb ho hv).1

/-! ## Ending scopes -/

theorem popLoop_active (fs : List Nat) (st : St) : (∀ a ∈ (popLoop fs st).2.active, a ∈ st.active) ∧
    ((popLoop fs st).1 = none → ∀ a, a ∈ (popLoop fs st).2.active ↔ a ∈ st.active ∧ a.id ∉ fs) ∧
    (∀ a ∈ st.active, a.id ∉ fs → a ∈ (popLoop fs st).2.active) := by
  induction fs generalizing st with
  | nil => simp [popLoop]
  | cons f fs ih =>
    simp only [popLoop]
    obtain ⟨d, hd, -, -⟩ := deactivate_spec f st
    have hm : ∀ a, a ∈ (deactivate f st).2.active ↔ a ∈ st.active ∧ a.id ≠ f := by
      intro a; rw [hd]; simp
    generalize deactivate f st = p at hm ⊢
    rcases p with ⟨r, st1⟩
    simp only at hm
    have go : (∀ a ∈ (popLoop fs st1).2.active, a ∈ st.active) ∧
        ((popLoop fs st1).1 = none → ∀ a, a ∈ (popLoop fs st1).2.active ↔ a ∈ st.active ∧ a.id ∉ f :: fs) ∧
        (∀ a ∈ st.active, a.id ∉ f :: fs → a ∈ (popLoop fs st1).2.active) := by
      obtain ⟨k1, k2, k3⟩ := ih st1
      refine ⟨fun a ha => ((hm a).1 (k1 a ha)).1, fun h a => ?_, fun a ha hn => ?_⟩
      · rw [k2 h a, hm a]; simp [and_assoc]
      · simp only [List.mem_cons, not_or] at hn
        exact k3 a ((hm a).2 ⟨ha, hn.1⟩) hn.2
    cases r with
    | none => exact go
    | some k =>
      simp only
      split
      · refine ⟨fun a ha => ((hm a).1 ha).1, (fun h => by cases h), fun a ha hn => ?_⟩
        simp only [List.mem_cons, not_or] at hn
        exact (hm a).2 ⟨ha, hn.1⟩
      · exact go

/-- if no exception escapes, exactly the fixtures of the given scopes are torn down -/
theorem popScopes_active {D B} (s : Nat) (ks : List Nat) (st : St) (hb : Base D B st) (h : (popScopes D s ks st).1 = none) :
    ∀ a, a ∈ (popScopes D s ks st).2.active ↔ a ∈ st.active ∧ ¬ ((D a.id).scope ∈ ks ∧ (D a.id).scope ≤ s) := by
  induction ks generalizing st with
  | nil => simp [popScopes]
  | cons k ks ih =>
    simp only [popScopes] at h ⊢
    by_cases hk : k ≤ s
    · simp only [hk, if_true] at h ⊢
      have hact := (popLoop_active ((st.active.filter (fun a => (D a.id).scope == k)).map (·.id)).reverse st).2.1
      have hb1 := popLoop_base ((st.active.filter (fun a => (D a.id).scope == k)).map (·.id)).reverse st hb
      generalize hfs : ((st.active.filter (fun a => (D a.id).scope == k)).map (·.id)).reverse = fs at h hact hb1 ⊢
      have hin : ∀ a ∈ st.active, a.id ∈ fs ↔ (D a.id).scope = k := by
        intro a ha
        rw [← hfs]
        simp only [List.mem_reverse, List.mem_map, List.mem_filter, beq_iff_eq]
        constructor
        · rintro ⟨b, ⟨_, h2⟩, h3⟩; rw [← h3]; exact h2
        · intro h'; exact ⟨a, ⟨ha, h'⟩, rfl⟩
      generalize popLoop fs st = p at h hact hb1 ⊢
      rcases p with ⟨r, st1⟩
      cases r with
      | some e => cases h
      | none =>
        intro a
        rw [ih st1 hb1 h a, hact rfl a]
        by_cases ha : a ∈ st.active
        · rw [hin a ha]
          simp only [List.mem_cons]
          constructor
          · rintro ⟨⟨h1, h2⟩, h3⟩
            exact ⟨h1, fun ⟨h4, h5⟩ => by rcases h4 with h4 | h4; exact h2 h4; exact h3 ⟨h4, h5⟩⟩
          · rintro ⟨h1, h2⟩
            exact ⟨⟨h1, fun e => h2 ⟨.inl e, by omega⟩⟩, fun ⟨h4, h5⟩ => h2 ⟨.inr h4, h5⟩⟩
        · simp [ha]
    · simp only [hk, if_false] at h ⊢
      intro a
      rw [ih st hb h a]
      simp only [List.mem_cons]
      constructor
      · rintro ⟨h1, h2⟩
        exact ⟨h1, fun ⟨h4, h5⟩ => by rcases h4 with h4 | h4; omega; exact h2 ⟨h4, h5⟩⟩
      · rintro ⟨h1, h2⟩
        exact ⟨h1, fun ⟨h4, h5⟩ => h2 ⟨.inr h4, h5⟩⟩

/-- tearing down, last activated first, the fixtures of the narrowest active scope -/
theorem popLoop_ord {D B} (hscope : ∀ f g, g ∈ (D f).needs → (D f).scope ≤ (D g).scope) (k : Nat) (l : List Act) (st : St)
    (hb : Base D B st) (ho : Ord D st) (hl : l.Pairwise (fun a b => b.value < a.value)) (hmem : ∀ a ∈ l, a ∈ st.active ∧ (D a.id).scope = k)
    (hall : ∀ a ∈ st.active, (D a.id).scope ≤ k → a ∈ l) : Ord D (popLoop (l.map (·.id)) st).2 := by
  induction l generalizing st with
  | nil => exact ho
  | cons c l ih =>
    simp only [List.map_cons, popLoop]
    obtain ⟨hc, hck⟩ := hmem c (by simp)
    rw [List.pairwise_cons] at hl
    have ho1 : Ord D (deactivate c.id st).2 := by
      refine ho.deact hb c.id ?_
      intro a ha hne b hb' hbc hm
      have hbc' := hb.wf.eq hb' hc hbc
      subst hbc'
      obtain ⟨h1, b', hb2, h3, h4⟩ := ho.args a ha _ hm
      have := hb.eq_of_value hb2 hb' h3
      subst this
      have h5 := hscope _ _ h4
      have h6 := hall a ha (by omega)
      rcases List.mem_cons.1 h6 with rfl | h6
      · exact hne rfl
      · have := hl.1 a h6; omega
    have hb1 := hb.deact c.id
    obtain ⟨d, hd, -, -⟩ := deactivate_spec c.id st
    have hm : ∀ a, a ∈ (deactivate c.id st).2.active ↔ a ∈ st.active ∧ a.id ≠ c.id := by
      intro a; rw [hd]; simp
    generalize deactivate c.id st = p at hm ho1 hb1 ⊢
    rcases p with ⟨r, st1⟩
    simp only at hm ho1 hb1
    have go : Ord D (popLoop (l.map (·.id)) st1).2 := by
      refine ih st1 hb1 ho1 hl.2 ?_ ?_
      · intro a ha
        obtain ⟨k1, k2⟩ := hmem a (by simp [ha])
        refine ⟨(hm a).2 ⟨k1, fun e => ?_⟩, k2⟩
        have := hb.wf.eq k1 hc e
        subst this
        have := hl.1 a ha
        omega
      · intro a ha hs
        obtain ⟨k1, k2⟩ := (hm a).1 ha
        rcases List.mem_cons.1 (hall a k1 hs) with rfl | h
        · exact absurd rfl k2
        · exact h
    cases r with
    | none => exact go
    | some k =>
      simp only
      split
      · exact ho1
      · exact go

theorem popScopes_ord {D B} (hscope : ∀ f g, g ∈ (D f).needs → (D f).scope ≤ (D g).scope) (s : Nat) (ks : List Nat) (st : St)
    (hb : Base D B st) (ho : Ord D st) (hmin : ∀ a ∈ st.active, s ≤ (D a.id).scope) : Ord D (popScopes D s ks st).2 := by
  induction ks generalizing st with
  | nil => exact ho
  | cons k ks ih =>
    simp only [popScopes]
    split
    · rename_i hk
      have h1 : Ord D (popLoop ((st.active.filter (fun a => (D a.id).scope == k)).map (·.id)).reverse st).2 := by
        rw [← List.map_reverse]
        refine popLoop_ord hscope k _ st hb ho ?_ ?_ ?_
        · rw [List.pairwise_reverse]
          exact hb.sorted.sublist List.filter_sublist
        · intro a ha
          simpa [List.mem_filter] using ha
        · intro a ha hs
          have := hmin a ha
          simp only [List.mem_reverse, List.mem_filter, beq_iff_eq]
          exact ⟨ha, by omega⟩
      have hb1 := popLoop_base ((st.active.filter (fun a => (D a.id).scope == k)).map (·.id)).reverse st hb
      have hsub := (popLoop_active ((st.active.filter (fun a => (D a.id).scope == k)).map (·.id)).reverse st).1
      generalize popLoop ((st.active.filter (fun a => (D a.id).scope == k)).map (·.id)).reverse st = p at h1 hb1 hsub ⊢
      rcases p with ⟨r, st1⟩
      cases r with
      | some e => exact h1
      | none => exact ih st1 hb1 h1 (fun a ha => hmin a (hsub a ha))
    · exact ih st hb ho hmin

/-- the events of tearing down one fixture value -/
def teardown (a : Act) : List Ev := (untilRaise a.cleanups.reverse).map (.cleanup a.id a.value)

theorem doCleanups_trace (f n : Nat) (cs : List Cl) (st : St) :
    (doCleanups f n cs st).2 = { st with trace := st.trace ++ (untilRaise cs).map (.cleanup f n) } := by
  induction cs generalizing st with
  | nil => simp [doCleanups, untilRaise]
  | cons c cs ih =>
    simp only [doCleanups, untilRaise]
    cases hc : c.raises with
    | some k => simp
    | none => simp only; rw [ih]; simp

theorem deactivate_trace {st : St} (hw : WF st) {a : Act} (ha : a ∈ st.active) :
    (deactivate a.id st).2 = { st with active := st.active.filter (·.id != a.id), trace := st.trace ++ teardown a } := by
  unfold deactivate
  rw [getActive_of_mem hw ha]
  exact doCleanups_trace _ _ _ _

theorem popLoop_trace (l : List Act) (st : St) (hw : WF st) (hl : (l.map (·.id)).Nodup) (hmem : ∀ a ∈ l, a ∈ st.active)
    (h : (popLoop (l.map (·.id)) st).1 = none) : (popLoop (l.map (·.id)) st).2.trace = st.trace ++ l.flatMap teardown := by
  induction l generalizing st with
  | nil => simp [popLoop]
  | cons c l ih =>
    simp only [List.map_cons, popLoop] at h ⊢
    have hd := deactivate_trace hw (hmem c (by simp))
    simp only [List.map_cons, List.nodup_cons] at hl
    generalize deactivate c.id st = p at h hd ⊢
    rcases p with ⟨r, st1⟩
    simp only at hd
    have go : (popLoop (l.map (·.id)) st1).1 = none → (popLoop (l.map (·.id)) st1).2.trace = st.trace ++ (c :: l).flatMap teardown := by
      intro h
      rw [ih st1 ?_ hl.2 ?_ h, hd]
      · simp
      · unfold WF; rw [hd]; exact hw.sublist (List.filter_sublist.map _)
      · intro a ha
        rw [hd]
        simp only [List.mem_filter, bne_iff_ne, ne_eq]
        exact ⟨hmem a (by simp [ha]), fun e => hl.1 (e ▸ List.mem_map.2 ⟨a, ha, rfl⟩)⟩
    cases r with
    | none => exact go h
    | some k =>
      simp only at h ⊢
      by_cases hk : k.escapes
      · simp [hk] at h
      · simp only [hk] at h ⊢; exact go h

/-- when the fixtures of the narrowest active scope go, last activated first -/
theorem popScopes_trace {D B} (s : Nat) (ks : List Nat) (st : St) (hb : Base D B st) (hmin : ∀ a ∈ st.active, s ≤ (D a.id).scope)
    (hks : ∀ a ∈ st.active, (D a.id).scope = s → s ∈ ks) (h : (popScopes D s ks st).1 = none) :
    (popScopes D s ks st).2.trace = st.trace ++ (st.active.filter (fun a => (D a.id).scope == s)).reverse.flatMap teardown := by
  induction ks generalizing st with
  | nil =>
    have : st.active.filter (fun a => (D a.id).scope == s) = [] := by
      rw [List.filter_eq_nil_iff]
      intro a ha e
      have := hks a ha (by simpa using e)
      simp at this
    simp [popScopes, this]
  | cons k ks ih =>
    simp only [popScopes] at h ⊢
    by_cases hk : k = s
    · subst hk
      simp only [Nat.le_refl, if_true] at h ⊢
      have hact := (popLoop_active ((st.active.filter (fun a => (D a.id).scope == k)).map (·.id)).reverse st).2.1
      have hb1 := popLoop_base ((st.active.filter (fun a => (D a.id).scope == k)).map (·.id)).reverse st hb
      have ht := popLoop_trace (st.active.filter (fun a => (D a.id).scope == k)).reverse st hb.wf
        (by
          rw [List.map_reverse, List.Nodup, List.pairwise_reverse]
          exact (List.Pairwise.imp Ne.symm (hb.wf.sublist (List.filter_sublist.map _))))
        (fun a ha => (List.mem_filter.1 (List.mem_reverse.1 ha)).1)
      rw [List.map_reverse] at ht
      have hgone : ∀ a ∈ st.active, (D a.id).scope = k → a.id ∈ ((st.active.filter (fun a => (D a.id).scope == k)).map (·.id)).reverse := by
        intro a ha e
        simp only [List.mem_reverse, List.mem_map, List.mem_filter, beq_iff_eq]
        exact ⟨a, ⟨ha, e⟩, rfl⟩
      generalize ((st.active.filter (fun a => (D a.id).scope == k)).map (·.id)).reverse = fs at h hact hb1 ht hgone ⊢
      generalize popLoop fs st = p at h hact hb1 ht ⊢
      rcases p with ⟨r, st1⟩
      cases r with
      | some e => cases h
      | none =>
        have hno : ∀ a ∈ st1.active, (D a.id).scope ≠ k := by
          intro a ha e
          obtain ⟨k1, k2⟩ := (hact rfl a).1 ha
          exact k2 (hgone a k1 e)
        simp only at h ⊢
        rw [ih st1 hb1 (fun a ha => hmin a ((hact rfl a).1 ha).1) (fun a ha e => absurd e (hno a ha)) h]
        have : st1.active.filter (fun a => (D a.id).scope == k) = [] := by
          rw [List.filter_eq_nil_iff]
          intro a ha e
          exact hno a ha (by simpa using e)
        rw [this]
        simpa using ht rfl
    · have hks' : ∀ a ∈ st.active, (D a.id).scope = s → s ∈ ks := by
        intro a ha e
        rcases List.mem_cons.1 (hks a ha e) with h | h
        · exact absurd h.symm hk
        · exact h
      by_cases hle : k ≤ s
      · have : st.active.filter (fun a => (D a.id).scope == k) = [] := by
          rw [List.filter_eq_nil_iff]
          intro a ha e
          have := hmin a ha
          simp only [beq_iff_eq] at e
          omega
        simp only [hle, if_true, this, List.map_nil, List.reverse_nil, popLoop] at h ⊢
        exact ih st hb hmin hks' h
      · simp only [hle, if_false] at h ⊢
        exact ih st hb hmin hks' h

end Slash.Fix
