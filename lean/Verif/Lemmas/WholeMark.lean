import Verif.Lemmas.WholeTrace
/-! Whole sessions: what leaves the scope of a test by an exception is in the result of the test. -/
namespace Slash.Whole

open Slash.Scope (Sc)
open Slash.Cleanup (Op RKey Reg St Exn)

/-! ## Results only grow -/

theorem rgrow_trans {a b c : St} (h : Cleanup.Grow a b) (h' : Cleanup.Grow b c) : Cleanup.Grow a c :=
  ⟨fun x => Nat.le_trans (h.errs x) (h'.errs x), fun x => Nat.le_trans (h.fails x) (h'.fails x), fun x => Nat.le_trans (h.skips x) (h'.skips x),
   fun x hx => h'.ints x (h.ints x hx), fun x hx => h'.started x (h.started x hx)⟩

theorem rgrow_same {a b : St} (h : b.results = a.results) : Cleanup.Grow a b := by
  constructor <;> intro x <;> rw [h] <;> simp

theorem rgrow_addCleanup (sc : Cleanup.ScopeArg) (cb : Cleanup.Cb) (a : St) : Cleanup.Grow a (Cleanup.addCleanup sc cb a).2 := by
  unfold Cleanup.addCleanup
  split
  · exact Cleanup.Grow.refl a
  · split
    · exact Cleanup.Grow.refl a
    · rename_i uid _; cases uid <;> exact rgrow_same rfl

theorem rgrow_runActs (acts : List Cleanup.Act) (a : St) : Cleanup.Grow a (Cleanup.runActs acts a).2 := by
  induction acts generalizing a with
  | nil => exact Cleanup.Grow.refl a
  | cons x rest ih =>
    cases x with
    | add sc cb =>
      have h1 := rgrow_addCleanup sc cb a
      simp only [Cleanup.runActs]
      split <;> rename_i heq <;> rw [heq] at h1
      · exact h1
      · exact rgrow_trans h1 (ih _)
    | note k =>
      simp only [Cleanup.runActs]
      split
      · exact rgrow_trans (Cleanup.grow_record ..) (ih _)
      · exact Cleanup.Grow.refl a

theorem rgrow_guardedCall (c : Reg) (a : St) : Cleanup.Grow a (Cleanup.guardedCall c a).2 := by
  have h1 := rgrow_runActs c.cb.acts a
  have hc : Cleanup.Grow a (Cleanup.callCleanup c a).2 := by
    unfold Cleanup.callCleanup
    split
    rename_i o a1 heq
    rw [heq] at h1
    simp only at h1 ⊢
    generalize Cleanup.endOf o c.cb = o'
    have h2 : Cleanup.Grow a (a1.emit (.ended c.reg (o'.map Exn.kind))) := rgrow_trans h1 (rgrow_same rfl)
    split
    · exact h2
    · split
      · split
        · exact rgrow_trans h2 (rgrow_trans (Cleanup.grow_record ..) (rgrow_same rfl))
        · exact h2
      · exact h2
  unfold Cleanup.guardedCall
  split
  · rename_i heq; rw [heq] at hc; exact hc
  · rename_i e rec a1 heq
    rw [heq] at hc
    simp only at hc ⊢
    have h2 : Cleanup.Grow a (if (rec || a1.curResult.isNone) = true then a1
      else (a1.record a1.currentForUpdate e.kind).emit (.recorded c.reg a1.currentForUpdate e.kind)) := by
      split
      · exact hc
      · exact rgrow_trans hc (rgrow_trans (Cleanup.grow_record ..) (rgrow_same rfl))
    split <;> exact h2

theorem rgrow_callLoop (u : Nat) (f i : Bool) (a : St) : Cleanup.Grow a (Cleanup.callLoop u f i a).2 := by
  apply Cleanup.callLoop_ind (P := fun a _ a' => Cleanup.Grow a a')
  · intro a _; exact Cleanup.Grow.refl a
  · intro a c rest o a' hc hp ih; exact rgrow_trans (b := Cleanup.taken a u rest (.skipped c.reg u)) (rgrow_same rfl) ih
  · intro a c rest e a' hc hp hg
    have := rgrow_guardedCall c (Cleanup.taken a u rest (.ran c.reg u))
    rw [hg] at this; exact rgrow_trans (b := Cleanup.taken a u rest (.ran c.reg u)) (rgrow_same rfl) this
  · intro a c rest a1 o a' hc hp hg ih
    have := rgrow_guardedCall c (Cleanup.taken a u rest (.ran c.reg u))
    rw [hg] at this; exact rgrow_trans (rgrow_trans (b := Cleanup.taken a u rest (.ran c.reg u)) (rgrow_same rfl) this) ih

theorem rgrow_step (a : St) (op : Op) : Cleanup.Grow a (Cleanup.step a op).2 := by
  cases op with
  | push n => exact rgrow_same rfl
  | pop n hk ts =>
    show Cleanup.Grow a (Cleanup.popScope n hk ts a).2
    rcases Cleanup.popScope_cases n hk ts a with ⟨_, heq⟩ | ⟨_, _, _, _, heq⟩ | ⟨u, tl, _, _, heq⟩ <;> rw [heq]
    · exact Cleanup.Grow.refl a
    · exact rgrow_same rfl
    · generalize hb : a.emit (.closing u (Cleanup.popFlags a ts).1 (Cleanup.popFlags a ts).2) = b
      have h1 : Cleanup.Grow a b := by rw [← hb]; exact rgrow_same rfl
      have h2 : Cleanup.Grow b (Cleanup.callCleanups u (Cleanup.popFlags a ts).1 (Cleanup.popFlags a ts).2 hk b).2 := by
        unfold Cleanup.callCleanups
        split
        · simp only; split
          · exact Cleanup.Grow.refl _
          · exact Cleanup.grow_record ..
        · exact rgrow_callLoop ..
      exact rgrow_trans (rgrow_trans h1 h2) (rgrow_same rfl)
  | add sc cb => exact rgrow_addCleanup sc cb a
  | note r k => exact Cleanup.grow_record a r k
  | start r =>
    constructor <;> intro x <;> simp only [Cleanup.step, St.updResult, Result.markStarted] <;> split <;> simp_all
  | setImplicit _ | setDefault _ | setContext _ _ => exact rgrow_same rfl

theorem Reach.grow {a b : St} (h : Reach a b) : Cleanup.Grow a b := by
  obtain ⟨ops, rfl⟩ := h
  induction ops generalizing a with
  | nil => exact Cleanup.Grow.refl a
  | cons op ops ih => exact rgrow_trans (rgrow_step a op) ih

theorem Marked.mono {t : Nat} {a b : St} (h : Marked t a) (g : Cleanup.Grow a b) : Marked t b := by
  have pos : ∀ {α : Type} (l : List α), l ≠ [] ↔ 0 < l.length := fun l => List.length_pos_iff.symm
  unfold Marked at h ⊢
  simp only [pos] at h ⊢
  rcases h with h | h | h | h
  · exact .inl (Nat.lt_of_lt_of_le h (g.errs _))
  · exact .inr (.inl (Nat.lt_of_lt_of_le h (g.fails _)))
  · exact .inr (.inr (.inl (Nat.lt_of_lt_of_le h (g.skips _))))
  · exact .inr (.inr (.inr (g.ints _ h)))

/-! ## Marks -/

theorem marked_record (t : Nat) (a : St) (k : Kind) : Marked t (a.record (.test t) k) := by
  unfold Marked
  cases k <;> simp [St.record, St.updResult, Result.addKind, Result.addError, Result.addFailure, Result.addSkip, Result.markInterrupted]

theorem marked_recorded {t r : Nat} {k : Kind} {a : St} (h : Cleanup.ResI a) (hr : .recorded r (.test t) k ∈ a.log) : Marked t a := by
  have z : ∀ ks : List Kind, k ∈ ks → 0 < a.log.countP (Cleanup.recIn (.test t) ks) := by
    intro ks hks
    rw [List.countP_pos_iff]
    exact ⟨_, hr, by simpa [Cleanup.recIn] using hks⟩
  have ne : ∀ {α : Type} {l : List α}, 0 < l.length → l ≠ [] := fun h => List.length_pos_iff.1 h
  unfold Marked
  cases k with
  | error | other => exact .inl (ne (Nat.lt_of_lt_of_le (z [.error, .other] (by simp)) (h.errs _)))
  | failure => exact .inr (.inl (ne (Nat.lt_of_lt_of_le (z [.failure] (by simp)) (h.fails _))))
  | skip => exact .inr (.inr (.inl (ne (Nat.lt_of_lt_of_le (z [.skip] (by simp)) (h.skips _)))))
  | interrupt => exact .inr (.inr (.inr (h.ints _ (z [.interrupt] (by simp)))))

theorem Reach.res {a : St} (h : Reach {} a) : Cleanup.ResI a := by
  obtain ⟨ops, rfl⟩ := h
  exact Cleanup.res_run ops Cleanup.res_init

/-! ## Cleanups of a test -/

/-- The cleanups on the scope belong to the test. -/
def OwnR (t u : Nat) (a : St) : Prop := a.curResult = some (.test t) ∧ ∀ c ∈ a.cleanups u, c.result = some (.test t)

theorem ownR_addCleanup {t u : Nat} {a : St} (h : OwnR t u a) (sc : Cleanup.ScopeArg) (cb : Cleanup.Cb) : OwnR t u (Cleanup.addCleanup sc cb a).2 := by
  unfold Cleanup.addCleanup
  split
  · exact h
  · split
    · exact h
    · rename_i uid _
      cases uid with
      | none => exact h
      | some v =>
        refine ⟨h.1, fun c hc => ?_⟩
        simp only [Cleanup.place, St.emit] at hc
        split at hc
        · rcases List.mem_cons.1 hc with rfl | hc
          · exact h.1
          · exact h.2 c hc
        · exact h.2 c hc

theorem ownR_record {t u : Nat} {a : St} (h : OwnR t u a) (r : RKey) (k : Kind) : OwnR t u (a.record r k) := by
  have hf := Cleanup.frame_record a r k
  refine ⟨hf.curResult.trans h.1, ?_⟩
  have : (a.record r k).cleanups = a.cleanups := by unfold St.record; simp only; split <;> rfl
  rw [this]; exact h.2

theorem ownR_runActs {t u : Nat} (acts : List Cleanup.Act) {a : St} (h : OwnR t u a) : OwnR t u (Cleanup.runActs acts a).2 := by
  induction acts generalizing a with
  | nil => exact h
  | cons x rest ih =>
    cases x with
    | add sc cb =>
      have h1 := ownR_addCleanup h sc cb
      simp only [Cleanup.runActs]
      split <;> rename_i heq <;> rw [heq] at h1
      · exact h1
      · exact ih h1
    | note k =>
      simp only [Cleanup.runActs]
      split
      · exact ih (ownR_record h _ _)
      · exact h

theorem ownR_guardedCall {t u : Nat} (c : Reg) {a : St} (h : OwnR t u a) : OwnR t u (Cleanup.guardedCall c a).2 := by
  have h1 := ownR_runActs c.cb.acts h
  have hc : OwnR t u (Cleanup.callCleanup c a).2 := by
    unfold Cleanup.callCleanup
    split
    rename_i o a1 heq
    rw [heq] at h1
    simp only at h1 ⊢
    generalize Cleanup.endOf o c.cb = o'
    have h2 : OwnR t u (a1.emit (.ended c.reg (o'.map Exn.kind))) := h1
    split
    · exact h2
    · split
      · split
        · exact ownR_record h2 _ _
        · exact h2
      · exact h2
  unfold Cleanup.guardedCall
  split
  · rename_i heq; rw [heq] at hc; exact hc
  · rename_i e rec a1 heq
    rw [heq] at hc
    simp only at hc ⊢
    have h2 : OwnR t u (if (rec || a1.curResult.isNone) = true then a1
      else (a1.record a1.currentForUpdate e.kind).emit (.recorded c.reg a1.currentForUpdate e.kind)) := by
      split
      · exact hc
      · exact ownR_record hc _ _
    split <;> exact h2

theorem guardedCall_own {t : Nat} {c : Reg} {a a' : St} {e : Exn} (h : Cleanup.guardedCall c a = (some e, a')) (hk : e.kind.isException = true)
    (hc : c.result = some (.test t)) : .recorded c.reg (.test t) e.kind ∈ a'.log := by
  unfold Cleanup.guardedCall Cleanup.callCleanup at h
  cases hra : Cleanup.runActs c.cb.acts a with
  | mk o1 a1 =>
    rw [hra] at h
    simp only at h
    generalize Cleanup.endOf o1 c.cb = o' at h
    cases o' with
    | none => simp only at h; cases h
    | some e' =>
      simp only at h
      by_cases hex : e'.kind.isException = true
      · simp only [hex, if_true, hc, Bool.true_or] at h
        split at h
        · cases h; simp [St.emit]
        · cases h
      · simp only [hex, Bool.false_eq_true, if_false] at h
        split at h
        · simp only [Prod.mk.injEq, Option.some.injEq] at h
          rw [h.1] at hex
          exact absurd hk hex
        · cases h

theorem callLoop_own {t u : Nat} {f i : Bool} {a : St} {e : Exn} (h : (Cleanup.callLoop u f i a).1 = some e) (hk : e.kind.isException = true)
    (ho : OwnR t u a) : ∃ r, .recorded r (.test t) e.kind ∈ (Cleanup.callLoop u f i a).2.log := by
  revert h ho
  apply Cleanup.callLoop_ind (P := fun a o a' => o = some e → OwnR t u a → ∃ r, .recorded r (.test t) e.kind ∈ a'.log)
  · intro a _ h; cases h
  · intro a c rest o a' hc hp ih h ho
    refine ih h ⟨ho.1, fun c' hc' => ho.2 c' ?_⟩
    simp only [Cleanup.taken, St.emit, if_true] at hc'
    rw [hc]; exact List.mem_cons_of_mem _ hc'
  · intro a c rest e' a' hc hp hg h ho
    cases h
    exact ⟨_, guardedCall_own hg hk (ho.2 c (by rw [hc]; simp))⟩
  · intro a c rest a1 o a' hc hp hg ih h ho
    have h1 : OwnR t u (Cleanup.taken a u rest (.ran c.reg u)) := by
      refine ⟨ho.1, fun c' hc' => ho.2 c' ?_⟩
      simp only [Cleanup.taken, St.emit, if_true] at hc'
      rw [hc]; exact List.mem_cons_of_mem _ hc'
    have h2 := ownR_guardedCall c h1
    rw [hg] at h2
    exact ih h h2

theorem InTest.ownR {t u : Nat} {a : St} (h : InTest t u a) (hr : Reach {} a) : OwnR t u a := by
  refine ⟨h.ctx.1, fun c hc => ?_⟩
  obtain ⟨b, s, ha⟩ := h.own c.reg (hr.inv.placed u c hc)
  exact (hr.inv.addedUniq _ _ _ _ _ _ _ (hr.inv.info c (.inr ⟨u, hc⟩)) ha).2.2

/-- Closing the scope of a test raises only what is in the result of the test. -/
theorem popScope_marked {t u : Nat} {a : St} (h : InTest t u a) (hr : Reach {} a) (hk : Option Kind) (ts : List Nat) {e : Exn}
    (he : (Cleanup.popScope "test" hk ts a).1 = some e) : Marked t (Cleanup.popScope "test" hk ts a).2 := by
  have hres : Cleanup.ResI (Cleanup.popScope "test" hk ts a).2 := (hr.trans ⟨[.pop "test" hk ts], rfl⟩).res
  obtain ⟨tl, hs, -⟩ := h.tl
  rcases Cleanup.popScope_cases "test" hk ts a with ⟨h1, _⟩ | ⟨u', tl', h1, h2, _⟩ | ⟨u', tl', h1, h2, heq⟩
  · rw [hs] at h1; cases h1
  · rw [hs] at h1; cases h1; exact absurd h.name h2
  · rw [hs] at h1; cases h1
    rw [heq] at he hres ⊢
    simp only at he hres ⊢
    generalize hf : (Cleanup.popFlags a ts).1 = f at he hres ⊢
    generalize hi : (Cleanup.popFlags a ts).2 = i at he hres ⊢
    have hn : (a.emit (.closing u f i)).scopeName u = "test" := h.name
    unfold Cleanup.callCleanups at he hres ⊢
    simp only [hn, if_true] at he hres ⊢
    cases hk with
    | some k =>
      simp only at he hres ⊢
      have hcn : (a.emit (.closing u f i)).curResult.isNone = false := by
        show a.curResult.isNone = false
        rw [h.ctx.1]; rfl
      simp only [hcn, Bool.false_eq_true, if_false]
      have hcu : (a.emit (.closing u f i)).currentForUpdate = .test t := by
        unfold St.currentForUpdate
        have : (a.emit (.closing u f i)).curTest = some t := h.ctx.2
        rw [this]
      rw [hcu]
      exact (marked_record t _ k).mono (rgrow_same rfl)
    | none =>
      simp only at he hres ⊢
      have ho : OwnR t u (a.emit (.closing u f i)) := h.ownR hr
      cases hex : e.kind.isException with
      | true =>
        obtain ⟨r, hrec⟩ := callLoop_own he hex ho
        exact marked_recorded hres (by simp only [Cleanup.discarded]; exact List.mem_append_left _ (List.mem_append_left _ hrec))
      | false =>
        obtain ⟨r, hrec⟩ := Cleanup.callLoop_current he hex (by show a.curResult ≠ none; rw [h.ctx.1]; simp)
        have hcu : (a.emit (.closing u f i)).currentForUpdate = .test t := by
          unfold St.currentForUpdate
          have : (a.emit (.closing u f i)).curTest = some t := h.ctx.2
          rw [this]
        rw [hcu] at hrec
        exact marked_recorded hres (by simp only [Cleanup.discarded]; exact List.mem_append_left _ (List.mem_append_left _ hrec))

theorem fxLoop_marked {t : Nat} (fs : List Nat) {w : W} (h : w.cl.curTest = some t) {x : X} (hx : (fxLoop fs w).1 = some x) :
    Marked t (fxLoop fs w).2.cl := by
  induction fs generalizing w with
  | nil => cases hx
  | cons f fs ih =>
    simp only [fxLoop] at hx ⊢
    split <;> rename_i heq <;> rw [heq] at hx
    · exact ih (w := { w with fx := _ }) h hx
    · rename_i k fx
      simp only at hx ⊢
      have hrec : record k { w with fx := fx } = { w with fx := fx, cl := w.cl.record (.test t) k } := by
        simp only [record, St.currentForUpdate, h]
      split <;> rename_i hk
      · rw [hrec]; exact marked_record t _ _
      · rw [if_neg hk] at hx
        refine ih ?_ hx
        rw [hrec]
        exact (Cleanup.frame_record w.cl (.test t) k).curTest.trans h

theorem fxLoops_marked {t : Nat} (env : Env) (s : Nat) (ks : List Nat) {w : W} (h : w.cl.curTest = some t) {x : X} (hx : (fxLoops env s ks w).1 = some x) :
    Marked t (fxLoops env s ks w).2.cl := by
  induction ks generalizing w with
  | nil => cases hx
  | cons k ks ih =>
    simp only [fxLoops] at hx ⊢
    split <;> rename_i hk
    · rw [if_pos hk] at hx
      generalize hl : ((w.fx.active.filter (fun a => (env.defs a.id).scope == k)).map (·.id)).reverse = l at hx ⊢
      have h1 := fun x => fxLoop_marked (t := t) l h (x := x)
      have h2 := (fxLoop_spec l w).1
      split <;> rename_i heq <;> rw [heq] at hx h1 h2
      · exact h1 _ rfl
      · exact ih (h2.frame.curTest.trans h) hx
    · rw [if_neg hk] at hx
      exact ih h hx

theorem fxPop_marked {t : Nat} (env : Env) (s : Sc) {w : W} (h : w.cl.curTest = some t) {x : X} (hx : (fxPop env s w).1 = some x) :
    Marked t (fxPop env s w).2.cl := by
  unfold fxPop at hx ⊢
  simp only at hx ⊢
  split <;> rename_i hi
  · rw [if_pos hi] at hx; cases hx
  · rw [if_neg hi] at hx
    exact fxLoops_marked env _ _ (w := emit (.fixturesDown s) w) h hx

/-- Closing the scope of a test: what it raises is in the result of the test; if it does not raise, the hook before the cleanups did not. -/
theorem pop_marked {t u : Nat} (env : Env) (hk : Option Kind) {w : W} {rest : List Sc} (hsc : w.scopes = .test :: rest) (h : InTest t u w.cl)
    (hr : Reach {} w.cl) :
    (∀ x, (pop env .test hk w).1 = some x → Marked t (pop env .test hk w).2.cl) ∧ ((pop env .test hk w).1 = none → hk = none) := by
  unfold pop
  rw [hsc]
  simp only [ne_eq, not_true_eq_false, if_false]
  generalize hw1 : emit (.closing .test) { w with scopes := rest } = w1
  have hcl1 : w1.cl = w.cl := by rw [← hw1]; rfl
  have hit : InTest t u w1.cl := hcl1 ▸ h
  have hr1 : Reach {} w1.cl := hcl1 ▸ hr
  obtain ⟨hf, hf1⟩ := clPop_fields (scName .test) hk w1
  have hm := fun e => popScope_marked hit hr1 hk w1.tests (e := e)
  obtain ⟨tl, hs, -⟩ := hit.tl
  obtain ⟨-, -, -, p4, -⟩ := popScope_match (a := w1.cl) (n := "test") (hk := hk) (ts := w1.tests) (u := u) (tl := tl) hs hit.name
  have hnone : (Cleanup.popScope "test" hk w1.tests w1.cl).1 = none → hk = none := by
    intro h0
    rcases Cleanup.popScope_cases "test" hk w1.tests w1.cl with ⟨h1, _⟩ | ⟨u', tl', h1, h2, _⟩ | ⟨u', tl', h1, h2, heq⟩
    · rw [hs] at h1; cases h1
    · rw [hs] at h1; cases h1; exact absurd hit.name h2
    · rw [hs] at h1; cases h1
      rw [heq] at h0
      unfold Cleanup.callCleanups at h0
      have hn : (w1.cl.emit (.closing u (Cleanup.popFlags w1.cl w1.tests).1 (Cleanup.popFlags w1.cl w1.tests).2)).scopeName u = "test" := hit.name
      simp only [hn, if_true] at h0
      cases hk with
      | none => rfl
      | some k => cases h0
  generalize hcp : clPop (scName .test) hk w1 = cp at hf hf1
  rcases cp with ⟨x1, w2⟩
  simp only at hf hf1
  have e_cl : w2.cl = (Cleanup.popScope "test" hk w1.tests w1.cl).2 := by rw [hf]; rfl
  have e_ct : w2.cl.curTest = some t := by rw [e_cl, p4]; exact hit.ctx.2
  have hfm := fun x => fxPop_marked env .test e_ct (x := x)
  have hgr := (grows_fxPop env .test w2).reach.grow
  generalize hfq : fxPop env .test w2 = fq at hfm hgr
  rcases fq with ⟨y, w3⟩
  simp only at hfm hgr
  have hx1 : ∀ x, x1 = some x → Marked t w2.cl := by
    intro x hx
    rw [hx] at hf1
    cases hq : (Cleanup.popScope (scName .test) hk w1.tests w1.cl).1 with
    | none => rw [hq] at hf1; cases hf1
    | some e => rw [e_cl]; exact hm e hq
  have hx0 : x1 = none → hk = none := by
    intro hx
    rw [hx] at hf1
    cases hq : (Cleanup.popScope (scName .test) hk w1.tests w1.cl).1 with
    | none => exact hnone hq
    | some e => rw [hq] at hf1; cases hf1
  have hcb : (∀ x, (callBoth (clPop (scName .test) hk) (fxPop env .test) w1).1 = some x →
        Marked t (callBoth (clPop (scName .test) hk) (fxPop env .test) w1).2.cl) ∧
      ((callBoth (clPop (scName .test) hk) (fxPop env .test) w1).1 = none → hk = none) := by
    unfold callBoth
    rw [hcp]
    cases x1 with
    | none =>
      simp only
      rw [hfq]
      exact ⟨hfm, fun _ => hx0 rfl⟩
    | some x =>
      simp only
      split
      · rw [hfq]
        exact ⟨fun _ _ => (hx1 x rfl).mono hgr, fun h => (by cases y <;> cases h)⟩
      · exact ⟨fun _ _ => hx1 x rfl, fun h => (by cases h)⟩
  generalize callBoth (clPop (scName .test) hk) (fxPop env .test) w1 = r at hcb
  rcases r with ⟨o, w4⟩
  cases o with
  | none => exact ⟨fun x hx => (by cases hx), hcb.2⟩
  | some x => exact ⟨fun _ _ => hcb.1 x rfl, fun h => (by cases h)⟩

end Slash.Whole
