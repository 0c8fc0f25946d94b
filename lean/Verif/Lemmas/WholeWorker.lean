import Verif.Lemmas.Whole
/-! Whole sessions: cleaning up the session with the last test as the current one, and without. -/
namespace Slash.Whole

open Slash.Scope (Sc)
open Slash.Cleanup (RKey St Reg Exn)

/-! ## Results -/

/-- Nothing went wrong. -/
def fine (r : Result) : Bool := r.errors.isEmpty && r.failures.isEmpty && !r.interrupted

theorem fine_add (r : Result) (k : Kind) : fine (r.addKind k) = (fine r && decide (k = .skip)) := by
  cases k <;> simp [fine, Result.addKind, Result.addError, Result.addFailure, Result.addSkip, Result.markInterrupted]
theorem fine_mark (r : Result) : fine r.markInterrupted = false := by simp [fine, Result.markInterrupted]
theorem started_add (r : Result) (k : Kind) : (r.addKind k).started = r.started := by cases k <;> rfl
theorem interrupted_add (r : Result) (k : Kind) : (r.addKind k).interrupted = (r.interrupted || decide (k = .interrupt)) := by
  cases k <;> simp [Result.addKind, Result.addError, Result.addFailure, Result.addSkip, Result.markInterrupted]
theorem isSuccess_fine {r : Result} (h : r.started = true) : r.isSuccess true = fine r := by
  unfold Result.isSuccess fine Result.isStarted
  rw [h]
  cases r.errors.isEmpty <;> cases r.failures.isEmpty <;> cases r.interrupted <;> simp

/-- The results after an entry. -/
def entry (res : RKey → Result) (r : RKey) (k : Kind) : RKey → Result := fun x =>
  if k = .interrupt ∧ x = .global then (if x = r then (res x).addKind k else res x).markInterrupted
  else if x = r then (res x).addKind k else res x

theorem record_entry (st : St) (r : RKey) (k : Kind) : st.record r k = { st with results := entry st.results r k } := by
  unfold St.record St.updResult entry
  simp only
  split
  · rename_i h; subst h
    congr 1; funext x
    by_cases hx : x = .global <;> simp [hx]
  · rename_i h; congr 1; funext x; simp [h]

/-- The results differ by entries for a test in one place that are global in the other. -/
structure RelR (t : Nat) (f g : RKey → Result) : Prop where
  others : ∀ n, n ≠ t → f (.test n) = g (.test n)
  s1 : (f .global).started = true
  s2 : (f (.test t)).started = true
  s3 : (g .global).started = true
  s4 : (g (.test t)).started = true
  int : (f .global).interrupted = (g .global).interrupted
  fine : (fine (f .global) && fine (f (.test t))) = (fine (g .global) && fine (g (.test t)))

theorem RelR.same {t : Nat} {f g : RKey → Result} (h : RelR t f g) (r : RKey) (k : Kind) : RelR t (entry f r k) (entry g r k) := by
  obtain ⟨h0, h1, h2, h3, h4, h5, h6⟩ := h
  have hm : ∀ r : Result, r.markInterrupted.started = r.started := fun _ => rfl
  have hi : ∀ r : Result, r.markInterrupted.interrupted = true := fun _ => rfl
  refine ⟨fun n hn => ?_, ?_, ?_, ?_, ?_, ?_, ?_⟩
  · simp [entry, h0 n hn]
  all_goals
    rcases r with _ | n
    · by_cases hk : k = .interrupt <;> simp [entry, hk, hm, hi, fine_mark, fine_add, started_add, interrupted_add, h1, h2, h3, h4, h5] <;>
        (revert h6; cases Whole.fine (f .global) <;> cases Whole.fine (g .global) <;> cases Whole.fine (f (.test t)) <;> cases Whole.fine (g (.test t)) <;> simp)
    · by_cases hn : t = n <;> by_cases hk : k = .interrupt <;>
        simp [entry, hk, hn, hm, hi, fine_mark, fine_add, started_add, interrupted_add, h1, h2, h3, h4, h5] <;>
        first
        | done
        | (subst hn; simp only [h1, h2, h3, h4, h5, true_and]; done)
        | (subst hn; revert h6; cases Whole.fine (f .global) <;> cases Whole.fine (g .global) <;> cases Whole.fine (f (.test t)) <;> cases Whole.fine (g (.test t)) <;> simp)
        | (revert h6; cases Whole.fine (f .global) <;> cases Whole.fine (g .global) <;> cases Whole.fine (f (.test t)) <;> cases Whole.fine (g (.test t)) <;> simp)

theorem RelR.diff {t : Nat} {f g : RKey → Result} (h : RelR t f g) (k : Kind) : RelR t (entry f (.test t) k) (entry g .global k) := by
  obtain ⟨h0, h1, h2, h3, h4, h5, h6⟩ := h
  have hm : ∀ r : Result, r.markInterrupted.started = r.started := fun _ => rfl
  have hi : ∀ r : Result, r.markInterrupted.interrupted = true := fun _ => rfl
  refine ⟨fun n hn => ?_, ?_, ?_, ?_, ?_, ?_, ?_⟩
  · simp [entry, h0 n hn, hn]
  all_goals
    by_cases hk : k = .interrupt <;> simp [entry, hk, hm, hi, fine_mark, fine_add, started_add, interrupted_add, h1, h2, h3, h4, h5] <;>
      (revert h6; cases Whole.fine (f .global) <;> cases Whole.fine (g .global) <;> cases Whole.fine (f (.test t)) <;> cases Whole.fine (g (.test t)) <;> simp)

/-! ## The cleanup manager -/

/-- Not an entry of a result. -/
def unrecorded : Cleanup.Ev → Bool
  | .recorded _ _ _ => false
  | _ => true

/-- The same cleanup manager, with the test or without. -/
def Twin (t : Nat) (a b : St) : Prop :=
  ∃ x f l, a = { b with curTest := x, results := f, log := l } ∧ (x = some t ∨ x = none) ∧ b.curTest = none ∧ b.curResult = some .global ∧ RelR t f b.results ∧
    l.filter unrecorded = b.log.filter unrecorded

theorem Twin.record {t : Nat} {a b : St} (h : Twin t a b) (r : RKey) (k : Kind) : Twin t (a.record r k) (b.record r k) := by
  obtain ⟨x, f, l, rfl, hx, hc, hr, hR, hl⟩ := h
  rw [record_entry, record_entry]
  exact ⟨x, _, l, rfl, hx, hc, hr, hR.same r k, hl⟩

theorem Twin.update {t : Nat} {a b : St} (h : Twin t a b) (k : Kind) : Twin t (a.record a.currentForUpdate k) (b.record b.currentForUpdate k) := by
  obtain ⟨x, f, l, rfl, hx, hc, hr, hR, hl⟩ := h
  rw [record_entry, record_entry]
  have hb : b.currentForUpdate = .global := by unfold St.currentForUpdate; rw [hc]
  rw [hb]
  refine ⟨x, _, l, rfl, hx, hc, hr, ?_, hl⟩
  rcases hx with rfl | rfl
  · exact hR.diff k
  · exact hR.same .global k

theorem Twin.emit {t : Nat} {a b : St} (h : Twin t a b) (e : Cleanup.Ev) : Twin t (a.emit e) (b.emit e) := by
  obtain ⟨x, f, l, rfl, hx, hc, hr, hR, hl⟩ := h
  exact ⟨x, f, _, rfl, hx, hc, hr, hR, by simp [St.emit, hl]⟩

theorem Twin.noted {t : Nat} {a b : St} (h : Twin t a b) (n n' : Nat) (r r' : RKey) (k k' : Kind) : Twin t (a.emit (.recorded n r k)) (b.emit (.recorded n' r' k')) := by
  obtain ⟨x, f, l, rfl, hx, hc, hr, hR, hl⟩ := h
  exact ⟨x, f, _, rfl, hx, hc, hr, hR, by simp [St.emit, hl, unrecorded]⟩

theorem Twin.addCleanup {t : Nat} {a b : St} (h : Twin t a b) (sc : Cleanup.ScopeArg) (cb : Cleanup.Cb) :
    (Cleanup.addCleanup sc cb a).1 = (Cleanup.addCleanup sc cb b).1 ∧ Twin t (Cleanup.addCleanup sc cb a).2 (Cleanup.addCleanup sc cb b).2 := by
  obtain ⟨x, f, l, rfl, hx, hc, hr, hR, hl⟩ := h
  have hs : Cleanup.selectScope sc { b with curTest := x, results := f, log := l } = Cleanup.selectScope sc b := rfl
  unfold Cleanup.addCleanup
  split
  · exact ⟨rfl, x, f, l, rfl, hx, hc, hr, hR, hl⟩
  · rw [hs]
    rcases Cleanup.selectScope sc b with e | u
    · exact ⟨rfl, x, f, l, rfl, hx, hc, hr, hR, hl⟩
    · refine ⟨rfl, ?_⟩
      rcases u with _ | u
      · exact ⟨x, f, _, rfl, hx, hc, hr, hR, by simp [Cleanup.place, St.emit, hl]⟩
      · exact ⟨x, f, _, rfl, hx, hc, hr, hR, by simp [Cleanup.place, St.emit, hl]⟩

theorem Twin.runActs {t : Nat} (acts : List Cleanup.Act) {a b : St} (h : Twin t a b) :
    (Cleanup.runActs acts a).1 = (Cleanup.runActs acts b).1 ∧ Twin t (Cleanup.runActs acts a).2 (Cleanup.runActs acts b).2 := by
  induction acts generalizing a b with
  | nil => exact ⟨rfl, h⟩
  | cons c rest ih =>
    cases c with
    | add sc cb =>
      have h1 := h.addCleanup sc cb
      simp only [Cleanup.runActs]
      revert h1
      rcases Cleanup.addCleanup sc cb a with ⟨_ | e, a1⟩ <;> rcases Cleanup.addCleanup sc cb b with ⟨_ | e', b1⟩ <;> rintro ⟨h1, h2⟩
      · exact ih h2
      · cases h1
      · cases h1
      · exact ⟨h1, h2⟩
    | note k =>
      have ha : a.curResult = some .global := by obtain ⟨x, f, l, rfl, -, -, hr, -⟩ := h; exact hr
      have hb : b.curResult = some .global := by obtain ⟨x, f, l, rfl, -, -, hr, -⟩ := h; exact hr
      simp only [Cleanup.runActs, ha, hb]
      exact ih (h.record .global k)

theorem Twin.callCleanup {t : Nat} {a b : St} (h : Twin t a b) (c : Reg) :
    (Cleanup.callCleanup c a).1 = (Cleanup.callCleanup c b).1 ∧ Twin t (Cleanup.callCleanup c a).2 (Cleanup.callCleanup c b).2 := by
  have h1 := h.runActs c.cb.acts
  unfold Cleanup.callCleanup
  revert h1
  rcases Cleanup.runActs c.cb.acts a with ⟨o, a1⟩
  rcases Cleanup.runActs c.cb.acts b with ⟨o', b1⟩
  rintro ⟨h1, h2⟩
  dsimp only at h1 h2 ⊢
  subst h1
  rcases Cleanup.endOf o c.cb with _ | e
  · exact ⟨rfl, h2.emit _⟩
  · dsimp only
    split
    · rcases c.result with _ | r
      · exact ⟨rfl, h2.emit _⟩
      · exact ⟨rfl, ((h2.emit _).record r _).noted ..⟩
    · exact ⟨rfl, h2.emit _⟩

theorem Twin.cur {t : Nat} {a b : St} (h : Twin t a b) : a.curResult = some .global ∧ b.curResult = some .global := by
  obtain ⟨x, f, l, rfl, -, -, hr, -⟩ := h; exact ⟨hr, hr⟩

theorem Twin.guardedCall {t : Nat} {a b : St} (h : Twin t a b) (c : Reg) :
    (Cleanup.guardedCall c a).1 = (Cleanup.guardedCall c b).1 ∧ Twin t (Cleanup.guardedCall c a).2 (Cleanup.guardedCall c b).2 := by
  have h1 := h.callCleanup c
  unfold Cleanup.guardedCall
  revert h1
  rcases Cleanup.callCleanup c a with ⟨o, a1⟩
  rcases Cleanup.callCleanup c b with ⟨o', b1⟩
  rintro ⟨h1, h2⟩
  dsimp only at h1 h2 ⊢
  subst h1
  rcases o with _ | ⟨e, r⟩
  · exact ⟨rfl, h2⟩
  · dsimp only
    obtain ⟨ca, cb⟩ := h2.cur
    rw [ca, cb]
    have h3 : Twin t (if r || (some RKey.global).isNone then a1 else (a1.record a1.currentForUpdate e.kind).emit (.recorded c.reg a1.currentForUpdate e.kind))
        (if r || (some RKey.global).isNone then b1 else (b1.record b1.currentForUpdate e.kind).emit (.recorded c.reg b1.currentForUpdate e.kind)) := by
      split
      · exact h2
      · exact (h2.update _).noted ..
    split
    · exact ⟨rfl, h3⟩
    · exact ⟨rfl, h3⟩

theorem Twin.cleanups {t : Nat} {a b : St} (h : Twin t a b) : a.cleanups = b.cleanups := by obtain ⟨x, f, l, rfl, -⟩ := h; rfl

theorem Twin.setCleanups {t : Nat} {a b : St} (h : Twin t a b) (c : Nat → List Reg) : Twin t { a with cleanups := c } { b with cleanups := c } := by
  obtain ⟨x, f, l, rfl, hx, hc, hr, hR, hl⟩ := h
  exact ⟨x, f, l, rfl, hx, hc, hr, hR, hl⟩

theorem Twin.callLoopN {t : Nat} (n u : Nat) (inF inI : Bool) {a b : St} (h : Twin t a b) :
    (Cleanup.callLoopN n u inF inI a).1 = (Cleanup.callLoopN n u inF inI b).1 ∧ Twin t (Cleanup.callLoopN n u inF inI a).2 (Cleanup.callLoopN n u inF inI b).2 := by
  induction n generalizing a b with
  | zero => exact ⟨rfl, h⟩
  | succ n ih =>
    simp only [Cleanup.callLoopN]
    rw [h.cleanups]
    split
    · exact ⟨rfl, h⟩
    · rename_i c rest _
      have h1 := h.setCleanups (fun v => if v = u then rest else b.cleanups v)
      split
      · exact ih (h1.emit _)
      · have h2 := (h1.emit (.ran c.reg u)).guardedCall c
        revert h2
        rcases Cleanup.guardedCall c (St.emit { a with cleanups := fun v => if v = u then rest else b.cleanups v } (.ran c.reg u)) with ⟨_ | e, a1⟩ <;>
          rcases Cleanup.guardedCall c (St.emit { b with cleanups := fun v => if v = u then rest else b.cleanups v } (.ran c.reg u)) with ⟨_ | e', b1⟩ <;> rintro ⟨h2, h3⟩
        · exact ih h3
        · cases h2
        · cases h2
        · exact ⟨h2, h3⟩

theorem Twin.callCleanups {t : Nat} (u : Nat) (inF inI : Bool) (hk : Option Kind) {a b : St} (h : Twin t a b) :
    (Cleanup.callCleanups u inF inI hk a).1 = (Cleanup.callCleanups u inF inI hk b).1 ∧
    Twin t (Cleanup.callCleanups u inF inI hk a).2 (Cleanup.callCleanups u inF inI hk b).2 := by
  have hs : a.scopeName = b.scopeName := by obtain ⟨x, f, l, rfl, -⟩ := h; rfl
  obtain ⟨ca, cb⟩ := h.cur
  unfold Cleanup.callCleanups Cleanup.callLoop
  rw [hs, h.cleanups, ca, cb]
  split
  · exact ⟨rfl, h.update _⟩
  · exact h.callLoopN _ u inF inI

theorem Twin.flags {t : Nat} {a b : St} (h : Twin t a b) (ts : List Nat) (ht : t ∈ ts) : Cleanup.popFlags a ts = Cleanup.popFlags b ts := by
  obtain ⟨ca, cb⟩ := h.cur
  obtain ⟨x, f, l, rfl, hx, hc, hr, hR, hl⟩ := h
  unfold Cleanup.popFlags Cleanup.currentSuccess
  simp only [hr]
  have key : ((f .global).isSuccess true && ts.all (fun n => (f (.test n)).isSuccess true)) =
      ((b.results .global).isSuccess true && ts.all (fun n => (b.results (.test n)).isSuccess true)) := by
    rw [isSuccess_fine hR.s1, isSuccess_fine hR.s3, Bool.eq_iff_iff]
    simp only [Bool.and_eq_true, List.all_eq_true]
    have hfine := hR.fine
    constructor
    · rintro ⟨h1, h2⟩
      have h3 := h2 t ht
      rw [isSuccess_fine hR.s2] at h3
      rw [h1, h3] at hfine
      have h4 : fine (b.results .global) = true ∧ fine (b.results (.test t)) = true := by simpa using hfine.symm
      refine ⟨h4.1, fun n hn => ?_⟩
      by_cases e : n = t
      · rw [e, isSuccess_fine hR.s4]; exact h4.2
      · rw [← hR.others n e]; exact h2 n hn
    · rintro ⟨h1, h2⟩
      have h3 := h2 t ht
      rw [isSuccess_fine hR.s4] at h3
      rw [h1, h3] at hfine
      have h4 : fine (f .global) = true ∧ fine (f (.test t)) = true := by simpa using hfine
      refine ⟨h4.1, fun n hn => ?_⟩
      by_cases e : n = t
      · rw [e, isSuccess_fine hR.s2]; exact h4.2
      · rw [hR.others n e]; exact h2 n hn
  have hi : (f .global).isInterrupted = (b.results .global).isInterrupted := hR.int
  show (!((f .global).isSuccess true && ts.all (fun n => (f (.test n)).isSuccess true)), (f .global).isInterrupted) = _
  rw [key, hi]

theorem Twin.popScope {t : Nat} {a b : St} (h : Twin t a b) (name : String) (hk : Option Kind) (ts : List Nat) (ht : t ∈ ts) :
    (Cleanup.popScope name hk ts a).1 = (Cleanup.popScope name hk ts b).1 ∧ Twin t (Cleanup.popScope name hk ts a).2 (Cleanup.popScope name hk ts b).2 := by
  have hs : a.scopeName = b.scopeName := by obtain ⟨x, f, l, rfl, -⟩ := h; rfl
  have hst : a.stack = b.stack := by obtain ⟨x, f, l, rfl, -⟩ := h; rfl
  unfold Cleanup.popScope
  rw [h.flags ts ht, hst, hs]
  rcases Cleanup.popFlags b ts with ⟨inF, inI⟩
  dsimp only
  split
  · exact ⟨rfl, h⟩
  · rename_i u _ _
    split
    · exact ⟨rfl, h⟩
    · have h1 := (h.emit (.closing u inF inI)).callCleanups u inF inI hk
      revert h1
      rcases Cleanup.callCleanups u inF inI hk (a.emit (.closing u inF inI)) with ⟨o, a1⟩
      rcases Cleanup.callCleanups u inF inI hk (b.emit (.closing u inF inI)) with ⟨o', b1⟩
      rintro ⟨h1, h2⟩
      refine ⟨h1, ?_⟩
      obtain ⟨x, f, l, rfl, hx, hc, hr, hR, hl⟩ := h2
      exact ⟨x, f, _, rfl, hx, hc, hr, hR, by simp only [List.filter_append, hl]⟩

/-! ## The scope manager and the session -/

/-- The same session, with the test or without. -/
def TwinW (t : Nat) (v w : W) : Prop :=
  ∃ a tr, v = { w with cl := a, trace := tr } ∧ Twin t a w.cl ∧ tr.map (·.ev) = w.trace.map (·.ev) ∧ t ∈ w.tests

/-- A piece of the program that does the same in both. -/
def Both (t : Nat) (m : M) : Prop := ∀ v w, TwinW t v w → (m v).1 = (m w).1 ∧ TwinW t (m v).2 (m w).2

section
variable {t : Nat}

theorem TwinW.emit {v w : W} (h : TwinW t v w) (e : Ev) : TwinW t (emit e v) (emit e w) := by
  obtain ⟨a, tr, rfl, h1, h2, h3⟩ := h
  exact ⟨a, _, rfl, h1, by simp [Whole.emit, h2], h3⟩

theorem TwinW.record {v w : W} (h : TwinW t v w) (k : Kind) : TwinW t (record k v) (record k w) := by
  obtain ⟨a, tr, rfl, h1, h2, h3⟩ := h
  exact ⟨_, tr, rfl, h1.update k, h2, h3⟩

theorem both_handle {b : Bool} {m : M} (hm : Both t m) : Both t (handle b m) := by
  intro v w h
  have h1 := hm v w h
  unfold handle
  revert h1
  rcases m v with ⟨_ | x, v1⟩ <;> rcases m w with ⟨_ | y, w1⟩ <;> rintro ⟨h1, h2⟩
  · exact ⟨rfl, h2⟩
  · cases h1
  · cases h1
  · cases h1
    dsimp only at h2 ⊢
    have h3 : TwinW t (if x.handled then v1 else Whole.record x.kind v1) (if x.handled then w1 else Whole.record x.kind w1) := by
      split
      · exact h2
      · exact h2.record _
    split
    · exact ⟨rfl, h3⟩
    · exact ⟨rfl, h3⟩

theorem both_fin {m k : M} (hm : Both t m) (hk : Both t k) : Both t (fin m k) := by
  intro v w h
  obtain ⟨h1, h2⟩ := hm v w h
  obtain ⟨h3, h4⟩ := hk _ _ h2
  refine ⟨?_, h4⟩
  show (k (m v).2).1.or (m v).1 = (k (m w).2).1.or (m w).1
  rw [h1, h3]

theorem both_user (c : Code) : Both t (user c) := by
  rintro v w ⟨a, tr, rfl, h1, h2, h3⟩
  have h4 := h1.runActs c.acts
  unfold user
  dsimp only
  revert h4
  rcases Cleanup.runActs c.acts a with ⟨_ | e, a1⟩ <;> rcases Cleanup.runActs c.acts w.cl with ⟨_ | e', b1⟩ <;> rintro ⟨h4, h5⟩
  · exact ⟨rfl, a1, tr, rfl, h5, h2, h3⟩
  · cases h4
  · cases h4
  · cases h4; exact ⟨rfl, a1, tr, rfl, h5, h2, h3⟩

theorem both_hook (e : Ev) (c : Code) : Both t (hook e c) := fun _ _ h => both_user c _ _ (h.emit e)

theorem both_clPop (n : String) (hk : Option Kind) : Both t (clPop n hk) := by
  rintro v w ⟨a, tr, rfl, h1, h2, h3⟩
  obtain ⟨h4, h5⟩ := h1.popScope n hk w.tests h3
  unfold clPop
  dsimp only
  exact ⟨by rw [h4], _, tr, rfl, h5, h2, h3⟩

theorem both_fxLoop (fs : List Nat) : Both t (fxLoop fs) := by
  induction fs with
  | nil => exact fun _ _ h => ⟨rfl, h⟩
  | cons f fs ih =>
    rintro v w ⟨a, tr, rfl, h1, h2, h3⟩
    simp only [fxLoop]
    rcases Fix.deactivate f w.fx with ⟨_ | k, fx⟩
    · exact ih _ _ ⟨a, tr, rfl, h1, h2, h3⟩
    · have h4 : TwinW t (Whole.record k { w with cl := a, trace := tr, fx := fx }) (Whole.record k { w with fx := fx }) :=
        TwinW.record (w := { w with fx := fx }) ⟨a, tr, rfl, h1, h2, h3⟩ k
      dsimp only
      split
      · exact ⟨rfl, h4⟩
      · exact ih _ _ h4

theorem TwinW.fx {v w : W} (h : TwinW t v w) : v.fx = w.fx := by obtain ⟨a, tr, rfl, -⟩ := h; rfl
theorem TwinW.scopes {v w : W} (h : TwinW t v w) : v.scopes = w.scopes := by obtain ⟨a, tr, rfl, -⟩ := h; rfl

theorem both_fxLoops (env : Env) (s : Nat) (ks : List Nat) : Both t (fxLoops env s ks) := by
  induction ks with
  | nil => exact fun _ _ h => ⟨rfl, h⟩
  | cons k ks ih =>
    intro v w h
    simp only [fxLoops]
    rw [h.fx]
    split
    · generalize ((w.fx.active.filter (fun a => (env.defs a.id).scope == k)).map (·.id)).reverse = fs
      have h1 := both_fxLoop (t := t) fs v w h
      revert h1
      rcases fxLoop fs v with ⟨_ | x, v1⟩ <;> rcases fxLoop fs w with ⟨_ | y, w1⟩ <;> rintro ⟨h1, h2⟩
      · exact ih _ _ h2
      · cases h1
      · cases h1
      · exact ⟨h1, h2⟩
    · exact ih _ _ h

theorem both_fxPop (env : Env) (s : Sc) : Both t (fxPop env s) := by
  intro v w h
  have h1 := h.emit (.fixturesDown s)
  have hi : interrupted (emit (.fixturesDown s) v).cl = interrupted (emit (.fixturesDown s) w).cl := by
    obtain ⟨a, tr, rfl, ha, h2, h3⟩ := h
    unfold interrupted
    show (match a.curResult with | some r => (a.results r).isInterrupted | none => false) = (match w.cl.curResult with | some r => (w.cl.results r).isInterrupted | none => false)
    rw [ha.cur.1, ha.cur.2]
    obtain ⟨x, f, l, rfl, -, -, -, hR, hl⟩ := ha
    exact hR.int
  unfold fxPop
  dsimp only
  rw [hi, h1.fx]
  split
  · exact ⟨rfl, h1⟩
  · exact both_fxLoops env _ _ _ _ h1

theorem both_callBoth {a b : M} (ha : Both t a) (hb : Both t b) : Both t (callBoth a b) := by
  intro v w h
  have h1 := ha v w h
  unfold callBoth
  revert h1
  rcases a v with ⟨_ | x, v1⟩ <;> rcases a w with ⟨_ | y, w1⟩ <;> rintro ⟨h1, h2⟩
  · exact hb _ _ h2
  · cases h1
  · cases h1
  · cases h1
    dsimp only
    split
    · obtain ⟨h3, h4⟩ := hb _ _ h2
      exact ⟨by dsimp only at h3 ⊢; rw [h3], h4⟩
    · exact ⟨rfl, h2⟩

theorem both_pop (env : Env) (s : Sc) (hk : Option Kind) : Both t (pop env s hk) := by
  intro v w h
  unfold pop
  rw [h.scopes]
  split
  · exact ⟨rfl, h⟩
  · rename_i p rest _
    have h0 : TwinW t { v with scopes := rest } { w with scopes := rest } := by
      obtain ⟨a, tr, rfl, h1, h2, h3⟩ := h
      exact ⟨a, tr, rfl, h1, h2, h3⟩
    split
    · exact ⟨rfl, h0⟩
    · have h1 := both_callBoth (both_clPop (t := t) (scName s) hk) (both_fxPop env s) _ _ (h0.emit (.closing s))
      revert h1
      rcases callBoth (clPop (scName s) hk) (fxPop env s) (emit (.closing s) { v with scopes := rest }) with ⟨_ | x, v1⟩ <;>
        rcases callBoth (clPop (scName s) hk) (fxPop env s) (emit (.closing s) { w with scopes := rest }) with ⟨_ | y, w1⟩ <;> rintro ⟨h1, h2⟩
      · exact ⟨rfl, h2⟩
      · cases h1
      · cases h1
      · cases h1; exact ⟨rfl, h2.emit _⟩

theorem both_flushLoop (env : Env) (ss : List Sc) (p : Option X) : Both t (flushLoop env ss p) := by
  induction ss generalizing p with
  | nil => exact fun _ _ h => ⟨rfl, h⟩
  | cons s ss ih =>
    intro v w h
    have h1 := both_pop (t := t) env s none v w h
    simp only [flushLoop]
    revert h1
    rcases pop env s none v with ⟨_ | x, v1⟩ <;> rcases pop env s none w with ⟨_ | y, w1⟩ <;> rintro ⟨h1, h2⟩
    · exact ih _ _ _ h2
    · cases h1
    · cases h1
    · cases h1
      dsimp only
      split
      · exact ih _ _ _ h2
      · exact ⟨rfl, h2⟩

theorem both_flush (env : Env) : Both t (flush env) := by
  intro v w h
  unfold flush
  rw [h.scopes]
  exact both_flushLoop env _ _ _ _ h

/-- Cleaning up the session is the same in both. -/
theorem both_initiateCleanup (env : Env) : Both t (initiateCleanup env) := by
  intro v w h
  unfold initiateCleanup
  rw [h.scopes]
  have hc : v.cleanups = w.cleanups := by obtain ⟨a, tr, rfl, -⟩ := h; rfl
  rw [hc]
  split
  · exact ⟨rfl, h⟩
  · refine both_fin (both_handle (both_hook _ _)) (both_handle (both_flush env)) _ _ ?_
    obtain ⟨a, tr, rfl, h1, h2, h3⟩ := h
    exact ⟨a, tr, rfl, h1, h2, h3⟩

end
end Slash.Whole
