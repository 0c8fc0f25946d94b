import Verif.Lemmas.WholeRefine2
/-! Whole sessions are runs of the runner model: single tests, the loop, the end of the run. -/
namespace Slash.Whole

open Slash.Scope (Sc)
open Slash.Cleanup (RKey Reg St Exn)
open Slash.Result (REv)

/-! ## Results that were looked up -/

theorem ResSim.get {F : List Nat} {f : RKey → Result} {res : SessionResults} (h : ResSim F f res) {id : Nat} (hid : id ∈ F) :
    ∃ r, res.get id = some r ∧ { r with finished := false } = f (.test id) ∧ r.hasFatal = false := by
  rw [← h.tests] at hid
  obtain ⟨p, hp, rfl⟩ := List.mem_map.1 hid
  cases hf : res.tests.find? (·.1 == p.1) with
  | none =>
    rw [List.find?_eq_none] at hf
    exact absurd (beq_self_eq_true p.1) (hf p hp)
  | some q =>
    have hq := List.mem_of_find?_eq_some hf
    have he : q.1 = p.1 := by simpa using List.find?_some hf
    exact ⟨q.2, by simp [SessionResults.get, SessionResults.lookup, hf], by rw [h.each q hq, he], h.fatal q hq⟩

theorem ResSim.get_none {F : List Nat} {f : RKey → Result} {res : SessionResults} (h : ResSim F f res) {id : Nat} (hid : id ∉ F) :
    res.lookup id = none := by
  rw [← h.tests] at hid
  unfold SessionResults.lookup
  rw [Option.map_eq_none_iff, List.find?_eq_none]
  intro p hp
  simp only [beq_iff_eq]
  rintro rfl
  exact hid (List.mem_map.2 ⟨p, hp, rfl⟩)

theorem summaryHook_unfinished (r : Result) : summaryHook { r with finished := false } = summaryHook r := rfl
theorem isSuccess_unfinished (r : Result) (b : Bool) : ({ r with finished := false } : Result).isSuccess b = r.isSuccess b := rfl

/-- Whether the session is a success so far. -/
theorem ResSim.success {w : W} {res : SessionResults} (h : ResSim w.tests w.cl.results res) : res.isSuccess true = success w := by
  have e : res.testResults.all (·.isSuccess true) = w.tests.all (fun t => (w.cl.results (.test t)).isSuccess true) := by
    rw [← h.tests]
    unfold SessionResults.testResults
    rw [List.all_map, List.all_map, Bool.eq_iff_iff, List.all_eq_true, List.all_eq_true]
    constructor <;> intro ha p hp
    · have := ha p hp
      simp only [Function.comp] at this ⊢
      rw [← h.each p hp, isSuccess_unfinished]; exact this
    · have := ha p hp
      simp only [Function.comp] at this ⊢
      rw [← h.each p hp, isSuccess_unfinished] at this; exact this
  unfold SessionResults.isSuccess Whole.success
  rw [e, h.worker, ← h.global, isSuccess_unfinished]
  cases res.global.isSuccess true <;> simp

/-- The end time. -/
theorem ResSim.finish {F : List Nat} {f : RKey → Result} {res : SessionResults} (h : ResSim F f res) (id : Nat) : ResSim F f (res.step (.ev id .finish)) := by
  refine ⟨?_, h.nodup, ?_, h.global, h.worker, h.new, ?_⟩
  · rw [← h.tests]
    show (res.tests.map _).map _ = _
    rw [List.map_map]
    apply List.map_congr_left
    intro p _
    simp only [Function.comp]
    split <;> rfl
  · intro p hp
    obtain ⟨q, hq, rfl⟩ := List.mem_map.1 hp
    have := h.each q hq
    split <;> exact this
  · intro p hp
    obtain ⟨q, hq, rfl⟩ := List.mem_map.1 hp
    have := h.fatal q hq
    split <;> exact this

/-! ## Summary, end of a test, session cleanup -/

theorem step_summary (t : T) {w : W} (hg : Good w.tests w.cl) (ht : t.id ∈ w.tests) : ∃ s : Runner.Step, ∀ t' : Runner.T, t'.id = t.id → t'.summary = s →
    ∀ x st, Sim x w st → RR x (fireSummary t w) (Runner.fireSummary t' st) := by
  obtain ⟨s, hs⟩ := step_hook (e := .summary t.id (summaryHook (w.cl.results (.test t.id)))) t.summary rfl rfl hg
  refine ⟨s, fun t' h1 h2 x st h => ?_⟩
  unfold fireSummary Runner.fireSummary
  obtain ⟨r, hr, he, -⟩ := h.res.get ht
  rw [h1, h2, hr, Option.getD_some, ← summaryHook_unfinished, he]
  exact rr_handle (m := fun w => hook (.summary t.id (summaryHook (w.cl.results (.test t.id)))) t.summary w) (hs x st h)

/-- The current result is another one from now on. -/
theorem Sim.setCur {x : RCtx} {w : W} {st : Runner.St} (h : Sim x w st) {c : Runner.Cur} (hc : OkR w.tests (some (key c))) :
    Sim { x with cur := c } (setResult (some (key c)) w) { st with cur := c } :=
  ⟨rfl, rfl, h.test, h.stTest, h.indexed, ⟨hc, h.good.curT, h.good.pend, h.good.regs, h.good.ended⟩, h.res, ⟨h.scope.1, h.scope.2, h.scope.3⟩, h.started,
    h.cleanups, h.trace, h.bodies⟩

/-- The start/end controller ends: if it was started, the current result is the previous one then. -/
theorem step_ctrlEnd (t : T) {w : W} (hg : Good w.tests w.cl) : ∃ s : Runner.Step, ∀ t' : Runner.T, t'.id = t.id → t'.endHook = s →
    ∀ c x st, OkR w.tests (some (key c)) → Sim x w st →
      RR { x with cur := if w.started then c else x.cur } (ctrlEnd t (some (key c)) w) (Runner.ctrlEnd t' c st) := by
  have hgf : Good (forbid w).tests (forbid w).cl := hg.same rfl rfl rfl rfl [] (by simp [forbid]) (by simp)
  obtain ⟨s, hs⟩ := step_hook (e := .fin t.id) t.endHook rfl rfl hgf
  have hk := keeps_hook (.fin t.id) t.endHook (forbid w) hgf
  refine ⟨s, fun t' h1 h2 c x st hc h => ?_⟩
  unfold ctrlEnd Runner.ctrlEnd
  rw [h.started, h1, h2]
  cases hws : w.started with
  | false => exact ⟨trivial, h⟩
  | true =>
    simp only [Bool.not_true, Bool.false_eq_true, if_false, if_true]
    have hf : Sim x (forbid w) { st with started := false } :=
      ⟨h.cur, h.stCur, h.test, h.stTest, h.indexed, hgf, h.res, ⟨h.scope.1, h.scope.2, h.scope.3⟩, rfl, h.cleanups, h.trace, h.bodies⟩
    have h3 := hs x _ hf
    generalize Runner.runStep s (({ st with started := false } : Runner.St).emit (.hookEnd t.id)) = q at h3
    have e : fin (fin (seq (act forbid) (hook (.fin t.id) t.endHook)) (act (permit w.cl.allowImplicit))) (act (setResult (some (key c)))) w =
        ((hook (.fin t.id) t.endHook (forbid w)).1, setResult (some (key c)) (permit w.cl.allowImplicit (hook (.fin t.id) t.endHook (forbid w)).2)) := by
      simp only [fin, seq, act]
      cases (hook (.fin t.id) t.endHook (forbid w)).1 <;> rfl
    rw [e]
    generalize hook (.fin t.id) t.endHook (forbid w) = r at h3 hk
    rcases q with ⟨y, st1⟩
    rcases r with ⟨z, w1⟩
    refine ⟨h3.1, ?_⟩
    have h4 : Sim x (permit w.cl.allowImplicit w1) (if y.isNone = true then { st1 with res := st1.res.step (.ev t.id .finish) } else st1) := by
      have h5 := h3.2
      have h6 : Sim x (permit w.cl.allowImplicit w1) st1 :=
        ⟨h5.cur, h5.stCur, h5.test, h5.stTest, h5.indexed, h5.good.same rfl rfl rfl rfl [] (by simp [permit]) (by simp), h5.res,
          ⟨h5.scope.1, h5.scope.2, h5.scope.3⟩, h5.started, h5.cleanups, h5.trace, h5.bodies⟩
      split
      · exact ⟨h6.cur, h6.stCur, h6.test, h6.stTest, h6.indexed, h6.good, h6.res.finish _, h6.scope, h6.started, h6.cleanups, h6.trace, h6.bodies⟩
      · exact h6
    exact h4.setCur (by show OkR w1.tests _; rw [hk.tests]; exact hc)

theorem ctrlEnd_started (t : T) (prev : Option RKey) (w : W) : (ctrlEnd t prev w).2.started = false := by
  unfold ctrlEnd
  split
  · rename_i h; simpa using h
  · have : ∀ w1 : W, (user t.endHook w1).2.started = w1.started := by intro w1; unfold user; split <;> rfl
    exact this (emit (.fin t.id) (forbid w))

theorem initiateCleanup_keeps (env : Env) {w : W} (hg : Good w.tests w.cl) :
    (initiateCleanup env w).2.tests = w.tests ∧ (initiateCleanup env w).2.started = w.started ∧
    (initiateCleanup env w).2.cleanups = (if w.scopes = [] then w.cleanups else w.cleanups + 1) ∧
    Good (initiateCleanup env w).2.tests (initiateCleanup env w).2.cl := by
  unfold initiateCleanup
  split
  · exact ⟨rfl, rfl, rfl, hg⟩
  · -- what is done keeps everything
    have hh : ∀ (b : Bool) (m : M), (∀ w, Good w.tests w.cl → Kept w (m w).2 ∧ (m w).2.started = w.started) →
        ∀ w, Good w.tests w.cl → Kept w (handle b m w).2 ∧ (handle b m w).2.started = w.started := by
      intro b m hm w h
      refine ⟨?_, ?_⟩
      · have h1 := (hm w h).1
        unfold handle
        split <;> rename_i heq <;> rw [heq] at h1
        · exact h1
        · rename_i x w1
          have h2 : Kept w (if x.handled = true then w1 else record x.kind w1) := by
            split
            · exact h1
            · exact h1.trans (tame_record h1.good _).kept
          simp only
          split <;> exact h2
      · have h1 := (hm w h).2
        unfold handle
        split <;> rename_i heq <;> rw [heq] at h1
        · exact h1
        · rename_i x w1
          have h2 : (if x.handled = true then w1 else record x.kind w1).started = w.started := by
            split
            · exact h1
            · exact h1
          simp only
          split <;> exact h2
    generalize hw0 : ({ w with cleanups := w.cleanups + 1 } : W) = w0
    have e0 : w0.tests = w.tests ∧ w0.started = w.started ∧ w0.cleanups = w.cleanups + 1 ∧ Good w0.tests w0.cl := by subst hw0; exact ⟨rfl, rfl, rfl, hg⟩
    have a := hh true (hook .sessionCleanup (env.beforeCleanup w.cleanups))
      (fun w h => ⟨keeps_hook _ _ w h, (tame_user (w := emit .sessionCleanup w) h (env.beforeCleanup _)).started⟩) w0 e0.2.2.2
    have b := hh true (flush env) (fun w h => ⟨(flushLoop_tame env w.scopes none h).kept, (flushLoop_tame env w.scopes none h).started⟩) _ a.1.good
    refine ⟨b.1.tests.trans (a.1.tests.trans e0.1), b.2.trans (a.2.trans e0.2.1), ?_, b.1.good⟩
    exact b.1.cleanups.trans (a.1.cleanups.trans e0.2.2.1)

/-- `initiate_cleanup` -/
theorem sim_initiateCleanup (env : Env) {w : W} (hg : Good w.tests w.cl) : ∃ C : Runner.CleanupData, ∀ env' : Runner.Env,
    (w.scopes ≠ [] → env'.cleanup w.cleanups = C) → ∀ x st, Sim x w st → RR x (initiateCleanup env w) (Runner.initiateCleanup env' st) := by
  unfold initiateCleanup
  split
  · rename_i hs
    refine ⟨{}, fun env' _ x st h => ?_⟩
    unfold Runner.initiateCleanup
    rw [if_pos (h.scope.scopes.trans hs)]
    exact ⟨trivial, h⟩
  · rename_i hs
    generalize hw0 : ({ w with cleanups := w.cleanups + 1 } : W) = w0
    have hg0 : Good w0.tests w0.cl := by subst hw0; exact hg
    obtain ⟨s, hst⟩ := step_hook (e := .sessionCleanup) (env.beforeCleanup w.cleanups) rfl rfl hg0
    have hk := keeps_handle (b := true) (keeps_hook .sessionCleanup (env.beforeCleanup w.cleanups)) w0 hg0
    obtain ⟨os, hos⟩ := flushLoop_sc env (handle true (hook .sessionCleanup (env.beforeCleanup w.cleanups)) w0).2.scopes 0 none
      (handle true (hook .sessionCleanup (env.beforeCleanup w.cleanups)) w0).2
    obtain ⟨es, hb, hes⟩ := scopeOp_sim (r := flush env (handle true (hook .sessionCleanup (env.beforeCleanup w.cleanups)) w0).2) (f := Scope.flush os)
      (flushLoop_tame env _ none hk.good) (by
        intro sc hsc
        have := hos sc none hsc trivial
        unfold Scope.flush
        rw [hsc.scopes]
        exact this)
    refine ⟨{ hook := s, evs := es, handled := hb, elsewhere := hb, outs := os }, fun env' he x st h => ?_⟩
    unfold Runner.initiateCleanup
    rw [if_neg (by rw [h.scope.scopes]; exact hs), h.cleanups, he hs]
    have h0 : Sim x w0 { st with cleanups := w.cleanups + 1 } := by
      subst hw0
      exact ⟨h.cur, h.stCur, h.test, h.stTest, h.indexed, h.good, h.res, ⟨h.scope.1, h.scope.2, h.scope.3⟩, h.started, rfl, h.trace, h.bodies⟩
    have h1 := rr_handle (b := true) (hst x _ h0)
    have h2 := rr_handle (b := true) (hes x _ h1.2)
    exact rr_fin h1 h2

/-! ## The block of a test -/

/-- Like `Kept`, but a session cleanup may begin. -/
structure Kept' (w w' : W) : Prop where
  tests : w'.tests = w.tests
  cleanups : w.cleanups ≤ w'.cleanups
  good : Good w'.tests w'.cl

theorem Kept.weak {w w' : W} (h : Kept w w') : Kept' w w' := ⟨h.tests, by rw [h.cleanups]; exact Nat.le_refl _, h.good⟩
theorem Kept'.trans {a b c : W} (h : Kept' a b) (h' : Kept' b c) : Kept' a c :=
  ⟨h'.tests.trans h.tests, Nat.le_trans h.cleanups h'.cleanups, h'.good⟩

/-- Closed under everything done to a state. -/
def Keeps' (w : W) (m : M) : Prop := Kept' w (m w).2

theorem keeps'_seq {m k : M} {w : W} (hm : Kept' w (m w).2) (hk : ∀ w1, m w = (none, w1) → Kept' w1 (k w1).2) : Kept' w (seq m k w).2 := by
  rcases heq : m w with ⟨_ | x, w1⟩ <;> rw [heq] at hm
  · rw [seq_none heq]; exact hm.trans (hk w1 heq)
  · rw [seq_some heq]; exact hm
theorem keeps'_handle {b : Bool} {m : M} {w : W} (hm : Kept' w (m w).2) : Kept' w (handle b m w).2 := by
  unfold handle
  split <;> rename_i heq <;> rw [heq] at hm
  · exact hm
  · rename_i x w1
    have h2 : Kept' w (if x.handled = true then w1 else record x.kind w1) := by
      split
      · exact hm
      · exact hm.trans (tame_record hm.good _).kept.weak
    simp only
    split <;> exact h2
theorem keeps'_exceptSkip {m : M} {w : W} (hm : Kept' w (m w).2) : Kept' w (exceptSkip m w).2 := by
  unfold exceptSkip
  cases hmw : m w with
  | mk o w1 =>
    rw [hmw] at hm
    cases o with
    | none => exact hm
    | some x => simp only; split <;> exact hm
theorem keeps'_initiateCleanup (env : Env) {w : W} (hg : Good w.tests w.cl) : Kept' w (initiateCleanup env w).2 := by
  obtain ⟨h1, -, h3, h4⟩ := initiateCleanup_keeps env hg
  refine ⟨h1, ?_, h4⟩
  rw [h3]; split <;> omega

/-- The end of the block: if this is the last test, it ends and the session cleanup begins. -/
def blockEnd (env : Env) (t : T) (isLast : Bool) (prev : Option RKey) : M :=
  if isLast then seq (ctrlEnd t prev) (handle true (initiateCleanup env)) else act id

theorem keeps'_blockEnd (env : Env) (t : T) (l : Bool) {prev : Option RKey} {w : W} (hg : Good w.tests w.cl) (hp : OkR w.tests prev) :
    Kept' w (blockEnd env t l prev w).2 := by
  unfold blockEnd
  split
  · have h1 := keeps_ctrlEnd t hg hp
    exact keeps'_seq h1.weak (fun w1 heq => by rw [heq] at h1; exact keeps'_handle (keeps'_initiateCleanup env h1.good))
  · exact (Kept.refl hg).weak

theorem keeps'_block (env : Env) (t : T) (l : Bool) {prev : Option RKey} {w : W} (hg : Good w.tests w.cl) (hp : OkR w.tests prev) :
    Kept' w (block env t l prev w).2 := by
  have h1 := keeps_exceptSkip (keeps_handle (b := true) (keeps_beginRunEnd env t)) w hg
  refine keeps'_exceptSkip (keeps'_seq h1.weak fun w1 heq => ?_)
  rw [heq] at h1
  have h2 := keeps_fireSummary t w1 h1.good
  refine keeps'_seq h2.weak fun w2 heq2 => ?_
  rw [heq2] at h2
  exact keeps'_blockEnd env t l h2.good (by rw [h2.tests, h1.tests]; exact hp)

/-- What the end of the block is in the runner. -/
def blockEndR (env : Runner.Env) (t : Runner.T) (isLast : Bool) (prev : Runner.Cur) (st : Runner.St) : Option Runner.X × Runner.St :=
  if isLast then
    match Runner.ctrlEnd t prev st with
    | (some x, st) => (some x, st)
    | (none, st) => Runner.handle true (Runner.initiateCleanup env st)
  else (none, st)

/-- The relation for the end of the block. -/
def HoldsE (env : Env) (t : T) (l : Bool) (c : Runner.Cur) (w : W) (C : Runner.CleanupData) (t' : Runner.T) : Prop :=
  ∀ env' : Runner.Env, (w.cleanups < (blockEnd env t l (some (key c)) w).2.cleanups → env'.cleanup w.cleanups = C) → ∀ x st, Sim x w st →
    ∃ d, RR { x with cur := d } (blockEnd env t l (some (key c)) w) (blockEndR env' t' l c st)

theorem sim_blockEnd (env : Env) (t : T) (l : Bool) (c : Runner.Cur) {w : W} (hg : Good w.tests w.cl) (hp : OkR w.tests (some (key c))) :
    ∃ (e : Runner.Step) (C : Runner.CleanupData),
      (∀ t' : Runner.T, t'.id = t.id → HoldsE env t l c w C t') ∨
      ((∀ t' : Runner.T, t'.id = t.id → t'.endHook = e → HoldsE env t l c w C t') ∧ (blockEnd env t l (some (key c)) w).2.started = false) := by
  cases l with
  | false => exact ⟨{}, {}, .inl fun t' _ env' _ x st h => ⟨x.cur, trivial, h⟩⟩
  | true =>
    obtain ⟨e, he⟩ := step_ctrlEnd t hg
    have h1 := keeps_ctrlEnd t hg hp
    have hst := ctrlEnd_started t (some (key c)) w
    have hbe : ∀ v, blockEnd env t true (some (key c)) v = seq (ctrlEnd t (some (key c))) (handle true (initiateCleanup env)) v := fun _ => rfl
    rcases heq : ctrlEnd t (some (key c)) w with ⟨_ | y, w1⟩ <;> rw [heq] at h1 hst
    · obtain ⟨C, hC⟩ := sim_initiateCleanup env h1.good
      have hk := initiateCleanup_keeps env h1.good
      refine ⟨e, C, .inr ⟨fun t' h2 h3 env' hen x st h => ?_, ?_⟩⟩
      · have h4 := he t' h2 h3 c x st hp h
        rw [heq] at h4
        have hcl : (blockEnd env t true (some (key c)) w).2.cleanups = (initiateCleanup env w1).2.cleanups := by
          rw [hbe, seq_none heq]; unfold handle
          cases hi : initiateCleanup env w1 with
          | mk a b => cases a with
            | none => rfl
            | some y => simp only; split <;> split <;> rfl
        refine ⟨if w.started = true then c else x.cur, ?_⟩
        rw [hbe, seq_none heq]
        unfold blockEndR
        simp only [if_true]
        generalize Runner.ctrlEnd t' c st = q at h4
        rcases q with ⟨z, st1⟩
        cases z with
        | some z => exact h4.1.elim
        | none =>
          refine rr_handle (hC env' (fun hs => ?_) _ _ h4.2)
          have := hk.2.2.1
          rw [if_neg hs] at this
          have hc1 : w1.cleanups = w.cleanups := h1.cleanups
          rw [hc1]
          apply hen
          rw [hcl, this, hc1]; omega
      · rw [hbe, seq_none heq]
        unfold handle
        cases hi : initiateCleanup env w1 with
        | mk a b =>
          rw [hi] at hk
          cases a with
          | none => exact hk.2.1.trans hst
          | some y => simp only; split <;> split <;> exact hk.2.1.trans hst
    · refine ⟨e, {}, .inr ⟨fun t' h2 h3 env' hen x st h => ?_, ?_⟩⟩
      · have h4 := he t' h2 h3 c x st hp h
        rw [heq] at h4
        refine ⟨if w.started = true then c else x.cur, ?_⟩
        rw [hbe, seq_some heq]
        unfold blockEndR
        simp only [if_true]
        generalize Runner.ctrlEnd t' c st = q at h4
        rcases q with ⟨z, st1⟩
        cases z with
        | none => exact h4.1.elim
        | some z => exact h4
      · rw [hbe, seq_some heq]; exact hst

/-- The relation for the block. -/
def HoldsB (env : Env) (t : T) (l : Bool) (c : Runner.Cur) (w : W) (C : Runner.CleanupData) (t' : Runner.T) : Prop :=
  ∀ env' : Runner.Env, (w.cleanups < (block env t l (some (key c)) w).2.cleanups → env'.cleanup w.cleanups = C) → ∀ o i st, Sim ⟨.test t.id, o, i⟩ w st →
    ∃ d, RR ⟨d, o, i⟩ (block env t l (some (key c)) w) (Runner.block env' t' l c st)

theorem blockR_eq (env : Runner.Env) (t : Runner.T) (l : Bool) (c : Runner.Cur) (st : Runner.St) : Runner.block env t l c st =
    Runner.exceptSkip (match Runner.exceptSkip (Runner.handle true (Runner.beginRunEnd t st)) with
      | (some x, st) => (some x, st)
      | (none, st) => match Runner.fireSummary t st with
        | (some x, st) => (some x, st)
        | (none, st) => blockEndR env t l c st) := rfl

theorem block_eq (env : Env) (t : T) (l : Bool) (p : Option RKey) : block env t l p =
    exceptSkip (seq (exceptSkip (handle true (beginRunEnd env t))) (seq (fireSummary t) (blockEnd env t l p))) := rfl

theorem sim_block (env : Env) (t : T) (l : Bool) (c : Runner.Cur) {w : W} (hg : Good w.tests w.cl) (ht : t.id ∈ w.tests) (hp : OkR w.tests (some (key c))) :
    ∃ (t0 : Runner.T) (C : Runner.CleanupData), t0.id = t.id ∧ t0.module = t.module ∧
      ((∀ e, HoldsB env t l c w C { t0 with endHook := e }) ∨ (HoldsB env t l c w C t0 ∧ (block env t l (some (key c)) w).2.started = false)) := by
  obtain ⟨t1, h1, h1', hb⟩ := sim_beginRunEnd env t hg
  have hk1 := keeps_exceptSkip (keeps_handle (b := true) (keeps_beginRunEnd env t)) w hg
  have hA : ∀ o i st, Sim ⟨.test t.id, o, i⟩ w st → RR ⟨.test t.id, o, i⟩ (exceptSkip (handle true (beginRunEnd env t)) w)
      (Runner.exceptSkip (Runner.handle true (Runner.beginRunEnd t1 st))) := fun o i st h => rr_exceptSkip (rr_handle (hb o i st h))
  unfold HoldsB
  rw [block_eq]
  rcases heq : exceptSkip (handle true (beginRunEnd env t)) w with ⟨_ | y, w1⟩ <;> rw [heq] at hk1 hA
  rotate_left
  · refine ⟨t1, {}, h1, h1', .inl fun e env' _ o i st h => ⟨.test t.id, ?_⟩⟩
    rw [blockR_eq]
    apply rr_exceptSkip
    rw [seq_some heq]
    have h2 := hA o i st h
    show RR _ _ (match Runner.exceptSkip (Runner.handle true (Runner.beginRunEnd t1 st)) with
      | (some x, st) => (some x, st)
      | (none, st) => _)
    generalize Runner.exceptSkip (Runner.handle true (Runner.beginRunEnd t1 st)) = q at h2
    rcases q with ⟨_ | z, st1⟩
    · exact h2.1.elim
    · exact h2
  · have ht1 : t.id ∈ w1.tests := by rw [hk1.tests]; exact ht
    obtain ⟨s, hs⟩ := step_summary t hk1.good ht1
    have hk2 := keeps_fireSummary t w1 hk1.good
    rcases heq2 : fireSummary t w1 with ⟨_ | y, w2⟩ <;> rw [heq2] at hk2
    rotate_left
    · refine ⟨{ t1 with summary := s }, {}, h1, h1', .inl fun e env' _ o i st h => ⟨.test t.id, ?_⟩⟩
      rw [blockR_eq]
      apply rr_exceptSkip
      rw [seq_none heq, seq_some heq2]
      have h2 := hA o i st h
      show RR _ _ (match Runner.exceptSkip (Runner.handle true (Runner.beginRunEnd t1 st)) with
        | (some x, st) => (some x, st)
        | (none, st) => _)
      generalize Runner.exceptSkip (Runner.handle true (Runner.beginRunEnd t1 st)) = q at h2
      rcases q with ⟨_ | z, st1⟩
      · have h3 := hs { t1 with summary := s, endHook := e } h1 rfl _ _ h2.2
        simp only
        generalize Runner.fireSummary _ st1 = q at h3
        rw [heq2] at h3
        rcases q with ⟨_ | z, st2⟩
        · exact h3.1.elim
        · exact h3
      · exact h2.1.elim
    · have hk3 : Kept w w2 := hk1.trans hk2
      have hp2 : OkR w2.tests (some (key c)) := by rw [hk3.tests]; exact hp
      obtain ⟨e, C, hE⟩ := sim_blockEnd env t l c hk3.good hp2
      have hB : ∀ e', HoldsE env t l c w2 C { t1 with summary := s, endHook := e' } →
          ∀ env' : Runner.Env, (w.cleanups < (exceptSkip (seq (exceptSkip (handle true (beginRunEnd env t))) (seq (fireSummary t) (blockEnd env t l (some (key c))))) w).2.cleanups →
            env'.cleanup w.cleanups = C) → ∀ o i st, Sim ⟨.test t.id, o, i⟩ w st →
            ∃ d, RR ⟨d, o, i⟩ (exceptSkip (seq (exceptSkip (handle true (beginRunEnd env t))) (seq (fireSummary t) (blockEnd env t l (some (key c))))) w)
              (Runner.block env' { t1 with summary := s, endHook := e' } l c st) := by
        intro e' he env' hen o i st h
        rw [exceptSkip_snd, seq_none heq, seq_none heq2] at hen
        have h2 := hA o i st h
        have h4 : ∃ d, RR ⟨d, o, i⟩ (seq (exceptSkip (handle true (beginRunEnd env t))) (seq (fireSummary t) (blockEnd env t l (some (key c)))) w)
            (match Runner.exceptSkip (Runner.handle true (Runner.beginRunEnd t1 st)) with
            | (some x, st) => (some x, st)
            | (none, st) => match Runner.fireSummary { t1 with summary := s, endHook := e' } st with
              | (some x, st) => (some x, st)
              | (none, st) => blockEndR env' { t1 with summary := s, endHook := e' } l c st) := by
          rw [seq_none heq, seq_none heq2]
          generalize Runner.exceptSkip (Runner.handle true (Runner.beginRunEnd t1 st)) = q at h2
          rcases q with ⟨_ | z, st1⟩
          · have h3 := hs { t1 with summary := s, endHook := e' } h1 rfl _ _ h2.2
            simp only
            generalize Runner.fireSummary _ st1 = q at h3
            rw [heq2] at h3
            rcases q with ⟨_ | z, st2⟩
            · exact he env' (by rw [hk3.cleanups]; exact hen) _ _ h3.2
            · exact h3.1.elim
          · exact h2.1.elim
        obtain ⟨d, hd⟩ := h4
        exact ⟨d, rr_exceptSkip hd⟩
      rcases hE with hE | ⟨hE, hst⟩
      · exact ⟨{ t1 with summary := s }, C, h1, h1', .inl fun e' => hB e' (hE _ h1)⟩
      · refine ⟨{ t1 with summary := s, endHook := e }, C, h1, h1', .inr ⟨hB e (hE _ h1 rfl), ?_⟩⟩
        rw [exceptSkip_snd, seq_none heq, seq_none heq2]; exact hst

end Slash.Whole
