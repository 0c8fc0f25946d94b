import Verif.Lemmas.WholeParts
/-! Whole sessions: a test of a session that goes well either is skipped or has its end announced. -/
namespace Slash.Whole

open Slash.Scope (Sc)
open Slash.Cleanup (Op RKey Reg St Exn)

/-- Something went wrong somewhere. -/
def AnyBad (a : St) : Prop := ∃ r, Bad (a.results r)

theorem AnyBad.mono {a b : St} (g : Cleanup.Grow a b) (h : AnyBad a) : AnyBad b := by
  obtain ⟨r, h⟩ := h
  exact ⟨r, Bad.mono g h⟩

theorem bad_record (a : St) (r : RKey) (k : Kind) (hk : k ≠ .skip) : Bad ((a.record r k).results r) := by
  have h1 : Bad ((a.updResult r (fun x => x.addKind k)).results r) := by
    cases k <;> simp_all [St.updResult, Bad, Result.addKind, Result.markInterrupted, Result.addError, Result.addFailure]
  unfold St.record
  simp only
  split
  · refine Or.imp ?_ (Or.imp ?_ ?_) h1 <;> intro h <;> simp only [St.updResult] at h ⊢ <;> split <;> simp_all [Result.markInterrupted]
  · exact h1

/-- What leaves as handled is recorded somewhere. -/
def Rec (F : List Nat) (m : M) : Prop := ∀ w, Good F w.cl → ∀ x, (m w).1 = some x → x.handled = true → x.kind ≠ .skip → AnyBad (m w).2.cl

variable {F : List Nat} {env : Env}

theorem rec_none {m : M} (h : ∀ w x, (m w).1 = some x → x.handled = false) : Rec F m := by
  intro w _ x hx hh
  rw [h w x hx] at hh; cases hh

theorem rec_seq {m k : M} (hm : Rec F m) (sm : St' F m) (hk : Rec F k) : Rec F (seq m k) := by
  intro w hw x hx hh hs
  have h1 := hm w hw
  have h2 := sm w hw
  rcases hr : m w with ⟨_ | y, w1⟩ <;> rw [hr] at h1 h2
  · rw [seq_none hr] at hx ⊢; exact hk w1 h2 x hx hh hs
  · rw [seq_some hr] at hx ⊢; cases hx; exact h1 _ rfl hh hs

theorem rec_fin {m k : M} (hm : Rec F m) (sm : St' F m) (hk : Rec F k) (gk : Grows env k) : Rec F (fin m k) := by
  intro w hw x hx hh hs
  have h1 := hm w hw
  have h2 : Good F (m w).2.cl := sm w hw
  have h3 := hk (m w).2 h2
  have h4 := gk (m w).2
  change ((k (m w).2).1.or (m w).1) = some x at hx
  show AnyBad (k (m w).2).2.cl
  cases hy : (k (m w).2).1 with
  | some y => rw [hy] at hx; cases hx; exact h3 _ hy hh hs
  | none => rw [hy] at hx; exact AnyBad.mono h4.reach.grow (h1 x hx hh hs)

theorem handle_bad {b : Bool} {m : M} (hm : Rec F m) {w : W} (hw : Good F w.cl) {x : X} (hx : (handle b m w).1 = some x) (hs : x.kind ≠ .skip) :
    AnyBad (handle b m w).2.cl := by
  have h1 := hm w hw
  unfold handle at hx ⊢
  rcases hr : m w with ⟨_ | y, w1⟩ <;> rw [hr] at h1 hx
  · cases hx
  · simp only at hx ⊢
    have hy : y.kind = x.kind := by
      split at hx
      · cases hx
      · cases hx; rfl
    have : AnyBad (if y.handled = true then w1 else record y.kind w1).cl := by
      split
      · rename_i hh; exact h1 y rfl hh (by rw [hy]; exact hs)
      · exact ⟨_, bad_record _ _ _ (by rw [hy]; exact hs)⟩
    split <;> exact this

theorem rec_handle {b : Bool} {m : M} (hm : Rec F m) : Rec F (handle b m) := fun _ hw _ hx _ hs => handle_bad hm hw hx hs

theorem user_fresh (c : Code) (w : W) (x : X) (h : (user c w).1 = some x) : x.handled = false := (user_returns c w).2 x h

theorem rec_user (c : Code) : Rec F (user c) := rec_none (user_fresh c)
theorem rec_hook (e : Ev) (c : Code) : Rec F (hook e c) := rec_none (fun w x h => user_fresh c _ x h)

theorem guardedCall_bad {c : Reg} {a : St} (h : Good F a) (hc : OkR F c.result) {k : Kind} (hk : (Cleanup.guardedCall c a).1 = some (.user k)) (hs : k ≠ .skip) :
    AnyBad (Cleanup.guardedCall c a).2 := by
  have h1 := good_runActs c.cb.acts h
  unfold Cleanup.guardedCall Cleanup.callCleanup at hk ⊢
  cases hra : Cleanup.runActs c.cb.acts a with
  | mk o1 a1 =>
    rw [hra] at h1 hk
    simp only at h1 hk ⊢
    cases hend : Cleanup.endOf o1 c.cb with
    | none => rw [hend] at hk; cases hk
    | some e =>
      rw [hend] at hk
      simp only [Option.map_some] at hk ⊢
      by_cases hex : e.kind.isException = true
      · obtain ⟨x, hx⟩ : ∃ x, c.result = some x := by rcases hc with hc | ⟨t, -, hc⟩ <;> exact ⟨_, hc⟩
        simp only [hex, if_true, hx, Bool.true_or] at hk ⊢
        split at hk
        · rename_i hesc
          rw [if_pos hesc]
          cases hk
          exact ⟨x, bad_record _ _ _ hs⟩
        · cases hk
      · have hcn : (a1.emit (.ended c.reg (some e.kind))).curResult.isNone = false := by
          rcases h1.cur with hq | ⟨t, -, hq⟩ <;> simp [St.emit, hq]
        simp only [hex, Bool.false_eq_true, if_false, Bool.false_or, hcn] at hk ⊢
        split at hk
        · rename_i hesc
          rw [if_pos hesc]
          cases hk
          exact ⟨_, bad_record _ _ _ hs⟩
        · cases hk

theorem callLoop_bad {u : Nat} {f i : Bool} {a : St} (h : Good F a) {k : Kind} (hk : (Cleanup.callLoop u f i a).1 = some (.user k)) (hs : k ≠ .skip) :
    AnyBad (Cleanup.callLoop u f i a).2 := by
  revert h hk
  apply Cleanup.callLoop_ind (P := fun a o a' => Good F a → o = some (.user k) → AnyBad a')
  · intro a _ h hk; cases hk
  · intro a c rest o a' hc hp ih h; exact ih (good_taken h hc _ (by simp))
  · intro a c rest e a' hc hp hg h hk
    have h1 := guardedCall_bad (c := c) (k := k) (good_taken h hc (.ran c.reg u) (by simp)) (h.regs u c (by rw [hc]; simp))
    rw [hg] at h1; exact h1 hk hs
  · intro a c rest a1 o a' hc hp hg ih h
    have h1 := good_guardedCall c (good_taken h hc (.ran c.reg u) (by simp)) (h.regs u c (by rw [hc]; simp))
    rw [hg] at h1; exact ih h1

theorem popScope_bad {a : St} (h : Good F a) (n : String) (hk : Option Kind) (ts : List Nat) {k : Kind}
    (he : (Cleanup.popScope n hk ts a).1 = some (.user k)) (hs : k ≠ .skip) : AnyBad (Cleanup.popScope n hk ts a).2 := by
  rcases Cleanup.popScope_cases n hk ts a with ⟨_, heq⟩ | ⟨_, _, _, _, heq⟩ | ⟨u, tl, _, _, heq⟩ <;> rw [heq] at he ⊢
  · cases he
  · cases he
  · have h1 : Good F (a.emit (.closing u (Cleanup.popFlags a ts).1 (Cleanup.popFlags a ts).2)) :=
      h.same rfl rfl rfl rfl [.closing u (Cleanup.popFlags a ts).1 (Cleanup.popFlags a ts).2] rfl (by simp)
    have h2 : (Cleanup.callCleanups u (Cleanup.popFlags a ts).1 (Cleanup.popFlags a ts).2 hk
        (a.emit (.closing u (Cleanup.popFlags a ts).1 (Cleanup.popFlags a ts).2))).1 = some (.user k) →
        AnyBad (Cleanup.callCleanups u (Cleanup.popFlags a ts).1 (Cleanup.popFlags a ts).2 hk
        (a.emit (.closing u (Cleanup.popFlags a ts).1 (Cleanup.popFlags a ts).2))).2 := by
      unfold Cleanup.callCleanups
      split
      · intro hk'
        cases hk'
        rw [if_neg]
        · exact ⟨_, bad_record _ _ _ hs⟩
        · rcases h1.cur with hq | ⟨t, -, hq⟩ <;> simp [hq]
      · exact fun hk' => callLoop_bad h1 hk' hs
    exact h2 he

theorem rec_clPop (n : String) (hk : Option Kind) : Rec F (clPop n hk) := by
  intro w hw x hx hh hs
  rw [(clPop_fields n hk w).2] at hx
  rw [(clPop_fields n hk w).1]
  rw [Option.map_eq_some_iff] at hx
  obtain ⟨e, he, rfl⟩ := hx
  cases e with
  | user k => exact popScope_bad hw n hk _ he hs
  | _ => cases hh

theorem rec_fxLoop (fs : List Nat) : Rec F (fxLoop fs) := by
  intro w _ x hx _ hs
  induction fs generalizing w with
  | nil => cases hx
  | cons f fs ih =>
    unfold fxLoop at hx ⊢
    generalize Fix.deactivate f w.fx = d at hx ⊢
    obtain ⟨_ | k, fx⟩ := d
    · exact ih _ ‹_› hx
    · simp only at hx ⊢
      split at hx
      · rename_i hesc; rw [if_pos hesc]; cases hx; exact ⟨_, bad_record _ _ _ hs⟩
      · rename_i hesc; rw [if_neg hesc]; exact ih _ (good_record ‹_› _ _) hx

theorem rec_fxLoops (s : Nat) (ks : List Nat) : Rec F (fxLoops env s ks) := by
  intro w hw x hx hh hs
  induction ks generalizing w with
  | nil => cases hx
  | cons k ks ih =>
    unfold fxLoops at hx ⊢
    split at hx <;> rename_i hle
    · rw [if_pos hle]
      have h1 := rec_fxLoop (F := F) ((w.fx.active.filter (fun a => (env.defs a.id).scope == k)).map (·.id)).reverse w hw
      have h2 := sg_fxLoop (F := F) ((w.fx.active.filter (fun a => (env.defs a.id).scope == k)).map (·.id)).reverse w hw
      generalize fxLoop ((w.fx.active.filter (fun a => (env.defs a.id).scope == k)).map (·.id)).reverse w = r at h1 h2 hx
      obtain ⟨_ | y, w1⟩ := r
      · exact ih _ h2 hx
      · cases hx; exact h1 _ rfl hh hs
    · rw [if_neg hle]; exact ih _ hw hx

theorem rec_fxPop (s : Sc) : Rec F (fxPop env s) := by
  intro w hw x hx hh hs
  unfold fxPop at hx ⊢
  simp only at hx ⊢
  split at hx <;> rename_i hi
  · cases hx
  · rw [if_neg hi]; exact rec_fxLoops _ _ _ hw x hx hh hs

theorem rec_callBoth {a b : M} (ha : Rec F a) (sa : St' F a) (hb : Rec F b) (gb : Grows env b) : Rec F (callBoth a b) := by
  intro w hw x hx hh hs
  have h1 := ha w hw
  have h2 := sa w hw
  unfold callBoth at hx ⊢
  rcases hr : a w with ⟨_ | y, w1⟩ <;> rw [hr] at h1 h2 hx
  · exact hb w1 h2 x hx hh hs
  · simp only at hx ⊢
    have h3 := hb w1 h2
    have h4 := gb w1
    split at hx <;> rename_i hex
    · rw [if_pos hex]
      simp only at hx ⊢
      cases hy : (b w1).1 with
      | some z => rw [hy] at hx; cases hx; exact h3 _ hy hh hs
      | none => rw [hy] at hx; cases hx; exact AnyBad.mono h4.reach.grow (h1 _ rfl hh hs)
    · rw [if_neg hex]; cases hx; exact h1 _ rfl hh hs

theorem rec_pop (s : Sc) (hk : Option Kind) : Rec F (pop env s hk) := by
  intro w hw x hx hh hs
  unfold pop at hx ⊢
  cases hsc : w.scopes with
  | nil => rw [hsc] at hx; cases hx; cases hh
  | cons p rest =>
    rw [hsc] at hx
    simp only at hx ⊢
    split at hx <;> rename_i hp
    · cases hx; cases hh
    · rw [if_neg hp]
      have h := rec_callBoth (rec_clPop (F := F) (scName s) hk) (sg_clPop _ _) (rec_fxPop (env := env) s) (grows_fxPop env s) (emit (.closing s) { w with scopes := rest }) hw
      split at hx <;> rename_i heq <;> rw [heq] at h
      · cases hx; exact h _ rfl hh hs
      · cases hx

theorem rec_changeModule (t : T) : Rec F (changeModule env t) := by
  intro w hw x hx hh hs
  unfold changeModule at hx ⊢
  split at hx <;> rename_i hm
  · rw [if_pos hm]
    have h : ∀ y, (if w.lastModule ≠ none then pop env .module none w else (none, w)).1 = some y → y.handled = true → y.kind ≠ .skip →
        AnyBad (if w.lastModule ≠ none then pop env .module none w else (none, w)).2.cl := by
      split
      · exact rec_pop .module none w hw
      · intro y hy; cases hy
    generalize (if w.lastModule ≠ none then pop env .module none w else (none, w)) = r at h hx
    obtain ⟨_ | y, w1⟩ := r
    · simp only at hx
      split at hx
      · cases hx; cases hh
      · cases hx
    · cases hx; exact h _ rfl hh hs
  · cases hx

theorem rec_beginTest (t : T) : Rec F (beginTest env t) := by
  intro w hw x hx hh hs
  have h0 : Good F (if w.lastModule = none then push .session w else w).cl := by
    split
    · exact sg_push _ hw
    · exact hw
  have h := rec_changeModule (F := F) (env := env) t _ h0
  unfold beginTest at hx ⊢
  split at hx <;> rename_i heq <;> rw [heq] at h
  · cases hx; exact h _ rfl hh hs
  · cases hx

theorem rec_endTest (t : T) : Rec F (endTest env t) := by
  intro w hw x hx hh hs
  unfold endTest at hx ⊢
  split at hx <;> rename_i hl
  · cases hx; cases hh
  · rw [if_neg hl]; exact rec_pop .test _ w hw x hx hh hs

theorem rec_ctrlStart (t : T) : Rec F (ctrlStart t) := by
  refine rec_none (fun w x h => ?_)
  unfold ctrlStart at h
  split at h
  · cases h
  · exact user_fresh t.startHook _ x h

theorem rec_testRun (t : T) : Rec F (testRun env t) := by
  refine rec_seq ?_ (sg_setUp env t) (rec_hook _ _)
  refine rec_none (fun w x h => ?_)
  unfold setUp at h
  split at h
  · cases h
  · cases h; rfl

theorem rec_beginRunEnd (t : T) : Rec F (beginRunEnd env t) :=
  rec_seq (rec_beginTest t) (sg_beginTest env t) (rec_fin (env := env) (rec_seq (rec_ctrlStart t) (sg_ctrlStart t) (rec_handle (rec_testRun t)))
    (stays_seq (sg_ctrlStart t) (sg_handle (sg_testRun env t))) (rec_endTest t) (grows_endTest env t))

/-- What there is to see of a test that was begun. -/
def Seen (t : Nat) (w : W) : Prop := AnyBad w.cl ∨ (w.cl.results (.test t)).skips ≠ [] ∨ ∃ s ∈ w.trace, (s.cl.results (.test t)).started = true ∧ ∃ h, s.ev = .summary t h

theorem Seen.mono {t : Nat} {w w' : W} (g : Grow env w w') (h : Seen t w) : Seen t w' := by
  rcases h with h | h | ⟨s, hs, h⟩
  · exact .inl (AnyBad.mono g.reach.grow h)
  · refine .inr (.inl ?_)
    have := g.reach.grow.skips (.test t)
    intro h0
    rw [h0] at this
    exact h (List.length_eq_zero_iff.1 (Nat.le_zero.1 this))
  · obtain ⟨d, hd, -⟩ := g.trace
    exact .inr (.inr ⟨s, by rw [hd]; exact List.mem_append_left _ hs, h⟩)

theorem fireSummary_seen (t : T) (w : W) (hst : (w.cl.results (.test t.id)).started = true) : Seen t.id (fireSummary t w).2 := by
  have : ∃ s ∈ (hook (.summary t.id (summaryHook (w.cl.results (.test t.id)))) t.summary w).2.trace, (s.cl.results (.test t.id)).started = true ∧ ∃ h, s.ev = .summary t.id h := by
    refine ⟨⟨.summary t.id (summaryHook (w.cl.results (.test t.id))), w.cl, w.fx⟩, ?_, hst, _, rfl⟩
    show _ ∈ (user t.summary (emit _ w)).2.trace
    rw [(side_user _ _).trace]
    simp [emit]
  refine .inr (.inr ?_)
  unfold fireSummary handle
  split <;> rename_i heq
  · simp only at heq; rw [heq] at this; exact this
  · simp only at heq
    rw [heq] at this
    simp only at this ⊢
    rename_i x w1
    have h2 : (if x.handled = true then w1 else record x.kind w1).trace = w1.trace := by split <;> rfl
    split <;> (simp only; rw [h2]; exact this)

theorem block_seen (t : T) (l : Bool) (prev : Option RKey) {w : W} (hw : Good F w.cl) (hst : (w.cl.results (.test t.id)).started = true) : Seen t.id (block env t l prev w).2 := by
  have key : Seen t.id (seq (exceptSkip (handle true (beginRunEnd env t))) (seq (fireSummary t)
      (if l then seq (ctrlEnd t prev) (handle true (initiateCleanup env)) else act id)) w).2 := by
    have hb := fun x => handle_bad (b := true) (x := x) (rec_beginRunEnd (F := F) (env := env) t) hw
    rcases hr : exceptSkip (handle true (beginRunEnd env t)) w with ⟨_ | x, w1⟩
    · rw [seq_none hr]
      have hgr := (grows_exceptSkip (grows_handle (b := true) (grows_beginRunEnd env t)) w).reach.grow.started _ hst
      rw [hr] at hgr
      have hs := fireSummary_seen t w1 hgr
      rcases hf : fireSummary t w1 with ⟨_ | y, w2⟩ <;> rw [hf] at hs
      · rw [seq_none hf]
        refine Seen.mono (env := env) ?_ hs
        split
        · exact grows_seq (grows_ctrlEnd env t prev) (grows_handle (grows_initiateCleanup env)) w2
        · exact Grow.refl env w2
      · rw [seq_some hf]; exact hs
    · rw [seq_some hr]
      left
      unfold exceptSkip at hr
      split at hr <;> rename_i heq
      · rename_i y w2
        rw [heq] at hb
        split at hr
        · cases hr
        · rename_i hk; cases hr; exact hb _ rfl hk
      · rw [hr] at hb
        by_cases hk : x.kind = .skip
        · exact absurd hr (heq _ _)
        · exact hb _ rfl hk
  unfold block
  generalize seq (exceptSkip (handle true (beginRunEnd env t))) (seq (fireSummary t)
      (if l then seq (ctrlEnd t prev) (handle true (initiateCleanup env)) else act id)) = m at key ⊢
  unfold exceptSkip
  split
  · rename_i heq; rw [heq] at key; split <;> exact key
  · exact key

theorem addSkips_seen (n : Nat) {w : W} {t : Nat} (hc : w.cl.curResult = some (.test t)) (hn : n ≠ 0) : Seen t (addSkips n w) := by
  cases n with
  | zero => exact absurd rfl hn
  | succ n =>
    have h1 : Seen t (addSkip w) := by
      unfold addSkip
      rw [hc]
      right; left
      simp [St.record, St.updResult, Result.addKind, Result.addSkip]
    exact Seen.mono (grow_addSkips {} n (addSkip w)) h1

theorem runSingle_seen (t : T) (l : Bool) {w : W} (hw : Good w.tests w.cl) (h : t.id ∉ w.tests) : Seen t.id (runSingle env t l w).2 := by
  rw [runSingle_new env t l h]
  show Seen t.id (handle true (inner env t l w.cl.curResult) (entered t w)).2
  have hcu : (user t.reqs (entered t w)).2.cl.curResult = some (.test t.id) ∧ (user t.reqs (entered t w)).2.cl.curTest = some t.id := by
    have := (side_user t.reqs (entered t w)).frame
    exact ⟨this.curResult, this.curTest⟩
  have hge : Good (t.id :: w.tests) (entered t w).cl := by
    have hm : ∀ {o}, OkR w.tests o → OkR (t.id :: w.tests) o := fun h => h.imp_right (fun ⟨u, hu, e⟩ => ⟨u, List.mem_cons_of_mem _ hu, e⟩)
    refine ⟨.inr ⟨t.id, by simp, rfl⟩, (fun u hu => by cases hu; simp), fun c hc => hm (hw.pend c hc), fun u c hc => hm (hw.regs u c hc), fun r k hr => ?_⟩
    obtain ⟨x, hx, hl⟩ := hw.ended r k hr
    exact ⟨x, hm hx, hl⟩
  have hgu := sg_user (F := t.id :: w.tests) t.reqs _ hge
  have hu := (user_returns t.reqs (entered t w)).2
  have hie : inner env t l w.cl.curResult (entered t w) = seq (user t.reqs) (if t.avoid = 0 then
      seq (act (mark t false)) (fin (block env t l w.cl.curResult) (ctrlEnd t w.cl.curResult))
      else seq (act (addSkips t.avoid)) (hook (.avoided t.id) t.avoidedHook)) (entered t w) := rfl
  have hgr : Seen t.id (inner env t l w.cl.curResult (entered t w)).2 → Seen t.id (handle true (inner env t l w.cl.curResult) (entered t w)).2 := by
    intro hs
    unfold handle
    split <;> rename_i heq <;> rw [heq] at hs
    · exact hs
    · rename_i x w1
      have h2 : Seen t.id (if x.handled = true then w1 else record x.kind w1) := by
        split
        · exact hs
        · exact Seen.mono (grow_record env _ _) hs
      simp only
      split <;> exact h2
  rcases heq : user t.reqs (entered t w) with ⟨_ | x, w1⟩ <;> rw [heq] at hcu hu hgu
  rotate_left
  · rw [seq_some heq] at hie
    unfold handle
    rw [hie]
    have hxf := hu x rfl
    simp only [hxf, Bool.false_eq_true, if_false]
    have : Seen t.id (record x.kind w1) := by
      unfold record
      rw [show w1.cl.currentForUpdate = .test t.id by unfold St.currentForUpdate; rw [show w1.cl.curTest = some t.id from hcu.2]]
      by_cases hk : x.kind = .skip
      · right; left
        rw [hk]
        simp [St.record, St.updResult, Result.addKind, Result.addSkip]
      · exact .inl ⟨_, bad_record _ _ _ hk⟩
    split <;> exact this
  · rw [seq_none heq] at hie
    apply hgr
    rw [hie]
    by_cases ha : t.avoid = 0
    · rw [if_pos ha]
      exact Seen.mono (grows_ctrlEnd env t w.cl.curResult _) (block_seen (F := t.id :: w.tests) t l w.cl.curResult (sg_mark t false hgu) (by simp [mark, markStarted, St.updResult, Result.markStarted]))
    · rw [if_neg ha]
      exact Seen.mono (grows_hook env _ _ (addSkips t.avoid w1)) (addSkips_seen t.avoid hcu.1 ha)

theorem loop_seen (ts : List T) {w : W} (hw : Good w.tests w.cl) (h : ∀ t ∈ w.tests, Seen t w) :
    ∀ t ∈ (loop env ts w).2.2.tests, Seen t (loop env ts w).2.2 := by
  induction ts generalizing w with
  | nil => exact h
  | cons t ts ih =>
    have h1 : ∀ u ∈ (runSingle env t ts.isEmpty w).2.tests, Seen u (runSingle env t ts.isEmpty w).2 := by
      by_cases hd : t.id ∈ w.tests
      · unfold runSingle; rw [if_pos hd]; exact h
      · obtain ⟨k, -⟩ := runSingle_keeps env t ts.isEmpty hw
        rw [k, if_neg hd]
        intro u hu
        rcases List.mem_append.1 hu with hu | hu
        · exact Seen.mono (grows_runSingle env t ts.isEmpty w) (h u hu)
        · rw [List.mem_singleton.1 hu]; exact runSingle_seen t ts.isEmpty hw hd
    have h2 := (runSingle_keeps env t ts.isEmpty hw).2.2.1
    simp only [loop]
    split <;> rename_i heq <;> rw [heq] at h1 h2
    · exact h1
    · split
      · exact h1
      · exact ih h2 h1

theorem session_seen (env : Env) (ts : List T) (hn : (ts.map (·.id)).Nodup) (hr : (session env ts).1 = none) (hb : ¬ AnyBad (session env ts).2.cl) :
    ∀ t ∈ ts, Seen t.id (session env ts).2 := by
  obtain ⟨st, hsim, h1, h2⟩ := sim_start env
  have htests : (startHooks env initial).2.tests = [] := (inert_startHooks env initial).tests
  have hgs : ((startHooks env initial).2.cl.results .global).started = true := (grows_startHooks env initial).reach.grow.started _ rfl
  have hI := onInterrupt_trace env (seq (startHooks env) (runTests env ts)) initial
  have hnone : (seq (startHooks env) (runTests env ts) initial).1 = none := hI.2.2.1 (fin_none hr).1
  have hrun : Grow env (seq (startHooks env) (runTests env ts) initial).2 (session env ts).2 := by
    refine Grow.trans ?_ (grows_endSession env _)
    show Grow env _ (onInterrupt env (seq (startHooks env) (runTests env ts)) initial).2
    generalize seq (startHooks env) (runTests env ts) = m at hnone ⊢
    unfold onInterrupt
    split <;> rename_i heq
    · rw [heq] at hnone; cases hnone
    · exact Grow.refl env _
  rcases hs : startHooks env initial with ⟨_ | x, w0⟩ <;> rw [hs] at hsim htests hgs
  rotate_left
  · rw [seq_some hs] at hnone; cases hnone
  rw [seq_none hs] at hnone hrun
  obtain ⟨ps, L⟩ := loop_facts env ts hn hsim htests h1 h2
  have hbeg := loop_begun env ts hsim.good (by rw [show w0.tests = [] from htests]; simp)
  have hst := loop_stop env ts w0
  have hseen := loop_seen (env := env) ts hsim.good (by rw [show w0.tests = [] from htests]; simp)
  have hreach := (grow_loop env ts w0).reach
  rcases hl : loop env ts w0 with ⟨x, rest, w1⟩
  rw [hl] at L hbeg hst hreach hseen
  simp only at hbeg hst hreach hseen
  have hg : Grow env w1 (runTests env ts w0).2 := by
    unfold runTests
    rw [hl]
    simp only
    have h3 := grows_initiateCleanup env w1
    rcases hic : initiateCleanup env w1 with ⟨y, w2⟩
    rw [hic] at h3
    simp only
    split
    · exact h3
    · exact h3.trans (grows_markUnrun env rest w2)
  have hx : x = none := by
    unfold runTests at hnone
    rw [hl] at hnone
    simp only at hnone
    split at hnone
    · cases hnone
    · rename_i hor; exact (Option.or_eq_none_iff.1 hor).2
  have hall : rest = [] := by
    refine Classical.byContradiction (fun hne => hb ?_)
    have hf := (hst hx hne).2
    refine AnyBad.mono (hg.trans hrun).reach.grow ?_
    rcases success_false hf (hreach.grow.started _ hgs) hbeg with h | ⟨t, -, h⟩
    · exact ⟨_, h⟩
    · exact ⟨_, h⟩
  intro t ht
  refine Seen.mono (hg.trans hrun) (hseen t.id ?_)
  have h5 := L.split
  have h6 := L.tests
  simp only [hall, List.map_nil, List.append_nil] at h5 h6
  rw [h6, ← h5]
  exact List.mem_map_of_mem ht

end Slash.Whole
