import Verif.Lemmas.WholeRun
import Verif.Props.Cleanup
/-! Whole sessions: when cleanups may be registered without naming a scope. -/
namespace Slash.Whole

open Slash.Scope (Sc)
open Slash.Cleanup (Op RKey)

def Imp (w : W) : Prop := w.cl.allowImplicit = true ∧ ∀ s ∈ w.trace, (s.cl.allowImplicit = true ↔ ∀ t, s.ev ≠ .fin t)

theorem Imp.move {w w' : W} (h : Imp w) (h1 : w'.cl.allowImplicit = w.cl.allowImplicit) (h2 : w'.trace = w.trace) : Imp w' :=
  ⟨h1.trans h.1, h2 ▸ h.2⟩

theorem Imp.emit {w : W} (h : Imp w) {e : Ev} (he : ∀ t, e ≠ .fin t) : Imp (emit e w) := by
  refine ⟨h.1, fun s hs => ?_⟩
  simp only [Whole.emit, List.mem_append, List.mem_singleton] at hs
  rcases hs with hs | rfl
  · exact h.2 s hs
  · exact ⟨fun _ => he, fun _ => h.1⟩

theorem imp_handle {P : W → Prop} {b : Bool} {m : M} (hm : Stays P m) (hr : ∀ k w, P w → P (record k w)) : Stays P (handle b m) := by
  intro w hw
  have h := hm w hw
  rcases handle_or b m w with h1 | ⟨x, _, h1⟩ <;> rw [h1]
  · exact h
  · exact hr _ _ h

theorem imp_record (k : Kind) (w : W) (h : Imp w) : Imp (record k w) := h.move (Cleanup.record_settings ..).2 rfl

theorem imp_user (c : Code) : Stays Imp (user c) := by
  intro w h
  have h1 := (Cleanup.runActs_settings c.acts w.cl).2
  unfold user
  split <;> rename_i heq <;> rw [heq] at h1 <;> exact h.move h1 rfl

theorem imp_hook {e : Ev} (c : Code) (he : ∀ t, e ≠ .fin t) : Stays Imp (hook e c) :=
  stays_seq (m := act (emit e)) (fun _ h => h.emit he) (imp_user c)

theorem imp_fxLoop (fs : List Nat) : Stays Imp (fxLoop fs) := by
  induction fs with
  | nil => exact fun w h => h
  | cons f fs ih =>
    intro w h
    simp only [fxLoop]
    split
    · exact ih { w with fx := _ } h
    · split
      · exact imp_record _ _ h
      · exact ih _ (imp_record _ _ h)

theorem imp_fxLoops (env : Env) (s : Nat) (ks : List Nat) : Stays Imp (fxLoops env s ks) := by
  induction ks with
  | nil => exact fun w h => h
  | cons k ks ih =>
    intro w h
    simp only [fxLoops]
    split
    · have h1 := imp_fxLoop ((w.fx.active.filter (fun a => (env.defs a.id).scope == k)).map (·.id)).reverse w h
      split <;> rename_i heq <;> rw [heq] at h1
      · exact h1
      · exact ih _ h1
    · exact ih w h

theorem imp_fxPop (env : Env) (s : Sc) : Stays Imp (fxPop env s) := by
  intro w h
  have h1 : Imp (emit (.fixturesDown s) w) := h.emit (by simp)
  unfold fxPop
  simp only
  split
  · exact h1
  · exact imp_fxLoops env (scNum s) _ _ h1

theorem imp_clPop (n : String) (hk : Option Kind) : Stays Imp (clPop n hk) := by
  intro w h
  rw [(clPop_fields n hk w).1]
  exact h.move (w' := { w with cl := _ }) (Cleanup.popScope_settings ..).2 rfl

theorem imp_pop (env : Env) (s : Sc) (hk : Option Kind) : Stays Imp (pop env s hk) := by
  intro w h
  unfold pop
  split
  · exact h
  · rename_i p rest _
    split
    · exact h
    · have h1 : Imp (callBoth (clPop (scName s) hk) (fxPop env s) (emit (.closing s) { w with scopes := rest })).2 := by
        have h0 : Imp (emit (.closing s) { w with scopes := rest }) := Imp.emit (w := { w with scopes := rest }) h (by simp)
        have h2 := imp_clPop (scName s) hk _ h0
        unfold callBoth
        split <;> rename_i heq <;> rw [heq] at h2
        · exact imp_fxPop env s _ h2
        · split
          · exact imp_fxPop env s _ h2
          · exact h2
      split <;> rename_i heq <;> rw [heq] at h1
      · exact h1.emit (by simp)
      · exact h1

theorem imp_changeModule (env : Env) (t : T) : Stays Imp (changeModule env t) := by
  intro w h
  unfold changeModule
  split
  · have h1 : Imp (if w.lastModule ≠ none then pop env .module none w else (none, w)).2 := by
      split
      · exact imp_pop env _ _ w h
      · exact h
    split <;> rename_i heq <;> rw [heq] at h1
    · exact h1
    · split <;> exact h1
  · exact h

theorem imp_beginTest (env : Env) (t : T) : Stays Imp (beginTest env t) := by
  intro w h
  unfold beginTest
  have h0 : Imp (if w.lastModule = none then push .session w else w) := by split <;> exact h
  have h1 := imp_changeModule env t _ h0
  split <;> rename_i heq <;> rw [heq] at h1
  · exact h1.emit (by simp)
  · exact h1

theorem imp_endTest (env : Env) (t : T) : Stays Imp (endTest env t) := by
  intro w h
  unfold endTest
  split
  · exact h
  · exact imp_pop env _ _ w h

theorem imp_flushLoop (env : Env) (ss : List Sc) (p : Option X) : Stays Imp (flushLoop env ss p) := by
  induction ss generalizing p with
  | nil => exact fun w h => h
  | cons s ss ih =>
    intro w h
    have h1 := imp_pop env s none w h
    simp only [flushLoop]
    split <;> rename_i heq <;> rw [heq] at h1
    · exact ih _ _ h1
    · split
      · exact ih _ _ h1
      · exact h1

theorem imp_initiateCleanup (env : Env) : Stays Imp (initiateCleanup env) := by
  intro w h
  unfold initiateCleanup
  split
  · exact h
  · exact stays_fin (imp_handle (imp_hook _ (by simp)) imp_record) (imp_handle (fun w h => imp_flushLoop env w.scopes none w h) imp_record)
      { w with cleanups := w.cleanups + 1 } h

theorem imp_ctrlEnd (t : T) (prev : Option RKey) : Stays Imp (ctrlEnd t prev) := by
  intro w h
  unfold ctrlEnd
  split
  · exact h
  · have h1 : Imp (permit w.cl.allowImplicit (hook (.fin t.id) t.endHook (forbid w)).2) := by
      have e : (hook (.fin t.id) t.endHook (forbid w)).2.trace = w.trace ++ [⟨.fin t.id, { w.cl with allowImplicit := false }, w.fx⟩] :=
        (side_user t.endHook (emit (.fin t.id) (forbid w))).trace
      refine ⟨h.1, fun s hs => ?_⟩
      simp only [permit, e, List.mem_append, List.mem_singleton] at hs
      rcases hs with hs | rfl
      · exact h.2 s hs
      · exact ⟨fun h => (by cases h), fun h => absurd rfl (h t.id)⟩
    exact h1

theorem imp_testRun (env : Env) (t : T) : Stays Imp (testRun env t) := by
  refine stays_seq (fun w h => ?_) (imp_hook _ (by simp))
  unfold setUp
  split <;> exact h

theorem imp_ctrlStart (t : T) : Stays Imp (ctrlStart t) := by
  intro w h
  unfold ctrlStart
  split
  · exact h
  · exact stays_seq (m := act (mark t true)) (fun _ h => h) (imp_hook _ (by simp)) w h

theorem imp_beginRunEnd (env : Env) (t : T) : Stays Imp (beginRunEnd env t) :=
  stays_seq (imp_beginTest env t) (stays_fin (stays_seq (imp_ctrlStart t) (imp_handle (imp_testRun env t) imp_record)) (imp_endTest env t))

theorem imp_exceptSkip {m : M} (hm : Stays Imp m) : Stays Imp (exceptSkip m) := fun w hw => exceptSkip_snd m w ▸ hm w hw

theorem imp_block (env : Env) (t : T) (l : Bool) (prev : Option RKey) : Stays Imp (block env t l prev) := by
  refine imp_exceptSkip (stays_seq (imp_exceptSkip (imp_handle (imp_beginRunEnd env t) imp_record)) (stays_seq ?_ ?_))
  · exact imp_handle (fun w h => imp_hook _ (by simp) w h) imp_record
  · split
    · exact stays_seq (imp_ctrlEnd t prev) (imp_handle (imp_initiateCleanup env) imp_record)
    · exact fun w h => h

theorem imp_addSkips (n : Nat) (w : W) (h : Imp w) : Imp (addSkips n w) := by
  induction n generalizing w with
  | zero => exact h
  | succ n ih =>
    refine ih _ ?_
    unfold addSkip
    split
    · exact h.move (w' := { w with cl := _ }) (Cleanup.record_settings ..).2 rfl
    · exact h

theorem imp_runSingle (env : Env) (t : T) (l : Bool) : Stays Imp (runSingle env t l) := by
  intro w h
  unfold runSingle
  split
  · exact h
  · refine stays_fin (imp_handle ?_ imp_record) (k := act (setContext w.cl.curResult w.cl.curTest)) (fun _ h => h) _ h
    refine stays_seq (imp_user _) ?_
    split
    · exact stays_seq (m := act (mark t false)) (fun _ h => h) (stays_fin (imp_block env t l _) (imp_ctrlEnd t _))
    · exact stays_seq (m := act (addSkips t.avoid)) (imp_addSkips _) (imp_hook _ (by simp))

theorem imp_loop (env : Env) (l : List T) {w : W} (h : Imp w) : Imp (loop env l w).2.2 := by
  induction l generalizing w with
  | nil => exact h
  | cons t l ih =>
    have h1 := imp_runSingle env t l.isEmpty w h
    simp only [loop]
    split <;> rename_i heq <;> rw [heq] at h1
    · exact h1
    · split
      · exact h1
      · exact ih h1

theorem imp_markUnrun (l : List T) : Stays Imp (markUnrun l) := by
  induction l with
  | nil => exact fun w h => h
  | cons t l ih =>
    intro w h
    simp only [markUnrun]
    split
    · exact h
    · exact ih (addTest t w) h

theorem imp_runTests (env : Env) (ts : List T) : Stays Imp (runTests env ts) := by
  intro w h
  have h1 := imp_loop env ts h
  unfold runTests
  generalize loop env ts w = r at h1
  rcases r with ⟨x, rest, w1⟩
  simp only at h1 ⊢
  have h2 := imp_initiateCleanup env w1 h1
  generalize initiateCleanup env w1 = r at h2
  rcases r with ⟨y, w2⟩
  simp only at h2 ⊢
  cases y.or x with
  | some x => exact h2
  | none => exact imp_markUnrun rest w2 h2

theorem imp_session (env : Env) (ts : List T) : Imp (session env ts).2 := by
  have h0 : Imp initial := ⟨rfl, fun s hs => by simp [initial] at hs⟩
  have hs : Stays Imp (startHooks env) :=
    imp_handle (stays_seq (imp_user _) (stays_seq (imp_hook _ (by simp)) (stays_seq (m := act _) (fun _ h => h) (imp_user _)))) imp_record
  have hm := stays_seq hs (imp_runTests env ts)
  have hi : Stays Imp (onInterrupt env (seq (startHooks env) (runTests env ts))) := by
    intro w h
    have h1 := hm w h
    unfold onInterrupt
    split
    · rename_i x w1 heq
      rw [heq] at h1
      split
      · have h2 := imp_user env.interrupt w1 h1
        split <;> rename_i heq2 <;> rw [heq2] at h2 <;> exact h2
      · exact h1
    · exact h1
  have he : Stays Imp (endSession env) := by
    refine stays_seq (imp_handle (imp_clPop _ _) imp_record) (fun w h => ?_)
    split
    · exact stays_seq (imp_handle (imp_hook _ (by simp)) imp_record) (imp_handle (imp_user _) imp_record) w h
    · exact h
  exact stays_fin hi he initial h0

end Slash.Whole
