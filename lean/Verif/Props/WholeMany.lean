import Verif.Model.WholeMany
import Verif.Props.Whole
import Verif.Lemmas.WholeDone
/-!
# Several calls of `slash.run_tests` in one session: C187
-/
namespace Slash.Whole

open Slash.Scope (Sc)
open Slash.Cleanup (RKey)

/-! ## What pieces of the program leave alone -/

/-- The scope manager is the same but for its scopes, and what happened in between is as `G` says. -/
structure Mid (G : Ev → Prop) (w w' : W) : Prop where
  lastModule : w'.lastModule = w.lastModule
  lastTest : w'.lastTest = w.lastTest
  trace : ∃ d, w'.trace = w.trace ++ d ∧ ∀ s ∈ d, G s.ev

section
variable {G : Ev → Prop}

theorem Mid.refl (w : W) : Mid G w w := ⟨rfl, rfl, [], by simp, by simp⟩
theorem Mid.trans {a b c : W} (h : Mid G a b) (h' : Mid G b c) : Mid G a c := by
  obtain ⟨d, hd, hg⟩ := h.trace
  obtain ⟨d', hd', hg'⟩ := h'.trace
  refine ⟨h'.lastModule.trans h.lastModule, h'.lastTest.trans h.lastTest, d ++ d', by rw [hd', hd, List.append_assoc], ?_⟩
  intro s hs
  rcases List.mem_append.1 hs with hs | hs
  · exact hg s hs
  · exact hg' s hs

theorem mid_side {w w' : W} (h : Side w w') : Mid G w w' := ⟨h.lastModule, h.lastTest, [], by simp [h.trace], by simp⟩
theorem mid_emit {e : Ev} (he : G e) (w : W) : Mid G w (emit e w) := ⟨rfl, rfl, [⟨e, w.cl, w.fx⟩], rfl, by simpa using he⟩

theorem mid_handle {b : Bool} {m : M} {w : W} (h : Mid G w (m w).2) : Mid G w (handle b m w).2 := by
  rcases handle_or b m w with h' | ⟨x, -, h'⟩ <;> rw [h']
  · exact h
  · exact h.trans (mid_side (side_record ..))

theorem mid_seq {m k : M} {w : W} (h : Mid G w (m w).2) (hk : ∀ w, Mid G w (k w).2) : Mid G w (seq m k w).2 := by
  unfold seq
  split <;> rename_i heq <;> rw [heq] at h
  · exact h
  · exact h.trans (hk _)

theorem mid_fin {m k : M} {w : W} (h : Mid G w (m w).2) (hk : ∀ w, Mid G w (k w).2) : Mid G w (fin m k w).2 := h.trans (hk _)

theorem mid_hook {e : Ev} (he : G e) (c : Code) (w : W) : Mid G w (hook e c w).2 := (mid_emit he w).trans (mid_side (side_user ..))

theorem mid_callBoth {a b : M} {w : W} (ha : Mid G w (a w).2) (hb : ∀ w, Mid G w (b w).2) : Mid G w (callBoth a b w).2 := by
  unfold callBoth
  split <;> rename_i heq <;> rw [heq] at ha
  · exact ha.trans (hb _)
  · split
    · exact ha.trans (hb _)
    · exact ha

theorem mid_pop (env : Env) {s : Sc} (h1 : G (.closing s)) (h2 : G (.fixturesDown s)) (h3 : ∀ k, G (.closeRaised s k)) (hk : Option Kind) (w : W) :
    Mid G w (pop env s hk w).2 := by
  unfold pop
  split
  · exact Mid.refl w
  · rename_i p rest hs
    split
    · exact ⟨rfl, rfl, [], by simp, by simp⟩
    · have h0 : Mid G w { w with scopes := rest } := ⟨rfl, rfl, [], by simp, by simp⟩
      have h := (h0.trans (mid_emit h1 _)).trans (mid_callBoth (w := emit (.closing s) { w with scopes := rest }) (a := clPop (scName s) hk) (b := fxPop env s)
        (by rw [(clPop_fields ..).1]; exact ⟨rfl, rfl, [], by simp, by simp⟩)
        (fun w => (mid_emit h2 w).trans (mid_side (fxPop_spec env s w).1)))
      split <;> rename_i heq <;> rw [heq] at h
      · exact h.trans (mid_emit (h3 _) _)
      · exact h

/-- The scopes after closing one that is open. -/
theorem pop_scopes (env : Env) {s : Sc} (hk : Option Kind) {w : W} {rest : List Sc} (hs : w.scopes = s :: rest) : (pop env s hk w).2.scopes = rest := by
  have h : (callBoth (clPop (scName s) hk) (fxPop env s) (emit (.closing s) { w with scopes := rest })).2.scopes = rest := by
    have hc : (clPop (scName s) hk (emit (.closing s) { w with scopes := rest })).2.scopes = rest := by rw [(clPop_fields ..).1]; rfl
    have hf : ∀ w', (fxPop env s w').2.scopes = w'.scopes := fun w' => (fxPop_spec env s w').1.scopes
    unfold callBoth
    split <;> rename_i heq <;> rw [heq] at hc
    · rw [hf]; exact hc
    · split
      · dsimp only; rw [hf]; exact hc
      · exact hc
  unfold pop
  rw [hs]
  dsimp only
  rw [if_neg (by simp)]
  split <;> rename_i heq <;> rw [heq] at h <;> exact h

end

/-! ## After a call that returned, all scopes are closed -/

theorem flushLoop_scopes (env : Env) (ss : List Sc) (p : Option X) (w : W) (hw : w.scopes = ss)
    (h : ∀ x, (flushLoop env ss p w).1 = some x → x.kind.isException = true) : (flushLoop env ss p w).2.scopes = [] := by
  induction ss generalizing p w with
  | nil => exact hw
  | cons s ss ih =>
    have hp := pop_scopes env none hw
    simp only [flushLoop] at h ⊢
    split <;> rename_i heq <;> rw [heq] at hp h
    · exact ih _ _ hp h
    · dsimp only at h ⊢
      split <;> rename_i hx
      · exact ih _ _ hp (by simpa [hx] using h)
      · simp [hx] at h

theorem initiateCleanup_scopes (env : Env) (w : W) (h : (initiateCleanup env w).1 = none) : (initiateCleanup env w).2.scopes = [] := by
  unfold initiateCleanup at h ⊢
  by_cases hs : w.scopes = []
  · rw [if_pos hs]; exact hs
  · rw [if_neg hs] at h ⊢
    unfold fin at h ⊢
    dsimp only at h ⊢
    generalize hook .sessionCleanup (env.beforeCleanup w.cleanups) = m0 at h ⊢
    generalize (handle true m0 { w with cleanups := w.cleanups + 1 }) = r at h ⊢
    rcases r with ⟨x, w1⟩
    dsimp only at h ⊢
    have hf : (handle true (flush env) w1).1 = none := by
      cases hy : (handle true (flush env) w1).1 with
      | none => rfl
      | some y => rw [hy] at h; cases h
    have hf' : (flush env w1).2.scopes = [] := by
      refine flushLoop_scopes env _ _ _ rfl ?_
      intro y hy
      unfold handle at hf
      change (flush env w1).1 = some y at hy
      rcases hr : flush env w1 with ⟨a, b⟩
      rw [hr] at hy hf
      dsimp only at hy
      subst hy
      dsimp only at hf
      split at hf
      · rename_i hc
        revert hc
        cases y.kind <;> simp [Kind.escapes, Kind.isException]
      · cases hf
    rcases handle_or true (flush env) w1 with h' | ⟨y, -, h'⟩ <;> rw [h']
    · exact hf'
    · exact hf'

theorem markUnrun_scopes (ts : List T) (w : W) : (markUnrun ts w).2.scopes = w.scopes ∧ (markUnrun ts w).2.lastModule = w.lastModule ∧ (markUnrun ts w).2.trace = w.trace := by
  induction ts generalizing w with
  | nil => exact ⟨rfl, rfl, rfl⟩
  | cons t ts ih =>
    simp only [markUnrun]
    split
    · exact ⟨rfl, rfl, rfl⟩
    · exact ih _

theorem runTests_scopes (env : Env) (ts : List T) (w : W) (h : (runTests env ts w).1 = none) : (runTests env ts w).2.scopes = [] := by
  revert h
  unfold runTests
  rcases loop env ts w with ⟨x, rest, w1⟩
  dsimp only
  have hi := initiateCleanup_scopes env w1
  revert hi
  rcases initiateCleanup env w1 with ⟨y, w2⟩
  dsimp only
  intro hi
  rcases y with _ | y
  · rcases x with _ | x
    · intro _
      dsimp only [Option.or]
      rw [(markUnrun_scopes rest w2).1]; exact hi rfl
    · intro h; cases h
  · intro h; cases h

/-! ## The module that is remembered -/

/-- The module of the test that was started last. -/
def lastMod (tr : List Snap) : Option Nat := tr.reverse.findSome? (fun s => match s.ev with | .start _ m => some m | _ => none)

theorem lastMod_append (tr d : List Snap) (h : ∀ s ∈ d, ∀ t m, s.ev ≠ .start t m) : lastMod (tr ++ d) = lastMod tr := by
  unfold lastMod
  rw [List.reverse_append, List.findSome?_append]
  have : d.reverse.findSome? (fun s => match s.ev with | .start _ m => some m | _ => none) = none := by
    rw [List.findSome?_eq_none_iff]
    intro s hs
    have := h s (List.mem_reverse.1 hs)
    split
    · rename_i t m he; exact absurd he (this t m)
    · rfl
  rw [this]; rfl

theorem lastMod_start (tr : List Snap) (s : Snap) {t m : Nat} (h : s.ev = .start t m) : lastMod (tr ++ [s]) = some m := by
  simp [lastMod, h]

/-- no test is started -/
def NoStart : Ev → Prop
  | .start _ _ => False
  | _ => True

theorem Mid.lastMod {w w' : W} (h : Mid NoStart w w') : lastMod w'.trace = lastMod w.trace := by
  obtain ⟨d, hd, hg⟩ := h.trace
  rw [hd]
  refine lastMod_append _ _ (fun s hs t m he => ?_)
  have := hg s hs
  rw [he] at this
  exact this

/-- The scope manager remembers the module of the test that was started last. -/
def Sync (w : W) : Prop := w.lastModule = lastMod w.trace

theorem Sync.mid {w w' : W} (h : Sync w) (k : Mid NoStart w w') : Sync w' := by
  unfold Sync; rw [k.lastModule, k.lastMod]; exact h

theorem nost_pop (env : Env) (s : Sc) (hk : Option Kind) (w : W) : Mid NoStart w (pop env s hk w).2 := mid_pop env trivial trivial (fun _ => trivial) hk w

theorem nost_flushLoop (env : Env) (ss : List Sc) (p : Option X) (w : W) : Mid NoStart w (flushLoop env ss p w).2 := by
  induction ss generalizing p w with
  | nil => exact Mid.refl w
  | cons s ss ih =>
    have h := nost_pop env s none w
    simp only [flushLoop]
    split <;> rename_i heq <;> rw [heq] at h
    · exact h.trans (ih _ _)
    · split
      · exact h.trans (ih _ _)
      · exact h

theorem nost_initiateCleanup (env : Env) (w : W) : Mid NoStart w (initiateCleanup env w).2 := by
  unfold initiateCleanup
  split
  · exact Mid.refl w
  · have h0 : Mid NoStart w { w with cleanups := w.cleanups + 1 } := ⟨rfl, rfl, [], by simp, by simp⟩
    exact h0.trans (mid_fin (mid_handle (mid_hook (e := .sessionCleanup) trivial _ _)) (fun w => mid_handle (nost_flushLoop env w.scopes none w)))

theorem pop_started (env : Env) (s : Sc) (hk : Option Kind) (w : W) : (pop env s hk w).2.started = w.started := by
  have hc : ∀ w', (clPop (scName s) hk w').2.started = w'.started := fun w' => by rw [(clPop_fields ..).1]
  have hf : ∀ w', (fxPop env s w').2.started = w'.started := fun w' => (fxPop_spec env s w').1.started
  unfold pop
  split
  · rfl
  · rename_i p rest hs
    split
    · rfl
    · have h : (callBoth (clPop (scName s) hk) (fxPop env s) (emit (.closing s) { w with scopes := rest })).2.started = w.started := by
        have hc := hc (emit (.closing s) { w with scopes := rest })
        unfold callBoth
        split <;> rename_i heq <;> rw [heq] at hc
        · rw [hf]; exact hc
        · split
          · dsimp only; rw [hf]; exact hc
          · exact hc
      split <;> rename_i heq <;> rw [heq] at h <;> exact h

theorem changeModule_mid (env : Env) (t : T) (w : W) : Mid NoStart w (changeModule env t w).2 ∧ (changeModule env t w).2.started = w.started := by
  unfold changeModule
  split
  · have h : Mid NoStart w (if w.lastModule ≠ none then pop env .module none w else (none, w)).2 ∧
        (if w.lastModule ≠ none then pop env .module none w else (none, w)).2.started = w.started := by
      split
      · exact ⟨nost_pop .., pop_started ..⟩
      · exact ⟨Mid.refl w, rfl⟩
    split <;> rename_i heq <;> rw [heq] at h
    · exact h
    · split
      · exact h
      · exact ⟨h.1.trans ⟨rfl, rfl, [], by simp [push], by simp⟩, h.2⟩
  · exact ⟨Mid.refl w, rfl⟩

theorem beginTest_raised (env : Env) (t : T) (w : W) (h : (beginTest env t w).1 ≠ none) : Mid NoStart w (beginTest env t w).2 := by
  revert h
  unfold beginTest
  have h0 : Mid NoStart w (if w.lastModule = none then push .session w else w) := by
    split
    · exact ⟨rfl, rfl, [], by simp [push], by simp⟩
    · exact Mid.refl w
  have h1 := changeModule_mid env t (if w.lastModule = none then push .session w else w)
  split <;> rename_i heq <;> rw [heq] at h1
  · intro _; exact (h0.trans h1.1).trans (mid_emit trivial _)
  · intro h; exact absurd rfl h

theorem beginTest_ok (env : Env) (t : T) (w : W) (h : (beginTest env t w).1 = none) : (beginTest env t w).2.lastModule = some t.module ∧
    (beginTest env t w).2.lastTest = some t.id ∧ (beginTest env t w).2.started = w.started := by
  revert h
  unfold beginTest
  have h1 := (changeModule_mid env t (if w.lastModule = none then push .session w else w)).2
  split <;> rename_i heq <;> rw [heq] at h1
  · intro h; cases h
  · intro _
    refine ⟨rfl, rfl, ?_⟩
    change _ = _ at h1
    simp only [push]
    rw [h1]
    split <;> rfl

theorem ctrlStart_sync (t : T) (w : W) (h : w.started = false) (hm : w.lastModule = some t.module) : Sync (ctrlStart t w).2 := by
  unfold ctrlStart
  rw [if_neg (by simp [h])]
  change Sync (user t.startHook (emit (.start t.id t.module) (mark t true w))).2
  have k := side_user t.startHook (emit (.start t.id t.module) (mark t true w))
  unfold Sync
  rw [k.lastModule, k.trace]
  change w.lastModule = lastMod (w.trace ++ [_])
  rw [lastMod_start _ _ rfl, hm]

theorem nost_testRun (env : Env) (t : T) (w : W) : Mid NoStart w (testRun env t w).2 :=
  mid_seq (mid_side (side_setUp ..)) (fun w => mid_hook (e := .body t.id) trivial _ w)

theorem nost_endTest (env : Env) (t : T) (w : W) : Mid NoStart w (endTest env t w).2 := by
  unfold endTest
  split
  · exact Mid.refl w
  · exact nost_pop ..

theorem beginRunEnd_sync (env : Env) (t : T) (w : W) (hw : Sync w) (hs : w.started = false) : Sync (beginRunEnd env t w).2 := by
  unfold beginRunEnd
  have hr := beginTest_raised env t w
  have ho := beginTest_ok env t w
  unfold seq
  split <;> rename_i heq <;> rw [heq] at hr ho
  · exact hw.mid (hr (by simp))
  · rename_i w1
    obtain ⟨h1, h2, h3⟩ := ho rfl
    have hc := ctrlStart_sync t w1 (h3.trans hs) h1
    change Sync (endTest env t (seq (ctrlStart t) (handle true (testRun env t)) w1).2).2
    refine Sync.mid ?_ (nost_endTest ..)
    unfold seq
    split <;> rename_i heq' <;> rw [heq'] at hc
    · exact hc
    · exact hc.mid (mid_handle (nost_testRun ..))

theorem sync_handle {b : Bool} {m : M} {w : W} (h : Sync (m w).2) : Sync (handle b m w).2 := by
  rcases handle_or b m w with h' | ⟨x, -, h'⟩ <;> rw [h']
  · exact h
  · exact h.mid (mid_side (side_record ..))

theorem nost_ctrlEnd (t : T) (prev : Option RKey) (w : W) : Mid NoStart w (ctrlEnd t prev w).2 := by
  unfold ctrlEnd
  split
  · exact Mid.refl w
  · refine mid_fin (mid_fin (mid_seq (m := act forbid) ?_ (fun w => mid_hook (e := .fin t.id) trivial _ w)) ?_) ?_
    · exact ⟨rfl, rfl, [], by simp [act, forbid], by simp⟩
    · exact fun w => ⟨rfl, rfl, [], by simp [act, permit], by simp⟩
    · exact fun w => ⟨rfl, rfl, [], by simp [act, setResult], by simp⟩

theorem nost_fireSummary (t : T) (w : W) : Mid NoStart w (fireSummary t w).2 := mid_handle (mid_hook (e := .summary _ _) trivial _ w)

theorem nost_end (env : Env) (t : T) (l : Bool) (prev : Option RKey) (w : W) :
    Mid NoStart w ((seq (fireSummary t) (if l then seq (ctrlEnd t prev) (handle true (initiateCleanup env)) else act id)) w).2 := by
  refine mid_seq (nost_fireSummary ..) (fun w => ?_)
  cases l
  · exact Mid.refl w
  · exact mid_seq (nost_ctrlEnd ..) (fun w => mid_handle (nost_initiateCleanup ..))

theorem block_sync (env : Env) (t : T) (l : Bool) (prev : Option RKey) (w : W) (hw : Sync w) (hs : w.started = false) : Sync (block env t l prev w).2 := by
  unfold block
  rw [exceptSkip_snd]
  have h : Sync (exceptSkip (handle true (beginRunEnd env t)) w).2 := by
    rw [exceptSkip_snd]; exact sync_handle (beginRunEnd_sync env t w hw hs)
  unfold seq
  split <;> rename_i heq <;> rw [heq] at h
  · exact h
  · exact h.mid (nost_end ..)

theorem nost_addSkips (n : Nat) (w : W) : Mid NoStart w (addSkips n w) := by
  have h := keep_addSkips n w
  refine ⟨h.lastModule, ?_, [], by simp [h.trace], by simp⟩
  clear h
  induction n generalizing w with
  | zero => rfl
  | succ n ih => exact (ih _).trans (by unfold addSkip; split <;> rfl)

theorem inner_sync (env : Env) (t : T) (l : Bool) (prev : Option RKey) (w : W) (hw : Sync w) : Sync (inner env t l prev w).2 := by
  unfold inner processReqs
  have h := hw.mid (mid_side (side_user t.reqs w))
  unfold seq
  split <;> rename_i heq <;> rw [heq] at h
  · exact h
  · rename_i w1
    split
    · change Sync (ctrlEnd t prev (block env t l prev (mark t false w1)).2).2
      refine Sync.mid ?_ (nost_ctrlEnd ..)
      exact block_sync env t l prev _ h rfl
    · change Sync (hook (.avoided t.id) t.avoidedHook (addSkips t.avoid w1)).2
      exact (h.mid (nost_addSkips ..)).mid (mid_hook (e := .avoided t.id) trivial _ _)

theorem runSingle_sync (env : Env) (t : T) (l : Bool) (w : W) (hw : Sync w) : Sync (runSingle env t l w).2 := by
  unfold runSingle
  split
  · exact hw
  · have h : Sync (setContext (some (.test t.id)) (some t.id) (addTest t w)) := hw
    exact sync_handle (inner_sync env t l w.cl.curResult _ h)

theorem loop_sync (env : Env) (ts : List T) (w : W) (hw : Sync w) : Sync (loop env ts w).2.2 := by
  induction ts generalizing w with
  | nil => exact hw
  | cons t ts ih =>
    have h := runSingle_sync env t ts.isEmpty w hw
    simp only [loop]
    split <;> rename_i heq <;> rw [heq] at h
    · exact h
    · split
      · exact h
      · exact ih _ h

theorem runTests_sync (env : Env) (ts : List T) (w : W) (hw : Sync w) : Sync (runTests env ts w).2 := by
  have h := (loop_sync env ts w hw).mid (nost_initiateCleanup env _)
  revert h
  unfold runTests
  rcases loop env ts w with ⟨x, rest, w1⟩
  dsimp only
  rcases initiateCleanup env w1 with ⟨y, w2⟩
  dsimp only
  intro h
  split
  · exact h
  · have := markUnrun_scopes rest w2
    unfold Sync
    rw [this.2.1, this.2.2]
    exact h

/-! ## A later call -/

/-- What may happen in a later call: only tests that satisfy `A` are started and run, and they are of the module `m`; only scopes of tests are closed. -/
def Later (m : Nat) (A : Nat → Prop) : Ev → Prop
  | .start t m' => m' = m ∧ A t
  | .body t => A t
  | .closing s | .fixturesDown s | .closeRaised s _ => s = .test
  | .sessionStart | .sessionCleanup | .sessionEnd => False
  | _ => True

/-- The state in a later call: the scopes, the module that is remembered, what has happened since `tr`. -/
structure Late (m : Nat) (A : Nat → Prop) (tr : List Snap) (sc : List Sc) (w : W) : Prop where
  scopes : w.scopes = sc
  lastModule : w.lastModule = some m
  trace : ∃ d, w.trace = tr ++ d ∧ ∀ s ∈ d, Later m A s.ev

section
variable {m : Nat} {A : Nat → Prop} {tr : List Snap}

theorem Late.move {sc sc' : List Sc} {w w' : W} (h : Late m A tr sc w) (k : Mid (Later m A) w w') (hs : w'.scopes = sc') : Late m A tr sc' w' := by
  obtain ⟨d, hd, hg⟩ := h.trace
  obtain ⟨d', hd', hg'⟩ := k.trace
  refine ⟨hs, k.lastModule.trans h.lastModule, d ++ d', by rw [hd', hd, List.append_assoc], ?_⟩
  intro s hx
  rcases List.mem_append.1 hx with hx | hx
  · exact hg s hx
  · exact hg' s hx

theorem Late.mid {sc : List Sc} {w w' : W} (h : Late m A tr sc w) (k : Mid (Later m A) w w') (hs : w'.scopes = w.scopes) : Late m A tr sc w' :=
  h.move k (hs.trans h.scopes)

theorem Late.side {sc : List Sc} {w w' : W} (h : Late m A tr sc w) (k : Side w w') : Late m A tr sc w' := h.mid (mid_side k) k.scopes
theorem Late.keep {sc : List Sc} {w w' : W} (h : Late m A tr sc w) (k : Keep w w') : Late m A tr sc w' := by
  refine ⟨k.scopes.trans h.scopes, k.lastModule.trans h.lastModule, ?_⟩
  rw [k.trace]; exact h.trace
theorem Late.emit {sc : List Sc} {w : W} (h : Late m A tr sc w) {e : Ev} (he : Later m A e) : Late m A tr sc (emit e w) := h.mid (mid_emit he w) rfl

theorem late_hook {sc : List Sc} {e : Ev} (he : Later m A e) (c : Code) : Stays (Late m A tr sc) (hook e c) :=
  stays_hook c (fun _ _ h k => h.keep k) (fun _ h => h.emit he)

theorem late_handle {sc : List Sc} {b : Bool} {p : M} (hp : Stays (Late m A tr sc) p) : Stays (Late m A tr sc) (handle b p) :=
  stays_handle hp (fun _ _ h k => h.keep k)

/-- A test of the module that is remembered: only its own scope is opened. -/
theorem beginTest_same (env : Env) (t : T) (w : W) (hl : w.lastModule = some t.module) :
    beginTest env t w = (none, { push .test w with lastTest := some t.id }) := by
  have hc : changeModule env t w = (none, w) := by unfold changeModule; rw [if_neg (by simp [hl])]
  unfold beginTest
  rw [if_neg (by simp [hl]), hc]
  simp only [push, ← hl]

/-- A test of another module can not begin when no scope is open. -/
theorem beginTest_other (env : Env) (t : T) (w : W) (hs : w.scopes = []) (hl : w.lastModule = some m) (hm : t.module ≠ m) :
    beginTest env t w = (err, emit (.beginRaised t.id .error) w) := by
  unfold beginTest changeModule pop
  rw [hl]
  have : some m ≠ some t.module := by intro h; cases h; exact hm rfl
  simp only [reduceCtorEq, ↓reduceIte, ne_eq, this, not_false_eq_true, hs, hl]
  rfl

theorem late_ctrlStart {sc : List Sc} (t : T) (ht : t.module = m) (hA : A t.id) : Stays (Late m A tr sc) (ctrlStart t) := by
  intro w h
  unfold ctrlStart
  split
  · exact h
  · exact stays_seq (m := act (mark t true)) (fun w h => h.keep (keep_mark ..)) (late_hook (e := .start t.id t.module) ⟨ht, hA⟩ _) w h

theorem late_testRun {sc : List Sc} (env : Env) (t : T) (hA : A t.id) : Stays (Late m A tr sc) (testRun env t) :=
  stays_seq (fun _ h => h.side (side_setUp ..)) (late_hook (e := .body t.id) hA _)

theorem nolt_run (env : Env) (t : T) (w : W) : ((seq (ctrlStart t) (handle true (testRun env t))) w).2.lastTest = w.lastTest := by
  have h : Mid (fun _ => True) w ((seq (ctrlStart t) (handle true (testRun env t))) w).2 := by
    refine mid_seq ?_ (fun w => mid_handle (mid_seq (mid_side (side_setUp ..)) (fun w => mid_hook trivial _ w)))
    unfold ctrlStart
    split
    · exact Mid.refl w
    · exact mid_seq (m := act (mark t true)) ⟨rfl, rfl, [], by simp [act, mark, markStarted], by simp⟩ (fun w => mid_hook trivial _ w)
  exact h.lastTest

theorem late_beginRunEnd (env : Env) (t : T) (hA : t.module = m → A t.id) : Stays (Late m A tr []) (beginRunEnd env t) := by
  intro w h
  unfold beginRunEnd seq
  by_cases ht : t.module = m
  · rw [beginTest_same env t w (by rw [h.lastModule, ht])]
    dsimp only
    have h1 : Late m A tr [.test] { push .test w with lastTest := some t.id } := ⟨by simp [push, h.scopes], h.lastModule, h.trace⟩
    have h2 := stays_seq (late_ctrlStart (sc := [.test]) (tr := tr) t ht (hA ht)) (late_handle (b := true) (late_testRun env t (hA ht))) _ h1
    have h3 := nolt_run env t { push .test w with lastTest := some t.id }
    change Late m A tr [] (endTest env t (seq (ctrlStart t) (handle true (testRun env t)) { push .test w with lastTest := some t.id }).2).2
    revert h2 h3
    generalize (seq (ctrlStart t) (handle true (testRun env t)) { push .test w with lastTest := some t.id }).2 = w1
    intro h2 h3
    unfold endTest
    rw [if_neg (by simp [h3])]
    exact h2.move (mid_pop (G := Later m A) env (s := .test) rfl rfl (fun _ => rfl) t.beforeCleanups w1) (pop_scopes env t.beforeCleanups h2.scopes)
  · rw [beginTest_other env t w h.scopes h.lastModule ht]
    exact h.emit (by trivial)

theorem late_cleanup (env : Env) : Stays (Late m A tr []) (initiateCleanup env) := by
  intro w h
  unfold initiateCleanup
  rw [if_pos h.scopes]
  exact h

theorem late_ctrlEnd {sc : List Sc} (t : T) (prev : Option RKey) : Stays (Late m A tr sc) (ctrlEnd t prev) := by
  intro w h
  unfold ctrlEnd
  split
  · exact h
  · exact stays_fin (stays_fin (stays_seq (m := act forbid) (fun w h => h.keep (keep_forbid w)) (late_hook (e := .fin t.id) trivial _))
      (fun w h => h.keep (keep_permit ..))) (fun w h => ⟨h.scopes, h.lastModule, h.trace⟩) w h

theorem late_exceptSkip {sc : List Sc} {p : M} (hp : Stays (Late m A tr sc) p) : Stays (Late m A tr sc) (exceptSkip p) := by
  intro w h
  rw [exceptSkip_snd]
  exact hp w h

theorem late_summary {sc : List Sc} (t : T) : Stays (Late m A tr sc) (fireSummary t) :=
  late_handle (fun w h => late_hook (e := .summary _ _) trivial _ w h)

theorem late_block (env : Env) (t : T) (l : Bool) (prev : Option RKey) (hA : t.module = m → A t.id) : Stays (Late m A tr []) (block env t l prev) := by
  refine late_exceptSkip (stays_seq (late_exceptSkip (late_handle (late_beginRunEnd env t hA))) (stays_seq (late_summary t) ?_))
  cases l
  · exact fun w h => h
  · exact stays_seq (late_ctrlEnd t prev) (late_handle (late_cleanup env))

theorem late_inner (env : Env) (t : T) (l : Bool) (prev : Option RKey) (hA : t.module = m → A t.id) : Stays (Late m A tr []) (inner env t l prev) := by
  refine stays_seq (stays_user _ (fun _ _ h k => h.keep k)) ?_
  split
  · exact stays_seq (m := act (mark t false)) (fun w h => h.keep (keep_mark ..)) (stays_fin (late_block env t l prev hA) (late_ctrlEnd t prev))
  · exact stays_seq (m := act (addSkips t.avoid)) (fun w h => h.keep (keep_addSkips ..)) (late_hook (e := .avoided t.id) trivial _)

theorem late_runSingle (env : Env) (t : T) (l : Bool) (hA : t.module = m → A t.id) : Stays (Late m A tr []) (runSingle env t l) := by
  intro w h
  unfold runSingle
  split
  · exact h
  · have := late_handle (b := true) (late_inner (tr := tr) env t l w.cl.curResult hA) (setContext (some (.test t.id)) (some t.id) (addTest t w))
      ⟨h.scopes, h.lastModule, h.trace⟩
    exact ⟨this.scopes, this.lastModule, this.trace⟩

theorem late_loop (env : Env) (ts : List T) (hA : ∀ t ∈ ts, t.module = m → A t.id) (w : W) (h : Late m A tr [] w) : Late m A tr [] (loop env ts w).2.2 := by
  induction ts generalizing w with
  | nil => exact h
  | cons t ts ih =>
    have h1 := late_runSingle (tr := tr) env t ts.isEmpty (hA t (by simp)) w h
    simp only [loop]
    split <;> rename_i heq <;> rw [heq] at h1
    · exact h1
    · split
      · exact h1
      · exact ih (fun t ht => hA t (by simp [ht])) _ h1

theorem late_runTests (env : Env) (ts : List T) (hA : ∀ t ∈ ts, t.module = m → A t.id) : Stays (Late m A tr []) (runTests env ts) := by
  intro w h
  have h1 := late_loop env ts hA w h
  revert h1
  unfold runTests
  rcases loop env ts w with ⟨x, rest, w1⟩
  dsimp only
  intro h1
  have h2 := late_cleanup env w1 h1
  revert h2
  rcases initiateCleanup env w1 with ⟨y, w2⟩
  dsimp only
  intro h2
  split
  · exact h2
  · obtain ⟨e1, e2, e3⟩ := markUnrun_scopes rest w2
    exact ⟨e1.trans h2.scopes, e2.trans h2.lastModule, by rw [e3]; exact h2.trace⟩

theorem late_runMany (env : Env) (tss : List (List T)) (hA : ∀ ts ∈ tss, ∀ t ∈ ts, t.module = m → A t.id) : Stays (Late m A tr []) (runMany env tss) := by
  induction tss with
  | nil => exact fun w h => h
  | cons ts tss ih => exact stays_seq (late_runTests env ts (hA ts (by simp))) (ih (fun ts h => hA ts (by simp [h])))

end

/-! ## What becomes of each test of a later call -/

section
variable {m : Nat} {A : Nat → Prop} {tr : List Snap} {env : Env}

/-- The test was started since `tr`, or it has an error. -/
def Fate (m : Nat) (tr : List Snap) (t : T) (w : W) : Prop :=
  (t.module = m → ∃ d, w.trace = tr ++ d ∧ ∃ s ∈ d, s.ev = .start t.id m) ∧ (t.module ≠ m → (w.cl.results (.test t.id)).errors ≠ [])

theorem Fate.mono {t : T} {w w' : W} (h : Fate m tr t w) (g : Grow env w w') : Fate m tr t w' := by
  refine ⟨fun hm => ?_, fun hm h0 => ?_⟩
  · obtain ⟨d, hd, s, hs, he⟩ := h.1 hm
    obtain ⟨d', hd', -⟩ := g.trace
    exact ⟨d ++ d', by rw [hd', hd, List.append_assoc], s, List.mem_append_left _ hs, he⟩
  · have := g.reach.grow.errs (.test t.id)
    rw [h0] at this
    exact h.2 hm (List.length_eq_zero_iff.1 (by simpa using this))

theorem runSingle_fate (t : T) (l : Bool) (w : W) (h : Late m A tr [] w) (hid : t.id ∉ w.tests) (hr : t.reqs = {}) (ha : t.avoid = 0) :
    Fate m tr t (runSingle env t l w).2 := by
  unfold runSingle
  rw [if_neg hid]
  refine Fate.mono (env := env) ?_ (grow_setContext env _ _ _)
  generalize hw1 : setContext (some (.test t.id)) (some t.id) (addTest t w) = w1
  have h1 : Late m A tr [] w1 := by rw [← hw1]; exact ⟨h.scopes, h.lastModule, h.trace⟩
  have hc1 : w1.cl.curTest = some t.id := by rw [← hw1]; rfl
  clear hw1
  have hin : inner env t l w.cl.curResult w1 = fin (block env t l w.cl.curResult) (ctrlEnd t w.cl.curResult) (mark t false w1) := by
    unfold inner processReqs
    rw [hr, if_pos ha]
    rfl
  have hh : Grow env (inner env t l w.cl.curResult w1).2 (handle true (inner env t l w.cl.curResult) w1).2 := by
    rcases handle_or true (inner env t l w.cl.curResult) w1 with h' | ⟨x, -, h'⟩ <;> rw [h']
    · exact Grow.refl ..
    · exact grow_record ..
  refine Fate.mono ?_ hh
  rw [hin]
  refine Fate.mono (env := env) (w := (block env t l w.cl.curResult (mark t false w1)).2) ?_ (grows_ctrlEnd env t _ _)
  have h2 : Late m A tr [] (mark t false w1) := h1.keep (keep_mark ..)
  have hs2 : (mark t false w1).started = false := rfl
  have hc2 : (mark t false w1).cl.curTest = some t.id := hc1
  generalize mark t false w1 = w2 at h2 hs2 hc2 ⊢
  have hb : Grow env (handle true (beginRunEnd env t) w2).2 (block env t l w.cl.curResult w2).2 := by
    unfold block
    rw [exceptSkip_snd]
    have e1 : (exceptSkip (handle true (beginRunEnd env t)) w2).2 = (handle true (beginRunEnd env t) w2).2 := exceptSkip_snd _ _
    unfold seq
    split <;> rename_i heq <;> rw [heq] at e1
    · dsimp only at e1 ⊢; rw [e1]; exact Grow.refl ..
    · rename_i w3
      dsimp only at e1
      rw [← e1]
      have hk : Grows env (seq (fireSummary t) (if l then seq (ctrlEnd t w.cl.curResult) (handle true (initiateCleanup env)) else act id)) := by
        refine grows_seq (grows_fireSummary env t) ?_
        cases l
        · exact fun w => Grow.refl env w
        · exact grows_seq (grows_ctrlEnd env t _) (grows_handle (grows_initiateCleanup env))
      exact hk w3
  refine Fate.mono ?_ hb
  refine ⟨fun hm => ?_, fun hm => ?_⟩
  · have hg : Grow env (ctrlStart t { push .test w2 with lastTest := some t.id }).2 (handle true (beginRunEnd env t) w2).2 := by
      have h3 : Grow env (ctrlStart t { push .test w2 with lastTest := some t.id }).2 (beginRunEnd env t w2).2 := by
        unfold beginRunEnd
        unfold seq
        rw [beginTest_same env t w2 (by rw [h2.lastModule, hm])]
        change Grow env _ (endTest env t ((seq (ctrlStart t) (handle true (testRun env t))) { push .test w2 with lastTest := some t.id }).2).2
        refine Grow.trans ?_ (grows_endTest env t _)
        unfold seq
        split <;> rename_i heq <;> rw [heq]
        · exact Grow.refl ..
        · exact grows_handle (grows_testRun env t) _
      rcases handle_or true (beginRunEnd env t) w2 with h' | ⟨x, -, h'⟩ <;> rw [h']
      · exact h3
      · exact h3.trans (grow_record ..)
    obtain ⟨d0, hd0, -⟩ := h2.trace
    obtain ⟨d', hd', -⟩ := hg.trace
    have hst : ∃ s : Snap, s.ev = .start t.id m ∧ (ctrlStart t { push .test w2 with lastTest := some t.id }).2.trace = w2.trace ++ [s] := by
      unfold ctrlStart
      rw [if_neg (by simp [push, hs2])]
      refine ⟨⟨.start t.id t.module, (mark t true { push .test w2 with lastTest := some t.id }).cl, w2.fx⟩, by rw [hm], ?_⟩
      change (user t.startHook (emit (.start t.id t.module) (mark t true { push .test w2 with lastTest := some t.id }))).2.trace = _
      rw [(side_user ..).trace]
      rfl
    obtain ⟨s, he, hs⟩ := hst
    exact ⟨d0 ++ ([s] ++ d'), by rw [hd', hs, hd0]; simp, s, by simp, he⟩
  · have he : beginRunEnd env t w2 = (err, emit (.beginRaised t.id .error) w2) := by
      unfold beginRunEnd seq
      rw [beginTest_other env t w2 h2.scopes h2.lastModule hm]
      rfl
    have : (handle true (beginRunEnd env t) w2).2 = record .error (emit (.beginRaised t.id .error) w2) := by
      unfold handle
      rw [he]
      rfl
    rw [this]
    have hcu : (emit (.beginRaised t.id .error) w2).cl.currentForUpdate = .test t.id := by
      unfold Cleanup.St.currentForUpdate
      change (match w2.cl.curTest with | some t => RKey.test t | none => RKey.global) = _
      rw [hc2]
    unfold record
    rw [hcu]
    simp [Cleanup.St.record, Cleanup.St.updResult, Result.addKind, Result.addError]

theorem loop_fate (ts : List T) (hstop : env.stop = false) (hA : ∀ t ∈ ts, t.module = m → A t.id) (w : W) (h : Late m A tr [] w)
    (hn : (loop env ts w).1 = none) (t : T) (ht : t ∈ ts) (hr : t.reqs = {}) (ha : t.avoid = 0) : Fate m tr t (loop env ts w).2.2 := by
  induction ts generalizing w with
  | nil => cases ht
  | cons u ts ih =>
    have h1 := late_runSingle (tr := tr) env u ts.isEmpty (hA u (by simp)) w h
    have hf : u = t → (runSingle env u ts.isEmpty w).1 = none → Fate m tr t (runSingle env u ts.isEmpty w).2 := by
      rintro rfl hx
      refine runSingle_fate u _ w h ?_ hr ha
      intro hmem
      unfold runSingle at hx
      rw [if_pos hmem] at hx
      cases hx
    revert hn
    simp only [loop]
    rcases hrs : runSingle env u ts.isEmpty w with ⟨x, w1⟩
    rw [hrs] at h1 hf
    dsimp only at h1 hf
    cases x with
    | some x => intro hn; cases hn
    | none =>
      dsimp only
      simp only [hstop, Bool.false_and, Bool.false_eq_true, ↓reduceIte]
      intro hn
      rcases List.mem_cons.1 ht with rfl | ht
      · exact (hf rfl rfl).mono (grow_loop env ts w1)
      · exact ih (fun t ht => hA t (by simp [ht])) _ h1 hn ht

theorem runTests_fate (ts : List T) (hstop : env.stop = false) (hA : ∀ t ∈ ts, t.module = m → A t.id) (w : W) (h : Late m A tr [] w)
    (hn : (runTests env ts w).1 = none) (t : T) (ht : t ∈ ts) (hr : t.reqs = {}) (ha : t.avoid = 0) : Fate m tr t (runTests env ts w).2 := by
  have h1 := loop_fate ts hstop hA w h
  revert hn h1
  unfold runTests
  rcases loop env ts w with ⟨x, rest, w1⟩
  dsimp only
  have g := grows_initiateCleanup env w1
  revert g
  rcases initiateCleanup env w1 with ⟨y, w2⟩
  dsimp only
  intro g hn h1
  rcases y with _ | y
  · rcases x with _ | x
    · exact (h1 rfl t ht hr ha).mono (g.trans (grows_markUnrun env rest w2))
    · cases hn
  · cases hn

theorem grows_runMany (tss : List (List T)) : Grows env (runMany env tss) := by
  induction tss with
  | nil => exact fun w => Grow.refl env w
  | cons ts tss ih => exact grows_seq (grows_runTests env ts) ih

theorem runMany_fate (tss : List (List T)) (hstop : env.stop = false) (hA : ∀ ts ∈ tss, ∀ t ∈ ts, t.module = m → A t.id) (w : W) (h : Late m A tr [] w)
    (hn : (runMany env tss w).1 = none) (ts : List T) (hts : ts ∈ tss) (t : T) (ht : t ∈ ts) (hr : t.reqs = {}) (ha : t.avoid = 0) :
    Fate m tr t (runMany env tss w).2 := by
  induction tss generalizing w with
  | nil => cases hts
  | cons u tss ih =>
    have h1 := late_runTests (tr := tr) env u (hA u (by simp)) w h
    have hf := fun hx ht => runTests_fate u hstop (hA u (by simp)) w h hx t ht hr ha
    revert hn
    simp only [runMany, seq]
    revert h1 hf
    rcases runTests env u w with ⟨x, w1⟩
    intro h1 hf
    cases x with
    | some x => intro hn; cases hn
    | none =>
      dsimp only
      intro hn
      rcases List.mem_cons.1 hts with rfl | hts
      · exact (hf rfl ht).mono (grows_runMany tss w1)
      · exact ih (fun ts h => hA ts (by simp [h])) _ h1 hn hts

end

/-! ## The statements -/

/-- A session in which these calls were made, before it ends. -/
def before (env : Env) (tss : List (List T)) : Option X × W := seq (startHooks env) (runMany env tss) initial

theorem startHooks_late (env : Env) : (startHooks env initial).2.scopes = [] ∧ Sync (startHooks env initial).2 := by
  have hk : ∀ c w, (user c w).2.scopes = w.scopes := fun c w => (side_user c w).scopes
  have h : ∀ w : W, w.scopes = [] → (startHooks env w).2.scopes = [] := by
    have hu : ∀ c, Stays (fun w : W => w.scopes = []) (user c) := fun c w hw => (hk c w).trans hw
    have hh : ∀ m : M, Stays (fun w : W => w.scopes = []) m → Stays (fun w : W => w.scopes = []) (handle false m) := fun m hm =>
      stays_handle hm (fun _ _ hw k => k.scopes.trans hw)
    exact hh _ (stays_seq (hu _) (stays_seq (stays_seq (m := act (emit .sessionStart)) (fun w hw => hw) (hu _))
      (stays_seq (m := act (fun w => { w with startCalled := true })) (fun w hw => hw) (hu _))))
  refine ⟨h _ rfl, ?_⟩
  refine Sync.mid (w := initial) rfl (mid_handle (mid_seq (mid_side (side_user ..)) (fun w => mid_seq (mid_hook (e := .sessionStart) trivial _ w)
    (fun w => mid_seq (m := act (fun w => { w with startCalled := true })) ⟨rfl, rfl, [], by simp [act], by simp⟩ (fun w => mid_side (side_user ..))))))

theorem runMany_late (env : Env) (tss : List (List T)) (w : W) (hs : w.scopes = []) (hw : Sync w) (hn : (runMany env tss w).1 = none) :
    (runMany env tss w).2.scopes = [] ∧ Sync (runMany env tss w).2 := by
  induction tss generalizing w with
  | nil => exact ⟨hs, hw⟩
  | cons ts tss ih =>
    have h1 := runTests_scopes env ts w
    have h2 := runTests_sync env ts w hw
    revert hn h1 h2
    simp only [runMany, seq]
    rcases runTests env ts w with ⟨_ | x, w1⟩
    · dsimp only; intro hn h1 h2; exact ih w1 (h1 rfl) h2 hn
    · intro hn; cases hn

theorem before_late (env : Env) (tss : List (List T)) (hn : (before env tss).1 = none) : (before env tss).2.scopes = [] ∧ Sync (before env tss).2 := by
  have h := startHooks_late env
  revert hn
  unfold before seq
  revert h
  rcases startHooks env initial with ⟨_ | x, w1⟩
  · dsimp only; intro h hn; exact runMany_late env tss w1 h.1 h.2 hn
  · intro _ hn; cases hn

theorem runMany_append (env : Env) (a b : List (List T)) (w : W) : runMany env (a ++ b) w = seq (runMany env a) (runMany env b) w := by
  induction a generalizing w with
  | nil => rfl
  | cons ts a ih =>
    simp only [List.cons_append, runMany, seq]
    rcases runTests env ts w with ⟨_ | x, w1⟩
    · exact ih w1
    · rfl

/-- After the calls `a`, the calls `b`, then the end of the session. -/
theorem sessionMany_after (env : Env) (a b : List (List T)) (hn : (before env a).1 = none) :
    sessionMany env (a ++ b) = fin (onInterrupt env (fun _ => runMany env b (before env a).2)) (endSession env) initial := by
  have h : seq (startHooks env) (runMany env (a ++ b)) initial = runMany env b (before env a).2 := by
    revert hn
    unfold before seq
    rcases startHooks env initial with ⟨_ | x, w1⟩
    · dsimp only
      intro hn
      rw [runMany_append]
      unfold seq
      revert hn
      rcases runMany env a w1 with ⟨_ | x, w2⟩
      · intro _; rfl
      · intro hn; cases hn
    · intro hn; cases hn
  unfold sessionMany fin onInterrupt
  rw [h]

theorem end_events (env : Env) (w : W) : ∃ e, (endSession env w).2.trace = w.trace ++ e ∧ ∀ s ∈ e, s.ev = .sessionEnd := by
  have h : Mid (fun e => e = .sessionEnd) w (endSession env w).2 := by
    refine mid_seq (mid_handle ?_) (fun w => ?_)
    · rw [(clPop_fields ..).1]; exact ⟨rfl, rfl, [], by simp, by simp⟩
    · split
      · exact mid_seq (mid_handle (mid_hook (G := fun e => e = .sessionEnd) (e := .sessionEnd) rfl _ w)) (fun w => mid_handle (mid_side (side_user ..)))
      · exact Mid.refl w
  exact h.trace

theorem onInt_parts (env : Env) (p : M) (w : W) : (onInterrupt env p w).2.trace = (p w).2.trace ∧ ((onInterrupt env p w).1 = none → (p w).1 = none) ∧
    ((p w).1 = none → (onInterrupt env p w).2 = (p w).2) := by
  unfold onInterrupt
  split
  · rename_i x w1 heq
    rw [heq]
    split
    · have k := (side_user env.interrupt w1).trace
      split <;> rename_i heq' <;> rw [heq'] at k
      · exact ⟨k, (fun h => by cases h), (fun h => by cases h)⟩
      · exact ⟨k, (fun h => by cases h), (fun h => by cases h)⟩
    · exact ⟨rfl, id, fun _ => rfl⟩
  · exact ⟨rfl, id, fun _ => rfl⟩

/-- **C187, what happens.** `run_tests` was called (any number of times, with any tests), no call raised, and the test that was started last is of module `m`. Then in all later calls
of the session only tests of this module are started and run, whatever tests are given; no scope of a module or of the session is closed, and `before_session_cleanup` is
not fired. -/
theorem C187_later (env : Env) (a b : List (List T)) (m : Nat) (hn : (before env a).1 = none) (hm : lastMod (before env a).2.trace = some m) :
    ∃ d e, (sessionMany env (a ++ b)).2.trace = (before env a).2.trace ++ d ++ e ∧ (∀ s ∈ e, s.ev = .sessionEnd) ∧
      ∀ s ∈ d, (∀ t m', s.ev = .start t m' → m' = m ∧ ∃ ts ∈ b, ∃ u ∈ ts, u.id = t ∧ u.module = m) ∧
        (∀ t, s.ev = .body t → ∃ ts ∈ b, ∃ u ∈ ts, u.id = t ∧ u.module = m) ∧
        s.ev ≠ .closing .module ∧ s.ev ≠ .closing .session ∧ s.ev ≠ .fixturesDown .module ∧ s.ev ≠ .fixturesDown .session ∧ s.ev ≠ .sessionCleanup := by
  obtain ⟨h1, h2⟩ := before_late env a hn
  have hl : Late m (fun t => ∃ ts ∈ b, ∃ u ∈ ts, u.id = t ∧ u.module = m) (before env a).2.trace [] (before env a).2 :=
    ⟨h1, h2.trans hm, [], by simp, by simp⟩
  obtain ⟨d, hd, hg⟩ := (late_runMany env b (fun ts hts t ht htm => ⟨ts, hts, t, ht, rfl, htm⟩) _ hl).trace
  rw [sessionMany_after env a b hn]
  obtain ⟨e, he, hee⟩ := end_events env (onInterrupt env (fun _ => runMany env b (before env a).2) initial).2
  refine ⟨d, e, ?_, hee, fun s hs => ?_⟩
  · change (endSession env (onInterrupt env (fun _ => runMany env b (before env a).2) initial).2).2.trace = _
    rw [he, (onInt_parts env _ initial).1, hd]
  · have := hg s hs
    refine ⟨fun t m' hev => ?_, fun t hev => ?_, ?_, ?_, ?_, ?_, ?_⟩
    · rw [hev] at this; exact this
    · rw [hev] at this; exact this
    all_goals (intro hev; rw [hev] at this; cases this)

theorem after_fate (env : Env) (a b : List (List T)) (m : Nat) (hn : (before env a).1 = none) (hm : lastMod (before env a).2.trace = some m)
    (hstop : env.stop = false) (hs : (sessionMany env (a ++ b)).1 = none) (ts : List T) (hts : ts ∈ b) (t : T) (ht : t ∈ ts) (hr : t.reqs = {}) (ha : t.avoid = 0) :
    Fate m (before env a).2.trace t (sessionMany env (a ++ b)).2 := by
  obtain ⟨h1, h2⟩ := before_late env a hn
  have hl : Late m (fun _ => True) (before env a).2.trace [] (before env a).2 := ⟨h1, h2.trans hm, [], by simp, by simp⟩
  rw [sessionMany_after env a b hn] at hs ⊢
  have ho := onInt_parts env (fun _ => runMany env b (before env a).2) initial
  have hx : (onInterrupt env (fun _ => runMany env b (before env a).2) initial).1 = none := by
    change (Option.or (endSession env (onInterrupt env (fun _ => runMany env b (before env a).2) initial).2).1
      (onInterrupt env (fun _ => runMany env b (before env a).2) initial).1) = none at hs
    rw [Option.or_eq_none_iff] at hs
    exact hs.2
  have hf := runMany_fate b hstop (fun _ _ _ _ _ => trivial) _ hl (ho.2.1 hx) ts hts t ht hr ha
  change Fate m _ t (endSession env (onInterrupt env (fun _ => runMany env b (before env a).2) initial).2).2
  rw [ho.2.2 (ho.2.1 hx)]
  exact hf.mono (grows_endSession env _)

/-- **C187, partial.** Of the tests given to a later call, those of the module of the test that was started last are started. (The session is not to be stopped by errors,
nothing is raised out of it, and nothing keeps the test from running.) -/
theorem C187_same_partial (env : Env) (a b : List (List T)) (m : Nat) (hn : (before env a).1 = none) (hm : lastMod (before env a).2.trace = some m)
    (hstop : env.stop = false) (hs : (sessionMany env (a ++ b)).1 = none) (ts : List T) (hts : ts ∈ b) (t : T) (ht : t ∈ ts) (hr : t.reqs = {}) (ha : t.avoid = 0)
    (htm : t.module = m) : ∃ d, (sessionMany env (a ++ b)).2.trace = (before env a).2.trace ++ d ∧ ∃ s ∈ d, s.ev = .start t.id m :=
  (after_fate env a b m hn hm hstop hs ts hts t ht hr ha).1 htm

/-- **C187 is violated** by every test of another module that is given to a later call: it is not started (see `C187_later`), and an error is added to its result. -/
theorem C187_other_violated (env : Env) (a b : List (List T)) (m : Nat) (hn : (before env a).1 = none) (hm : lastMod (before env a).2.trace = some m)
    (hstop : env.stop = false) (hs : (sessionMany env (a ++ b)).1 = none) (ts : List T) (hts : ts ∈ b) (t : T) (ht : t ∈ ts) (hr : t.reqs = {}) (ha : t.avoid = 0)
    (htm : t.module ≠ m) : ((sessionMany env (a ++ b)).2.cl.results (.test t.id)).errors ≠ [] :=
  (after_fate env a b m hn hm hstop hs ts hts t ht hr ha).2 htm

theorem runTests_nil (env : Env) (w : W) (h : w.scopes = []) : runTests env [] w = (none, w) := by
  have : initiateCleanup env w = (none, w) := by unfold initiateCleanup; rw [if_pos h]
  unfold runTests loop
  dsimp only
  rw [this]
  rfl

theorem runMany_nils (env : Env) (i : Nat) (w : W) (h : w.scopes = []) : runMany env (List.replicate i []) w = (none, w) := by
  induction i with
  | zero => rfl
  | succ i ih =>
    rw [List.replicate_succ]
    simp only [runMany, seq]
    rw [runTests_nil env w h]
    exact ih

/-- **C187.** Calls without tests change nothing: with one call that has tests, the session is as if it was the only one. -/
theorem C187_empty (env : Env) (ts : List T) (i j : Nat) : sessionMany env (List.replicate i [] ++ ts :: List.replicate j []) = session env ts := by
  have h : seq (startHooks env) (runMany env (List.replicate i [] ++ ts :: List.replicate j [])) initial = seq (startHooks env) (runTests env ts) initial := by
    have h0 := (startHooks_late env).1
    unfold seq
    revert h0
    rcases startHooks env initial with ⟨_ | x, w1⟩
    · dsimp only
      intro h0
      rw [runMany_append]
      unfold seq
      rw [runMany_nils env i w1 h0]
      dsimp only
      simp only [runMany, seq]
      have h1 := runTests_scopes env ts w1
      revert h1
      rcases runTests env ts w1 with ⟨_ | x, w2⟩
      · dsimp only; intro h1; exact runMany_nils env j w2 (h1 rfl)
      · intro _; rfl
    · intro _; rfl
  unfold sessionMany session fin onInterrupt
  rw [h]

/-! ## Examples and what is violated -/

/-- the events of a session with these calls -/
def evsMany (env : Env) (tss : List (List T)) : List Ev := (sessionMany env tss).2.trace.map (·.ev)

/-- A call with tests of two modules, then one with a test of each, and an empty one in between. -/
example : (before {} [[demoTest 1 0, demoTest 2 1], []]).1 = none ∧ lastMod (before {} [[demoTest 1 0, demoTest 2 1], []]).2.trace = some 1 ∧
    (sessionMany {} ([[demoTest 1 0, demoTest 2 1], []] ++ [[demoTest 3 1, demoTest 4 0]])).1 = none ∧
    evsMany {} ([[demoTest 1 0, demoTest 2 1], []] ++ [[demoTest 3 1, demoTest 4 0]]) =
      (before {} [[demoTest 1 0, demoTest 2 1], []]).2.trace.map (·.ev) ++
      [.start 3 1, .body 3, .closing .test, .fixturesDown .test, .summary 3 .success, .fin 3, .beginRaised 4 .error, .summary 4 .error] ++ [.sessionEnd] := by decide +kernel

example : (sessionMany {} [[], demo, []]).2.trace.map (·.ev) = evs {} demo ∧ 20 < (evs {} demo).length := by decide +kernel

/-- **C187 is violated**: two tests of two modules, in one call and in two. In one, both are run, and there is no error; in two, the second one is not run and has an error. -/
theorem C187_two_calls_violated :
    .body 2 ∈ evs {} [demoTest 1 0, demoTest 2 1] ∧ ((session {} [demoTest 1 0, demoTest 2 1]).2.cl.results (.test 2)).errors = [] ∧
    .body 2 ∉ evsMany {} [[demoTest 1 0], [demoTest 2 1]] ∧ .start 2 1 ∉ evsMany {} [[demoTest 1 0], [demoTest 2 1]] ∧
    ((sessionMany {} [[demoTest 1 0], [demoTest 2 1]]).2.cl.results (.test 2)).errors.length = 1 := by decide +kernel

/-- a fixture of the module, with a cleanup -/
def modFix : Env := { defs := fun _ => { scope := 1 }, fixture := fun f _ => { cleanups := [{ tag := f }] }, fuel := 9 }

/-- **C187 is violated**: a fixture of the module that is needed in both calls is torn down at the end of the first one, but never after that: its cleanup is called once and
the function twice. In one call, both are called once. -/
theorem C187_fixture_violated :
    (session modFix [{ id := 1, fixtures := [0] }, { id := 2, fixtures := [0] }]).2.fx.active = [] ∧
    (session modFix [{ id := 1, fixtures := [0] }, { id := 2, fixtures := [0] }]).2.fx.trace = [.call 0 0 [], .cleanup 0 0 0] ∧
    (sessionMany modFix [[{ id := 1, fixtures := [0] }], [{ id := 2, fixtures := [0] }]]).2.fx.active.map (·.id) = [0] ∧
    (sessionMany modFix [[{ id := 1, fixtures := [0] }], [{ id := 2, fixtures := [0] }]]).2.fx.trace = [.call 0 0 [], .cleanup 0 0 0, .call 0 1 []] ∧
    (sessionMany modFix [[{ id := 1, fixtures := [0] }], [{ id := 2, fixtures := [0] }]]).1 = none := by decide +kernel

/-- **C187 is violated**: in a later call there is no scope of the module, so that a cleanup for it is refused; in one call it is called. -/
theorem C187_cleanup_violated :
    .summary 2 .success ∈ evs {} [demoTest 1 0, demoTest 2 0 [.add (.named "module") demoCb]] ∧
    .summary 2 .error ∈ evsMany {} [[demoTest 1 0], [demoTest 2 0 [.add (.named "module") demoCb]]] := by decide +kernel

end Slash.Whole
