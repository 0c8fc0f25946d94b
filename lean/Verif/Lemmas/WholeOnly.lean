import Verif.Lemmas.WholeSession
/-! Whole sessions: while a test is current, all events are of this test; stopping on errors. -/
namespace Slash.Whole

open Slash.Scope (Sc)
open Slash.Cleanup (RKey Reg St Exn)

/-- The test an event is about. -/
def evId : Ev → Option Nat
  | .avoided id | .beginRaised id _ | .start id _ | .body id | .summary id _ | .fin id => some id
  | _ => none

/-- Not one of the hooks of the session. -/
def inRun : Ev → Bool
  | .sessionStart | .sessionEnd => false
  | _ => true

/-- Nothing is excluded that happens when scopes are closed. -/
structure Quiet (ok : Ev → Prop) : Prop where
  cleanup : ok .sessionCleanup
  closing : ∀ s, ok (.closing s)
  down : ∀ s, ok (.fixturesDown s)
  raised : ∀ s k, ok (.closeRaised s k)

/-- The events since `tr` happened while `o` was the current test, and are as said. -/
structure Only (ok : Ev → Prop) (o : Option Nat) (tr : List Snap) (c : Bool) (w : W) : Prop where
  cur : w.cl.curTest = o
  called : w.startCalled = c
  since : ∃ d, w.trace = tr ++ d ∧ ∀ s ∈ d, s.cl.curTest = o ∧ ok s.ev

/-- Nothing is excluded that happens when this test is run. -/
structure TestOk (ok : Ev → Prop) (t : T) : Prop where
  avoided : ok (.avoided t.id)
  raised : ∀ k, ok (.beginRaised t.id k)
  start : ok (.start t.id t.module)
  body : ok (.body t.id)
  summary : ∀ h, ok (.summary t.id h)
  fin : ok (.fin t.id)

variable {ok : Ev → Prop} {o : Option Nat} {tr : List Snap} {c : Bool}

theorem Only.move {w w' : W} (h : Only ok o tr c w) (ht : w'.trace = w.trace) (hc : w'.cl.curTest = w.cl.curTest)
    (hs : w'.startCalled = w.startCalled := by rfl) : Only ok o tr c w' :=
  ⟨hc.trans h.cur, hs.trans h.called, ht ▸ h.since⟩
theorem Only.emit {w : W} (h : Only ok o tr c w) {e : Ev} (he : ok e) : Only ok o tr c (emit e w) := by
  refine ⟨h.cur, h.called, ?_⟩
  obtain ⟨d, h1, h2⟩ := h.since
  refine ⟨d ++ [⟨e, w.cl, w.fx⟩], by rw [Whole.emit, h1, List.append_assoc], fun s hs => ?_⟩
  rcases List.mem_append.1 hs with hs | hs
  · exact h2 s hs
  · rw [List.mem_singleton.1 hs]; exact ⟨h.cur, he⟩

theorem curTest_record (w : W) (k : Kind) : (record k w).cl.curTest = w.cl.curTest := (record_fields w.cl _ k).2.1
theorem only_record {w : W} (k : Kind) (h : Only ok o tr c w) : Only ok o tr c (record k w) := h.move rfl (curTest_record w k)

abbrev OnlyM (ok : Ev → Prop) (o : Option Nat) (tr : List Snap) (c : Bool) (m : M) : Prop := Stays (Only ok o tr c) m

theorem only_handle {b : Bool} {m : M} (hm : OnlyM ok o tr c m) : OnlyM ok o tr c (handle b m) := by
  intro w hw
  rcases handle_or b m w with h | ⟨x, -, h⟩ <;> rw [h]
  · exact hm w hw
  · exact only_record _ (hm w hw)
theorem only_exceptSkip {m : M} (hm : OnlyM ok o tr c m) : OnlyM ok o tr c (exceptSkip m) := by
  intro w hw; rw [exceptSkip_snd]; exact hm w hw
theorem only_user (p : Code) : OnlyM ok o tr c (user p) := by
  intro w hw
  have h := (Cleanup.frame_runActs p.acts w.cl).curTest
  unfold user
  split <;> rename_i heq <;> rw [heq] at h <;> exact hw.move rfl h
theorem only_act {f : W → W} (h1 : ∀ w, (f w).trace = w.trace) (h2 : ∀ w, (f w).cl.curTest = w.cl.curTest)
    (h3 : ∀ w, (f w).startCalled = w.startCalled := by intro w; rfl) : OnlyM ok o tr c (act f) :=
  fun w hw => hw.move (h1 w) (h2 w) (h3 w)
theorem only_emit {e : Ev} (he : ok e) : OnlyM ok o tr c (act (emit e)) := fun _ hw => hw.emit he
theorem only_hook {e : Ev} (p : Code) (he : ok e) : OnlyM ok o tr c (hook e p) := stays_seq (only_emit he) (only_user p)
theorem only_clPop (n : String) (hk : Option Kind) : OnlyM ok o tr c (clPop n hk) := by
  intro w hw
  rw [(clPop_fields n hk w).1]
  exact hw.move rfl (popScope_context n hk w.tests w.cl).2
theorem only_fxLoop (fs : List Nat) : OnlyM ok o tr c (fxLoop fs) := by
  induction fs with
  | nil => intro w hw; exact hw
  | cons f fs ih =>
    intro w hw
    simp only [fxLoop]
    split
    · exact ih _ (hw.move rfl rfl)
    · rename_i k fx _
      have h1 : Only ok o tr c (record k { w with fx := fx }) := only_record k (hw.move rfl rfl)
      split
      · exact h1
      · exact ih _ h1
theorem only_fxLoops (env : Env) (s : Nat) (ks : List Nat) : OnlyM ok o tr c (fxLoops env s ks) := by
  induction ks with
  | nil => intro w hw; exact hw
  | cons k ks ih =>
    intro w hw
    simp only [fxLoops]
    split
    · have h := only_fxLoop (ok := ok) (o := o) (tr := tr) (c := c) ((w.fx.active.filter (fun a => (env.defs a.id).scope == k)).map (·.id)).reverse w hw
      split <;> rename_i heq <;> rw [heq] at h
      · exact h
      · exact ih _ h
    · exact ih w hw
theorem only_fxPop (hq : Quiet ok) (env : Env) (s : Sc) : OnlyM ok o tr c (fxPop env s) := by
  intro w hw
  have h1 : Only ok o tr c (emit (.fixturesDown s) w) := hw.emit (hq.down s)
  unfold fxPop
  simp only
  split
  · exact h1
  · exact only_fxLoops env _ _ _ h1
theorem only_callBoth {a b : M} (ha : OnlyM ok o tr c a) (hb : OnlyM ok o tr c b) : OnlyM ok o tr c (callBoth a b) := by
  intro w hw
  have h := ha w hw
  unfold callBoth
  split <;> rename_i heq <;> rw [heq] at h
  · exact hb _ h
  · split
    · exact hb _ h
    · exact h
theorem only_pop (hq : Quiet ok) (env : Env) (s : Sc) (hk : Option Kind) : OnlyM ok o tr c (pop env s hk) := by
  intro w hw
  unfold pop
  split
  · exact hw
  · rename_i p rest _
    split
    · exact hw.move rfl rfl
    · have h0 : Only ok o tr c (emit (.closing s) { w with scopes := rest }) := Only.emit (w := { w with scopes := rest }) (hw.move rfl rfl) (hq.closing s)
      have h := only_callBoth (only_clPop (ok := ok) (o := o) (tr := tr) (c := c) (scName s) hk) (only_fxPop hq env s) _ h0
      split <;> rename_i heq <;> rw [heq] at h
      · exact h.emit (hq.raised s _)
      · exact h
theorem only_push (s : Sc) {w : W} (h : Only ok o tr c w) : Only ok o tr c (push s w) := h.move rfl rfl
theorem only_changeModule (hq : Quiet ok) (env : Env) (t : T) : OnlyM ok o tr c (changeModule env t) := by
  intro w hw
  unfold changeModule
  split
  · have h1 : Only ok o tr c (if w.lastModule ≠ none then pop env .module none w else (none, w)).2 := by
      split
      · exact only_pop hq env _ _ w hw
      · exact hw
    split <;> rename_i heq <;> rw [heq] at h1
    · exact h1
    · split
      · exact h1
      · exact only_push _ h1
  · exact hw
theorem only_beginTest (hq : Quiet ok) (env : Env) (t : T) (ht : ∀ k, ok (.beginRaised t.id k)) : OnlyM ok o tr c (beginTest env t) := by
  intro w hw
  have h0 : Only ok o tr c (if w.lastModule = none then push .session w else w) := by
    split
    · exact only_push _ hw
    · exact hw
  have h1 := only_changeModule (ok := ok) (o := o) (tr := tr) (c := c) hq env t _ h0
  unfold beginTest
  split <;> rename_i heq <;> rw [heq] at h1
  · exact h1.emit (ht _)
  · exact Only.move h1 rfl rfl
theorem only_endTest (hq : Quiet ok) (env : Env) (t : T) : OnlyM ok o tr c (endTest env t) := by
  intro w hw
  unfold endTest
  split
  · exact hw
  · exact only_pop hq env _ _ w hw
theorem only_flushLoop (hq : Quiet ok) (env : Env) (ss : List Sc) (p : Option X) : OnlyM ok o tr c (flushLoop env ss p) := by
  induction ss generalizing p with
  | nil => intro w hw; exact hw
  | cons s ss ih =>
    intro w hw
    have h := only_pop (ok := ok) (o := o) (tr := tr) (c := c) hq env s none w hw
    simp only [flushLoop]
    split <;> rename_i heq <;> rw [heq] at h
    · exact ih _ _ h
    · split
      · exact ih _ _ h
      · exact h
theorem only_initiateCleanup (hq : Quiet ok) (env : Env) : OnlyM ok o tr c (initiateCleanup env) := by
  intro w hw
  unfold initiateCleanup
  split
  · exact hw
  · exact stays_fin (only_handle (only_hook _ hq.cleanup)) (only_handle (fun w h => only_flushLoop hq env w.scopes none w h)) _ (hw.move rfl rfl)
theorem only_ctrlStart (t : T) (ht : ok (.start t.id t.module)) : OnlyM ok o tr c (ctrlStart t) := by
  intro w hw
  unfold ctrlStart
  split
  · exact hw
  · exact stays_seq (only_act (f := mark t true) (fun _ => rfl) (fun _ => rfl)) (only_hook (e := .start t.id t.module) _ ht) w hw
theorem only_ctrlEnd (t : T) (prev : Option RKey) (ht : ok (.fin t.id)) : OnlyM ok o tr c (ctrlEnd t prev) := by
  intro w hw
  unfold ctrlEnd
  split
  · exact hw
  · exact stays_fin (stays_fin (stays_seq (only_act (f := forbid) (fun _ => rfl) (fun _ => rfl)) (only_hook (e := .fin t.id) _ ht))
      (only_act (f := permit w.cl.allowImplicit) (fun _ => rfl) (fun _ => rfl))) (only_act (f := setResult prev) (fun _ => rfl) (fun _ => rfl)) w hw
theorem only_setUp (env : Env) (t : T) : OnlyM ok o tr c (setUp env t) := by
  intro w hw
  unfold setUp
  split <;> exact hw.move rfl rfl
theorem only_testRun (env : Env) (t : T) (ht : ok (.body t.id)) : OnlyM ok o tr c (testRun env t) := stays_seq (only_setUp env t) (only_hook _ ht)
theorem only_addSkip {w : W} (h : Only ok o tr c w) : Only ok o tr c (addSkip w) := by
  unfold addSkip
  split
  · exact h.move rfl (record_fields w.cl _ _).2.1
  · exact h
theorem only_addSkips (n : Nat) : OnlyM ok o tr c (act (addSkips n)) := by
  induction n with
  | zero => intro w hw; exact hw
  | succ n ih => intro w hw; exact ih _ (only_addSkip hw)
theorem only_beginRunEnd (hq : Quiet ok) (env : Env) (t : T) (ht : TestOk ok t) : OnlyM ok o tr c (beginRunEnd env t) :=
  stays_seq (only_beginTest hq env t ht.raised) (stays_fin (stays_seq (only_ctrlStart t ht.start) (only_handle (only_testRun env t ht.body))) (only_endTest hq env t))
theorem only_fireSummary (t : T) (ht : ∀ h, ok (.summary t.id h)) : OnlyM ok o tr c (fireSummary t) :=
  only_handle (fun w hw => only_hook (e := .summary t.id _) _ (ht _) w hw)
theorem only_block (hq : Quiet ok) (env : Env) (t : T) (l : Bool) (prev : Option RKey) (ht : TestOk ok t) : OnlyM ok o tr c (block env t l prev) := by
  refine only_exceptSkip (stays_seq (only_exceptSkip (only_handle (only_beginRunEnd hq env t ht))) (stays_seq (only_fireSummary t ht.summary) ?_))
  split
  · exact stays_seq (only_ctrlEnd t prev ht.fin) (only_handle (only_initiateCleanup hq env))
  · exact fun _ h => h
theorem only_inner (hq : Quiet ok) (env : Env) (t : T) (l : Bool) (prev : Option RKey) (ht : TestOk ok t) : OnlyM ok o tr c (inner env t l prev) := by
  refine stays_seq (only_user _) ?_
  split
  · exact stays_seq (only_act (fun _ => rfl) (fun _ => rfl)) (stays_fin (only_block hq env t l prev ht) (only_ctrlEnd t prev ht.fin))
  · exact stays_seq (only_addSkips _) (only_hook _ ht.avoided)

/-- Events while `o` is the current test: of no test or of this one, and none of the hooks of the session. -/
def Ok (o : Option Nat) (e : Ev) : Prop := (evId e = none ∨ evId e = o) ∧ inRun e = true

theorem quiet_ok (o : Option Nat) : Quiet (Ok o) := ⟨⟨.inl rfl, rfl⟩, fun _ => ⟨.inl rfl, rfl⟩, fun _ => ⟨.inl rfl, rfl⟩, fun _ _ => ⟨.inl rfl, rfl⟩⟩
theorem test_ok (t : T) : TestOk (Ok (some t.id)) t :=
  ⟨⟨.inr rfl, rfl⟩, fun _ => ⟨.inr rfl, rfl⟩, ⟨.inr rfl, rfl⟩, ⟨.inr rfl, rfl⟩, fun _ => ⟨.inr rfl, rfl⟩, ⟨.inr rfl, rfl⟩⟩

/-- What is known of an event that happened while `o` was the current test. -/
def EvOk (o : Option Nat) (s : Snap) : Prop := s.cl.curTest = o ∧ (evId s.ev = none ∨ evId s.ev = o) ∧ inRun s.ev = true

/-- The events of a test happen while it is current. -/
theorem runSingle_only (env : Env) (t : T) (l : Bool) (w : W) :
    (runSingle env t l w).2.cl.curTest = w.cl.curTest ∧ (runSingle env t l w).2.startCalled = w.startCalled ∧ ∃ d, (runSingle env t l w).2.trace = w.trace ++ d ∧ ∀ s ∈ d, EvOk (some t.id) s := by
  by_cases h : t.id ∈ w.tests
  · unfold runSingle; rw [if_pos h]; exact ⟨rfl, rfl, [], by simp, by simp⟩
  · rw [runSingle_new env t l h]
    have h0 : Only (Ok (some t.id)) (some t.id) w.trace w.startCalled (entered t w) := ⟨rfl, rfl, [], by simp [entered, setContext, addTest], by simp⟩
    have h1 := only_handle (b := true) (only_inner (quiet_ok _) env t l w.cl.curResult (test_ok t)) _ h0
    exact ⟨rfl, h1.called, h1.since⟩

/-! ## Stopping on errors -/

/-- Something went wrong in this state. -/
def Wrong (cl : St) : Prop := ∃ k, Bad (cl.results k)

theorem Wrong.mono {a b : St} (h : Wrong a) (hr : Reach a b) : Wrong b := by
  obtain ⟨k, hk⟩ := h
  exact ⟨k, Bad.mono hr.grow hk⟩

theorem Sim.wrong {x : RCtx} {w : W} {st : Runner.St} (h : Sim x w st) (hb : Wrong w.cl) : success w = false := by
  obtain ⟨k, hk⟩ := hb
  apply success_bad
  cases k with
  | global => exact .inl hk
  | test id =>
    by_cases hid : id ∈ w.tests
    · exact .inr ⟨id, hid, hk⟩
    · rw [h.res.new id hid] at hk
      rcases hk with hk | hk | hk
      · exact absurd rfl hk
      · exact absurd rfl hk
      · cases hk

/-- After something went wrong while a test was current there are no events of other tests. -/
def Stops (d : List Snap) : Prop := ∀ pre s post, d = pre ++ s :: post → ∀ i, s.cl.curTest = some i → Wrong s.cl → ∀ s' ∈ post, ∀ j, evId s'.ev = some j → j = i

theorem stops_one {d : List Snap} {i : Nat} (h : ∀ s ∈ d, EvOk (some i) s) : Stops d := by
  rintro pre s post rfl k hk - s' hs' j hj
  have h1 := (h s (by simp)).1
  rw [hk] at h1
  cases h1
  rcases (h s' (by simp [hs'])).2.1 with h2 | h2
  · rw [h2] at hj; cases hj
  · rw [h2] at hj; cases hj; rfl

theorem stops_append {a b : List Snap} (ha : Stops a) (hb : Stops b) (h : ∀ s ∈ a, Wrong s.cl → (∃ i, s.cl.curTest = some i) → ∀ s' ∈ b, evId s'.ev = none) : Stops (a ++ b) := by
  intro pre s post he i hi hw s' hs' j hj
  rw [List.append_eq_append_iff] at he
  rcases he with ⟨c, rfl, hc⟩ | ⟨c, rfl, hc⟩
  · exact hb c s post hc i hi hw s' hs' j hj
  · rcases c with _ | ⟨x, c⟩
    · exact hb [] s post hc.symm i hi hw s' hs' j hj
    · rw [List.cons_append, List.cons.injEq] at hc
      obtain ⟨rfl, rfl⟩ := hc
      rcases List.mem_append.1 hs' with h1 | h1
      · exact ha pre s c rfl i hi hw s' h1 j hj
      · rw [h s (by simp) hw ⟨i, hi⟩ s' h1] at hj; cases hj

theorem loop_stops (env : Env) (hs : env.stop = true) (ts : List T) {w : W} (h : ∃ i st, Sim ⟨.global, none, i⟩ w st) :
    ∃ d, (loop env ts w).2.2.trace = w.trace ++ d ∧ Stops d := by
  induction ts generalizing w with
  | nil => exact ⟨[], by simp [loop], by intro pre s post h; simp at h⟩
  | cons t ts ih =>
    obtain ⟨-, -, d, hd, hE⟩ := runSingle_only env t ts.isEmpty w
    have hr := (grows_runSingle env t ts.isEmpty w).trace
    obtain ⟨d', hd', hR, -⟩ := hr
    have hdd : d' = d := by rw [hd] at hd'; exact (List.append_cancel_left hd').symm
    subst hdd
    have hsim : (runSingle env t ts.isEmpty w).1 = none → ∃ i st, Sim ⟨.global, none, i⟩ (runSingle env t ts.isEmpty w).2 st := by
      intro hnone
      obtain ⟨i, st, hs⟩ := h
      by_cases hdup : t.id ∈ w.tests
      · unfold runSingle at hnone; rw [if_pos hdup] at hnone; cases hnone
      · obtain ⟨t0, C, -, -, hS⟩ := sim_runSingle env t ts.isEmpty .global hs.good hdup hs.cur
        exact ⟨i, _, (hS { cleanup := fun _ => C } (fun _ => rfl) none i st hs).2⟩
    simp only [loop]
    rcases heq : runSingle env t ts.isEmpty w with ⟨_ | x, w1⟩ <;> rw [heq] at hd hR hsim
    rotate_left
    · exact ⟨d', hd, stops_one hE⟩
    · simp only [hs, Bool.true_and]
      by_cases hsu : success w1 = true
      · simp only [hsu, Bool.not_true, Bool.false_eq_true, if_false]
        obtain ⟨i1, st1, hs1⟩ := hsim rfl
        obtain ⟨d2, hd2, hst2⟩ := ih (w := w1) ⟨i1, st1, hs1⟩
        refine ⟨d' ++ d2, by rw [hd2]; rw [show w1.trace = _ from hd, List.append_assoc], stops_append (stops_one hE) hst2 ?_⟩
        intro s hsm hw
        have := hs1.wrong (hw.mono (hR s hsm).2)
        rw [hsu] at this; cases this
      · simp only [hsu, Bool.not_false, if_true]
        exact ⟨d', hd, stops_one hE⟩

end Slash.Whole
