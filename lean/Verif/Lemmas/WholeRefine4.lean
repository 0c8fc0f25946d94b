import Verif.Lemmas.WholeRefine3
/-! Whole sessions are runs of the runner model: the loop over the tests, the end of the run. -/
namespace Slash.Whole

open Slash.Scope (Sc)
open Slash.Cleanup (RKey Reg St Exn)
open Slash.Result (REv)

/-! ## Requirements -/

theorem Sim.addSkip {id : Nat} {o : Option Nat} {i : List Nat} {w : W} {st : Runner.St} (h : Sim ⟨.test id, o, i⟩ w st) :
    Sim ⟨.test id, o, i⟩ (addSkip w) (st.ev (.skip "skip")) := by
  have hok : OkR w.tests (some (.test id)) := by have := h.good.cur; rw [h.cur] at this; exact this
  have e : st.ev (.skip "skip") = { st with res := st.res.step (.ev id (.skip "skip")) } := by simp only [Runner.St.ev, h.stCur, Runner.St.evAt]
  have e1 : Whole.addSkip w = { w with cl := w.cl.record (.test id) .skip } := by unfold Whole.addSkip; rw [h.cur]; rfl
  rw [e, e1]
  have hf := record_fields w.cl (.test id) .skip
  refine ⟨hf.1.trans h.cur, h.stCur, hf.2.1.trans h.test, h.stTest, h.indexed, good_record h.good (.test id) .skip, ?_, ⟨h.scope.1, h.scope.2, h.scope.3⟩, h.started, h.cleanups,
    h.trace, h.bodies⟩
  have := h.res.step (.test id, .skip "skip") hok trivial
  have e2 : (w.cl.record (.test id) .skip).results = upd w.cl.results (.test id, .skip "skip") := by rw [record_results]; rfl
  show ResSim w.tests (w.cl.record (.test id) .skip).results _
  rw [e2]; exact this

theorem Sim.addSkips {id : Nat} {o : Option Nat} {i : List Nat} (n : Nat) {w : W} {st : Runner.St} (h : Sim ⟨.test id, o, i⟩ w st) :
    Sim ⟨.test id, o, i⟩ (addSkips n w) ((List.replicate n "skip").foldl (fun st r => st.ev (.skip r)) st) := by
  induction n generalizing w st with
  | zero => exact h
  | succ n ih => exact ih h.addSkip

theorem keeps_addSkips (n : Nat) {w : W} (hg : Good w.tests w.cl) : Kept w (addSkips n w) := by
  induction n generalizing w with
  | zero => exact Kept.refl hg
  | succ n ih =>
    have h1 : Kept w (addSkip w) := by
      unfold addSkip
      split
      · rename_i r _; exact ⟨rfl, rfl, good_record hg r .skip⟩
      · exact Kept.refl hg
    exact h1.trans (ih h1.good)

/-! ## One test -/

/-- What is done if the test is to run. -/
def toRun (env : Env) (t : T) (l : Bool) (prev : Option RKey) : M := seq (act (mark t false)) (fin (block env t l prev) (ctrlEnd t prev))

theorem keeps'_toRun (env : Env) (t : T) (l : Bool) {prev : Option RKey} {w : W} (hg : Good w.tests w.cl) (hp : OkR w.tests prev) :
    Kept' w (toRun env t l prev w).2 := by
  have h0 : Kept' w (mark t false w) := ⟨rfl, Nat.le_refl _, sg_mark t false hg⟩
  have h1 := keeps'_block env t l (w := mark t false w) h0.good hp
  have h2 := keeps_ctrlEnd t (prev := prev) h1.good (by rw [h1.tests]; exact hp)
  exact h0.trans (h1.trans h2.weak)

def HoldsR (env : Env) (t : T) (l : Bool) (c : Runner.Cur) (w : W) (C : Runner.CleanupData) (t' : Runner.T) : Prop :=
  ∀ env' : Runner.Env, (w.cleanups < (toRun env t l (some (key c)) w).2.cleanups → env'.cleanup w.cleanups = C) → ∀ o i st, Sim ⟨.test t.id, o, i⟩ w st →
    ∃ d, RR ⟨d, o, i⟩ (toRun env t l (some (key c)) w)
      ((Runner.ctrlEnd t' c (Runner.block env' t' l c { st.ev .start with started := false }).2).1.or
        (Runner.block env' t' l c { st.ev .start with started := false }).1,
       (Runner.ctrlEnd t' c (Runner.block env' t' l c { st.ev .start with started := false }).2).2)

theorem sim_toRun (env : Env) (t : T) (l : Bool) (c : Runner.Cur) {w : W} (hg : Good w.tests w.cl) (ht : t.id ∈ w.tests) (hp : OkR w.tests (some (key c))) :
    ∃ (t0 : Runner.T) (C : Runner.CleanupData), t0.id = t.id ∧ t0.module = t.module ∧ HoldsR env t l c w C t0 := by
  have hg1 : Good (mark t false w).tests (mark t false w).cl := sg_mark t false hg
  obtain ⟨t0, C, h1, h1', hB⟩ := sim_block env t l c (w := mark t false w) hg1 ht hp
  have hk := keeps'_block env t l (w := mark t false w) hg1 hp
  have hp2 : OkR (block env t l (some (key c)) (mark t false w)).2.tests (some (key c)) := by rw [hk.tests]; exact hp
  have hk2 := keeps_ctrlEnd t hk.good hp2
  obtain ⟨e, he⟩ := step_ctrlEnd t hk.good
  have hcl : (toRun env t l (some (key c)) w).2.cleanups = (block env t l (some (key c)) (mark t false w)).2.cleanups := hk2.cleanups
  rcases hB with hB | ⟨hB, hst⟩
  · refine ⟨{ t0 with endHook := e }, C, h1, h1', fun env' hen o i st h => ?_⟩
    rw [hcl] at hen
    obtain ⟨d, hd⟩ := hB e env' hen o i _ (h.mark (t := t) rfl false)
    have h4 := he { t0 with endHook := e } h1 rfl c _ _ hp2 hd.2
    exact ⟨_, rr_fin hd h4⟩
  · refine ⟨t0, C, h1, h1', fun env' hen o i st h => ?_⟩
    rw [hcl] at hen
    obtain ⟨d, hd⟩ := hB env' hen o i _ (h.mark (t := t) rfl false)
    have h4 : RR ⟨d, o, i⟩ (ctrlEnd t (some (key c)) (block env t l (some (key c)) (mark t false w)).2)
        (Runner.ctrlEnd t0 c (Runner.block env' t0 l c { st.ev .start with started := false }).2) := by
      unfold ctrlEnd Runner.ctrlEnd
      rw [hd.2.started, hst]
      exact ⟨trivial, hd.2⟩
    exact ⟨_, rr_fin hd h4⟩

def HoldsI (env : Env) (t : T) (l : Bool) (c : Runner.Cur) (w : W) (C : Runner.CleanupData) (t' : Runner.T) : Prop :=
  ∀ env' : Runner.Env, (w.cleanups < (inner env t l (some (key c)) w).2.cleanups → env'.cleanup w.cleanups = C) → ∀ o i st, Sim ⟨.test t.id, o, i⟩ w st →
    ∃ d, RR ⟨d, o, i⟩ (inner env t l (some (key c)) w) (Runner.inner env' t' l c st)

theorem inner_eq (env : Env) (t : T) (l : Bool) (p : Option RKey) : inner env t l p =
    seq (user t.reqs) (if t.avoid = 0 then toRun env t l p else seq (act (addSkips t.avoid)) (hook (.avoided t.id) t.avoidedHook)) := rfl

theorem keeps'_inner (env : Env) (t : T) (l : Bool) {prev : Option RKey} {w : W} (hg : Good w.tests w.cl) (hp : OkR w.tests prev) :
    Kept' w (inner env t l prev w).2 := by
  rw [inner_eq]
  have h1 := keeps_user t.reqs w hg
  refine keeps'_seq h1.weak fun w1 heq => ?_
  rw [heq] at h1
  split
  · exact keeps'_toRun env t l h1.good (by rw [h1.tests]; exact hp)
  · have h2 := keeps_addSkips t.avoid h1.good
    exact keeps'_seq (m := act (addSkips t.avoid)) h2.weak fun w2 heq2 => by
      cases heq2
      exact (keeps_hook _ _ _ h2.good).weak

theorem sim_inner (env : Env) (t : T) (l : Bool) (c : Runner.Cur) {w : W} (hg : Good w.tests w.cl) (ht : t.id ∈ w.tests) (hp : OkR w.tests (some (key c))) :
    ∃ (t0 : Runner.T) (C : Runner.CleanupData), t0.id = t.id ∧ t0.module = t.module ∧ HoldsI env t l c w C t0 := by
  obtain ⟨rs, -, hrs⟩ := step_user t.reqs hg
  have hk1 := keeps_user t.reqs w hg
  unfold HoldsI
  rw [inner_eq]
  rcases heq : user t.reqs w with ⟨_ | y, w1⟩ <;> rw [heq] at hk1 hrs
  rotate_left
  · refine ⟨{ id := t.id, file := 0, module := t.module, reqStep := rs }, {}, rfl, rfl, fun env' _ o i st h => ⟨.test t.id, ?_⟩⟩
    rw [seq_some heq]
    have h1 := hrs _ _ h
    unfold Runner.inner Runner.processReqs
    generalize Runner.runStep rs st = q at h1
    rcases q with ⟨_ | z, st1⟩
    · exact h1.1.elim
    · exact h1
  · rw [seq_none heq]
    by_cases ha : t.avoid = 0
    · rw [if_pos ha]
      have hp1 : OkR w1.tests (some (key c)) := by rw [hk1.tests]; exact hp
      obtain ⟨t0, C, h1, h1', hR⟩ := sim_toRun env t l c hk1.good (by rw [hk1.tests]; exact ht) hp1
      refine ⟨{ t0 with reqStep := rs, avoid := [] }, C, h1, h1', fun env' hen o i st h => ?_⟩
      have h2 := hrs _ _ h
      obtain ⟨q, hq⟩ : ∃ q, Runner.runStep rs st = q := ⟨_, rfl⟩
      rw [hq] at h2
      rcases q with ⟨_ | z, st1⟩
      · obtain ⟨d, hd⟩ := hR env' (by rw [show w1.cleanups = w.cleanups from hk1.cleanups]; exact hen) o i st1 h2.2
        refine ⟨d, ?_⟩
        have e : Runner.inner env' { t0 with reqStep := rs, avoid := [] } l c st =
            ((Runner.ctrlEnd t0 c (Runner.block env' t0 l c { st1.ev .start with started := false }).2).1.or
              (Runner.block env' t0 l c { st1.ev .start with started := false }).1,
             (Runner.ctrlEnd t0 c (Runner.block env' t0 l c { st1.ev .start with started := false }).2).2) := by
          unfold Runner.inner Runner.processReqs
          rw [hq]
          rfl
        rw [e]; exact hd
      · exact h2.1.elim
    · rw [if_neg ha]
      have hk2 := keeps_addSkips t.avoid hk1.good
      obtain ⟨s, hs⟩ := step_hook (e := .avoided t.id) t.avoidedHook rfl rfl hk2.good
      refine ⟨{ id := t.id, file := 0, module := t.module, reqStep := rs, avoid := List.replicate t.avoid "skip", avoidedHook := s }, {}, rfl, rfl,
        fun env' _ o i st h => ⟨.test t.id, ?_⟩⟩
      have h2 := hrs _ _ h
      unfold Runner.inner Runner.processReqs
      generalize Runner.runStep rs st = q at h2
      rcases q with ⟨_ | z, st1⟩
      · simp only [if_neg (show List.replicate t.avoid "skip" ≠ [] by simpa using ha)]
        have h3 := hs _ _ (h2.2.addSkips t.avoid)
        have e : seq (act (addSkips t.avoid)) (hook (.avoided t.id) t.avoidedHook) w1 = hook (.avoided t.id) t.avoidedHook (addSkips t.avoid w1) := rfl
        rw [e]
        generalize Runner.runStep s _ = q at h3
        rcases q with ⟨_ | z, st2⟩ <;> exact h3
      · exact h2.1.elim

/-! ## The context of a test -/

theorem keeps'_handle_inner (env : Env) (t : T) (l : Bool) {prev : Option RKey} {w : W} (hg : Good w.tests w.cl) (hp : OkR w.tests prev) :
    Kept' w (handle true (inner env t l prev) w).2 := keeps'_handle (keeps'_inner env t l hg hp)

theorem handle_cleanups (b : Bool) (m : M) (w : W) : (handle b m w).2.cleanups = (m w).2.cleanups := by
  unfold handle
  cases m w with
  | mk o w1 =>
    cases o with
    | none => rfl
    | some x => simp only; split <;> split <;> rfl

/-- The state in which a test begins. -/
def entered (t : T) (w : W) : W := setContext (some (.test t.id)) (some t.id) (addTest t w)

theorem good_entered (t : T) {w : W} (hg : Good w.tests w.cl) : Good (entered t w).tests (entered t w).cl := by
  have hm : ∀ x ∈ w.tests, x ∈ w.tests ++ [t.id] := fun x hx => List.mem_append_left _ hx
  have := hg.mono hm
  exact ⟨.inr ⟨t.id, (by show t.id ∈ w.tests ++ [t.id]; simp), rfl⟩, fun s hs => by cases hs; show t.id ∈ w.tests ++ [t.id]; simp, this.pend, this.regs, this.ended⟩

theorem runSingle_new (env : Env) (t : T) (l : Bool) {w : W} (h : t.id ∉ w.tests) : runSingle env t l w =
    ((handle true (inner env t l w.cl.curResult) (entered t w)).1,
     setContext w.cl.curResult w.cl.curTest (handle true (inner env t l w.cl.curResult) (entered t w)).2) := by
  unfold runSingle
  rw [if_neg h]
  rfl

theorem runSingle_keeps (env : Env) (t : T) (l : Bool) {w : W} (hg : Good w.tests w.cl) :
    (runSingle env t l w).2.tests = (if t.id ∈ w.tests then w.tests else w.tests ++ [t.id]) ∧ w.cleanups ≤ (runSingle env t l w).2.cleanups ∧
    Good (runSingle env t l w).2.tests (runSingle env t l w).2.cl ∧ (runSingle env t l w).2.cl.curResult = w.cl.curResult ∧
    (runSingle env t l w).2.cl.curTest = w.cl.curTest := by
  by_cases h : t.id ∈ w.tests
  · unfold runSingle; rw [if_pos h, if_pos h]; exact ⟨rfl, Nat.le_refl _, hg, rfl, rfl⟩
  · rw [runSingle_new env t l h, if_neg h]
    have hm : ∀ x ∈ w.tests, x ∈ w.tests ++ [t.id] := fun x hx => List.mem_append_left _ hx
    have h1 := keeps'_handle_inner env t l (good_entered t hg) (hg.cur.mono hm)
    refine ⟨h1.tests, h1.cleanups, ?_, rfl, rfl⟩
    have h2 := h1.good
    refine ⟨?_, ?_, h2.pend, h2.regs, h2.ended⟩
    · show OkR (handle true (inner env t l w.cl.curResult) (entered t w)).2.tests _
      rw [h1.tests]; exact hg.cur.mono hm
    · intro s hs
      show s ∈ (handle true (inner env t l w.cl.curResult) (entered t w)).2.tests
      rw [h1.tests]; exact hm s (hg.curT s hs)

theorem ResSim.create {F : List Nat} {f : RKey → Result} {res : SessionResults} (h : ResSim F f res) {id : Nat} (hid : id ∉ F) :
    ∃ res', res.create id = some res' ∧ ResSim (F ++ [id]) f res' := by
  refine ⟨{ res with tests := res.tests ++ [(id, {})] }, by simp [SessionResults.create, h.get_none hid], ?_, ?_, ?_, h.global, h.worker, ?_, ?_⟩
  · simp [h.tests]
  · rw [List.nodup_append]
    exact ⟨h.nodup, by simp, by intro a ha b hb; simp only [List.mem_singleton] at hb; rintro rfl; exact hid (hb ▸ ha)⟩
  · intro p hp
    rcases List.mem_append.1 hp with hp | hp
    · exact h.each p hp
    · simp only [List.mem_singleton] at hp
      subst hp
      exact (h.new id hid).symm
  · intro i hi
    exact h.new i (fun h => hi (List.mem_append_left _ h))
  · intro p hp
    rcases List.mem_append.1 hp with hp | hp
    · exact h.fatal p hp
    · simp only [List.mem_singleton] at hp
      subst hp
      rfl

/-- One test. -/
theorem sim_runSingle (env : Env) (t : T) (l : Bool) (c : Runner.Cur) {w : W} (hg : Good w.tests w.cl) (ht : t.id ∉ w.tests) (hc : w.cl.curResult = some (key c)) :
    ∃ (t0 : Runner.T) (C : Runner.CleanupData), t0.id = t.id ∧ t0.module = t.module ∧
      ∀ env' : Runner.Env, (w.cleanups < (runSingle env t l w).2.cleanups → env'.cleanup w.cleanups = C) → ∀ o i st, Sim ⟨c, o, i⟩ w st →
        RR ⟨c, o, i⟩ (runSingle env t l w) (Runner.runSingle env' t0 l st) := by
  have hm : ∀ x ∈ w.tests, x ∈ w.tests ++ [t.id] := fun x hx => List.mem_append_left _ hx
  have hp : OkR (entered t w).tests (some (key c)) := by rw [← hc]; exact hg.cur.mono hm
  have hin : t.id ∈ (entered t w).tests := by simp [entered, addTest, setContext]
  obtain ⟨t0, C, h1, h1', hI⟩ := sim_inner env t l c (good_entered t hg) hin hp
  have hkp := runSingle_keeps env t l hg
  rw [runSingle_new env t l ht, hc] at hkp ⊢
  refine ⟨t0, C, h1, h1', fun env' hen o i st h => ?_⟩
  obtain ⟨res', hr1, hr2⟩ := h.res.create ht
  have hs0 : Sim ⟨.test t.id, some t.id, i⟩ (entered t w) { st with res := res', cur := .test t.id, test := some t.id } :=
    ⟨rfl, rfl, rfl, rfl, h.indexed, good_entered t hg, hr2, ⟨h.scope.1, h.scope.2, h.scope.3⟩, h.started, h.cleanups, h.trace, h.bodies⟩
  obtain ⟨d, hd⟩ := hI env' (by
    intro hlt
    apply hen
    show _ < (handle true (inner env t l (some (key c))) (entered t w)).2.cleanups
    rw [handle_cleanups]; exact hlt) (some t.id) i _ hs0
  have h2 := rr_handle (b := true) hd
  have e : Runner.runSingle env' t0 l st =
      ((Runner.handle true (Runner.inner env' t0 l c { st with res := res', cur := .test t.id, test := some t.id })).1,
       { (Runner.handle true (Runner.inner env' t0 l c { st with res := res', cur := .test t.id, test := some t.id })).2 with cur := c, test := o }) := by
    unfold Runner.runSingle
    rw [h1, hr1, h.stCur, h.stTest]
  rw [e]
  refine ⟨h2.1, ?_⟩
  have h3 := h2.2
  have hot : w.cl.curTest = o := h.test
  rw [hot] at hkp ⊢
  exact ⟨rfl, rfl, rfl, rfl, h3.indexed, hkp.2.2.1, h3.res, ⟨h3.scope.1, h3.scope.2, h3.scope.3⟩, h3.started, h3.cleanups, h3.trace, h3.bodies⟩

/-! ## The loop -/

theorem loop_keeps (env : Env) (ts : List T) {w : W} (hg : Good w.tests w.cl) :
    w.cleanups ≤ (loop env ts w).2.2.cleanups ∧ Good (loop env ts w).2.2.tests (loop env ts w).2.2.cl ∧
    (loop env ts w).2.2.cl.curResult = w.cl.curResult ∧ (loop env ts w).2.2.cl.curTest = w.cl.curTest := by
  induction ts generalizing w with
  | nil => exact ⟨Nat.le_refl _, hg, rfl, rfl⟩
  | cons t ts ih =>
    obtain ⟨-, h2, h3, h4, h5⟩ := runSingle_keeps env t ts.isEmpty hg
    simp only [loop]
    split <;> rename_i heq <;> rw [heq] at h2 h3 h4 h5
    · exact ⟨h2, h3, h4, h5⟩
    · split
      · exact ⟨h2, h3, h4, h5⟩
      · obtain ⟨g2, g3, g4, g5⟩ := ih h3
        exact ⟨Nat.le_trans h2 g2, g3, g4.trans h4, g5.trans h5⟩

/-- A test of the runner without scripts. -/
def bare (t : T) : Runner.T := { id := t.id, file := 0, module := t.module }

/-- The tests of the runner for those of a session. -/
def Same (ts : List T) (ts' : List Runner.T) : Prop := ts'.map (fun t => (t.id, t.module)) = ts.map (fun t => (t.id, t.module))

theorem same_bare (ts : List T) : Same ts (ts.map bare) := by simp [Same, bare]
theorem Same.isEmpty {ts : List T} {ts' : List Runner.T} (h : Same ts ts') : ts'.isEmpty = ts.isEmpty := by
  cases ts <;> cases ts' <;> simp_all [Same]

/-- The tests that have an index are those that have results. -/
def IdxOk (i : List Nat) (w : W) : Prop := ∀ id, id ∈ i ↔ id ∈ w.tests

theorem Sim.indexed' {c : Runner.Cur} {o : Option Nat} {i : List Nat} {w : W} {st : Runner.St} (h : Sim ⟨c, o, i⟩ w st) (i' : List Nat) (f : Option Nat) :
    Sim ⟨c, o, i'⟩ w { st with indexed := i', lastFile := f } :=
  ⟨h.cur, h.stCur, h.test, h.stTest, rfl, h.good, h.res, h.scope, h.started, h.cleanups, h.trace, h.bodies⟩

theorem sim_loop (env : Env) (ts : List T) (c : Runner.Cur) {w : W} (hg : Good w.tests w.cl) (hc : w.cl.curResult = some (key c)) :
    ∃ (ts' : List Runner.T) (C : Nat → Runner.CleanupData), Same ts ts' ∧
      ∀ env' : Runner.Env, env'.stop = env.stop → (∀ n, w.cleanups ≤ n → n < (loop env ts w).2.2.cleanups → env'.cleanup n = C n) →
        ∀ o i st, Sim ⟨c, o, i⟩ w st → IdxOk i w → ∃ i', XR (loop env ts w).1 (Runner.loop env' ts' st).1 ∧
          Sim ⟨c, o, i'⟩ (loop env ts w).2.2 (Runner.loop env' ts' st).2.2.2 ∧ Same (loop env ts w).2.1 (Runner.loop env' ts' st).2.2.1 := by
  induction ts generalizing w with
  | nil => exact ⟨[], fun _ => {}, rfl, fun env' _ _ o i st h hi => ⟨i, trivial, h, rfl⟩⟩
  | cons t ts ih =>
    by_cases hd : t.id ∈ w.tests
    · refine ⟨bare t :: ts.map bare, fun _ => {}, same_bare (t :: ts), fun env' _ _ o i st h hi => ⟨i, ?_⟩⟩
      have e1 : loop env (t :: ts) w = (err, ts, w) := by
        simp only [loop]; unfold runSingle; rw [if_pos hd]; rfl
      have e2 : Runner.loop env' (bare t :: ts.map bare) st = (some { kind := .error }, false, ts.map bare, st) := by
        simp only [Runner.loop]
        rw [if_pos (by rw [h.indexed]; exact (hi t.id).2 hd)]
      rw [e1, e2]
      exact ⟨⟨rfl, rfl, rfl, fun h => by cases h⟩, h, same_bare ts⟩
    · obtain ⟨t0, C0, h1, h1', hS⟩ := sim_runSingle env t ts.isEmpty c hg hd hc
      obtain ⟨k1, k2, k3, k4, -⟩ := runSingle_keeps env t ts.isEmpty hg
      rw [if_neg hd] at k1
      rcases heq : runSingle env t ts.isEmpty w with ⟨_ | y, w1⟩ <;> rw [heq] at hS k1 k2 k3 k4
      rotate_left
      · -- the test raised
        have e1 : loop env (t :: ts) w = (some y, ts, w1) := by simp only [loop]; rw [heq]
        rw [e1]
        refine ⟨t0 :: ts.map bare, fun _ => C0, ?_, fun env' hst hen o i st h hi => ⟨t.id :: i, ?_⟩⟩
        · have := same_bare ts
          simp only [Same, List.map_cons, h1, h1'] at this ⊢
          rw [this]
        · simp only [Runner.loop]
          rw [if_neg (by rw [h1, h.indexed]; exact fun hx => hd ((hi t.id).1 hx)), (same_bare ts).isEmpty]
          generalize hst0 : ((if st.lastFile ≠ some t0.file then
              { ({ st with indexed := t0.id :: st.indexed } : Runner.St).emit (.fileStart t0.file) with lastFile := some t0.file }
              else { st with indexed := t0.id :: st.indexed }) : Runner.St).emit (.reportStart t0.id) = st0
          have h0 : Sim ⟨c, o, t.id :: i⟩ w st0 := by
            subst hst0
            apply Sim.hidden _ rfl
            rw [h1, h.indexed]
            split
            · exact Sim.indexed' (Sim.hidden (r := .fileStart t0.file) (h.indexed' (t.id :: i) st.lastFile) rfl) (t.id :: i) (some t0.file)
            · exact h.indexed' (t.id :: i) st.lastFile
          have h2 := hS env' (fun hlt => hen _ (Nat.le_refl _) hlt) _ _ _ h0
          generalize Runner.runSingle env' t0 ts.isEmpty st0 = q at h2
          rcases q with ⟨_ | z, st1⟩
          · exact h2.1.elim
          · exact ⟨h2.1, h2.2, same_bare ts⟩
      · obtain ⟨ts', C1, hsame, hL⟩ := ih k3 (k4.trans hc)
        obtain ⟨l1, -, -, -⟩ := loop_keeps env ts k3
        have k1 : w1.tests = w.tests ++ [t.id] := k1
        have k2 : w.cleanups ≤ w1.cleanups := k2
        refine ⟨t0 :: ts', fun n => if n < w1.cleanups then C0 else C1 n, ?_, fun env' hst hen o i st h hi => ?_⟩
        · simp only [Same, List.map_cons, h1, h1'] at hsame ⊢
          rw [hsame]
        · have hclt : w1.cleanups ≤ (loop env (t :: ts) w).2.2.cleanups := by
            simp only [loop]; rw [heq]; simp only
            split
            · exact Nat.le_refl _
            · exact l1
          simp only [Runner.loop]
          rw [if_neg (by rw [h1, h.indexed]; exact fun hx => hd ((hi t.id).1 hx)), hsame.isEmpty]
          generalize hst0 : ((if st.lastFile ≠ some t0.file then
              { ({ st with indexed := t0.id :: st.indexed } : Runner.St).emit (.fileStart t0.file) with lastFile := some t0.file }
              else { st with indexed := t0.id :: st.indexed }) : Runner.St).emit (.reportStart t0.id) = st0
          have h0 : Sim ⟨c, o, t.id :: i⟩ w st0 := by
            subst hst0
            apply Sim.hidden _ rfl
            rw [h1, h.indexed]
            split
            · exact Sim.indexed' (Sim.hidden (r := .fileStart t0.file) (h.indexed' (t.id :: i) st.lastFile) rfl) (t.id :: i) (some t0.file)
            · exact h.indexed' (t.id :: i) st.lastFile
          have h2 := hS env' (fun hlt => by
            rw [hen _ (Nat.le_refl _) (Nat.lt_of_lt_of_le hlt hclt)]; exact if_pos hlt) _ _ _ h0
          generalize Runner.runSingle env' t0 ts.isEmpty st0 = q at h2
          rcases q with ⟨_ | z, st1⟩
          · simp only
            obtain ⟨r, hr, -, hfat⟩ := h2.2.res.get (id := t.id) (by rw [k1]; simp)
            rw [h1, hr]
            simp only [hfat, Bool.false_eq_true, if_false]
            generalize hst2 : (if ts'.head?.map (·.file) ≠ some t0.file then (st1.emit (.reportEnd t.id)).emit (.fileEnd t0.file)
              else st1.emit (.reportEnd t.id)) = st2
            have h3 : Sim ⟨c, o, t.id :: i⟩ w1 st2 := by
              subst hst2
              split
              · exact (Sim.hidden (Sim.hidden h2.2 rfl) rfl)
              · exact Sim.hidden h2.2 rfl
            rw [hst, h3.res.success]
            simp only [loop, heq] at hen ⊢
            by_cases hsp : (env.stop && !success w1) = true
            · simp only [hsp, if_true]
              exact ⟨t.id :: i, trivial, h3, hsame⟩
            · simp only [hsp, if_false] at hen ⊢
              refine hL env' hst (fun n hn hn' => ?_) o (t.id :: i) st2 h3 ?_
              · rw [hen n (Nat.le_trans k2 hn) hn', if_neg (Nat.not_lt.2 hn)]
              · intro id
                rw [k1, List.mem_append, List.mem_cons, hi id, List.mem_singleton]
                exact Or.comm
          · exact h2.1.elim

/-! ## The end of the run -/

theorem sim_markUnrun (ts : List T) (ts' : List Runner.T) (hs : Same ts ts') {x : RCtx} {w : W} {st : Runner.St} (h : Sim x w st) :
    RR x (markUnrun ts w) (Runner.markUnrun ts' st) := by
  induction ts generalizing ts' w st with
  | nil =>
    cases ts' with
    | nil => exact ⟨trivial, h⟩
    | cons t' ts' => simp [Same] at hs
  | cons t ts ih =>
    cases ts' with
    | nil => simp [Same] at hs
    | cons t' ts' =>
      simp only [Same, List.map_cons, List.cons.injEq, Prod.mk.injEq] at hs
      simp only [markUnrun, Runner.markUnrun, hs.1.1]
      split
      · rename_i ht
        obtain ⟨r, hr, -⟩ := h.res.get ht
        have : st.res.create t.id = none := by
          unfold SessionResults.create
          rw [if_pos (by rw [show st.res.lookup t.id = some r from hr]; rfl)]
        rw [this]
        exact ⟨⟨rfl, rfl, rfl, fun h => by cases h⟩, h⟩
      · rename_i ht
        obtain ⟨res', hr1, hr2⟩ := h.res.create ht
        rw [hr1]
        have hm : ∀ x ∈ w.tests, x ∈ w.tests ++ [t.id] := fun x hx => List.mem_append_left _ hx
        exact ih ts' hs.2 ⟨h.cur, h.stCur, h.test, h.stTest, h.indexed, h.good.mono hm, hr2, ⟨h.scope.1, h.scope.2, h.scope.3⟩, h.started, h.cleanups,
          h.trace, h.bodies⟩

/-- The whole run: there are scripts with which the runner does the same. -/
theorem sim_runTests (env : Env) (ts : List T) (c : Runner.Cur) {w : W} (hg : Good w.tests w.cl) (hc : w.cl.curResult = some (key c)) :
    ∃ (ts' : List Runner.T) (env' : Runner.Env), Same ts ts' ∧ env'.stop = env.stop ∧
      ∀ o i st, Sim ⟨c, o, i⟩ w st → IdxOk i w → ∃ i', RR ⟨c, o, i'⟩ (runTests env ts w) (Runner.runTests env' ts' st) := by
  obtain ⟨ts', C, hsame, hL⟩ := sim_loop env ts c hg hc
  obtain ⟨-, l2, -, -⟩ := loop_keeps env ts hg
  obtain ⟨C1, hC1⟩ := sim_initiateCleanup env l2
  let env' : Runner.Env := { stop := env.stop, cleanup := fun n => if n < (loop env ts w).2.2.cleanups then C n else C1 }
  refine ⟨ts', env', hsame, rfl, fun o i st h hi => ?_⟩
  obtain ⟨i', h1, h2, h3⟩ := hL env' rfl (fun n _ hn => if_pos hn) o i { st with lastFile := none } (h.indexed ▸ h.indexed' st.indexed none) hi
  have h4 := hC1 env' (fun _ => if_neg (Nat.lt_irrefl _)) _ _ h2
  refine ⟨i', ?_⟩
  unfold runTests Runner.runTests
  generalize loop env ts w = q at h1 h2 h3 h4
  generalize Runner.loop env' ts' { st with lastFile := none } = q' at h1 h2 h3 h4
  rcases q with ⟨x1, rest, w1⟩
  rcases q' with ⟨y1, cm, rest', st1⟩
  simp only at h1 h2 h3 h4 ⊢
  generalize initiateCleanup env w1 = p at h4
  generalize Runner.initiateCleanup env' st1 = p' at h4
  rcases p with ⟨x2, w2⟩
  rcases p' with ⟨y2, st2⟩
  have h5 := h1.or h4.1
  simp only at h5 ⊢
  generalize x2.or x1 = a at h5
  generalize y2.or y1 = b at h5
  cases a with
  | some a =>
    cases b with
    | none => exact h5.elim
    | some b => exact ⟨h5, h4.2⟩
  | none =>
    cases b with
    | some b => exact h5.elim
    | none =>
      simp only
      have h6 := sim_markUnrun rest rest' h3 h4.2
      generalize markUnrun rest w2 = a at h6
      generalize Runner.markUnrun rest' st2 = b at h6
      rcases a with ⟨a, w3⟩
      rcases b with ⟨b, st3⟩
      cases b with
      | some b => cases a with
        | none => exact h6.1.elim
        | some a => exact h6
      | none =>
        cases a with
        | some a => exact h6.1.elim
        | none =>
          simp only
          have h7 := h6.2
          split
          · exact ⟨trivial, h7.cur, h7.stCur, h7.test, h7.stTest, h7.indexed, h7.good, h7.res, h7.scope, h7.started, h7.cleanups, h7.trace, h7.bodies⟩
          · split
            · exact ⟨trivial, h7.hidden rfl⟩
            · exact ⟨trivial, h7⟩

end Slash.Whole
