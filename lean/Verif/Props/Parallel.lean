import Verif.Lemmas.Parallel
/-!
# Parallel runs: properties C29-C33, C64

A history is any list of requests, in the order in which the server handles them: every interleaving of any number of
workers, with crashes anywhere, is one.
-/
namespace Slash.Par

/-- the test a response hands out -/
def testOf : Resp → Option Nat
  | .test i => some i
  | _ => none

/-- the tests handed out in a history, in order -/
def handedOut (cfg : Cfg) (ws : List WorkerCfg) (qs : List Req) : List Nat := (run cfg (init cfg ws) qs).1.filterMap testOf

theorem handedOut_sublist (cfg : Cfg) (ws : List WorkerCfg) (qs : List Req) :
    (handedOut cfg ws qs).Sublist ((exec cfg ws qs).handed.map (·.2)) := by
  induction qs using snocInd with
  | nil => simp [handedOut, run]
  | snoc qs q ih =>
    simp only [handedOut, run_snoc, List.filterMap_append, exec_snoc] at ih ⊢
    change (_ ++ List.filterMap testOf [(step cfg (exec cfg ws qs) q).1]).Sublist _
    rcases step_hand cfg (exec cfg ws qs) q with ⟨r, h1, h2, h3⟩ | ⟨r, h1, h2, h3⟩ | ⟨c, i, r, h1, h2, hm, hr⟩
    · have : testOf (step cfg (exec cfg ws qs) q).1 = none := by
        cases hh : (step cfg (exec cfg ws qs) q).1 with
        | test i => exact absurd hh (h3 i)
        | _ => rfl
      simpa [this, h1] using ih
    · have : testOf (step cfg (exec cfg ws qs) q).1 = none := by
        cases hh : (step cfg (exec cfg ws qs) q).1 with
        | test i => exact absurd hh (h3 i)
        | _ => rfl
      simpa [this, h1] using ih
    · rw [h1, List.map_append]
      refine ih.append ?_
      rcases hr with hr | hr <;> rw [hr] <;> simp [testOf]

/-- C29: over any history no test is handed out twice (in particular not to two workers), and only collected tests are. -/
theorem C29_handed_out_once (cfg : Cfg) (ws : List WorkerCfg) (qs : List Req) :
    (handedOut cfg ws qs).Nodup ∧ ∀ i ∈ handedOut cfg ws qs, i < cfg.n := by
  have h := handedOut_sublist cfg ws qs
  obtain ⟨h1, h2⟩ := nodup_hand cfg ws qs
  exact ⟨h.nodup (List.nodup_append.1 h1).1, fun i hi => h2 i (List.mem_append_left _ (h.subset hi))⟩

/-- two workers, three tests, one worker crashing: both get tests, never the same -/
example : handedOut { n := 3, workers := 2 } [{ id := 1 }, { id := 2 }]
    [.connect 1 true, .connect 2 true, .validate 1 [], .validate 2 [], .getTest 1 true, .getTest 2 true, .getTest 2 true,
     .finished 1 {}, .getTest 1 true, .clientFailure 2, .getTest 1 true, .finished 1 {}, .getTest 1 true] = [0, 1, 2] := by decide

/-! ## Accounting -/

/-- worker `c` is executing test `i` and was not reported to have failed doing so -/
def Executes (st : St) (c i : Nat) : Prop := getKey c st.executing = some (some i) ∧ (c, i) ∉ st.failed

/-- C30: if each worker connects once, and nothing is heard any more of a test whose worker was reported dead, every
collected test is at any time in exactly one of three states, and exactly the finished ones have a result, one each. -/
theorem C30_every_test_accounted_partial (cfg : Cfg) (ws : List WorkerCfg) (qs : List Req) (hl : Legal qs) :
    let st := exec cfg ws qs
    (∀ i, i < cfg.n →
      (i ∈ st.unstarted ∧ (∀ c, ¬ Executes st c i) ∧ i ∉ st.finished) ∨
      (i ∉ st.unstarted ∧ (∃ c, Executes st c i ∧ ∀ d, Executes st d i → d = c) ∧ i ∉ st.finished) ∨
      (i ∉ st.unstarted ∧ (∀ c, ¬ Executes st c i) ∧ i ∈ st.finished)) ∧
    st.unstarted.Nodup ∧ st.finished.Nodup ∧ st.results.map (·.1) = st.finished ∧
    (∀ i ∈ st.unstarted ++ st.finished, i < cfg.n) := by
  intro st
  have h : Inv cfg.n qs st := inv_exec cfg ws qs hl
  have hnd := h.nodup
  have hw : ∀ i, i ∈ working st.failed st.executing ↔ ∃ c, Executes st c i := fun i => mem_working h.keys
  obtain ⟨hn1, hn2, hn3⟩ := List.nodup_append.1 hnd
  obtain ⟨hn4, hn5, hn6⟩ := List.nodup_append.1 hn1
  refine ⟨fun i hi => ?_, hn4, hn2, h.res, fun i hi => ?_⟩
  · have hm := h.perm.mem_iff.2 (List.mem_range.2 hi)
    rcases List.mem_append.1 hm with hm | hm
    · have hf : i ∉ st.finished := fun hf => hn3 i hm i hf rfl
      rcases List.mem_append.1 hm with hu | hx
      · exact .inl ⟨hu, fun c hc => hn6 i hu i ((hw i).2 ⟨c, hc⟩) rfl, hf⟩
      · refine .inr (.inl ⟨fun hu => hn6 i hu i hx rfl, ?_, hf⟩)
        obtain ⟨c, hc⟩ := (hw i).1 hx
        exact ⟨c, hc, fun d hd => working_unique hn5 h.keys hd.1 hc.1 hd.2 hc.2⟩
    · exact .inr (.inr ⟨fun hu => hn3 i (List.mem_append_left _ hu) i hm rfl,
        fun c hc => hn3 i (List.mem_append_right _ ((hw i).2 ⟨c, hc⟩)) i hm rfl, hm⟩)
  · have : i ∈ st.unstarted ++ working st.failed st.executing ++ st.finished := by
      rcases List.mem_append.1 hi with hi | hi <;> simp [hi]
    exact List.mem_range.1 (h.perm.mem_iff.1 this)

/-- Boolean form of `Legal`, for examples -/
def legalB : List Req → Bool
  | [] => true
  | q :: qs =>
    (match q with
      | .connect c _ => qs.all (fun r => match r with | .connect d _ => c ≠ d | _ => true)
      | .clientFailure c => qs.all (fun r => match r with | .finished d _ => c ≠ d | _ => true)
      | _ => true) && legalB qs

theorem legal_of_legalB (qs : List Req) (h : legalB qs = true) : Legal qs := by
  induction qs with
  | nil => exact ⟨fun a b c k e => by simp at e, fun a b c k e => by simp at e⟩
  | cons q qs ih =>
    simp only [legalB, Bool.and_eq_true] at h
    obtain ⟨h1, h2⟩ := ih h.2
    refine ⟨fun a b c k e k' hm => ?_, fun a b c r e hm => ?_⟩
    · cases a with
      | nil => simp at hm
      | cons p a =>
        simp only [List.cons_append, List.cons.injEq] at e
        obtain ⟨rfl, e⟩ := e
        rcases List.mem_cons.1 hm with hm | hm
        · subst hm
          have := h.1
          simp only [List.all_eq_true] at this
          have := this (.connect c k) (by rw [e]; simp)
          simp at this
        · exact h1 a b c k e k' hm
    · cases a with
      | nil => simp at hm
      | cons p a =>
        simp only [List.cons_append, List.cons.injEq] at e
        obtain ⟨rfl, e⟩ := e
        rcases List.mem_cons.1 hm with hm | hm
        · subst hm
          have := h.1
          simp only [List.all_eq_true] at this
          have := this (.finished c r) (by rw [e]; simp)
          simp at this
        · exact h2 a b c r e hm

/-- a worker crashes while executing test 1; test 2 is marked as not run; test 0 was run -/
example :
    let qs := [.connect 1 true, .connect 2 true, .validate 1 [], .validate 2 [], .getTest 1 true, .getTest 2 true,
               .finished 1 {}, .clientFailure 2]
    Legal qs ∧
    (exec { n := 3, workers := 2 } [{ id := 1 }, { id := 2 }] qs).results =
      [(0, .ran {}), (1, .interrupted), (2, .notRun)] :=
  ⟨legal_of_legalB _ (by decide), by decide⟩

/-- C30, missing: a worker whose keep-alive lapsed is reported as failed but may still be running; if it then reports the
test, the test counts as finished twice (the server does not forget what the dead worker was executing). The server then
takes the run for finished while another test is still executing. -/
theorem C30_late_report_violated :
    let cfg : Cfg := { n := 2, workers := 2 }
    let qs := [.connect 1 true, .connect 2 true, .validate 1 [], .validate 2 [], .getTest 1 true, .getTest 2 true,
               .clientFailure 1, .finished 1 {}]
    let st := exec cfg [{ id := 1 }, { id := 2 }] qs
    st.finished = [0, 0] ∧ hasMoreTests cfg st = false ∧ getKey 2 st.executing = some (some 1) ∧ (2, 1) ∉ st.failed := by
  decide

/-- C30, missing: a worker connecting again while it executes a test; the test is neither waiting nor executed nor
finished. -/
theorem C30_reconnect_violated :
    let cfg : Cfg := { n := 1, workers := 1 }
    let st := exec cfg [{ id := 1 }] [.connect 1 true, .validate 1 [], .getTest 1 true, .connect 1 true]
    0 ∉ st.unstarted ∧ (∀ p ∈ st.executing, p.2 ≠ some 0) ∧ 0 ∉ st.finished := by decide

/-! ## Forced and excluded tests -/

theorem forcedDict_some {ws : List WorkerCfg} {i c : Nat} (h : forcedDict ws i = some c) : ∃ w ∈ ws, w.id = c ∧ i ∈ w.forced := by
  unfold forcedDict at h
  induction ws using snocInd generalizing c with
  | nil => simp at h
  | snoc ws w ih =>
    rw [List.foldl_append] at h
    simp only [List.foldl_cons, List.foldl_nil] at h
    split at h
    · simp only [Option.some.injEq] at h
      exact ⟨w, by simp, h, by assumption⟩
    · obtain ⟨w', h1, h2⟩ := ih h
      exact ⟨w', by simp [h1], h2⟩

theorem forcedDict_none {ws : List WorkerCfg} {i : Nat} (h : forcedDict ws i = none) : ∀ w ∈ ws, i ∉ w.forced := by
  unfold forcedDict at h
  induction ws using snocInd with
  | nil => simp
  | snoc ws w ih =>
    rw [List.foldl_append] at h
    simp only [List.foldl_cons, List.foldl_nil] at h
    split at h
    · cases h
    · rename_i hw
      intro w' hw'
      rcases List.mem_append.1 hw' with h' | h'
      · exact ih h w' h'
      · simp only [List.mem_singleton] at h'; subst h'; exact hw

/-- C31, forced tests: with the tests forced when the run starts, a test forced onto some workers is only ever handed to
one of these; so if it is forced onto one worker only, it is handed to no other one. -/
theorem C31_forced_goes_there_partial (cfg : Cfg) (ws : List WorkerCfg) (hf : cfg.forced = forcedDict ws)
    (pre : List Req) (c i : Nat) (ok : Bool) (hr : (step cfg (exec cfg ws pre) (.getTest c ok)).1 = .test i)
    (hw : ∃ w ∈ ws, i ∈ w.forced) : ∃ w ∈ ws, w.id = c ∧ i ∈ w.forced := by
  obtain ⟨d, hd, -, -, -, hc, -⟩ := step_test hr
  simp only [Req.getTest.injEq] at hd
  obtain ⟨rfl, -⟩ := hd
  unfold canExecute at hc
  split at hc
  · rename_i w' hw'
    simp only [Option.some.injEq, beq_iff_eq] at hc
    subst hc
    rw [hf] at hw'
    exact forcedDict_some hw'
  · rename_i hn
    rw [hf] at hn
    obtain ⟨w, h1, h2⟩ := hw
    exact absurd h2 (forcedDict_none hn w h1)

/-- C31, excluded tests: if no worker has a test both forced and excluded when the run starts, and workers have different
ids, then a worker is only handed tests not excluded from it by then. -/
theorem C31_excluded_never_handed (cfg : Cfg) (ws : List WorkerCfg) (hf : cfg.forced = forcedDict ws)
    (hid : (ws.map (·.id)).Nodup) (ha : ∀ w ∈ ws, ∀ i ∈ w.forced, i ∉ w.excluded)
    (pre : List Req) (c i : Nat) (ok : Bool) (hr : (step cfg (exec cfg ws pre) (.getTest c ok)).1 = .test i) :
    ∃ w, (exec cfg ws pre).cfgs.find? (·.id == c) = some w ∧ i ∉ w.excluded := by
  obtain ⟨d, hd, -, -, -, hc, -⟩ := step_test hr
  simp only [Req.getTest.injEq] at hd
  obtain ⟨rfl, -⟩ := hd
  unfold canExecute at hc
  split at hc
  · rename_i w' hw'
    simp only [Option.some.injEq, beq_iff_eq] at hc
    subst hc
    rw [hf] at hw'
    obtain ⟨w, h1, h2, h3⟩ := forcedDict_some hw'
    have hl : look w' (init cfg ws).cfgs = some w := by
      have : ∀ l : List WorkerCfg, w ∈ l → (l.map (·.id)).Nodup → look w' l = some w := by
        intro l
        induction l with
        | nil => intro h; simp at h
        | cons v l ih =>
          intro hm hn
          simp only [List.map_cons, List.nodup_cons] at hn
          simp only [look, List.find?_cons] at ih ⊢
          rcases List.mem_cons.1 hm with rfl | hm
          · simp [h2]
          · have : v.id ≠ w' := by
              intro e
              apply hn.1
              rw [e, ← h2]
              exact List.mem_map.2 ⟨w, hm, rfl⟩
            simp only [beq_eq_false_iff_ne.2 this]
            exact ih hm hn.2
      exact this ws h1 hid
    obtain ⟨w2, h4, h5⟩ := look_run cfg (init cfg ws) pre w' hl
    exact ⟨w2, h4, h5.apart (ha w h1) i (h5.forced i h3)⟩
  · simp only [Option.map_eq_some_iff] at hc
    obtain ⟨w, h1, h2⟩ := hc
    refine ⟨w, h1, ?_⟩
    simp only [Bool.not_eq_true', List.contains_eq_mem, decide_eq_false_iff_not] at h2
    exact h2

/-- C31: the configurations reached by any sequence of `exclude_test` and `force_test` calls never have a test both forced
and excluded (the hypothesis of `C31_excluded_never_handed`). -/
theorem C31_not_both (ops : List (Bool × Nat)) (w : WorkerCfg) (h : ∀ i ∈ w.forced, i ∉ w.excluded) :
    let w' := ops.foldl (fun w p => ((if p.1 then w.exclude p.2 else w.force p.2).getD w)) w
    ∀ i ∈ w'.forced, i ∉ w'.excluded := by
  induction ops generalizing w with
  | nil => exact h
  | cons p ops ih =>
    obtain ⟨b, i⟩ := p
    cases b
    · exact ih _ ((grows_force i w).apart h)
    · exact ih _ ((grows_exclude i w).apart h)

theorem calls_from (i : Nat) (ops : List (Bool × Nat)) (w : WorkerCfg) (h : ∀ i ∈ w.forced, i ∉ w.excluded) :
    let w' := ops.foldl (fun w p => ((if p.1 then w.exclude p.2 else w.force p.2).getD w)) w
    (i ∈ w'.excluded ↔ i ∈ w.excluded ∨ i ∉ w.forced ∧ (ops.find? (fun p => p.2 == i)).map (·.1) = some true) ∧
    (i ∈ w'.forced ↔ i ∈ w.forced ∨ i ∉ w.excluded ∧ (ops.find? (fun p => p.2 == i)).map (·.1) = some false) := by
  induction ops generalizing w with
  | nil => simp
  | cons p ops ih =>
    obtain ⟨b, j⟩ := p
    have hi := h i
    cases b
    · obtain ⟨h1, h2⟩ := ih _ ((grows_force j w).apart h)
      simp only [List.foldl_cons, Bool.false_eq_true, if_false, List.find?_cons]
      rw [h1, h2]
      by_cases hj : j = i
      · subst hj
        simp only [beq_self_eq_true, Option.map_some, WorkerCfg.force]
        by_cases he : j ∈ w.excluded
        · simp [he]
        · by_cases hf : j ∈ w.forced <;> simp [he, hf]
      · have hb : (j == i) = false := by simpa using hj
        have hj' : i ≠ j := fun e => hj e.symm
        simp only [hb, WorkerCfg.force]
        by_cases he : j ∈ w.excluded
        · simp [he]
        · by_cases hf : j ∈ w.forced <;> simp [he, hf, hj']
    · obtain ⟨h1, h2⟩ := ih _ ((grows_exclude j w).apart h)
      simp only [List.foldl_cons, if_true, List.find?_cons]
      rw [h1, h2]
      by_cases hj : j = i
      · subst hj
        simp only [beq_self_eq_true, Option.map_some, WorkerCfg.exclude]
        by_cases hf : j ∈ w.forced
        · simp [hf]
        · by_cases he : j ∈ w.excluded <;> simp [he, hf]
      · have hb : (j == i) = false := by simpa using hj
        have hj' : i ≠ j := fun e => hj e.symm
        simp only [hb, WorkerCfg.exclude]
        by_cases hf : j ∈ w.forced
        · simp [hf]
        · by_cases he : j ∈ w.excluded <;> simp [he, hf, hj']

/-- C31: what calls of `exclude_test` (`true`) and `force_test` (`false`) achieve: the first call for a test counts. The test is excluded or forced by it, later calls of
the same kind change nothing, and all calls of the other kind raise. -/
theorem C31_calls (id : Nat) (ops : List (Bool × Nat)) (i : Nat) :
    let w := ops.foldl (fun w p => ((if p.1 then w.exclude p.2 else w.force p.2).getD w)) ({ id := id } : WorkerCfg)
    let first := (ops.find? (fun p => p.2 == i)).map (·.1)
    (i ∈ w.excluded ↔ first = some true) ∧ (i ∈ w.forced ↔ first = some false) ∧
    (w.exclude i = none ↔ first = some false) ∧ (w.force i = none ↔ first = some true) := by
  obtain ⟨h1, h2⟩ := calls_from i ops { id := id } (by simp)
  dsimp only at h1 h2 ⊢
  simp only [List.not_mem_nil, false_or, not_false_eq_true, true_and] at h1 h2
  refine ⟨h1, h2, ?_, ?_⟩
  · rw [← h2]
    unfold WorkerCfg.exclude
    split
    · simp [*]
    · split <;> simp [*]
  · rw [← h1]
    unfold WorkerCfg.force
    split
    · simp [*]
    · split <;> simp [*]

example : [(true, 3), (false, 4), (false, 3), (true, 3), (true, 4), (false, 5)].foldl
    (fun w p => ((if p.1 then w.exclude p.2 else w.force p.2).getD w)) ({ id := 1 } : WorkerCfg) = { id := 1, excluded := [3], forced := [4, 5] } := by decide

/-- test 0 forced onto worker 2, test 1 excluded from it: worker 1 (asking first) is given test 1, worker 2 test 0 -/
example :
    let ws : List WorkerCfg := [{ id := 1 }, { id := 2, forced := [0], excluded := [1] }]
    handedOut { n := 2, workers := 2, forced := forcedDict ws } ws
      [.connect 1 true, .connect 2 true, .validate 1 [], .validate 2 [], .getTest 1 true, .getTest 2 true] = [1, 0] := by
  decide

/-- C31, missing: a test forced onto a worker once the server has been created (as in a `before_worker_start` hook, where
the documentation suggests it) is handed to another worker. -/
theorem C31_forced_late_violated :
    let ws : List WorkerCfg := [{ id := 1 }, { id := 2 }]
    let cfg : Cfg := { n := 1, workers := 2, forced := forcedDict ws }
    let pre := [.force 2 0, .connect 1 true, .connect 2 true, .validate 1 [], .validate 2 []]
    (step cfg (exec cfg ws pre) (.getTest 1 true)).1 = .test 0 ∧
    (exec cfg ws pre).cfgs = [{ id := 1 }, { id := 2, forced := [0] }] := by decide

/-- C31, missing: a test forced onto two workers is handed only to the last one. -/
theorem C31_forced_twice_violated :
    let ws : List WorkerCfg := [{ id := 1, forced := [0] }, { id := 2, forced := [0] }]
    let cfg : Cfg := { n := 1, workers := 2, forced := forcedDict ws }
    let pre := [.connect 1 true, .connect 2 true, .validate 1 [], .validate 2 []]
    (step cfg (exec cfg ws pre) (.getTest 1 true)).1 = .noMore ∧
    (step cfg (exec cfg ws pre) (.getTest 2 true)).1 = .test 0 := by decide

/-! ## Validation -/

/-- C32: when a test is handed out, there had been a time at which as many workers as configured were connected, and there
had been as many positive validations. -/
theorem C32_served_after_validation (cfg : Cfg) (ws : List WorkerCfg) (pre : List Req) (c i : Nat) (ok : Bool)
    (hr : (step cfg (exec cfg ws pre) (.getTest c ok)).1 = .test i) :
    (∃ p s, pre = p ++ s ∧ cfg.workers ≤ (exec cfg ws p).connected.length) ∧
    cfg.workers ≤ (pre.filter (agrees cfg)).length := by
  obtain ⟨d, -, hp, -⟩ := step_test hr
  obtain ⟨h1, h2, h3⟩ := serve_inv cfg ws pre
  exact ⟨h2 (.inl hp), Nat.le_trans (h3 hp) h1⟩

/-- the worker of a validation of the parent's collection -/
def agreedBy (cfg : Cfg) : Req → Option Nat
  | .validate c coll => if coll = cfg.coll then some c else none
  | _ => none

theorem agreed_length (cfg : Cfg) (qs : List Req) : (qs.filter (agrees cfg)).length = (qs.filterMap (agreedBy cfg)).length := by
  induction qs with
  | nil => rfl
  | cons q qs ih =>
    have : (agreedBy cfg q).isSome = agrees cfg q := by
      cases q with
      | validate c coll => simp only [agreedBy, agrees]; split <;> simp [*]
      | _ => rfl
    rw [List.filter_cons, List.filterMap_cons]
    cases h : agreedBy cfg q with
    | none => rw [h] at this; rw [← this]; simpa using ih
    | some d => rw [h] at this; rw [← this]; simpa using ih

/-- C32, for the workers the run was configured with: if the requests come from these workers and no worker validates
successfully twice, then whenever a test is handed out all of them have connected, and all of them have validated the
parent's collection. So a worker with another collection gets no test, and neither does any other worker. -/
theorem C32_all_workers_agree_partial (cfg : Cfg) (ws : List WorkerCfg) (pre : List Req) (c i : Nat) (ok : Bool) (W : List Nat)
    (hW : W.length = cfg.workers) (hc : ∀ d k, .connect d k ∈ pre → d ∈ W) (hv : ∀ d l, .validate d l ∈ pre → d ∈ W)
    (h1 : (pre.filterMap (agreedBy cfg)).Nodup) (hr : (step cfg (exec cfg ws pre) (.getTest c ok)).1 = .test i) :
    ∀ d ∈ W, (∃ k, .connect d k ∈ pre) ∧ .validate d cfg.coll ∈ pre := by
  obtain ⟨⟨p, s, e, hp⟩, hn⟩ := C32_served_after_validation cfg ws pre c i ok hr
  rw [agreed_length] at hn
  have hmem : ∀ d, d ∈ pre.filterMap (agreedBy cfg) → .validate d cfg.coll ∈ pre := by
    intro d hd
    obtain ⟨q, hq, hq2⟩ := List.mem_filterMap.1 hd
    cases q with
    | validate d' coll =>
      simp only [agreedBy] at hq2
      split at hq2
      · simp only [Option.some.injEq] at hq2; subst hq2; rename_i hcoll; subst hcoll; exact hq
      · cases hq2
    | _ => cases hq2
  have hsub : pre.filterMap (agreedBy cfg) ⊆ W := fun d hd => hv d _ (hmem d hd)
  have hall := subset_of_nodup_subset_length h1 hsub (by rw [hW]; exact hn)
  obtain ⟨k1, k2⟩ := connected_inv cfg ws p
  have hcsub : (exec cfg ws p).connected ⊆ W := fun d hd => by
    obtain ⟨k, hk⟩ := k2 d hd
    exact hc d k (by rw [e]; simp [hk])
  have hcall := subset_of_nodup_subset_length k1 hcsub (by rw [hW]; exact hp)
  intro d hd
  refine ⟨?_, hmem d (hall hd)⟩
  obtain ⟨k, hk⟩ := k2 d (hcall hd)
  exact ⟨k, by rw [e]; simp [hk]⟩

/-- two workers, the second one with another collection: the first one is told to wait -/
example : (run { n := 1, workers := 2, coll := [7] } (init { n := 1, workers := 2 } [{ id := 1 }, { id := 2 }])
    [.connect 1 true, .validate 1 [7], .connect 2 true, .validate 2 [8], .getTest 1 true]).1 =
    [.ok, .bool true, .ok, .bool false, .waiting] := by decide

/-- the hypotheses of the theorem are met when all agree -/
example :
    let cfg : Cfg := { n := 1, workers := 2, coll := [7] }
    let pre := [.connect 1 true, .connect 2 true, .validate 1 [7], .validate 2 [7]]
    (pre.filterMap (agreedBy cfg)).Nodup ∧
    (step cfg (exec cfg [{ id := 1 }, { id := 2 }] pre) (.getTest 1 true)).1 = .test 0 := by decide

/-- C32, missing: the server counts validations and not workers; one worker validating twice stands for two, and a worker
with another collection is then given a test. -/
theorem C32_counts_validations_violated :
    let cfg : Cfg := { n := 1, workers := 2, coll := [7] }
    let pre := [.connect 1 true, .connect 2 true, .validate 1 [7], .validate 2 [8], .validate 1 [7]]
    (step cfg (exec cfg [{ id := 1 }, { id := 2 }] pre) (.getTest 2 true)).1 = .test 0 := by decide

/-! ## The end of the run -/

/-- C33, first half: let no worker fail or be interrupted, let each worker of `W` have been told that there are no more
tests, each test be executable by one of these workers, and no test be still in execution. Then all tests are finished, with
one result each, and once all workers disconnected the parent stops waiting. -/
theorem C33_all_finished_partial (cfg : Cfg) (ws : List WorkerCfg) (qs : List Req) (hl : Legal qs)
    (hd : ∀ q ∈ qs, q.drops = false) (W : List Nat)
    (hW : ∀ c ∈ W, ∃ p k s, qs = p ++ .getTest c k :: s ∧ (step cfg (exec cfg ws p) (.getTest c k)).1 = .noMore)
    (hx : ∀ i, i < cfg.n → ∃ c ∈ W, canExecute cfg (exec cfg ws qs) c i = some true)
    (hidle : ∀ c i, ¬ Executes (exec cfg ws qs) c i) :
    (exec cfg ws qs).finished.Perm (List.range cfg.n) ∧ ((exec cfg ws qs).results.map (·.1)).Perm (List.range cfg.n) ∧
    ((exec cfg ws qs).connected = [] → shouldWait cfg (exec cfg ws qs) = false) := by
  have h := inv_exec cfg ws qs hl
  have hw : working (exec cfg ws qs).failed (exec cfg ws qs).executing = [] := by
    rw [List.eq_nil_iff_forall_not_mem]
    intro i hi
    obtain ⟨c, hc⟩ := (mem_working h.keys).1 hi
    exact hidle c i hc
  have hlegal : ∀ p s, qs = p ++ s → Legal p := by
    intro p s e
    exact ⟨fun a b c k e' => hl.1 a (b ++ s) c k (by rw [e, e']; simp), fun a b c r e' => hl.2 a (b ++ s) c r (by rw [e, e']; simp)⟩
  have hu : (exec cfg ws qs).unstarted = [] := by
    rw [List.eq_nil_iff_forall_not_mem]
    intro i hi
    have hin : i < cfg.n := (nodup_hand cfg ws qs).2 i (List.mem_append_right _ hi)
    obtain ⟨c, hc, hce⟩ := hx i hin
    obtain ⟨p, k, s, e, hr⟩ := hW c hc
    have hstop := stop_inv cfg ws p (hlegal p _ e) (fun q hq => hd q (by rw [e]; simp [hq]))
    have hno := step_noMore hr hstop
    rw [e, exec_append] at hi hce
    have := hno i (unstarted_run cfg _ _ hi)
    rw [canExecute_mono cfg _ _ c i this] at hce
    cases hce
  have hp := h.perm
  rw [hu, hw] at hp
  simp only [List.nil_append] at hp
  refine ⟨hp, by rw [h.res]; exact hp, fun hc => ?_⟩
  simp [shouldWait, hasMoreTests, hc, hp.length_eq]

/-- C33, second half: with no interruption and no worker leaving with a failure, once the server has stopped handing out
tests - because of a crash, a fatal result, a failure under stop-on-error, or the end of the tests - no test is waiting: each
one has a result or is still being executed. -/
theorem C33_stopped_nothing_waits_partial (cfg : Cfg) (ws : List WorkerCfg) (qs : List Req) (hl : Legal qs)
    (hd : ∀ q ∈ qs, q.drops = false) (hs : (exec cfg ws qs).phase = .stopTests) (i : Nat) (hi : i < cfg.n) :
    i ∈ (exec cfg ws qs).results.map (·.1) ∨ ∃ c, Executes (exec cfg ws qs) c i := by
  have h := inv_exec cfg ws qs hl
  have hu := stop_inv cfg ws qs hl hd hs
  have hm := h.perm.mem_iff.2 (List.mem_range.2 hi)
  rw [hu, List.nil_append] at hm
  rcases List.mem_append.1 hm with hm | hm
  · exact .inr ((mem_working h.keys).1 hm)
  · exact .inl (by rw [h.res]; exact hm)

/-- a run of two workers to its end -/
example :
    let cfg : Cfg := { n := 2, workers := 2 }
    let qs := [.connect 1 true, .connect 2 true, .validate 1 [], .validate 2 [], .getTest 1 true, .getTest 2 true,
               .finished 2 {}, .getTest 2 true, .disconnect 2 false, .finished 1 { success := false }, .getTest 1 true, .disconnect 1 false]
    let st := exec cfg [{ id := 1 }, { id := 2 }] qs
    legalB qs = true ∧ (∀ q ∈ qs, q.drops = false) ∧ st.phase = .stopTests ∧ shouldWait cfg st = false ∧
    st.results = [(1, .ran {}), (0, .ran { success := false })] := by decide

/-- stop on error: the waiting test is reported as not run -/
example :
    let cfg : Cfg := { n := 3, workers := 1, stop := true }
    let qs := [.connect 1 true, .validate 1 [], .getTest 1 true, .finished 1 { success := false }]
    (exec cfg [{ id := 1 }] qs).results = [(0, .ran { success := false }), (1, .notRun), (2, .notRun)] := by decide

/-- C33: if each worker connects once, and nothing is heard any more of a test whose worker was reported dead, the parent
waits exactly as long as a worker is connected or a test has no result. -/
theorem C33_waits_iff_partial (cfg : Cfg) (ws : List WorkerCfg) (qs : List Req) (hl : Legal qs) :
    shouldWait cfg (exec cfg ws qs) = true ↔
      (exec cfg ws qs).connected ≠ [] ∨ ∃ i, i < cfg.n ∧ i ∉ (exec cfg ws qs).results.map (·.1) := by
  obtain ⟨-, -, hn, hr, hb⟩ := C30_every_test_accounted_partial cfg ws qs hl
  rw [hr]
  generalize exec cfg ws qs = st at *
  have hsub : st.finished ⊆ List.range cfg.n := fun i hi => List.mem_range.2 (hb i (List.mem_append_right _ hi))
  simp only [shouldWait, hasMoreTests, Bool.or_eq_true, Bool.not_eq_true', List.isEmpty_eq_false_iff, decide_eq_true_iff]
  refine or_congr Iff.rfl ⟨fun h => ?_, fun ⟨i, hi, hm⟩ => ?_⟩
  · apply Classical.byContradiction
    intro hno
    have : List.range cfg.n ⊆ st.finished := fun i hi => Classical.byContradiction fun hm => hno ⟨i, List.mem_range.1 hi, hm⟩
    have := nodup_subset_length List.nodup_range this
    rw [List.length_range] at this
    omega
  · have h1 := nodup_subset_length (l := i :: st.finished) (w := List.range cfg.n) (List.nodup_cons.2 ⟨hm, hn⟩)
      (fun x hx => (List.mem_cons.1 hx).elim (fun e => e ▸ List.mem_range.2 hi) (fun h => hsub h))
    rw [List.length_range, List.length_cons] at h1
    omega

/-- the server is told of a problem of a worker -/
def Req.problem : Req → Bool
  | .sessionError | .clientFailure _ => true
  | _ => false

theorem markUnrun_workerError (st : St) : (markUnrun st).2.workerError = st.workerError := by
  obtain ⟨_, _, _, h, _⟩ := markUnrun_frame st
  rw [h]

theorem step_workerError (cfg : Cfg) (st : St) (q : Req) :
    (step cfg st q).2.workerError = true ↔ st.workerError = true ∨ (q.problem = true ∧ (step cfg st q).1 = .ok) := by
  unfold step
  split
  · simp
  · cases q with
    | connect c ok =>
      simp only [Req.problem, connect, Bool.false_eq_true, false_and, or_false]
      split
      · split <;> rfl
      · split <;> simp only <;> split <;> rfl
    | validate c l =>
      simp only [Req.problem, validate, Bool.false_eq_true, false_and, or_false]
      repeat' split
      all_goals rfl
    | getTest c ok =>
      simp only [Req.problem, getTest, Bool.false_eq_true, false_and, or_false]
      repeat' split
      all_goals rfl
    | finished c r =>
      simp only [Req.problem, finishedTest, Bool.false_eq_true, false_and, or_false]
      split
      · split
        · rfl
        · rename_i st' hc
          have hst := createResult_some hc
          have hw : st'.workerError = st.workerError := by have := hst.1; simp_all
          split
          · have := markUnrun_workerError { st' with phase := .stopTests }
            split <;> rename_i hm <;> rw [hm] at this <;> simp only at this ⊢ <;> rw [this, hw]
          · rw [hw]
      · rfl
    | clientFailure c =>
      simp only [Req.problem, clientFailure, true_and]
      split
      · simp
      · have key : ∀ {s s' : St} {b : Bool}, markUnrun s = (b, s') → s.workerError = st.workerError →
            s'.workerError = st.workerError := by
          intro s s' b hm hs
          have := markUnrun_workerError s
          rw [hm] at this
          exact this.trans hs
        split
        · split
          · simp
          · rename_i st' hc
            have hst := (createResult_some hc).1
            split <;> rename_i hm
            · simp
            · have := key hm (by simp [hst])
              simp only [this]; simp
        · split <;> rename_i hm
          · simp
          · have := key hm rfl
            simp only [this]; simp
    | disconnect c f =>
      simp only [Req.problem, Bool.false_eq_true, false_and, or_false]
      split
      · rfl
      · simp only; split <;> rfl
    | interrupted => simp [Req.problem]
    | sessionError => simp [Req.problem]
    | stopServe => simp [Req.problem]
    | exclude c i => simp [Req.problem]
    | force c i => simp [Req.problem]

/-- C33: the session knows of a problem of a worker (and is then not successful) exactly if one was reported. -/
theorem C33_worker_problem_known (cfg : Cfg) (ws : List WorkerCfg) (qs : List Req) :
    (exec cfg ws qs).workerError = true ↔
      ∃ p q s, qs = p ++ q :: s ∧ (q = .sessionError ∨ ∃ c, q = .clientFailure c) ∧ (step cfg (exec cfg ws p) q).1 = .ok := by
  have hpr : ∀ q : Req, (q = .sessionError ∨ ∃ c, q = .clientFailure c) ↔ q.problem = true := by
    intro q; cases q <;> simp [Req.problem]
  simp only [hpr]
  induction qs using snocInd with
  | nil => simp [exec, run, init]
  | snoc qs q ih =>
    rw [exec_snoc, step_workerError]
    refine Iff.trans (or_congr ih Iff.rfl) ?_
    constructor
    · rintro (⟨p, r, s, rfl, h⟩ | h)
      · exact ⟨p, r, s ++ [q], by simp, h⟩
      · exact ⟨qs, q, [], by simp, h⟩
    · rintro ⟨p, r, s, e, h⟩
      rcases List.eq_nil_or_concat s with rfl | ⟨s', x, rfl⟩
      · obtain ⟨rfl, e2⟩ := List.append_inj' e rfl
        cases e2
        exact .inr h
      · rw [List.concat_eq_append, ← List.cons_append, ← List.append_assoc] at e
        obtain ⟨rfl, -⟩ := List.append_inj' e rfl
        exact .inl ⟨p, r, s', rfl, h⟩

example : (exec { n := 1, workers := 1 } [{ id := 1 }] [.connect 1 true, .sessionError]).workerError = true ∧
    (exec { n := 1, workers := 1 } [{ id := 1 }] [.connect 1 true, .clientFailure 1]).workerError = true ∧
    (exec { n := 1, workers := 1 } [{ id := 1 }] [.connect 1 true, .clientFailure 2, .disconnect 1 true]).workerError = false := by decide

/-- C33, missing: an interruption stops the run without giving the waiting tests results. -/
theorem C33_interrupted_violated :
    let cfg : Cfg := { n := 2, workers := 1 }
    let st := exec cfg [{ id := 1 }] [.connect 1 true, .validate 1 [], .getTest 1 true, .finished 1 {}, .interrupted]
    (step cfg st (.getTest 1 true)).1 = .noMore ∧ st.results = [(0, .ran {})] ∧ st.unstarted = [1] := by decide

/-- C33, missing: so does a worker leaving because its collection differs. The parent goes on waiting for tests (until
its time-out), although all workers are gone. -/
theorem C33_failed_disconnect_violated :
    let cfg : Cfg := { n := 1, workers := 2, coll := [7] }
    let st := exec cfg [{ id := 1 }, { id := 2 }] [.connect 1 true, .connect 2 true, .validate 1 [7], .validate 2 [8],
      .disconnect 2 true, .getTest 1 true, .disconnect 1 false]
    (run cfg (init cfg [{ id := 1 }, { id := 2 }]) [.connect 1 true, .connect 2 true, .validate 1 [7], .validate 2 [8],
      .disconnect 2 true, .getTest 1 true, .disconnect 1 false]).1.getLast? = some .ok ∧
    st.connected = [] ∧ st.results = [] ∧ shouldWait cfg st = true := by decide

/-- C33, missing: a test excluded from every worker never gets a result, and the parent waits (until its time-out)
although all workers were told there are no more tests and disconnected. -/
theorem C33_excluded_everywhere_violated :
    let cfg : Cfg := { n := 1, workers := 1 }
    let st := exec cfg [{ id := 1, excluded := [0] }] [.connect 1 true, .validate 1 [], .getTest 1 true, .disconnect 1 false]
    st.connected = [] ∧ st.results = [] ∧ shouldWait cfg st = true := by decide

/-! ## After the end -/

theorem phase_stays (cfg : Cfg) (st : St) (qs : List Req) (hp : st.phase = .stopTests ∨ st.phase = .stopServe)
    (hc : ∀ c k, .connect c k ∉ qs) :
    ((run cfg st qs).2.phase = .stopTests ∨ (run cfg st qs).2.phase = .stopServe) ∧ ∀ i, .test i ∉ (run cfg st qs).1 := by
  induction qs generalizing st with
  | nil => exact ⟨hp, by simp [run]⟩
  | cons q qs ih =>
    have hnext : (step cfg st q).2.phase = .stopTests ∨ (step cfg st q).2.phase = .stopServe := by
      have hsp := step_phase cfg st q
      have hns : (step cfg st q).2.phase ≠ .serve := by
        intro h
        rcases hsp.1 h with h | h <;> rcases hp with hp | hp
        · rw [hp] at h; cases h
        · rw [hp] at h; cases h
        · rw [hp] at h; cases h.2
        · rw [hp] at h; cases h.2
      cases q with
      | connect c k => exact absurd (by simp) (hc c k)
      | validate c coll =>
        unfold step at hns ⊢
        rcases hp with hp | hp
        · simp only [hp, reduceCtorEq, if_false, validate]
          split
          · exact .inl hp
          · simp [hp]
        · simp [hp]
      | getTest c ok =>
        unfold step
        rcases hp with hp | hp
        · simp only [hp, reduceCtorEq, if_false, getTest]
          split
          · exact .inl hp
          · exact .inl hp
          · exact .inl hp
        · simp [hp]
      | finished c r =>
        unfold step
        rcases hp with hp | hp
        · simp only [hp, reduceCtorEq, if_false, finishedTest]
          split
          · cases hcr : createResult _ _ _ with
            | none => exact .inl rfl
            | some st1 =>
              obtain ⟨h1, -⟩ := createResult_some hcr
              simp only
              split
              · obtain ⟨res, fin, uns, h, -⟩ := markUnrun_frame { st1 with phase := .stopTests }
                rcases hm : markUnrun { st1 with phase := .stopTests } with ⟨b, st2⟩
                rw [hm] at h
                simp only at h
                cases b <;> exact .inl (by simp only; rw [h])
              · exact .inl (by rw [h1])
          · exact .inl hp
        · simp [hp]
      | clientFailure c =>
        unfold step
        rcases hp with hp | hp
        · simp only [hp, reduceCtorEq, if_false, clientFailure]
          have key : ∀ st1 : St, (match markUnrun { st1 with phase := .stopTests } with
              | (true, st) => (Resp.ok, { st with workerError := true })
              | (false, st) => (.fault, st)).2.phase = .stopTests := by
            intro st1
            obtain ⟨res, fin, uns, h, -⟩ := markUnrun_frame { st1 with phase := .stopTests }
            rcases hm : markUnrun { st1 with phase := .stopTests } with ⟨b, st2⟩
            rw [hm] at h
            simp only at h
            cases b <;> (simp only; rw [h])
          split
          · exact .inl hp
          · split
            · cases hcr : createResult _ _ _ with
              | none => exact .inl rfl
              | some st1 => exact .inl (key { st1 with finished := st1.finished ++ [_], failed := (c, _) :: st1.failed })
            · exact .inl (key { st with connected := st.connected.erase c })
        · simp [hp]
      | disconnect c f =>
        unfold step
        rcases hp with hp | hp
        · simp only [hp, reduceCtorEq, if_false]
          split
          · exact .inl hp
          · cases f <;> simp
        · simp [hp]
      | interrupted => unfold step; rcases hp with hp | hp <;> simp [hp]
      | sessionError => unfold step; rcases hp with hp | hp <;> simp [hp]
      | stopServe => unfold step; rcases hp with hp | hp <;> simp [hp]
      | exclude c i => unfold step; rcases hp with hp | hp <;> simp [hp]
      | force c i => unfold step; rcases hp with hp | hp <;> simp [hp]
    obtain ⟨h1, h2⟩ := ih (step cfg st q).2 hnext (fun c k hm => hc c k (by simp [hm]))
    refine ⟨h1, fun i hm => ?_⟩
    simp only [run, List.mem_cons] at hm
    rcases hm with hm | hm
    · obtain ⟨c, -, h, -⟩ := step_test hm.symm
      rcases hp with hp | hp <;> rw [hp] at h <;> cases h
    · exact h2 i hm

/-- C64: once the run was stopped - by an interruption, a reported crash, or because the tests ran out - no test is handed
out any more, provided no further worker connects. -/
theorem C64_nothing_after_stop_partial (cfg : Cfg) (ws : List WorkerCfg) (pre post : List Req)
    (hp : (exec cfg ws pre).phase = .stopTests ∨ (exec cfg ws pre).phase = .stopServe) (hc : ∀ c k, .connect c k ∉ post) :
    ∀ i, .test i ∉ (run cfg (exec cfg ws pre) post).1 := (phase_stays cfg _ post hp hc).2

/-- C64: an interruption of the session stops the run, whatever happened before -/
theorem C64_interruption_stops (cfg : Cfg) (ws : List WorkerCfg) (pre post : List Req) (hc : ∀ c k, .connect c k ∉ post) :
    ∀ i, .test i ∉ (run cfg (exec cfg ws (pre ++ [.interrupted])) post).1 := by
  refine C64_nothing_after_stop_partial cfg ws _ post ?_ hc
  rw [exec_snoc]
  unfold step
  split
  · exact .inr (by assumption)
  · exact .inl rfl

/-- an interrupted run, with both workers asking for tests afterwards -/
example : (run { n := 5, workers := 2 } (init { n := 5, workers := 2 } [{ id := 1 }, { id := 2 }])
    [.connect 1 true, .connect 2 true, .validate 1 [], .validate 2 [], .getTest 1 true, .interrupted, .finished 1 {},
     .getTest 1 true, .getTest 2 true]).1.drop 4 = [.test 0, .ok, .ok, .noMore, .noMore] := by decide

/-- C64: the report of a finished test stops the run if the result is fatal, or if it is unsuccessful and the run is to stop
on errors; otherwise the run goes on as it was. -/
theorem C64_report_stops_iff (cfg : Cfg) (st : St) (c : Nat) (r : WRes) (h : (step cfg st (.finished c r)).1 = .ok) :
    (step cfg st (.finished c r)).2.phase =
      if r.fatal = true ∨ (r.success = false ∧ cfg.stop = true) then .stopTests else st.phase := by
  unfold step at h ⊢
  split at h
  · cases h
  · rename_i hp
    rw [if_neg hp]
    simp only [finishedTest] at h ⊢
    split at h
    · rename_i i hk
      try simp only at h ⊢
      split at h
      · cases h
      · rename_i st' hc
        have hst := createResult_some hc
        have hph : st'.phase = st.phase := by
          have := hst.1; simp_all
        cases hf : r.fatal <;> cases hs : r.success <;> cases hcs : cfg.stop <;>
          simp only [hf, hs, hcs, Bool.false_or, Bool.true_or, Bool.not_false, Bool.not_true, Bool.and_true, Bool.true_and,
            Bool.and_false, Bool.false_eq_true, if_true, if_false, reduceCtorEq, false_or, true_or, and_true, and_false, or_false, true_and] at h ⊢ <;>
          first
          | exact hph
          | (obtain ⟨_, _, _, hm, _⟩ := markUnrun_frame { st' with phase := .stopTests }
             cases hm' : markUnrun { st' with phase := .stopTests } with
             | mk b s =>
               rw [hm'] at h hm
               simp only at hm
               cases b with
               | true => simp only; rw [hm]
               | false => cases h)
    · cases h

example :
    let run (r : WRes) (stop : Bool) := (exec { n := 3, workers := 1, stop := stop } [{ id := 1 }]
      [.connect 1 true, .validate 1 [], .getTest 1 true, .finished 1 r]).phase
    run { fatal := true } false = .stopTests ∧ run { success := false } true = .stopTests ∧ run { success := false } false = .serve := by
  decide

/-- C64, missing: if the interruption comes while the workers are still starting, a worker connecting afterwards puts the
server back to work. -/
theorem C64_connect_after_interruption_violated :
    (run { n := 1, workers := 1 } (init { n := 1, workers := 1 } [{ id := 1 }])
      [.interrupted, .connect 1 true, .validate 1 [], .getTest 1 true]).1 = [.ok, .ok, .bool true, .test 0] := by decide

end Slash.Par
