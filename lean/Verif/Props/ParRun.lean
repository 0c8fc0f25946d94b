import Verif.Model.ParRun
import Verif.Props.Worker
import Verif.Lemmas.WorkerGone
import Verif.Props.ExitCode
/-!
# C167: what exit status zero of a parallel run means
-/
namespace Slash.Par

/-- What is raised in the parent is not the request to leave with success. -/
structure ParRun.Loud (r : ParRun) : Prop where
  load : ∀ e, r.load = some e → ¬ e.Quiet
  start : ∀ e, r.start = some e → ¬ e.Quiet
  finish : ∀ e, r.finish = some e → ¬ e.Quiet
  enter : ∀ e, r.enter = some e → ¬ e.Quiet
  callback : ∀ e, r.callback = some e → ¬ e.Quiet
  prepare : ∀ e, r.prepare = some e → ¬ e.Quiet
  save : ∀ e, r.save = some e → ¬ e.Quiet
  exit : ∀ o e, r.exit o = some e → ¬ e.Quiet

/-- What a result read by the parent tells is what the worker told: it counts as a success (skips are allowed) or not. -/
def ParRun.Faithful (r : ParRun) : Prop := ∀ i x, (i, .ran x) ∈ r.state.srv.results → (r.read i x).isSuccess true = x.success

theorem attempt_par (r : ParRun) : (∃ e, Exit.attempt r.input = (some e, {}) ∧ (r.prepare = some e ∨ r.load = some e ∨ e = .exception)) ∨
    (r.prepare = none ∧ r.load = none ∧ (r.resume = true ∨ r.plan.sigs ≠ []) ∧ Exit.attempt r.input = r.session) := by
  unfold Exit.attempt
  cases hp : r.prepare with
  | some e => exact .inl ⟨e, by simp [ParRun.input, hp], .inl rfl⟩
  | none =>
    cases hl : r.load with
    | some e =>
      refine .inl ⟨e, ?_, .inr (.inl rfl)⟩
      cases hr : r.resume <;> simp [ParRun.input, hp, ParRun.loaded, hl, Exit.collect, hr, Exit.collectTests]
    | none =>
      cases hr : r.resume with
      | true => exact .inr ⟨rfl, rfl, .inl rfl, by simp [ParRun.input, hp, ParRun.loaded, hl, Exit.collect, hr]⟩
      | false =>
        cases hs : r.plan.sigs with
        | nil => exact .inl ⟨.exception, by simp [ParRun.input, hp, ParRun.loaded, hl, Exit.collect, hr, Exit.collectTests, hs], .inr (.inr rfl)⟩
        | cons a l => exact .inr ⟨rfl, rfl, .inr (by simp), by simp [ParRun.input, hp, ParRun.loaded, hl, Exit.collect, hr, Exit.collectTests, hs, List.range_succ]⟩

theorem raised_loud (r : ParRun) (e : Exit.Exc) (h : r.raised = some e) : ¬ e.Quiet := by
  unfold ParRun.raised at h
  split at h
  · cases h
    split <;> (rintro ⟨c, hc, -⟩; cases hc)
  · cases h

theorem par_noQuiet (r : ParRun) (h : r.Loud) : Exit.NoQuiet r.input := by
  refine ⟨h.enter, h.callback, ?_, h.save, h.exit⟩
  intro e he
  rcases attempt_par r with ⟨e', h', h2 | h2 | h2⟩ | ⟨-, -, -, h'⟩ <;> rw [h'] at he
  · cases he; exact h.prepare e h2
  · cases he; exact h.load e h2
  · cases he; subst h2; rintro ⟨c, hc, -⟩; cases hc
  · unfold ParRun.session at he
    cases hs : r.start with
    | some x => rw [hs] at he; cases he; exact h.start e hs
    | none =>
      rw [hs] at he
      simp only at he
      cases hf : r.finish with
      | some x => rw [hf] at he; cases he; exact h.finish e hf
      | none => rw [hf] at he; exact raised_loud r e he

/-- a result of the parent that counts as a success was sent by a worker -/
theorem result_ok (r : ParRun) (hf : r.Faithful) (i : Nat) (o : Outcome) (hm : (i, o) ∈ r.state.srv.results) : (r.result i o).isSuccess true = true ↔ ∃ x, o = .ran x ∧ x.success = true := by
  cases o with
  | ran x => simp [ParRun.result, hf i x hm]
  | interrupted => simp [ParRun.result, Result.isSuccess]
  | notRun => simp [ParRun.result, Result.isSuccess, Result.isStarted]

/-- C167: exit status zero. The process of the parent ends with status 0 exactly if nothing was raised outside of the tests, the
parent was neither interrupted nor gave up, its own (global) result is a success, no worker told it of an error or was found
dead, and each test of the parent has the result of a run of this test by a worker, a success (or skipped). -/
theorem C167_zero_iff (r : ParRun) (h : r.Loud) (hf : r.Faithful) : r.status = some 0 ↔
    r.left = true ∧ (r.resume = true ∨ r.plan.sigs ≠ []) ∧
    (r.enter = none ∧ r.callback = none ∧ r.prepare = none ∧ r.load = none ∧ r.start = none ∧ r.finish = none ∧ r.save = none ∧ r.exit none = none) ∧
    r.state.raised = false ∧ r.global.isSuccess true = true ∧ r.state.srv.workerError = false ∧
    ∀ i, i < r.plan.sigs.length → ∃ x, (i, .ran x) ∈ r.state.srv.results ∧ x.success = true := by
  have hh : HInv r.plan r.state r.sched := hinv_run r.plan r.sched
  obtain ⟨hnd, hkeys, hlt⟩ : r.state.srv.finished.Nodup ∧ r.state.srv.results.map (·.1) = r.state.srv.finished ∧
      ∀ i ∈ r.state.srv.unstarted ++ r.state.srv.finished, i < r.plan.sigs.length :=
    (C79_every_test_accounted r.plan r.sched).2.2
  unfold ParRun.status
  constructor
  · intro hz
    split at hz
    · cases hz
    · rename_i hb
      have hz : Exit.status r.input = 0 := by simpa using hz
      obtain ⟨hc, hs⟩ := (Exit.C47_zero_iff_partial _ (par_noQuiet r h)).1 hz
      rcases attempt_par r with ⟨e, h', -⟩ | ⟨hp, hl, hr, h'⟩
      · have := hc.attempt; rw [h'] at this; cases this
      · rw [h'] at hs
        have ha := hc.attempt
        rw [h'] at ha
        unfold ParRun.session at ha hs
        cases hst : r.start with
        | some e => rw [hst] at ha; cases ha
        | none =>
          rw [hst] at ha hs
          simp only at ha hs
          have hfin : r.finish = none := by
            cases hx : r.finish with
            | none => rfl
            | some e => rw [hx] at ha; cases ha
          rw [hfin] at ha
          have hra : r.state.raised = false := by
            cases hx : r.state.raised with
            | false => rfl
            | true => simp [ParRun.raised, hx] at ha
          have he := hc.enter
          have hcb := hc.callback
          simp only [ParRun.input] at he hcb
          have hleft : r.left = true := by
            cases hx : r.left with
            | true => rfl
            | false =>
              refine absurd ?_ hb
              simp only [ParRun.begun, he, hcb, hp, hl, hst, hx]
              rcases hr with hr | hr <;> simp [hr]
          have hsave : r.save = none := (hc.save.resolve_left (by simp [ParRun.input]))
          have hall : r.global.isSuccess true = true ∧ r.state.srv.workerError = false ∧
              ∀ q ∈ r.state.srv.results, (r.result q.1 q.2).isSuccess true = true := by
            simp only [SessionResults.isSuccess, ParRun.results, SessionResults.testResults, List.map_map] at hs
            cases hg : r.global.isSuccess true with
            | false => simp [hg] at hs
            | true =>
              cases hw : r.state.srv.workerError with
              | true => simp [hg, hw] at hs
              | false =>
                simp only [hg, hw, Bool.not_true, Bool.false_eq_true, if_false, List.all_eq_true] at hs
                exact ⟨rfl, rfl, fun q hq => hs _ (List.mem_map.2 ⟨q, hq, rfl⟩)⟩
          obtain ⟨hg, hw, hs⟩ := hall
          refine ⟨hleft, hr, ⟨he, hcb, hp, hl, rfl, hfin, hsave, hc.exit⟩, hra, hg, hw, ?_⟩
          have hsw : shouldWait r.plan.cfg r.state.srv = false := by
            rcases hh.stop (by simpa [ParRun.left] using hleft) with e | e
            · rw [hra] at e; cases e
            · exact e
          simp only [shouldWait, hasMoreTests, Bool.or_eq_false_iff, decide_eq_false_iff_not, Nat.not_lt, Plan.cfg] at hsw
          intro i hi
          have hmem : i ∈ r.state.srv.finished := by
            have hsub : r.state.srv.finished ⊆ List.range r.plan.sigs.length :=
              fun j hj => List.mem_range.2 (hlt j (List.mem_append_right _ hj))
            exact subset_of_nodup_subset_length hnd hsub (by rw [List.length_range]; exact Nat.not_lt.1 (of_decide_eq_false hsw.2)) (List.mem_range.2 hi)
          rw [← hkeys] at hmem
          obtain ⟨q, hq, rfl⟩ := List.mem_map.1 hmem
          obtain ⟨x, hx, hxs⟩ := (result_ok r hf _ _ hq).1 (hs q hq)
          exact ⟨x, by rw [← hx]; exact hq, hxs⟩
  · rintro ⟨hleft, hr, ⟨he, hcb, hp, hl, hst, hfin, hsave, hex⟩, hra, hg, hw, ht⟩
    have hat : Exit.attempt r.input = (none, r.results) := by
      rcases attempt_par r with ⟨e, h', h2 | h2 | h2⟩ | ⟨-, -, -, h'⟩
      · rw [hp] at h2; cases h2
      · rw [hl] at h2; cases h2
      · exfalso
        have : Exit.attempt r.input = r.session := by
          rcases attempt_par r with ⟨e', h3, -⟩ | ⟨-, -, -, h3⟩
          · exfalso
            unfold Exit.attempt at h3
            cases hrs : r.resume
            · cases hs : r.plan.sigs with
              | nil => simp [hrs, hs] at hr
              | cons a l => simp [ParRun.input, hp, ParRun.loaded, hl, Exit.collect, hrs, Exit.collectTests, hs, List.range_succ, ParRun.session, hst, hfin, ParRun.raised, hra] at h3
            · simp [ParRun.input, hp, ParRun.loaded, hl, Exit.collect, hrs, ParRun.session, hst, hfin, ParRun.raised, hra] at h3
          · exact h3
        rw [this] at h'
        simp [ParRun.session, hst, hfin, ParRun.raised, hra] at h'
      · rw [h']; simp [ParRun.session, hst, hfin, ParRun.raised, hra]
    rw [if_neg (by simp [hleft])]
    have : Exit.status r.input = 0 := by
      refine (Exit.C47_zero_iff_partial _ (par_noQuiet r h)).2 ⟨⟨he, hcb, by rw [hat], .inr hsave, hex⟩, ?_⟩
      rw [hat]
      simp only [SessionResults.isSuccess, ParRun.results, hg, hw, Bool.not_true, Bool.false_eq_true, if_false]
      rw [List.all_eq_true]
      intro y hy
      simp only [SessionResults.testResults, List.map_map] at hy
      obtain ⟨q, hq, rfl⟩ := List.mem_map.1 hy
      have hqi : q.1 < r.plan.sigs.length := hlt q.1 (List.mem_append_right _ (by rw [← hkeys]; exact List.mem_map_of_mem hq))
      obtain ⟨x, hx, hxs⟩ := ht q.1 hqi
      refine (result_ok r hf _ _ hq).2 ⟨x, ?_, hxs⟩
      have hk : (r.state.srv.results.map (·.1)).Nodup := by rw [hkeys]; exact hnd
      have := inj_on_of_nodup_map hk hq hx rfl
      rw [this]
    rw [this]

/-- C167: when the process of the parent has no status yet. It is exactly as long as it waits for its workers: the tests were collected, nothing was raised
until then, and its server was not left. So if anything is raised before the tests are started, or there are none, the process ends, and
not with status 0. -/
theorem C167_waits (r : ParRun) : (r.status = none ↔
      (r.enter = none ∧ r.callback = none ∧ r.prepare = none ∧ r.load = none ∧ r.start = none) ∧ (r.resume = true ∨ r.plan.sigs ≠ []) ∧
      r.left = false) ∧
    (r.Loud → (r.enter ≠ none ∨ r.callback ≠ none ∨ r.prepare ≠ none ∨ r.load ≠ none ∨ r.start ≠ none ∨ (r.resume = false ∧ r.plan.sigs = [])) →
      ∃ c, r.status = some c ∧ c ≠ 0) := by
  have h1 : r.status = none ↔ (r.enter = none ∧ r.callback = none ∧ r.prepare = none ∧ r.load = none ∧ r.start = none) ∧ (r.resume = true ∨ r.plan.sigs ≠ []) ∧
      r.left = false := by
    have hb : (r.begun && !r.left) = true ↔ (r.enter = none ∧ r.callback = none ∧ r.prepare = none ∧ r.load = none ∧ r.start = none) ∧
        (r.resume = true ∨ r.plan.sigs ≠ []) ∧ r.left = false := by
      simp only [ParRun.begun, Bool.and_eq_true, Option.isNone_iff_eq_none, Bool.or_eq_true, Bool.not_eq_true', List.isEmpty_eq_false_iff]
      constructor
      · rintro ⟨⟨⟨⟨⟨⟨e1, e2⟩, e3⟩, e4⟩, e6⟩, e5⟩, e7⟩
        exact ⟨⟨e1, e2, e3, e4, e5⟩, e6, e7⟩
      · rintro ⟨⟨e1, e2, e3, e4, e5⟩, e6, e7⟩
        exact ⟨⟨⟨⟨⟨⟨e1, e2⟩, e3⟩, e4⟩, e6⟩, e5⟩, e7⟩
    rw [← hb]
    unfold ParRun.status
    by_cases h : (r.begun && !r.left) = true
    · rw [if_pos h]; exact ⟨fun _ => h, fun _ => rfl⟩
    · rw [if_neg h]; exact ⟨nofun, fun e => absurd e h⟩
  refine ⟨h1, ?_⟩
  intro hloud hx
  cases hs : r.status with
  | none =>
    obtain ⟨⟨e1, e2, e3, e4, e5⟩, e6, -⟩ := h1.1 hs
    rcases hx with h | h | h | h | h | ⟨h, h'⟩
    · exact absurd e1 h
    · exact absurd e2 h
    · exact absurd e3 h
    · exact absurd e4 h
    · exact absurd e5 h
    · rcases e6 with e6 | e6
      · rw [h] at e6; cases e6
      · exact absurd h' e6
  | some c =>
    refine ⟨c, rfl, ?_⟩
    rintro rfl
    have hz : Exit.status r.input = 0 := by
      simp only [ParRun.status] at hs
      split at hs
      · cases hs
      · simpa using hs
    obtain ⟨hc, -⟩ := (Exit.C47_zero_iff_partial _ (par_noQuiet r hloud)).1 hz
    have e1 : r.enter = none := hc.enter
    have e2 : r.callback = none := hc.callback
    have ha := hc.attempt
    rcases attempt_par r with ⟨e, h', -⟩ | ⟨e3, e4, e6, h'⟩
    · rw [h'] at ha; cases ha
    · rw [h'] at ha
      have e5 : r.start = none := by
        unfold ParRun.session at ha
        cases hst : r.start with
        | none => rfl
        | some e => rw [hst] at ha; cases ha
      rcases hx with h | h | h | h | h | ⟨h, h''⟩
      · exact absurd e1 h
      · exact absurd e2 h
      · exact absurd e3 h
      · exact absurd e4 h
      · exact absurd e5 h
      · rcases e6 with e6 | e6
        · rw [h] at e6; cases e6
        · exact absurd h'' e6

/-- no worker told the parent of an error while the server was there, and none was found dead -/
theorem no_problem (p : Plan) (as : List Act) (h : ((Sys.start p).run p as).srv.workerError = false) (pre post : List Act) (c : Nat)
    (e : as = pre ++ .problem c :: post) : ((Sys.start p).run p pre).srv.phase = .stopServe := by
  apply Classical.byContradiction
  intro hp
  rw [e, Sys.run_append] at h
  have : (((Sys.start p).run p pre).step p (.problem c)).srv.workerError = true := by
    simp only [Sys.step, Sys.ask]
    rw [step_serving _ hp]
  rw [Sys.run, workerError_run _ _ this] at h
  cases h

/-- C167: what status 0 says about the run. Each test of the parent was run by exactly one worker, as one of its own tests with the
same file, name and variation, and the result the worker sent is a success (or skipped); no worker sent any other result. If there are any tests,
every worker had collected the tests of the parent, and left regularly. The parent was not interrupted and did not give up,
and no worker had told it of an error outside of the tests. -/
theorem C167_zero_says (r : ParRun) (hn : (r.plan.workers.map (·.id)).Nodup) (h : r.Loud) (hf : r.Faithful) (hz : r.status = some 0) :
    (∀ i sig, r.plan.sigs[i]? = some sig → ∃ w ∈ r.plan.workers,
      (∃ j, (i, j) ∈ (r.state.loc w.id).ran ∧ (r.plan.coll w.id)[j]? = some sig) ∧
      (∃ x, (i, x) ∈ (r.state.loc w.id).sent ∧ x.success = true) ∧ ∀ c, i ∈ (r.state.loc c).ran.map (·.1) → c = w.id) ∧
    (∀ w ∈ r.plan.workers, ∀ q ∈ (r.state.loc w.id).sent, q.2.success = true) ∧
    (r.plan.sigs ≠ [] → ∀ w ∈ r.plan.workers, (r.plan.coll w.id).Perm r.plan.sigs ∧ (r.state.loc w.id).phase = .gone) ∧
    .interrupt ∉ r.sched ∧ .giveUp ∉ r.sched ∧
    ∀ pre c post, r.sched = pre ++ .problem c :: post → ((Sys.start r.plan).run r.plan pre).srv.phase = .stopServe := by
  obtain ⟨hleft, -, -, hra, -, hw, ht⟩ := (C167_zero_iff r h hf).1 hz
  obtain ⟨c1, c2, c3⟩ : (∀ i x, (i, .ran x) ∈ r.state.srv.results ↔ ∃ w ∈ r.plan.workers, (i, x) ∈ (r.state.loc w.id).sent) ∧
      (r.state.srv.results.map (·.1)).Nodup ∧ ∀ c i x, (i, x) ∈ (r.state.loc c).sent → ∃ j, (i, j) ∈ (r.state.loc c).ran :=
    C82_results_are_those_sent r.plan r.sched
  obtain ⟨d1, -, -, d4⟩ := C80_right_tests_once r.plan r.sched
  have main : ∀ i sig, r.plan.sigs[i]? = some sig → ∃ w ∈ r.plan.workers,
      (∃ j, (i, j) ∈ (r.state.loc w.id).ran ∧ (r.plan.coll w.id)[j]? = some sig) ∧
      (∃ x, (i, x) ∈ (r.state.loc w.id).sent ∧ x.success = true) ∧ ∀ c, i ∈ (r.state.loc c).ran.map (·.1) → c = w.id := by
    intro i sig hi
    obtain ⟨x, hx, hxs⟩ := ht i (List.getElem?_eq_some_iff.1 hi).1
    obtain ⟨w, hwm, hs⟩ := (c1 i x).1 hx
    obtain ⟨j, hj⟩ := c3 _ _ _ hs
    obtain ⟨sig', e1, e2⟩ := d1 _ _ hj
    rw [hi] at e1
    cases e1
    exact ⟨w, hwm, ⟨j, hj, e2⟩, ⟨x, hs, hxs⟩, fun c hc => d4 c w.id i hc (List.mem_map_of_mem (f := (·.1)) hj)⟩
  refine ⟨main, ?_, ?_, ?_, ?_, ?_⟩
  · intro w hwm q hq
    have hq' := (c1 q.1 q.2).2 ⟨w, hwm, hq⟩
    have hacc := (C79_every_test_accounted r.plan r.sched).2.2
    obtain ⟨x, hx, hxs⟩ := ht q.1 (hacc.2.2 q.1 (List.mem_append_right _ (by
      rw [← hacc.2.1]; exact List.mem_map_of_mem (f := (·.1)) hq')))
    have := inj_on_of_nodup_map c2 hq' hx rfl
    injection this with _ e
    injection e with e
    rw [e]; exact hxs
  · intro hne w hwm
    obtain ⟨sig, hsig⟩ : ∃ sig, r.plan.sigs[0]? = some sig := by
      cases hs : r.plan.sigs with
      | nil => exact absurd hs hne
      | cons a l => exact ⟨a, rfl⟩
    obtain ⟨v, hv, ⟨j, hj, -⟩, -⟩ := main 0 sig hsig
    have hran : (r.state.loc v.id).ran ≠ [] := List.ne_nil_of_mem hj
    refine ⟨C80_only_if_all_agree r.plan hn r.sched v.id hran w hwm, ?_⟩
    have hh : HInv r.plan r.state r.sched := hinv_run r.plan r.sched
    have hconn : r.state.srv.connected = [] := by
      have hsw : shouldWait r.plan.cfg r.state.srv = false := by
        rcases hh.stop (by simpa [ParRun.left] using hleft) with e | e
        · rw [hra] at e; cases e
        · exact e
      simp only [shouldWait, Bool.or_eq_false_iff] at hsw
      simpa using hsw.1
    have hvalid : (r.state.loc w.id).valid = true := by
      obtain ⟨hs, htv⟩ : SInv r.plan r.state ∧ TInv r.plan r.state := inv_run r.plan r.sched
      have hvi : VInv r.plan r.state := vinv_run r.plan hn r.sched
      have hhd : r.state.srv.handed ≠ [] := fun e => by
        have h1 := (htv v.id).handed
        rw [e] at h1
        exact hran (List.map_eq_nil_iff.1 (List.sublist_nil.1 h1))
      rw [hs.srv] at hhd
      have h2 := handed_validated _ _ _ hhd
      rw [← hs.srv, hvi.count] at h2
      exact List.length_filter_eq_length_iff.1 (Nat.le_antisymm (List.length_filter_le _ _) h2) w hwm
    rcases gone_run r.plan r.sched w.id hvalid with e | e | e
    · exact e
    · change w.id ∈ r.state.srv.connected at e
      rw [hconn] at e; cases e
    · change r.state.srv.workerError = true at e
      rw [hw] at e; cases e
  · exact fun hm => by
      have : r.state.raised = true := (raised_run r.sched _).2 (.inr (.inl hm))
      rw [hra] at this; cases this
  · exact fun hm => by
      have : r.state.raised = true := (raised_run r.sched _).2 (.inr (.inr hm))
      rw [hra] at this; cases this
  · exact fun pre c post e => no_problem r.plan r.sched hw pre post c e

/-- C167: a run in which nothing goes wrong ends with status 0: the workers collected the tests of the parent, left regularly and told of no
error, every test may be run by some worker, all results sent are successes (or skips), and the parent stopped its server without being interrupted and
without giving up. -/
theorem C167_zero_if (r : ParRun) (h : r.Loud) (hf : r.Faithful) (hleft : r.left = true) (hne : r.resume = true ∨ r.plan.sigs ≠ [])
    (hc : r.enter = none ∧ r.callback = none ∧ r.prepare = none ∧ r.load = none ∧ r.start = none ∧ r.finish = none ∧ r.save = none ∧ r.exit none = none)
    (hg : r.global.isSuccess true = true) (hi : .interrupt ∉ r.sched) (hu : .giveUp ∉ r.sched) (hp : ∀ c, .problem c ∉ r.sched)
    (ha : ∀ w ∈ r.plan.workers, (r.plan.coll w.id).Perm r.plan.sigs) (hgone : ∀ w ∈ r.plan.workers, (r.state.loc w.id).phase = .gone)
    (hx : ∀ i, i < r.plan.sigs.length → ∃ w ∈ r.plan.workers, canExecute r.plan.cfg r.state.srv w.id i = some true)
    (hok : ∀ c, ∀ q ∈ (r.state.loc c).sent, q.2.fatal = false ∧ q.2.success = true) : r.status = some 0 := by
  have hra : r.state.raised = false := by
    cases e : r.state.raised with
    | false => rfl
    | true =>
      rcases (raised_run r.sched _).1 e with e | e | e
      · cases e
      · exact absurd e hi
      · exact absurd e hu
  refine (C167_zero_iff r h hf).2 ⟨hleft, hne, hc, hra, hg, ?_, ?_⟩
  · cases e : r.state.srv.workerError with
    | false => rfl
    | true =>
      exfalso
      have hs : SInv r.plan r.state := (inv_run r.plan r.sched).1
      rw [hs.srv] at e
      obtain ⟨pre, q, post, e1, hq, -⟩ := (C33_worker_problem_known _ _ _).1 e
      have hm : q ∈ r.state.hist := by rw [e1]; simp
      rcases hq with rfl | ⟨c, rfl⟩
      · rcases (sessionError_hist r.sched _).1 hm with e | e | ⟨c, e⟩
        · cases e
        · exact hu e
        · exact hp c e
      · have hd := hs.failed c hm
        obtain ⟨w, hw, rfl⟩ := List.mem_map.1 (reported_ids r.plan r.sched hm)
        rw [hgone w hw] at hd
        cases hd
  · intro i hil
    obtain ⟨w, -, -, x, hx1, hx2⟩ := C83_all_tests_run_partial r.plan r.sched ha hi hu hgone hx
      (fun c q hq => ⟨(hok c q hq).1, .inl (hok c q hq).2⟩) i hil
    exact ⟨x, hx2, (hok _ _ hx1).2⟩

/-- results as the parent reads them: an error or nothing -/
def demoRead (_ : Nat) (x : WRes) : Result := { started := true, finished := true, errors := if x.success then [] else [{}] }

theorem demoRead_faithful (r : ParRun) (h : r.read = demoRead) : r.Faithful := by
  intro i x _
  rw [h]
  cases hx : x.success <;> simp [demoRead, Result.isSuccess, Result.isStarted, hx]

/-- a whole run of three tests by two workers ends with 0 -/
example : ({ plan := demo, sched := demoFull, read := demoRead } : ParRun).status = some 0 ∧
    ({ plan := demo, sched := demoFull, read := demoRead } : ParRun).Faithful :=
  ⟨by decide +kernel, demoRead_faithful _ rfl⟩

/-- as long as the manager waits there is no status; a dead worker, an error told by a worker after its last test, a failed test, an
interruption or an unsuccessful session of the parent give 1 -/
example : ({ plan := demo, sched := demoFull.dropLast, read := demoRead } : ParRun).status = none ∧
    ({ plan := demo, sched := demoCrash ++ [.stop], read := demoRead } : ParRun).status = some 1 ∧
    ({ plan := demo, sched := demoFull.dropLast ++ [.problem 1, .stop], read := demoRead } : ParRun).status = some 1 ∧
    ({ plan := demo, sched := demoFull.dropLast ++ [.interrupt, .stop], read := demoRead } : ParRun).status = some 1 ∧
    ({ plan := demo, sched := demoFull, read := demoRead, global := { started := true, errors := [{}] } } : ParRun).status = some 1 ∧
    ({ plan := demo, sched := demoFull, read := demoRead, load := some .exception } : ParRun).status = some 1 := by decide +kernel

end Slash.Par
