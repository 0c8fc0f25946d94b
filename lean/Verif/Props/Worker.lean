import Verif.Lemmas.WorkerWait
import Verif.Props.Parallel
/-!
# Whole parallel runs: properties C79-C84

`(Sys.start p).run p as`: the state after any sequence `as` of actions of workers (each following its program, or dying
anywhere), of the manager of the parent and of the user's code, so after any interleaving. `(s.loc c).ran` are the tests a
worker started (index of the parent, own index) and `(s.loc c).sent` the results taken from it.
-/
namespace Slash.Par

/-! ## Accounting -/

/-- C79: in every execution each test of the parent is in exactly one of three states, waiting, executed by exactly one
worker, or finished; exactly the finished ones have a result, one each. There is no assumption on the workers' requests: the
workers' program and the manager only make requests for which this holds. -/
theorem C79_every_test_accounted (p : Plan) (as : List Act) :
    let st := ((Sys.start p).run p as).srv
    (∀ i, i < p.sigs.length →
      (i ∈ st.unstarted ∧ (∀ c, ¬ Executes st c i) ∧ i ∉ st.finished) ∨
      (i ∉ st.unstarted ∧ (∃ c, Executes st c i ∧ ∀ d, Executes st d i → d = c) ∧ i ∉ st.finished) ∨
      (i ∉ st.unstarted ∧ (∀ c, ¬ Executes st c i) ∧ i ∈ st.finished)) ∧
    st.unstarted.Nodup ∧ st.finished.Nodup ∧ st.results.map (·.1) = st.finished ∧
    (∀ i ∈ st.unstarted ++ st.finished, i < p.sigs.length) := by
  obtain ⟨hs, -⟩ := inv_run p as
  have h := C30_every_test_accounted_partial p.cfg p.workers _ hs.legal
  rw [← hs.srv] at h
  exact h

/-- a plan with two workers and three tests, two of them with the same signature; the second worker has them in another order -/
def demo : Plan :=
  { sigs := [5, 3, 5], workers := [{ id := 1 }, { id := 2 }], coll := fun c => if c = 1 then [5, 3, 5] else [3, 5, 5] }

/-- both workers connect, are heard, and agree -/
def demoStart : List Act :=
  [.act 1 {}, .keepAlive 1, .act 2 {}, .keepAlive 2, .act 1 {}, .act 2 {}]

/-- both workers are given a test, the second one dies executing it and is reported, the first one goes on -/
def demoCrash : List Act :=
  demoStart ++ [.act 1 {}, .act 2 {}, .die 2, .act 1 {}, .act 1 {}, .report 2, .act 1 { res := { success := false } }, .act 1 {}, .act 1 {}]

/-- a whole run without crashes -/
def demoFull : List Act :=
  demoStart ++ [.act 2 { pick := 1 }, .act 1 {}, .act 2 {}, .act 2 {}, .act 1 {}, .act 1 {}, .act 2 {}, .act 1 {}, .act 2 {}, .act 2 {}, .stop]

/-- in the run with a crash each test has a result -/
example : ((Sys.start demo).run demo demoCrash).srv.results =
    [(0, .ran {}), (1, .interrupted), (2, .ran { success := false })] := by decide
example : ((Sys.start demo).run demo (demoStart ++ [.act 1 {}, .act 2 {}])).srv.executing = [(1, some 0), (2, some 1)] := by decide

/-! ## The tests that are run -/

/-- C80: a worker only ever runs, for a test of the parent, one of its own tests with the same file, name and variation; it
runs none of its tests twice; and no test of the parent is run twice, by the same worker or by two of them. -/
theorem C80_right_tests_once (p : Plan) (as : List Act) :
    let s := (Sys.start p).run p as
    (∀ c, ∀ q ∈ (s.loc c).ran, ∃ sig, p.sigs[q.1]? = some sig ∧ (p.coll c)[q.2]? = some sig) ∧
    (∀ c, ((s.loc c).ran.map (·.2)).Nodup) ∧ (∀ c, ((s.loc c).ran.map (·.1)).Nodup) ∧
    (∀ c d i, i ∈ (s.loc c).ran.map (·.1) → i ∈ (s.loc d).ran.map (·.1) → c = d) := by
  intro s
  obtain ⟨hs, ht⟩ : SInv p s ∧ TInv p s := inv_run p as
  have hn := nodup_hand p.cfg p.workers s.hist
  rw [← hs.srv] at hn
  refine ⟨fun c q hq => ?_, fun c => ?_, fun c => (ht.ran_nodup hs c).1, fun c d i hc hd => ?_⟩
  · have hlt := ((ht.ran_nodup hs c).2 q.1 (List.mem_map_of_mem hq)).1
    rcases (ht c).own with ⟨h1, -⟩ | ⟨-, h1⟩
    · rw [h1] at hq; cases hq
    · have hm : own p q ∈ signatures (p.coll c) := h1.subset (List.mem_append_right _ (List.mem_map_of_mem hq))
      simp only [own, signatures] at hm
      refine ⟨p.sigs[q.1], List.getElem?_eq_getElem hlt, ?_⟩
      have := List.mem_zipIdx_iff_getElem?.1 hm
      simpa [List.getD, hlt] using this
  · rcases (ht c).own with ⟨h1, -⟩ | ⟨-, h1⟩
    · rw [h1]; exact List.nodup_nil
    · have h2 := (h1.map (·.2)).nodup_iff.2 (by rw [signatures, List.zipIdx_map_snd]; exact List.nodup_range')
      rw [List.map_append, List.map_map] at h2
      exact (List.nodup_append.1 h2).2.1
  · obtain ⟨q, hq, rfl⟩ := List.mem_map.1 hc
    obtain ⟨r, hr, e⟩ := List.mem_map.1 hd
    have h1 := (ht c).handed.subset (List.mem_map_of_mem hq)
    have h2 := (ht d).handed.subset (List.mem_map_of_mem hr)
    have h3 := inj_on_of_nodup_map (List.nodup_append.1 hn.1).1 h1 h2 e.symm
    exact (Prod.mk.inj h3).1

/-- the second worker has the tests in another order: for the parent's tests 0 and 1 it runs its tests 2 and 0 -/
example :
    let s := (Sys.start demo).run demo demoFull
    (s.loc 1).ran = [(1, 1)] ∧ (s.loc 2).ran = [(0, 2), (2, 1)] := by decide

/-- C80: no worker runs any test unless the tests collected by every worker are those of the parent, up to their order. -/
theorem C80_only_if_all_agree (p : Plan) (hn : (p.workers.map (·.id)).Nodup) (as : List Act) (c : Nat)
    (h : (((Sys.start p).run p as).loc c).ran ≠ []) : ∀ w ∈ p.workers, (p.coll w.id).Perm p.sigs := by
  obtain ⟨hs, ht⟩ := inv_run p as
  have hv := vinv_run p hn as
  have ha := ainv_run p as
  have hh : ((Sys.start p).run p as).srv.handed ≠ [] := fun e => by
    have h1 := (ht c).handed
    rw [e] at h1
    exact h (List.map_eq_nil_iff.1 (List.sublist_nil.1 h1))
  rw [hs.srv] at hh
  have h2 := handed_validated _ _ _ hh
  rw [← hs.srv, hv.count] at h2
  have h3 : validCount p ((Sys.start p).run p as) = p.workers.length :=
    Nat.le_antisymm (List.length_filter_le _ _) h2
  exact fun w hw => perm_of_sorted_eq (ha.agree _ (List.length_filter_eq_length_iff.1 h3 w hw))

/-- one worker collected other tests: nothing is run, and all workers leave -/
example :
    let p : Plan := { demo with coll := fun c => if c = 1 then [5, 3, 5] else [3, 5, 6] }
    let s := (Sys.start p).run p (demoStart ++ [.act 1 {}, .act 2 {}, .act 1 {}, .act 1 {}])
    (s.loc 1).ran = [] ∧ (s.loc 2).ran = [] ∧ (s.loc 1).phase = .gone ∧ (s.loc 2).phase = .gone := by decide

/-! ## Forced and excluded tests in whole runs -/

/-- What holds of each test that is handed out to a worker holds of all tests workers run. -/
theorem ran_of_handed (p : Plan) (P : Nat → Nat → Prop)
    (h : ∀ pre c k i, (step p.cfg (exec p.cfg p.workers pre) (.getTest c k)).1 = .test i → P c i) (as : List Act) :
    ∀ c, ∀ q ∈ (((Sys.start p).run p as).loc c).ran, P c q.1 := by
  have key : ∀ as s, SInv p s → (∀ c, ∀ q ∈ (s.loc c).ran, P c q.1) → ∀ c, ∀ q ∈ ((s.run p as).loc c).ran, P c q.1 := by
    intro as
    induction as with
    | nil => exact fun _ _ h => h
    | cons a as ih =>
      intro s hs hq
      refine ih _ (hs.step a) ?_
      have hset : ∀ (s' : Sys) d w, (∀ c, ∀ q ∈ (s'.loc c).ran, P c q.1) → (∀ q ∈ w.ran, P d q.1) → ∀ c, ∀ q ∈ ((s'.set d w).loc c).ran, P c q.1 := by
        intro s' d w h1 h2 c q hm
        simp only [Sys.set] at hm
        split at hm
        · rename_i e; subst e; exact h2 q hm
        · exact h1 c q hm
      cases a with
      | act d x =>
        simp only [Sys.step]
        split
        · split
          · exact hq
          · rename_i r hr
            refine hset _ d _ (fun c => hq c) ?_
            have hl := hq d
            show ∀ q ∈ (receive p.sigs (p.coll d) x (s.loc d) (step p.cfg s.srv r).1).ran, P d q.1
            unfold receive
            split <;> try exact hl
            rename_i hp ht
            split
            · exact hl
            · split
              · exact hl
              · intro q hm
                rcases List.mem_append.1 hm with hm | hm
                · exact hl q hm
                · rw [List.mem_singleton.1 hm]
                  rw [hp] at hr
                  simp only [request, Option.some.injEq] at hr
                  rw [← hr, hs.srv] at ht
                  exact h _ _ _ _ ht
        · exact hq
      | die d => simp only [Sys.step]; split; exact hq; exact hset s d _ hq (fun q hm => hq d q hm)
      | keepAlive d => simp only [Sys.step]; split; exact hq; exact hset s d _ hq (fun q hm => hq d q hm)
      | report d => simp only [Sys.step]; split; exact hq; exact hq
      | stop => simp only [Sys.step]; split; exact hq; exact hq
      | _ => exact hq
  exact key as _ (SInv.start p) (by intro c q hq; cases hq)

/-- **C31** for whole runs: in every execution, a test that was forced onto some workers before the run is run by one of these only. -/
theorem C31_run_forced (p : Plan) (as : List Act) (c : Nat) (q : Nat × Nat) (hq : q ∈ (((Sys.start p).run p as).loc c).ran)
    (hw : ∃ w ∈ p.workers, q.1 ∈ w.forced) : ∃ w ∈ p.workers, w.id = c ∧ q.1 ∈ w.forced :=
  ran_of_handed p (fun c i => (∃ w ∈ p.workers, i ∈ w.forced) → ∃ w ∈ p.workers, w.id = c ∧ i ∈ w.forced)
    (fun pre c k i h => C31_forced_goes_there_partial p.cfg p.workers rfl pre c i k h) as c q hq hw

/-- the last test is forced onto the second worker: the first one gets the others -/
example :
    let p : Plan := { demo with workers := [{ id := 1 }, { id := 2, forced := [2] }] }
    let s := (Sys.start p).run p (demoStart ++ [.act 1 {}, .act 1 {}, .act 1 {}, .act 2 {}, .act 2 {}])
    (s.loc 1).ran.map (·.1) = [0, 1] ∧ (s.loc 2).ran.map (·.1) = [2] := by decide

/-- **C31** for whole runs: in every execution, no worker runs a test that was excluded from it before the run (if workers have different ids and no worker has a test both
forced and excluded, see `C31_not_both`). -/
theorem C31_run_excluded (p : Plan) (hid : (p.workers.map (·.id)).Nodup) (ha : ∀ w ∈ p.workers, ∀ i ∈ w.forced, i ∉ w.excluded) (as : List Act)
    (w : WorkerCfg) (hw : w ∈ p.workers) (q : Nat × Nat) (hq : q ∈ (((Sys.start p).run p as).loc w.id).ran) : q.1 ∉ w.excluded := by
  refine ran_of_handed p (fun c i => ∀ w ∈ p.workers, w.id = c → i ∉ w.excluded) ?_ as w.id q hq w hw rfl
  rintro pre c k i h w hw rfl he
  obtain ⟨w', h1, h2⟩ := C31_excluded_never_handed p.cfg p.workers rfl hid ha pre w.id i k h
  have hl : look w.id (init p.cfg p.workers).cfgs = some w := by
    have : ∀ l : List WorkerCfg, w ∈ l → (l.map (·.id)).Nodup → look w.id l = some w := by
      intro l
      induction l with
      | nil => intro h; simp at h
      | cons v l ih =>
        intro hm hn
        simp only [List.map_cons, List.nodup_cons] at hn
        simp only [look, List.find?_cons] at ih ⊢
        rcases List.mem_cons.1 hm with rfl | hm
        · simp
        · have : v.id ≠ w.id := fun e => hn.1 (e ▸ List.mem_map.2 ⟨w, hm, rfl⟩)
          simp only [beq_eq_false_iff_ne.2 this]
          exact ih hm hn.2
    exact this p.workers hw hid
  obtain ⟨w2, h4, h5⟩ := look_run p.cfg (init p.cfg p.workers) pre w.id hl
  have : w' = w2 := Option.some.inj (h1.symm.trans h4)
  subst this
  exact h2 (h5.excluded i he)

/-- the first two tests are excluded from the first worker -/
example :
    let p : Plan := { demo with workers := [{ id := 1, excluded := [0, 1] }, { id := 2 }] }
    let s := (Sys.start p).run p (demoStart ++ [.act 1 {}, .act 1 {}, .act 1 {}, .act 2 {}, .act 2 {}, .act 2 {}])
    (s.loc 1).ran.map (·.1) = [2] ∧ (s.loc 2).ran.map (·.1) = [0, 1] := by decide

/-! ## Workers do not fail by themselves -/

theorem nextTest_known {cfg : Cfg} {st : St} {c : Nat} (l : List Nat) (h : ∃ w, look c st.cfgs = some w) : nextTest cfg st c l ≠ none := by
  obtain ⟨w, hw⟩ := h
  have hce : ∀ i, canExecute cfg st c i ≠ none := fun i e => by
    unfold canExecute at e
    split at e
    · cases e
    · unfold look at hw
      rw [hw] at e
      cases e
  induction l with
  | nil => simp [nextTest]
  | cons i l ih =>
    unfold nextTest
    split
    · rename_i e; exact absurd e (hce i)
    · simp
    · exact ih

theorem getTest_served (cfg : Cfg) (c : Nat) (st : St) (h : getKey c st.executing = some none) (hc : ∃ w, look c st.cfgs = some w) :
    (getTest cfg c true st).1 ≠ .fault := by
  unfold getTest
  rw [h]
  simp only
  split
  · simp
  · split
    · simp
    · split
      · split
        · rename_i e; exact absurd e (nextTest_known _ hc)
        · simp
        · simp
      · simp

/-- C81: as long as the user's hooks in the parent return normally, a step of a worker never ends in an exception: it finds
the test it is asked to run, and its request is never answered by a fault, by a protocol error or not at all. -/
theorem C81_workers_survive (p : Plan) (as : List Act) (c : Nat) (x : Choice) (hx : x.hookOk = true) :
    let s := (Sys.start p).run p as
    ((s.loc c).phase ≠ .dead → ((s.step p (.act c x)).loc c).phase ≠ .dead) ∧
    s.answer p c x ≠ some .fault ∧ s.answer p c x ≠ some .protocolError ∧ s.answer p c x ≠ some .dead := by
  intro s
  obtain ⟨hs, ht⟩ : SInv p s ∧ TInv p s := inv_run p as
  by_cases hc : c ∈ p.workers.map (·.id)
  · have key : ∀ q, request c (p.coll c) x (s.loc c).phase = some q →
        (receive p.sigs (p.coll c) x (s.loc c) (Par.step p.cfg s.srv q).1).phase ≠ .dead →
        (Par.step p.cfg s.srv q).1 ≠ .fault → (Par.step p.cfg s.srv q).1 ≠ .protocolError → (Par.step p.cfg s.srv q).1 ≠ .dead →
        ((s.loc c).phase ≠ .dead → ((s.step p (.act c x)).loc c).phase ≠ .dead) ∧
        s.answer p c x ≠ some .fault ∧ s.answer p c x ≠ some .protocolError ∧ s.answer p c x ≠ some .dead := by
      intro q hr h1 h2 h3 h4
      simp only [Sys.answer, hc, if_true, hr, Option.map_some, ne_eq, Option.some.injEq]
      refine ⟨fun _ => ?_, h2, h3, h4⟩
      simp only [Sys.step, hc, if_true, hr, loc_set]
      exact h1
    have none : (s.loc c).phase.over = true → request c (p.coll c) x (s.loc c).phase = none → _ := fun (h1 : (s.loc c).phase.over = true) h2 =>
      (show ((s.loc c).phase ≠ .dead → ((s.step p (.act c x)).loc c).phase ≠ .dead) ∧
        s.answer p c x ≠ some .fault ∧ s.answer p c x ≠ some .protocolError ∧ s.answer p c x ≠ some .dead from
      ⟨fun h => by simpa only [Sys.step, hc, if_true, h2] using h, by simp [Sys.answer, h2], by simp [Sys.answer, h2], by simp [Sys.answer, h2]⟩)
    cases hph : (s.loc c).phase with
    | fresh =>
      rw [← hph]
      refine key (.connect c x.hookOk) (by rw [hph]; rfl) ?_ ?_ ?_ ?_ <;>
        rw [step_serving _ (hs.serving hc (by rw [hph]; rfl)), (connect_view p.cfg c x.hookOk s.srv).2.2.2, hx] <;> simp [receive, hph]
    | connected =>
      rw [← hph]
      refine key (.validate c (sorted (p.coll c))) (by rw [hph]; rfl) ?_ ?_ ?_ ?_ <;>
        rw [step_serving _ (hs.serving hc (by rw [hph]; rfl))] <;>
        simp only [(validate_view p.cfg (sorted (p.coll c)) s.srv).2.2.2] <;>
        cases decide (sorted (p.coll c) = p.cfg.coll) <;> simp [receive, hph]
    | loop =>
      rw [← hph]
      obtain ⟨g1, g2⟩ := hs.known c Option.none (by rw [hph]; rfl)
      have hstep : Par.step p.cfg s.srv (.getTest c x.hookOk) = getTest p.cfg c x.hookOk s.srv :=
        step_serving _ (hs.serving hc (by rw [hph]; rfl))
      have hnf : (getTest p.cfg c x.hookOk s.srv).1 ≠ .fault := by
        rw [hx]
        refine getTest_served _ _ _ g1 ?_
        rw [hs.srv]
        obtain ⟨w, hw, rfl⟩ := List.mem_map.1 hc
        have : ∃ v, look w.id (init p.cfg p.workers).cfgs = some v := by
          have : (look w.id p.workers).isSome = true := List.find?_isSome.2 ⟨w, hw, by simp⟩
          exact Option.isSome_iff_exists.1 this
        obtain ⟨v, hv⟩ := this
        obtain ⟨v', hv', -⟩ := look_run p.cfg _ s.hist _ hv
        exact ⟨v', hv'⟩
      refine key (.getTest c x.hookOk) (by rw [hph]; rfl) ?_ (by rw [hstep]; exact hnf) ?_ ?_ <;>
        rcases getTest_idle p.cfg c x.hookOk s.srv g1 with e | e | e | ⟨i, e⟩
      all_goals first | (exact absurd e hnf) | (rw [hstep, e]; simp [receive, hph]; done) | skip
      rw [← hstep] at e
      obtain ⟨c', hq, -, -, hi, -, hh⟩ := step_test e
      obtain ⟨sig, j, k1, k2, k3⟩ := ht.pop hs x.pick hph hi
      rw [e]
      simp [receive, hph, k1, k2]
    | running i j =>
      rw [← hph]
      obtain ⟨g1, g2⟩ := hs.known c (some i) (by rw [hph]; rfl)
      obtain ⟨v4, v5⟩ := finished_busy hs.inv c i x.res g1 g2
      refine key (.finished c x.res) (by rw [hph]; rfl) ?_ ?_ ?_ ?_ <;>
        rw [step_serving _ (hs.serving hc (by rw [hph]; rfl))] <;> simp only [v4] <;> simp [receive, hph]
    | ending =>
      rw [← hph]
      obtain ⟨g1, g2⟩ := hs.known c Option.none (by rw [hph]; rfl)
      refine key (.disconnect c false) (by rw [hph]; rfl) ?_ ?_ ?_ ?_ <;>
        rw [step_serving _ (hs.serving hc (by rw [hph]; rfl))] <;> simp [receive, hph, g2]
    | leaving =>
      rw [← hph]
      obtain ⟨g1, g2⟩ := hs.known c Option.none (by rw [hph]; rfl)
      refine key (.disconnect c true) (by rw [hph]; rfl) ?_ ?_ ?_ ?_ <;>
        rw [step_serving _ (hs.serving hc (by rw [hph]; rfl))] <;> simp [receive, hph, g2]
    | gone => rw [← hph]; exact none (by rw [hph]; rfl) (by rw [hph]; rfl)
    | dead =>
      have := none (by rw [hph]; rfl) (by rw [hph]; rfl)
      exact ⟨fun h => absurd rfl h, this.2⟩
  · simp [Sys.step, Sys.answer, hc]

/-- a step of each kind -/
example : (Sys.start demo).answer demo 1 {} = some .ok ∧
    ((Sys.start demo).run demo demoStart).answer demo 1 {} = some (.test 0) ∧
    ((Sys.start demo).run demo (demoStart ++ [.act 1 {}])).answer demo 1 {} = some .ok ∧
    ((Sys.start demo).run demo demoCrash).answer demo 1 {} = none := by decide

/-- C81, the hypothesis is needed: an exception in a `worker_connected` hook, in the parent, ends the worker. -/
example : (Sys.start demo).answer demo 1 { hookOk := false } = some .fault ∧
    (((Sys.start demo).step demo (.act 1 { hookOk := false })).loc 1).phase = .dead := by decide

/-! ## Results -/

/-- C82: the results of the parent that come from a run of the test are exactly those the workers sent; each test has at most
one result; and each result sent by a worker is for a test this worker ran. -/
theorem C82_results_are_those_sent (p : Plan) (as : List Act) :
    let s := (Sys.start p).run p as
    (∀ i r, (i, .ran r) ∈ s.srv.results ↔ ∃ w ∈ p.workers, (i, r) ∈ (s.loc w.id).sent) ∧
    (s.srv.results.map (·.1)).Nodup ∧
    (∀ c i r, (i, r) ∈ (s.loc c).sent → ∃ j, (i, j) ∈ (s.loc c).ran) := by
  intro s
  obtain ⟨hs, ht⟩ : SInv p s ∧ TInv p s := inv_run p as
  have he : EInv p s := einv_run p as
  refine ⟨fun i r => ⟨fun h => ?_, fun ⟨w, hw, h⟩ => (ht w.id).sent i r h⟩, ?_, fun c i r h => ?_⟩
  · obtain ⟨c, hc, h1⟩ := he.ran i r h
    obtain ⟨w, hw, rfl⟩ := List.mem_map.1 hc
    exact ⟨w, hw, h1⟩
  · have := C79_every_test_accounted p as
    rw [this.2.2.2.1]; exact this.2.2.1
  · have h1 : i ∈ (s.loc c).sent.map (·.1) := List.mem_map_of_mem h
    have h2 : i ∈ (s.loc c).ran.map (·.1) := by
      rcases (ht c).dead with e | ⟨k, e⟩ <;> rw [e]
      · exact h1
      · exact List.mem_append_left _ h1
    obtain ⟨q, hq, rfl⟩ := List.mem_map.1 h2
    exact ⟨q.2, hq⟩

example :
    let s := (Sys.start demo).run demo demoCrash
    (s.loc 1).sent = [(0, {}), (2, { success := false })] ∧ (s.loc 2).sent = [] ∧ (s.loc 2).ran = [(1, 0)] := by decide

/-! ## The end -/

/-- the tests the server waits for, at the end -/
theorem settled_done {p : Plan} {s : Sys} (hs : SInv p s) (he : EInv p s)
    (hr : ∀ c, .clientFailure c ∈ s.hist → c ∉ s.srv.connected ∨ s.srv.phase = .stopServe) (h : s.settled p) (hp : s.srv.phase ≠ .stopServe) :
    s.srv.connected = [] ∧ working s.srv.failed s.srv.executing = [] := by
  have hc : s.srv.connected = [] := by
    rw [List.eq_nil_iff_forall_not_mem]
    intro c hc
    obtain ⟨h1, h2, -⟩ := he.conn c hc
    obtain ⟨w, hw, rfl⟩ := List.mem_map.1 h1
    rcases h w hw with h3 | h3
    · exact h2 h3
    · rcases hr _ h3 with h4 | h4
      · exact h4 hc
      · exact hp h4
  refine ⟨hc, ?_⟩
  rw [List.eq_nil_iff_forall_not_mem]
  intro i hi
  obtain ⟨c, h1, h2⟩ := (mem_working hs.inv.keys).1 hi
  exact h2 (hs.quiet c i (by rw [hc]; simp) h1)

/-- C83: let all workers collect the tests of the parent, let each worker leave regularly or be reported as dead, and let the
session not be interrupted and no other time-out occur. If a worker was reported as dead, or if each test may be executed by
one of the workers that left regularly, then in the end each test has exactly one result, and the parent stops waiting. -/
theorem C83_all_tests_reported_partial (p : Plan) (as : List Act) (ha : ∀ w ∈ p.workers, (p.coll w.id).Perm p.sigs)
    (hi : .interrupt ∉ as) (hg : .giveUp ∉ as) (h : ((Sys.start p).run p as).settled p)
    (hx : (∃ c, .clientFailure c ∈ ((Sys.start p).run p as).hist) ∨ ∀ i, i < p.sigs.length → ∃ w ∈ p.workers,
      (((Sys.start p).run p as).loc w.id).phase = .gone ∧ canExecute p.cfg ((Sys.start p).run p as).srv w.id i = some true) :
    (((Sys.start p).run p as).srv.results.map (·.1)).Perm (List.range p.sigs.length) ∧
    shouldWait p.cfg ((Sys.start p).run p as).srv = false := by
  obtain ⟨hs, ht⟩ := inv_run p as
  have he := einv_run p as
  have hr := reported_inv p as
  have hh := hinv_run p as
  generalize (Sys.start p).run p as = s at hs ht he hr hh h hx
  have hinv := hs.inv
  have hraised : s.raised = false := by
    cases e : s.raised
    · rfl
    · exact absurd (hh.raised e) (by simp [hi, hg])
  have hdrop : ∀ q ∈ s.hist, q.drops = false := by
    intro q hq
    cases q with
    | interrupted => exact absurd (hh.interrupted hq) hi
    | disconnect c f =>
      cases f
      · rfl
      · obtain ⟨h1, h2⟩ := he.left c (.inl hq)
        obtain ⟨w, hw, rfl⟩ := List.mem_map.1 h2
        exact absurd (sorted_eq_of_perm (ha w hw)) h1
    | _ => rfl
  have finish : s.srv.unstarted = [] → working s.srv.failed s.srv.executing = [] →
      (s.srv.results.map (·.1)).Perm (List.range p.sigs.length) := by
    intro h1 h2
    have hp := hinv.perm
    rw [h1, h2] at hp
    rw [hinv.res]
    exact hp
  by_cases hp : s.srv.phase = .stopServe
  · have hsw : shouldWait p.cfg s.srv = false := by
      rcases hh.stop hp with e | e
      · rw [hraised] at e; cases e
      · exact e
    refine ⟨?_, hsw⟩
    simp only [shouldWait, hasMoreTests, Bool.or_eq_false_iff, decide_eq_false_iff_not, Nat.not_lt] at hsw
    have hlen := hinv.perm.length_eq
    simp only [List.length_append, List.length_range] at hlen
    exact finish (List.length_eq_zero_iff.1 (by omega)) (List.length_eq_zero_iff.1 (by omega))
  · obtain ⟨hc, hw⟩ := settled_done hs he hr h hp
    have hlegal : ∀ a b, s.hist = a ++ b → Legal a := by
      intro a b e
      have hl := hs.legal
      exact ⟨fun a' b' c k e' => hl.1 a' (b' ++ b) c k (by rw [e, e']; simp), fun a' b' c r e' => hl.2 a' (b' ++ b) c r (by rw [e, e']; simp)⟩
    have hu : s.srv.unstarted = [] := by
      by_cases hcf : ∃ c, .clientFailure c ∈ s.hist
      · obtain ⟨c, hcf⟩ := hcf
        obtain ⟨pre, post, e⟩ := List.append_of_mem hcf
        have hcon := hh.reported pre c post e
        have hpre := hlegal pre _ e
        have hpre' : Legal (pre ++ [.clientFailure c]) := hlegal _ post (by rw [e]; simp)
        have hns : (exec p.cfg p.workers pre).phase ≠ .stopServe := fun e2 => by
          apply hp
          rw [hs.srv, e, exec_append]
          have stay : ∀ (qs : List Req) (st : St), st.phase = .stopServe → (run p.cfg st qs).2.phase = .stopServe := by
            intro qs
            induction qs with
            | nil => exact fun st h => h
            | cons q qs ih =>
              intro st h
              have hq : (step p.cfg st q).2.phase = .stopServe := by unfold step; rw [if_pos h]; exact h
              exact ih _ hq
          exact stay _ _ e2
        have hst := clientFailure_stops (inv_exec p.cfg p.workers pre hpre) hcon
        have hstop := stop_inv p.cfg p.workers (pre ++ [.clientFailure c]) hpre' (fun q hq => hdrop q (by
          rw [e]; rcases List.mem_append.1 hq with hq | hq
          · simp [hq]
          · rw [List.mem_singleton.1 hq]; simp)) (by rw [exec_snoc, step_serving _ hns]; exact hst)
        rw [List.eq_nil_iff_forall_not_mem]
        intro i hi
        rw [hs.srv, show s.hist = (pre ++ [.clientFailure c]) ++ post by rw [e]; simp, exec_append] at hi
        have := unstarted_run _ _ _ hi
        rw [hstop] at this
        cases this
      · have hx := hx.resolve_left hcf
        rw [List.eq_nil_iff_forall_not_mem]
        intro i hi
        have hin : i < p.sigs.length := by
          rw [hs.srv] at hi
          exact (nodup_hand p.cfg p.workers s.hist).2 i (List.mem_append_right _ hi)
        obtain ⟨w, hw, hg, hce⟩ := hx i hin
        rcases he.told w.id (.inr hg) with ⟨pre, k, post, e, hno⟩ | hd
        · have hstop := stop_inv p.cfg p.workers pre (hlegal pre _ e) (fun q hq => hdrop q (by rw [e]; simp [hq]))
          have hno := step_noMore hno hstop
          rw [hs.srv, e, exec_append] at hi hce
          have := hno i (unstarted_run _ _ _ hi)
          rw [canExecute_mono _ _ _ _ i this] at hce
          cases hce
        · exact absurd (hdrop _ hd) (by simp [Req.drops])
    have hperm := finish hu hw
    refine ⟨hperm, ?_⟩
    have hlen := hperm.length_eq
    rw [hinv.res, List.length_range] at hlen
    simp [shouldWait, hasMoreTests, hc, hlen, Plan.cfg]

/-- C83: if moreover no worker died and no test ended the run early (a fatal failure, or a failure when the run is to stop at
the first error), each test was run, by exactly one of the workers. -/
theorem C83_all_tests_run_partial (p : Plan) (as : List Act) (ha : ∀ w ∈ p.workers, (p.coll w.id).Perm p.sigs)
    (hi : .interrupt ∉ as) (hg : .giveUp ∉ as) (h : ∀ w ∈ p.workers, (((Sys.start p).run p as).loc w.id).phase = .gone)
    (hx : ∀ i, i < p.sigs.length → ∃ w ∈ p.workers, canExecute p.cfg ((Sys.start p).run p as).srv w.id i = some true)
    (hf : ∀ c, ∀ q ∈ (((Sys.start p).run p as).loc c).sent, q.2.fatal = false ∧ (q.2.success = true ∨ p.stop = false)) :
    ∀ i, i < p.sigs.length → ∃ w ∈ p.workers, i ∈ (((Sys.start p).run p as).loc w.id).ran.map (·.1) ∧
      ∃ r, (i, r) ∈ (((Sys.start p).run p as).loc w.id).sent ∧ (i, .ran r) ∈ ((Sys.start p).run p as).srv.results := by
  have hall := C83_all_tests_reported_partial p as ha hi hg (fun w hw => .inl (h w hw)) (.inr (fun i hi => by
    obtain ⟨w, hw, e⟩ := hx i hi; exact ⟨w, hw, h w hw, e⟩))
  obtain ⟨hs, -⟩ := inv_run p as
  have hh := hinv_run p as
  have hq := ginv_run p as
  obtain ⟨c1, -, c3⟩ := C82_results_are_those_sent p as
  intro i hin
  obtain ⟨q, hqm, rfl⟩ := List.mem_map.1 (hall.1.mem_iff.2 (List.mem_range.2 hin))
  have hstops : ∀ q ∈ ((Sys.start p).run p as).hist, ¬ q.stops p.cfg := by
    intro q hqm hq'
    cases q with
    | finished c r =>
      obtain ⟨k, hk⟩ := hq.finished c r hqm
      obtain ⟨f1, f2⟩ := hf c _ hk
      simp only [Req.stops, Plan.cfg] at hq'
      simp only at f1 f2
      rcases hq' with e | ⟨e1, e2⟩
      · rw [f1] at e; cases e
      · rcases f2 with f2 | f2
        · rw [f2] at e1; cases e1
        · rw [f2] at e2; cases e2
    | clientFailure c =>
      obtain ⟨pre, post, e⟩ := List.append_of_mem hqm
      obtain ⟨k, hk⟩ := (connected_inv p.cfg p.workers pre).2 c (hh.reported pre c post e)
      have hc := hq.connect c k (by rw [e]; exact List.mem_append_left _ hk)
      obtain ⟨w, hw, rfl⟩ := List.mem_map.1 hc
      have := hs.failed _ hqm
      rw [h w hw] at this
      cases this
    | _ => exact hq'
  obtain ⟨r, hr⟩ := exec_notRan p.cfg p.workers _ hstops q.1 q.2 (by rw [← hs.srv]; exact hqm)
  have hres : (q.1, .ran r) ∈ ((Sys.start p).run p as).srv.results := by rw [← hr]; exact hqm
  obtain ⟨w, hw, hsent⟩ := (c1 q.1 r).1 hres
  obtain ⟨j, hj⟩ := c3 w.id q.1 r hsent
  exact ⟨w, hw, List.mem_map.2 ⟨_, hj, rfl⟩, r, hsent, hres⟩

/-- a run with a crash and a whole one -/
example :
    let s := (Sys.start demo).run demo demoCrash
    s.settled demo ∧ shouldWait demo.cfg s.srv = false := by
  refine ⟨?_, by decide⟩
  intro w hw
  have : w = { id := 1 } ∨ w = { id := 2 } := by simpa [demo] using hw
  rcases this with rfl | rfl
  · exact .inl (by decide)
  · exact .inr (by decide)

example :
    let s := (Sys.start demo).run demo demoFull
    (∀ w ∈ demo.workers, (s.loc w.id).phase = .gone) ∧ s.srv.results = [(0, .ran {}), (1, .ran {}), (2, .ran {})] := by decide

/-- C83, missing: if a worker collected other tests, all workers leave, no test has a result, and the parent goes on waiting
(until its time-out). -/
theorem C83_other_collection_violated :
    let p : Plan := { demo with coll := fun c => if c = 1 then [5, 3, 5] else [3, 5, 6] }
    let s := (Sys.start p).run p (demoStart ++ [.act 2 {}, .act 1 {}, .act 1 {}])
    (∀ w ∈ p.workers, (s.loc w.id).phase = .gone) ∧ s.srv.results = [] ∧ shouldWait p.cfg s.srv = true := by decide

/-! ## Progress -/

/-- C84: whatever the schedule, the number of requests of workers that are not answered by "wait" is at most four for each
worker and two for each test; so no run goes on for ever, unless workers are told to wait for ever. -/
theorem C84_bounded (p : Plan) (hn : (p.workers.map (·.id)).Nodup) (as : List Act) :
    advancing p as (Sys.start p) ≤ 4 * p.workers.length + 2 * p.sigs.length := by
  have h := advancing_le hn as _ (SInv.start p)
  have : (Sys.start p).potential p = 4 * p.workers.length + 2 * p.sigs.length := by
    have hw : ∀ ws : List WorkerCfg, (ws.map (fun w => ((Sys.start p).loc w.id).phase.weight)).sum = 4 * ws.length := by
      intro ws
      induction ws with
      | nil => rfl
      | cons w ws ih =>
        rw [List.map_cons, List.sum_cons, ih, List.length_cons]
        have : ((Sys.start p).loc w.id).phase.weight = 4 := rfl
        omega
    simp only [Sys.potential, weights, hw]
    simp [Sys.start, init, Plan.cfg]
  omega

/-- all 14 requests of a whole run, two of them being the bound's slack -/
example : advancing demo demoFull (Sys.start demo) = 14 := by decide

/-- C84: no deadlock. If each worker that died was reported, then, unless all workers are finished or dead, some worker will
be answered something other than "wait" if it goes on. -/
theorem C84_no_deadlock_partial (p : Plan) (hn : (p.workers.map (·.id)).Nodup) (as : List Act)
    (hd : ∀ w ∈ p.workers, (((Sys.start p).run p as).loc w.id).phase = .dead → .clientFailure w.id ∈ ((Sys.start p).run p as).hist)
    (hg : ∃ w ∈ p.workers, (((Sys.start p).run p as).loc w.id).phase.over = false) (x : Choice) :
    ∃ w ∈ p.workers, (Act.act w.id x).advances p ((Sys.start p).run p as) = true := by
  obtain ⟨hs, -⟩ := inv_run p as
  have hwhy := fun c => waiting_why p hn as (c := c) (x := x)
  generalize (Sys.start p).run p as = s at hs hwhy hd hg
  have adv : ∀ w ∈ p.workers, s.answer p w.id x ≠ some .waiting → (s.loc w.id).phase.over = false → (Act.act w.id x).advances p s = true := by
    intro w hw h1 h2
    have hm : w.id ∈ p.workers.map (·.id) := List.mem_map_of_mem hw
    have : ∃ q, request w.id (p.coll w.id) x (s.loc w.id).phase = some q := by
      cases hp : (s.loc w.id).phase <;> simp_all [request, WPhase.over]
    obtain ⟨q, hq⟩ := this
    simp only [Act.advances]
    have hans : s.answer p w.id x = some (Par.step p.cfg s.srv q).1 := by simp [Sys.answer, hm, hq]
    rw [hans] at h1 ⊢
    split
    · rename_i e; cases e
    · rename_i e; exact absurd e h1
    · rfl
  obtain ⟨w, hw, hwg⟩ := hg
  by_cases h1 : s.answer p w.id x = some .waiting
  · obtain ⟨v, hv1, hv2⟩ := hwhy _ h1
    have key : (s.loc v.id).phase ≠ .loop → s.answer p v.id x ≠ some .waiting := fun h2 h3 => h2 (waiting_phase hs h3).2.1
    rcases hv2 with e | e | e | ⟨e, e'⟩
    · exact ⟨v, hv1, adv v hv1 (key (by rw [e]; simp)) (by rw [e]; rfl)⟩
    · exact ⟨v, hv1, adv v hv1 (key (by rw [e]; simp)) (by rw [e]; rfl)⟩
    · exact ⟨v, hv1, adv v hv1 (key (by rw [e]; simp)) (by rw [e]; rfl)⟩
    · exact absurd (hd v hv1 e) e'
  · exact ⟨w, hw, adv w hw h1 hwg⟩

/-- the first worker waits for the second one, which gets on -/
example :
    let s := (Sys.start demo).run demo [.act 1 {}, .act 1 {}, .act 1 {}]
    s.answer demo 1 {} = some .waiting ∧ (Act.act 1 {}).advances demo s = false ∧ (Act.act 2 {}).advances demo s = true := by decide

/-- C84: so any schedule that lets workers get on whenever one can, ends after at most the number of requests above: if, with
every dead worker reported, no worker can get on, all workers are finished or dead. -/
theorem C84_ends_partial (p : Plan) (hn : (p.workers.map (·.id)).Nodup) (as : List Act)
    (hd : ∀ w ∈ p.workers, (((Sys.start p).run p as).loc w.id).phase = .dead → .clientFailure w.id ∈ ((Sys.start p).run p as).hist)
    (x : Choice) (hstuck : ∀ w ∈ p.workers, (Act.act w.id x).advances p ((Sys.start p).run p as) = false) :
    ((Sys.start p).run p as).settled p := by
  intro w hw
  cases h : (((Sys.start p).run p as).loc w.id).phase.over
  · obtain ⟨v, hv, h⟩ := C84_no_deadlock_partial p hn as hd ⟨w, hw, h⟩ x
    rw [hstuck v hv] at h
    cases h
  · cases hp : (((Sys.start p).run p as).loc w.id).phase <;> rw [hp] at h <;> try (cases h; done)
    · exact .inl rfl
    · exact .inr (hd w hw hp)

/-- What the server heard from a worker stays. -/
theorem heard_run (p : Plan) (c : Nat) (as : List Act) (s : Sys) (h : (s.loc c).heard = true) : ((s.run p as).loc c).heard = true := by
  induction as generalizing s with
  | nil => exact h
  | cons a as ih =>
    refine ih _ ?_
    have hset : ∀ (s' : Sys) (d : Nat) (w : W), s'.loc = s.loc → (d = c → w.heard = true) → ((s'.set d w).loc c).heard = true := by
      intro s' d w e hw
      rw [loc_set]
      split
      · rename_i e'; exact hw e'.symm
      · rw [e]; exact h
    have hrec : ∀ (sigs coll : List Nat) (x : Choice) (w : W) (r : Resp), w.heard = true → (receive sigs coll x w r).heard = true := by
      intro sigs coll x w r hw
      unfold receive
      repeat' split
      all_goals exact hw
    cases a with
    | act d x =>
      simp only [Sys.step]
      split
      · split
        · exact h
        · exact hset _ d _ rfl (fun e => hrec _ _ _ _ _ (by rw [e]; exact h))
      · exact h
    | die d =>
      simp only [Sys.step]
      split
      · exact h
      · exact hset _ d _ rfl (fun e => by rw [e]; exact h)
    | keepAlive d =>
      simp only [Sys.step]
      split
      · exact h
      · exact hset _ d _ rfl (fun _ => rfl)
    | report d => simp only [Sys.step]; split <;> exact h
    | stop => simp only [Sys.step]; split <;> exact h
    | interrupt => exact h
    | giveUp => exact h
    | problem d => exact h
    | exclude d i => exact h
    | force d i => exact h

/-- C84: a worker that was heard once after it connected and dies later is found dead: as long as the server counts it as connected, the next look at it
reports it. -/
theorem C84_found_dead_partial (p : Plan) (c : Nat) (as bs : List Act) (ha : (((Sys.start p).run p as).loc c).phase.over = false)
    (hf : (((Sys.start p).run p as).loc c).phase ≠ .fresh)
    (hd : (((Sys.start p).run p (as ++ .keepAlive c :: bs)).loc c).phase = .dead)
    (hc : c ∈ ((Sys.start p).run p (as ++ .keepAlive c :: bs)).srv.connected) :
    ((Sys.start p).run p (as ++ .keepAlive c :: bs ++ [.report c])).hist =
      ((Sys.start p).run p (as ++ .keepAlive c :: bs)).hist ++ [.clientFailure c] := by
  have happ : ∀ (as bs : List Act) (s : Sys), s.run p (as ++ bs) = (s.run p as).run p bs := by
    intro as
    induction as with
    | nil => intro bs s; rfl
    | cons a as ih => intro bs s; exact ih bs _
  have hh : (((Sys.start p).run p (as ++ .keepAlive c :: bs)).loc c).heard = true := by
    rw [happ]
    refine heard_run p c bs _ ?_
    simp only [Sys.step]
    rw [if_neg (by rw [ha]; simp [hf]), loc_set, if_pos rfl]
  rw [happ _ [.report c]]
  generalize (Sys.start p).run p (as ++ .keepAlive c :: bs) = s at hd hc hh
  simp only [Sys.run, Sys.step]
  rw [if_pos ⟨hd, hh, hc⟩]
  rfl

example :
    let s := (Sys.start demo).run demo ([.act 1 {}, .act 2 {}] ++ .keepAlive 2 :: [.die 2])
    (s.loc 2).phase = .dead ∧ 2 ∈ s.srv.connected ∧ (s.step demo (.report 2)).srv.connected = [1] := by decide

/-- C84, missing: a worker that dies after it connected but before its keep-alive thread was first heard is never reported
as dead: whatever happens later, it stays connected for the server, and the parent goes on waiting. Only the time-out for
the whole server (no request of anybody for a long time) ends such a run. -/
theorem C84_early_death_violated :
    let s := (Sys.start demo).run demo [.act 1 {}, .keepAlive 1, .act 2 {}, .die 2]
    (s.loc 2).phase = .dead ∧ ∀ as, shouldWait demo.cfg (s.run demo as).srv = true := by
  refine ⟨by decide, fun as => ?_⟩
  have h := unheard_stays (p := demo) as ((Sys.start demo).run demo [.act 1 {}, .keepAlive 1, .act 2 {}, .die 2]) (c := 2)
    (by decide) (by decide) (by decide)
  unfold shouldWait
  cases he : ((Sys.run demo as _).srv).connected with
  | nil => rw [he] at h; cases h
  | cons a l => simp

/-- the second worker collected other tests, and leaves before the first one connects; the first one is not kept waiting -/
example :
    let p : Plan := { demo with coll := fun c => if c = 1 then [5, 3, 5] else [3, 5, 6] }
    let s := (Sys.start p).run p [.act 2 {}, .act 2 {}, .act 2 {}, .act 1 {}, .act 1 {}]
    (s.loc 2).phase = .gone ∧ (s.loc 1).phase = .loop ∧ s.answer p 1 {} = some .noMore := by decide

end Slash.Par
