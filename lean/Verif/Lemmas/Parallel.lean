import Verif.Model.Parallel
import Verif.Lemmas.Util
/-!
# Helper lemmas on the parallel server model
-/
namespace Slash.Par

/-- the state after a history -/
def exec (cfg : Cfg) (ws : List WorkerCfg) (qs : List Req) : St := (run cfg (init cfg ws) qs).2

theorem run_snoc (cfg : Cfg) (st : St) (qs : List Req) (q : Req) :
    run cfg st (qs ++ [q]) = ((run cfg st qs).1 ++ [(step cfg (run cfg st qs).2 q).1], (step cfg (run cfg st qs).2 q).2) := by
  induction qs generalizing st with
  | nil => simp [run]
  | cons p qs ih => simp only [List.cons_append, run, ih]

theorem exec_snoc (cfg : Cfg) (ws : List WorkerCfg) (qs : List Req) (q : Req) :
    exec cfg ws (qs ++ [q]) = (step cfg (exec cfg ws qs) q).2 := by
  simp only [exec, run_snoc]

/-! ## Frames -/

theorem createResult_some {i : Nat} {o : Outcome} {st st' : St} (h : createResult i o st = some st') :
    st' = { st with results := st.results ++ [(i, o)] } ∧ i ∉ st.results.map (·.1) := by
  unfold createResult at h
  split at h
  · cases h
  · simp only [Option.some.injEq] at h; exact ⟨h.symm, by assumption⟩

theorem markUnrunLoop_frame (l : List Nat) (st : St) : ∃ k,
    (markUnrunLoop l st).2 = { st with results := st.results ++ (l.take k).map (fun i => (i, .notRun)),
                                       finished := st.finished ++ l.take k } ∧
    ((markUnrunLoop l st).1 = true → l.take k = l) := by
  induction l generalizing st with
  | nil => exact ⟨0, by simp [markUnrunLoop], by simp⟩
  | cons i l ih =>
    simp only [markUnrunLoop]
    cases h : createResult i .notRun st with
    | none => exact ⟨0, by simp, by simp⟩
    | some st' =>
      obtain ⟨h1, -⟩ := createResult_some h
      subst h1
      obtain ⟨k, hk, hk2⟩ := ih { st with results := st.results ++ [(i, .notRun)], finished := st.finished ++ [i] }
      refine ⟨k + 1, ?_, ?_⟩
      · simp only; rw [hk]; simp
      · intro ht; simp only at ht; simp [hk2 ht]

theorem markUnrunLoop_ok (l : List Nat) (st : St) (hn : l.Nodup) (hd : ∀ i ∈ l, i ∉ st.results.map (·.1)) :
    markUnrunLoop l st = (true, { st with results := st.results ++ l.map (fun i => (i, .notRun)),
                                          finished := st.finished ++ l }) := by
  induction l generalizing st with
  | nil => simp [markUnrunLoop]
  | cons i l ih =>
    rw [List.nodup_cons] at hn
    simp only [markUnrunLoop, createResult, hd i (by simp), if_false]
    rw [ih _ hn.2]
    · simp
    · intro j hj
      simp only [List.map_append, List.map_cons, List.map_nil, List.mem_append, List.mem_singleton, not_or]
      exact ⟨hd j (by simp [hj]), fun h => hn.1 (h ▸ hj)⟩

/-- marking the unrun tests does not touch anything else -/
theorem markUnrun_frame (st : St) : ∃ res fin uns, (markUnrun st).2 = { st with results := res, finished := fin, unstarted := uns } ∧
    (uns = st.unstarted ∨ uns = []) := by
  unfold markUnrun
  obtain ⟨k, hk, -⟩ := markUnrunLoop_frame st.unstarted st
  rcases hm : markUnrunLoop st.unstarted st with ⟨b, st'⟩
  rw [hm] at hk
  simp only at hk
  cases b
  · exact ⟨_, _, _, by simp only; rw [hk], .inl rfl⟩
  · exact ⟨_, _, [], by simp only; rw [hk], .inr rfl⟩

theorem markUnrun_ok (st : St) (hn : st.unstarted.Nodup) (hd : ∀ i ∈ st.unstarted, i ∉ st.results.map (·.1)) :
    markUnrun st = (true, { st with results := st.results ++ st.unstarted.map (fun i => (i, .notRun)),
                                    finished := st.finished ++ st.unstarted, unstarted := [] }) := by
  unfold markUnrun
  rw [markUnrunLoop_ok _ _ hn hd]

theorem nextTest_some {cfg : Cfg} {st : St} {c : Nat} {l : List Nat} {i : Nat} (h : nextTest cfg st c l = some (some i)) :
    i ∈ l ∧ canExecute cfg st c i = some true := by
  induction l with
  | nil => simp [nextTest] at h
  | cons j l ih =>
    simp only [nextTest] at h
    split at h
    · cases h
    · simp only [Option.some.injEq] at h; subst h; exact ⟨by simp, by assumption⟩
    · obtain ⟨h1, h2⟩ := ih h; exact ⟨by simp [h1], h2⟩

theorem nextTest_none {cfg : Cfg} {st : St} {c : Nat} {l : List Nat} (h : nextTest cfg st c l = some none) :
    ∀ i ∈ l, canExecute cfg st c i = some false := by
  induction l with
  | nil => simp
  | cons j l ih =>
    simp only [nextTest] at h
    split at h
    · cases h
    · cases h
    · intro i hi
      rcases List.mem_cons.1 hi with rfl | hi
      · assumption
      · exact ih h i hi

/-- how a request changes what is waiting and what was handed out -/
inductive Hand (st st' : St) : Resp → Prop where
  | same (r : Resp) : st'.handed = st.handed → st'.unstarted = st.unstarted → (∀ i, r ≠ .test i) → Hand st st' r
  | clear (r : Resp) : st'.handed = st.handed → st'.unstarted = [] → (∀ i, r ≠ .test i) → Hand st st' r
  | hand (c i : Nat) (r : Resp) : st'.handed = st.handed ++ [(c, i)] → st'.unstarted = st.unstarted.erase i →
      i ∈ st.unstarted → (r = .test i ∨ r = .fault) → Hand st st' r

theorem hand_markUnrun (st st0 : St) (h1 : st0.handed = st.handed) (h2 : st0.unstarted = st.unstarted) (r : Resp)
    (hr : ∀ i, r ≠ .test i) : Hand st (markUnrun st0).2 r := by
  obtain ⟨res, fin, uns, h, hu⟩ := markUnrun_frame st0
  rcases hu with rfl | rfl
  · exact .same r (by rw [h]; exact h1) (by rw [h]; exact h2) hr
  · exact .clear r (by rw [h]; exact h1) (by rw [h]) hr

theorem step_hand (cfg : Cfg) (st : St) (q : Req) : Hand st (step cfg st q).2 (step cfg st q).1 := by
  unfold step
  split
  · exact .same _ rfl rfl (by simp)
  · cases q with
    | connect c ok =>
      simp only [connect]
      cases ok
      · refine .same _ ?_ ?_ (by simp) <;> (simp only [Bool.not_false, if_true]; split <;> rfl)
      · refine .same _ ?_ ?_ (by simp) <;>
          (simp only [Bool.not_true, Bool.false_eq_true, if_false]; split <;> split <;> rfl)
    | validate c coll =>
      simp only [validate]
      split
      · exact .same _ rfl rfl (by simp)
      · refine .same _ ?_ ?_ (by simp) <;> (simp only; split <;> rfl)
    | getTest c ok =>
      simp only [getTest]
      split
      · exact .same _ rfl rfl (by simp)
      · exact .same _ rfl rfl (by simp)
      · split
        · exact .same _ rfl rfl (by simp)
        · split
          · exact .same _ rfl rfl (by simp)
          · split
            · split
              · exact .same _ rfl rfl (by simp)
              · exact .same _ rfl rfl (by simp)
              · rename_i i hi
                obtain ⟨hm, -⟩ := nextTest_some hi
                cases ok
                · exact .hand c i _ rfl rfl hm (.inr rfl)
                · exact .hand c i _ rfl rfl hm (.inl rfl)
            · exact .same _ rfl rfl (by simp)
    | finished c r =>
      simp only [finishedTest]
      split
      · cases hc : createResult _ _ _ with
        | none => exact .same _ rfl rfl (by simp)
        | some st1 =>
          obtain ⟨h1, -⟩ := createResult_some hc
          simp only
          split
          · have := hand_markUnrun st { st1 with phase := .stopTests } (by rw [h1]) (by rw [h1])
            rcases hm : markUnrun { st1 with phase := .stopTests } with ⟨b, st2⟩
            rw [hm] at this
            cases b
            · exact this .fault (by simp)
            · exact this .ok (by simp)
          · exact .same _ (by rw [h1]) (by rw [h1]) (by simp)
      · exact .same _ rfl rfl (by simp)
    | clientFailure c =>
      simp only [clientFailure]
      split
      · exact .same _ rfl rfl (by simp)
      · have key : ∀ st1 : St, st1.handed = st.handed → st1.unstarted = st.unstarted →
            ∀ r : Resp × St, r = (match markUnrun { st1 with phase := .stopTests } with
              | (true, st) => (Resp.ok, { st with workerError := true })
              | (false, st) => (.fault, st)) → Hand st r.2 r.1 := by
          intro st1 e1 e2 r hr
          have := hand_markUnrun st { st1 with phase := .stopTests } e1 e2
          rcases hm : markUnrun { st1 with phase := .stopTests } with ⟨b, st2⟩
          rw [hm] at this hr
          cases b
          · subst hr; exact this .fault (by simp)
          · subst hr
            rcases this .ok (by simp) with ⟨_, a, b, d⟩ | ⟨_, a, b, d⟩ | ⟨_, _, _, a, b, d, e⟩
            · exact .same _ a b (by simp)
            · exact .clear _ a b (by simp)
            · rcases e with e | e <;> cases e
        split
        · cases hc : createResult _ _ _ with
          | none => exact .same _ rfl rfl (by simp)
          | some st1 =>
            obtain ⟨h1, -⟩ := createResult_some hc
            simp only
            exact key { st1 with finished := st1.finished ++ [_], failed := (c, _) :: st1.failed } (by rw [h1]) (by rw [h1]) _ rfl
        · exact key { st with connected := st.connected.erase c } rfl rfl _ rfl
    | disconnect c f =>
      simp only
      split
      · exact .same _ rfl rfl (by simp)
      · refine .same _ ?_ ?_ (by simp) <;> (simp only; split <;> rfl)
    | interrupted => exact .same _ rfl rfl (by simp)
    | sessionError => exact .same _ rfl rfl (by simp)
    | stopServe => exact .same _ rfl rfl (by simp)
    | exclude c i => exact .same _ rfl rfl (by simp)
    | force c i => exact .same _ rfl rfl (by simp)

/-! ## Waiting and handed out -/

theorem nodup_hand (cfg : Cfg) (ws : List WorkerCfg) (qs : List Req) :
    ((exec cfg ws qs).handed.map (·.2) ++ (exec cfg ws qs).unstarted).Nodup ∧
    ∀ i ∈ (exec cfg ws qs).handed.map (·.2) ++ (exec cfg ws qs).unstarted, i < cfg.n := by
  induction qs using snocInd with
  | nil => exact ⟨by simpa [exec, run, init] using List.nodup_range, by simp [exec, run, init]⟩
  | snoc qs q ih =>
    rw [exec_snoc]
    generalize exec cfg ws qs = st at ih
    rcases step_hand cfg st q with ⟨_, h1, h2, -⟩ | ⟨_, h1, h2, -⟩ | ⟨c, i, _, h1, h2, hm, -⟩
    · rw [h1, h2]; exact ih
    · rw [h1, h2]
      simp only [List.append_nil]
      exact ⟨(List.nodup_append.1 ih.1).1, fun i hi => ih.2 i (List.mem_append_left _ hi)⟩
    · rw [h1, h2]
      have hp : (List.map (·.2) (st.handed ++ [(c, i)]) ++ st.unstarted.erase i).Perm
          (st.handed.map (·.2) ++ st.unstarted) := by
        simp only [List.map_append, List.map_cons, List.map_nil, List.append_assoc, List.singleton_append]
        exact (List.perm_cons_erase hm).symm.append_left _
      exact ⟨hp.nodup_iff.2 ih.1, fun j hj => ih.2 j (hp.mem_iff.1 hj)⟩

/-! ## Executing -/

/-- tests being executed, except those whose worker failed -/
def working (F : List (Nat × Nat)) : List (Nat × Option Nat) → List Nat
  | [] => []
  | (_, none) :: l => working F l
  | (c, some i) :: l => if (c, i) ∈ F then working F l else i :: working F l

theorem getKey_none {c : Nat} {l : List (Nat × Option Nat)} : getKey c l = none ↔ c ∉ l.map (·.1) := by
  induction l with
  | nil => simp [getKey]
  | cons p l ih =>
    obtain ⟨d, v⟩ := p
    simp only [getKey]
    by_cases h : d = c
    · simp [h]
    · simp [h, ih, Ne.symm h]

theorem setKey_keys (c : Nat) (v : Option Nat) (l : List (Nat × Option Nat)) :
    (setKey c v l).map (·.1) = if c ∈ l.map (·.1) then l.map (·.1) else l.map (·.1) ++ [c] := by
  induction l with
  | nil => simp [setKey]
  | cons p l ih =>
    obtain ⟨d, w⟩ := p
    simp only [setKey]
    by_cases h : d = c
    · simp [h]
    · have h' : ¬ c = d := fun e => h e.symm
      simp only [h, if_false, List.map_cons, ih, List.mem_cons, h', false_or]
      split <;> rfl

theorem setKey_nodup (c : Nat) (v : Option Nat) (l : List (Nat × Option Nat)) (h : (l.map (·.1)).Nodup) :
    ((setKey c v l).map (·.1)).Nodup := by
  rw [setKey_keys]
  split
  · exact h
  · rename_i hc
    rw [List.nodup_append]
    exact ⟨h, by simp, by simp; intro a b hb e; subst e; exact hc (List.mem_map.2 ⟨_, hb, rfl⟩)⟩

theorem getKey_setKey (c d : Nat) (v : Option Nat) (l : List (Nat × Option Nat)) :
    getKey d (setKey c v l) = if d = c then some v else getKey d l := by
  induction l with
  | nil =>
    simp only [setKey, getKey]
    by_cases h : d = c
    · simp [h]
    · simp [h, Ne.symm h]
  | cons p l ih =>
    obtain ⟨e, w⟩ := p
    simp only [setKey]
    by_cases h : e = c
    · subst h
      simp only [if_true, getKey]
      by_cases h2 : d = e
      · simp [h2]
      · simp [h2, Ne.symm h2]
    · simp only [h, if_false, getKey, ih]
      by_cases h2 : e = d
      · subst h2; simp [h]
      · simp [h2]

/-- what a worker contributes -/
def part (F : List (Nat × Nat)) (p : Nat × Option Nat) : List Nat :=
  match p.2 with
  | none => []
  | some i => if (p.1, i) ∈ F then [] else [i]

theorem working_cons (F : List (Nat × Nat)) (p : Nat × Option Nat) (l : List (Nat × Option Nat)) :
    working F (p :: l) = part F p ++ working F l := by
  obtain ⟨d, v⟩ := p
  cases v with
  | none => rfl
  | some i => simp only [working, part]; split <;> rfl

/-- giving a test to an idle worker -/
theorem working_give (F : List (Nat × Nat)) (c i : Nat) (l : List (Nat × Option Nat)) (hc : (c, i) ∉ F)
    (h : getKey c l = some none) : (working F (setKey c (some i) l)).Perm (i :: working F l) := by
  induction l with
  | nil => cases h
  | cons p l ih =>
    obtain ⟨d, v⟩ := p
    simp only [getKey] at h
    simp only [setKey]
    by_cases hd : d = c
    · subst hd
      simp only [if_true, Option.some.injEq] at h
      subst h
      simp [working_cons, part, hc]
    · simp only [hd, if_false] at h ⊢
      simp only [working_cons]
      exact ((ih h).append_left _).trans List.perm_middle

/-- a worker finishes its test -/
theorem working_take (F : List (Nat × Nat)) (c i : Nat) (l : List (Nat × Option Nat)) (hc : (c, i) ∉ F)
    (h : getKey c l = some (some i)) : (i :: working F (setKey c none l)).Perm (working F l) := by
  induction l with
  | nil => cases h
  | cons p l ih =>
    obtain ⟨d, v⟩ := p
    simp only [getKey] at h
    simp only [setKey]
    by_cases hd : d = c
    · subst hd
      simp only [if_true, Option.some.injEq] at h
      subst h
      simp [working_cons, part, hc]
    · simp only [hd, if_false] at h ⊢
      simp only [working_cons]
      exact List.perm_middle.symm.trans ((ih h).append_left _)

/-- a new worker connects -/
theorem working_new (F : List (Nat × Nat)) (c : Nat) (l : List (Nat × Option Nat)) (h : c ∉ l.map (·.1)) :
    working F (setKey c none l) = working F l := by
  induction l with
  | nil => simp [setKey, working]
  | cons p l ih =>
    obtain ⟨d, v⟩ := p
    simp only [List.map_cons, List.mem_cons, not_or] at h
    simp only [setKey, Ne.symm h.1, if_false, working_cons, ih h.2]

theorem working_fail_other (F : List (Nat × Nat)) (c i : Nat) (l : List (Nat × Option Nat)) (h : c ∉ l.map (·.1)) :
    working ((c, i) :: F) l = working F l := by
  induction l with
  | nil => rfl
  | cons p l ih =>
    obtain ⟨d, v⟩ := p
    simp only [List.map_cons, List.mem_cons, not_or] at h
    simp only [working_cons, ih h.2]
    congr 1
    simp only [part]
    cases v <;> simp [Ne.symm h.1]

/-- a worker fails -/
theorem working_fail (F : List (Nat × Nat)) (c i : Nat) (l : List (Nat × Option Nat)) (hk : (l.map (·.1)).Nodup)
    (hc : (c, i) ∉ F) (h : getKey c l = some (some i)) : (i :: working ((c, i) :: F) l).Perm (working F l) := by
  induction l with
  | nil => cases h
  | cons p l ih =>
    obtain ⟨d, w⟩ := p
    simp only [getKey] at h
    simp only [List.map_cons, List.nodup_cons] at hk
    by_cases hd : d = c
    · subst hd
      simp only [if_true, Option.some.injEq] at h
      subst h
      simp [working_cons, part, hc, working_fail_other F d i l hk.1]
    · simp only [hd, if_false] at h
      simp only [working_cons]
      have hp : part ((c, i) :: F) (d, w) = part F (d, w) := by
        simp only [part]
        cases w <;> simp [hd]
      rw [hp]
      exact List.perm_middle.symm.trans ((ih hk.2 h).append_left _)

/-! ## The accounting invariant -/

/-- invariant of histories in which workers behave -/
structure Inv (n : Nat) (qs : List Req) (st : St) : Prop where
  perm : (st.unstarted ++ working st.failed st.executing ++ st.finished).Perm (List.range n)
  keys : (st.executing.map (·.1)).Nodup
  conn : ∀ c, c ∈ st.executing.map (·.1) ∨ c ∈ st.connected → ∃ b, .connect c b ∈ qs
  failed : ∀ p ∈ st.failed, .clientFailure p.1 ∈ qs ∧ p.1 ∉ st.connected ∧ p.2 ∈ st.finished ∧ ∃ b, .connect p.1 b ∈ qs
  res : st.results.map (·.1) = st.finished
  connected : st.connected.Nodup

theorem Inv.nodup {n : Nat} {qs : List Req} {st : St} (h : Inv n qs st) :
    (st.unstarted ++ working st.failed st.executing ++ st.finished).Nodup := h.perm.nodup_iff.2 List.nodup_range

theorem Inv.mono {n : Nat} {qs : List Req} {st : St} (h : Inv n qs st) (q : Req) : Inv n (qs ++ [q]) st :=
  ⟨h.perm, h.keys, fun c hc => by obtain ⟨b, hb⟩ := h.conn c hc; exact ⟨b, by simp [hb]⟩,
   fun c hc => by obtain ⟨h1, h2, h3, b, hb⟩ := h.failed c hc; exact ⟨by simp [h1], h2, h3, b, by simp [hb]⟩, h.res, h.connected⟩

/-- changes of the other fields -/
theorem Inv.frame {n : Nat} {qs : List Req} {st st' : St} (h : Inv n qs st) (h1 : st'.unstarted = st.unstarted)
    (h2 : st'.failed = st.failed) (h3 : st'.executing = st.executing) (h4 : st'.finished = st.finished)
    (h5 : st'.results = st.results) (h6 : st'.connected.Sublist st.connected) : Inv n qs st' :=
  ⟨by rw [h1, h2, h3, h4]; exact h.perm, by rw [h3]; exact h.keys,
   fun c hc => h.conn c (by rw [h3] at hc; exact hc.imp id (fun hm => h6.subset hm)),
   fun c hc => by rw [h2] at hc; obtain ⟨a, b, d⟩ := h.failed c hc; exact ⟨a, fun hm => b (h6.subset hm), by rw [h4]; exact d.1, d.2⟩,
   by rw [h4, h5]; exact h.res, h6.nodup h.connected⟩

theorem Inv.markUnrun {n : Nat} {qs : List Req} {st : St} (h : Inv n qs st) :
    (markUnrun st).1 = true ∧ Inv n qs (markUnrun st).2 ∧ (Par.markUnrun st).2.unstarted = [] ∧
    (Par.markUnrun st).2.executing = st.executing ∧ (Par.markUnrun st).2.failed = st.failed ∧
    (Par.markUnrun st).2.finished = st.finished ++ st.unstarted ∧
    (Par.markUnrun st).2.results = st.results ++ st.unstarted.map (fun i => (i, .notRun)) ∧
    (Par.markUnrun st).2.connected = st.connected ∧ (Par.markUnrun st).2.phase = st.phase := by
  have hnd := h.nodup
  have hu : st.unstarted.Nodup := (List.nodup_append.1 (List.nodup_append.1 hnd).1).1
  have hd : ∀ i ∈ st.unstarted, i ∉ st.results.map (·.1) := by
    intro i hi hr
    rw [h.res] at hr
    exact (List.nodup_append.1 hnd).2.2 i (List.mem_append_left _ hi) i hr rfl
  rw [markUnrun_ok st hu hd]
  refine ⟨rfl, ⟨?_, h.keys, h.conn, fun p hp => ?_, ?_, h.connected⟩, rfl, rfl, rfl, rfl, rfl, rfl, rfl⟩
  · simp only [List.nil_append]
    refine List.Perm.trans ?_ h.perm
    rw [← List.append_assoc, List.append_assoc st.unstarted]
    exact List.perm_append_comm
  · obtain ⟨a, b, d, e⟩ := h.failed p hp; exact ⟨a, b, List.mem_append_left _ d, e⟩
  · simp [h.res, Function.comp_def]

/-- Histories in which each worker connects at most once, and a worker whose failure was reported does not report a
finished test any more. -/
def Legal (qs : List Req) : Prop :=
  (∀ a b c k, qs = a ++ .connect c k :: b → ∀ k', .connect c k' ∉ a) ∧
  (∀ a b c r, qs = a ++ .finished c r :: b → .clientFailure c ∉ a)

theorem Legal.snoc {qs : List Req} {q : Req} (h : Legal (qs ++ [q])) : Legal qs :=
  ⟨fun a b c k e => h.1 a (b ++ [q]) c k (by rw [e]; simp), fun a b c r e => h.2 a (b ++ [q]) c r (by rw [e]; simp)⟩

theorem inv_finished {cfg : Cfg} {qs : List Req} {st : St} (h : Inv cfg.n qs st) (c : Nat) (r : WRes)
    (hl : .clientFailure c ∉ qs) : Inv cfg.n qs (finishedTest cfg c r st).2 := by
  unfold finishedTest
  split
  · rename_i i hk
    have hcf : (c, i) ∉ st.failed := fun hm => hl (h.failed _ hm).1
    have hw := working_take st.failed c i st.executing hcf hk
    have hiw : i ∈ working st.failed st.executing := hw.mem_iff.1 (by simp)
    have hnd := h.nodup
    have hir : i ∉ st.results.map (·.1) := by
      rw [h.res]
      intro hf
      exact (List.nodup_append.1 hnd).2.2 i (List.mem_append_right _ hiw) i hf rfl
    have hkeys : (setKey c none st.executing).map (·.1) = st.executing.map (·.1) := by
      rw [setKey_keys, if_pos]
      apply Classical.byContradiction
      intro hc
      rw [← getKey_none] at hc
      rw [hc] at hk; cases hk
    simp only [createResult, hir, if_false]
    have h1 : Inv cfg.n qs { st with finished := st.finished ++ [i], executing := setKey c none st.executing,
                                     results := st.results ++ [(i, .ran r)] } := by
      refine ⟨?_, by rw [hkeys]; exact h.keys, by rw [hkeys]; exact h.conn,
        fun p hp => by obtain ⟨a, b, d, e⟩ := h.failed p hp; exact ⟨a, b, List.mem_append_left _ d, e⟩, by simp [h.res], h.connected⟩
      refine List.Perm.trans ?_ h.perm
      simp only [List.append_assoc]
      refine List.Perm.append_left _ ?_
      refine List.Perm.trans ?_ (hw.append_right _)
      rw [← List.append_assoc]
      exact List.perm_append_comm
    split
    · have h2 := h1.frame (st' := { st with finished := st.finished ++ [i], executing := setKey c none st.executing, results := st.results ++ [(i, .ran r)], phase := .stopTests })
        rfl rfl rfl rfl rfl (List.Sublist.refl _)
      obtain ⟨e, h3, -⟩ := h2.markUnrun
      rcases hm : markUnrun { st with finished := st.finished ++ [i], executing := setKey c none st.executing, results := st.results ++ [(i, .ran r)], phase := .stopTests } with ⟨b, st2⟩
      rw [hm] at e h3
      simp only at e
      subst e
      exact h3
    · exact h1
  · exact h

theorem inv_clientFailure {cfg : Cfg} {qs : List Req} {st : St} (h : Inv cfg.n qs st) (c : Nat) :
    Inv cfg.n (qs ++ [.clientFailure c]) (clientFailure c st).2 := by
  unfold clientFailure
  split
  · exact h.mono _
  · rename_i hc
    have hc' : c ∈ st.connected := Classical.not_not.1 hc
    have hnd := h.nodup
    simp only
    have hfailed : ∀ p ∈ st.failed, .clientFailure p.1 ∈ qs ++ [Req.clientFailure c] ∧ p.1 ∉ st.connected.erase c ∧
        p.2 ∈ st.finished ∧ ∃ b, .connect p.1 b ∈ qs ++ [Req.clientFailure c] := by
      intro d hd
      obtain ⟨a1, a2, a3, b, hb⟩ := h.failed d hd
      exact ⟨by simp [a1], fun hm => a2 (List.mem_of_mem_erase hm), a3, b, by simp [hb]⟩
    have hconn : ∀ d, d ∈ st.executing.map (·.1) ∨ d ∈ st.connected.erase c → ∃ b, .connect d b ∈ qs ++ [Req.clientFailure c] := by
      intro d hd
      obtain ⟨b, hb⟩ := h.conn d (hd.imp id List.mem_of_mem_erase)
      exact ⟨b, by simp [hb]⟩
    have key : ∀ st1 : St, Inv cfg.n (qs ++ [.clientFailure c]) st1 →
        Inv cfg.n (qs ++ [.clientFailure c]) (match markUnrun { st1 with phase := .stopTests } with
              | (true, st) => (Resp.ok, { st with workerError := true })
              | (false, st) => (.fault, st)).2 := by
      intro st1 h1
      have h2 := h1.frame (st' := { st1 with phase := .stopTests }) rfl rfl rfl rfl rfl (List.Sublist.refl _)
      obtain ⟨e, h3, -⟩ := h2.markUnrun
      rcases hm : markUnrun { st1 with phase := .stopTests } with ⟨b, st2⟩
      rw [hm] at e h3
      simp only at e
      subst e
      exact h3.frame rfl rfl rfl rfl rfl (List.Sublist.refl _)
    split
    · rename_i i hk
      have hcf : (c, i) ∉ st.failed := fun hm => (h.failed _ hm).2.1 hc'
      have hw := working_fail st.failed c i st.executing h.keys hcf hk
      have hiw : i ∈ working st.failed st.executing := hw.mem_iff.1 (by simp)
      have hir : i ∉ st.results.map (·.1) := by
        rw [h.res]
        intro hf
        exact (List.nodup_append.1 hnd).2.2 i (List.mem_append_right _ hiw) i hf rfl
      simp only [createResult, hir, if_false]
      refine key { st with connected := st.connected.erase c, failed := (c, i) :: st.failed, results := st.results ++ [(i, .interrupted)], finished := st.finished ++ [i] } ?_
      refine ⟨?_, h.keys, hconn, ?_, by simp [h.res], h.connected.erase _⟩
      · refine List.Perm.trans ?_ h.perm
        simp only [List.append_assoc]
        refine List.Perm.append_left _ ?_
        refine List.Perm.trans ?_ (hw.append_right _)
        rw [← List.append_assoc]
        exact List.perm_append_comm
      · intro p hp
        rcases List.mem_cons.1 hp with rfl | hp
        · refine ⟨by simp, h.connected.not_mem_erase, by simp, ?_⟩
          obtain ⟨b, hb⟩ := h.conn c (.inr hc')
          exact ⟨b, by simp [hb]⟩
        · obtain ⟨a, b, d, e⟩ := hfailed p hp
          exact ⟨a, b, List.mem_append_left _ d, e⟩
    · refine key { st with connected := st.connected.erase c } ?_
      exact ⟨h.perm, h.keys, hconn, hfailed, h.res, h.connected.erase _⟩

theorem inv_getTest {cfg : Cfg} {qs : List Req} {st : St} (h : Inv cfg.n qs st) (c : Nat) (ok : Bool) :
    Inv cfg.n qs (getTest cfg c ok st).2 := by
  unfold getTest
  split
  · exact h
  · exact h
  · rename_i hk
    split
    · exact h
    · split
      · exact h
      · split
        · split
          · exact h
          · exact h
          · rename_i i hi
            obtain ⟨hm, -⟩ := nextTest_some hi
            have hnd := h.nodup
            have hcf : (c, i) ∉ st.failed := by
              intro hf
              exact (List.nodup_append.1 hnd).2.2 i (List.mem_append_left _ hm) i (h.failed _ hf).2.2.1 rfl
            have hkeys : (setKey c (some i) st.executing).map (·.1) = st.executing.map (·.1) := by
              rw [setKey_keys, if_pos]
              apply Classical.byContradiction
              intro hc
              rw [← getKey_none] at hc
              rw [hc] at hk; cases hk
            have : Inv cfg.n qs { st with unstarted := st.unstarted.erase i, executing := setKey c (some i) st.executing, handed := st.handed ++ [(c, i)] } := by
              refine ⟨?_, by rw [hkeys]; exact h.keys, by rw [hkeys]; exact h.conn, h.failed, h.res, h.connected⟩
              refine List.Perm.trans ?_ h.perm
              refine List.Perm.append_right _ ?_
              have hw := working_give st.failed c i st.executing hcf hk
              refine (hw.append_left _).trans ?_
              refine List.perm_middle.trans ?_
              exact (List.perm_cons_erase hm).symm.append_right _
            cases ok
            · exact this
            · exact this
        · exact h.frame rfl rfl rfl rfl rfl (List.Sublist.refl _)

theorem inv_connect {cfg : Cfg} {qs : List Req} {st : St} (h : Inv cfg.n qs st) (c : Nat) (ok : Bool)
    (hl : ∀ k, .connect c k ∉ qs) : Inv cfg.n (qs ++ [.connect c ok]) (connect cfg c ok st).2 := by
  have hk : c ∉ st.executing.map (·.1) := fun hm => by obtain ⟨b, hb⟩ := h.conn c (.inl hm); exact hl b hb
  have hc : c ∉ st.connected := fun hm => by obtain ⟨b, hb⟩ := h.conn c (.inr hm); exact hl b hb
  have hfailed : ∀ p ∈ st.failed, .clientFailure p.1 ∈ qs ++ [Req.connect c ok] ∧ p.1 ∉ st.connected ++ [c] ∧
      p.2 ∈ st.finished ∧ ∃ b, .connect p.1 b ∈ qs ++ [Req.connect c ok] := by
    intro d hd
    obtain ⟨a1, a2, a3, b, hb⟩ := h.failed d hd
    refine ⟨by simp [a1], ?_, a3, b, by simp [hb]⟩
    simp only [List.mem_append, List.mem_singleton, not_or]
    exact ⟨a2, fun e => hl b (e ▸ hb)⟩
  have hnd : (st.connected ++ [c]).Nodup := by
    rw [List.nodup_append]
    exact ⟨h.connected, by simp, by simp; intro a ha e; exact hc (e ▸ ha)⟩
  have h1 : Inv cfg.n (qs ++ [.connect c ok]) { st with connected := st.connected ++ [c] } := by
    refine ⟨h.perm, h.keys, ?_, hfailed, h.res, hnd⟩
    intro d hd
    simp only [List.mem_append, List.mem_singleton] at hd
    rcases hd with hd | hd | rfl
    · obtain ⟨b, hb⟩ := h.conn d (.inl hd); exact ⟨b, by simp [hb]⟩
    · obtain ⟨b, hb⟩ := h.conn d (.inr hd); exact ⟨b, by simp [hb]⟩
    · exact ⟨ok, by simp⟩
  have h2 : Inv cfg.n (qs ++ [.connect c ok]) { st with connected := st.connected ++ [c], executing := setKey c none st.executing } := by
    refine ⟨?_, setKey_nodup _ _ _ h1.keys, ?_, h1.failed, h1.res, h1.connected⟩
    · have := working_new st.failed c st.executing hk
      simp only [this]; exact h.perm
    · intro d hd
      rw [setKey_keys, if_neg hk] at hd
      simp only [List.mem_append, List.mem_singleton] at hd
      rcases hd with (hd | rfl) | hd
      · obtain ⟨b, hb⟩ := h.conn d (.inl hd); exact ⟨b, by simp [hb]⟩
      · exact ⟨ok, by simp⟩
      · exact h1.conn d (.inr (by simpa using hd))
  unfold connect
  rw [if_neg hc]
  cases ok
  · exact h1
  · simp only [Bool.not_true, Bool.false_eq_true, if_false]
    split
    · exact h2.frame rfl rfl rfl rfl rfl (List.Sublist.refl _)
    · exact h2

theorem inv_step {cfg : Cfg} {qs : List Req} {st : St} (h : Inv cfg.n qs st) (q : Req) (hl : Legal (qs ++ [q])) :
    Inv cfg.n (qs ++ [q]) (step cfg st q).2 := by
  unfold step
  split
  · exact h.mono _
  · cases q with
    | connect c ok => exact inv_connect h c ok (hl.1 qs [] c ok rfl)
    | validate c coll =>
      refine Inv.mono ?_ _
      simp only [validate]
      split
      · exact h
      · simp only; split <;> exact h.frame rfl rfl rfl rfl rfl (List.Sublist.refl _)
    | getTest c ok => exact (inv_getTest h c ok).mono _
    | finished c r => exact (inv_finished h c r (hl.2 qs [] c r rfl)).mono _
    | clientFailure c => exact inv_clientFailure h c
    | disconnect c f =>
      refine Inv.mono ?_ _
      simp only
      split
      · exact h
      · simp only; split <;> exact h.frame rfl rfl rfl rfl rfl List.erase_sublist
    | interrupted => refine Inv.mono ?_ _; exact h.frame rfl rfl rfl rfl rfl (List.Sublist.refl _)
    | sessionError => refine Inv.mono ?_ _; exact h.frame rfl rfl rfl rfl rfl (List.Sublist.refl _)
    | stopServe => refine Inv.mono ?_ _; exact h.frame rfl rfl rfl rfl rfl (List.Sublist.refl _)
    | exclude c i => refine Inv.mono ?_ _; exact h.frame rfl rfl rfl rfl rfl (List.Sublist.refl _)
    | force c i => refine Inv.mono ?_ _; exact h.frame rfl rfl rfl rfl rfl (List.Sublist.refl _)

theorem inv_exec (cfg : Cfg) (ws : List WorkerCfg) (qs : List Req) (hl : Legal qs) : Inv cfg.n qs (exec cfg ws qs) := by
  induction qs using snocInd with
  | nil => exact ⟨by simp [exec, run, init, working], by simp [exec, run, init], by simp [exec, run, init],
      by simp [exec, run, init], by simp [exec, run, init], by simp [exec, run, init]⟩
  | snoc qs q ih => rw [exec_snoc]; exact inv_step (ih hl.snoc) q hl

theorem mem_working {F : List (Nat × Nat)} {l : List (Nat × Option Nat)} (hk : (l.map (·.1)).Nodup) {i : Nat} :
    i ∈ working F l ↔ ∃ c, getKey c l = some (some i) ∧ (c, i) ∉ F := by
  induction l with
  | nil => simp [working, getKey]
  | cons p l ih =>
    obtain ⟨d, v⟩ := p
    simp only [List.map_cons, List.nodup_cons] at hk
    rw [working_cons, List.mem_append, ih hk.2]
    simp only [getKey]
    constructor
    · rintro (h | ⟨c, h1, h2⟩)
      · cases v with
        | none => simp [part] at h
        | some j =>
          simp only [part] at h
          split at h
          · simp at h
          · simp only [List.mem_singleton] at h; subst h; exact ⟨d, by simp, by assumption⟩
      · refine ⟨c, ?_, h2⟩
        have : d ≠ c := by
          intro e; subst e
          rw [getKey_none.2 hk.1] at h1; cases h1
        simp [this, h1]
    · rintro ⟨c, h1, h2⟩
      by_cases hd : d = c
      · subst hd
        simp only [if_true, Option.some.injEq] at h1
        subst h1
        left; simp [part, h2]
      · simp only [hd, if_false] at h1
        exact .inr ⟨c, h1, h2⟩

theorem working_unique {F : List (Nat × Nat)} {l : List (Nat × Option Nat)} (hn : (working F l).Nodup) (hk : (l.map (·.1)).Nodup)
    {c d i : Nat} (h1 : getKey c l = some (some i)) (h2 : getKey d l = some (some i)) (f1 : (c, i) ∉ F) (f2 : (d, i) ∉ F) :
    c = d := by
  induction l with
  | nil => cases h1
  | cons p l ih =>
    obtain ⟨e, v⟩ := p
    simp only [List.map_cons, List.nodup_cons] at hk
    rw [working_cons] at hn
    simp only [getKey] at h1 h2
    by_cases hc : e = c <;> by_cases hd : e = d
    · exact hc.symm.trans hd
    · exfalso
      subst hc
      simp only [if_true, Option.some.injEq] at h1
      subst h1
      simp only [hd, if_false] at h2
      exact (List.nodup_append.1 hn).2.2 i (by simp [part, f1]) i ((mem_working hk.2).2 ⟨d, h2, f2⟩) rfl
    · exfalso
      subst hd
      simp only [if_true, Option.some.injEq] at h2
      subst h2
      simp only [hc, if_false] at h1
      exact (List.nodup_append.1 hn).2.2 i (by simp [part, f2]) i ((mem_working hk.2).2 ⟨c, h1, f1⟩) rfl
    · simp only [hc, hd, if_false] at h1 h2
      exact ih (List.nodup_append.1 hn).2.1 hk.2 h1 h2

/-! ## Worker configurations -/

/-- the frame of the configurations -/
theorem step_cfgs (cfg : Cfg) (st : St) (q : Req) :
    (step cfg st q).2.cfgs = st.cfgs ∨
    (∃ c i, q = .exclude c i ∧ (step cfg st q).2.cfgs = configure (·.exclude i) c st.cfgs) ∨
    (∃ c i, q = .force c i ∧ (step cfg st q).2.cfgs = configure (·.force i) c st.cfgs) := by
  unfold step
  split
  · exact .inl rfl
  · cases q with
    | connect c ok =>
      left
      simp only [connect]
      cases ok
      · simp only [Bool.not_false, if_true]; split <;> rfl
      · simp only [Bool.not_true, Bool.false_eq_true, if_false]; split <;> split <;> rfl
    | validate c coll =>
      left
      simp only [validate]
      split
      · rfl
      · simp only; split <;> rfl
    | getTest c ok =>
      left
      simp only [getTest]
      split
      · rfl
      · rfl
      · split
        · rfl
        · split
          · rfl
          · split
            · split
              · rfl
              · rfl
              · cases ok <;> rfl
            · rfl
    | finished c r =>
      left
      simp only [finishedTest]
      split
      · cases hc : createResult _ _ _ with
        | none => rfl
        | some st1 =>
          obtain ⟨h1, -⟩ := createResult_some hc
          simp only
          split
          · obtain ⟨res, fin, uns, h, -⟩ := markUnrun_frame { st1 with phase := .stopTests }
            rcases hm : markUnrun { st1 with phase := .stopTests } with ⟨b, st2⟩
            rw [hm] at h
            simp only at h
            cases b <;> (simp only; rw [h, h1])
          · rw [h1]
      · rfl
    | clientFailure c =>
      left
      simp only [clientFailure]
      split
      · rfl
      · have key : ∀ st1 : St, st1.cfgs = st.cfgs → (match markUnrun { st1 with phase := .stopTests } with
              | (true, st) => (Resp.ok, { st with workerError := true })
              | (false, st) => (.fault, st)).2.cfgs = st.cfgs := by
          intro st1 e1
          obtain ⟨res, fin, uns, h, -⟩ := markUnrun_frame { st1 with phase := .stopTests }
          rcases hm : markUnrun { st1 with phase := .stopTests } with ⟨b, st2⟩
          rw [hm] at h
          simp only at h
          cases b <;> (simp only; rw [h]; exact e1)
        split
        · cases hc : createResult _ _ _ with
          | none => rfl
          | some st1 =>
            obtain ⟨h1, -⟩ := createResult_some hc
            exact key { st1 with finished := st1.finished ++ [_], failed := (c, _) :: st1.failed } (by rw [h1])
        · exact key { st with connected := st.connected.erase c } rfl
    | disconnect c f =>
      left
      simp only
      split
      · rfl
      · simp only; split <;> rfl
    | interrupted => exact .inl rfl
    | sessionError => exact .inl rfl
    | stopServe => exact .inl rfl
    | exclude c i => exact .inr (.inl ⟨c, i, rfl, rfl⟩)
    | force c i => exact .inr (.inr ⟨c, i, rfl, rfl⟩)

/-- a configuration only grows, keeping the forced and the excluded tests apart -/
structure Grows (w w' : WorkerCfg) : Prop where
  id : w'.id = w.id
  excluded : ∀ i ∈ w.excluded, i ∈ w'.excluded
  forced : ∀ i ∈ w.forced, i ∈ w'.forced
  apart : (∀ i ∈ w.forced, i ∉ w.excluded) → ∀ i ∈ w'.forced, i ∉ w'.excluded

theorem Grows.refl (w : WorkerCfg) : Grows w w := ⟨rfl, fun _ h => h, fun _ h => h, fun h => h⟩

theorem Grows.trans {a b c : WorkerCfg} (h : Grows a b) (k : Grows b c) : Grows a c :=
  ⟨k.id.trans h.id, fun i hi => k.excluded i (h.excluded i hi), fun i hi => k.forced i (h.forced i hi),
   fun x => k.apart (h.apart x)⟩

theorem grows_exclude (i : Nat) (w : WorkerCfg) : Grows w ((w.exclude i).getD w) := by
  unfold WorkerCfg.exclude
  split
  · exact .refl w
  · rename_i hf
    split
    · exact .refl w
    · refine ⟨rfl, fun j hj => by simp [hj], fun _ h => h, fun h j hj => ?_⟩
      simp only [Option.getD_some, List.mem_append, List.mem_singleton, not_or] at hj ⊢
      exact ⟨h j hj, fun e => hf (e ▸ hj)⟩

theorem grows_force (i : Nat) (w : WorkerCfg) : Grows w ((w.force i).getD w) := by
  unfold WorkerCfg.force
  split
  · exact .refl w
  · rename_i hf
    split
    · exact .refl w
    · refine ⟨rfl, fun _ h => h, fun j hj => by simp [hj], fun h j hj => ?_⟩
      simp only [Option.getD_some, List.mem_append, List.mem_singleton] at hj ⊢
      rcases hj with hj | rfl
      · exact h j hj
      · exact hf

/-- the configuration the distributer looks up -/
def look (c : Nat) (ws : List WorkerCfg) : Option WorkerCfg := ws.find? (·.id == c)

theorem look_configure (f : WorkerCfg → Option WorkerCfg) (hf : ∀ w, Grows w ((f w).getD w)) (c d : Nat) (ws : List WorkerCfg) :
    look d (configure f c ws) = (look d ws).map (fun w => if w.id = c then (f w).getD w else w) := by
  induction ws with
  | nil => rfl
  | cons w ws ih =>
    simp only [look, configure, List.map_cons, List.find?_cons] at ih ⊢
    have : (if w.id = c then (f w).getD w else w).id = w.id := by
      split
      · exact (hf w).id
      · rfl
    rw [this]
    split
    · rfl
    · exact ih

theorem look_step (cfg : Cfg) (st : St) (q : Req) (c : Nat) {w : WorkerCfg} (h : look c st.cfgs = some w) :
    ∃ w', look c (step cfg st q).2.cfgs = some w' ∧ Grows w w' := by
  rcases step_cfgs cfg st q with e | ⟨d, i, -, e⟩ | ⟨d, i, -, e⟩
  · rw [e]; exact ⟨w, h, .refl w⟩
  · rw [e, look_configure _ (grows_exclude i), h]
    refine ⟨_, rfl, ?_⟩
    simp only
    split
    · exact grows_exclude i w
    · exact .refl w
  · rw [e, look_configure _ (grows_force i), h]
    refine ⟨_, rfl, ?_⟩
    simp only
    split
    · exact grows_force i w
    · exact .refl w

/-- same, for any continuation -/
theorem look_run (cfg : Cfg) (st : St) (qs : List Req) (c : Nat) {w : WorkerCfg} (h : look c st.cfgs = some w) :
    ∃ w', look c (run cfg st qs).2.cfgs = some w' ∧ Grows w w' := by
  induction qs generalizing st w with
  | nil => exact ⟨w, h, .refl w⟩
  | cons q qs ih =>
    obtain ⟨w1, h1, g1⟩ := look_step cfg st q c h
    obtain ⟨w2, h2, g2⟩ := ih _ h1
    exact ⟨w2, h2, g1.trans g2⟩

theorem run_append (cfg : Cfg) (st : St) (as bs : List Req) :
    run cfg st (as ++ bs) = ((run cfg st as).1 ++ (run cfg (run cfg st as).2 bs).1, (run cfg (run cfg st as).2 bs).2) := by
  induction as generalizing st with
  | nil => simp [run]
  | cons p as ih => simp only [List.cons_append, run, ih]

theorem exec_append (cfg : Cfg) (ws : List WorkerCfg) (as bs : List Req) :
    exec cfg ws (as ++ bs) = (run cfg (exec cfg ws as) bs).2 := by
  simp only [exec, run_append]

/-- only `get_test` answers with a test -/
theorem step_test {cfg : Cfg} {st : St} {q : Req} {i : Nat} (h : (step cfg st q).1 = .test i) :
    ∃ c, q = .getTest c true ∧ st.phase = .serve ∧ getKey c st.executing = some none ∧ i ∈ st.unstarted ∧
      canExecute cfg st c i = some true ∧ (step cfg st q).2.handed = st.handed ++ [(c, i)] := by
  have hand := step_hand cfg st q
  cases q with
  | getTest c ok =>
    unfold step at h ⊢
    split at h
    · cases h
    · rename_i hp
      simp only [if_neg hp]
      simp only [getTest] at h ⊢
      split at h
      · cases h
      · cases h
      · rename_i hk
        split at h
        · cases h
        · rename_i hps
          split at h
          · cases h
          · rename_i hpw
            split at h
            · rename_i hps2
              split at h
              · cases h
              · cases h
              · rename_i j hj
                cases ok
                · cases h
                · simp only [if_true] at h
                  cases h
                  obtain ⟨h1, h2⟩ := nextTest_some hj
                  refine ⟨c, rfl, hps2.1, hk, h1, h2, ?_⟩
                  simp [hps2.1, hps2.2]
            · cases h
  | connect c ok =>
    exfalso; unfold step at h; split at h
    · cases h
    · simp only [connect] at h; cases ok <;> simp at h
  | validate c coll =>
    exfalso; unfold step at h; split at h
    · cases h
    · simp only [validate] at h; split at h <;> cases h
  | finished c r =>
    rcases hand with ⟨_, -, -, hr⟩ | ⟨_, -, -, hr⟩ | ⟨d, j, _, h1, h2, h3, h4⟩
    · exact absurd h (hr i)
    · exact absurd h (hr i)
    · exfalso
      unfold step at h; split at h
      · cases h
      · simp only [finishedTest] at h
        split at h
        · cases hc : createResult _ _ _ with
          | none => rw [hc] at h; cases h
          | some st1 =>
            rw [hc] at h
            simp only at h
            split at h
            · split at h <;> cases h
            · cases h
        · cases h
  | clientFailure c =>
    exfalso; unfold step at h; split at h
    · cases h
    · simp only [clientFailure] at h
      split at h
      · cases h
      · split at h
        · cases hc : createResult _ _ _ with
          | none => rw [hc] at h; cases h
          | some st1 =>
            rw [hc] at h
            simp only at h
            split at h <;> cases h
        · split at h <;> cases h
  | disconnect c f =>
    exfalso; unfold step at h; split at h
    · cases h
    · simp only at h; split at h <;> cases h
  | interrupted => exfalso; unfold step at h; split at h <;> cases h
  | sessionError => exfalso; unfold step at h; split at h <;> cases h
  | stopServe => exfalso; unfold step at h; split at h <;> cases h
  | exclude c j => exfalso; unfold step at h; split at h <;> cases h
  | force c j => exfalso; unfold step at h; split at h <;> cases h

/-! ## Validation -/

/-- a validation of the parent's collection -/
def agrees (cfg : Cfg) : Req → Bool
  | .validate _ coll => decide (coll = cfg.coll)
  | _ => false

/-- how a request changes the phase, the validations and the connected workers -/
theorem step_phase (cfg : Cfg) (st : St) (q : Req) :
    ((step cfg st q).2.phase = .serve → st.phase = .serve ∨
      (cfg.workers ≤ (step cfg st q).2.validated ∧ st.phase = .waitValidation)) ∧
    ((step cfg st q).2.phase = .waitValidation → st.phase = .waitValidation ∨
      cfg.workers ≤ (step cfg st q).2.connected.length) ∧
    st.validated ≤ (step cfg st q).2.validated ∧
    (step cfg st q).2.validated ≤ st.validated + (if agrees cfg q then 1 else 0) := by
  unfold step
  split
  · exact ⟨.inl, .inl, Nat.le_refl _, Nat.le_add_right _ _⟩
  · cases q with
    | connect c ok =>
      simp only [connect]
      cases ok
      · simp only [Bool.not_false, if_true]
        split <;> exact ⟨.inl, .inl, Nat.le_refl _, Nat.le_add_right _ _⟩
      · simp only [Bool.not_true, Bool.false_eq_true, if_false]
        by_cases hc : c ∈ st.connected
        · simp only [hc, if_true]
          split
          · exact ⟨by simp, fun _ => .inr (by assumption), Nat.le_refl _, Nat.le_add_right _ _⟩
          · exact ⟨.inl, .inl, Nat.le_refl _, Nat.le_add_right _ _⟩
        · simp only [hc, if_false]
          split
          · exact ⟨by simp, fun _ => .inr (by assumption), Nat.le_refl _, Nat.le_add_right _ _⟩
          · exact ⟨.inl, .inl, Nat.le_refl _, Nat.le_add_right _ _⟩
    | validate c coll =>
      simp only [validate]
      split
      · exact ⟨.inl, .inl, Nat.le_refl _, Nat.le_add_right _ _⟩
      · rename_i hc
        have hc' : coll = cfg.coll := Classical.not_not.1 hc
        simp only
        split
        · rename_i hw
          exact ⟨fun _ => .inr hw, by simp, by simp, by simp [agrees, hc']⟩
        · exact ⟨.inl, .inl, by simp, by simp [agrees, hc']⟩
    | getTest c ok =>
      simp only [getTest]
      split
      · exact ⟨.inl, .inl, Nat.le_refl _, Nat.le_add_right _ _⟩
      · exact ⟨.inl, .inl, Nat.le_refl _, Nat.le_add_right _ _⟩
      · split
        · exact ⟨.inl, .inl, Nat.le_refl _, Nat.le_add_right _ _⟩
        · split
          · exact ⟨.inl, .inl, Nat.le_refl _, Nat.le_add_right _ _⟩
          · split
            · split
              · exact ⟨.inl, .inl, Nat.le_refl _, Nat.le_add_right _ _⟩
              · exact ⟨.inl, .inl, Nat.le_refl _, Nat.le_add_right _ _⟩
              · cases ok <;> exact ⟨.inl, .inl, Nat.le_refl _, Nat.le_add_right _ _⟩
            · exact ⟨by simp, by simp, Nat.le_refl _, Nat.le_add_right _ _⟩
    | finished c r =>
      simp only [finishedTest]
      split
      · cases hc : createResult _ _ _ with
        | none => exact ⟨.inl, .inl, Nat.le_refl _, Nat.le_add_right _ _⟩
        | some st1 =>
          obtain ⟨h1, -⟩ := createResult_some hc
          simp only
          split
          · obtain ⟨res, fin, uns, h, -⟩ := markUnrun_frame { st1 with phase := .stopTests }
            rcases hm : markUnrun { st1 with phase := .stopTests } with ⟨b, st2⟩
            rw [hm] at h
            simp only at h
            cases b <;> (simp only; rw [h, h1]; exact ⟨by simp, by simp, Nat.le_refl _, Nat.le_add_right _ _⟩)
          · rw [h1]; exact ⟨.inl, .inl, Nat.le_refl _, Nat.le_add_right _ _⟩
      · exact ⟨.inl, .inl, Nat.le_refl _, Nat.le_add_right _ _⟩
    | clientFailure c =>
      simp only [clientFailure]
      split
      · exact ⟨.inl, .inl, Nat.le_refl _, Nat.le_add_right _ _⟩
      · have key : ∀ st1 st2 : St, st1.validated = st.validated → st2 = (match markUnrun { st1 with phase := .stopTests } with
              | (true, st) => (Resp.ok, { st with workerError := true })
              | (false, st) => (.fault, st)).2 →
              (st2.phase = .serve → st.phase = .serve ∨ (cfg.workers ≤ st2.validated ∧ st.phase = .waitValidation)) ∧
              (st2.phase = .waitValidation → st.phase = .waitValidation ∨ cfg.workers ≤ st2.connected.length) ∧
              st.validated ≤ st2.validated ∧
              st2.validated ≤ st.validated + (if agrees cfg (.clientFailure c) then 1 else 0) := by
          intro st1 st2 e1 e2
          obtain ⟨res, fin, uns, h, -⟩ := markUnrun_frame { st1 with phase := .stopTests }
          rcases hm : markUnrun { st1 with phase := .stopTests } with ⟨b, st3⟩
          rw [hm] at h e2
          simp only at h
          cases b <;> (simp only at e2; rw [e2, h]; exact ⟨by simp, by simp, Nat.le_of_eq e1.symm, Nat.le_trans (Nat.le_of_eq e1) (Nat.le_add_right _ _)⟩)
        split
        · cases hc : createResult _ _ _ with
          | none => exact ⟨.inl, .inl, Nat.le_refl _, Nat.le_add_right _ _⟩
          | some st1 =>
            obtain ⟨h1, -⟩ := createResult_some hc
            exact key { st1 with finished := st1.finished ++ [_], failed := (c, _) :: st1.failed } _ (by rw [h1]) rfl
        · exact key { st with connected := st.connected.erase c } _ rfl rfl
    | disconnect c f =>
      simp only
      split
      · exact ⟨.inl, .inl, Nat.le_refl _, Nat.le_add_right _ _⟩
      · simp only
        cases f
        · exact ⟨.inl, .inl, Nat.le_refl _, Nat.le_add_right _ _⟩
        · exact ⟨by simp, by simp, Nat.le_refl _, Nat.le_add_right _ _⟩
    | interrupted => exact ⟨by simp, by simp, Nat.le_refl _, Nat.le_add_right _ _⟩
    | sessionError => exact ⟨.inl, .inl, Nat.le_refl _, Nat.le_add_right _ _⟩
    | stopServe => exact ⟨by simp, by simp, Nat.le_refl _, Nat.le_add_right _ _⟩
    | exclude c i => exact ⟨.inl, .inl, Nat.le_refl _, Nat.le_add_right _ _⟩
    | force c i => exact ⟨.inl, .inl, Nat.le_refl _, Nat.le_add_right _ _⟩

/-- the conditions for serving tests -/
theorem serve_inv (cfg : Cfg) (ws : List WorkerCfg) (qs : List Req) :
    (exec cfg ws qs).validated ≤ (qs.filter (agrees cfg)).length ∧
    ((exec cfg ws qs).phase = .serve ∨ (exec cfg ws qs).phase = .waitValidation →
      ∃ p s, qs = p ++ s ∧ cfg.workers ≤ (exec cfg ws p).connected.length) ∧
    ((exec cfg ws qs).phase = .serve → cfg.workers ≤ (exec cfg ws qs).validated) := by
  induction qs using snocInd with
  | nil => exact ⟨by simp [exec, run, init], by simp [exec, run, init], by simp [exec, run, init]⟩
  | snoc qs q ih =>
    rw [exec_snoc]
    obtain ⟨i1, i2, i3⟩ := ih
    obtain ⟨s1, s2, s3, s4⟩ := step_phase cfg (exec cfg ws qs) q
    refine ⟨?_, ?_, ?_⟩
    · rw [List.filter_append, List.length_append]
      simp only [List.filter_cons, List.filter_nil]
      split <;> rename_i hq <;> simp [hq] at s4 ⊢ <;> omega
    · have ext : (∃ p s, qs = p ++ s ∧ cfg.workers ≤ (exec cfg ws p).connected.length) →
          ∃ p s, qs ++ [q] = p ++ s ∧ cfg.workers ≤ (exec cfg ws p).connected.length := by
        rintro ⟨p, s, e, h⟩
        exact ⟨p, s ++ [q], by rw [e, List.append_assoc], h⟩
      rintro (h | h)
      · rcases s1 h with h | ⟨-, h⟩
        · exact ext (i2 (.inl h))
        · exact ext (i2 (.inr h))
      · rcases s2 h with h | h
        · exact ext (i2 (.inr h))
        · exact ⟨qs ++ [q], [], by simp, by rw [exec_snoc]; exact h⟩
    · intro h
      rcases s1 h with h | ⟨h, -⟩
      · exact Nat.le_trans (i3 h) s3
      · exact h

/-- connected workers have connected, once each -/
theorem connected_inv (cfg : Cfg) (ws : List WorkerCfg) (qs : List Req) :
    (exec cfg ws qs).connected.Nodup ∧ ∀ c ∈ (exec cfg ws qs).connected, ∃ k, Req.connect c k ∈ qs := by
  induction qs using snocInd with
  | nil => exact ⟨by simp [exec, run, init], by simp [exec, run, init]⟩
  | snoc qs q ih =>
    rw [exec_snoc]
    generalize exec cfg ws qs = st at ih
    obtain ⟨i1, i2⟩ := ih
    have key : ∀ st' : St, st'.connected.Sublist st.connected →
        st'.connected.Nodup ∧ ∀ c ∈ st'.connected, ∃ k, Req.connect c k ∈ qs ++ [q] := by
      intro st' h
      refine ⟨h.nodup i1, fun c hc => ?_⟩
      obtain ⟨k, hk⟩ := i2 c (h.subset hc)
      exact ⟨k, by simp [hk]⟩
    unfold step
    split
    · exact key _ (List.Sublist.refl _)
    · cases q with
      | connect c ok =>
        by_cases hc : c ∈ st.connected
        · simp only [connect, hc, if_true]
          cases ok
          · exact key _ (List.Sublist.refl _)
          · simp only [Bool.not_true, Bool.false_eq_true, if_false]; split <;> exact key _ (List.Sublist.refl _)
        · have : ∀ st' : St, st'.connected = st.connected ++ [c] →
              st'.connected.Nodup ∧ ∀ d ∈ st'.connected, ∃ k, Req.connect d k ∈ qs ++ [.connect c ok] := by
            intro st' e
            rw [e]
            refine ⟨List.nodup_append.2 ⟨i1, by simp, by simp; intro a ha e; exact hc (e ▸ ha)⟩, fun d hd => ?_⟩
            rcases List.mem_append.1 hd with hd | hd
            · obtain ⟨k, hk⟩ := i2 d hd; exact ⟨k, by simp [hk]⟩
            · simp only [List.mem_singleton] at hd; subst hd; exact ⟨ok, by simp⟩
          simp only [connect, hc, if_false]
          cases ok
          · exact this _ rfl
          · simp only [Bool.not_true, Bool.false_eq_true, if_false]; split <;> exact this _ rfl
      | validate c coll =>
        simp only [validate]
        split
        · exact key _ (List.Sublist.refl _)
        · simp only; split <;> exact key _ (List.Sublist.refl _)
      | getTest c ok =>
        simp only [getTest]
        split
        · exact key _ (List.Sublist.refl _)
        · exact key _ (List.Sublist.refl _)
        · split
          · exact key _ (List.Sublist.refl _)
          · split
            · exact key _ (List.Sublist.refl _)
            · split
              · split
                · exact key _ (List.Sublist.refl _)
                · exact key _ (List.Sublist.refl _)
                · cases ok <;> exact key _ (List.Sublist.refl _)
              · exact key _ (List.Sublist.refl _)
      | finished c r =>
        simp only [finishedTest]
        split
        · cases hc : createResult _ _ _ with
          | none => exact key _ (List.Sublist.refl _)
          | some st1 =>
            obtain ⟨h1, -⟩ := createResult_some hc
            simp only
            split
            · obtain ⟨res, fin, uns, h, -⟩ := markUnrun_frame { st1 with phase := .stopTests }
              rcases hm : markUnrun { st1 with phase := .stopTests } with ⟨b, st2⟩
              rw [hm] at h
              simp only at h
              cases b <;> exact key _ (by simp only; rw [h, h1]; exact List.Sublist.refl _)
            · exact key _ (by rw [h1]; exact List.Sublist.refl _)
        · exact key _ (List.Sublist.refl _)
      | clientFailure c =>
        simp only [clientFailure]
        split
        · exact key _ (List.Sublist.refl _)
        · have key2 : ∀ st1 st2 : St, st1.connected = st.connected.erase c → st2 = (match markUnrun { st1 with phase := .stopTests } with
                | (true, st) => (Resp.ok, { st with workerError := true })
                | (false, st) => (.fault, st)).2 → st2.connected.Sublist st.connected := by
            intro st1 st2 e1 e2
            obtain ⟨res, fin, uns, h, -⟩ := markUnrun_frame { st1 with phase := .stopTests }
            rcases hm : markUnrun { st1 with phase := .stopTests } with ⟨b, st3⟩
            rw [hm] at h e2
            simp only at h
            cases b <;> (simp only at e2; rw [e2, h]; simp only; rw [e1]; exact List.erase_sublist)
          split
          · cases hc : createResult _ _ _ with
            | none => exact key _ List.erase_sublist
            | some st1 =>
              obtain ⟨h1, -⟩ := createResult_some hc
              exact key _ (key2 { st1 with finished := st1.finished ++ [_], failed := (c, _) :: st1.failed } _ (by rw [h1]) rfl)
          · exact key _ (key2 { st with connected := st.connected.erase c } _ rfl rfl)
      | disconnect c f =>
        simp only
        split
        · exact key _ (List.Sublist.refl _)
        · simp only; split <;> exact key _ List.erase_sublist
      | interrupted => exact key _ (List.Sublist.refl _)
      | sessionError => exact key _ (List.Sublist.refl _)
      | stopServe => exact key _ (List.Sublist.refl _)
      | exclude c i => exact key _ (List.Sublist.refl _)
      | force c i => exact key _ (List.Sublist.refl _)

/-! ## The end of the run -/

/-- the requests that stop the run without settling the waiting tests -/
def Req.drops : Req → Bool
  | .interrupted => true
  | .disconnect _ f => f
  | _ => false

/-- otherwise no tests wait once the server stopped handing out tests -/
theorem stop_inv (cfg : Cfg) (ws : List WorkerCfg) (qs : List Req) (hl : Legal qs) (hd : ∀ q ∈ qs, q.drops = false) :
    (exec cfg ws qs).phase = .stopTests → (exec cfg ws qs).unstarted = [] := by
  induction qs using snocInd with
  | nil => simp [exec, run, init]
  | snoc qs q ih =>
    have hinv := inv_exec cfg ws qs hl.snoc
    have ih := ih hl.snoc (fun q hq => hd q (by simp [hq]))
    have hstep := inv_step hinv q hl
    rw [exec_snoc]
    generalize exec cfg ws qs = st at ih hinv
    unfold step
    split
    · exact ih
    · cases q with
      | connect c ok =>
        by_cases hc : c ∈ st.connected
        · simp only [connect, hc, if_true]
          cases ok
          · exact ih
          · simp only [Bool.not_true, Bool.false_eq_true, if_false]; split
            · intro h; cases h
            · exact ih
        · simp only [connect, hc, if_false]
          cases ok
          · exact ih
          · simp only [Bool.not_true, Bool.false_eq_true, if_false]; split
            · intro h; cases h
            · exact ih
      | validate c coll =>
        simp only [validate]
        split
        · exact ih
        · simp only; split
          · intro h; cases h
          · exact ih
      | getTest c ok =>
        simp only [getTest]
        split
        · exact ih
        · exact ih
        · split
          · exact ih
          · split
            · exact ih
            · split
              · rename_i hs
                split
                · exact ih
                · exact ih
                · cases ok <;> (intro h; simp only [Bool.false_eq_true, if_false, if_true] at h; rw [hs.1] at h; cases h)
              · rename_i h0 h1 h2 h3
                intro _
                have hph : st.phase = .serve := by
                  cases hp : st.phase <;> simp_all
                simp only [hph, true_and] at h3
                exact Classical.not_not.1 h3
      | finished c r =>
        have hcl := hl.2 qs [] c r rfl
        simp only [finishedTest]
        split
        · rename_i i hk
          cases hc : createResult _ _ _ with
          | none => exact ih
          | some st1 =>
            obtain ⟨h1, h2⟩ := createResult_some hc
            simp only
            split
            · intro _
              have hnd := hinv.nodup
              have hcf : (c, i) ∉ st.failed := fun hm => hcl (hinv.failed _ hm).1
              have hiw : i ∈ working st.failed st.executing := (mem_working hinv.keys).2 ⟨c, hk, hcf⟩
              have hiu : i ∉ st.unstarted := fun hm =>
                (List.nodup_append.1 (List.nodup_append.1 hnd).1).2.2 i hm i hiw rfl
              rw [markUnrun_ok]
              · subst h1; exact (List.nodup_append.1 (List.nodup_append.1 hnd).1).1
              · subst h1
                intro j hj
                simp only [List.map_append, List.map_cons, List.map_nil, List.mem_append, List.mem_singleton, not_or]
                refine ⟨?_, fun e => hiu (e ▸ hj)⟩
                rw [hinv.res]
                intro hf
                exact (List.nodup_append.1 hnd).2.2 j (List.mem_append_left _ hj) j hf rfl
            · rw [h1]; exact ih
        · exact ih
      | clientFailure c =>
        have hcl := hinv.failed
        simp only [clientFailure]
        have hnd := hinv.nodup
        have key : ∀ st1 : St, st1.unstarted = st.unstarted → (∀ j ∈ st.unstarted, j ∉ st1.results.map (·.1)) →
            (match markUnrun { st1 with phase := .stopTests } with
              | (true, st) => (Resp.ok, { st with workerError := true })
              | (false, st) => (.fault, st)).2.unstarted = [] := by
          intro st1 e1 e2
          rw [markUnrun_ok]
          · simp only [e1]; exact (List.nodup_append.1 (List.nodup_append.1 hnd).1).1
          · simp only [e1]; exact e2
        have hres : ∀ j ∈ st.unstarted, j ∉ st.results.map (·.1) := by
          intro j hj
          rw [hinv.res]
          intro hf
          exact (List.nodup_append.1 hnd).2.2 j (List.mem_append_left _ hj) j hf rfl
        split
        · exact ih
        · rename_i hc
          have hc' : c ∈ st.connected := Classical.not_not.1 hc
          split
          · rename_i i hk
            cases hcr : createResult _ _ _ with
            | none => exact ih
            | some st1 =>
              obtain ⟨h1, h2⟩ := createResult_some hcr
              intro _
              refine key { st1 with finished := st1.finished ++ [i], failed := (c, i) :: st1.failed } (by rw [h1]) ?_
              subst h1
              have hcf : (c, i) ∉ st.failed := fun hm => (hinv.failed _ hm).2.1 hc'
              have hiw : i ∈ working st.failed st.executing := (mem_working hinv.keys).2 ⟨c, hk, hcf⟩
              have hiu : i ∉ st.unstarted := fun hm =>
                (List.nodup_append.1 (List.nodup_append.1 hnd).1).2.2 i hm i hiw rfl
              intro j hj
              simp only [List.map_append, List.map_cons, List.map_nil, List.mem_append, List.mem_singleton, not_or]
              exact ⟨hres j hj, fun e => hiu (e ▸ hj)⟩
          · intro _
            exact key { st with connected := st.connected.erase c } rfl hres
      | disconnect c f =>
        have : f = false := hd (.disconnect c f) (by simp)
        subst this
        simp only
        split
        · exact ih
        · exact ih
      | interrupted => have := hd .interrupted (by simp); cases this
      | sessionError => exact ih
      | stopServe => intro h; cases h
      | exclude c i => exact ih
      | force c i => exact ih

/-- a worker is told there are no more tests -/
theorem step_noMore {cfg : Cfg} {st : St} {c : Nat} {ok : Bool} (h : (step cfg st (.getTest c ok)).1 = .noMore)
    (hs : st.phase = .stopTests → st.unstarted = []) : ∀ i ∈ st.unstarted, canExecute cfg st c i = some false := by
  unfold step at h
  split at h
  · cases h
  · rename_i hp
    simp only [getTest] at h
    split at h
    · cases h
    · cases h
    · split at h
      · rename_i hp2; rw [hs hp2]; simp
      · split at h
        · cases h
        · split at h
          · split at h
            · cases h
            · rename_i hn; exact nextTest_none hn
            · cases ok <;> cases h
          · rename_i h0 h1 h3
            have hph : st.phase = .serve := by cases hp : st.phase <;> simp_all
            simp only [hph, true_and] at h3
            rw [Classical.not_not.1 h3]; simp

theorem canExecute_mono (cfg : Cfg) (st : St) (qs : List Req) (c i : Nat) (h : canExecute cfg st c i = some false) :
    canExecute cfg (run cfg st qs).2 c i = some false := by
  unfold canExecute at h ⊢
  split at h
  · exact h
  · simp only [Option.map_eq_some_iff] at h ⊢
    obtain ⟨w, h1, h2⟩ := h
    obtain ⟨w', h3, h4⟩ := look_run cfg st qs c h1
    refine ⟨w', h3, ?_⟩
    simp only [Bool.not_eq_false', List.contains_iff_mem] at h2 ⊢
    exact h4.excluded i h2

theorem unstarted_step (cfg : Cfg) (st : St) (q : Req) : (step cfg st q).2.unstarted ⊆ st.unstarted := by
  rcases step_hand cfg st q with ⟨_, h1, h2, -⟩ | ⟨_, h1, h2, -⟩ | ⟨c, i, _, h1, h2, hm, -⟩
  · rw [h2]; exact fun _ h => h
  · rw [h2]; simp
  · rw [h2]; exact List.erase_subset

theorem unstarted_run (cfg : Cfg) (st : St) (qs : List Req) : (run cfg st qs).2.unstarted ⊆ st.unstarted := by
  induction qs generalizing st with
  | nil => exact fun _ h => h
  | cons q qs ih => exact fun i hi => unstarted_step cfg st q (ih _ hi)

end Slash.Par
