import Verif.Lemmas.WorkerTests
/-! Lemmas on the end of parallel runs. -/
namespace Slash.Par

/-- the collection of a worker agrees with the parent's -/
def Plan.agree (p : Plan) (c : Nat) : Prop := sorted (p.coll c) = sorted p.sigs

/-- what holds for workers that leave -/
structure EInv (p : Plan) (s : Sys) : Prop where
  told : ∀ c, (s.loc c).phase = .ending ∨ (s.loc c).phase = .gone →
    (∃ pre k post, s.hist = pre ++ .getTest c k :: post ∧ (step p.cfg (exec p.cfg p.workers pre) (.getTest c k)).1 = .noMore) ∨
    .disconnect c true ∈ s.hist
  left : ∀ c, .disconnect c true ∈ s.hist ∨ (s.loc c).phase = .leaving → ¬ p.agree c ∧ c ∈ p.workers.map (·.id)
  conn : ∀ c ∈ s.srv.connected, c ∈ p.workers.map (·.id) ∧ (s.loc c).phase ≠ .gone ∧ (s.loc c).phase ≠ .fresh
  ran : ∀ i r, (i, .ran r) ∈ s.srv.results → ∃ c ∈ p.workers.map (·.id), (i, r) ∈ (s.loc c).sent
  foreign : ∀ c, c ∉ p.workers.map (·.id) → (s.loc c).sent = [] ∧ (s.loc c).ran = []

theorem EInv.init (p : Plan) : EInv p (Sys.start p) where
  told := fun c h => by rcases h with h | h <;> cases h
  left := fun c h => by rcases h with h | h <;> cases h
  conn := fun c h => by cases h
  ran := fun i r h => by cases h
  foreign := fun c _ => ⟨rfl, rfl⟩

theorem createResult_ran {i : Nat} {o : Outcome} {st st' : St} (h : createResult i o st = some st') :
    st'.results = st.results ++ [(i, o)] := by rw [(createResult_some h).1]

theorem markUnrun_ran (st : St) (i : Nat) (r : WRes) (h : (i, .ran r) ∈ (markUnrun st).2.results) : (i, .ran r) ∈ st.results := by
  unfold markUnrun at h
  obtain ⟨k, hk, -⟩ := markUnrunLoop_frame st.unstarted st
  rcases hm : markUnrunLoop st.unstarted st with ⟨b, st'⟩
  rw [hm] at hk h
  simp only at hk
  have key : (i, Outcome.ran r) ∈ st.results ++ (st.unstarted.take k).map (fun i => (i, .notRun)) → (i, .ran r) ∈ st.results := by
    intro hm
    rcases List.mem_append.1 hm with hm | hm
    · exact hm
    · obtain ⟨j, -, e⟩ := List.mem_map.1 hm; cases e
  cases b <;> (simp only at h; rw [hk] at h; exact key h)

/-- results of tests that ran come from reports -/
theorem step_ran (cfg : Cfg) (st : St) (q : Req) (i : Nat) (r : WRes) (h : (i, .ran r) ∈ (step cfg st q).2.results) :
    (i, .ran r) ∈ st.results ∨ ∃ c, q = .finished c r ∧ getKey c st.executing = some (some i) := by
  unfold step at h
  split at h
  · exact .inl h
  · cases q with
    | connect c k =>
      simp only [connect] at h
      cases k
      · simp only [Bool.not_false, if_true] at h; split at h <;> exact .inl h
      · simp only [Bool.not_true, Bool.false_eq_true, if_false] at h
        split at h <;> split at h <;> exact .inl h
    | validate c coll =>
      simp only [validate] at h
      split at h
      · exact .inl h
      · simp only at h; split at h <;> exact .inl h
    | getTest c k =>
      simp only [getTest] at h
      split at h
      · exact .inl h
      · exact .inl h
      · split at h
        · exact .inl h
        · split at h
          · exact .inl h
          · split at h
            · split at h
              · exact .inl h
              · exact .inl h
              · cases k <;> exact .inl h
            · exact .inl h
    | finished c r' =>
      simp only [finishedTest] at h
      split at h
      · rename_i j hk
        cases hc : createResult _ _ _ with
        | none => rw [hc] at h; exact .inl h
        | some st1 =>
          rw [hc] at h
          have h1 := createResult_ran hc
          simp only at h h1
          have fin : (i, .ran r) ∈ st1.results → (i, .ran r) ∈ st.results ∨ ∃ c', Req.finished c r' = .finished c' r ∧ getKey c' st.executing = some (some i) := by
            intro hm
            rw [h1] at hm
            rcases List.mem_append.1 hm with hm | hm
            · exact .inl hm
            · simp only [List.mem_singleton, Prod.mk.injEq, Outcome.ran.injEq] at hm
              obtain ⟨rfl, rfl⟩ := hm
              exact .inr ⟨c, rfl, hk⟩
          split at h
          · have h3 := markUnrun_ran { st1 with phase := .stopTests } i r
            rcases hm : markUnrun { st1 with phase := .stopTests } with ⟨b, st2⟩
            rw [hm] at h3 h
            cases b <;> exact fin (h3 h)
          · exact fin h
      · exact .inl h
    | clientFailure c =>
      simp only [clientFailure] at h
      split at h
      · exact .inl h
      · have key : ∀ st1 : St, (i, .ran r) ∈ (match markUnrun { st1 with phase := .stopTests } with
              | (true, st) => (Resp.ok, { st with workerError := true })
              | (false, st) => (.fault, st)).2.results → (i, .ran r) ∈ st1.results := by
          intro st1 h
          have h3 := markUnrun_ran { st1 with phase := .stopTests } i r
          rcases hm : markUnrun { st1 with phase := .stopTests } with ⟨b, st2⟩
          rw [hm] at h3 h
          cases b <;> exact h3 h
        split at h
        · rename_i j _
          cases hc : createResult _ _ _ with
          | none => rw [hc] at h; exact .inl h
          | some st1 =>
            rw [hc] at h
            have h1 := createResult_ran hc
            simp only at h1
            have := key { st1 with finished := st1.finished ++ [j], failed := (c, j) :: st1.failed } h
            simp only [h1] at this
            rcases List.mem_append.1 this with hm | hm
            · exact .inl hm
            · simp at hm
        · exact .inl (key { st with connected := st.connected.erase c } h)
    | disconnect c f =>
      simp only at h
      split at h
      · exact .inl h
      · simp only at h; split at h <;> exact .inl h
    | _ => exact .inl h

theorem EInv.local {p : Plan} {s s' : Sys} (h : EInv p s) (h1 : s'.srv = s.srv) (h2 : s'.hist = s.hist)
    (h3 : ∀ d, s'.loc d = s.loc d ∨ s'.loc d = { s.loc d with heard := true } ∨
        (s'.loc d = { s.loc d with phase := .dead } ∧ (s.loc d).phase ≠ .gone)) : EInv p s' := by
  have hp : ∀ d, (s'.loc d).phase = (s.loc d).phase ∨ (s'.loc d).phase = .dead := fun d => by
    rcases h3 d with e | e | ⟨e, -⟩ <;> rw [e]
    · exact .inl rfl
    · exact .inl rfl
    · exact .inr rfl
  have hs : ∀ d, (s'.loc d).sent = (s.loc d).sent ∧ (s'.loc d).ran = (s.loc d).ran := fun d => by
    rcases h3 d with e | e | ⟨e, -⟩ <;> rw [e] <;> exact ⟨rfl, rfl⟩
  refine ⟨fun c hc => ?_, fun c hc => ?_, fun c hc => ?_, fun i r hr => ?_, fun c hc => ?_⟩
  · rw [h2]
    rcases hp c with e | e <;> rw [e] at hc
    · exact h.told c hc
    · rcases hc with hc | hc <;> cases hc
  · rw [h2] at hc
    rcases hp c with e | e <;> rw [e] at hc
    · exact h.left c hc
    · rcases hc with hc | hc
      · exact h.left c (.inl hc)
      · cases hc
  · rw [h1] at hc
    obtain ⟨a, b, d⟩ := h.conn c hc
    rcases hp c with e | e <;> rw [e]
    · exact ⟨a, b, d⟩
    · exact ⟨a, by simp, by simp⟩
  · rw [h1] at hr
    obtain ⟨c, hc, hm⟩ := h.ran i r hr
    exact ⟨c, hc, by rw [(hs c).1]; exact hm⟩
  · rw [(hs c).1, (hs c).2]; exact h.foreign c hc

theorem told_mono {p : Plan} {hist : List Req} {c : Nat} (q : Req)
    (h : (∃ pre k post, hist = pre ++ .getTest c k :: post ∧ (step p.cfg (exec p.cfg p.workers pre) (.getTest c k)).1 = .noMore) ∨
      .disconnect c true ∈ hist) :
    (∃ pre k post, hist ++ [q] = pre ++ .getTest c k :: post ∧ (step p.cfg (exec p.cfg p.workers pre) (.getTest c k)).1 = .noMore) ∨
      .disconnect c true ∈ hist ++ [q] := by
  rcases h with ⟨pre, k, post, e, hn⟩ | h
  · exact .inl ⟨pre, k, post ++ [q], by rw [e]; simp, hn⟩
  · exact .inr (List.mem_append_left _ h)

theorem step_connected_sub (cfg : Cfg) (st : St) (q : Req) (d : Nat) (h : d ∈ (step cfg st q).2.connected) :
    d ∈ st.connected ∨ ∃ k, q = .connect d k := by
  by_cases hs : q.subject = some d
  · unfold step at h
    split at h
    · exact .inl h
    · cases q with
      | connect c k => simp only [Req.subject, Option.some.injEq] at hs; subst hs; exact .inr ⟨k, rfl⟩
      | validate c coll => simp only at h; rw [(validate_view cfg coll st).1] at h; exact .inl h
      | getTest c k => simp only at h; rw [(getTest_view cfg c k st).1] at h; exact .inl h
      | finished c r => simp only at h; rw [(finished_view cfg c r st).1] at h; exact .inl h
      | clientFailure c => simp only at h; rw [(clientFailure_view c st).1] at h; exact .inl (List.mem_of_mem_erase h)
      | disconnect c f =>
        simp only at h
        split at h
        · exact .inl h
        · simp only at h
          split at h <;> exact .inl (List.mem_of_mem_erase h)
      | _ => cases hs
  · exact .inl ((step_other cfg st q d hs).2.1 h)

theorem EInv.step {p : Plan} {s : Sys} (hs : SInv p s) (ht : TInv p s) (h : EInv p s) (a : Act) : EInv p (s.step p a) := by
  rcases moved p s a with ⟨h1, h2, h3⟩ | ⟨q, h1, h2, h3, n1, n2, n3, n4, n5, -⟩ | ⟨c, x, q, hc, hr, h1, h2, h3⟩
  · exact h.local h1 h2 h3
  · refine ⟨fun c hc => ?_, fun c hc => ?_, fun c hc => ?_, fun i r hr => ?_, fun c hc => ?_⟩
    · rw [h3] at hc; rw [h2]
      exact told_mono q (h.told c hc)
    · rw [h2, h3] at hc
      refine h.left c (hc.imp (fun hm => ?_) id)
      rcases List.mem_append.1 hm with hm | hm
      · exact hm
      · simp only [List.mem_singleton] at hm; exact absurd hm.symm (n1 c true)
    · rw [h1] at hc; rw [h3]
      rcases step_connected_sub _ _ _ _ hc with hc | ⟨k, hc⟩
      · exact h.conn c hc
      · exact absurd hc (n2 c k)
    · rw [h1] at hr
      rw [h3]
      rcases step_ran _ _ _ _ _ hr with hr | ⟨c, hq, -⟩
      · exact h.ran i r hr
      · exact absurd hq (n3 c r)
    · rw [h3]; exact h.foreign c hc
  · have hloc : ∀ d, d ≠ c → (s.step p a).loc d = s.loc d := fun d hd => by rw [h3]; simp [hd]
    have hlocc : (s.step p a).loc c = receive p.sigs (p.coll c) x (s.loc c) (Par.step p.cfg s.srv q).1 := by rw [h3]; simp
    have hsub : q.subject = some c := by
      cases hph : (s.loc c).phase <;> rw [hph] at hr <;> simp only [request, Option.some.injEq] at hr <;>
        first | (subst hr; rfl) | cases hr
    -- the workers that are not acting
    have htold : ∀ d, d ≠ c → (((s.step p a).loc d).phase = .ending ∨ ((s.step p a).loc d).phase = .gone →
        (∃ pre k post, (s.step p a).hist = pre ++ .getTest d k :: post ∧ (Par.step p.cfg (exec p.cfg p.workers pre) (.getTest d k)).1 = .noMore) ∨
        .disconnect d true ∈ (s.step p a).hist) := fun d hd he => by
      rw [hloc d hd] at he; rw [h2]; exact told_mono q (h.told d he)
    have hmem : ∀ r, r ∈ s.hist ++ [q] → r ∈ s.hist ∨ r = q := fun r hm => by
      rcases List.mem_append.1 hm with hm | hm
      · exact .inl hm
      · exact .inr (List.mem_singleton.1 hm)
    have hleft : ∀ d, d ≠ c → (.disconnect d true ∈ (s.step p a).hist ∨ ((s.step p a).loc d).phase = .leaving → ¬ p.agree d ∧ d ∈ p.workers.map (·.id)) :=
      fun d hd he => by
        rw [hloc d hd, h2] at he
        refine h.left d (he.imp (fun hm => ?_) id)
        rcases hmem _ hm with hm | hm
        · exact hm
        · rw [← hm] at hsub; simp only [Req.subject, Option.some.injEq] at hsub; exact absurd hsub hd
    have hconn : ∀ d, d ≠ c → d ∈ (s.step p a).srv.connected → d ∈ p.workers.map (·.id) ∧ ((s.step p a).loc d).phase ≠ .gone ∧ ((s.step p a).loc d).phase ≠ .fresh :=
      fun d hd he => by
        rw [hloc d hd]; rw [h1] at he
        exact h.conn d ((step_other p.cfg s.srv q d (by rw [hsub]; simp; exact fun e => hd e.symm)).2.1 he)
    have hfor : ∀ d, d ∉ p.workers.map (·.id) → ((s.step p a).loc d).sent = [] ∧ ((s.step p a).loc d).ran = [] := fun d hd => by
      rw [hloc d (fun e => hd (e ▸ hc))]; exact h.foreign d hd
    -- it is enough to look at the acting one
    have key : (((s.step p a).loc c).phase = .ending ∨ ((s.step p a).loc c).phase = .gone →
        (∃ pre k post, (s.step p a).hist = pre ++ .getTest c k :: post ∧ (Par.step p.cfg (exec p.cfg p.workers pre) (.getTest c k)).1 = .noMore) ∨
        .disconnect c true ∈ (s.step p a).hist) →
        (q = .disconnect c true ∨ ((s.step p a).loc c).phase = .leaving → ¬ p.agree c ∧ c ∈ p.workers.map (·.id)) →
        (((s.step p a).loc c).phase = .gone → c ∉ (s.step p a).srv.connected) →
        ((s.step p a).loc c).phase ≠ .fresh →
        (s.loc c).sent ⊆ ((s.step p a).loc c).sent →
        (∀ i r, q = .finished c r → getKey c s.srv.executing = some (some i) → (i, r) ∈ ((s.step p a).loc c).sent) →
        EInv p (s.step p a) := by
      intro k1 k2 k3 k4 k5 k6
      refine ⟨fun d hd => ?_, fun d hd => ?_, fun d hd => ?_, fun i r hr => ?_, hfor⟩
      · by_cases e : d = c
        · subst e; exact k1 hd
        · exact htold d e hd
      · by_cases e : d = c
        · subst e
          rcases hd with hd | hd
          · rw [h2] at hd
            rcases hmem _ hd with hd | hd
            · exact h.left d (.inl hd)
            · exact k2 (.inl hd.symm)
          · exact k2 (.inr hd)
        · exact hleft d e hd
      · by_cases e : d = c
        · subst e; exact ⟨hc, fun hg => k3 hg hd, k4⟩
        · exact hconn d e hd
      · rw [h1] at hr
        rcases step_ran _ _ _ _ _ hr with hr | ⟨d, hq, hk⟩
        · obtain ⟨d, hd, hm⟩ := h.ran i r hr
          refine ⟨d, hd, ?_⟩
          by_cases e : d = c
          · subst e; exact k5 hm
          · rw [hloc d e]; exact hm
        · rw [hq] at hsub
          simp only [Req.subject, Option.some.injEq] at hsub
          subst hsub
          exact ⟨d, hc, k6 i r hq hk⟩
    clear htold hleft hconn hfor hmem
    cases hph : (s.loc c).phase with
    | fresh =>
      rw [hph] at hr; simp only [request, Option.some.injEq] at hr; subst hr
      have hserve := hs.serving hc (by rw [hph]; rfl)
      have hresp : (Par.step p.cfg s.srv (.connect c x.hookOk)).1 = if x.hookOk then .ok else .fault := by
        rw [step_serving _ hserve]; exact (connect_view p.cfg c x.hookOk s.srv).2.2.2
      rw [hresp] at hlocc
      simp only [receive, hph] at hlocc
      refine key ?_ ?_ ?_ ?_ ?_ (fun i r e => by cases e) <;> rw [hlocc] <;> cases x.hookOk <;> simp
    | connected =>
      rw [hph] at hr; simp only [request, Option.some.injEq] at hr; subst hr
      have hserve := hs.serving hc (by rw [hph]; rfl)
      have hresp : (Par.step p.cfg s.srv (.validate c (sorted (p.coll c)))).1 = .bool (decide (sorted (p.coll c) = p.cfg.coll)) := by
        rw [step_serving _ hserve]; exact (validate_view p.cfg _ s.srv).2.2.2
      rw [hresp] at hlocc
      simp only [receive, hph] at hlocc
      cases hk : decide (sorted (p.coll c) = p.cfg.coll) <;> rw [hk] at hlocc
      · have hk : ¬ sorted (p.coll c) = p.cfg.coll := of_decide_eq_false hk
        have hk : ¬ p.agree c := hk
        refine key ?_ (fun _ => ⟨hk, hc⟩) ?_ ?_ ?_ (fun i r e => by cases e) <;> rw [hlocc] <;> simp
      · refine key ?_ ?_ ?_ ?_ ?_ (fun i r e => by cases e) <;> rw [hlocc] <;> simp
    | loop =>
      rw [hph] at hr; simp only [request, Option.some.injEq] at hr; subst hr
      have hserve := hs.serving hc (by rw [hph]; rfl)
      have hstep : Par.step p.cfg s.srv (.getTest c x.hookOk) = getTest p.cfg c x.hookOk s.srv := step_serving _ hserve
      obtain ⟨g1, g2⟩ := hs.known c none (by rw [hph]; rfl)
      have v4 := getTest_idle p.cfg c x.hookOk s.srv g1
      rw [← hstep] at v4
      rcases v4 with e | e | e | ⟨i, e⟩
      · have hn := e
        rw [e] at hlocc
        simp only [receive, hph] at hlocc
        refine key ?_ ?_ ?_ ?_ ?_ (fun i r e => by cases e) <;> rw [hlocc]
        · intro _
          refine .inl ⟨s.hist, x.hookOk, [], by rw [h2], ?_⟩
          rw [← hs.srv]; exact hn
        all_goals simp
      · rw [e] at hlocc
        simp only [receive, hph] at hlocc
        refine key ?_ ?_ ?_ ?_ ?_ (fun i r e => by cases e) <;> rw [hlocc] <;> simp [hph]
      · rw [e] at hlocc
        simp only [receive, hph] at hlocc
        refine key ?_ ?_ ?_ ?_ ?_ (fun i r e => by cases e) <;> rw [hlocc] <;> simp
      · obtain ⟨c', hq, -, -, hi, -, hh⟩ := step_test e
        obtain ⟨sig, j, g1, g2, g3⟩ := ht.pop hs x.pick hph hi
        rw [e] at hlocc
        simp only [receive, hph, g1, g2] at hlocc
        refine key ?_ ?_ ?_ ?_ ?_ (fun i r e => by cases e) <;> rw [hlocc] <;> simp
    | running i j =>
      rw [hph] at hr; simp only [request, Option.some.injEq] at hr; subst hr
      have hserve := hs.serving hc (by rw [hph]; rfl)
      have hstep : Par.step p.cfg s.srv (.finished c x.res) = finishedTest p.cfg c x.res s.srv := step_serving _ hserve
      obtain ⟨g1, g2⟩ := hs.known c (some i) (by rw [hph]; rfl)
      obtain ⟨v4, v5⟩ := finished_busy hs.inv c i x.res g1 g2
      rw [← hstep] at v4
      rw [v4] at hlocc
      simp only [receive, hph] at hlocc
      refine key ?_ ?_ ?_ ?_ ?_ ?_ <;> rw [hlocc]
      · simp
      · simp
      · simp
      · simp
      · exact List.subset_append_left _ _
      · intro i' r e hk
        rw [g1] at hk
        simp only [Option.some.injEq] at hk
        subst hk
        cases e
        simp
    | ending =>
      rw [hph] at hr; simp only [request, Option.some.injEq] at hr; subst hr
      have hserve := hs.serving hc (by rw [hph]; rfl)
      obtain ⟨g1, g2⟩ := hs.known c none (by rw [hph]; rfl)
      have hstep : Par.step p.cfg s.srv (.disconnect c false) = (.ok, { s.srv with connected := s.srv.connected.erase c }) := by
        rw [step_serving _ hserve]; simp [g2]
      rw [hstep] at hlocc
      simp only [receive, hph] at hlocc
      refine key ?_ ?_ ?_ ?_ ?_ (fun i r e => by cases e) <;> rw [hlocc]
      · intro _; rw [h2]; exact told_mono _ (h.told c (.inl hph))
      · simp
      · intro _
        rw [h1, hstep]
        have hnd := hs.inv.connected
        simp only
        rw [hnd.mem_erase_iff]; simp
      · simp
      · simp
    | leaving =>
      rw [hph] at hr; simp only [request, Option.some.injEq] at hr; subst hr
      have hserve := hs.serving hc (by rw [hph]; rfl)
      obtain ⟨g1, g2⟩ := hs.known c none (by rw [hph]; rfl)
      have hstep : Par.step p.cfg s.srv (.disconnect c true) = (.ok, { s.srv with connected := s.srv.connected.erase c, phase := .stopTests }) := by
        rw [step_serving _ hserve]; simp [g2]
      rw [hstep] at hlocc
      simp only [receive, hph] at hlocc
      refine key ?_ ?_ ?_ ?_ ?_ (fun i r e => by cases e) <;> rw [hlocc]
      · intro _; rw [h2]; exact .inr (by simp)
      · intro _; exact h.left c (.inr hph)
      · intro _
        rw [h1, hstep]
        have hnd := hs.inv.connected
        simp only
        rw [hnd.mem_erase_iff]; simp
      · simp
      · simp
    | gone => rw [hph] at hr; cases hr
    | dead => rw [hph] at hr; cases hr

/-- every execution -/
theorem einv_run (p : Plan) (as : List Act) : EInv p ((Sys.start p).run p as) := by
  have key : ∀ (as : List Act) (s : Sys), SInv p s → TInv p s → EInv p s → EInv p (s.run p as) := by
    intro as
    induction as with
    | nil => exact fun s _ _ h => h
    | cons a as ih => exact fun s h1 h2 h3 => ih _ (h1.step a) (h2.step h1 a) (h3.step h1 h2 a)
  exact key as _ (.start p) (fun c => .init p _ c) (.init p)

/-! ## Tests that were not run -/

/-- a request after which the waiting tests are given up -/
def Req.stops (cfg : Cfg) : Req → Prop
  | .finished _ r => r.fatal = true ∨ (r.success = false ∧ cfg.stop = true)
  | .clientFailure _ => True
  | _ => False

theorem markUnrun_frame' (st : St) : (markUnrun st).2.connected = st.connected := by
  obtain ⟨res, fin, uns, h, -⟩ := markUnrun_frame st; rw [h]

theorem step_notRan (cfg : Cfg) (st : St) (q : Req) (h : ¬ q.stops cfg) (i : Nat) (o : Outcome) (ho : ∀ r, o ≠ .ran r)
    (hm : (i, o) ∈ (step cfg st q).2.results) : (i, o) ∈ st.results := by
  unfold step at hm
  split at hm
  · exact hm
  · cases q with
    | connect c k =>
      simp only [connect] at hm
      cases k
      · simp only [Bool.not_false, if_true] at hm; split at hm <;> exact hm
      · simp only [Bool.not_true, Bool.false_eq_true, if_false] at hm
        split at hm <;> split at hm <;> exact hm
    | validate c coll =>
      simp only [validate] at hm
      split at hm
      · exact hm
      · simp only at hm; split at hm <;> exact hm
    | getTest c k =>
      simp only [getTest] at hm
      split at hm
      · exact hm
      · exact hm
      · split at hm
        · exact hm
        · split at hm
          · exact hm
          · split at hm
            · split at hm
              · exact hm
              · exact hm
              · cases k <;> exact hm
            · exact hm
    | finished c r =>
      simp only [finishedTest] at hm
      split at hm
      · cases hc : createResult _ _ _ with
        | none => rw [hc] at hm; exact hm
        | some st1 =>
          rw [hc] at hm
          have h1 := createResult_ran hc
          simp only at hm h1
          split at hm
          · rename_i hf
            exfalso
            apply h
            simp only [Req.stops]
            simp only [Bool.or_eq_true, Bool.and_eq_true, Bool.not_eq_eq_eq_not, Bool.not_true] at hf
            exact hf
          · rw [h1] at hm
            rcases List.mem_append.1 hm with hm | hm
            · exact hm
            · simp only [List.mem_singleton, Prod.mk.injEq] at hm
              exact absurd hm.2 (ho r)
      · exact hm
    | clientFailure c => exact absurd trivial h
    | disconnect c f =>
      simp only at hm
      split at hm
      · exact hm
      · simp only at hm; split at hm <;> exact hm
    | _ => exact hm

theorem exec_notRan (cfg : Cfg) (ws : List WorkerCfg) (qs : List Req) (h : ∀ q ∈ qs, ¬ q.stops cfg) (i : Nat) (o : Outcome)
    (hm : (i, o) ∈ (exec cfg ws qs).results) : ∃ r, o = .ran r := by
  apply Classical.byContradiction
  intro hn
  have ho : ∀ r, o ≠ .ran r := fun r e => hn ⟨r, e⟩
  clear hn
  revert hm
  induction qs using snocInd with
  | nil => simp [exec, run, init]
  | snoc qs q ih =>
    rw [exec_snoc]
    intro hm
    exact ih (fun q hq => h q (by simp [hq])) (step_notRan _ _ _ (h q (by simp)) i o ho hm)

/-! ## The end -/

/-- each worker has left regularly, or died and was reported -/
def Sys.settled (p : Plan) (s : Sys) : Prop :=
  ∀ w ∈ p.workers, (s.loc w.id).phase = .gone ∨ .clientFailure w.id ∈ s.hist

theorem step_removed (cfg : Cfg) (st : St) (c : Nat) (hn : st.connected.Nodup) (hp : st.phase ≠ .stopServe) :
    c ∉ (step cfg st (.clientFailure c)).2.connected := by
  rw [step_serving _ hp]
  simp only
  rw [(clientFailure_view c st).1, hn.mem_erase_iff]
  simp

/-- reported workers are gone from the server -/
theorem reported_inv (p : Plan) (as : List Act) :
    ∀ c, .clientFailure c ∈ ((Sys.start p).run p as).hist → c ∉ ((Sys.start p).run p as).srv.connected ∨
      ((Sys.start p).run p as).srv.phase = .stopServe := by
  have key : ∀ (as : List Act) (s : Sys), SInv p s → EInv p s → TInv p s →
      (∀ c, .clientFailure c ∈ s.hist → c ∉ s.srv.connected ∨ s.srv.phase = .stopServe) →
      (∀ c, .clientFailure c ∈ (s.run p as).hist → c ∉ (s.run p as).srv.connected ∨ (s.run p as).srv.phase = .stopServe) := by
    intro as
    induction as with
    | nil => exact fun s _ _ _ h => h
    | cons a as ih =>
      intro s h1 h2 h4 h3
      refine ih _ (h1.step a) (h2.step h1 h4 a) (h4.step h1 a) ?_
      have stay : ∀ q, s.srv.phase = .stopServe → (step p.cfg s.srv q).2.phase = .stopServe := fun q e => by
        unfold step; rw [if_pos e]; exact e
      intro c hc
      rcases moved p s a with ⟨e1, e2, -⟩ | ⟨q, e1, e2, e3, n1, n2, -⟩ | ⟨d, x, q, hd, hr, e1, e2, e3⟩
      · rw [e1]; rw [e2] at hc; exact h3 c hc
      · rw [e2] at hc; rw [e1]
        by_cases hp : s.srv.phase = .stopServe
        · exact .inr (stay q hp)
        · rcases List.mem_append.1 hc with hc | hc
          · rcases h3 c hc with h | h
            · refine .inl (fun hm => ?_)
              rcases step_connected_sub _ _ _ _ hm with hm | ⟨k, e⟩
              · exact h hm
              · exact n2 c k e
            · exact absurd h hp
          · simp only [List.mem_singleton] at hc
            subst hc
            exact .inl (step_removed _ _ _ h1.inv.connected hp)
      · rw [e2] at hc; rw [e1]
        rcases List.mem_append.1 hc with hc1 | hc1
        · rcases h3 c hc1 with h | h
          · refine .inl (fun hm => ?_)
            rcases step_connected_sub _ _ _ _ hm with hm | ⟨k, e⟩
            · exact h hm
            · subst e
              have hdead := h1.failed c hc1
              cases hph : (s.loc d).phase <;> rw [hph] at hr <;> simp only [request, Option.some.injEq] at hr <;> try cases hr
              rw [hdead] at hph; cases hph
          · exact .inr (stay q h)
        · simp only [List.mem_singleton] at hc1
          subst hc1
          cases hph : (s.loc d).phase <;> rw [hph] at hr <;> simp only [request, Option.some.injEq] at hr <;> cases hr
  exact key as _ (.start p) (.init p) (fun c => .init p _ c) (fun c h => by cases h)

theorem clientFailure_stops {cfg : Cfg} {qs : List Req} {st : St} (h : Inv cfg.n qs st) {c : Nat} (hc : c ∈ st.connected) :
    (clientFailure c st).2.phase = .stopTests := by
  have key : ∀ st1 : St, (match markUnrun { st1 with phase := .stopTests } with
        | (true, st) => (Resp.ok, { st with workerError := true })
        | (false, st) => (.fault, st)).2.phase = .stopTests := by
    intro st1
    obtain ⟨res, fin, uns, h2, -⟩ := markUnrun_frame { st1 with phase := .stopTests }
    rcases hm : markUnrun { st1 with phase := .stopTests } with ⟨b, st2⟩
    rw [hm] at h2
    simp only at h2
    cases b <;> (simp only; rw [h2])
  unfold clientFailure
  simp only [hc, not_true_eq_false, if_false]
  split
  · rename_i i hk
    have hnf : (c, i) ∉ st.failed := fun hm => (h.failed _ hm).2.1 hc
    have hw : i ∈ working st.failed st.executing := (mem_working h.keys).2 ⟨c, hk, hnf⟩
    have hfin : i ∉ st.finished := fun hm => (List.nodup_append.1 h.nodup).2.2 i (List.mem_append_right _ hw) i hm rfl
    have hcr : createResult i .interrupted { st with connected := st.connected.erase c } =
        some { st with connected := st.connected.erase c, results := st.results ++ [(i, .interrupted)] } := by
      unfold createResult
      rw [if_neg]
      simp only [h.res]; exact hfin
    rw [hcr]
    exact key { st with connected := st.connected.erase c, results := st.results ++ [(i, .interrupted)],
                        finished := st.finished ++ [i], failed := (c, i) :: st.failed }
  · exact key { st with connected := st.connected.erase c }

/-- how the history came about -/
structure HInv (p : Plan) (s : Sys) (as : List Act) : Prop where
  reported : ∀ pre c post, s.hist = pre ++ .clientFailure c :: post → c ∈ (exec p.cfg p.workers pre).connected
  interrupted : .interrupted ∈ s.hist → .interrupt ∈ as
  raised : s.raised = true → .interrupt ∈ as ∨ .giveUp ∈ as
  stop : s.srv.phase = .stopServe → s.raised = true ∨ shouldWait p.cfg s.srv = false

theorem HInv.mono {p : Plan} {s : Sys} {as bs : List Act} (h : HInv p s as) (hs : as ⊆ bs) : HInv p s bs :=
  ⟨h.reported, fun e => hs (h.interrupted e), fun e => (h.raised e).imp (hs ·) (hs ·), h.stop⟩

theorem snoc_split {α : Type _} {l a b : List α} {x y : α} (h : l ++ [x] = a ++ y :: b) : (a = l ∧ y = x ∧ b = []) ∨ ∃ b', b = b' ++ [x] ∧ l = a ++ y :: b' := by
  rcases List.eq_nil_or_concat b with rfl | ⟨b', z, rfl⟩
  · have := List.append_inj' h rfl
    exact .inl ⟨this.1.symm, (List.cons.inj this.2).1.symm, rfl⟩
  · have e' : l ++ [x] = (a ++ y :: b') ++ [z] := by simpa using h
    have := List.append_inj' e' rfl
    exact .inr ⟨b', by simp [(List.cons.inj this.2).1], this.1⟩

theorem HInv.ask {p : Plan} {s : Sys} {as : List Act} (hs : SInv p s) (h : HInv p s as) (q : Req)
    (hq : ∀ c, q = .clientFailure c → c ∈ s.srv.connected) (hi : q ≠ .interrupted) (hst : q ≠ .stopServe) :
    HInv p (s.ask p q).2 as := by
  refine ⟨fun pre c post e => ?_, fun e => ?_, h.raised, fun e => ?_⟩
  · rcases snoc_split e with ⟨rfl, e2, -⟩ | ⟨b', -, e2⟩
    · rw [← hs.srv]; exact hq c e2.symm
    · exact h.reported pre c b' e2
  · rcases List.mem_append.1 e with e | e
    · exact h.interrupted e
    · exact absurd (List.mem_singleton.1 e).symm hi
  · rcases step_stopServe _ _ _ e with e | e
    · rcases h.stop e with e2 | e2
      · exact .inl e2
      · refine .inr ?_
        simp only [Sys.ask]
        unfold Par.step
        rw [if_pos e]
        exact e2
    · exact absurd e hst

theorem HInv.frame {p : Plan} {s s' : Sys} {as : List Act} (h : HInv p s as) (h1 : s'.srv = s.srv) (h2 : s'.hist = s.hist)
    (h3 : s'.raised = s.raised) : HInv p s' as :=
  ⟨by rw [h2]; exact h.reported, by rw [h2]; exact h.interrupted, by rw [h3]; exact h.raised, by rw [h1, h3]; exact h.stop⟩

theorem HInv.step {p : Plan} {s : Sys} {as : List Act} (hs : SInv p s) (h : HInv p s as) (a : Act) (ha : a ∈ as) : HInv p (s.step p a) as := by
  cases a with
  | act c x =>
    simp only [Sys.step]
    split
    · cases hr : request c (p.coll c) x (s.loc c).phase with
      | none => exact h
      | some q =>
        have : q ≠ .interrupted ∧ q ≠ .stopServe ∧ ∀ d, q ≠ .clientFailure d := by
          cases hph : (s.loc c).phase <;> rw [hph] at hr <;> simp only [request, Option.some.injEq] at hr <;>
            first | (subst hr; simp; done) | cases hr
        exact (h.ask hs q (fun d e => absurd e (this.2.2 d)) this.1 this.2.1).frame rfl rfl rfl
    · exact h
  | die c =>
    simp only [Sys.step]
    split
    · exact h
    · exact h.frame rfl rfl rfl
  | keepAlive c =>
    simp only [Sys.step]
    split
    · exact h
    · exact h.frame rfl rfl rfl
  | report c =>
    simp only [Sys.step]
    split
    · rename_i hr
      exact h.ask hs _ (fun d e => by cases e; exact hr.2.2) (by simp) (by simp)
    · exact h
  | interrupt =>
    refine ⟨fun pre c post e => ?_, fun _ => ha, fun _ => .inl ha, fun _ => .inl rfl⟩
    rcases snoc_split e with ⟨rfl, e2, -⟩ | ⟨b', -, e2⟩
    · cases e2
    · exact h.reported pre c b' e2
  | giveUp =>
    refine ⟨fun pre c post e => ?_, fun e => ?_, fun _ => .inr ha, fun _ => .inl rfl⟩
    · rcases snoc_split e with ⟨rfl, e2, -⟩ | ⟨b', -, e2⟩
      · cases e2
      · exact h.reported pre c b' e2
    · rcases List.mem_append.1 e with e | e
      · exact h.interrupted e
      · cases List.mem_singleton.1 e
  | stop =>
    simp only [Sys.step]
    split
    · rename_i hg
      refine ⟨fun pre c post e => ?_, fun e => ?_, h.raised, fun e => ?_⟩
      · rcases snoc_split e with ⟨rfl, e2, -⟩ | ⟨b', -, e2⟩
        · cases e2
        · exact h.reported pre c b' e2
      · rcases List.mem_append.1 e with e | e
        · exact h.interrupted e
        · cases List.mem_singleton.1 e
      · rcases hg.2 with hg | hg
        · exact .inl hg
        · refine .inr ?_
          simp only [Sys.ask]
          unfold Par.step
          split
          · exact hg
          · exact hg
    · exact h
  | problem c => exact h.ask hs _ (by simp) (by simp) (by simp)
  | exclude c i => exact h.ask hs _ (by simp) (by simp) (by simp)
  | force c i => exact h.ask hs _ (by simp) (by simp) (by simp)

theorem hinv_run (p : Plan) (as : List Act) : HInv p ((Sys.start p).run p as) as := by
  have key : ∀ (bs : List Act) (s : Sys), bs ⊆ as → SInv p s → HInv p s as → HInv p (s.run p bs) as := by
    intro bs
    induction bs with
    | nil => exact fun s _ _ h => h
    | cons a bs ih => exact fun s hb h1 h2 => ih _ (fun x hx => hb (List.mem_cons_of_mem _ hx)) (h1.step a) (h2.step h1 a (hb (by simp)))
  refine key as _ (fun _ h => h) (.start p) ⟨fun pre c post e => ?_, fun e => (by cases e), fun e => (by cases e), fun e => (by cases e)⟩
  simp [Sys.start] at e

/-- where requests come from -/
structure GInv (p : Plan) (s : Sys) : Prop where
  connect : ∀ c k, .connect c k ∈ s.hist → c ∈ p.workers.map (·.id)
  finished : ∀ c r, .finished c r ∈ s.hist → ∃ i, (i, r) ∈ (s.loc c).sent

theorem receive_sent (sigs coll : List Nat) (x : Choice) (w : W) (r : Resp) : w.sent ⊆ (receive sigs coll x w r).sent := by
  unfold receive
  split <;> try exact fun _ h => h
  · split
    · exact fun _ h => h
    · split <;> exact fun _ h => h
  · exact fun _ h => List.mem_append_left _ h

theorem GInv.step {p : Plan} {s : Sys} (hs : SInv p s) (h : GInv p s) (a : Act) : GInv p (s.step p a) := by
  rcases moved p s a with ⟨h1, h2, h3⟩ | ⟨q, h1, h2, h3, n1, n2, n3, -⟩ | ⟨c, x, q, hc, hr, h1, h2, h3⟩
  · refine ⟨fun c k hm => h.connect c k (h2 ▸ hm), fun c r hm => ?_⟩
    obtain ⟨i, hi⟩ := h.finished c r (h2 ▸ hm)
    refine ⟨i, ?_⟩
    rcases h3 c with e | e | ⟨e, -⟩ <;> rw [e] <;> exact hi
  · refine ⟨fun c k hm => ?_, fun c r hm => ?_⟩ <;> rw [h2] at hm <;> rcases List.mem_append.1 hm with hm | hm
    · exact h.connect c k hm
    · exact absurd (List.mem_singleton.1 hm).symm (n2 c k)
    · rw [h3]; exact h.finished c r hm
    · exact absurd (List.mem_singleton.1 hm).symm (n3 c r)
  · refine ⟨fun d k hm => ?_, fun d r hm => ?_⟩ <;> rw [h2] at hm <;> rcases List.mem_append.1 hm with hm | hm
    · exact h.connect d k hm
    · have e := (List.mem_singleton.1 hm)
      subst e
      cases hph : (s.loc c).phase <;> rw [hph] at hr <;> simp only [request, Option.some.injEq] at hr <;> try cases hr
      exact hc
    · obtain ⟨i, hi⟩ := h.finished d r hm
      refine ⟨i, ?_⟩
      rw [h3]
      simp only
      split
      · rename_i e; subst e; exact receive_sent _ _ _ _ _ hi
      · exact hi
    · have e := (List.mem_singleton.1 hm)
      subst e
      cases hph : (s.loc c).phase with
      | running i j =>
        rw [hph] at hr; simp only [request, Option.some.injEq, Req.finished.injEq] at hr
        obtain ⟨rfl, rfl⟩ := hr
        obtain ⟨g1, g2⟩ := hs.known c (some i) (by rw [hph]; rfl)
        obtain ⟨v4, v5⟩ := finished_busy hs.inv c i x.res g1 g2
        refine ⟨i, ?_⟩
        rw [h3]
        simp only [if_true]
        rw [step_serving _ (hs.serving hc (by rw [hph]; rfl))]
        simp only [v4, receive, hph]
        exact List.mem_append_right _ (List.mem_singleton.2 rfl)
      | _ => rw [hph] at hr; simp only [request, Option.some.injEq] at hr; cases hr

theorem ginv_run (p : Plan) (as : List Act) : GInv p ((Sys.start p).run p as) := by
  have key : ∀ (as : List Act) (s : Sys), SInv p s → GInv p s → GInv p (s.run p as) := by
    intro as
    induction as with
    | nil => exact fun s _ h => h
    | cons a as ih => exact fun s h1 h2 => ih _ (h1.step a) (h2.step h1 a)
  exact key as _ (.start p) ⟨fun c k h => (by cases h), fun c r h => (by cases h)⟩

end Slash.Par
