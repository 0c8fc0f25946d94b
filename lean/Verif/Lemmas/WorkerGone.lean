import Verif.Lemmas.WorkerWait
import Verif.Props.Parallel
/-! Lemmas on how workers leave a parallel run, and what the server knows of it. -/
namespace Slash.Par

theorem clientFailure_known {cfg : Cfg} {qs : List Req} {st : St} (h : Inv cfg.n qs st) {c : Nat} (hc : c ∈ st.connected) :
    (clientFailure c st).2.workerError = true := by
  have hun : ∀ j ∈ st.unstarted, j ∉ st.finished := fun j hj hm =>
    (List.nodup_append.1 h.nodup).2.2 j (List.mem_append_left _ hj) j hm rfl
  have hnu : st.unstarted.Nodup := (List.nodup_append.1 (List.nodup_append.1 h.nodup).1).1
  unfold clientFailure
  simp only [hc, not_true_eq_false, if_false]
  split
  · rename_i i hk
    have hnf : (c, i) ∉ st.failed := fun hm => (h.failed _ hm).2.1 hc
    have hw : i ∈ working st.failed st.executing := (mem_working h.keys).2 ⟨c, hk, hnf⟩
    have hfin : i ∉ st.finished := fun hm => (List.nodup_append.1 h.nodup).2.2 i (List.mem_append_right _ hw) i hm rfl
    have hcr : createResult i .interrupted { st with connected := st.connected.erase c } =
        some { st with connected := st.connected.erase c, results := st.results ++ [(i, .interrupted)] } := by
      unfold createResult
      rw [if_neg]
      simp only [h.res]; exact hfin
    rw [hcr]
    simp only
    rw [markUnrun_ok]
    · exact hnu
    · intro j hj
      simp only [List.map_append, List.map_cons, List.map_nil, List.mem_append, List.mem_singleton, h.res]
      rintro (hm | hm)
      · exact hun j hj hm
      · exact (List.nodup_append.1 (List.nodup_append.1 h.nodup).1).2.2 j hj i hw hm
  · rw [markUnrun_ok]
    · exact hnu
    · intro j hj
      simp only [h.res]; exact hun j hj

/-- a problem the server knows of is not forgotten -/
theorem workerError_step {p : Plan} {s : Sys} (a : Act) (h : s.srv.workerError = true) : (s.step p a).srv.workerError = true := by
  rcases moved p s a with ⟨h1, -, -⟩ | ⟨q, h1, -⟩ | ⟨c, x, q, -, -, h1, -, -⟩ <;> rw [h1]
  · exact h
  · exact (step_workerError _ _ _).2 (.inl h)
  · exact (step_workerError _ _ _).2 (.inl h)

theorem Sys.run_append (p : Plan) (s : Sys) (as bs : List Act) : s.run p (as ++ bs) = (s.run p as).run p bs := by
  induction as generalizing s with
  | nil => rfl
  | cons a as ih => exact ih _

theorem workerError_run {p : Plan} (as : List Act) (s : Sys) (h : s.srv.workerError = true) : (s.run p as).srv.workerError = true := by
  induction as generalizing s with
  | nil => exact h
  | cons a as ih => exact ih _ (workerError_step a h)

theorem raised_run {p : Plan} (as : List Act) (s : Sys) : (s.run p as).raised = true ↔ s.raised = true ∨ .interrupt ∈ as ∨ .giveUp ∈ as := by
  induction as generalizing s with
  | nil => simp [Sys.run]
  | cons a as ih =>
    rw [Sys.run, ih]
    have key : (s.step p a).raised = true ↔ s.raised = true ∨ a = .interrupt ∨ a = .giveUp := by
      cases a with
      | act c x =>
        simp only [Sys.step]
        split
        · split <;> simp [Sys.ask, Sys.set]
        · simp
      | die c => simp only [Sys.step]; split <;> simp [Sys.set]
      | keepAlive c => simp only [Sys.step]; split <;> simp [Sys.set]
      | report c => simp only [Sys.step]; split <;> simp [Sys.ask]
      | stop => simp only [Sys.step]; split <;> simp [Sys.ask]
      | interrupt => simp [Sys.step]
      | giveUp => simp [Sys.step]
      | problem c => simp [Sys.step, Sys.ask]
      | exclude c i => simp [Sys.step, Sys.ask]
      | force c i => simp [Sys.step, Sys.ask]
    rw [key]
    simp only [List.mem_cons]
    constructor
    · rintro ((h | rfl | rfl) | h | h) <;> simp_all
    · rintro (h | (h | h) | (h | h))
      · exact .inl (.inl h)
      · exact .inl (.inr (.inl h.symm))
      · exact .inr (.inl h)
      · exact .inl (.inr (.inr h.symm))
      · exact .inr (.inr h)

theorem sessionError_hist {p : Plan} (as : List Act) (s : Sys) : .sessionError ∈ (s.run p as).hist ↔ .sessionError ∈ s.hist ∨ .giveUp ∈ as ∨ ∃ c, .problem c ∈ as := by
  induction as generalizing s with
  | nil => simp [Sys.run]
  | cons a as ih =>
    rw [Sys.run, ih]
    have key : .sessionError ∈ (s.step p a).hist ↔ .sessionError ∈ s.hist ∨ a = .giveUp ∨ ∃ c, a = .problem c := by
      cases a with
      | act c x =>
        simp only [Sys.step]
        split
        · split
          · simp
          · rename_i q hq
            have : q ≠ .sessionError := fun e => by
              subst e
              cases hph : (s.loc c).phase <;> rw [hph] at hq <;> simp only [request, Option.some.injEq] at hq <;> cases hq
            simp [Sys.ask, Sys.set, this.symm]
        · simp
      | die c => simp only [Sys.step]; split <;> simp [Sys.set]
      | keepAlive c => simp only [Sys.step]; split <;> simp [Sys.set]
      | report c => simp only [Sys.step]; split <;> simp [Sys.ask]
      | stop => simp only [Sys.step]; split <;> simp [Sys.ask]
      | interrupt => simp [Sys.step, Sys.ask]
      | giveUp => simp [Sys.step, Sys.ask]
      | problem c => simp [Sys.step, Sys.ask]
      | exclude c i => simp [Sys.step, Sys.ask]
      | force c i => simp [Sys.step, Sys.ask]
    rw [key]
    simp only [List.mem_cons]
    constructor
    · rintro ((h | h | ⟨c, h⟩) | h | ⟨c, h⟩)
      · exact .inl h
      · exact .inr (.inl (.inl h.symm))
      · exact .inr (.inr ⟨c, .inl h.symm⟩)
      · exact .inr (.inl (.inr h))
      · exact .inr (.inr ⟨c, .inr h⟩)
    · rintro (h | (h | h) | ⟨c, h | h⟩)
      · exact .inl (.inl h)
      · exact .inl (.inr (.inl h.symm))
      · exact .inr (.inl h)
      · exact .inl (.inr (.inr ⟨c, h.symm⟩))
      · exact .inr (.inr ⟨c, h⟩)

/-- a worker that agreed with the parent has left regularly, or the server still knows it, or the server knows of a problem -/
theorem gone_run (p : Plan) (as : List Act) : let s := (Sys.start p).run p as
    ∀ c, (s.loc c).valid = true → (s.loc c).phase = .gone ∨ c ∈ s.srv.connected ∨ s.srv.workerError = true := by
  induction as using snocInd with
  | nil => exact fun c h => by cases h
  | snoc as a ih =>
    have hs := (inv_run p as).1
    intro s'
    have es : s' = (((Sys.start p).run p as).step p a) := Sys.run_snoc p _ as a
    rw [es]; clear es s'
    simp only at ih
    generalize (Sys.start p).run p as = s at hs ih ⊢
    intro d hv
    by_cases hw : s.srv.workerError = true
    · exact .inr (.inr (workerError_step a hw))
    rcases moved p s a with ⟨h1, h2, h3⟩ | ⟨q, h1, h2, h3, n1, n2, n3, n4, n5, n6, n7⟩ | ⟨c, x, q, hc, hr, h1, h2, h3⟩
    · rw [h1]
      rcases h3 d with e | e | ⟨e, hg⟩ <;> rw [e] at hv ⊢
      · exact ih d hv
      · exact ih d hv
      · rcases ih d hv with h | h
        · exact absurd h hg
        · exact .inr h
    · rw [h3] at hv ⊢
      rw [h1]
      rcases ih d hv with h | h | h
      · exact .inl h
      · by_cases e : q = .clientFailure d
        · subst e
          by_cases hp : s.srv.phase = .stopServe
          · exact .inr (.inl (by unfold step; rw [if_pos hp]; exact h))
          · exact .inr (.inr (by rw [step_serving _ hp]; exact clientFailure_known hs.inv h))
        · exact .inr (.inl (stays_connected _ _ _ _ h e (fun f => n1 d f)))
      · exact absurd h hw
    · rw [h3] at hv ⊢
      by_cases e : d = c
      · subst e
        simp only [if_true] at hv ⊢
        rw [h1]
        -- a worker that makes a request is still served
        have hns : s.srv.phase ≠ .stopServe := fun hp => by
          obtain ⟨w, hwm, rfl⟩ := List.mem_map.1 hc
          have := hs.stopped hp w hwm
          cases hph : (s.loc w.id).phase <;> rw [hph] at this hr <;> simp [WPhase.over, request] at this hr
        have hnd : ∀ e, q ≠ .clientFailure e := fun e he => by
          subst he
          cases hph : (s.loc d).phase <;> rw [hph] at hr <;> simp only [request, Option.some.injEq] at hr <;> cases hr
        by_cases hq : ∃ f, q = .disconnect d f
        · obtain ⟨f, rfl⟩ := hq
          have hph : (s.loc d).phase = .ending ∨ (s.loc d).phase = .leaving := by
            cases hph : (s.loc d).phase <;> rw [hph] at hr <;> simp only [request, Option.some.injEq] at hr <;> (try cases hr) <;> simp
          left
          have hk : d ∈ s.srv.connected := by
            rcases hph with hph | hph <;> exact (hs.known d none (by rw [hph]; rfl)).2
          have hresp : (step p.cfg s.srv (.disconnect d f)).1 = .ok := by
            rw [step_serving _ hns]; simp [hk]
          rw [hresp]
          rcases hph with hph | hph <;> simp [receive, hph]
        · have hconn : d ∈ s.srv.connected ∨ (s.loc d).phase = .fresh := by
            cases hph : (s.loc d).phase <;> rw [hph] at hr <;> simp only [request, Option.some.injEq] at hr
            · exact .inr rfl
            all_goals first
              | (cases hr; done)
              | exact .inl (hs.known d _ (by rw [hph]; rfl)).2
          rcases hconn with hk | hph
          · exact .inr (.inl (stays_connected _ _ _ _ hk (hnd d) (fun f he => hq ⟨f, he⟩)))
          · rw [hph] at hr
            simp only [request, Option.some.injEq] at hr
            subst hr
            refine .inr (.inl ?_)
            rw [step_serving _ hns]
            exact ((connect_view _ _ _ _).2.1 d).2 (.inr rfl)
      · simp only [e, if_false] at hv ⊢
        rw [h1]
        rcases ih d hv with h | h | h
        · exact .inl h
        · have hnd : ∀ e, q ≠ .clientFailure e := fun e he => by
            subst he
            cases hph : (s.loc c).phase <;> rw [hph] at hr <;> simp only [request, Option.some.injEq] at hr <;> cases hr
          refine .inr (.inl (stays_connected _ _ _ _ h (hnd d) (fun f he => ?_)))
          subst he
          cases hph : (s.loc c).phase <;> rw [hph] at hr <;> simp only [request, Option.some.injEq] at hr <;> cases hr <;> exact e rfl
        · exact absurd h hw

end Slash.Par
