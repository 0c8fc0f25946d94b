import Verif.Lemmas.WorkerLive
/-! Lemmas on workers that are told to wait. -/
namespace Slash.Par

/-- the number of workers the server agreed with -/
def validCount (p : Plan) (s : Sys) : Nat := (p.workers.filter (fun w => (s.loc w.id).valid)).length

theorem validCount_set {ws : List WorkerCfg} {f g : Nat → Bool} {c : Nat} (hc : c ∈ ws.map (·.id)) (hn : (ws.map (·.id)).Nodup)
    (h : ∀ d, d ≠ c → g d = f d) (hf : f c = false) (hg : g c = true) :
    (ws.filter (fun w => g w.id)).length = (ws.filter (fun w => f w.id)).length + 1 := by
  induction ws with
  | nil => cases hc
  | cons w ws ih =>
    simp only [List.map_cons, List.nodup_cons, List.mem_cons] at hc hn
    by_cases e : c = w.id
    · subst e
      have : ws.filter (fun v => g v.id) = ws.filter (fun v => f v.id) := by
        apply List.filter_congr
        intro v hv
        rw [h v.id (fun e => hn.1 (List.mem_map.2 ⟨v, hv, e⟩))]
      simp [hf, hg, this]
    · have h1 := ih (hc.resolve_left e) hn.2
      simp only [List.filter_cons, h w.id (fun e' => e e'.symm)]
      split <;> simp [h1]

/-- the collections of the workers, and the phases in which they wait -/
structure VInv (p : Plan) (s : Sys) : Prop where
  count : s.srv.validated = validCount p s
  early : ∀ c, (s.loc c).phase = .fresh ∨ (s.loc c).phase = .connected ∨ (s.loc c).phase = .leaving → (s.loc c).valid = false
  clients : s.srv.phase = .waitClients → s.srv.connected.length < p.workers.length ∨ p.workers = [] ∨ ∃ c, .connect c false ∈ s.hist
  hook : ∀ c, .connect c false ∈ s.hist → (s.loc c).phase = .dead ∧ c ∈ p.workers.map (·.id)
  validation : s.srv.phase = .waitValidation → s.srv.validated < p.workers.length
  none : s.srv.phase = .waitClients → ∀ c, (s.loc c).phase ≠ .ending ∧ (s.loc c).phase ≠ .gone

theorem VInv.init (p : Plan) : VInv p (Sys.start p) where
  count := by
    have e : List.filter (fun _ => false) p.workers = [] := by simp
    simp [Sys.start, validCount, Par.init, e]
  early := fun _ _ => rfl
  clients := fun _ => by
    simp only [Sys.start, Par.init]
    rcases hw : p.workers with _ | ⟨w, ws⟩
    · exact .inr (.inl rfl)
    · exact .inl (by simp)
  hook := fun c h => by cases h
  validation := fun h => by cases h
  none := fun _ c => ⟨by simp [Sys.start], by simp [Sys.start]⟩

/-- the server does not go back to waiting for clients -/
theorem step_waitClients (cfg : Cfg) (st : St) (q : Req) (h : (step cfg st q).2.phase = .waitClients) :
    st.phase = .waitClients ∧ (∀ c, q = .disconnect c true → c ∉ st.connected) ∧
    (∀ c, q = .connect c true → (step cfg st q).2.connected.length < cfg.workers) := by
  unfold step at h ⊢
  split at h
  · rename_i hp; rw [hp] at h; cases h
  · rename_i hp
    rw [if_neg hp]
    cases q with
    | connect c k =>
      simp only [connect] at h ⊢
      cases k
      · refine ⟨?_, by simp, by simp⟩
        simp only [Bool.not_false, if_true] at h
        split at h <;> exact h
      · simp only [Bool.not_true, Bool.false_eq_true, if_false] at h ⊢
        by_cases hc : c ∈ st.connected
        · simp only [hc, if_true] at h ⊢
          split at h
          · cases h
          · rename_i hl
            simp only [if_neg hl]
            exact ⟨h, by simp, fun d _ => by simpa using hl⟩
        · simp only [hc, if_false] at h ⊢
          split at h
          · cases h
          · rename_i hl
            simp only [if_neg hl]
            exact ⟨h, by simp, fun d _ => by simpa using hl⟩
    | validate c coll =>
      simp only [validate] at h
      split at h
      · exact ⟨h, by simp, by simp⟩
      · simp only at h
        split at h
        · cases h
        · exact ⟨h, by simp, by simp⟩
    | getTest c k =>
      simp only [getTest] at h
      split at h
      · exact ⟨h, by simp, by simp⟩
      · exact ⟨h, by simp, by simp⟩
      · split at h
        · exact ⟨h, by simp, by simp⟩
        · split at h
          · exact ⟨h, by simp, by simp⟩
          · split at h
            · split at h
              · exact ⟨h, by simp, by simp⟩
              · exact ⟨h, by simp, by simp⟩
              · cases k <;> exact ⟨h, by simp, by simp⟩
            · cases h
    | finished c r =>
      simp only [finishedTest] at h
      split at h
      · cases hc : createResult _ _ _ with
        | none => rw [hc] at h; exact ⟨h, by simp, by simp⟩
        | some st1 =>
          rw [hc] at h
          obtain ⟨h1, -⟩ := createResult_some hc
          simp only at h
          split at h
          · obtain ⟨res, fin, uns, h2, -⟩ := markUnrun_frame { st1 with phase := .stopTests }
            rcases hm : markUnrun { st1 with phase := .stopTests } with ⟨b, st2⟩
            rw [hm] at h2 h
            simp only at h2
            cases b <;> (simp only at h; rw [h2] at h; cases h)
          · rw [h1] at h; exact ⟨h, by simp, by simp⟩
      · exact ⟨h, by simp, by simp⟩
    | clientFailure c =>
      simp only [clientFailure] at h
      split at h
      · exact ⟨h, by simp, by simp⟩
      · have key : ∀ st1 : St, (match markUnrun { st1 with phase := .stopTests } with
              | (true, st) => (Resp.ok, { st with workerError := true })
              | (false, st) => (.fault, st)).2.phase ≠ .waitClients := by
          intro st1 e
          obtain ⟨res, fin, uns, h2, -⟩ := markUnrun_frame { st1 with phase := .stopTests }
          rcases hm : markUnrun { st1 with phase := .stopTests } with ⟨b, st2⟩
          rw [hm] at e h2
          simp only at h2
          cases b <;> (simp only at e; rw [h2] at e; cases e)
        split at h
        · rename_i i _
          cases hc : createResult _ _ _ with
          | none => rw [hc] at h; exact ⟨h, by simp, by simp⟩
          | some st1 =>
            rw [hc] at h
            exact absurd h (key { st1 with finished := st1.finished ++ [i], failed := (c, i) :: st1.failed })
        · exact absurd h (key { st with connected := st.connected.erase c })
    | disconnect c f =>
      simp only at h
      split at h
      · rename_i hc
        cases f
        · exact ⟨h, by simp, by simp⟩
        · refine ⟨h, ?_, by simp⟩
          intro d e
          simp only [Req.disconnect.injEq, and_true] at e
          exact e ▸ hc
      · cases f
        · exact ⟨h, by simp, by simp⟩
        · cases h
    | interrupted => cases h
    | sessionError => exact ⟨h, by simp, by simp⟩
    | stopServe => cases h
    | exclude c i => exact ⟨h, by simp, by simp⟩
    | force c i => exact ⟨h, by simp, by simp⟩

/-- when the server counts a validation, and what it does then -/
theorem step_validated (cfg : Cfg) (st : St) (q : Req) (h : ∀ c coll, q ≠ .validate c coll) :
    (step cfg st q).2.validated = st.validated ∧
    ((step cfg st q).2.phase = .waitValidation → st.phase = .waitValidation ∨ ∃ c, q = .connect c true) := by
  have hp := step_phase cfg st q
  have ha : agrees cfg q = false := by
    cases q with
    | validate c coll => exact absurd rfl (h c coll)
    | _ => rfl
  rw [ha] at hp
  refine ⟨by have := hp.2.2; simp at this; omega, fun hw => ?_⟩
  by_cases hc : ∃ c, q = .connect c true
  · exact .inr hc
  · refine .inl ?_
    unfold step at hw
    split at hw
    · exact hw
    · cases q with
      | connect c k =>
        cases k
        · simp only [connect, Bool.not_false, if_true] at hw
          split at hw <;> exact hw
        · exact absurd ⟨c, rfl⟩ hc
      | validate c coll => exact absurd rfl (h c coll)
      | getTest c k =>
        simp only [getTest] at hw
        split at hw
        · exact hw
        · exact hw
        · split at hw
          · exact hw
          · split at hw
            · exact hw
            · split at hw
              · split at hw
                · exact hw
                · exact hw
                · cases k <;> exact hw
              · cases hw
      | finished c r =>
        simp only [finishedTest] at hw
        split at hw
        · cases hc : createResult _ _ _ with
          | none => rw [hc] at hw; exact hw
          | some st1 =>
            rw [hc] at hw
            obtain ⟨h1, -⟩ := createResult_some hc
            simp only at hw
            split at hw
            · obtain ⟨res, fin, uns, h2, -⟩ := markUnrun_frame { st1 with phase := .stopTests }
              rcases hm : markUnrun { st1 with phase := .stopTests } with ⟨b, st2⟩
              rw [hm] at h2 hw
              simp only at h2
              cases b <;> (simp only at hw; rw [h2] at hw; cases hw)
            · rw [h1] at hw; exact hw
        · exact hw
      | clientFailure c =>
        simp only [clientFailure] at hw
        split at hw
        · exact hw
        · have key : ∀ st1 : St, (match markUnrun { st1 with phase := .stopTests } with
                | (true, st) => (Resp.ok, { st with workerError := true })
                | (false, st) => (.fault, st)).2.phase ≠ .waitValidation := by
            intro st1 e
            obtain ⟨res, fin, uns, h2, -⟩ := markUnrun_frame { st1 with phase := .stopTests }
            rcases hm : markUnrun { st1 with phase := .stopTests } with ⟨b, st2⟩
            rw [hm] at e h2
            simp only at h2
            cases b <;> (simp only at e; rw [h2] at e; cases e)
          split at hw
          · rename_i i _
            cases hc : createResult _ _ _ with
            | none => rw [hc] at hw; exact hw
            | some st1 =>
              rw [hc] at hw
              exact absurd hw (key { st1 with finished := st1.finished ++ [i], failed := (c, i) :: st1.failed })
          · exact absurd hw (key { st with connected := st.connected.erase c })
      | disconnect c f =>
        simp only at hw
        split at hw
        · exact hw
        · cases f
          · exact hw
          · cases hw
      | interrupted => cases hw
      | sessionError => exact hw
      | stopServe => cases hw
      | exclude c i => exact hw
      | force c i => exact hw

theorem step_connected_length (cfg : Cfg) (ws : List WorkerCfg) (qs : List Req) (q : Req) (h : ∀ c k, q ≠ .connect c k) :
    (step cfg (exec cfg ws qs) q).2.connected.length ≤ (exec cfg ws qs).connected.length := by
  have hn := (connected_inv cfg ws (qs ++ [q])).1
  rw [exec_snoc] at hn
  refine nodup_subset_length hn (fun d hd => ?_)
  rcases step_connected_sub _ _ _ _ hd with h1 | ⟨k, h1⟩
  · exact h1
  · exact absurd h1 (h d k)

theorem validCount_congr {p : Plan} {s s' : Sys} (h : ∀ d, (s'.loc d).valid = (s.loc d).valid) : validCount p s' = validCount p s := by
  simp only [validCount]
  congr 1
  apply List.filter_congr
  intro w _
  rw [h]

theorem validCount_lt {p : Plan} {s : Sys} {c : Nat} (hc : c ∈ p.workers.map (·.id)) (hv : (s.loc c).valid = false) :
    validCount p s < p.workers.length := by
  obtain ⟨w, hw, rfl⟩ := List.mem_map.1 hc
  apply Nat.lt_of_le_of_ne (List.length_filter_le _ _)
  intro e
  have := List.length_filter_eq_length_iff.1 e w hw
  rw [hv] at this
  cases this

/-- a request other than a validation -/
theorem VInv.other {p : Plan} {s s' : Sys} (hs : SInv p s) (h : VInv p s) {q : Req} (h1 : s'.srv = (step p.cfg s.srv q).2)
    (h2 : s'.hist = s.hist ++ [q]) (hq : ∀ c coll, q ≠ .validate c coll) (hd : ∀ c, q = .disconnect c true → c ∈ s.srv.connected)
    (hval : ∀ d, (s'.loc d).valid = (s.loc d).valid)
    (hearly : ∀ c, (s'.loc c).phase = .fresh ∨ (s'.loc c).phase = .connected ∨ (s'.loc c).phase = .leaving → (s.loc c).valid = false)
    (hdead : ∀ c, (s.loc c).phase = .dead → (s'.loc c).phase = .dead)
    (hhook : ∀ c, q = .connect c false → (s'.loc c).phase = .dead ∧ c ∈ p.workers.map (·.id))
    (hcon : ∀ c, q = .connect c true → c ∈ p.workers.map (·.id) ∧ (s.loc c).valid = false)
    (hnone : (step p.cfg s.srv q).2.phase = .waitClients → ∀ c, (s'.loc c).phase ≠ .ending ∧ (s'.loc c).phase ≠ .gone) : VInv p s' := by
  obtain ⟨v1, v2⟩ := step_validated p.cfg s.srv q hq
  refine ⟨?_, fun c hc => ?_, fun hp => ?_, fun c hc => ?_, fun hp => ?_, fun hp => ?_⟩
  · rw [h1, v1, h.count, validCount_congr hval]
  · rw [hval]; exact hearly c hc
  · rw [h1] at hp
    obtain ⟨w1, w2, w3⟩ := step_waitClients _ _ _ hp
    rw [h1, h2]
    by_cases hc : ∃ c k, q = .connect c k
    · obtain ⟨c, k, rfl⟩ := hc
      cases k
      · exact .inr (.inr ⟨c, by simp⟩)
      · exact .inl (w3 c rfl)
    · have hle := step_connected_length p.cfg p.workers s.hist q (fun c k e => hc ⟨c, k, e⟩)
      rw [← hs.srv] at hle
      rcases h.clients w1 with h3 | h3 | ⟨c, h3⟩
      · exact .inl (Nat.lt_of_le_of_lt hle h3)
      · exact .inr (.inl h3)
      · exact .inr (.inr ⟨c, List.mem_append_left _ h3⟩)
  · rw [h2] at hc
    rcases List.mem_append.1 hc with hc | hc
    · exact ⟨hdead c (h.hook c hc).1, (h.hook c hc).2⟩
    · exact hhook c (List.mem_singleton.1 hc).symm
  · rw [h1] at hp ⊢
    rw [v1]
    rcases v2 hp with h3 | ⟨c, h3⟩
    · exact h.validation h3
    · rw [h.count]; exact validCount_lt (hcon c h3).1 (hcon c h3).2
  · rw [h1] at hp; exact hnone hp

theorem VInv.step {p : Plan} {s : Sys} (hn : (p.workers.map (·.id)).Nodup) (hs : SInv p s) (ht : TInv p s) (h : VInv p s) (a : Act) :
    VInv p (s.step p a) := by
  rcases moved p s a with ⟨h1, h2, h3⟩ | ⟨q, h1, h2, h3, n1, n2, n3, n4, n5, n6, -⟩ | ⟨c, x, q, hc, hr, h1, h2, h3⟩
  · have hp : ∀ d, ((s.step p a).loc d).phase = (s.loc d).phase ∨ ((s.step p a).loc d).phase = .dead := fun d => by
      rcases h3 d with e | e | ⟨e, -⟩ <;> rw [e]
      · exact .inl rfl
      · exact .inl rfl
      · exact .inr rfl
    have hv : ∀ d, ((s.step p a).loc d).valid = (s.loc d).valid := fun d => by
      rcases h3 d with e | e | ⟨e, -⟩ <;> rw [e]
    refine ⟨?_, fun c hc => ?_, ?_, fun c hc => ?_, ?_, fun hph c => ?_⟩
    · rw [h1, validCount_congr hv]; exact h.count
    · rw [hv]
      rcases hp c with e | e <;> rw [e] at hc
      · exact h.early c hc
      · rcases hc with hc | hc | hc <;> cases hc
    · rw [h1, h2]; exact h.clients
    · rw [h2] at hc
      refine ⟨?_, (h.hook c hc).2⟩
      rcases hp c with e | e <;> rw [e]
      exact (h.hook c hc).1
    · rw [h1]; exact h.validation
    · rw [h1] at hph
      rcases hp c with e | e <;> rw [e]
      · exact h.none hph c
      · exact ⟨by simp, by simp⟩
  · refine h.other hs h1 h2 n5 (fun c e => absurd e (n1 c true)) (fun d => by rw [h3]) (fun c hc => by rw [h3] at hc; exact h.early c hc)
      (fun c hc => by rw [h3]; exact hc) (fun c e => absurd e (n2 c false)) (fun c e => absurd e (n2 c true)) (fun hp c => ?_)
    rw [h3]; exact h.none (step_waitClients _ _ _ hp).1 c
  · have hloc : ∀ d, d ≠ c → (s.step p a).loc d = s.loc d := fun d hd => by rw [h3]; simp [hd]
    have hlocc : (s.step p a).loc c = receive p.sigs (p.coll c) x (s.loc c) (Par.step p.cfg s.srv q).1 := by rw [h3]; simp
    have hnd : (s.loc c).phase ≠ .dead := fun e => by rw [e] at hr; cases hr
    have key : (∀ c coll, q ≠ .validate c coll) → (∀ c, q = .disconnect c true → c ∈ s.srv.connected) →
        ((s.step p a).loc c).valid = (s.loc c).valid →
        (((s.step p a).loc c).phase = .fresh ∨ ((s.step p a).loc c).phase = .connected ∨ ((s.step p a).loc c).phase = .leaving → (s.loc c).valid = false) →
        (∀ d, q = .connect d false → d = c ∧ ((s.step p a).loc c).phase = .dead) →
        (∀ d, q = .connect d true → d = c ∧ (s.loc c).valid = false) →
        ((Par.step p.cfg s.srv q).2.phase = .waitClients → ((s.step p a).loc c).phase ≠ .ending ∧ ((s.step p a).loc c).phase ≠ .gone) →
        VInv p (s.step p a) := by
      intro k1 k2 k3 k4 k5 k6 k7
      refine h.other hs h1 h2 k1 k2 (fun d => ?_) (fun d hd => ?_) (fun d hd => ?_) (fun d hd => ?_) (fun d hd => ?_) (fun hp d => ?_)
      · by_cases e : d = c
        · subst e; exact k3
        · rw [hloc d e]
      · by_cases e : d = c
        · subst e; exact k4 hd
        · rw [hloc d e] at hd; exact h.early d hd
      · by_cases e : d = c
        · subst e; exact absurd hd hnd
        · rw [hloc d e]; exact hd
      · obtain ⟨rfl, e⟩ := k5 d hd; exact ⟨e, hc⟩
      · obtain ⟨rfl, e⟩ := k6 d hd; exact ⟨hc, e⟩
      · by_cases e : d = c
        · subst e; exact k7 hp
        · rw [hloc d e]; exact h.none (step_waitClients _ _ _ hp).1 d
    cases hph : (s.loc c).phase with
    | fresh =>
      rw [hph] at hr; simp only [request, Option.some.injEq] at hr; subst hr
      have hserve := hs.serving hc (by rw [hph]; rfl)
      have hresp : (Par.step p.cfg s.srv (.connect c x.hookOk)).1 = if x.hookOk then .ok else .fault := by
        rw [step_serving _ hserve]; exact (connect_view p.cfg c x.hookOk s.srv).2.2.2
      rw [hresp] at hlocc
      simp only [receive, hph] at hlocc
      have hv := h.early c (.inl hph)
      refine key (by simp) (by simp) ?_ (fun _ => hv) ?_ (fun d e => ?_) ?_
      · rw [hlocc]; cases x.hookOk <;> simp [hv]
      · rw [hlocc]; cases x.hookOk <;> simp
      · exact ⟨(Req.connect.inj e).1.symm, hv⟩
      · rw [hlocc]; cases x.hookOk <;> simp
    | connected =>
      rw [hph] at hr; simp only [request, Option.some.injEq] at hr; subst hr
      have hserve := hs.serving hc (by rw [hph]; rfl)
      have hstep : Par.step p.cfg s.srv (.validate c (sorted (p.coll c))) = validate p.cfg (sorted (p.coll c)) s.srv := step_serving _ hserve
      obtain ⟨w1, w2, w3, w4⟩ := validate_view p.cfg (sorted (p.coll c)) s.srv
      have hresp : (Par.step p.cfg s.srv (.validate c (sorted (p.coll c)))).1 = .bool (decide (sorted (p.coll c) = p.cfg.coll)) := by
        rw [hstep]; exact w4
      rw [hresp] at hlocc
      simp only [receive, hph] at hlocc
      have hv := h.early c (.inr (.inl hph))
      have hcl : (s.step p a).srv.phase = .waitClients → s.srv.phase = .waitClients := fun hp => by
        rw [h1] at hp; exact (step_waitClients _ _ _ hp).1
      have hconn : (s.step p a).srv.connected = s.srv.connected := by rw [h1, hstep, w1]
      have hclients : (s.step p a).srv.phase = .waitClients → (s.step p a).srv.connected.length < p.workers.length ∨ p.workers = [] ∨
          ∃ c, .connect c false ∈ (s.step p a).hist := fun hp => by
        rw [hconn, h2]
        rcases h.clients (hcl hp) with h3 | h3 | ⟨d, h3⟩
        · exact .inl h3
        · exact .inr (.inl h3)
        · exact .inr (.inr ⟨d, List.mem_append_left _ h3⟩)
      have hhook : ∀ d, .connect d false ∈ (s.step p a).hist → ((s.step p a).loc d).phase = .dead ∧ d ∈ p.workers.map (·.id) := fun d hd => by
        rw [h2] at hd
        rcases List.mem_append.1 hd with hd | hd
        · have := h.hook d hd
          refine ⟨?_, this.2⟩
          rw [hloc d (fun e => hnd (e ▸ this.1))]; exact this.1
        · cases List.mem_singleton.1 hd
      cases hk : decide (sorted (p.coll c) = p.cfg.coll) <;> rw [hk] at hlocc
      · have hk : ¬ sorted (p.coll c) = p.cfg.coll := of_decide_eq_false hk
        have hsrv : (s.step p a).srv = s.srv := by rw [h1, hstep]; simp [validate, hk]
        have hval : ∀ d, ((s.step p a).loc d).valid = (s.loc d).valid := fun d => by
          by_cases e : d = c
          · subst e; rw [hlocc]
          · rw [hloc d e]
        refine ⟨by rw [hsrv, validCount_congr hval]; exact h.count, fun d hd => ?_, hclients, hhook, by rw [hsrv]; exact h.validation, fun hp d => ?_⟩
        · by_cases e : d = c
          · subst e; rw [hlocc]; exact hv
          · rw [hloc d e] at hd ⊢; exact h.early d hd
        · by_cases e : d = c
          · subst e; rw [hlocc]; simp
          · rw [hloc d e]; exact h.none (hcl hp) d
      · have hk : sorted (p.coll c) = p.cfg.coll := of_decide_eq_true hk
        have hval : (s.step p a).srv.validated = s.srv.validated + 1 := by
          rw [h1, hstep]; simp only [validate, hk, ne_eq, not_true_eq_false, if_false]
          split <;> rfl
        have hvc : validCount p (s.step p a) = validCount p s + 1 :=
          validCount_set (f := fun d => (s.loc d).valid) (g := fun d => ((s.step p a).loc d).valid) hc hn
            (fun d hd => by rw [hloc d hd]) hv (by rw [hlocc])
        refine ⟨by rw [hval, hvc, h.count], fun d hd => ?_, hclients, hhook, fun hp => ?_, fun hp d => ?_⟩
        · by_cases e : d = c
          · subst e; rw [hlocc] at hd; rcases hd with hd | hd | hd <;> cases hd
          · rw [hloc d e] at hd ⊢; exact h.early d hd
        · rw [hval]
          rw [h1, hstep] at hp
          simp only [validate, hk, ne_eq, not_true_eq_false, if_false] at hp
          apply Classical.byContradiction
          intro hge
          split at hp
          · cases hp
          · rename_i hcond
            simp only at hp
            exact hcond ⟨by simp only [Plan.cfg]; omega, hp⟩
        · by_cases e : d = c
          · subst e; rw [hlocc]; simp
          · rw [hloc d e]; exact h.none (hcl hp) d
    | loop =>
      rw [hph] at hr; simp only [request, Option.some.injEq] at hr; subst hr
      have hserve := hs.serving hc (by rw [hph]; rfl)
      have hstep : Par.step p.cfg s.srv (.getTest c x.hookOk) = getTest p.cfg c x.hookOk s.srv := step_serving _ hserve
      obtain ⟨g1, g2⟩ := hs.known c Option.none (by rw [hph]; rfl)
      have v4 := getTest_idle p.cfg c x.hookOk s.srv g1
      rw [← hstep] at v4
      rcases v4 with e | e | e | ⟨i, e⟩
      · have hn := e
        rw [e] at hlocc
        simp only [receive, hph] at hlocc
        refine key (by simp) (by simp) ?_ ?_ (by simp) (by simp) (fun hp => ?_)
        · rw [hlocc]
        · rw [hlocc]; simp
        · exfalso
          have hp0 := (step_waitClients _ _ _ hp).1
          rw [hstep] at hn
          simp [getTest, g1, hp0] at hn
      · rw [e] at hlocc
        simp only [receive, hph] at hlocc
        refine key (by simp) (by simp) ?_ ?_ (by simp) (by simp) ?_ <;> rw [hlocc] <;> simp [hph]
      · rw [e] at hlocc
        simp only [receive, hph] at hlocc
        refine key (by simp) (by simp) ?_ ?_ (by simp) (by simp) ?_ <;> rw [hlocc] <;> simp
      · obtain ⟨c', hq, -, -, hi, -, hh⟩ := step_test e
        obtain ⟨sig, j, g1, g2, g3⟩ := ht.pop hs x.pick hph hi
        rw [e] at hlocc
        simp only [receive, hph, g1, g2] at hlocc
        refine key (by simp) (by simp) ?_ ?_ (by simp) (by simp) ?_ <;> rw [hlocc] <;> simp
    | running i j =>
      rw [hph] at hr; simp only [request, Option.some.injEq] at hr; subst hr
      have hserve := hs.serving hc (by rw [hph]; rfl)
      have hstep : Par.step p.cfg s.srv (.finished c x.res) = finishedTest p.cfg c x.res s.srv := step_serving _ hserve
      obtain ⟨g1, g2⟩ := hs.known c (some i) (by rw [hph]; rfl)
      obtain ⟨v4, v5⟩ := finished_busy hs.inv c i x.res g1 g2
      rw [← hstep] at v4
      rw [v4] at hlocc
      simp only [receive, hph] at hlocc
      refine key (by simp) (by simp) ?_ ?_ (by simp) (by simp) ?_ <;> rw [hlocc] <;> simp
    | ending =>
      rw [hph] at hr; simp only [request, Option.some.injEq] at hr; subst hr
      have hserve := hs.serving hc (by rw [hph]; rfl)
      obtain ⟨g1, g2⟩ := hs.known c Option.none (by rw [hph]; rfl)
      have hresp : (Par.step p.cfg s.srv (.disconnect c false)).1 = .ok := by rw [step_serving _ hserve]; simp [g2]
      rw [hresp] at hlocc
      simp only [receive, hph] at hlocc
      refine key (by simp) (by simp) ?_ ?_ (by simp) (by simp) (fun hp => ?_)
      · rw [hlocc]
      · rw [hlocc]; simp
      · exact absurd hph (h.none (step_waitClients _ _ _ hp).1 c).1
    | leaving =>
      rw [hph] at hr; simp only [request, Option.some.injEq] at hr; subst hr
      have hserve := hs.serving hc (by rw [hph]; rfl)
      obtain ⟨g1, g2⟩ := hs.known c Option.none (by rw [hph]; rfl)
      have hresp : (Par.step p.cfg s.srv (.disconnect c true)).1 = .ok := by rw [step_serving _ hserve]; simp [g2]
      rw [hresp] at hlocc
      simp only [receive, hph] at hlocc
      refine key (by simp) (fun d e => by cases e; exact g2) ?_ ?_ (by simp) (by simp) (fun hp => ?_)
      · rw [hlocc]
      · rw [hlocc]; simp
      · exact absurd g2 ((step_waitClients _ _ _ hp).2.1 c rfl)
    | gone => rw [hph] at hr; cases hr
    | dead => rw [hph] at hr; cases hr

/-- every execution -/
theorem vinv_run (p : Plan) (hn : (p.workers.map (·.id)).Nodup) (as : List Act) : VInv p ((Sys.start p).run p as) := by
  have key : ∀ (as : List Act) (s : Sys), SInv p s → TInv p s → VInv p s → VInv p (s.run p as) := by
    intro as
    induction as with
    | nil => exact fun s _ _ h => h
    | cons a as ih => exact fun s h1 h2 h3 => ih _ (h1.step a) (h2.step h1 a) (h3.step hn h1 h2 a)
  exact key as _ (.start p) (fun c => .init p _ c) (.init p)

/-! ## Agreement -/

/-- workers past the validation agree with the parent -/
structure AInv (p : Plan) (s : Sys) : Prop where
  agree : ∀ c, (s.loc c).valid = true → p.agree c
  valid : ∀ c, (s.loc c).phase = .loop ∨ (∃ i j, (s.loc c).phase = .running i j) → (s.loc c).valid = true
  left : ∀ c, (s.loc c).phase = .leaving → ¬ p.agree c
  ending : ∀ c, (s.loc c).phase = .ending → (s.loc c).valid = true

theorem AInv.init (p : Plan) : AInv p (Sys.start p) where
  agree := fun c h => by cases h
  valid := fun c h => by rcases h with h | ⟨i, j, h⟩ <;> cases h
  left := fun c h => by cases h
  ending := fun c h => by cases h

instance (p : Plan) (c : Nat) : Decidable (p.agree c) := inferInstanceAs (Decidable (_ = _))

/-- agreement, for one worker -/
def AW (p : Plan) (c : Nat) (w : W) : Prop :=
  (w.valid = true → p.agree c) ∧ (w.phase = .loop ∨ (∃ i j, w.phase = .running i j) → w.valid = true) ∧
  (w.phase = .leaving → ¬ p.agree c) ∧ (w.phase = .ending → w.valid = true)

theorem aw_receive {p : Plan} {c : Nat} {x : Choice} {w : W} (r : Resp) (h : AW p c w)
    (hr : w.phase = .connected → ∀ b, r = .bool b → b = decide (p.agree c)) : AW p c (receive p.sigs (p.coll c) x w r) := by
  obtain ⟨h1, h2, h3, h4⟩ := h
  have dead : AW p c { w with phase := .dead } := ⟨h1, by simp, by simp, by simp⟩
  unfold receive
  split
  · exact ⟨h1, by simp, by simp, by simp⟩
  · rename_i e
    have := hr e _ rfl
    exact ⟨fun _ => of_decide_eq_true this.symm, fun _ => rfl, by simp, by simp⟩
  · rename_i e
    have := hr e _ rfl
    exact ⟨h1, by simp, fun _ => of_decide_eq_false this.symm, by simp⟩
  · exact ⟨h1, h2, h3, h4⟩
  · rename_i e; exact ⟨h1, by simp, by simp, fun _ => h2 (.inl e)⟩
  · rename_i e; exact ⟨h1, by simp, by simp, fun _ => h2 (.inl e)⟩
  · rename_i e
    split
    · exact dead
    · split
      · exact dead
      · exact ⟨h1, fun _ => h2 (.inl e), by simp, by simp⟩
  · rename_i e; exact ⟨h1, fun _ => h2 (.inr ⟨_, _, e⟩), by simp, by simp⟩
  · rename_i e; exact ⟨h1, by simp, by simp, fun _ => h2 (.inr ⟨_, _, e⟩)⟩
  · exact ⟨h1, by simp, by simp, by simp⟩
  · exact ⟨h1, by simp, by simp, by simp⟩
  · exact dead

theorem AInv.step {p : Plan} {s : Sys} (hs : SInv p s) (h : AInv p s) (a : Act) : AInv p (s.step p a) := by
  have key : ∀ s' : Sys, (∀ c, AW p c (s'.loc c)) → AInv p s' := fun s' h =>
    ⟨fun c => (h c).1, fun c => (h c).2.1, fun c => (h c).2.2.1, fun c => (h c).2.2.2⟩
  have h0 : ∀ c, AW p c (s.loc c) := fun c => ⟨h.agree c, h.valid c, h.left c, h.ending c⟩
  apply key
  intro d
  rcases moved p s a with ⟨h1, h2, h3⟩ | ⟨q, h1, h2, h3, -⟩ | ⟨c, x, q, hc, hr, h1, h2, h3⟩
  · rcases h3 d with e | e | ⟨e, -⟩ <;> rw [e]
    · exact h0 d
    · exact h0 d
    · exact ⟨(h0 d).1, by simp, by simp, by simp⟩
  · rw [h3]; exact h0 d
  · rw [h3]
    simp only
    split
    · rename_i e
      subst e
      refine aw_receive _ (h0 d) (fun hph b hb => ?_)
      rw [hph] at hr; simp only [request, Option.some.injEq] at hr; subst hr
      rw [step_serving _ (hs.serving hc (by rw [hph]; rfl))] at hb
      simp only [(validate_view p.cfg (sorted (p.coll d)) s.srv).2.2.2, Resp.bool.injEq] at hb
      rw [← hb]
      rfl
    · exact h0 d

theorem ainv_run (p : Plan) (as : List Act) : AInv p ((Sys.start p).run p as) := by
  have key : ∀ (as : List Act) (s : Sys), SInv p s → AInv p s → AInv p (s.run p as) := by
    intro as
    induction as with
    | nil => exact fun s _ h => h
    | cons a as ih => exact fun s h1 h2 => ih _ (h1.step a) (h2.step h1 a)
  exact key as _ (.start p) (.init p)

/-- tests are handed out in one phase only -/
theorem step_handed_serve (cfg : Cfg) (st : St) (q : Req) (h : (step cfg st q).2.handed ≠ st.handed) : st.phase = .serve := by
  apply Classical.byContradiction
  intro hp
  apply h
  unfold step
  split
  · rfl
  · cases q with
    | connect c k =>
      simp only [connect]
      cases k
      · simp only [Bool.not_false, if_true]; split <;> rfl
      · simp only [Bool.not_true, Bool.false_eq_true, if_false]; split <;> (split <;> rfl)
    | validate c coll => simp only [validate]; split <;> (try split) <;> rfl
    | getTest c k =>
      simp only [getTest]
      split
      · rfl
      · rfl
      · split
        · rfl
        · split
          · rfl
          · split
            · rename_i hc; exact absurd hc.1 hp
            · rfl
    | finished c r =>
      simp only [finishedTest]
      split
      · cases hc : createResult _ _ _ with
        | none => rfl
        | some st1 =>
          obtain ⟨h1, -⟩ := createResult_some hc
          simp only
          split
          · obtain ⟨res, fin, uns, h2, -⟩ := markUnrun_frame { st1 with phase := .stopTests }
            rcases hm : markUnrun { st1 with phase := .stopTests } with ⟨b, st2⟩
            rw [hm] at h2
            simp only at h2
            cases b <;> (simp only; rw [h2, h1])
          · rw [h1]
      · rfl
    | clientFailure c =>
      have key : ∀ st1 : St, (match markUnrun { st1 with phase := .stopTests } with
              | (true, st) => (Resp.ok, { st with workerError := true })
              | (false, st) => (.fault, st)).2.handed = st1.handed := by
        intro st1
        obtain ⟨res, fin, uns, h2, -⟩ := markUnrun_frame { st1 with phase := .stopTests }
        rcases hm : markUnrun { st1 with phase := .stopTests } with ⟨b, st2⟩
        rw [hm] at h2
        simp only at h2
        cases b <;> (simp only; rw [h2])
      simp only [clientFailure]
      split
      · rfl
      · split
        · rename_i i _
          cases hc : createResult _ _ _ with
          | none => rfl
          | some st1 =>
            obtain ⟨h1, -⟩ := createResult_some hc
            exact (key { st1 with finished := st1.finished ++ [i], failed := (c, i) :: st1.failed }).trans (by rw [h1])
        · exact key { st with connected := st.connected.erase c }
    | disconnect c f => simp only; split <;> (try split) <;> rfl
    | interrupted => rfl
    | sessionError => rfl
    | stopServe => rfl
    | exclude c i => rfl
    | force c i => rfl

/-- tests are only handed out after enough validations -/
theorem handed_validated (cfg : Cfg) (ws : List WorkerCfg) (qs : List Req) (h : (exec cfg ws qs).handed ≠ []) :
    cfg.workers ≤ (exec cfg ws qs).validated := by
  induction qs using snocInd with
  | nil => exact absurd rfl h
  | snoc qs q ih =>
    have hv := (step_phase cfg (exec cfg ws qs) q).2.2
    have hs := (serve_inv cfg ws qs).2.2
    rw [exec_snoc] at h ⊢
    by_cases h0 : (exec cfg ws qs).handed = []
    · refine Nat.le_trans (hs ?_) hv.1
      rw [← h0] at h
      exact step_handed_serve _ _ _ h
    · exact Nat.le_trans (ih h0) hv.1

/-! ## Waiting -/

theorem Sys.run_snoc (p : Plan) (s : Sys) (as : List Act) (a : Act) : s.run p (as ++ [a]) = (s.run p as).step p a := by
  induction as generalizing s with
  | nil => rfl
  | cons b as ih => exact ih _

/-- if as many workers as configured are connected, all are -/
theorem all_connected {p : Plan} {s : Sys} (hs : SInv p s) (he : EInv p s) (h : p.workers.length ≤ s.srv.connected.length) :
    ∀ w ∈ p.workers, w.id ∈ s.srv.connected := by
  have h1 : s.srv.connected ⊆ p.workers.map (·.id) := fun c hc => (he.conn c hc).1
  have h2 := subset_of_nodup_subset_length hs.inv.connected h1 (by rw [List.length_map]; exact h)
  exact fun w hw => h2 (List.mem_map_of_mem hw)

/-- reported workers are workers of the plan -/
theorem reported_ids (p : Plan) (as : List Act) {c : Nat} (h : .clientFailure c ∈ ((Sys.start p).run p as).hist) :
    c ∈ p.workers.map (·.id) := by
  have hh := hinv_run p as
  have hg := ginv_run p as
  obtain ⟨pre, post, e⟩ := List.append_of_mem h
  obtain ⟨k, hk⟩ := (connected_inv p.cfg p.workers pre).2 c (hh.reported pre c post e)
  exact hg.connect c k (by rw [e]; exact List.mem_append_left _ hk)

theorem receive_gone (sigs coll : List Nat) (x : Choice) (w : W) (r : Resp) (h : (receive sigs coll x w r).phase = .gone) :
    w.phase = .ending ∨ w.phase = .leaving ∨ w.phase = .gone := by
  unfold receive at h
  split at h <;> try (cases h; done)
  · exact .inr (.inr h)
  · split at h
    · cases h
    · split at h <;> cases h
  · rename_i e; exact .inl e
  · rename_i e; exact .inr (.inl e)

theorem receive_valid (sigs coll : List Nat) (x : Choice) (w : W) (r : Resp) (h : w.valid = true) :
    (receive sigs coll x w r).valid = true := by
  unfold receive
  split <;> try exact h
  · rfl
  · split
    · exact h
    · split <;> exact h

/-- while the workers wait for each other none has left without a validation, and none was reported -/
structure QInv (p : Plan) (s : Sys) : Prop where
  gone : s.srv.phase = .waitValidation → ∀ c, (s.loc c).phase = .gone → (s.loc c).valid = true
  reported : ∀ c, .clientFailure c ∈ s.hist → s.srv.phase ≠ .waitClients ∧ s.srv.phase ≠ .waitValidation

theorem qinv_run (p : Plan) (as : List Act) : QInv p ((Sys.start p).run p as) := by
  induction as using snocInd with
  | nil => exact ⟨fun h => (by cases h), fun c h => (by cases h)⟩
  | snoc as a ih =>
    have hs' := (inv_run p (as ++ [a])).1
    have he' := einv_run p (as ++ [a])
    have hr' := reported_inv p (as ++ [a])
    have hi' := fun c => reported_ids p (as ++ [a]) (c := c)
    rw [Sys.run_snoc] at hs' he' hr' hi' ⊢
    have hs := (inv_run p as).1
    have ha := ainv_run p as
    generalize (Sys.start p).run p as = s at hs ha ih hs' he' hr' hi' ⊢
    have full : (s.step p a).srv.phase = .waitValidation → p.workers.length ≤ (s.step p a).srv.connected.length →
        (∀ c, ((s.step p a).loc c).phase = .gone → ((s.step p a).loc c).valid = true) ∧
        ∀ c, .clientFailure c ∉ (s.step p a).hist := by
      intro hp hle
      have hall := all_connected hs' he' hle
      refine ⟨fun c hc => ?_, fun c hc => ?_⟩
      · by_cases hm : c ∈ p.workers.map (·.id)
        · obtain ⟨w, hw, rfl⟩ := List.mem_map.1 hm
          exact absurd hc (he'.conn _ (hall w hw)).2.1
        · rcases hs'.ids c hm with e | e <;> rw [e] at hc <;> cases hc
      · obtain ⟨w, hw, rfl⟩ := List.mem_map.1 (hi' c hc)
        rcases hr' _ hc with e | e
        · exact e (hall w hw)
        · rw [hp] at e; cases e
    rcases moved p s a with ⟨h1, h2, h3⟩ | ⟨q, h1, h2, h3, n1, n2, n3, n4, n5, n6, n7⟩ | ⟨c, x, q, hc, hr, h1, h2, h3⟩
    · refine ⟨fun hp c hg => ?_, fun c hm => ?_⟩
      · rw [h1] at hp
        rcases h3 c with e | e | ⟨e, -⟩ <;> rw [e] at hg ⊢
        · exact ih.gone hp c hg
        · exact ih.gone hp c hg
        · cases hg
      · rw [h1]; rw [h2] at hm; exact ih.reported c hm
    · have hwv : (s.step p a).srv.phase = .waitValidation → s.srv.phase = .waitValidation := fun hp => by
        rw [h1] at hp
        rcases (step_validated _ _ _ n5).2 hp with e | ⟨c, e⟩
        · exact e
        · exact absurd e (n2 c true)
      have hwc : (s.step p a).srv.phase = .waitClients → s.srv.phase = .waitClients := fun hp => by
        rw [h1] at hp; exact (step_waitClients _ _ _ hp).1
      refine ⟨fun hp c hg => ?_, fun c hm => ?_⟩
      · rw [h3] at hg ⊢; exact ih.gone (hwv hp) c hg
      · rw [h2] at hm
        rcases List.mem_append.1 hm with hm | hm
        · exact ⟨fun e => (ih.reported c hm).1 (hwc e), fun e => (ih.reported c hm).2 (hwv e)⟩
        · have hq := (List.mem_singleton.1 hm).symm
          subst hq
          have hst : s.srv.phase ≠ .stopServe → (s.step p a).srv.phase = .stopTests := fun hns => by
            rw [h1, step_serving _ hns]; exact clientFailure_stops hs.inv (n7 c rfl).2
          refine ⟨fun e => ?_, fun e => ?_⟩
          · rw [hst (by rw [hwc e]; simp)] at e; cases e
          · rw [hst (by rw [hwv e]; simp)] at e; cases e
    · have hnc : ∀ d, q ≠ .clientFailure d := fun d e => by
        subst e
        cases hph : (s.loc c).phase <;> rw [hph] at hr <;> simp only [request, Option.some.injEq] at hr <;> cases hr
      have hwc : (s.step p a).srv.phase = .waitClients → s.srv.phase = .waitClients := fun hp => by
        rw [h1] at hp; exact (step_waitClients _ _ _ hp).1
      have hwv : (s.step p a).srv.phase = .waitValidation → s.srv.phase = .waitValidation ∨
          p.workers.length ≤ (s.step p a).srv.connected.length := fun hp => by
        rw [h1] at hp ⊢; exact (step_phase _ _ _).2.1 hp
      refine ⟨fun hp d hg => ?_, fun d hm => ⟨fun e => ?_, fun e => ?_⟩⟩
      · rcases hwv hp with hp0 | hle
        · by_cases e : d = c
          · subst e
            rw [h3] at hg ⊢
            simp only [if_true] at hg ⊢
            rcases receive_gone _ _ _ _ _ hg with hph | hph | hph
            · exact receive_valid _ _ _ _ _ (ha.ending d hph)
            · rw [hph] at hr; simp only [request, Option.some.injEq] at hr; subst hr
              obtain ⟨g1, g2⟩ := hs.known d none (by rw [hph]; rfl)
              rw [h1, step_serving _ (by rw [hp0]; simp)] at hp
              simp [g2] at hp
            · rw [hph] at hr; cases hr
          · rw [h3] at hg ⊢
            simp only [e, if_false] at hg ⊢
            exact ih.gone hp0 d hg
        · exact (full hp hle).1 d hg
      · rw [h2] at hm
        rcases List.mem_append.1 hm with hm | hm
        · exact (ih.reported d hm).1 (hwc e)
        · exact hnc d (List.mem_singleton.1 hm).symm
      · rcases hwv e with hp0 | hle
        · rw [h2] at hm
          rcases List.mem_append.1 hm with hm | hm
          · exact (ih.reported d hm).2 hp0
          · exact hnc d (List.mem_singleton.1 hm).symm
        · exact (full e hle).2 d hm

/-- the phases in which a worker is told to wait -/
theorem waiting_phase {p : Plan} {s : Sys} (hs : SInv p s) {c : Nat} {x : Choice} (hw : s.answer p c x = some .waiting) :
    c ∈ p.workers.map (·.id) ∧ (s.loc c).phase = .loop ∧ (s.srv.phase = .waitClients ∨ s.srv.phase = .waitValidation) := by
  unfold Sys.answer at hw
  split at hw
  · rename_i hc
    cases hr : request c (p.coll c) x (s.loc c).phase with
    | none => rw [hr] at hw; cases hw
    | some q =>
      rw [hr] at hw
      simp only [Option.map_some, Option.some.injEq] at hw
      have hloop := (waiting_same hs hc hr hw).2
      rw [hloop] at hr
      simp only [request, Option.some.injEq] at hr
      subst hr
      refine ⟨hc, hloop, ?_⟩
      rw [step_serving _ (hs.serving hc (by rw [hloop]; rfl))] at hw
      simp only [getTest, (hs.known c Option.none (by rw [hloop]; rfl)).1] at hw
      split at hw
      · cases hw
      · split at hw
        · assumption
        · split at hw
          · split at hw
            · cases hw
            · cases hw
            · revert hw; split <;> (intro hw; cases hw)
          · cases hw
  · cases hw

/-- why a worker is told to wait: another one has died, and was not reported, or has not got as far as the validation -/
theorem waiting_why (p : Plan) (hn : (p.workers.map (·.id)).Nodup) (as : List Act) {c : Nat} {x : Choice}
    (hw : ((Sys.start p).run p as).answer p c x = some .waiting) :
    ∃ w ∈ p.workers, (((Sys.start p).run p as).loc w.id).phase = .fresh ∨ (((Sys.start p).run p as).loc w.id).phase = .connected ∨
      (((Sys.start p).run p as).loc w.id).phase = .leaving ∨
      ((((Sys.start p).run p as).loc w.id).phase = .dead ∧ .clientFailure w.id ∉ ((Sys.start p).run p as).hist) := by
  have hs := (inv_run p as).1
  have h := vinv_run p hn as
  have hq := qinv_run p as
  have ha := ainv_run p as
  generalize (Sys.start p).run p as = s at hs h hq ha hw ⊢
  obtain ⟨hc, hloop, hph⟩ := waiting_phase hs hw
  have hnr : ∀ d, .clientFailure d ∉ s.hist := fun d hd => by
    rcases hph with e | e
    · exact (hq.reported d hd).1 e
    · exact (hq.reported d hd).2 e
  rcases hph with hph | hph
  · rcases h.clients hph with h1 | h1 | ⟨d, h1⟩
    · have hex : ∃ w ∈ p.workers, w.id ∉ s.srv.connected := by
        apply Classical.byContradiction
        intro hne
        have hsub : p.workers.map (·.id) ⊆ s.srv.connected := fun d hd => by
          obtain ⟨w, hw, rfl⟩ := List.mem_map.1 hd
          apply Classical.byContradiction
          exact fun hm => hne ⟨w, hw, hm⟩
        have := nodup_subset_length hn hsub
        rw [List.length_map] at this
        omega
      obtain ⟨w, hw, hm⟩ := hex
      refine ⟨w, hw, ?_⟩
      have hk := fun v e => hm (hs.known w.id v e).2
      cases hp : (s.loc w.id).phase with
      | fresh => exact .inl rfl
      | connected => exact .inr (.inl rfl)
      | leaving => exact .inr (.inr (.inl rfl))
      | loop => exact absurd (by rw [hp]; rfl) (hk Option.none)
      | running i j => exact absurd (by rw [hp]; rfl) (hk (some i))
      | ending => exact absurd hp (h.none hph _).1
      | gone => exact absurd hp (h.none hph _).2
      | dead => exact .inr (.inr (.inr ⟨rfl, hnr _⟩))
    · rw [h1] at hc; cases hc
    · obtain ⟨h2, h3⟩ := h.hook d h1
      obtain ⟨w, hw, rfl⟩ := List.mem_map.1 h3
      exact ⟨w, hw, .inr (.inr (.inr ⟨h2, hnr _⟩))⟩
  · have h1 := h.validation hph
    rw [h.count] at h1
    have hex : ∃ w ∈ p.workers, (s.loc w.id).valid = false := by
      apply Classical.byContradiction
      intro hne
      refine Nat.lt_irrefl _ (Nat.lt_of_lt_of_eq h1 (List.length_filter_eq_length_iff.2 (fun w hw => ?_)).symm)
      cases hv : (s.loc w.id).valid
      · exact absurd ⟨w, hw, hv⟩ hne
      · rfl
    obtain ⟨w, hw, hv⟩ := hex
    refine ⟨w, hw, ?_⟩
    cases hp : (s.loc w.id).phase with
    | fresh => exact .inl rfl
    | connected => exact .inr (.inl rfl)
    | leaving => exact .inr (.inr (.inl rfl))
    | loop => rw [ha.valid _ (.inl hp)] at hv; cases hv
    | running i j => rw [ha.valid _ (.inr ⟨i, j, hp⟩)] at hv; cases hv
    | ending => rw [ha.ending _ hp] at hv; cases hv
    | gone => rw [hq.gone hph _ hp] at hv; cases hv
    | dead => exact .inr (.inr (.inr ⟨rfl, hnr _⟩))

/-! ## Workers that died unheard -/

theorem stays_connected (cfg : Cfg) (st : St) (q : Req) (c : Nat) (hc : c ∈ st.connected) (h1 : q ≠ .clientFailure c)
    (h2 : ∀ f, q ≠ .disconnect c f) : c ∈ (step cfg st q).2.connected := by
  unfold step
  split
  · exact hc
  · cases q with
    | connect d k =>
      simp only [connect]
      cases k
      · simp only [Bool.not_false, if_true]; split
        · exact hc
        · exact List.mem_append_left _ hc
      · simp only [Bool.not_true, Bool.false_eq_true, if_false]; split <;> (split <;> first | exact hc | exact List.mem_append_left _ hc)
    | validate d coll => simp only [validate]; split <;> (try split) <;> exact hc
    | getTest d k =>
      simp only [getTest]
      split
      · exact hc
      · exact hc
      · split
        · exact hc
        · split
          · exact hc
          · split
            · split
              · exact hc
              · exact hc
              · split <;> exact hc
            · exact hc
    | finished d r =>
      simp only [(finished_view cfg d r st).1]; exact hc
    | clientFailure d =>
      simp only [(clientFailure_view d st).1]
      exact (List.mem_erase_of_ne (fun e => h1 (by rw [e]))).2 hc
    | disconnect d f =>
      simp only
      split
      · exact hc
      · have := (List.mem_erase_of_ne (l := st.connected) (a := c) (b := d) (fun e => h2 f (by rw [e]))).2 hc
        split <;> exact this
    | interrupted => exact hc
    | sessionError => exact hc
    | stopServe => exact hc
    | exclude d i => exact hc
    | force d i => exact hc

/-- nothing happens to such a worker any more -/
theorem unheard_stays {p : Plan} (as : List Act) (s : Sys) {c : Nat} (hc : c ∈ s.srv.connected)
    (hd : (s.loc c).phase = .dead) (hh : (s.loc c).heard = false) : c ∈ (s.run p as).srv.connected := by
  induction as generalizing s with
  | nil => exact hc
  | cons a as ih =>
    have key : c ∈ (s.step p a).srv.connected ∧ ((s.step p a).loc c).phase = .dead ∧ ((s.step p a).loc c).heard = false := by
      have ask : ∀ q, q ≠ .clientFailure c → (∀ f, q ≠ .disconnect c f) → c ∈ (Par.step p.cfg s.srv q).2.connected :=
        fun q => stays_connected _ _ q c hc
      cases a with
      | act d x =>
        simp only [Sys.step]
        split
        · split
          · exact ⟨hc, hd, hh⟩
          · rename_i q hr
            have hne : c ≠ d := fun e => by subst e; rw [hd] at hr; cases hr
            have hq : (∀ f, q ≠ .disconnect c f) ∧ q ≠ .clientFailure c := by
              cases hph : (s.loc d).phase <;> rw [hph] at hr <;> simp only [request, Option.some.injEq] at hr <;> try (cases hr)
              all_goals simp [Ne.symm hne]
            refine ⟨ask q hq.2 hq.1, ?_, ?_⟩ <;> (simp only [loc_set, hne, if_false]; assumption)
        · exact ⟨hc, hd, hh⟩
      | die d =>
        simp only [Sys.step]
        split
        · exact ⟨hc, hd, hh⟩
        · refine ⟨hc, ?_, ?_⟩ <;> rw [loc_set] <;> split
          · rfl
          · exact hd
          · rename_i e; subst e; exact hh
          · exact hh
      | keepAlive d =>
        simp only [Sys.step]
        split
        · exact ⟨hc, hd, hh⟩
        · rename_i hno
          have hne : c ≠ d := fun e => hno (.inl (by subst e; rw [hd]; rfl))
          refine ⟨hc, ?_, ?_⟩ <;> (rw [loc_set, if_neg hne]; assumption)
      | report d =>
        simp only [Sys.step]
        split
        · rename_i hy
          have hne : c ≠ d := fun e => by subst e; rw [hh] at hy; cases hy.2.1
          exact ⟨ask _ (by simp [Ne.symm hne]) (by simp), hd, hh⟩
        · exact ⟨hc, hd, hh⟩
      | interrupt => exact ⟨ask _ (by simp) (by simp), hd, hh⟩
      | giveUp => exact ⟨ask _ (by simp) (by simp), hd, hh⟩
      | stop =>
        simp only [Sys.step]
        split
        · exact ⟨ask _ (by simp) (by simp), hd, hh⟩
        · exact ⟨hc, hd, hh⟩
      | problem d => exact ⟨ask _ (by simp) (by simp), hd, hh⟩
      | exclude d i => exact ⟨ask _ (by simp) (by simp), hd, hh⟩
      | force d i => exact ⟨ask _ (by simp) (by simp), hd, hh⟩
    exact ih _ key.1 key.2.1 key.2.2

end Slash.Par
