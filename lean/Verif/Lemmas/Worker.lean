import Verif.Lemmas.Parallel
import Verif.Model.Worker
/-! Lemmas on whole parallel runs. -/
namespace Slash.Par

/-! ## What requests do to what the server knows about the workers -/

theorem finished_view (cfg : Cfg) (c : Nat) (r : WRes) (st : St) :
    (finishedTest cfg c r st).2.connected = st.connected ∧ (finishedTest cfg c r st).2.failed = st.failed ∧
    (∀ i, getKey c st.executing = some (some i) → (finishedTest cfg c r st).2.executing = setKey c none st.executing) ∧
    ((∀ i, getKey c st.executing ≠ some (some i)) → (finishedTest cfg c r st).2.executing = st.executing) := by
  unfold finishedTest
  split
  · rename_i i hk
    have key : ∀ st' : St, st'.connected = st.connected → st'.failed = st.failed → st'.executing = setKey c none st.executing →
        st'.connected = st.connected ∧ st'.failed = st.failed ∧
        (∀ i, getKey c st.executing = some (some i) → st'.executing = setKey c none st.executing) ∧
        ((∀ i, getKey c st.executing ≠ some (some i)) → st'.executing = st.executing) :=
      fun st' a b d => ⟨a, b, fun _ _ => d, fun h => absurd hk (h i)⟩
    simp only
    cases hc : createResult _ _ _ with
    | none => exact key _ rfl rfl rfl
    | some st1 =>
      obtain ⟨h1, -⟩ := createResult_some hc
      simp only
      split
      · obtain ⟨res, fin, uns, h, -⟩ := markUnrun_frame { st1 with phase := .stopTests }
        rcases hm : markUnrun { st1 with phase := .stopTests } with ⟨b, st2⟩
        rw [hm] at h
        simp only at h
        cases b <;> exact key _ (by simp only; rw [h, h1]) (by simp only; rw [h, h1]) (by simp only; rw [h, h1])
      · exact key _ (by rw [h1]) (by rw [h1]) (by rw [h1])
  · rename_i hk
    exact ⟨rfl, rfl, fun i h => absurd h (fun h => hk i h), fun _ => rfl⟩

theorem clientFailure_view (c : Nat) (st : St) :
    (clientFailure c st).2.connected = st.connected.erase c ∧ (clientFailure c st).2.executing = st.executing ∧
    ((clientFailure c st).2.failed = st.failed ∨ ∃ i, (clientFailure c st).2.failed = (c, i) :: st.failed) := by
  unfold clientFailure
  split
  · rename_i h; exact ⟨(List.erase_of_not_mem h).symm, rfl, .inl rfl⟩
  · have key : ∀ st1 st2 : St, st2 = (match markUnrun { st1 with phase := .stopTests } with
          | (true, st) => (Resp.ok, { st with workerError := true })
          | (false, st) => (.fault, st)).2 → st2.connected = st1.connected ∧ st2.executing = st1.executing ∧ st2.failed = st1.failed := by
      intro st1 st2 e2
      obtain ⟨res, fin, uns, h, -⟩ := markUnrun_frame { st1 with phase := .stopTests }
      rcases hm : markUnrun { st1 with phase := .stopTests } with ⟨b, st3⟩
      rw [hm] at h e2
      simp only at h
      cases b <;> (simp only at e2; rw [e2, h]; exact ⟨rfl, rfl, rfl⟩)
    simp only
    split
    · cases hc : createResult _ _ _ with
      | none => exact ⟨rfl, rfl, .inl rfl⟩
      | some st1 =>
        obtain ⟨h1, -⟩ := createResult_some hc
        simp only
        rename_i i _
        obtain ⟨a, b, d⟩ := key { st1 with finished := st1.finished ++ [i], failed := (c, i) :: st1.failed } _ rfl
        exact ⟨a.trans (by rw [h1]), b.trans (by rw [h1]), .inr ⟨i, d.trans (by rw [h1])⟩⟩
    · obtain ⟨a, b, d⟩ := key { st with connected := st.connected.erase c } _ rfl
      exact ⟨a, b, .inl d⟩

theorem clientFailure_failed {cfg : Cfg} {qs : List Req} {st : St} (h : Inv cfg.n qs st) {c i : Nat} (hc : c ∈ st.connected)
    (hk : getKey c st.executing = some (some i)) : (c, i) ∈ (clientFailure c st).2.failed := by
  have hnf : (c, i) ∉ st.failed := fun hm => (h.failed _ hm).2.1 hc
  have hw : i ∈ working st.failed st.executing := (mem_working h.keys).2 ⟨c, hk, hnf⟩
  have hfin : i ∉ st.finished := fun hm => (List.nodup_append.1 h.nodup).2.2 i (List.mem_append_right _ hw) i hm rfl
  unfold clientFailure
  simp only [hc, not_true_eq_false, if_false, hk]
  have hcr : createResult i .interrupted { st with connected := st.connected.erase c } =
      some { st with connected := st.connected.erase c, results := st.results ++ [(i, .interrupted)] } := by
    unfold createResult
    rw [if_neg]
    simp only [h.res]; exact hfin
  rw [hcr]
  simp only
  obtain ⟨res, fin, uns, h2, -⟩ := markUnrun_frame
    { st with connected := st.connected.erase c, results := st.results ++ [(i, .interrupted)], finished := st.finished ++ [i],
              failed := (c, i) :: st.failed, phase := .stopTests }
  rcases hm : markUnrun { st with connected := st.connected.erase c, results := st.results ++ [(i, .interrupted)], finished := st.finished ++ [i], failed := (c, i) :: st.failed, phase := .stopTests } with ⟨b, st3⟩
  rw [hm] at h2
  simp only at h2
  cases b <;> (simp only; rw [h2]; exact List.mem_cons_self)

theorem getTest_view (cfg : Cfg) (c : Nat) (ok : Bool) (st : St) :
    (getTest cfg c ok st).2.connected = st.connected ∧ (getTest cfg c ok st).2.failed = st.failed ∧
    (((getTest cfg c ok st).2.executing = st.executing ∧ ∀ i, (getTest cfg c ok st).1 ≠ .test i) ∨
      ∃ i, getKey c st.executing = some none ∧ (getTest cfg c ok st).2.executing = setKey c (some i) st.executing ∧
        ((getTest cfg c ok st).1 = .test i ∨ (getTest cfg c ok st).1 = .fault)) := by
  unfold getTest
  split
  · exact ⟨rfl, rfl, .inl ⟨rfl, fun i h => nomatch h⟩⟩
  · exact ⟨rfl, rfl, .inl ⟨rfl, fun i h => nomatch h⟩⟩
  · rename_i hk
    split
    · exact ⟨rfl, rfl, .inl ⟨rfl, fun i h => nomatch h⟩⟩
    · split
      · exact ⟨rfl, rfl, .inl ⟨rfl, fun i h => nomatch h⟩⟩
      · split
        · split
          · exact ⟨rfl, rfl, .inl ⟨rfl, fun i h => nomatch h⟩⟩
          · exact ⟨rfl, rfl, .inl ⟨rfl, fun i h => nomatch h⟩⟩
          · rename_i i _
            cases ok
            · exact ⟨rfl, rfl, .inr ⟨i, hk, rfl, .inr rfl⟩⟩
            · exact ⟨rfl, rfl, .inr ⟨i, hk, rfl, .inl rfl⟩⟩
        · exact ⟨rfl, rfl, .inl ⟨rfl, fun i h => nomatch h⟩⟩

theorem validate_view (cfg : Cfg) (coll : List Nat) (st : St) :
    (validate cfg coll st).2.connected = st.connected ∧ (validate cfg coll st).2.failed = st.failed ∧
    (validate cfg coll st).2.executing = st.executing ∧ (validate cfg coll st).1 = .bool (decide (coll = cfg.coll)) := by
  unfold validate
  split
  · rename_i h; exact ⟨rfl, rfl, rfl, by simp [h]⟩
  · rename_i h
    have h := Classical.not_not.1 h
    simp only
    split <;> exact ⟨rfl, rfl, rfl, by simp [h]⟩

theorem connect_view (cfg : Cfg) (c : Nat) (ok : Bool) (st : St) :
    (connect cfg c ok st).2.failed = st.failed ∧
    (∀ d, d ∈ (connect cfg c ok st).2.connected ↔ d ∈ st.connected ∨ d = c) ∧
    (connect cfg c ok st).2.executing = (if ok then setKey c none st.executing else st.executing) ∧
    (connect cfg c ok st).1 = (if ok then .ok else .fault) := by
  unfold connect
  by_cases hc : c ∈ st.connected
  · simp only [hc, if_true]
    cases ok
    · exact ⟨rfl, fun d => ⟨.inl, fun h => h.elim id (fun e => e ▸ hc)⟩, rfl, rfl⟩
    · simp only [Bool.not_true, Bool.false_eq_true, if_false]
      split <;> exact ⟨rfl, fun d => ⟨.inl, fun h => h.elim id (fun e => e ▸ hc)⟩, rfl, rfl⟩
  · simp only [hc, if_false]
    cases ok
    · exact ⟨rfl, fun d => by simp, rfl, rfl⟩
    · simp only [Bool.not_true, Bool.false_eq_true, if_false]
      split <;> exact ⟨rfl, fun d => by simp, rfl, rfl⟩

/-- the worker a request is about -/
def Req.subject : Req → Option Nat
  | .connect c _ | .validate c _ | .getTest c _ | .finished c _ | .clientFailure c | .disconnect c _ => some c
  | _ => none

theorem step_other (cfg : Cfg) (st : St) (q : Req) (d : Nat) (h : q.subject ≠ some d) :
    getKey d (step cfg st q).2.executing = getKey d st.executing ∧ (d ∈ (step cfg st q).2.connected ↔ d ∈ st.connected) := by
  unfold step
  split
  · exact ⟨rfl, Iff.rfl⟩
  · cases q with
    | connect c k =>
      have hd : d ≠ c := fun e => h (by simp [Req.subject, e])
      obtain ⟨-, h2, h3, -⟩ := connect_view cfg c k st
      simp only
      rw [h2, h3]
      refine ⟨?_, by simp [hd]⟩
      split
      · rw [getKey_setKey, if_neg hd]
      · rfl
    | validate c coll =>
      obtain ⟨h1, -, h3, -⟩ := validate_view cfg coll st
      simp only
      rw [h1, h3]; exact ⟨rfl, Iff.rfl⟩
    | getTest c k =>
      have hd : d ≠ c := fun e => h (by simp [Req.subject, e])
      obtain ⟨h1, -, h3⟩ := getTest_view cfg c k st
      simp only
      rw [h1]
      refine ⟨?_, Iff.rfl⟩
      rcases h3 with ⟨h3, -⟩ | ⟨i, -, h3, -⟩
      · rw [h3]
      · rw [h3, getKey_setKey, if_neg hd]
    | finished c r =>
      have hd : d ≠ c := fun e => h (by simp [Req.subject, e])
      obtain ⟨h1, -, h3, h4⟩ := finished_view cfg c r st
      simp only
      rw [h1]
      refine ⟨?_, Iff.rfl⟩
      by_cases hk : ∃ i, getKey c st.executing = some (some i)
      · obtain ⟨i, hk⟩ := hk
        rw [h3 i hk, getKey_setKey, if_neg hd]
      · rw [h4 (fun i hi => hk ⟨i, hi⟩)]
    | clientFailure c =>
      have hd : d ≠ c := fun e => h (by simp [Req.subject, e])
      obtain ⟨h1, h2, -⟩ := clientFailure_view c st
      simp only
      rw [h1, h2]
      exact ⟨rfl, List.mem_erase_of_ne hd⟩
    | disconnect c f =>
      have hd : d ≠ c := fun e => h (by simp [Req.subject, e])
      simp only
      split
      · exact ⟨rfl, Iff.rfl⟩
      · simp only
        split <;> exact ⟨rfl, List.mem_erase_of_ne hd⟩
    | interrupted => exact ⟨rfl, Iff.rfl⟩
    | sessionError => exact ⟨rfl, Iff.rfl⟩
    | stopServe => exact ⟨rfl, Iff.rfl⟩
    | exclude c i => exact ⟨rfl, Iff.rfl⟩
    | force c i => exact ⟨rfl, Iff.rfl⟩

theorem step_failed (cfg : Cfg) (st : St) (q : Req) : st.failed ⊆ (step cfg st q).2.failed := by
  unfold step
  split
  · exact fun _ h => h
  · cases q with
    | connect c k => obtain ⟨h1, -⟩ := connect_view cfg c k st; simp only; rw [h1]; exact fun _ h => h
    | validate c coll => obtain ⟨-, h1, -⟩ := validate_view cfg coll st; simp only; rw [h1]; exact fun _ h => h
    | getTest c k => obtain ⟨-, h1, -⟩ := getTest_view cfg c k st; simp only; rw [h1]; exact fun _ h => h
    | finished c r => obtain ⟨-, h1, -⟩ := finished_view cfg c r st; simp only; rw [h1]; exact fun _ h => h
    | clientFailure c =>
      obtain ⟨-, -, h1⟩ := clientFailure_view c st
      simp only
      rcases h1 with h1 | ⟨i, h1⟩ <;> rw [h1]
      · exact fun _ h => h
      · exact fun _ h => List.mem_cons_of_mem _ h
    | disconnect c f =>
      simp only
      split
      · exact fun _ h => h
      · simp only
        split <;> exact fun _ h => h
    | _ => exact fun _ h => h

theorem legal_snoc {qs : List Req} {q : Req} (h : Legal qs) (h1 : ∀ c k, q = .connect c k → ∀ k', .connect c k' ∉ qs)
    (h2 : ∀ c r, q = .finished c r → .clientFailure c ∉ qs) : Legal (qs ++ [q]) := by
  have key : ∀ a b : List Req, ∀ x, qs ++ [q] = a ++ x :: b → (a = qs ∧ x = q) ∨ ∃ b', qs = a ++ x :: b' := by
    intro a b x e
    rcases List.eq_nil_or_concat b with rfl | ⟨b', y, rfl⟩
    · have := List.append_inj' e rfl
      exact .inl ⟨this.1.symm, (List.cons.inj this.2).1.symm⟩
    · have e' : qs ++ [q] = (a ++ x :: b') ++ [y] := by simpa using e
      exact .inr ⟨b', (List.append_inj' e' rfl).1⟩
  refine ⟨fun a b c k e => ?_, fun a b c r e => ?_⟩
  · rcases key a b _ e with ⟨rfl, hq⟩ | ⟨b', e'⟩
    · exact h1 c k hq.symm
    · exact h.1 a b' c k e'
  · rcases key a b _ e with ⟨rfl, hq⟩ | ⟨b', e'⟩
    · exact h2 c r hq.symm
    · exact h.2 a b' c r e'

/-! ## The invariant -/

/-- what the server must have for a worker -/
def WPhase.server : WPhase → Option (Option Nat)
  | .connected | .loop | .ending | .leaving => some none
  | .running i _ => some (some i)
  | .fresh | .gone | .dead => none

/-- what holds between the server and the workers -/
structure SInv (p : Plan) (s : Sys) : Prop where
  srv : s.srv = exec p.cfg p.workers s.hist
  legal : Legal s.hist
  fresh : ∀ c, (s.loc c).phase = .fresh → ∀ k, .connect c k ∉ s.hist
  failed : ∀ c, .clientFailure c ∈ s.hist → (s.loc c).phase = .dead
  known : ∀ c v, (s.loc c).phase.server = some v → getKey c s.srv.executing = some v ∧ c ∈ s.srv.connected
  stopped : s.srv.phase = .stopServe → ∀ w ∈ p.workers, (s.loc w.id).phase.over = true
  ids : ∀ c, c ∉ p.workers.map (·.id) → (s.loc c).phase = .fresh ∨ (s.loc c).phase = .dead
  quiet : ∀ c i, c ∉ s.srv.connected → getKey c s.srv.executing = some (some i) → (c, i) ∈ s.srv.failed

theorem SInv.inv {p : Plan} {s : Sys} (h : SInv p s) : Inv p.cfg.n s.hist s.srv := by
  rw [h.srv]; exact inv_exec _ _ _ h.legal

theorem step_stopServe (cfg : Cfg) (st : St) (q : Req) (h : (step cfg st q).2.phase = .stopServe) :
    st.phase = .stopServe ∨ q = .stopServe := by
  unfold step at h
  split at h
  · rename_i hp; exact .inl hp
  · rename_i hp
    cases q with
    | stopServe => exact .inr rfl
    | connect c k =>
      exfalso
      simp only [connect] at h
      cases k
      · simp only [Bool.not_false, if_true] at h; split at h <;> exact hp h
      · simp only [Bool.not_true, Bool.false_eq_true, if_false] at h
        split at h
        · split at h <;> first | exact hp h | cases h
        · split at h <;> first | exact hp h | cases h
    | validate c coll =>
      exfalso
      simp only [validate] at h
      split at h
      · exact hp h
      · simp only at h; split at h <;> first | exact hp h | cases h
    | getTest c k =>
      exfalso
      simp only [getTest] at h
      split at h
      · exact hp h
      · exact hp h
      · split at h
        · exact hp h
        · split at h
          · exact hp h
          · split at h
            · split at h
              · exact hp h
              · exact hp h
              · cases k <;> exact hp h
            · cases h
    | finished c r =>
      exfalso
      simp only [finishedTest] at h
      split at h
      · cases hc : createResult _ _ _ with
        | none => rw [hc] at h; exact hp h
        | some st1 =>
          rw [hc] at h
          obtain ⟨h1, -⟩ := createResult_some hc
          simp only at h
          split at h
          · obtain ⟨res, fin, uns, h2, -⟩ := markUnrun_frame { st1 with phase := .stopTests }
            rcases hm : markUnrun { st1 with phase := .stopTests } with ⟨b, st2⟩
            rw [hm] at h h2
            simp only at h2
            cases b <;> (simp only at h; rw [h2] at h; cases h)
          · rw [h1] at h; exact hp h
      · exact hp h
    | clientFailure c =>
      exfalso
      simp only [clientFailure] at h
      split at h
      · exact hp h
      · have key : ∀ st1 : St, (match markUnrun { st1 with phase := .stopTests } with
              | (true, st) => (Resp.ok, { st with workerError := true })
              | (false, st) => (.fault, st)).2.phase ≠ .stopServe := by
          intro st1 e
          obtain ⟨res, fin, uns, h2, -⟩ := markUnrun_frame { st1 with phase := .stopTests }
          rcases hm : markUnrun { st1 with phase := .stopTests } with ⟨b, st2⟩
          rw [hm] at e h2
          simp only at h2
          cases b <;> (simp only at e; rw [h2] at e; cases e)
        split at h
        · cases hc : createResult _ _ _ with
          | none => rw [hc] at h; exact hp h
          | some st1 =>
            rw [hc] at h
            rename_i i _
            exact key { st1 with finished := st1.finished ++ [i], failed := (c, i) :: st1.failed } h
        · exact key { st with connected := st.connected.erase c } h
    | disconnect c f =>
      exfalso
      simp only at h
      split at h
      · exact hp h
      · simp only at h; split at h <;> first | exact hp h | cases h
    | interrupted => cases h
    | sessionError => exact .inl h
    | exclude c i => exact .inl h
    | force c i => exact .inl h

theorem SInv.start (p : Plan) : SInv p (Sys.start p) where
  srv := rfl
  legal := ⟨fun a b c k e => by simp [Sys.start] at e, fun a b c r e => by simp [Sys.start] at e⟩
  fresh := fun c _ k h => by simp [Sys.start] at h
  failed := fun c h => by simp [Sys.start] at h
  known := fun c v h => by simp [Sys.start, WPhase.server] at h
  stopped := fun h => by simp [Sys.start, init] at h
  ids := fun c _ => .inl rfl
  quiet := fun c i _ h => by simp [Sys.start, init, getKey] at h

/-- a request that is not about a worker -/
theorem SInv.ask {p : Plan} {s : Sys} (h : SInv p s) (q : Req) (hq : q.subject = none) (b : Bool)
    (hs : q = .stopServe → ∀ w ∈ p.workers, (s.loc w.id).phase.over = true) :
    SInv p { (s.ask p q).2 with raised := b } where
  srv := by simp only [Sys.ask]; rw [exec_snoc, ← h.srv]
  legal := legal_snoc h.legal (fun c k e => by subst e; cases hq) (fun c r e => by subst e; cases hq)
  fresh := fun c hc k hm => by
    rcases List.mem_append.1 hm with hm | hm
    · exact h.fresh c hc k hm
    · simp only [List.mem_singleton] at hm; subst hm; cases hq
  failed := fun c hm => by
    rcases List.mem_append.1 hm with hm | hm
    · exact h.failed c hm
    · simp only [List.mem_singleton] at hm; subst hm; cases hq
  known := fun c v hv => by
    have := h.known c v hv
    have ho := step_other p.cfg s.srv q c (by rw [hq]; simp)
    exact ⟨ho.1.trans this.1, ho.2.2 this.2⟩
  stopped := fun he => by
    rcases step_stopServe _ _ _ he with he | he
    · exact h.stopped he
    · exact hs he
  ids := h.ids
  quiet := fun c i hc hk => by
    have ho := step_other p.cfg s.srv q c (by rw [hq]; simp)
    exact step_failed _ _ _ (h.quiet c i (fun hm => hc (ho.2.2 hm)) (ho.1 ▸ hk))

theorem loc_set (s : Sys) (c d : Nat) (w : W) : (s.set c w).loc d = if d = c then w else s.loc d := rfl

/-- a request about a worker -/
theorem SInv.about {p : Plan} {s : Sys} (h : SInv p s) (q : Req) (c : Nat) (w : W) (hq : q.subject = some c)
    (hfr : w.phase ≠ .fresh) (hco : ∀ k, q = .connect c k → (s.loc c).phase = .fresh)
    (hfi : ∀ r, q = .finished c r → (s.loc c).phase ≠ .dead)
    (hcf : (q = .clientFailure c ∨ (s.loc c).phase = .dead) → w.phase = .dead)
    (hkn : ∀ v, w.phase.server = some v → getKey c (step p.cfg s.srv q).2.executing = some v ∧ c ∈ (step p.cfg s.srv q).2.connected)
    (hst : s.srv.phase = .stopServe → w.phase.over = true)
    (hid : c ∉ p.workers.map (·.id) → w.phase = .dead)
    (hqu : ∀ i, c ∉ (step p.cfg s.srv q).2.connected → getKey c (step p.cfg s.srv q).2.executing = some (some i) →
      (c, i) ∈ (step p.cfg s.srv q).2.failed) : SInv p ((s.ask p q).2.set c w) where
  srv := by simp only [Sys.ask, Sys.set]; rw [exec_snoc, ← h.srv]
  legal := by
    refine legal_snoc h.legal (fun d k e => ?_) (fun d r e => ?_)
    · subst e; simp only [Req.subject, Option.some.injEq] at hq; subst hq
      exact h.fresh d (hco k rfl)
    · subst e; simp only [Req.subject, Option.some.injEq] at hq; subst hq
      exact fun hm => hfi r rfl (h.failed d hm)
  fresh := fun d hd k hm => by
    rw [loc_set] at hd
    split at hd
    · exact hfr hd
    · rename_i hne
      rcases List.mem_append.1 hm with hm | hm
      · exact h.fresh d hd k hm
      · simp only [List.mem_singleton] at hm; subst hm
        simp only [Req.subject, Option.some.injEq] at hq; exact hne hq
  failed := fun d hm => by
    rw [loc_set]
    rcases List.mem_append.1 hm with hm | hm
    · have := h.failed d hm
      split
      · rename_i e; exact hcf (.inr (e ▸ this))
      · exact this
    · simp only [List.mem_singleton] at hm
      have e : d = c := by rw [← hm] at hq; simpa [Req.subject] using hq
      rw [if_pos e]; exact hcf (.inl (by rw [← hm, e]))
  known := fun d v hv => by
    rw [loc_set] at hv
    split at hv
    · rename_i e; subst e; exact hkn v hv
    · rename_i hne
      have := h.known d v hv
      have ho := step_other p.cfg s.srv q d (by rw [hq]; simp; exact fun e => hne e.symm)
      exact ⟨ho.1.trans this.1, ho.2.2 this.2⟩
  stopped := fun he v hv => by
    have he : s.srv.phase = .stopServe := by
      rcases step_stopServe _ _ _ he with he | he
      · exact he
      · subst he; cases hq
    rw [loc_set]
    split
    · exact hst he
    · exact h.stopped he v hv
  ids := fun d hd => by
    rw [loc_set]
    split
    · rename_i e; exact .inr (hid (e ▸ hd))
    · exact h.ids d hd
  quiet := fun d i hd hk => by
    by_cases e : d = c
    · subst e; exact hqu i hd hk
    · have ho := step_other p.cfg s.srv q d (by rw [hq]; simp; exact fun e' => e e'.symm)
      exact step_failed _ _ _ (h.quiet d i (fun hm => hd (ho.2.2 hm)) (ho.1 ▸ hk))

/-- a change of a local state -/
theorem SInv.local {p : Plan} {s : Sys} (h : SInv p s) (c : Nat) (w : W)
    (hw : w.phase = (s.loc c).phase ∨ (w.phase = .dead ∧ (s.loc c).phase ≠ .gone)) : SInv p (s.set c w) where
  srv := h.srv
  legal := h.legal
  fresh := fun d hd => by
    rw [loc_set] at hd
    split at hd
    · rename_i e
      rcases hw with hw | ⟨hw, -⟩
      · rw [hw, ← e] at hd; exact h.fresh d hd
      · rw [hw] at hd; cases hd
    · exact h.fresh d hd
  failed := fun d hm => by
    have := h.failed d hm
    rw [loc_set]
    split
    · rename_i e
      rcases hw with hw | ⟨hw, -⟩
      · rw [hw, ← e]; exact this
      · exact hw
    · exact this
  known := fun d v hv => by
    rw [loc_set] at hv
    split at hv
    · rename_i e
      rcases hw with hw | ⟨hw, -⟩
      · rw [hw, ← e] at hv; exact h.known d v hv
      · rw [hw] at hv; cases hv
    · exact h.known d v hv
  stopped := fun he v hv => by
    have := h.stopped he v hv
    rw [loc_set]
    split
    · rename_i e
      rcases hw with hw | ⟨hw, -⟩
      · rw [hw, ← e]; exact this
      · rw [hw]; rfl
    · exact this
  ids := fun d hd => by
    rw [loc_set]
    split
    · rename_i e
      rcases hw with hw | ⟨hw, -⟩
      · rw [hw, ← e]; exact h.ids d hd
      · exact .inr hw
    · exact h.ids d hd
  quiet := h.quiet

theorem SInv.serving {p : Plan} {s : Sys} (h : SInv p s) {c : Nat} (hc : c ∈ p.workers.map (·.id))
    (ho : (s.loc c).phase.over = false) : s.srv.phase ≠ .stopServe := by
  intro e
  obtain ⟨w, hw, rfl⟩ := List.mem_map.1 hc
  rw [h.stopped e w hw] at ho
  cases ho

/-- how requests of a worker are answered -/
theorem step_serving {cfg : Cfg} {st : St} (q : Req) (h : st.phase ≠ .stopServe) : step cfg st q = (match q with
    | .connect c hookOk => connect cfg c hookOk st
    | .validate _ coll => validate cfg coll st
    | .getTest c hookOk => getTest cfg c hookOk st
    | .finished c r => finishedTest cfg c r st
    | .clientFailure c => clientFailure c st
    | .disconnect c hasFailure =>
      if c ∉ st.connected then (.fault, st)
      else (.ok, if hasFailure then { st with connected := st.connected.erase c, phase := .stopTests }
        else { st with connected := st.connected.erase c })
    | .interrupted => (.ok, { st with interrupted := true, phase := .stopTests })
    | .sessionError => (.ok, { st with workerError := true })
    | .stopServe => (.ok, { st with phase := .stopServe })
    | .exclude c i => (.ok, { st with cfgs := configure (·.exclude i) c st.cfgs })
    | .force c i => (.ok, { st with cfgs := configure (·.force i) c st.cfgs })) := by
  unfold step
  rw [if_neg h]
  cases q with
  | disconnect c f => cases f <;> rfl
  | _ => rfl

/-- an idle worker asking for a test -/
theorem getTest_idle (cfg : Cfg) (c : Nat) (ok : Bool) (st : St) (h : getKey c st.executing = some none) :
    (getTest cfg c ok st).1 = .noMore ∨ (getTest cfg c ok st).1 = .waiting ∨ (getTest cfg c ok st).1 = .fault ∨
    ∃ i, (getTest cfg c ok st).1 = .test i := by
  unfold getTest
  rw [h]
  simp only
  split
  · exact .inl rfl
  · split
    · exact .inr (.inl rfl)
    · split
      · split
        · exact .inr (.inr (.inl rfl))
        · exact .inl rfl
        · cases ok
          · exact .inr (.inr (.inl rfl))
          · exact .inr (.inr (.inr ⟨_, rfl⟩))
      · exact .inl rfl

/-- a busy worker reporting its test -/
theorem finished_busy {cfg : Cfg} {qs : List Req} {st : St} (h : Inv cfg.n qs st) (c i : Nat) (r : WRes)
    (hk : getKey c st.executing = some (some i)) (hc : c ∈ st.connected) :
    (finishedTest cfg c r st).1 = .ok ∧ (i, .ran r) ∈ (finishedTest cfg c r st).2.results := by
  have hnf : (c, i) ∉ st.failed := fun hm => (h.failed _ hm).2.1 hc
  have hw : i ∈ working st.failed st.executing := (mem_working h.keys).2 ⟨c, hk, hnf⟩
  have hfin : i ∉ st.finished := fun hm => (List.nodup_append.1 h.nodup).2.2 i (List.mem_append_right _ hw) i hm rfl
  have hun : ∀ j ∈ st.unstarted, j ≠ i ∧ j ∉ st.finished := fun j hj =>
    ⟨fun e => (List.nodup_append.1 (List.nodup_append.1 h.nodup).1).2.2 j hj i hw e,
     fun hm => (List.nodup_append.1 h.nodup).2.2 j (List.mem_append_left _ hj) j hm rfl⟩
  unfold finishedTest
  rw [hk]
  have hcr : createResult i (.ran r) { st with finished := st.finished ++ [i], executing := setKey c none st.executing } =
      some { st with finished := st.finished ++ [i], executing := setKey c none st.executing, results := st.results ++ [(i, .ran r)] } := by
    unfold createResult
    rw [if_neg]
    simp only [h.res]; exact hfin
  simp only [hcr]
  split
  · rw [markUnrun_ok { st with phase := .stopTests, finished := st.finished ++ [i], executing := setKey c none st.executing, results := st.results ++ [(i, .ran r)] }
      (List.nodup_append.1 (List.nodup_append.1 h.nodup).1).1 (by
      intro j hj
      obtain ⟨h1, h2⟩ := hun j hj
      simp only [List.map_append, List.map_cons, List.map_nil, List.mem_append, List.mem_singleton]
      rintro (hm | hm)
      · rw [h.res] at hm; exact h2 hm
      · exact h1 hm)]
    exact ⟨rfl, by simp⟩
  · exact ⟨rfl, by simp⟩

theorem SInv.act {p : Plan} {s : Sys} (h : SInv p s) (c : Nat) (x : Choice) : SInv p (s.step p (.act c x)) := by
  simp only [Sys.step]
  split
  · rename_i hc
    cases hph : (s.loc c).phase with
    | fresh =>
      have hserve := h.serving hc (by rw [hph]; rfl)
      simp only [request]
      obtain ⟨v1, v2, v3, v4⟩ := connect_view p.cfg c x.hookOk s.srv
      have hstep : Par.step p.cfg s.srv (.connect c x.hookOk) = connect p.cfg c x.hookOk s.srv := step_serving _ hserve
      refine h.about _ c _ rfl ?_ (fun _ _ => hph) (fun r e => nomatch e) ?_ ?_ (fun e => absurd e hserve) (fun e => absurd hc e) ?_
      · simp only [Sys.ask, hstep, v4, receive, hph]; cases x.hookOk <;> simp
      · rintro (e | e)
        · cases e
        · rw [hph] at e; cases e
      · intro v hv
        rw [hstep, v2, v3]
        simp only [Sys.ask, hstep, v4, receive, hph] at hv
        cases hk : x.hookOk
        · rw [hk] at hv; cases hv
        · rw [hk] at hv
          simp only [if_true, WPhase.server, Option.some.injEq] at hv
          simp [getKey_setKey, ← hv]
      · intro i hn
        rw [hstep, v2] at hn
        exact absurd (.inr rfl) hn
    | connected =>
      have hserve := h.serving hc (by rw [hph]; rfl)
      simp only [request]
      obtain ⟨v1, v2, v3, v4⟩ := validate_view p.cfg (sorted (p.coll c)) s.srv
      have hstep : Par.step p.cfg s.srv (.validate c (sorted (p.coll c))) = validate p.cfg (sorted (p.coll c)) s.srv := step_serving _ hserve
      obtain ⟨k1, k2⟩ := h.known c (some none).get! (by rw [hph]; rfl)
      refine h.about _ c _ rfl ?_ (fun _ e => nomatch e) (fun r e => nomatch e) ?_ ?_ (fun e => absurd e hserve) (fun e => absurd hc e) ?_
      · simp only [Sys.ask, hstep, v4, receive, hph]; cases decide (sorted (p.coll c) = p.cfg.coll) <;> simp
      · rintro (e | e)
        · cases e
        · rw [hph] at e; cases e
      · intro v hv
        rw [hstep, v1, v3]
        simp only [Sys.ask, hstep, v4, receive, hph] at hv
        cases hk : decide (sorted (p.coll c) = p.cfg.coll) <;> rw [hk] at hv <;>
          (simp only [WPhase.server, Option.some.injEq] at hv; rw [← hv]; exact ⟨k1, k2⟩)
      · intro i hn
        rw [hstep, v1] at hn
        exact absurd k2 hn
    | loop =>
      have hserve := h.serving hc (by rw [hph]; rfl)
      simp only [request]
      obtain ⟨v1, v2, v3⟩ := getTest_view p.cfg c x.hookOk s.srv
      have hstep : Par.step p.cfg s.srv (.getTest c x.hookOk) = getTest p.cfg c x.hookOk s.srv := step_serving _ hserve
      obtain ⟨k1, k2⟩ := h.known c none (by rw [hph]; rfl)
      have v4 := getTest_idle p.cfg c x.hookOk s.srv k1
      refine h.about _ c _ rfl ?_ (fun _ e => nomatch e) (fun r e => nomatch e) ?_ ?_ (fun e => absurd e hserve) (fun e => absurd hc e) ?_
      · simp only [Sys.ask, hstep, receive, hph]
        rcases v4 with e | e | e | ⟨i, e⟩ <;> rw [e] <;> simp only <;> first | simp; done | skip
        · rw [hph]; simp
        · split
          · simp
          · split <;> simp
      · rintro (e | e)
        · cases e
        · rw [hph] at e; cases e
      · intro v hv
        rw [hstep, v1]
        refine ⟨?_, k2⟩
        simp only [Sys.ask, hstep, receive, hph] at hv
        rcases v4 with e | e | e | ⟨i, e⟩ <;> rw [e] at hv v3 <;> simp only at hv
        · rcases v3 with ⟨v3, -⟩ | ⟨j, -, -, f | f⟩
          · rw [v3]; simp only [WPhase.server, Option.some.injEq] at hv; rw [← hv]; exact k1
          · cases f
          · cases f
        · rcases v3 with ⟨v3, -⟩ | ⟨j, -, -, f | f⟩
          · rw [v3]; simp only [hph, WPhase.server, Option.some.injEq] at hv; rw [← hv]; exact k1
          · cases f
          · cases f
        · cases hv
        · rcases v3 with ⟨-, v3⟩ | ⟨j, -, v3, f | f⟩
          · exact absurd rfl (v3 i)
          · cases f
            rw [v3, getKey_setKey, if_pos rfl]
            split at hv
            · cases hv
            · split at hv
              · cases hv
              · simp only [WPhase.server, Option.some.injEq] at hv; rw [← hv]
          · cases f
      · intro i hn
        rw [hstep, v1] at hn
        exact absurd k2 hn
    | running i j =>
      have hserve := h.serving hc (by rw [hph]; rfl)
      simp only [request]
      obtain ⟨v1, v2, v3, -⟩ := finished_view p.cfg c x.res s.srv
      have hstep : Par.step p.cfg s.srv (.finished c x.res) = finishedTest p.cfg c x.res s.srv := step_serving _ hserve
      obtain ⟨k1, k2⟩ := h.known c (some i) (by rw [hph]; rfl)
      obtain ⟨v4, -⟩ := finished_busy h.inv c i x.res k1 k2
      refine h.about _ c _ rfl ?_ (fun _ e => nomatch e) (fun r _ => by rw [hph]; simp) ?_ ?_ (fun e => absurd e hserve) (fun e => absurd hc e) ?_
      · simp only [Sys.ask, hstep, v4, receive, hph]; simp
      · rintro (e | e)
        · cases e
        · rw [hph] at e; cases e
      · intro v hv
        rw [hstep, v1, v3 i k1]
        simp only [Sys.ask, hstep, v4, receive, hph, WPhase.server, Option.some.injEq] at hv
        rw [getKey_setKey, if_pos rfl, ← hv]
        exact ⟨rfl, k2⟩
      · intro i hn
        rw [hstep, v1] at hn
        exact absurd k2 hn
    | ending =>
      have hserve := h.serving hc (by rw [hph]; rfl)
      simp only [request]
      obtain ⟨k1, k2⟩ := h.known c none (by rw [hph]; rfl)
      have hstep : Par.step p.cfg s.srv (.disconnect c false) = (.ok, { s.srv with connected := s.srv.connected.erase c }) := by
        rw [step_serving _ hserve]; simp [k2]
      refine h.about _ c _ rfl ?_ (fun _ e => nomatch e) (fun r e => nomatch e) ?_ ?_ (fun e => absurd e hserve) (fun e => absurd hc e) ?_
      · simp only [Sys.ask, hstep, receive, hph]; simp
      · rintro (e | e)
        · cases e
        · rw [hph] at e; cases e
      · intro v hv
        simp only [Sys.ask, hstep, receive, hph] at hv; cases hv
      · intro i _ hk
        rw [hstep] at hk
        simp only at hk
        rw [k1] at hk; cases hk
    | leaving =>
      have hserve := h.serving hc (by rw [hph]; rfl)
      simp only [request]
      obtain ⟨k1, k2⟩ := h.known c none (by rw [hph]; rfl)
      have hstep : Par.step p.cfg s.srv (.disconnect c true) = (.ok, { s.srv with connected := s.srv.connected.erase c, phase := .stopTests }) := by
        rw [step_serving _ hserve]; simp [k2]
      refine h.about _ c _ rfl ?_ (fun _ e => nomatch e) (fun r e => nomatch e) ?_ ?_ (fun e => absurd e hserve) (fun e => absurd hc e) ?_
      · simp only [Sys.ask, hstep, receive, hph]; simp
      · rintro (e | e)
        · cases e
        · rw [hph] at e; cases e
      · intro v hv
        simp only [Sys.ask, hstep, receive, hph] at hv; cases hv
      · intro i _ hk
        rw [hstep] at hk
        simp only at hk
        rw [k1] at hk; cases hk
    | gone => exact h
    | dead => exact h
  · exact h

theorem set_self (s : Sys) (c : Nat) : s.set c (s.loc c) = s := by
  simp only [Sys.set]
  congr 1
  funext d
  split
  · rename_i e; rw [e]
  · rfl

theorem SInv.step {p : Plan} {s : Sys} (h : SInv p s) (a : Act) : SInv p (s.step p a) := by
  cases a with
  | act c x => exact h.act c x
  | die c =>
    simp only [Sys.step]
    split
    · exact h
    · rename_i hg; exact h.local c _ (.inr ⟨rfl, hg⟩)
  | keepAlive c =>
    simp only [Sys.step]
    split
    · exact h
    · exact h.local c _ (.inl rfl)
  | report c =>
    simp only [Sys.step]
    split
    · rename_i hr
      obtain ⟨h1, -, h3⟩ := hr
      have := h.about (.clientFailure c) c (s.loc c) rfl (by rw [h1]; simp) (fun _ e => nomatch e) (fun _ e => nomatch e)
        (fun _ => h1) (fun v hv => by rw [h1] at hv; cases hv) (fun _ => by rw [h1]; rfl) (fun _ => h1) (by
          intro i hn hk
          unfold Par.step at hn hk ⊢
          split
          · rename_i hp
            simp only [if_pos hp] at hn hk
            exact h.quiet c i hn hk
          · rename_i hp
            simp only [if_neg hp] at hn hk ⊢
            rw [(clientFailure_view c s.srv).2.1] at hk
            exact clientFailure_failed h.inv h3 hk)
      have e : ((s.ask p (.clientFailure c)).2.set c (s.loc c)) = (s.ask p (.clientFailure c)).2 := set_self (s.ask p (.clientFailure c)).2 c
      rw [← e]; exact this
    · exact h
  | interrupt => exact h.ask _ rfl _ (fun e => nomatch e)
  | giveUp => exact h.ask _ rfl _ (fun e => nomatch e)
  | stop =>
    simp only [Sys.step]
    split
    · rename_i hs
      exact h.ask _ rfl s.raised (fun _ w hw => List.all_eq_true.1 hs.1 w hw)
    · exact h
  | problem c => exact h.ask _ rfl s.raised (fun e => nomatch e)
  | exclude c i => exact h.ask _ rfl s.raised (fun e => nomatch e)
  | force c i => exact h.ask _ rfl s.raised (fun e => nomatch e)

theorem SInv.run {p : Plan} (as : List Act) {s : Sys} (h : SInv p s) : SInv p (s.run p as) := by
  induction as generalizing s with
  | nil => exact h
  | cons a as ih => exact ih (h.step a)

end Slash.Par
