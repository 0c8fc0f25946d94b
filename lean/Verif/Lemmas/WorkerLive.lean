import Verif.Lemmas.WorkerEnd
/-! Lemmas on the length of parallel runs. -/
namespace Slash.Par

/-- how many requests a worker has still to do, apart from those for tests it does not have yet -/
def WPhase.weight : WPhase → Nat
  | .fresh => 4
  | .connected => 3
  | .running _ _ => 3
  | .loop => 2
  | .ending => 1
  | .leaving => 1
  | .gone => 0
  | .dead => 0

/-- total weight -/
def weights (ws : List WorkerCfg) (loc : Nat → W) : Nat := (ws.map (fun w => (loc w.id).phase.weight)).sum

theorem weights_le {ws : List WorkerCfg} {f g : Nat → W} (h : ∀ d, (f d).phase.weight ≤ (g d).phase.weight) :
    weights ws f ≤ weights ws g := by
  induction ws with
  | nil => exact Nat.le_refl _
  | cons w ws ih =>
    simp only [weights, List.map_cons, List.sum_cons] at ih ⊢
    have := h w.id
    omega

theorem weights_set {ws : List WorkerCfg} {f g : Nat → W} {c : Nat} (hc : c ∈ ws.map (·.id)) (hn : (ws.map (·.id)).Nodup)
    (h : ∀ d, d ≠ c → g d = f d) : weights ws g + (f c).phase.weight = weights ws f + (g c).phase.weight := by
  induction ws with
  | nil => cases hc
  | cons w ws ih =>
    simp only [List.map_cons, List.nodup_cons, List.mem_cons] at hc hn
    simp only [weights, List.map_cons, List.sum_cons] at ih ⊢
    by_cases e : c = w.id
    · subst e
      have : ws.map (fun v => (g v.id).phase.weight) = ws.map (fun v => (f v.id).phase.weight) := by
        apply List.map_congr_left
        intro v hv
        rw [h v.id (fun e => hn.1 (List.mem_map.2 ⟨v, hv, e⟩))]
      rw [this]; omega
    · have h1 := ih (hc.resolve_left e) hn.2
      rw [h w.id (fun e' => e e'.symm)]
      omega

/-- a bound on the requests still to come that are not answered by "wait" -/
def Sys.potential (p : Plan) (s : Sys) : Nat := weights p.workers s.loc + 2 * s.srv.unstarted.length

theorem unstarted_length (cfg : Cfg) (st : St) (q : Req) : (step cfg st q).2.unstarted.length ≤ st.unstarted.length := by
  rcases step_hand cfg st q with ⟨_, h1, h2, -⟩ | ⟨_, h1, h2, -⟩ | ⟨c, i, _, h1, h2, hm, -⟩
  · rw [h2]; exact Nat.le_refl _
  · rw [h2]; simp
  · rw [h2]; exact List.erase_sublist.length_le

/-- the response a worker gets if it acts -/
def Sys.answer (p : Plan) (s : Sys) (c : Nat) (x : Choice) : Option Resp :=
  if c ∈ p.workers.map (·.id) then
    (request c (p.coll c) x (s.loc c).phase).map (fun q => (Par.step p.cfg s.srv q).1)
  else none

/-- an action in which a worker gets on: it does a request, and is not told to wait -/
def Act.advances (p : Plan) (s : Sys) : Act → Bool
  | .act c x => match s.answer p c x with
    | none => false
    | some .waiting => false
    | some _ => true
  | _ => false

theorem receive_weight (p : Plan) {s : Sys} (hs : SInv p s) {c : Nat} {x : Choice} {q : Req} (hc : c ∈ p.workers.map (·.id))
    (hr : request c (p.coll c) x (s.loc c).phase = some q) (hw : (step p.cfg s.srv q).1 ≠ .waiting) :
    (receive p.sigs (p.coll c) x (s.loc c) (step p.cfg s.srv q).1).phase.weight + 2 * (step p.cfg s.srv q).2.unstarted.length + 1 ≤
      (s.loc c).phase.weight + 2 * s.srv.unstarted.length := by
  have hu := unstarted_length p.cfg s.srv q
  cases hph : (s.loc c).phase with
  | fresh =>
    rw [hph] at hr; simp only [request, Option.some.injEq] at hr; subst hr
    have hserve := hs.serving hc (by rw [hph]; rfl)
    have hresp : (Par.step p.cfg s.srv (.connect c x.hookOk)).1 = if x.hookOk then .ok else .fault := by
      rw [step_serving _ hserve]; exact (connect_view p.cfg c x.hookOk s.srv).2.2.2
    rw [hresp]
    simp only [receive, hph]
    cases hk : x.hookOk <;> rw [hk] at hu <;> simp [WPhase.weight] <;> omega
  | connected =>
    rw [hph] at hr; simp only [request, Option.some.injEq] at hr; subst hr
    have hserve := hs.serving hc (by rw [hph]; rfl)
    have hresp : (Par.step p.cfg s.srv (.validate c (sorted (p.coll c)))).1 = .bool (decide (sorted (p.coll c) = p.cfg.coll)) := by
      rw [step_serving _ hserve]; exact (validate_view p.cfg _ s.srv).2.2.2
    rw [hresp]
    simp only [receive, hph]
    cases decide (sorted (p.coll c) = p.cfg.coll) <;> simp [WPhase.weight] <;> omega
  | loop =>
    rw [hph] at hr; simp only [request, Option.some.injEq] at hr; subst hr
    have hserve := hs.serving hc (by rw [hph]; rfl)
    have hstep : Par.step p.cfg s.srv (.getTest c x.hookOk) = getTest p.cfg c x.hookOk s.srv := step_serving _ hserve
    obtain ⟨g1, g2⟩ := hs.known c none (by rw [hph]; rfl)
    have v4 := getTest_idle p.cfg c x.hookOk s.srv g1
    rw [← hstep] at v4
    rcases v4 with e | e | e | ⟨i, e⟩
    · rw [e]; simp only [receive, hph, WPhase.weight]; omega
    · exact absurd e hw
    · rw [e]; simp only [receive, hph, WPhase.weight]; omega
    · have hlt : (Par.step p.cfg s.srv (.getTest c x.hookOk)).2.unstarted.length + 1 = s.srv.unstarted.length := by
        rcases step_hand p.cfg s.srv (.getTest c x.hookOk) with ⟨_, -, -, h3⟩ | ⟨_, -, -, h3⟩ | ⟨c', i', _, h1, h2, hm, -⟩
        · exact absurd e (h3 i)
        · exact absurd e (h3 i)
        · rw [h2, List.length_erase_of_mem hm]
          have := List.length_pos_of_mem hm
          omega
      rw [e]
      simp only [receive, hph]
      split
      · simp only [WPhase.weight]; omega
      · split
        · simp only [WPhase.weight]; omega
        · simp only [WPhase.weight]; omega
  | running i j =>
    rw [hph] at hr; simp only [request, Option.some.injEq] at hr; subst hr
    have hserve := hs.serving hc (by rw [hph]; rfl)
    have hstep : Par.step p.cfg s.srv (.finished c x.res) = finishedTest p.cfg c x.res s.srv := step_serving _ hserve
    obtain ⟨g1, g2⟩ := hs.known c (some i) (by rw [hph]; rfl)
    obtain ⟨v4, v5⟩ := finished_busy hs.inv c i x.res g1 g2
    rw [← hstep] at v4
    rw [v4]
    simp only [receive, hph, WPhase.weight]; omega
  | ending =>
    rw [hph] at hr; simp only [request, Option.some.injEq] at hr; subst hr
    have hserve := hs.serving hc (by rw [hph]; rfl)
    obtain ⟨g1, g2⟩ := hs.known c none (by rw [hph]; rfl)
    have hresp : (Par.step p.cfg s.srv (.disconnect c false)).1 = .ok := by rw [step_serving _ hserve]; simp [g2]
    rw [hresp]
    simp only [receive, hph, WPhase.weight]; omega
  | leaving =>
    rw [hph] at hr; simp only [request, Option.some.injEq] at hr; subst hr
    have hserve := hs.serving hc (by rw [hph]; rfl)
    obtain ⟨g1, g2⟩ := hs.known c none (by rw [hph]; rfl)
    have hresp : (Par.step p.cfg s.srv (.disconnect c true)).1 = .ok := by rw [step_serving _ hserve]; simp [g2]
    rw [hresp]
    simp only [receive, hph, WPhase.weight]; omega
  | gone => rw [hph] at hr; cases hr
  | dead => rw [hph] at hr; cases hr

theorem waiting_same {p : Plan} {s : Sys} (hs : SInv p s) {c : Nat} {x : Choice} {q : Req} (hc : c ∈ p.workers.map (·.id))
    (hr : request c (p.coll c) x (s.loc c).phase = some q) (hw : (step p.cfg s.srv q).1 = .waiting) :
    receive p.sigs (p.coll c) x (s.loc c) (step p.cfg s.srv q).1 = s.loc c ∧ (s.loc c).phase = .loop := by
  cases hph : (s.loc c).phase with
  | loop => rw [hw]; simp only [receive, hph]; simp
  | fresh =>
    rw [hph] at hr; simp only [request, Option.some.injEq] at hr; subst hr
    have hserve := hs.serving hc (by rw [hph]; rfl)
    rw [step_serving _ hserve] at hw
    simp only at hw
    rw [(connect_view p.cfg c x.hookOk s.srv).2.2.2] at hw
    split at hw <;> cases hw
  | connected =>
    rw [hph] at hr; simp only [request, Option.some.injEq] at hr; subst hr
    have hserve := hs.serving hc (by rw [hph]; rfl)
    rw [step_serving _ hserve] at hw
    simp only at hw
    rw [(validate_view p.cfg _ s.srv).2.2.2] at hw
    cases hw
  | running i j =>
    rw [hph] at hr; simp only [request, Option.some.injEq] at hr; subst hr
    have hserve := hs.serving hc (by rw [hph]; rfl)
    obtain ⟨g1, g2⟩ := hs.known c (some i) (by rw [hph]; rfl)
    rw [step_serving _ hserve] at hw
    simp only at hw
    rw [(finished_busy hs.inv c i x.res g1 g2).1] at hw
    cases hw
  | ending =>
    rw [hph] at hr; simp only [request, Option.some.injEq] at hr; subst hr
    have hserve := hs.serving hc (by rw [hph]; rfl)
    obtain ⟨g1, g2⟩ := hs.known c none (by rw [hph]; rfl)
    rw [step_serving _ hserve] at hw
    simp [g2] at hw
  | leaving =>
    rw [hph] at hr; simp only [request, Option.some.injEq] at hr; subst hr
    have hserve := hs.serving hc (by rw [hph]; rfl)
    obtain ⟨g1, g2⟩ := hs.known c none (by rw [hph]; rfl)
    rw [step_serving _ hserve] at hw
    simp [g2] at hw
  | gone => rw [hph] at hr; cases hr
  | dead => rw [hph] at hr; cases hr

theorem potential_step {p : Plan} {s : Sys} (hs : SInv p s) (hn : (p.workers.map (·.id)).Nodup) (a : Act) :
    (s.step p a).potential p + (if a.advances p s then 1 else 0) ≤ s.potential p := by
  have other : a.advances p s = false → (∀ d, ((s.step p a).loc d).phase.weight ≤ (s.loc d).phase.weight) →
      (s.step p a).srv.unstarted.length ≤ s.srv.unstarted.length →
      (s.step p a).potential p + (if a.advances p s then 1 else 0) ≤ s.potential p := by
    intro h1 h2 h3
    rw [h1]
    have := weights_le (ws := p.workers) h2
    simp only [Sys.potential, Bool.false_eq_true, if_false]
    omega
  cases a with
  | act c x =>
    by_cases hc : c ∈ p.workers.map (·.id)
    · cases hr : request c (p.coll c) x (s.loc c).phase with
      | none =>
        have hans : (Act.act c x).advances p s = false := by simp [Act.advances, Sys.answer, hc, hr]
        have hst : s.step p (.act c x) = s := by simp [Sys.step, hc, hr]
        exact other hans (fun d => by rw [hst]; exact Nat.le_refl _) (by rw [hst]; exact Nat.le_refl _)
      | some q =>
        have hst : s.step p (.act c x) = (s.ask p q).2.set c (receive p.sigs (p.coll c) x (s.loc c) (step p.cfg s.srv q).1) := by
          simp only [Sys.step, hc, if_true, hr]; rfl
        by_cases hw : (step p.cfg s.srv q).1 = .waiting
        · have hans : (Act.act c x).advances p s = false := by simp [Act.advances, Sys.answer, hc, hr, hw]
          refine other hans (fun d => ?_) ?_
          · rw [hst, loc_set]
            split
            · rename_i e; rw [e, (waiting_same hs hc hr hw).1]; exact Nat.le_refl _
            · exact Nat.le_refl _
          · rw [hst]; exact unstarted_length _ _ _
        · have hans : (Act.act c x).advances p s = true := by
            simp only [Act.advances, Sys.answer, hc, if_true, hr, Option.map_some]
          have h1 := receive_weight p hs hc hr hw
          have h2 := weights_set (f := s.loc) (g := (s.step p (.act c x)).loc) hc hn (fun d hd => by rw [hst, loc_set, if_neg hd]; rfl)
          have h3 : (s.step p (.act c x)).loc c = receive p.sigs (p.coll c) x (s.loc c) (step p.cfg s.srv q).1 := by
            rw [hst, loc_set, if_pos rfl]
          have h4 : (s.step p (.act c x)).srv = (step p.cfg s.srv q).2 := by rw [hst]; rfl
          rw [h3] at h2
          simp only [Sys.potential, hans, if_true, h4]
          omega
    · have hans : (Act.act c x).advances p s = false := by simp [Act.advances, Sys.answer, hc]
      have hst : s.step p (.act c x) = s := by simp [Sys.step, hc]
      exact other hans (fun d => by rw [hst]; exact Nat.le_refl _) (by rw [hst]; exact Nat.le_refl _)
  | die c =>
    refine other rfl (fun d => ?_) ?_
    · simp only [Sys.step]
      split
      · exact Nat.le_refl _
      · rw [loc_set]
        split
        · exact Nat.zero_le _
        · exact Nat.le_refl _
    · simp only [Sys.step]; split <;> exact Nat.le_refl _
  | keepAlive c =>
    refine other rfl (fun d => ?_) ?_
    · simp only [Sys.step]
      split
      · exact Nat.le_refl _
      · rw [loc_set]
        split
        · rename_i e; subst e; exact Nat.le_refl _
        · exact Nat.le_refl _
    · simp only [Sys.step]; split <;> exact Nat.le_refl _
  | report c =>
    refine other rfl (fun d => ?_) ?_
    · simp only [Sys.step]; split <;> exact Nat.le_refl _
    · simp only [Sys.step]; split
      · exact unstarted_length _ _ _
      · exact Nat.le_refl _
  | interrupt => exact other rfl (fun d => Nat.le_refl _) (unstarted_length _ _ _)
  | giveUp => exact other rfl (fun d => Nat.le_refl _) (unstarted_length _ _ _)
  | stop =>
    refine other rfl (fun d => ?_) ?_
    · simp only [Sys.step]; split <;> exact Nat.le_refl _
    · simp only [Sys.step]; split
      · exact unstarted_length _ _ _
      · exact Nat.le_refl _
  | problem c => exact other rfl (fun d => Nat.le_refl _) (unstarted_length _ _ _)
  | exclude c i => exact other rfl (fun d => Nat.le_refl _) (unstarted_length _ _ _)
  | force c i => exact other rfl (fun d => Nat.le_refl _) (unstarted_length _ _ _)

/-- the number of actions of an execution in which a worker gets on -/
def advancing (p : Plan) : List Act → Sys → Nat
  | [], _ => 0
  | a :: as, s => (if a.advances p s then 1 else 0) + advancing p as (s.step p a)

theorem advancing_le {p : Plan} (hn : (p.workers.map (·.id)).Nodup) (as : List Act) (s : Sys) (hs : SInv p s) :
    advancing p as s ≤ s.potential p := by
  induction as generalizing s with
  | nil => exact Nat.zero_le _
  | cons a as ih =>
    simp only [advancing]
    have h1 := ih _ (hs.step a)
    have h2 := potential_step hs hn a
    omega

end Slash.Par
