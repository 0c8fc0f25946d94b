import Verif.Lemmas.Worker
import Verif.Lemmas.Util
/-! Lemmas on the tests workers run in a parallel run. -/
namespace Slash.Par

/-! ## Sorting -/

theorem insertSorted_perm (x : Nat) (l : List Nat) : (insertSorted x l).Perm (x :: l) := by
  induction l with
  | nil => exact .refl _
  | cons y l ih =>
    simp only [insertSorted]
    split
    · exact .refl _
    · exact (ih.cons y).trans (.swap x y l)

theorem sorted_perm (l : List Nat) : (sorted l).Perm l := by
  induction l with
  | nil => exact .refl _
  | cons x l ih => exact (insertSorted_perm x _).trans (ih.cons x)

theorem insertSorted_swap (x y : Nat) (l : List Nat) : insertSorted x (insertSorted y l) = insertSorted y (insertSorted x l) := by
  induction l with
  | nil =>
    simp only [insertSorted]
    split <;> split
    · have : x = y := by omega
      subst this; rfl
    · rfl
    · rfl
    · omega
  | cons z l ih =>
    simp only [insertSorted]
    by_cases h1 : y ≤ z <;> by_cases h2 : x ≤ z
    · simp only [h1, h2, if_true, insertSorted]
      split <;> split
      · have : x = y := by omega
        subst this; rfl
      · rfl
      · rfl
      · omega
    · simp only [h1, h2, if_true, if_false, insertSorted]
      have : ¬ x ≤ y := by omega
      simp [this]
    · simp only [h1, h2, if_true, if_false, insertSorted]
      have : ¬ y ≤ x := by omega
      simp [this]
    · simp only [h1, h2, if_false, insertSorted, ih]

/-- the order of the tests does not matter -/
theorem sorted_eq_of_perm {l m : List Nat} (h : l.Perm m) : sorted l = sorted m := by
  induction h with
  | nil => rfl
  | cons x _ ih => simp only [sorted, ih]
  | swap x y l => simp only [sorted]; exact insertSorted_swap _ _ _
  | trans _ _ ih1 ih2 => exact ih1.trans ih2

theorem perm_of_sorted_eq {l m : List Nat} (h : sorted l = sorted m) : l.Perm m :=
  (sorted_perm l).symm.trans (h ▸ sorted_perm m)

/-! ## Actions -/

/-- what an action does -/
inductive Moved (p : Plan) (s s' : Sys) : Prop where
  | loc : s'.srv = s.srv → s'.hist = s.hist →
      (∀ d, s'.loc d = s.loc d ∨ s'.loc d = { s.loc d with heard := true } ∨
        (s'.loc d = { s.loc d with phase := .dead } ∧ (s.loc d).phase ≠ .gone)) → Moved p s s'
  | asked (q : Req) : s'.srv = (step p.cfg s.srv q).2 → s'.hist = s.hist ++ [q] → s'.loc = s.loc →
      (∀ c b, q ≠ .disconnect c b) → (∀ c b, q ≠ .connect c b) → (∀ c r, q ≠ .finished c r) → (∀ c r, q ≠ .getTest c r) →
      (∀ c r, q ≠ .validate c r) →
      (q = .stopServe → ∀ w ∈ p.workers, (s.loc w.id).phase.over = true) →
      (∀ c, q = .clientFailure c → (s.loc c).phase = .dead ∧ c ∈ s.srv.connected) → Moved p s s'
  | acted (c : Nat) (x : Choice) (q : Req) : c ∈ p.workers.map (·.id) → request c (p.coll c) x (s.loc c).phase = some q →
      s'.srv = (step p.cfg s.srv q).2 → s'.hist = s.hist ++ [q] →
      s'.loc = (fun d => if d = c then receive p.sigs (p.coll c) x (s.loc c) (step p.cfg s.srv q).1 else s.loc d) → Moved p s s'

theorem moved (p : Plan) (s : Sys) (a : Act) : Moved p s (s.step p a) := by
  have same : Moved p s s := .loc rfl rfl (fun d => .inl rfl)
  cases a with
  | act c x =>
    simp only [Sys.step]
    split
    · rename_i hc
      cases hr : request c (p.coll c) x (s.loc c).phase with
      | none => exact same
      | some q => exact .acted c x q hc hr rfl rfl rfl
    · exact same
  | die c =>
    simp only [Sys.step]
    split
    · exact same
    · rename_i hg
      refine .loc rfl rfl (fun d => ?_)
      rw [loc_set]
      split
      · rename_i e; subst e; exact .inr (.inr ⟨rfl, hg⟩)
      · exact .inl rfl
  | keepAlive c =>
    simp only [Sys.step]
    split
    · exact same
    · refine .loc rfl rfl (fun d => ?_)
      rw [loc_set]
      split
      · rename_i e; subst e; exact .inr (.inl rfl)
      · exact .inl rfl
  | report c =>
    simp only [Sys.step]
    split
    · rename_i hr
      refine .asked (.clientFailure c) rfl rfl rfl (by simp) (by simp) (by simp) (by simp) (by simp) (by simp) ?_
      intro d e; cases e; exact ⟨hr.1, hr.2.2⟩
    · exact same
  | interrupt => exact .asked .interrupted rfl rfl rfl (by simp) (by simp) (by simp) (by simp) (by simp) (by simp) (by simp)
  | giveUp => exact .asked .sessionError rfl rfl rfl (by simp) (by simp) (by simp) (by simp) (by simp) (by simp) (by simp)
  | stop =>
    simp only [Sys.step]
    split
    · rename_i hs
      exact .asked .stopServe rfl rfl rfl (by simp) (by simp) (by simp) (by simp) (by simp)
        (fun _ w hw => List.all_eq_true.1 hs.1 w hw) (by simp)
    · exact same
  | problem c => exact .asked .sessionError rfl rfl rfl (by simp) (by simp) (by simp) (by simp) (by simp) (by simp) (by simp)
  | exclude c i => exact .asked (.exclude c i) rfl rfl rfl (by simp) (by simp) (by simp) (by simp) (by simp) (by simp) (by simp)
  | force c i => exact .asked (.force c i) rfl rfl rfl (by simp) (by simp) (by simp) (by simp) (by simp) (by simp) (by simp)

/-! ## Results are kept -/

theorem markUnrun_results (st : St) : st.results ⊆ (markUnrun st).2.results := by
  unfold markUnrun
  obtain ⟨k, hk, -⟩ := markUnrunLoop_frame st.unstarted st
  rcases hm : markUnrunLoop st.unstarted st with ⟨b, st'⟩
  rw [hm] at hk
  simp only at hk
  cases b <;> (simp only; rw [hk]; exact List.subset_append_left _ _)

theorem step_results (cfg : Cfg) (st : St) (q : Req) : st.results ⊆ (step cfg st q).2.results := by
  have refl : st.results ⊆ st.results := fun _ h => h
  unfold step
  split
  · exact refl
  · cases q with
    | connect c k =>
      simp only [connect]
      cases k
      · simp only [Bool.not_false, if_true]; split <;> exact refl
      · simp only [Bool.not_true, Bool.false_eq_true, if_false]
        split <;> split <;> exact refl
    | validate c coll =>
      simp only [validate]
      split
      · exact refl
      · simp only; split <;> exact refl
    | getTest c k =>
      simp only [getTest]
      split
      · exact refl
      · exact refl
      · split
        · exact refl
        · split
          · exact refl
          · split
            · split
              · exact refl
              · exact refl
              · cases k <;> exact refl
            · exact refl
    | finished c r =>
      simp only [finishedTest]
      split
      · cases hc : createResult _ _ _ with
        | none => exact refl
        | some st1 =>
          obtain ⟨h1, -⟩ := createResult_some hc
          have h2 : st.results ⊆ st1.results := by rw [h1]; exact List.subset_append_left _ _
          simp only
          split
          · have h3 := markUnrun_results { st1 with phase := .stopTests }
            rcases hm : markUnrun { st1 with phase := .stopTests } with ⟨b, st2⟩
            rw [hm] at h3
            cases b <;> exact fun _ h => h3 (h2 h)
          · exact h2
      · exact refl
    | clientFailure c =>
      simp only [clientFailure]
      split
      · exact refl
      · have key : ∀ st1 : St, st1.results ⊆ (match markUnrun { st1 with phase := .stopTests } with
              | (true, st) => (Resp.ok, { st with workerError := true })
              | (false, st) => (.fault, st)).2.results := by
          intro st1
          have h3 := markUnrun_results { st1 with phase := .stopTests }
          rcases hm : markUnrun { st1 with phase := .stopTests } with ⟨b, st2⟩
          rw [hm] at h3
          cases b <;> exact h3
        split
        · cases hc : createResult _ _ _ with
          | none => exact refl
          | some st1 =>
            obtain ⟨h1, -⟩ := createResult_some hc
            have h2 : st.results ⊆ st1.results := by rw [h1]; exact List.subset_append_left _ _
            rename_i i _
            exact fun _ h => key { st1 with finished := st1.finished ++ [i], failed := (c, i) :: st1.failed } (h2 h)
        · exact key { st with connected := st.connected.erase c }
    | disconnect c f =>
      simp only
      split
      · exact refl
      · simp only; split <;> exact refl
    | _ => exact refl

theorem step_handed (cfg : Cfg) (st : St) (q : Req) : st.handed.Sublist (step cfg st q).2.handed := by
  rcases step_hand cfg st q with ⟨_, h1, -, -⟩ | ⟨_, h1, -, -⟩ | ⟨c, i, _, h1, -, -, -⟩
  · rw [h1]; exact List.Sublist.refl _
  · rw [h1]; exact List.Sublist.refl _
  · rw [h1]; exact List.sublist_append_left _ _

/-! ## Finding the test to run -/

/-- indices with a given signature, counted -/
theorem count_indices (l I : List Nat) (sig : Nat) (hn : I.Nodup) (hl : ∀ i ∈ I, i < l.length) :
    (I.map (fun i => l.getD i 0)).count sig ≤ l.count sig := by
  have h1 : ∀ J : List Nat, (J.map (fun i => l.getD i 0)).count sig = (J.filter (fun i => l.getD i 0 == sig)).length := by
    intro J
    rw [List.count_eq_countP, List.countP_map, List.countP_eq_length_filter]
    rfl
  have h2 : (List.range l.length).map (fun i => l.getD i 0) = l := by
    apply List.ext_getElem?
    intro i
    rw [List.getElem?_map]
    by_cases hi : i < l.length
    · rw [List.getElem?_range hi, List.getElem?_eq_getElem hi]
      simp [List.getD, hi]
    · rw [List.getElem?_eq_none (by simpa using hi), List.getElem?_eq_none (by simpa using hi)]; rfl
  have h3 := h1 (List.range l.length)
  rw [h2] at h3
  rw [h1 I, h3]
  refine nodup_subset_length ((List.filter_sublist).nodup hn) ?_
  intro i hi
  rw [List.mem_filter] at hi ⊢
  exact ⟨List.mem_range.2 (hl i hi.1), hi.2⟩

theorem popSig_some {sig pick : Nat} {avail : List (Nat × Nat)} (h : 0 < (avail.map (·.1)).count sig) :
    ∃ j, popSig sig pick avail = some (j, avail.erase (sig, j)) ∧ (sig, j) ∈ avail := by
  have hl : 0 < (avail.filter (·.1 == sig)).length := by
    rw [List.count_eq_countP, List.countP_map, List.countP_eq_length_filter] at h
    exact h
  have hlt : pick % (avail.filter (·.1 == sig)).length < (avail.filter (·.1 == sig)).length := Nat.mod_lt _ hl
  unfold popSig
  rw [List.getElem?_eq_getElem hlt]
  simp only
  have hm := List.getElem_mem hlt
  generalize (avail.filter (·.1 == sig))[pick % (avail.filter (·.1 == sig)).length] = q at hm
  rw [List.mem_filter] at hm
  obtain ⟨s, j⟩ := q
  simp only [beq_iff_eq] at hm
  obtain ⟨h1, rfl⟩ := hm
  exact ⟨j, rfl, h1⟩

/-- the test a worker started, as it knows it -/
def own (p : Plan) (q : Nat × Nat) : Nat × Nat := (p.sigs.getD q.1 0, q.2)

/-- what holds for the tests of a worker -/
structure TW (p : Plan) (srv : St) (c : Nat) (w : W) : Prop where
  start : w.phase = .fresh ∨ w.phase = .connected ∨ w.phase = .leaving → w.ran = [] ∧ w.sent = []
  own : (w.ran = [] ∧ w.sent = []) ∨
    (sorted (p.coll c) = sorted p.sigs ∧ (w.avail ++ w.ran.map (own p)).Perm (signatures (p.coll c)))
  loop : (w.phase = .loop ∨ ∃ i j, w.phase = .running i j) →
    sorted (p.coll c) = sorted p.sigs ∧ (w.avail ++ w.ran.map (Par.own p)).Perm (signatures (p.coll c))
  handed : (w.ran.map (fun q => (c, q.1))).Sublist srv.handed
  sent : ∀ i r, (i, r) ∈ w.sent → (i, .ran r) ∈ srv.results
  running : ∀ i j, w.phase = .running i j → w.ran.map (·.1) = w.sent.map (·.1) ++ [i] ∧ w.ran.getLast? = some (i, j)
  idle : w.phase ≠ .dead → (∀ i j, w.phase ≠ .running i j) → w.ran.map (·.1) = w.sent.map (·.1)
  dead : w.ran.map (·.1) = w.sent.map (·.1) ∨ ∃ i, w.ran.map (·.1) = w.sent.map (·.1) ++ [i]

theorem TW.init (p : Plan) (srv : St) (c : Nat) : TW p srv c {} where
  start := fun _ => ⟨rfl, rfl⟩
  own := .inl ⟨rfl, rfl⟩
  loop := fun h => by rcases h with h | ⟨i, j, h⟩ <;> cases h
  handed := List.nil_sublist _
  sent := fun i r h => by cases h
  running := fun i j h => by cases h
  idle := fun _ _ => rfl
  dead := .inl rfl

/-- the server goes on -/
theorem TW.mono {p : Plan} {srv srv' : St} {c : Nat} {w : W} (h : TW p srv c w) (h1 : srv.handed.Sublist srv'.handed)
    (h2 : srv.results ⊆ srv'.results) : TW p srv' c w :=
  ⟨h.start, h.own, h.loop, h.handed.trans h1, fun i r hm => h2 (h.sent i r hm), h.running, h.idle, h.dead⟩

theorem TW.step {p : Plan} {srv : St} {c : Nat} {w : W} (h : TW p srv c w) (q : Req) : TW p (step p.cfg srv q).2 c w :=
  h.mono (step_handed _ _ _) (step_results _ _ _)

theorem TW.die {p : Plan} {srv : St} {c : Nat} {w : W} (h : TW p srv c w) : TW p srv c { w with phase := .dead } :=
  ⟨fun e => (by rcases e with e | e | e <;> cases e), h.own, fun e => (by rcases e with e | ⟨i, j, e⟩ <;> cases e), h.handed, h.sent,
   fun i j e => (by cases e), fun e => absurd rfl e, h.dead⟩

/-- between requests, no test running -/
theorem TW.move {p : Plan} {srv : St} {c : Nat} {w : W} (h : TW p srv c w) (ph : WPhase)
    (hi : w.ran.map (·.1) = w.sent.map (·.1))
    (h1 : ph = .fresh ∨ ph = .connected ∨ ph = .leaving → w.ran = [] ∧ w.sent = [])
    (h2 : ph ≠ .loop) (h3 : ∀ i j, ph ≠ .running i j) : TW p srv c { w with phase := ph } :=
  ⟨h1, h.own, fun e => e.elim (fun e => absurd e h2) (fun ⟨i, j, e⟩ => absurd e (h3 i j)), h.handed, h.sent,
   fun i j e => absurd e (h3 i j), fun _ _ => hi, .inl hi⟩

/-- what holds for the tests of the workers -/
def TInv (p : Plan) (s : Sys) : Prop := ∀ c, TW p s.srv c (s.loc c)

/-- the tests a worker started are different tests of the parent -/
theorem TInv.ran_nodup {p : Plan} {s : Sys} (hs : SInv p s) (h : TInv p s) (c : Nat) :
    ((s.loc c).ran.map (·.1)).Nodup ∧ ∀ i ∈ (s.loc c).ran.map (·.1), i < p.sigs.length ∧ i ∉ s.srv.unstarted := by
  have hn := nodup_hand p.cfg p.workers s.hist
  rw [← hs.srv] at hn
  have hsub : ((s.loc c).ran.map (·.1)).Sublist (s.srv.handed.map (·.2)) := by
    have := (h c).handed.map (·.2)
    rwa [List.map_map] at this
  refine ⟨hsub.nodup (List.nodup_append.1 hn.1).1, fun i hi => ⟨hn.2 i (List.mem_append_left _ (hsub.subset hi)), fun hu => ?_⟩⟩
  exact (List.nodup_append.1 hn.1).2.2 i (hsub.subset hi) i hu rfl

/-- a worker given a test finds one with the same signature -/
theorem TInv.pop {p : Plan} {s : Sys} (hs : SInv p s) (h : TInv p s) {c i : Nat} (pick : Nat) (hl : (s.loc c).phase = .loop)
    (hi : i ∈ s.srv.unstarted) :
    ∃ sig j, p.sigs[i]? = some sig ∧ popSig sig pick (s.loc c).avail = some (j, (s.loc c).avail.erase (sig, j)) ∧ (sig, j) ∈ (s.loc c).avail := by
  have hn := nodup_hand p.cfg p.workers s.hist
  rw [← hs.srv] at hn
  have hin : i < p.sigs.length := hn.2 i (List.mem_append_right _ hi)
  obtain ⟨r1, r2⟩ := h.ran_nodup hs c
  obtain ⟨o1, o2⟩ := (h c).loop (.inl hl)
  refine ⟨p.sigs[i], ?_⟩
  have hpos : 0 < ((s.loc c).avail.map (·.1)).count p.sigs[i] := by
    have hcnt := count_indices p.sigs (i :: (s.loc c).ran.map (·.1)) p.sigs[i]
      (List.nodup_cons.2 ⟨fun hm => (r2 i hm).2 hi, r1⟩)
      (fun j hj => by
        rcases List.mem_cons.1 hj with rfl | hj
        · exact hin
        · exact (r2 j hj).1)
    have hg : p.sigs.getD i 0 = p.sigs[i] := by simp [List.getD, hin]
    simp only [List.map_cons, hg, List.count_cons_self] at hcnt
    have hp := ((o2.map (·.1)).count_eq p.sigs[i])
    rw [List.map_append, List.count_append, signatures, List.zipIdx_map_fst, (perm_of_sorted_eq o1).count_eq] at hp
    have he : ((s.loc c).ran.map (Par.own p)).map (·.1) = ((s.loc c).ran.map (·.1)).map (fun i => p.sigs.getD i 0) := by
      simp [Par.own, Function.comp_def]
    rw [he] at hp
    omega
  obtain ⟨j, h1, h2⟩ := popSig_some (pick := pick) hpos
  exact ⟨j, List.getElem?_eq_getElem hin, h1, h2⟩

theorem TInv.act {p : Plan} {s : Sys} (hs : SInv p s) (h : TInv p s) {c : Nat} {x : Choice} {q : Req}
    (hc : c ∈ p.workers.map (·.id)) (hr : request c (p.coll c) x (s.loc c).phase = some q) :
    TW p (step p.cfg s.srv q).2 c (receive p.sigs (p.coll c) x (s.loc c) (step p.cfg s.srv q).1) := by
  have hw := h c
  have hw' := hw.step q
  cases hph : (s.loc c).phase with
  | fresh =>
    rw [hph] at hr; simp only [request, Option.some.injEq] at hr; subst hr
    have hserve := hs.serving hc (by rw [hph]; rfl)
    obtain ⟨-, -, -, v4⟩ := connect_view p.cfg c x.hookOk s.srv
    have hstep : Par.step p.cfg s.srv (.connect c x.hookOk) = connect p.cfg c x.hookOk s.srv := step_serving _ hserve
    have e1 := hw.start (.inl hph)
    have hresp : (Par.step p.cfg s.srv (.connect c x.hookOk)).1 = if x.hookOk then .ok else .fault := by rw [hstep, v4]
    rw [hresp]
    simp only [receive, hph]
    cases hk : x.hookOk <;> rw [hk] at hw'
    · exact hw'.die
    · exact hw'.move .connected (by rw [e1.1, e1.2]; rfl) (fun _ => e1) (by simp) (by simp)
  | connected =>
    rw [hph] at hr; simp only [request, Option.some.injEq] at hr; subst hr
    have hserve := hs.serving hc (by rw [hph]; rfl)
    obtain ⟨-, -, -, v4⟩ := validate_view p.cfg (sorted (p.coll c)) s.srv
    have hstep : Par.step p.cfg s.srv (.validate c (sorted (p.coll c))) = validate p.cfg (sorted (p.coll c)) s.srv := step_serving _ hserve
    have e1 := hw.start (.inr (.inl hph))
    have hresp : (Par.step p.cfg s.srv (.validate c (sorted (p.coll c)))).1 = .bool (decide (sorted (p.coll c) = p.cfg.coll)) := by rw [hstep, v4]
    rw [hresp]
    simp only [receive, hph]
    cases hk : decide (sorted (p.coll c) = p.cfg.coll)
    · exact hw'.move .leaving (by rw [e1.1, e1.2]; rfl) (fun _ => e1) (by simp) (by simp)
    · have hk : sorted (p.coll c) = sorted p.sigs := of_decide_eq_true hk
      have hown : sorted (p.coll c) = sorted p.sigs ∧ (signatures (p.coll c) ++ (s.loc c).ran.map (Par.own p)).Perm (signatures (p.coll c)) :=
        ⟨hk, by rw [e1.1]; simp⟩
      exact ⟨fun e => (by rcases e with e | e | e <;> cases e), .inr hown, fun _ => hown, hw'.handed, hw'.sent,
        fun i j e => (by cases e), fun _ _ => (by simp [e1.1, e1.2]), .inl (by simp [e1.1, e1.2])⟩
  | loop =>
    rw [hph] at hr; simp only [request, Option.some.injEq] at hr; subst hr
    have hserve := hs.serving hc (by rw [hph]; rfl)
    have hstep : Par.step p.cfg s.srv (.getTest c x.hookOk) = getTest p.cfg c x.hookOk s.srv := step_serving _ hserve
    obtain ⟨k1, k2⟩ := hs.known c none (by rw [hph]; rfl)
    have v4 := getTest_idle p.cfg c x.hookOk s.srv k1
    rw [← hstep] at v4
    have hidle := hw.idle (by rw [hph]; simp) (by rw [hph]; simp)
    rcases v4 with e | e | e | ⟨i, e⟩
    · rw [e]; simp only [receive, hph]
      exact hw'.move .ending hidle (by simp) (by simp) (by simp)
    · rw [e]; simp only [receive, hph]; exact hw'
    · rw [e]; simp only [receive, hph]; exact hw'.die
    · obtain ⟨c', hq, -, -, hi, -, hh⟩ := step_test e
      obtain ⟨sig, j, g1, g2, g3⟩ := h.pop hs x.pick hph hi
      simp only [Req.getTest.injEq] at hq
      obtain ⟨rfl, hq⟩ := hq
      rw [e]
      simp only [receive, hph, g1, g2]
      have hgd : p.sigs.getD i 0 = sig := by simp [List.getD, g1]
      obtain ⟨o1, o2⟩ := hw.loop (.inl hph)
      have hown : sorted (p.coll c) = sorted p.sigs ∧ ((s.loc c).avail.erase (sig, j) ++ ((s.loc c).ran ++ [(i, j)]).map (Par.own p)).Perm
          (signatures (p.coll c)) := by
        refine ⟨o1, List.Perm.trans ?_ o2⟩
        rw [List.map_append, List.map_cons, List.map_nil]
        have : Par.own p (i, j) = (sig, j) := by simp only [Par.own]; rw [hgd]
        rw [this, ← List.append_assoc]
        refine List.perm_append_comm.trans ?_
        simp only [List.singleton_append]
        rw [← List.cons_append]
        exact (List.perm_cons_erase g3).symm.append_right _
      refine ⟨fun e => (by rcases e with e | e | e <;> cases e), .inr hown, fun _ => hown, ?_, hw'.sent, ?_, ?_, ?_⟩
      · rw [hh]
        simp only [List.map_append, List.map_cons, List.map_nil]
        exact hw.handed.append (List.Sublist.refl _)
      · intro i' j' e'
        simp only [WPhase.running.injEq] at e'
        obtain ⟨rfl, rfl⟩ := e'
        exact ⟨by simp [hidle], by simp⟩
      · intro _ e'
        exact absurd rfl (e' i j)
      · exact .inr ⟨i, by simp [hidle]⟩
  | running i j =>
    rw [hph] at hr; simp only [request, Option.some.injEq] at hr; subst hr
    have hserve := hs.serving hc (by rw [hph]; rfl)
    have hstep : Par.step p.cfg s.srv (.finished c x.res) = finishedTest p.cfg c x.res s.srv := step_serving _ hserve
    obtain ⟨k1, k2⟩ := hs.known c (some i) (by rw [hph]; rfl)
    obtain ⟨v4, v5⟩ := finished_busy hs.inv c i x.res k1 k2
    rw [← hstep] at v4 v5
    obtain ⟨r1, r2⟩ := hw.running i j hph
    rw [v4]
    simp only [receive, hph]
    have hown := hw.loop (.inr ⟨i, j, hph⟩)
    refine ⟨fun e => (by rcases e with e | e | e <;> cases e), .inr hown, fun _ => hown, hw'.handed, ?_, fun i j e => (by cases e), ?_, ?_⟩
    · intro i' r hm
      rcases List.mem_append.1 hm with hm | hm
      · exact hw'.sent i' r hm
      · simp only [List.mem_singleton, Prod.mk.injEq] at hm
        obtain ⟨rfl, rfl⟩ := hm
        exact v5
    · intro _ _; simp [r1]
    · exact .inl (by simp [r1])
  | ending =>
    rw [hph] at hr; simp only [request, Option.some.injEq] at hr; subst hr
    have hserve := hs.serving hc (by rw [hph]; rfl)
    obtain ⟨k1, k2⟩ := hs.known c none (by rw [hph]; rfl)
    have hresp : (Par.step p.cfg s.srv (.disconnect c false)).1 = .ok := by rw [step_serving _ hserve]; simp [k2]
    rw [hresp]
    simp only [receive, hph]
    exact hw'.move .gone (hw.idle (by rw [hph]; simp) (by rw [hph]; simp)) (by simp) (by simp) (by simp)
  | leaving =>
    rw [hph] at hr; simp only [request, Option.some.injEq] at hr; subst hr
    have hserve := hs.serving hc (by rw [hph]; rfl)
    obtain ⟨k1, k2⟩ := hs.known c none (by rw [hph]; rfl)
    have hresp : (Par.step p.cfg s.srv (.disconnect c true)).1 = .ok := by rw [step_serving _ hserve]; simp [k2]
    rw [hresp]
    simp only [receive, hph]
    exact hw'.move .gone (hw.idle (by rw [hph]; simp) (by rw [hph]; simp)) (by simp) (by simp) (by simp)
  | gone => rw [hph] at hr; cases hr
  | dead => rw [hph] at hr; cases hr

theorem TInv.step {p : Plan} {s : Sys} (hs : SInv p s) (h : TInv p s) (a : Act) : TInv p (s.step p a) := by
  rcases moved p s a with ⟨h1, h2, h3⟩ | ⟨q, h1, h2, h3, -⟩ | ⟨c, x, q, hc, hr, h1, h2, h3⟩
  · intro d
    rw [h1]
    rcases h3 d with e | e | ⟨e, -⟩ <;> rw [e]
    · exact h d
    · have := h d
      exact ⟨this.start, this.own, this.loop, this.handed, this.sent, this.running, this.idle, this.dead⟩
    · exact (h d).die
  · intro d
    rw [h1, h3]
    exact (h d).step q
  · intro d
    rw [h1, h3]
    simp only
    split
    · rename_i e; subst e; exact h.act hs hc hr
    · exact (h d).step q

/-- every execution -/
theorem inv_run (p : Plan) (as : List Act) : SInv p ((Sys.start p).run p as) ∧ TInv p ((Sys.start p).run p as) := by
  have key : ∀ (as : List Act) (s : Sys), SInv p s → TInv p s → SInv p (s.run p as) ∧ TInv p (s.run p as) := by
    intro as
    induction as with
    | nil => exact fun s h1 h2 => ⟨h1, h2⟩
    | cons a as ih => exact fun s h1 h2 => ih _ (h1.step a) (h2.step h1 a)
  exact key as _ (.start p) (fun c => .init p _ c)

end Slash.Par
