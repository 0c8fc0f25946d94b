import Verif.Model.Watchdog
import Verif.Props.Worker
/-! Lemmas on parallel runs with clocks. -/
namespace Slash.Par

/-- the time that passes -/
def elapsed : List TAct → Nat
  | [] => 0
  | .pass n :: l => n + elapsed l
  | _ :: l => elapsed l

theorem elapsed_append (a b : List TAct) : elapsed (a ++ b) = elapsed a + elapsed b := by
  induction a with
  | nil => simp [elapsed]
  | cons x a ih => cases x <;> simp only [List.cons_append, elapsed, ih] <;> omega

theorem TSys.run_append (k : Clock) (p : Plan) (a b : List TAct) (t : TSys) : t.run k p (a ++ b) = (t.run k p a).run k p b :=
  List.foldl_append

theorem TSys.run_snoc (k : Clock) (p : Plan) (a : List TAct) (x : TAct) (t : TSys) : t.run k p (a ++ [x]) = (t.run k p a).step k p x := by
  rw [TSys.run_append]; rfl

theorem sys_run_append (p : Plan) (a b : List Act) (s : Sys) : s.run p (a ++ b) = (s.run p a).run p b := by
  induction a generalizing s with
  | nil => rfl
  | cons x a ih => exact ih _

/-- the fields a check leaves as they are -/
theorem check_frame (k : Clock) (p : Plan) (t : TSys) (c : Nat) :
    (t.check k p c).now = t.now ∧ (t.check k p c).lastReq = t.lastReq ∧ (t.check k p c).seen = t.seen ∧ (t.check k p c).man = t.man := by
  unfold TSys.check
  split
  · exact ⟨rfl, rfl, rfl, rfl⟩
  · split <;> exact ⟨rfl, rfl, rfl, rfl⟩

theorem checks_frame (k : Clock) (p : Plan) (l : List Nat) (t : TSys) :
    (l.foldl (TSys.check k p) t).now = t.now ∧ (l.foldl (TSys.check k p) t).lastReq = t.lastReq ∧
    (l.foldl (TSys.check k p) t).seen = t.seen ∧ (l.foldl (TSys.check k p) t).man = t.man := by
  induction l generalizing t with
  | nil => exact ⟨rfl, rfl, rfl, rfl⟩
  | cons c l ih =>
    rw [List.foldl_cons]
    obtain ⟨a1, a2, a3, a4⟩ := ih (t.check k p c)
    obtain ⟨b1, b2, b3, b4⟩ := check_frame k p t c
    exact ⟨a1.trans b1, a2.trans b2, a3.trans b3, a4.trans b4⟩

theorem watch_frame (k : Clock) (p : Plan) (t : TSys) :
    (t.watch k p).now = t.now ∧ (t.watch k p).lastReq = t.lastReq ∧ (t.watch k p).seen = t.seen := by
  unfold TSys.watch
  obtain ⟨a1, a2, a3, -⟩ := checks_frame k p t.sys.srv.connected t
  split
  · simp only
    split <;> exact ⟨a1, a2, a3⟩
  · exact ⟨rfl, rfl, rfl⟩

theorem look_frame (k : Clock) (p : Plan) (t : TSys) :
    (t.look k p).now = t.now ∧ (t.look k p).lastReq = t.lastReq ∧ (t.look k p).seen = t.seen := by
  unfold TSys.look
  split
  · exact ⟨rfl, rfl, rfl⟩
  · split
    · split <;> exact ⟨rfl, rfl, rfl⟩
    · exact watch_frame k p _
  · exact watch_frame k p t

/-- only keep-alives change the times at which workers were heard -/
theorem step_times (k : Clock) (p : Plan) (t : TSys) (a : TAct) :
    (t.step k p a).now = t.now + elapsed [a] ∧
    ((t.step k p a).lastReq = t.lastReq ∧ (t.step k p a).seen = t.seen ∧ (∀ c, a = .beat c → (t.sys.loc c).phase.up = false) ∨
     ∃ c, a = .beat c ∧ (t.sys.loc c).phase.up = true ∧ (t.step k p a).lastReq = t.now ∧
      (t.step k p a).seen = fun d => if d = c then some t.now else t.seen d) := by
  cases a with
  | pass n => exact ⟨rfl, .inl ⟨rfl, rfl, by simp⟩⟩
  | other a =>
    simp only [TSys.step]
    split <;> exact ⟨rfl, .inl ⟨rfl, rfl, by simp⟩⟩
  | beat c =>
    simp only [TSys.step, TSys.beat]
    split
    · rename_i h; exact ⟨rfl, .inr ⟨c, rfl, h, rfl, rfl⟩⟩
    · rename_i h
      refine ⟨rfl, .inl ⟨rfl, rfl, fun d e => ?_⟩⟩
      cases e
      simpa using h
  | look =>
    obtain ⟨a1, a2, a3⟩ := look_frame k p t
    exact ⟨a1, .inl ⟨a2, a3, by simp⟩⟩
  | interrupt =>
    simp only [TSys.step]
    split <;> exact ⟨rfl, .inl ⟨rfl, rfl, by simp⟩⟩
  | stop =>
    simp only [TSys.step]
    split <;> exact ⟨rfl, .inl ⟨rfl, rfl, by simp⟩⟩

theorem run_now (k : Clock) (p : Plan) (l : List TAct) (t : TSys) : (t.run k p l).now = t.now + elapsed l := by
  induction l using snocInd with
  | nil => rfl
  | snoc l a ih => rw [TSys.run_snoc, (step_times k p _ a).1, ih, elapsed_append]; omega

/-- The keep-alive of worker `c` arrives during `l`, which starts in `t`. -/
def Heard (k : Clock) (p : Plan) (c : Nat) (t : TSys) (l : List TAct) : Prop :=
  ∃ a b, l = a ++ .beat c :: b ∧ ((t.run k p a).sys.loc c).phase.up = true

theorem heard_snoc {k : Clock} {p : Plan} {c : Nat} {t : TSys} {l : List TAct} {x : TAct} :
    Heard k p c t (l ++ [x]) ↔ Heard k p c t l ∨ x = .beat c ∧ ((t.run k p l).sys.loc c).phase.up = true := by
  constructor
  · rintro ⟨a, b, e, h⟩
    rcases snoc_split e with ⟨e1, e2, -⟩ | ⟨b', e1, e2⟩
    · exact .inr ⟨e2.symm, by rw [← e1]; exact h⟩
    · exact .inl ⟨a, b', e2, h⟩
  · rintro (⟨a, b, e, h⟩ | ⟨e, h⟩)
    · exact ⟨a, b ++ [x], by rw [e]; simp, h⟩
    · exact ⟨l, [], by rw [e], h⟩

theorem heard_append {k : Clock} {p : Plan} {c : Nat} {t : TSys} {l m : List TAct} (h : ¬ Heard k p c t (l ++ m)) :
    ¬ Heard k p c t l ∧ ¬ Heard k p c (t.run k p l) m := by
  constructor
  · rintro ⟨a, b, e, h1⟩
    exact h ⟨a, b ++ m, by rw [e]; simp, h1⟩
  · rintro ⟨a, b, e, h1⟩
    exact h ⟨l ++ a, b, by rw [e]; simp, by rw [TSys.run_append]; exact h1⟩

theorem seen_unheard (k : Clock) (p : Plan) (c : Nat) (t : TSys) (l : List TAct) (h : ¬ Heard k p c t l) :
    (t.run k p l).seen c = t.seen c := by
  induction l using snocInd with
  | nil => rfl
  | snoc l a ih =>
    rw [heard_snoc] at h
    have h1 := ih (fun e => h (.inl e))
    rw [TSys.run_snoc]
    rcases (step_times k p (t.run k p l) a).2 with ⟨-, e, -⟩ | ⟨d, e1, e2, -, e⟩
    · rw [e]; exact h1
    · rw [e]
      have : c ≠ d := fun ecd => h (.inr ⟨by rw [e1, ecd], by rw [ecd]; exact e2⟩)
      simp only [this, if_false]
      exact h1

theorem lastReq_unheard (k : Clock) (p : Plan) (t : TSys) (l : List TAct) (h : ∀ c, ¬ Heard k p c t l) :
    (t.run k p l).lastReq = t.lastReq := by
  induction l using snocInd with
  | nil => rfl
  | snoc l a ih =>
    have h1 := ih (fun c e => h c (heard_snoc.2 (.inl e)))
    rw [TSys.run_snoc]
    rcases (step_times k p (t.run k p l) a).2 with ⟨e, -, -⟩ | ⟨d, e1, e2, -, e⟩
    · rw [e]; exact h1
    · exact absurd (heard_snoc.2 (.inr ⟨e1, e2⟩)) (h d)

/-- what the parent knows about when it heard of a worker is right -/
theorem seen_some {k : Clock} {p : Plan} {c : Nat} {t : TSys} {l : List TAct} {u : Nat} (h0 : t.seen c = none)
    (h : (t.run k p l).seen c = some u) :
    ∃ a b, l = a ++ .beat c :: b ∧ ((t.run k p a).sys.loc c).phase.up = true ∧ u = t.now + elapsed a ∧
      ¬ Heard k p c (t.run k p (a ++ [.beat c])) b := by
  induction l using snocInd with
  | nil => change t.seen c = some u at h; rw [h0] at h; cases h
  | snoc l x ih =>
    rw [TSys.run_snoc] at h
    have old : (t.run k p l).seen c = some u → (x = .beat c → ((t.run k p l).sys.loc c).phase.up = false) →
        ∃ a b, l ++ [x] = a ++ .beat c :: b ∧ ((t.run k p a).sys.loc c).phase.up = true ∧ u = t.now + elapsed a ∧
          ¬ Heard k p c (t.run k p (a ++ [.beat c])) b := by
      intro h1 h2
      obtain ⟨a, b, e, h3, h4, h5⟩ := ih h1
      refine ⟨a, b ++ [x], by rw [e]; simp, h3, h4, fun hh => ?_⟩
      rcases heard_snoc.1 hh with hh | ⟨hh1, hh2⟩
      · exact h5 hh
      · rw [← TSys.run_append, List.append_assoc, List.singleton_append, ← e, h2 hh1] at hh2
        cases hh2
    rcases (step_times k p (t.run k p l) x).2 with ⟨-, e, e2⟩ | ⟨d, e1, e2, -, e⟩
    · rw [e] at h; exact old h (fun e3 => e2 c e3)
    · rw [e] at h
      simp only at h
      by_cases hcd : c = d
      · rw [if_pos hcd] at h
        injection h with h
        refine ⟨l, [], by rw [e1, hcd], by rw [hcd]; exact e2, by rw [← h, run_now], ?_⟩
        rintro ⟨a, b, e3, -⟩
        cases a <;> cases e3
      · rw [if_neg hcd] at h
        exact old h (fun e3 => by rw [e1] at e3; injection e3 with e3; exact absurd e3.symm hcd)

/-- the same for the time of the last keep-alive of anybody -/
theorem lastReq_some (k : Clock) (p : Plan) (t : TSys) (l : List TAct) (h0 : t.lastReq = t.now) :
    ∃ a b, l = a ++ b ∧ (t.run k p l).lastReq = t.now + elapsed a ∧ ∀ c, ¬ Heard k p c (t.run k p a) b := by
  induction l using snocInd with
  | nil => exact ⟨[], [], rfl, h0, fun c => by rintro ⟨a, b, e, -⟩; cases a <;> cases e⟩
  | snoc l x ih =>
    obtain ⟨a, b, e, h1, h2⟩ := ih
    rw [TSys.run_snoc]
    rcases (step_times k p (t.run k p l) x).2 with ⟨e1, -, e2⟩ | ⟨d, e1, e2, e3, -⟩
    · refine ⟨a, b ++ [x], by rw [e]; simp, by rw [e1]; exact h1, fun c hh => ?_⟩
      rcases heard_snoc.1 hh with hh | ⟨hh1, hh2⟩
      · exact h2 c hh
      · rw [← TSys.run_append, ← e, e2 c hh1] at hh2; cases hh2
    · refine ⟨l ++ [x], [], by simp, ?_, fun c => by rintro ⟨a, b, e, -⟩; cases a <;> cases e⟩
      rw [e3, run_now, elapsed_append, e1]; simp [elapsed]

/-! ## The run without its clocks -/

theorem checks_sys (k : Clock) (p : Plan) (l : List Nat) (t : TSys) : ∃ as, .stop ∉ as ∧ .giveUp ∉ as ∧ .interrupt ∉ as ∧
    (l.foldl (TSys.check k p) t).sys = t.sys.run p as := by
  induction l generalizing t with
  | nil => exact ⟨[], by simp, by simp, by simp, rfl⟩
  | cons c l ih =>
    obtain ⟨as, h1, h2, h3, h⟩ := ih (t.check k p c)
    rw [List.foldl_cons, h]
    unfold TSys.check
    split
    · exact ⟨as, h1, h2, h3, rfl⟩
    · split
      · exact ⟨.die c :: .report c :: as, by simpa using h1, by simpa using h2, by simpa using h3, rfl⟩
      · exact ⟨as, h1, h2, h3, rfl⟩

theorem watch_sys (k : Clock) (p : Plan) (t : TSys) : ∃ as, .stop ∉ as ∧ (t.watch k p).sys = t.sys.run p as := by
  unfold TSys.watch
  obtain ⟨as, h1, -, -, h⟩ := checks_sys k p t.sys.srv.connected t
  split
  · simp only
    split
    · refine ⟨as ++ [.giveUp], by simpa using h1, ?_⟩
      rw [sys_run_append, ← h]; rfl
    · exact ⟨as, h1, h⟩
  · exact ⟨[], by simp, rfl⟩

theorem look_sys (k : Clock) (p : Plan) (t : TSys) : ∃ as, .stop ∉ as ∧ (t.look k p).sys = t.sys.run p as := by
  unfold TSys.look
  split
  · exact ⟨[], by simp, rfl⟩
  · split
    · split
      · exact ⟨[.giveUp], by simp, rfl⟩
      · exact ⟨[], by simp, rfl⟩
    · exact watch_sys k p _
  · exact watch_sys k p t

theorem step_sys (k : Clock) (p : Plan) (t : TSys) (a : TAct) : ∃ as, (t.man ≠ .left → .stop ∉ as) ∧ (t.step k p a).sys = t.sys.run p as := by
  have none : ∃ as, (t.man ≠ .left → .stop ∉ as) ∧ t.sys = t.sys.run p as := ⟨[], by simp, rfl⟩
  cases a with
  | pass n => exact none
  | other a =>
    simp only [TSys.step]
    split
    · rename_i h
      refine ⟨[a], fun _ hm => ?_, rfl⟩
      rw [List.mem_singleton] at hm
      rw [← hm] at h; cases h
    · exact none
  | beat c =>
    simp only [TSys.step, TSys.beat]
    split
    · exact ⟨[.keepAlive c], by simp, rfl⟩
    · exact none
  | look => obtain ⟨as, h, e⟩ := look_sys k p t; exact ⟨as, fun _ => h, e⟩
  | interrupt =>
    simp only [TSys.step]
    split
    · exact none
    · exact ⟨[.interrupt], by simp, rfl⟩
  | stop =>
    simp only [TSys.step]
    split
    · rename_i h; exact ⟨[.stop], fun h' => absurd h h', rfl⟩
    · exact none

theorem run_sys (k : Clock) (p : Plan) (l : List TAct) (t : TSys) : ∃ as, (t.run k p l).sys = t.sys.run p as := by
  induction l using snocInd with
  | nil => exact ⟨[], rfl⟩
  | snoc l a ih =>
    obtain ⟨as, h⟩ := ih
    obtain ⟨bs, -, h2⟩ := step_sys k p (t.run k p l) a
    exact ⟨as ++ bs, by rw [TSys.run_snoc, h2, h, sys_run_append]⟩

/-- A manager that has left its loops does not come back. -/
theorem step_left (k : Clock) (p : Plan) (t : TSys) (a : TAct) (h : t.man = .left) : (t.step k p a).man = .left := by
  cases a <;> simp only [TSys.step, TSys.beat, TSys.look, h, if_true] <;> first | done | (split <;> first | exact h | rfl)

theorem run_left (k : Clock) (p : Plan) (l : List TAct) (t : TSys) (h : t.man = .left) : (t.run k p l).man = .left := by
  induction l using snocInd with
  | nil => exact h
  | snoc l a ih => rw [TSys.run_snoc]; exact step_left k p _ a ih

theorem sys_step_serving {p : Plan} {s : Sys} {a : Act} (ha : a ≠ .stop) (h : s.srv.phase ≠ .stopServe) : (s.step p a).srv.phase ≠ .stopServe := by
  have key : ∀ q : Req, q ≠ .stopServe → (Par.step p.cfg s.srv q).2.phase ≠ .stopServe := fun q hq e => by
    rcases step_stopServe _ _ _ e with e | e
    · exact h e
    · exact hq e
  cases a with
  | act c x =>
    simp only [Sys.step]
    split
    · cases hr : request c (p.coll c) x (s.loc c).phase with
      | none => exact h
      | some q =>
        refine key q ?_
        intro e
        cases hp : (s.loc c).phase <;> rw [hp] at hr <;> simp only [request, Option.some.injEq] at hr <;> subst e <;> cases hr
    · exact h
  | die c => simp only [Sys.step]; split <;> exact h
  | keepAlive c => simp only [Sys.step]; split <;> exact h
  | report c =>
    simp only [Sys.step]
    split
    · exact key _ (by simp)
    · exact h
  | interrupt => exact key _ (by simp)
  | giveUp => exact key _ (by simp)
  | problem c => exact key _ (by simp)
  | stop => exact absurd rfl ha
  | exclude c i => exact key _ (by simp)
  | force c i => exact key _ (by simp)

theorem sys_run_serving {p : Plan} (as : List Act) {s : Sys} (ha : .stop ∉ as) (h : s.srv.phase ≠ .stopServe) : (s.run p as).srv.phase ≠ .stopServe := by
  induction as generalizing s with
  | nil => exact h
  | cons a as ih =>
    simp only [List.mem_cons, not_or] at ha
    exact ih ha.2 (sys_step_serving (fun e => ha.1 e.symm) h)

theorem receive_fresh (sigs coll : List Nat) (x : Choice) (w : W) (r : Resp) (h : w.phase ≠ .fresh) : (receive sigs coll x w r).phase ≠ .fresh := by
  unfold receive
  repeat' split
  all_goals first | exact h | simp

/-- a worker that connected once does not connect again -/
theorem sys_step_fresh {p : Plan} {s : Sys} (a : Act) {c : Nat} (h : (s.loc c).phase ≠ .fresh) : ((s.step p a).loc c).phase ≠ .fresh := by
  rcases moved p s a with ⟨-, -, h3⟩ | ⟨q, -, -, h3, -⟩ | ⟨d, x, q, -, -, -, -, h3⟩
  · rcases h3 c with e | e | ⟨e, -⟩ <;> rw [e]
    · exact h
    · exact h
    · simp
  · rw [h3]; exact h
  · rw [h3]
    simp only
    split
    · rename_i e; rw [← e]; exact receive_fresh _ _ _ _ _ h
    · exact h

theorem sys_run_fresh {p : Plan} (as : List Act) {s : Sys} {c : Nat} (h : (s.loc c).phase ≠ .fresh) : ((s.run p as).loc c).phase ≠ .fresh := by
  induction as generalizing s with
  | nil => exact h
  | cons a as ih => exact ih (sys_step_fresh a h)

/-- a worker the server does not count any more stays like that -/
theorem sys_step_away {p : Plan} {s : Sys} (a : Act) {c : Nat} (h : (s.loc c).phase ≠ .fresh) (hc : c ∉ s.srv.connected) :
    c ∉ (s.step p a).srv.connected := by
  intro hm
  rcases moved p s a with ⟨h1, -, -⟩ | ⟨q, h1, -, -, -, h5, -⟩ | ⟨d, x, q, -, h2, h1, -, -⟩
  · rw [h1] at hm; exact hc hm
  · rw [h1] at hm
    rcases step_connected_sub _ _ _ _ hm with hm | ⟨b, e⟩
    · exact hc hm
    · exact h5 _ _ e
  · rw [h1] at hm
    rcases step_connected_sub _ _ _ _ hm with hm | ⟨b, e⟩
    · exact hc hm
    · subst e
      cases hp : (s.loc d).phase <;> rw [hp] at h2 <;> simp only [request, Option.some.injEq] at h2 <;> cases h2
      exact h hp

theorem sys_run_away {p : Plan} (as : List Act) {s : Sys} {c : Nat} (h : (s.loc c).phase ≠ .fresh) (hc : c ∉ s.srv.connected) :
    c ∉ (s.run p as).srv.connected := by
  induction as generalizing s with
  | nil => exact hc
  | cons a as ih => exact ih (sys_step_fresh a h) (sys_step_away a h hc)

theorem sys_step_clients {p : Plan} {s : Sys} (a : Act) (h : s.srv.phase ≠ .waitClients) : (s.step p a).srv.phase ≠ .waitClients := by
  intro hm
  rcases moved p s a with ⟨h1, -, -⟩ | ⟨q, h1, -⟩ | ⟨d, x, q, -, h2, h1, -, -⟩
  · rw [h1] at hm; exact h hm
  · rw [h1] at hm; exact h (step_waitClients _ _ _ hm).1
  · rw [h1] at hm; exact h (step_waitClients _ _ _ hm).1

theorem sys_run_clients {p : Plan} (as : List Act) {s : Sys} (h : s.srv.phase ≠ .waitClients) : (s.run p as).srv.phase ≠ .waitClients := by
  induction as generalizing s with
  | nil => exact h
  | cons a as ih => exact ih (sys_step_clients a h)

/-- what holds in every state of a timed run -/
structure WInv (p : Plan) (t : TSys) : Prop where
  reach : ∃ as, t.sys = (Sys.start p).run p as
  heard : ∀ c u, t.seen c = some u → (t.sys.loc c).heard = true ∧ (t.sys.loc c).phase ≠ .fresh
  serving : t.man ≠ .left → t.sys.srv.phase ≠ .stopServe

theorem WInv.start (p : Plan) : WInv p (TSys.start p) where
  reach := ⟨[], rfl⟩
  heard := fun c u h => by cases h
  serving := fun _ => by simp [TSys.start, Sys.start, Par.init]

theorem WInv.step {k : Clock} {p : Plan} {t : TSys} (h : WInv p t) (a : TAct) : WInv p (t.step k p a) where
  reach := by
    obtain ⟨as, e⟩ := h.reach
    obtain ⟨bs, -, e2⟩ := step_sys k p t a
    exact ⟨as ++ bs, by rw [e2, e, sys_run_append]⟩
  heard := by
    intro c u hs
    obtain ⟨bs, -, e2⟩ := step_sys k p t a
    rcases (step_times k p t a).2 with ⟨-, e, -⟩ | ⟨d, e1, e3, -, e⟩
    · rw [e] at hs
      obtain ⟨h1, h2⟩ := h.heard c u hs
      rw [e2]
      exact ⟨heard_run p c bs _ h1, sys_run_fresh bs h2⟩
    · rw [e] at hs
      simp only at hs
      by_cases hcd : c = d
      · subst hcd
        rw [e1]
        simp only [TSys.step, TSys.beat, e3, if_true, Sys.step]
        have hf : (t.sys.loc c).phase.over = false ∧ (t.sys.loc c).phase ≠ .fresh := by
          revert e3; cases (t.sys.loc c).phase <;> simp [WPhase.up, WPhase.over]
        rw [if_neg (by simp [hf])]
        simp only [loc_set, if_true]
        exact ⟨trivial, hf.2⟩
      · rw [if_neg hcd] at hs
        obtain ⟨h1, h2⟩ := h.heard c u hs
        rw [e2]
        exact ⟨heard_run p c bs _ h1, sys_run_fresh bs h2⟩
  serving := by
    intro hm
    have h0 : t.man ≠ .left := fun e => hm (step_left k p t a e)
    obtain ⟨bs, hb, e2⟩ := step_sys k p t a
    rw [e2]
    exact sys_run_serving bs (hb h0) (h.serving h0)

theorem winv_run (k : Clock) (p : Plan) (l : List TAct) : WInv p ((TSys.start p).run k p l) := by
  induction l using snocInd with
  | nil => exact .start p
  | snoc l a ih => rw [TSys.run_snoc]; exact ih.step a

/-! ## What a look does -/

theorem clientFailure_effect {cfg : Cfg} {qs : List Req} {st : St} (h : Inv cfg.n qs st) {c : Nat} (hc : c ∈ st.connected) :
    (clientFailure c st).2.workerError = true ∧
    ∀ i, getKey c st.executing = some (some i) → (i, .interrupted) ∈ (clientFailure c st).2.results := by
  obtain ⟨hn1, hn2, hn3⟩ := List.nodup_append.1 h.nodup
  obtain ⟨hm1, hm2, hm3⟩ := List.nodup_append.1 hn1
  have rest : ∀ st1 : St, st1.unstarted = st.unstarted → (∀ i ∈ st.unstarted, i ∉ st1.results.map (·.1)) →
      (match markUnrun { st1 with phase := .stopTests } with
          | (true, st) => (Resp.ok, { st with workerError := true })
          | (false, st) => (.fault, st)).2.workerError = true ∧
      st1.results ⊆ (match markUnrun { st1 with phase := .stopTests } with
          | (true, st) => (Resp.ok, { st with workerError := true })
          | (false, st) => (.fault, st)).2.results := by
    intro st1 h1 h2
    rw [markUnrun_ok { st1 with phase := .stopTests } (by simp only [h1]; exact hm1) (by simp only [h1]; exact h2)]
    exact ⟨rfl, List.subset_append_left _ _⟩
  have hdis : ∀ i ∈ st.unstarted, i ∉ st.finished := fun i hi hf => hn3 i (List.mem_append_left _ hi) i hf rfl
  unfold clientFailure
  simp only [hc, not_true_eq_false, if_false]
  split
  · rename_i i hk
    have hnf : (c, i) ∉ st.failed := fun hm => (h.failed _ hm).2.1 hc
    have hw : i ∈ working st.failed st.executing := (mem_working h.keys).2 ⟨c, hk, hnf⟩
    have hfin : i ∉ st.finished := fun hm => hn3 i (List.mem_append_right _ hw) i hm rfl
    have hcr : createResult i .interrupted { st with connected := st.connected.erase c } =
        some { st with connected := st.connected.erase c, results := st.results ++ [(i, .interrupted)] } := by
      unfold createResult
      rw [if_neg]
      simp only [h.res]; exact hfin
    rw [hcr]
    obtain ⟨r1, r2⟩ := rest { st with connected := st.connected.erase c, results := st.results ++ [(i, .interrupted)], finished := st.finished ++ [i], failed := (c, i) :: st.failed } rfl
      (by
        intro j hj hm
        simp only [List.map_append, List.mem_append, h.res, List.map_cons, List.map_nil, List.mem_singleton] at hm
        rcases hm with hm | hm
        · exact hdis j hj hm
        · exact hm3 j hj i hw hm)
    refine ⟨r1, fun j hj => ?_⟩
    rw [hk] at hj
    injection hj with hj
    injection hj with hj
    subst hj
    exact r2 (List.mem_append_right _ (by simp))
  · rename_i hk
    obtain ⟨r1, -⟩ := rest { st with connected := st.connected.erase c } rfl (by rw [h.res]; exact hdis)
    exact ⟨r1, fun i hi => absurd hi (hk i)⟩

theorem WInv.acts {p : Plan} {t t' : TSys} (h : WInv p t) (as : List Act) (h1 : t'.sys = t.sys.run p as) (h2 : .stop ∉ as)
    (h3 : t'.seen = t.seen) (h4 : t'.man ≠ .left → t.man ≠ .left) : WInv p t' where
  reach := by obtain ⟨bs, e⟩ := h.reach; exact ⟨bs ++ as, by rw [h1, e, sys_run_append]⟩
  heard := fun c u hs => by
    rw [h3] at hs
    obtain ⟨a, b⟩ := h.heard c u hs
    rw [h1]
    exact ⟨heard_run p c as _ a, sys_run_fresh as b⟩
  serving := fun hm => by rw [h1]; exact sys_run_serving as h2 (h.serving (h4 hm))

theorem WInv.check {k : Clock} {p : Plan} {t : TSys} (h : WInv p t) (c : Nat) : WInv p (t.check k p c) := by
  unfold TSys.check
  split
  · exact h
  · split
    · exact h.acts [.die c, .report c] rfl (by simp) rfl (fun e => e)
    · exact h

/-- a worker that was heard of too long ago is reported -/
theorem check_down {k : Clock} {p : Plan} {t : TSys} (h : WInv p t) {c u : Nat} (hc : c ∈ t.sys.srv.connected)
    (hs : t.seen c = some u) (hl : k.comm < t.now - u) :
    (t.check k p c).sys.srv = (step p.cfg t.sys.srv (.clientFailure c)).2 ∧ (t.check k p c).sys.hist = t.sys.hist ++ [.clientFailure c] ∧
    ∀ d, d ≠ c → (t.check k p c).sys.loc d = t.sys.loc d := by
  obtain ⟨as, e⟩ := h.reach
  obtain ⟨-, hg, -⟩ := (einv_run p as).conn c (by rw [← e]; exact hc)
  rw [← e] at hg
  have hh := (h.heard c u hs).1
  unfold TSys.check
  rw [hs]
  simp only [hl, if_true, Sys.step, hg, if_false]
  rw [if_pos ⟨by rw [loc_set, if_pos rfl], by rw [loc_set, if_pos rfl]; exact hh, hc⟩]
  refine ⟨rfl, rfl, fun d hd => ?_⟩
  change ((t.sys.set c _).loc d) = _
  rw [loc_set, if_neg hd]

/-- a worker that was heard of lately, or never, is left alone -/
theorem check_fine {k : Clock} {p : Plan} {t : TSys} {c : Nat} (h : ∀ u, t.seen c = some u → t.now - u ≤ k.comm) : t.check k p c = t := by
  unfold TSys.check
  split
  · rfl
  · rename_i u hu
    rw [if_neg (by have := h u hu; omega)]

/-- what a check does to the others -/
theorem check_other {k : Clock} {p : Plan} {t : TSys} {c d : Nat} (hd : d ≠ c) :
    (t.check k p d).sys.loc c = t.sys.loc c ∧ (c ∈ (t.check k p d).sys.srv.connected ↔ c ∈ t.sys.srv.connected) ∧
    getKey c (t.check k p d).sys.srv.executing = getKey c t.sys.srv.executing ∧
    (.clientFailure c ∈ (t.check k p d).sys.hist → .clientFailure c ∈ t.sys.hist) := by
  unfold TSys.check
  split
  · exact ⟨rfl, .rfl, rfl, fun e => e⟩
  · split
    · have die : ∀ s : Sys, (s.step p (.die d)).loc c = s.loc c ∧ (s.step p (.die d)).srv = s.srv ∧ (s.step p (.die d)).hist = s.hist := by
        intro s
        simp only [Sys.step]
        split
        · exact ⟨rfl, rfl, rfl⟩
        · exact ⟨by rw [loc_set, if_neg hd.symm], rfl, rfl⟩
      have rep : ∀ s : Sys, (s.step p (.report d)).loc c = s.loc c ∧ (c ∈ (s.step p (.report d)).srv.connected ↔ c ∈ s.srv.connected) ∧
          getKey c (s.step p (.report d)).srv.executing = getKey c s.srv.executing ∧
          (.clientFailure c ∈ (s.step p (.report d)).hist → .clientFailure c ∈ s.hist) := by
        intro s
        simp only [Sys.step]
        split
        · obtain ⟨a, b⟩ := step_other p.cfg s.srv (.clientFailure d) c (by simpa [Req.subject] using hd)
          refine ⟨rfl, b, a, fun hm => ?_⟩
          simp only [Sys.ask, List.mem_append, List.mem_singleton, Req.clientFailure.injEq] at hm
          exact hm.resolve_right (fun e => hd e.symm)
        · exact ⟨rfl, .rfl, rfl, fun e => e⟩
      obtain ⟨a1, a2, a3⟩ := die t.sys
      obtain ⟨b1, b2, b3, b4⟩ := rep (t.sys.step p (.die d))
      exact ⟨b1.trans a1, by rw [b2, a2], by rw [b3, a2], fun e => by rw [← a3]; exact b4 e⟩
    · exact ⟨rfl, .rfl, rfl, fun e => e⟩

/-- What is known of a worker that was found silent, which was running the tests `S`: the server was told and does not count it
any more, it is dead, its test has a result saying so, and the run has a worker error. -/
structure Down (c : Nat) (S : Nat → Prop) (s : Sys) : Prop where
  told : .clientFailure c ∈ s.hist
  away : c ∉ s.srv.connected
  dead : (s.loc c).phase = .dead
  marked : ∀ i, S i → (i, .interrupted) ∈ s.srv.results
  error : s.srv.workerError = true

theorem receive_dead (sigs coll : List Nat) (x : Choice) (w : W) (r : Resp) (h : w.phase = .dead) : (receive sigs coll x w r).phase = .dead := by
  unfold receive
  rw [h]

theorem Down.step {p : Plan} {c : Nat} {S : Nat → Prop} {s : Sys} (h : Down c S s) (a : Act) : Down c S (s.step p a) := by
  have haw := sys_step_away (p := p) a (by rw [h.dead]; simp) h.away
  rcases moved p s a with ⟨h1, h2, h3⟩ | ⟨q, h1, h2, h3, -⟩ | ⟨d, x, q, -, -, h1, h2, h3⟩
  · refine ⟨by rw [h2]; exact h.told, haw, ?_, by rw [h1]; exact h.marked, by rw [h1]; exact h.error⟩
    rcases h3 c with e | e | ⟨e, -⟩ <;> rw [e]
    · exact h.dead
    · exact h.dead
  · exact ⟨by rw [h2]; exact List.mem_append_left _ h.told, haw, by rw [h3]; exact h.dead,
      by rw [h1]; exact fun i hi => step_results _ _ _ (h.marked i hi), by rw [h1]; exact (step_workerError _ _ _).2 (.inl h.error)⟩
  · refine ⟨by rw [h2]; exact List.mem_append_left _ h.told, haw, ?_,
      by rw [h1]; exact fun i hi => step_results _ _ _ (h.marked i hi), by rw [h1]; exact (step_workerError _ _ _).2 (.inl h.error)⟩
    rw [h3]
    simp only
    split
    · rename_i e; rw [← e]; exact receive_dead _ _ _ _ _ h.dead
    · exact h.dead

theorem Down.run {p : Plan} {c : Nat} {S : Nat → Prop} (as : List Act) {s : Sys} (h : Down c S s) : Down c S (s.run p as) := by
  induction as generalizing s with
  | nil => exact h
  | cons a as ih => exact ih (h.step a)

theorem checks_down {k : Clock} {p : Plan} {c u : Nat} (L : List Nat) {t : TSys} (h : WInv p t) (hm : t.man ≠ .left) (hL : c ∈ L)
    (hc : c ∈ t.sys.srv.connected) (hs : t.seen c = some u) (hl : k.comm < t.now - u) :
    Down c (fun i => getKey c t.sys.srv.executing = some (some i)) (L.foldl (TSys.check k p) t).sys := by
  induction L generalizing t with
  | nil => cases hL
  | cons d L ih =>
    rw [List.foldl_cons]
    by_cases hd : d = c
    · subst hd
      obtain ⟨as, -, -, -, e⟩ := checks_sys k p L (t.check k p d)
      rw [e]
      refine Down.run as ?_
      obtain ⟨h1, h2, -⟩ := check_down h hc hs hl
      obtain ⟨bs, e2⟩ := h.reach
      have hinv : SInv p t.sys := by rw [e2]; exact (inv_run p bs).1
      obtain ⟨bs', e2'⟩ := (h.check (k := k) d).reach
      have hinv' : SInv p (t.check k p d).sys := by rw [e2']; exact (inv_run p bs').1
      have hsv := step_serving (cfg := p.cfg) (.clientFailure d) (h.serving hm)
      have htold : .clientFailure d ∈ (t.check k p d).sys.hist := by rw [h2]; simp
      obtain ⟨f1, f2⟩ := clientFailure_effect hinv.inv hc
      refine ⟨htold, ?_, hinv'.failed d htold, ?_, ?_⟩
      · rw [h1]; exact step_removed _ _ _ hinv.inv.connected (h.serving hm)
      · rw [h1, hsv]; exact f2
      · rw [h1, hsv]; exact f1
    · obtain ⟨a1, a2, a3, -⟩ := check_other (k := k) (p := p) (t := t) hd
      obtain ⟨b1, -, b3, b4⟩ := check_frame k p t d
      rw [← a3]
      exact ih (h.check d) (by rw [b4]; exact hm) (by simpa [Ne.symm hd] using hL) (a2.2 hc) (by rw [b3]; exact hs) (by rw [b1]; exact hl)

/-- a look at a worker that was heard of too long ago -/
theorem look_down {k : Clock} {p : Plan} {c u : Nat} {t : TSys} (h : WInv p t) (hm : t.man ≠ .left) (hw : t.sys.srv.phase ≠ .waitClients)
    (hc : c ∈ t.sys.srv.connected) (hs : t.seen c = some u) (hl : k.comm < t.now - u) :
    Down c (fun i => getKey c t.sys.srv.executing = some (some i)) (t.look k p).sys := by
  have watch : ∀ t : TSys, WInv p t → t.man ≠ .left → c ∈ t.sys.srv.connected → t.seen c = some u → k.comm < t.now - u →
      Down c (fun i => getKey c t.sys.srv.executing = some (some i)) (t.watch k p).sys := by
    intro t h hm hc hs hl
    have hd := checks_down _ h hm hc hc hs hl
    unfold TSys.watch
    rw [if_pos (by unfold shouldWait; cases he : t.sys.srv.connected with | nil => rw [he] at hc; cases hc | cons a l => simp)]
    simp only
    split
    · exact hd.step .giveUp
    · exact hd
  unfold TSys.look
  split
  · rename_i e; exact absurd e hm
  · rw [if_neg hw]
    exact watch { t with man := .watching } (h.acts [] rfl (by simp) rfl (fun _ => hm)) (by simp) hc hs hl
  · exact watch t h hm hc hs hl

/-- a look at a worker that was heard of lately -/
theorem look_fine {k : Clock} {p : Plan} {c : Nat} {t : TSys} (h : ∀ u, t.seen c = some u → t.now - u ≤ k.comm) :
    (t.look k p).sys.loc c = t.sys.loc c ∧ (c ∈ (t.look k p).sys.srv.connected ↔ c ∈ t.sys.srv.connected) ∧
    (.clientFailure c ∈ (t.look k p).sys.hist → .clientFailure c ∈ t.sys.hist) := by
  have checks : ∀ (L : List Nat) (t : TSys), (∀ u, t.seen c = some u → t.now - u ≤ k.comm) →
      (L.foldl (TSys.check k p) t).sys.loc c = t.sys.loc c ∧
      (c ∈ (L.foldl (TSys.check k p) t).sys.srv.connected ↔ c ∈ t.sys.srv.connected) ∧
      (.clientFailure c ∈ (L.foldl (TSys.check k p) t).sys.hist → .clientFailure c ∈ t.sys.hist) := by
    intro L
    induction L with
    | nil => exact fun t _ => ⟨rfl, .rfl, fun e => e⟩
    | cons d L ih =>
      intro t h
      rw [List.foldl_cons]
      by_cases hd : d = c
      · rw [hd, check_fine h]; exact ih t h
      · obtain ⟨b1, -, b3, b4⟩ := check_frame k p t d
        obtain ⟨a1, a2, -, a4⟩ := check_other (k := k) (p := p) (t := t) hd
        obtain ⟨c1, c2, c3⟩ := ih (t.check k p d) (by rw [b1, b3]; exact h)
        exact ⟨c1.trans a1, c2.trans a2, fun e => a4 (c3 e)⟩
  have up : ∀ s : Sys, (s.step p .giveUp).loc c = s.loc c ∧ (c ∈ (s.step p .giveUp).srv.connected ↔ c ∈ s.srv.connected) ∧
      (.clientFailure c ∈ (s.step p .giveUp).hist → .clientFailure c ∈ s.hist) := by
    intro s
    refine ⟨rfl, (step_other p.cfg s.srv .sessionError c (by simp [Req.subject])).2, fun hm => ?_⟩
    simpa [Sys.step, Sys.ask] using hm
  have watch : ∀ t : TSys, (∀ u, t.seen c = some u → t.now - u ≤ k.comm) →
      (t.watch k p).sys.loc c = t.sys.loc c ∧ (c ∈ (t.watch k p).sys.srv.connected ↔ c ∈ t.sys.srv.connected) ∧
      (.clientFailure c ∈ (t.watch k p).sys.hist → .clientFailure c ∈ t.sys.hist) := by
    intro t h
    obtain ⟨c1, c2, c3⟩ := checks t.sys.srv.connected t h
    unfold TSys.watch
    split
    · simp only
      split
      · obtain ⟨u1, u2, u3⟩ := up (t.sys.srv.connected.foldl (TSys.check k p) t).sys
        exact ⟨u1.trans c1, u2.trans c2, fun e => c3 (u3 e)⟩
      · exact ⟨c1, c2, c3⟩
    · exact ⟨rfl, .rfl, fun e => e⟩
  unfold TSys.look
  split
  · exact ⟨rfl, .rfl, fun e => e⟩
  · split
    · split
      · exact up t.sys
      · exact ⟨rfl, .rfl, fun e => e⟩
    · exact watch { t with man := .watching } h
  · exact watch t h

end Slash.Par
