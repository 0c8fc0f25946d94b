import Verif.Model.ParSend
import Verif.Props.ParRun
import Verif.Props.Transfer
/-!
# C173: the exit status of a parallel run and the results its workers have
-/
namespace Slash.Par
open Tr (Res Key PEnd)

/-- What makes the outcome of a test arrives at the parent: its errors, failures and skips, and whether it was started and interrupted. -/
def Sending.Arrives (d : Sending) (i : Nat) : Prop :=
  (∀ k, d.pickle i k ≠ .raised) ∧
  ∀ k ∈ [Key.errors, .failures, .skips, .started, .interrupted], d.pickle i k = .ok ∧ d.unpickle i k = true

theorem send_quiet (d : Sending) (i : Nat) (h : ∀ k, d.pickle i k ≠ .raised) : (d.send i).2.2 = false := by
  have hs : ∀ l, ∃ ks, Tr.serialize (d.pickle i) l = some ks := by
    intro l
    induction l with
    | nil => exact ⟨[], rfl⟩
    | cons k l ih =>
      obtain ⟨ks, hk⟩ := ih
      rw [Tr.serialize]
      cases e : d.pickle i k with
      | ok => exact ⟨k :: ks, by simp [hk]⟩
      | caught => exact ⟨ks, hk⟩
      | raised => exact absurd e (h k)
  have ha : ∀ ks r, (Tr.assignAll (fun k => if d.unpickle i k then .ok else .caught) (d.own i) ks r).2 = false := by
    intro ks
    induction ks with
    | nil => intro r; rfl
    | cons k ks ih =>
      intro r
      rw [Tr.assignAll]
      cases d.unpickle i k
      · exact ih r
      · exact ih _
  obtain ⟨ks, hk⟩ := hs (d.own i).keys
  unfold Sending.send Tr.send
  rw [hk]
  simp only
  have := ha ks {}
  generalize Tr.assignAll (fun k => if d.unpickle i k then .ok else .caught) (d.own i) ks {} = q at *
  obtain ⟨t, b⟩ := q
  simp only at this
  subst this
  rfl

/-- what arrives counts as the worker's result does -/
theorem view_success (d : Sending) (i : Nat) (h : d.Arrives i) : (d.view i).isSuccess true = (d.own i).isSuccess true := by
  obtain ⟨h1, h2⟩ := h
  have hq := send_quiet d i h1
  obtain ⟨-, -, he, hf, hs, hst, -, hi, -⟩ := Tr.C136_attributes (d.pickle i) (fun k => if d.unpickle i k then .ok else .caught) (d.own i) {} hq
  have hk : ∀ k ∈ [Key.errors, .failures, .skips, .started, .interrupted], d.pickle i k = .ok ∧ (if d.unpickle i k then PEnd.ok else .caught) = .ok := by
    intro k hk
    obtain ⟨a, b⟩ := h2 k hk
    exact ⟨a, by rw [b]; rfl⟩
  have e1 : (d.send i).1.errors = (d.own i).errors := by
    rcases he with h | h
    · exact h.1
    · exact absurd (hk .errors (by decide)) h.2
  have e2 : (d.send i).1.failures = (d.own i).failures := by
    rcases hf with h | h
    · exact h.1
    · exact absurd (hk .failures (by decide)) h.2
  have e3 : (d.send i).1.skips = (d.own i).skips := by
    rcases hs with h | h
    · exact h.1
    · exact absurd (hk .skips (by decide)) h.2
  have e4 : (d.send i).1.started = (d.own i).started := by
    rcases hst with h | h
    · exact h.1
    · exact absurd (hk .started (by decide)) h.2
  have e5 : (d.send i).1.interrupted = (d.own i).interrupted := by
    rcases hi with h | h
    · exact h.1
    · exact absurd (hk .interrupted (by decide)) h.2
  unfold Result.isSuccess Result.isStarted Sending.view Tr.Res.isSuccess
  simp only [e1, e2, e3, e4, e5, List.isEmpty_map]

/-! ## What was sent is what workers have -/

/-- Everything a worker has sent is what it has. -/
def AllHeard (d : Sending) (s : Sys) : Prop := ∀ c i x, (i, x) ∈ (s.loc c).sent → x = d.heard i

theorem receive_tells (sigs coll : List Nat) (x : Choice) (w : W) (r : Resp) :
    (receive sigs coll x w r).sent = w.sent ∨ ∃ i j, w.phase = .running i j ∧ (receive sigs coll x w r).sent = w.sent ++ [(i, x.res)] := by
  unfold receive
  split
  all_goals first
    | exact .inl rfl
    | exact .inr ⟨_, _, by assumption, rfl⟩
    | (split
       · exact .inl rfl
       · split
         · exact .inl rfl
         · exact .inl rfl)

theorem set_sent (s : Sys) (c e : Nat) (w : W) : ((s.set c w).loc e).sent = if e = c then w.sent else (s.loc e).sent := by
  unfold Sys.set
  simp only
  split <;> rfl

theorem sending_step (d : Sending) (p : Plan) (s : Sys) (a : Act) (h : AllHeard d s) : AllHeard d (s.step p (d.act s a)) := by
  have hdie : ∀ c, AllHeard d (s.step p (.die c)) := by
    intro c e i x hm
    unfold Sys.step at hm
    simp only at hm
    split at hm
    · exact h e i x hm
    · rw [set_sent] at hm
      split at hm
      · rename_i he; subst he; exact h e i x hm
      · exact h e i x hm
  have hact : ∀ c y, (∀ i j, (s.loc c).phase = .running i j → y.res = d.heard i) → AllHeard d (s.step p (.act c y)) := by
    intro c y hy e i x hm
    unfold Sys.step at hm
    simp only at hm
    split at hm
    · split at hm
      · exact h e i x hm
      · rw [set_sent] at hm
        split at hm
        · rename_i he
          subst he
          rcases receive_tells p.sigs (p.coll e) y (s.loc e) _ with hr | ⟨i', j, hp, hr⟩
          · rw [hr] at hm; exact h e i x hm
          · rw [hr] at hm
            rcases List.mem_append.1 hm with hm | hm
            · exact h e i x hm
            · have := List.mem_singleton.1 hm
              injection this with e1 e2
              subst e1
              rw [e2]
              exact hy i j hp
        · exact h e i x hm
    · exact h e i x hm
  cases a with
  | act c y =>
    unfold Sending.act
    simp only
    split
    · rename_i i j hp
      split
      · exact hdie c
      · refine hact c _ (fun i' j' hp' => ?_)
        rw [hp] at hp'
        injection hp' with e1 e2
        rw [e1]
    · rename_i hp
      exact hact c y (fun i j e => absurd e (hp i j))
  | die c => exact hdie c
  | keepAlive c =>
    intro e i x hm
    simp only [Sending.act, Sys.step] at hm
    split at hm
    · exact h e i x hm
    · rw [set_sent] at hm
      split at hm
      · rename_i he; subst he; exact h e i x hm
      · exact h e i x hm
  | report c =>
    intro e i x hm
    simp only [Sending.act, Sys.step] at hm
    split at hm
    · exact h e i x hm
    · exact h e i x hm
  | stop =>
    intro e i x hm
    simp only [Sending.act, Sys.step] at hm
    split at hm
    · exact h e i x hm
    · exact h e i x hm
  | _ => exact h

theorem sending_run (d : Sending) (p : Plan) (as : List Act) (s : Sys) (h : AllHeard d s) : AllHeard d (s.run p (d.fill p as s)) := by
  induction as generalizing s with
  | nil => exact h
  | cons a as ih =>
    rw [Sending.fill, Sys.run]
    exact ih _ (sending_step d p s a h)

theorem sending_all (d : Sending) (r : ParRun) : AllHeard d (d.run r).state :=
  sending_run d r.plan r.sched _ (fun c i x hm => by cases hm)

theorem sending_faithful (d : Sending) (r : ParRun) : (d.run r).Faithful := by
  intro i x hm
  obtain ⟨w, -, hs⟩ := ((C82_results_are_those_sent (d.run r).plan (d.run r).sched).1 i x).1 hm
  rw [sending_all d r w.id i x hs]
  rfl

/-! ## C173 -/

/-- C173: a parallel run whose outcome arrives from the workers ends with status 0 only if each test of the parent was run by a worker, as its test with the same
file, name and variation, and has the result of a success (or was skipped) there. -/
theorem C173_zero_says_partial (d : Sending) (r : ParRun) (hn : (r.plan.workers.map (·.id)).Nodup) (h : r.Loud)
    (ha : ∀ i, i < r.plan.sigs.length → d.Arrives i) (hz : (d.run r).status = some 0) :
    (∀ i sig, r.plan.sigs[i]? = some sig → (d.own i).isSuccess true = true ∧
      ∃ w ∈ r.plan.workers, ∃ j, (i, j) ∈ ((d.run r).state.loc w.id).ran ∧ (r.plan.coll w.id)[j]? = some sig) := by
  intro i sig hi
  have hl : (d.run r).Loud := ⟨h.load, h.start, h.finish, h.enter, h.callback, h.prepare, h.save, h.exit⟩
  obtain ⟨h1, -⟩ := C167_zero_says (d.run r) hn hl (sending_faithful d r) hz
  obtain ⟨w, hw, ⟨j, hj, hsig⟩, ⟨x, hx, hxs⟩, -⟩ := h1 i sig hi
  refine ⟨?_, w, hw, j, hj, hsig⟩
  have hlt : i < r.plan.sigs.length := (List.getElem?_eq_some_iff.1 hi).1
  have := sending_all d r w.id i x hx
  rw [this] at hxs
  rw [← view_success d i (ha i hlt)]
  exact hxs

/-- C173: if a test did not succeed where it was run, the status is not 0, whatever else happens, provided that its outcome arrives. -/
theorem C173_failure_counts_partial (d : Sending) (r : ParRun) (hn : (r.plan.workers.map (·.id)).Nodup) (h : r.Loud)
    (i : Nat) (hi : i < r.plan.sigs.length) (ha : d.Arrives i) (hf : (d.own i).isSuccess true = false) : (d.run r).status ≠ some 0 := by
  intro hz
  have hl : (d.run r).Loud := ⟨h.load, h.start, h.finish, h.enter, h.callback, h.prepare, h.save, h.exit⟩
  obtain ⟨h1, -⟩ := C167_zero_says (d.run r) hn hl (sending_faithful d r) hz
  obtain ⟨w, hw, -, ⟨x, hx, hxs⟩, -⟩ := h1 i _ (List.getElem?_eq_getElem hi)
  rw [sending_all d r w.id i x hx] at hxs
  have : (d.view i).isSuccess true = true := hxs
  rw [view_success d i ha, hf] at this
  cases this

/-- Fatal errors and failures, `--stop-on-error` or not, as the parent hears of them. -/
theorem sending_ok (d : Sending) (i : Nat) (ha : d.Arrives i) (hs : (d.own i).isSuccess true = true) :
    (d.heard i).success = true ∧ (d.heard i).fatal = false := by
  have hv : (d.view i).isSuccess true = true := (view_success d i ha).trans hs
  refine ⟨hv, ?_⟩
  show (d.view i).hasFatal = false
  generalize d.view i = v at *
  unfold Result.isSuccess at hv
  unfold Result.hasFatal
  cases he : v.errors with
  | cons a l => simp [he] at hv
  | nil =>
    cases hf : v.failures with
    | cons a l => simp [he, hf] at hv
    | nil => rfl

/-- C173: if all tests succeed where they are run, their outcomes arrive, and nothing else goes wrong (as in C167), the status is 0. -/
theorem C173_zero_if (d : Sending) (r : ParRun) (h : r.Loud) (ha : ∀ i, d.Arrives i) (hs : ∀ i, (d.own i).isSuccess true = true)
    (hleft : (d.run r).left = true) (hne : r.resume = true ∨ r.plan.sigs ≠ [])
    (hc : r.enter = none ∧ r.callback = none ∧ r.prepare = none ∧ r.load = none ∧ r.start = none ∧ r.finish = none ∧ r.save = none ∧ r.exit none = none)
    (hg : r.global.isSuccess true = true) (hi : .interrupt ∉ r.sched) (hu : .giveUp ∉ r.sched) (hp : ∀ c, .problem c ∉ r.sched)
    (hcoll : ∀ w ∈ r.plan.workers, (r.plan.coll w.id).Perm r.plan.sigs) (hgone : ∀ w ∈ r.plan.workers, ((d.run r).state.loc w.id).phase = .gone)
    (hx : ∀ i, i < r.plan.sigs.length → ∃ w ∈ r.plan.workers, canExecute r.plan.cfg (d.run r).state.srv w.id i = some true) : (d.run r).status = some 0 := by
  have hl : (d.run r).Loud := ⟨h.load, h.start, h.finish, h.enter, h.callback, h.prepare, h.save, h.exit⟩
  have hfill : ∀ (as : List Act) (s : Sys) (a : Act), a ∈ d.fill r.plan as s → (∃ c x, a = .act c x) ∨ (∃ c, a = .die c) ∨ a ∈ as := by
    intro as
    induction as with
    | nil => intro s a hm; cases hm
    | cons b as ih =>
      intro s a hm
      rw [Sending.fill] at hm
      rcases List.mem_cons.1 hm with rfl | hm
      · cases b with
        | act c x =>
          simp only [Sending.act]
          split
          · split
            · exact .inr (.inl ⟨c, rfl⟩)
            · exact .inl ⟨c, _, rfl⟩
          · exact .inl ⟨c, x, rfl⟩
        | _ => exact .inr (.inr List.mem_cons_self)
      · rcases ih _ a hm with h | h | h
        · exact .inl h
        · exact .inr (.inl h)
        · exact .inr (.inr (List.mem_cons_of_mem _ h))
  have hnot : ∀ a, (∀ c x, a ≠ .act c x) → (∀ c, a ≠ .die c) → a ∉ r.sched → a ∉ (d.run r).sched := by
    intro a h1 h2 h3 hm
    rcases hfill r.sched _ a hm with ⟨c, x, e⟩ | ⟨c, e⟩ | e
    · exact h1 c x e
    · exact h2 c e
    · exact h3 e
  refine C167_zero_if (d.run r) hl (sending_faithful d r) hleft hne hc hg (hnot _ (by simp) (by simp) hi) (hnot _ (by simp) (by simp) hu)
    (fun c => hnot _ (by simp) (by simp) (hp c)) hcoll hgone hx ?_
  intro c q hq
  have := sending_all d r c q.1 q.2 hq
  rw [this]
  exact ⟨(sending_ok d q.1 (ha q.1) (hs q.1)).2, (sending_ok d q.1 (ha q.1) (hs q.1)).1⟩

/-- Three tests run by two workers; the second test has an error. -/
def demoOwn (i : Nat) : Res := { started := true, finished := true, errors := if i = 1 then [7] else [] }

/-- The run. -/
def demoRun : ParRun := { plan := demo, sched := demoFull, read := demoRead }

/-- all succeed: 0; one has an error: 1; one result cannot be pickled at all: 1 (after the worker is found dead) -/
example : (({ own := fun _ => { started := true } } : Sending).run demoRun).status = some 0 ∧ (({ own := demoOwn } : Sending).run demoRun).status = some 1 ∧
    (({ own := fun _ => { started := true }, pickle := fun i k => if i = 1 ∧ k = .details then .raised else .ok } : Sending).run
      { demoRun with sched := demoFull.dropLast ++ [.report 1, .report 2, .act 1 {}, .act 1 {}, .act 2 {}, .act 2 {}, .stop] }).status = some 1 := by decide +kernel

example : ∀ i, ({ own := demoOwn } : Sending).Arrives i := fun i => ⟨fun k => by simp, fun k _ => ⟨rfl, rfl⟩⟩

/-- The full claim is false: if the errors of a test cannot be pickled, or not be unpickled, the run ends with status 0 although the test has an error. -/
theorem C173_lost_violated :
    (demoOwn 1).isSuccess true = false ∧
    (({ own := demoOwn, pickle := fun _ k => if k = .errors then .caught else .ok } : Sending).run demoRun).status = some 0 ∧
    (({ own := demoOwn, unpickle := fun _ k => decide (k ≠ .errors) } : Sending).run demoRun).status = some 0 := by decide +kernel

end Slash.Par
