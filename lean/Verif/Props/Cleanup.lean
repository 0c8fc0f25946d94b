import Verif.Lemmas.CleanupRec
/-!
# Properties of cleanups: C01 - C04, C55, C56

All statements are about `run ops {}`: any history of opening and closing scopes, registering
cleanups (whose callbacks are arbitrary scripts), changing the current test and adding to results.
`Ev.added r ..` is the acceptance of the `r`-th cleanup, `Ev.placed r u` says which scope object
it is on.
-/
namespace Slash.Cleanup

/-! ## C01: LIFO order, nested registrations included -/

/-- Serial numbers are registration order. -/
theorem C01_serial_is_registration_order (ops : List Op) :
    (run ops {}).log.filterMap addedReg = List.range (run ops {}).nextReg :=
  (inv_run ops inv_init).serial

/-- **C01.** Whenever a cleanup is called, every cleanup registered on the same scope after it (also by
other cleanups, also while the scope is being closed) has already been dealt with. -/
theorem C01_lifo (ops : List Op) (l1 l2 : List Ev) (r u : Nat)
    (h : (run ops {}).log = l1 ++ .ran r u :: l2) :
    ∀ r', r < r' → .placed r' u ∈ l1 → .ran r' u ∈ l1 ∨ .skipped r' u ∈ l1 :=
  (inv_run ops inv_init).lifo l1 l2 r u h

/-- **C01.** When closing a scope returns normally, every cleanup ever placed on it was called or passed
over by the flags; none is left behind. -/
theorem C01_complete (ops : List Op) (name : String) (hook : Option Kind) (ts : List Nat) (st' : St)
    (u : Nat) (tl : List Nat) (hs : (run ops {}).stack = u :: tl)
    (h : popScope name hook ts (run ops {}) = (none, st')) (r : Nat) (hp : .placed r u ∈ st'.log) :
    .ran r u ∈ st'.log ∨ .skipped r u ∈ st'.log := by
  have hi := inv_run ops inv_init
  generalize run ops {} = st at *
  rcases popScope_cases name hook ts st with ⟨h1, _⟩ | ⟨u', tl', _, _, heq⟩ | ⟨u', tl', hs', hn, heq⟩
  · rw [hs] at h1; cases h1
  · rw [heq] at h; cases h
  · rw [hs] at hs'; cases hs'
    rw [heq] at h
    generalize (popFlags st ts).1 = f at h
    generalize (popFlags st ts).2 = i at h
    simp only [Prod.mk.injEq] at h
    obtain ⟨ho, rfl⟩ := h
    have hi1 := inv_closing hi (u := u) (by rw [hs]; simp) f i
    have hi2 := inv_callCleanups (hook := hook) hi1
    have hempty : (callCleanups u f i hook (st.emit (.closing u f i))).2.cleanups u = [] := by
      unfold callCleanups at ho ⊢
      split at ho
      · cases ho
      · exact callLoop_empty ho
    have hmem : u ∈ (callCleanups u f i hook (st.emit (.closing u f i))).2.stack :=
      (hi2.actIn u f i rfl).2
    generalize (callCleanups u f i hook (st.emit (.closing u f i))).2 = s2 at *
    have hlog : (discarded s2 name u).log = s2.log ++ [.closed u] := by
      simp [discarded, hempty]
    rw [hlog] at hp ⊢
    have hp' : Ev.placed r u ∈ s2.log := by simpa using hp
    rcases hi2.outstanding r u hp' with h1 | ⟨x, hx, h2⟩
    · rw [hempty] at h1; cases h1
    · cases x <;> simp only [isDisp, Option.some.injEq, Prod.mk.injEq, reduceCtorEq] at h2
      · obtain ⟨rfl, rfl⟩ := h2; exact .inl (List.mem_append_left _ hx)
      · obtain ⟨rfl, rfl⟩ := h2; exact .inr (List.mem_append_left _ hx)
      · obtain ⟨rfl, rfl⟩ := h2; exact absurd hmem (hi2.dropClosed _ _ hx)

/-- a plain cleanup -/
def plain (acts : List Act := []) (out : Option Kind := none) : Cb := .mk false false acts out

/-- Three cleanups; the last one registers a fourth on the same scope while it runs. Order: 2, 3, 1, 0. -/
def demoOps : List Op :=
  [.setContext (some .global) none, .start .global, .push "test",
   .add .implicit (plain), .add .implicit (plain [] (some .error)), .add .implicit (plain [.add .dflt (plain)]),
   .pop "test" none []]

example : (run demoOps {}).log.filter (fun e => match e with | .ran .. => true | _ => false) =
    [.ran 2 0, .ran 3 0, .ran 1 0, .ran 0 0] := by decide

example : (popScope "test" none [] (run (demoOps.take 6) {})).1 = none := by decide

/-! ## C02: a raising cleanup does not stop the others, and is recorded -/

/-- **C02.** Closing the innermost scope under its own name raises only what the `before_test_cleanups`
hook raised or what a cleanup raised that is a skip, an interruption or a non-`Exception`; errors and
failures of cleanups never stop the remaining ones (with `C01_complete`: all are dealt with). -/
theorem C02_errors_do_not_stop (ops : List Op) (name : String) (hook : Option Kind) (ts : List Nat)
    (st' : St) (e : Exn) (u : Nat) (tl : List Nat) (hs : (run ops {}).stack = u :: tl)
    (hn : (run ops {}).scopeName u = name)
    (h : popScope name hook ts (run ops {}) = (some e, st')) :
    (name = "test" ∧ hook = some e.kind) ∨
    ((∃ r, .ended r (some e.kind) ∈ st'.log) ∧
      (e.kind = .skip ∨ e.kind = .interrupt ∨ e.kind = .other)) := by
  generalize run ops {} = st at *
  rcases popScope_cases name hook ts st with ⟨h1, _⟩ | ⟨u', tl', hs', hn', heq⟩ | ⟨u', tl', hs', _, heq⟩
  · rw [hs] at h1; cases h1
  · rw [hs] at hs'; cases hs'; exact absurd hn hn'
  · rw [hs] at hs'; cases hs'
    rw [heq] at h
    generalize (popFlags st ts).1 = f at h
    generalize (popFlags st ts).2 = i at h
    simp only [Prod.mk.injEq] at h
    obtain ⟨ho, rfl⟩ := h
    have hsn : (st.emit (.closing u f i)).scopeName u = name := hn
    unfold callCleanups at ho ⊢
    rw [hsn] at ho ⊢
    split at ho
    · rename_i k hk
      left
      cases ho
      split at hk
      · exact ⟨‹_›, hk⟩
      · cases hk
    · rename_i hk
      right
      obtain ⟨r, hr⟩ := callLoop_ended ho
      refine ⟨⟨r, ?_⟩, ?_⟩
      · simp only [hk, discarded]
        exact List.mem_append_left _ (List.mem_append_left _ hr)
      · have := callLoop_escapes ho
        cases hek : e.kind <;> simp_all [Kind.escapes]

/-- **C02.** An ordinary exception out of a cleanup is recorded with its own kind in the result that was
current when the cleanup was registered, ... -/
theorem C02_recorded (ops : List Op) (r : Nat) (k : Kind) (x : RKey) (c s : Bool)
    (he : .ended r (some k) ∈ (run ops {}).log) (hk : k.isException = true)
    (ha : .added r c s (some x) ∈ (run ops {}).log) :
    .recorded r x k ∈ (run ops {}).log :=
  (rec_run ops inv_init rec_init).rec1 r k x c s he hk ha

/-- ... what is no ordinary exception (an interruption, `SystemExit`) ends the closing and is recorded in the
result of the current test, or of the session if there is none, ... -/
theorem C02_others_recorded (st st' : St) (name : String) (ts : List Nat) (e : Exn)
    (h : popScope name none ts st = (some e, st')) (hk : e.kind.isException = false) (hc : st.curResult ≠ none) :
    ∃ r, .recorded r (match st.curTest with | some t => .test t | none => .global) e.kind ∈ st'.log := by
  rcases popScope_cases name none ts st with ⟨_, heq⟩ | ⟨u, tl, _, _, heq⟩ | ⟨u, tl, hs, _, heq⟩
  · rw [heq] at h; cases h; cases hk
  · rw [heq] at h; cases h; cases hk
  · rw [heq] at h
    simp only [callCleanups, ite_self] at h
    generalize hst1 : st.emit (.closing u (popFlags st ts).1 (popFlags st ts).2) = st1 at h
    cases hl : callLoop u (popFlags st ts).1 (popFlags st ts).2 st1 with
    | mk o st2 =>
      rw [hl] at h
      cases h
      have := callLoop_current (e := e) (by rw [hl]) hk (by rw [← hst1]; exact hc)
      obtain ⟨r, hr⟩ := this
      rw [hl, ← hst1] at hr
      refine ⟨r, ?_⟩
      simp only [discarded]
      exact List.mem_append_left _ (List.mem_append_left _ hr)

/-- ... so is whatever the hook announcing the cleanups of a test raises, ... -/
theorem C02_hook_recorded (st : St) (k : Kind) (ts : List Nat) (u : Nat) (tl : List Nat) (t : Nat)
    (hs : st.stack = u :: tl) (hn : st.scopeName u = "test") (hc : st.curResult ≠ none) (ht : st.curTest = some t) :
    (popScope "test" (some k) ts st).1 = some (.user k) ∧
    (popScope "test" (some k) ts st).2.results (.test t) = (st.results (.test t)).addKind k := by
  rcases popScope_cases "test" (some k) ts st with ⟨h1, _⟩ | ⟨u', tl', hs', hn', _⟩ | ⟨u', tl', hs', _, heq⟩
  · rw [hs] at h1; cases h1
  · rw [hs] at hs'; cases hs'; exact absurd hn hn'
  · rw [hs] at hs'; cases hs'
    rw [heq]
    have hcn : st.curResult.isNone = false := by
      cases h : st.curResult with
      | none => exact absurd h hc
      | some _ => rfl
    simp only [callCleanups, St.emit, hn, if_true, hcn, discarded, St.currentForUpdate, ht, St.record, St.updResult]
    refine ⟨by simp, ?_⟩
    by_cases hk : k = .interrupt <;> simp [hk]

example : (popScope "test" none [0] (run [.setContext (some (.test 0)) (some 0), .start (.test 0), .push "test",
    .setContext (some (.test 1)) (some 1), .add .implicit (plain [] (some .interrupt))] {})).2.log.getLast? = some (.closed 0) ∧
    .recorded 0 (.test 1) .interrupt ∈ (popScope "test" none [0] (run [.setContext (some (.test 0)) (some 0), .start (.test 0), .push "test",
    .setContext (some (.test 1)) (some 1), .add .implicit (plain [] (some .interrupt))] {})).2.log := by decide

/-- ... a cleanup is called at most once and leaves at most one record, ... -/
theorem C02_recorded_once (ops : List Op) (r : Nat) :
    (run ops {}).log.countP (isRec r) ≤ (run ops {}).log.countP (isEnded r) ∧
    (run ops {}).log.countP (isEnded r) ≤ (run ops {}).log.countP (isRan r) ∧
    (run ops {}).log.countP (isRan r) ≤ 1 := by
  have hr := rec_run ops inv_init rec_init
  have hi := inv_run ops inv_init
  refine ⟨hr.recEnded r, ?_, ?_⟩
  · have := hr.endedRan r; simpa using this
  · -- each serial number is disposed of at most once
    have hnd : (disposed (run ops {}).log).Nodup := by
      have := hi.conserve.nodup_iff.2 List.nodup_range
      exact (List.nodup_append.1 this).2.1
    have hcount : (run ops {}).log.countP (isRan r) ≤ (disposed (run ops {}).log).count r := by
      generalize (run ops {}).log = l
      clear hr hi hnd
      induction l with
      | nil => simp
      | cons e l ih =>
        have hd : disposed (e :: l) = disposed [e] ++ disposed l := disposed_append [e] l
        rw [hd, List.countP_cons, List.count_append]
        have h1 : (if isRan r e = true then 1 else 0) ≤ (disposed [e]).count r := by
          cases e <;> simp only [isRan, Bool.false_eq_true, if_false, Nat.zero_le]
          rename_i r' u
          have : disposed [Ev.ran r' u] = [r'] := rfl
          rw [this, List.count_singleton]
          exact Nat.le_refl _
        omega
    exact Nat.le_trans hcount (List.nodup_iff_count.1 hnd r)

/-- ... and what has been recorded is found in the results: each result holds at least as many errors,
failures and skips as were recorded in it. -/
theorem C02_results (ops : List Op) (x : RKey) :
    (run ops {}).log.countP (recIn x [.error, .other]) ≤ ((run ops {}).results x).errors.length ∧
    (run ops {}).log.countP (recIn x [.failure]) ≤ ((run ops {}).results x).failures.length ∧
    (run ops {}).log.countP (recIn x [.skip]) ≤ ((run ops {}).results x).skips.length ∧
    ((∃ r, .recorded r x .interrupt ∈ (run ops {}).log) → ((run ops {}).results x).interrupted = true) := by
  have h := res_run ops res_init
  refine ⟨h.errs x, h.fails x, h.skips x, ?_⟩
  rintro ⟨r, hr⟩
  apply h.ints
  rw [List.countP_pos_iff]
  exact ⟨_, hr, by simp [recIn]⟩

/-- ... A registration that is refused inside a cleanup makes the cleanup raise, unless the cleanup itself
handles it: whatever it would have done afterwards, it ends with an error - a failure if the refused
registration asked for both `critical` and `success_only`, which is a failed assertion. -/
theorem C02_refused_inside (st : St) (c : Reg) (pre post : List Act) (sc : ScopeArg) (cb : Cb) (st1 st2 : St)
    (e : Exn) (hacts : c.cb.acts = pre ++ .add sc cb :: post) (hpre : runActs pre st = (none, st1))
    (hadd : addCleanup sc cb st1 = (some e, st2)) :
    .ended c.reg (some (if cb.critical = true ∧ cb.successOnly = true then .failure else .error))
      ∈ (callCleanup c st).2.log := by
  have hrun : ∀ (l : List Act) (s : St), runActs l s = (none, st1) →
      runActs (l ++ .add sc cb :: post) s = (some e, st2) := by
    intro l
    induction l with
    | nil =>
      intro s h
      simp only [runActs, Prod.mk.injEq, true_and] at h
      subst h
      simp only [List.nil_append, runActs, hadd]
    | cons a l ih =>
      intro s h
      cases a with
      | add sc' cb' =>
        simp only [runActs, List.cons_append] at h ⊢
        cases hx : addCleanup sc' cb' s with
        | mk o s' =>
          rw [hx] at h
          cases o with
          | some e' => simp at h
          | none => exact ih s' h
      | note k =>
        simp only [runActs, List.cons_append] at h ⊢
        cases hx : s.curResult with
        | none => rw [hx] at h; simp at h
        | some r => rw [hx] at h; exact ih _ h
  have hr := hrun pre st hpre
  rw [← hacts] at hr
  have hk : e.kind = (if cb.critical = true ∧ cb.successOnly = true then .failure else .error) := by
    unfold addCleanup at hadd
    cases hs : cb.successOnly <;> cases hc : cb.critical <;> simp only [hs, hc, Bool.and_true, Bool.and_false,
      Bool.true_and, Bool.false_and, Bool.false_eq_true, if_true, if_false] at hadd ⊢
    case true.true => cases hadd; rfl
    all_goals
      unfold selectScope at hadd
      simp only at hadd
      split at hadd
      · rename_i heq
        simp only [Prod.mk.injEq, Option.some.injEq] at hadd
        obtain ⟨rfl, _⟩ := hadd
        split at heq
        · split at heq
          · cases heq; rfl
          · cases heq
        · split at heq <;> first | (cases heq; rfl) | cases heq
      · simp at hadd
  have hsub : .ended c.reg (some e.kind) ∈ (callCleanup c st).2.log := by
    unfold callCleanup
    simp only [hr, endOf, Option.map_some]
    split
    · split
      · simp only [St.emit, St.record]
        split <;> simp [St.updResult]
      · simp [St.emit]
    · simp [St.emit]
  rw [hk] at hsub
  exact hsub

/-- A cleanup that names a scope nobody opened, inside a test: it is recorded as an error of the test. -/
example : (run [.setContext (some (.test 0)) (some 0), .start (.test 0), .push "test",
    .add .implicit (plain [.add (.named "nope") plain] none),
    .add .implicit (plain [.add .implicit (.mk true true [] none)] none), .pop "test" none [0]] {}).log.filter
      (fun e => match e with | .ended .. | .recorded .. => true | _ => false)
    = [.ended 1 (some .failure), .recorded 1 (.test 0) .failure,
       .ended 0 (some .error), .recorded 0 (.test 0) .error] := by decide

example : .ended 1 (some .error) ∈ (run demoOps {}).log ∧ .recorded 1 .global .error ∈ (run demoOps {}).log ∧
    ((run demoOps {}).results .global).errors.length = 1 := by decide

/-- A skip raised by a cleanup is not swallowed: the hypotheses of `C02_errors_do_not_stop` are met. -/
example : (popScope "test" none [] (run [.setContext (some .global) none, .start .global, .push "test",
    .add .implicit plain, .add .implicit (plain [] (some .skip))] {})).1 = some (.user .skip) := by decide

/-! ## C03: which cleanups are called -/

/-- **C03.** A cleanup that was called was eligible: with the flags the closing of its scope started with
(`f`: unsuccessful, `i`: interrupted), only critical ones under an interruption, no `success_only` one
under a failure or interruption. -/
theorem C03_called_were_eligible (ops : List Op) (r u : Nat) (f i c s : Bool) (x : Option RKey)
    (hr : .ran r u ∈ (run ops {}).log) (hc : .closing u f i ∈ (run ops {}).log)
    (ha : .added r c s x ∈ (run ops {}).log) :
    (i = true → c = true) ∧ (f = true ∨ i = true → s = false) := by
  have hi := inv_run ops inv_init
  obtain ⟨f', i', c', s', x', h1, h2, h3⟩ := hi.ranRule r u hr
  obtain ⟨rfl, rfl⟩ := hi.closingUniq _ _ _ _ _ hc h1
  obtain ⟨rfl, rfl, rfl⟩ := hi.addedUniq _ _ _ _ _ _ _ ha h2
  exact h3

/-- **C03.** A cleanup that was passed over was not eligible. -/
theorem C03_passed_over_were_not (ops : List Op) (r u : Nat) (f i c s : Bool) (x : Option RKey)
    (hr : .skipped r u ∈ (run ops {}).log) (hc : .closing u f i ∈ (run ops {}).log)
    (ha : .added r c s x ∈ (run ops {}).log) :
    (i = true ∧ c = false) ∨ ((f = true ∨ i = true) ∧ s = true) := by
  have hi := inv_run ops inv_init
  obtain ⟨f', i', c', s', x', h1, h2, h3⟩ := hi.skipRule r u hr
  obtain ⟨rfl, rfl⟩ := hi.closingUniq _ _ _ _ _ hc h1
  obtain ⟨rfl, rfl, rfl⟩ := hi.addedUniq _ _ _ _ _ _ _ ha h2
  unfold Rule at h3
  cases f <;> cases i <;> cases c <;> cases s <;> simp_all

/-- closing only appends to the log -/
theorem callCleanups_grows : ∀ (u : Nat) (f i : Bool) (hook : Option Kind) (st : St),
    ∃ m, (callCleanups u f i hook st).2.log = st.log ++ m := by
  have hadd : ∀ sc cb (st : St), ∃ m, (addCleanup sc cb st).2.log = st.log ++ m := by
    intro sc cb st; unfold addCleanup
    split
    · exact ⟨[], by simp⟩
    · split
      · exact ⟨[], by simp⟩
      · rename_i uid _
        cases uid with
        | none => exact ⟨_, rfl⟩
        | some u => exact ⟨_, by simp only [place, St.emit, List.append_assoc]; rfl⟩
  have hacts : ∀ acts (st : St), ∃ m, (runActs acts st).2.log = st.log ++ m := by
    intro acts
    induction acts with
    | nil => intro st; exact ⟨[], by simp [runActs]⟩
    | cons a rest ih =>
      intro st
      cases a with
      | add sc cb =>
        obtain ⟨m, hm⟩ := hadd sc cb st
        simp only [runActs]
        split <;> rename_i heq <;> rw [heq] at hm
        · exact ⟨m, hm⟩
        · obtain ⟨m', hm'⟩ := ih ‹St›
          exact ⟨m ++ m', by rw [hm', hm, List.append_assoc]⟩
      | note k =>
        simp only [runActs]
        split
        · obtain ⟨m', hm'⟩ := ih (st.record ‹RKey› k)
          exact ⟨m', by rw [hm', log_record]⟩
        · exact ⟨[], by simp⟩
  have hloop : ∀ u f i (st : St), ∃ m, (callLoop u f i st).2.log = st.log ++ m := by
    intro u f i st
    apply callLoop_ind (P := fun st _ st' => ∃ m, st'.log = st.log ++ m)
    · intro st _; exact ⟨[], by simp⟩
    · intro st c rest o st' _ _ ⟨m, hm⟩
      exact ⟨[.skipped c.reg u] ++ m, by rw [hm]; simp [taken, St.emit]⟩
    · intro st c rest e st' _ _ hg
      obtain ⟨s1, h1, o, tl, hl, _, _⟩ := guardedCall_log c (taken st u rest (.ran c.reg u))
      obtain ⟨m, hm⟩ := hacts c.cb.acts (taken st u rest (.ran c.reg u))
      rw [hg] at hl
      exact ⟨[.ran c.reg u] ++ m ++ [.ended c.reg o] ++ tl, by rw [hl, h1, hm]; simp [taken, St.emit]⟩
    · intro st c rest st1 o st' _ _ hg ⟨m', hm'⟩
      obtain ⟨s1, h1, o', tl, hl, _, _⟩ := guardedCall_log c (taken st u rest (.ran c.reg u))
      obtain ⟨m, hm⟩ := hacts c.cb.acts (taken st u rest (.ran c.reg u))
      rw [hg] at hl
      simp only at hl
      exact ⟨[.ran c.reg u] ++ m ++ [.ended c.reg o'] ++ tl ++ m',
        by rw [hm', hl, h1, hm]; simp [taken, St.emit]⟩
  intro u f i hook st
  unfold callCleanups
  split
  · simp only; split
    · exact ⟨[], by simp⟩
    · exact ⟨[], by simp [log_record]⟩
  · exact hloop ..

/-- **C03.** The flags are those of the current result when closing starts: interrupted, and
unsuccessful = has an error, a failure or an interruption, or neither ran nor was skipped. -/
theorem C03_flags (st : St) (name : String) (hook : Option Kind) (ts : List Nat) (u : Nat) (tl : List Nat)
    (t : Nat) (hs : st.stack = u :: tl) (hn : st.scopeName u = name) (hc : st.curResult = some (.test t)) :
    ∃ rest, (popScope name hook ts st).2.log = st.log ++
      .closing u (decide ((st.results (.test t)).errors ≠ [] ∨ (st.results (.test t)).failures ≠ [] ∨
          (st.results (.test t)).interrupted = true ∨
          ((st.results (.test t)).started = false ∧ (st.results (.test t)).skips = [])))
        (st.results (.test t)).interrupted :: rest := by
  rcases popScope_cases name hook ts st with ⟨h1, _⟩ | ⟨u', tl', hs', hn', heq⟩ | ⟨u', tl', hs', _, heq⟩
  · rw [hs] at h1; cases h1
  · rw [hs] at hs'; cases hs'; exact absurd hn hn'
  · rw [hs] at hs'; cases hs'
    rw [heq]
    have hf : popFlags st ts = (!(st.results (.test t)).isSuccess true, (st.results (.test t)).interrupted) := by
      simp [popFlags, hc, currentSuccess, Result.isInterrupted]
    rw [hf]
    simp only
    obtain ⟨m, hm⟩ := callCleanups_grows u (!(st.results (.test t)).isSuccess true) (st.results (.test t)).interrupted hook
      (st.emit (.closing u (!(st.results (.test t)).isSuccess true) (st.results (.test t)).interrupted))
    generalize callCleanups u _ _ hook _ = q at hm ⊢
    have hdec : (!(st.results (.test t)).isSuccess true) =
        decide ((st.results (.test t)).errors ≠ [] ∨ (st.results (.test t)).failures ≠ [] ∨
          (st.results (.test t)).interrupted = true ∨
          ((st.results (.test t)).started = false ∧ (st.results (.test t)).skips = [])) := by
      generalize st.results (.test t) = R
      simp only [Result.isSuccess, Result.isStarted]
      cases R.errors <;> cases R.failures <;> cases R.interrupted <;> cases R.skips <;> cases R.started <;> simp
    refine ⟨m ++ (q.2.cleanups u).map (fun c => .dropped c.reg u) ++ [.closed u], ?_⟩
    simp only [discarded, hm, St.emit, hdec, List.append_assoc, List.cons_append, List.nil_append]

/-- **C03.** When no test is current, what counts is the session as a whole: its own entries and the results of
all its tests. -/
theorem C03_flags_session (st : St) (name : String) (hook : Option Kind) (ts : List Nat) (u : Nat) (tl : List Nat)
    (hs : st.stack = u :: tl) (hn : st.scopeName u = name) (hc : st.curResult = some .global) :
    ∃ f rest, (popScope name hook ts st).2.log = st.log ++ .closing u f (st.results .global).interrupted :: rest ∧
      (f = false ↔ ∀ x, x = .global ∨ (∃ t ∈ ts, x = .test t) →
        (st.results x).errors = [] ∧ (st.results x).failures = [] ∧ (st.results x).interrupted = false ∧
        ((st.results x).started = true ∨ (st.results x).skips ≠ [])) := by
  rcases popScope_cases name hook ts st with ⟨h1, _⟩ | ⟨u', tl', hs', hn', heq⟩ | ⟨u', tl', hs', _, heq⟩
  · rw [hs] at h1; cases h1
  · rw [hs] at hs'; cases hs'; exact absurd hn hn'
  · rw [hs] at hs'; cases hs'
    rw [heq]
    have hf : popFlags st ts = (!((st.results .global).isSuccess true &&
        ts.all (fun t => (st.results (.test t)).isSuccess true)), (st.results .global).interrupted) := by
      simp [popFlags, hc, currentSuccess, Result.isInterrupted]
    have hok : ∀ R : Result, R.isSuccess true = true ↔ R.errors = [] ∧ R.failures = [] ∧ R.interrupted = false ∧
        (R.started = true ∨ R.skips ≠ []) := by
      intro R
      simp only [Result.isSuccess, Result.isStarted]
      cases R.errors <;> cases R.failures <;> cases R.interrupted <;> cases R.skips <;> cases R.started <;> simp
    rw [hf]
    generalize hg : (!((st.results .global).isSuccess true &&
        ts.all (fun t => (st.results (.test t)).isSuccess true))) = f
    simp only
    obtain ⟨m, hm⟩ := callCleanups_grows u f (st.results .global).interrupted hook
      (st.emit (.closing u f (st.results .global).interrupted))
    generalize callCleanups u _ _ hook _ = q at hm ⊢
    refine ⟨f, m ++ (q.2.cleanups u).map (fun c => .dropped c.reg u) ++ [.closed u], ?_, ?_⟩
    · simp only [discarded, hm, St.emit, List.append_assoc, List.cons_append, List.nil_append]
    · rw [← hg, Bool.not_eq_false', Bool.and_eq_true, List.all_eq_true, hok]
      constructor
      · rintro ⟨h1, h2⟩ x (rfl | ⟨t, ht, rfl⟩)
        · exact h1
        · exact (hok _).1 (h2 t ht)
      · intro h
        exact ⟨h _ (.inl rfl), fun t ht => (hok _).2 (h _ (.inr ⟨t, ht, rfl⟩))⟩

/-- The session's own result is clean, but a test failed: the `success_only` cleanup of the session is passed over. -/
example : (run [.setContext (some .global) none, .start .global, .push "session",
    .add .implicit (.mk false true [] none), .start (.test 0), .note (.test 0) .failure, .pop "session" none [0]] {}).log.drop 3
    = [.closing 0 true false, .skipped 0 0, .closed 0] := by decide

/-- After an error, `success_only` cleanups are passed over; after an interruption only critical ones run. -/
def demoFlags (k : Kind) : List Op :=
  [.setContext (some (.test 0)) (some 0), .start (.test 0), .push "test",
   .add .implicit (.mk true false [] none), .add .implicit (.mk false true [] none), .add .implicit plain,
   .note (.test 0) k, .pop "test" none [0]]

example : (run (demoFlags .error) {}).log.filter (fun e => match e with | .ran .. | .skipped .. | .closing .. => true | _ => false)
    = [.closing 0 true false, .ran 2 0, .skipped 1 0, .ran 0 0] := by decide
example : (run (demoFlags .interrupt) {}).log.filter (fun e => match e with | .ran .. | .skipped .. | .closing .. => true | _ => false)
    = [.closing 0 true true, .skipped 2 0, .skipped 1 0, .ran 0 0] := by decide

/-! ## C04: conservation -/

/-- **C04.** Every accepted cleanup is exactly in one place: waiting for a first scope, on one open scope,
or dealt with once (called, passed over, or dropped with its scope). -/
theorem C04_conservation (ops : List Op) :
    ((run ops {}).pending.map Reg.reg
      ++ (run ops {}).stack.flatMap (fun u => ((run ops {}).cleanups u).map Reg.reg)
      ++ (run ops {}).log.filterMap (fun e => match e with
          | .ran r _ | .skipped r _ | .dropped r _ => some r
          | _ => none)).Perm (List.range (run ops {}).nextReg) := by
  have h := (inv_run ops inv_init).conserve
  have : (run ops {}).log.filterMap (fun e => match e with
          | .ran r _ | .skipped r _ | .dropped r _ => some r
          | _ => none) = disposed (run ops {}).log := by
    unfold disposed
    congr 1
    funext e
    cases e <;> rfl
  rw [this]; exact h

/-- **C04.** A cleanup is dealt with only as part of the scope it was put on. -/
theorem C04_right_scope (ops : List Op) (r u : Nat)
    (h : .ran r u ∈ (run ops {}).log ∨ .skipped r u ∈ (run ops {}).log ∨ .dropped r u ∈ (run ops {}).log) :
    .placed r u ∈ (run ops {}).log := by
  have hi := inv_run ops inv_init
  rcases h with h | h | h
  · exact hi.dispPlaced _ h r u rfl
  · exact hi.dispPlaced _ h r u rfl
  · exact hi.dispPlaced _ h r u rfl

/-- **C04.** Registering by scope name puts the cleanup on the innermost open scope of that name ... -/
theorem C04_named_registration (ops : List Op) (s : String) (cb : Cb) (u : Nat)
    (hflags : ¬ (cb.critical = true ∧ cb.successOnly = true))
    (hu : (run ops {}).stack.find? (fun u => (run ops {}).scopeName u = s) = some u) :
    (addCleanup (.named s) cb (run ops {})).1 = none ∧
    (addCleanup (.named s) cb (run ops {})).2.log = (run ops {}).log ++
      [.added (run ops {}).nextReg cb.critical cb.successOnly (run ops {}).curResult,
       .placed (run ops {}).nextReg u] := by
  have hi := inv_run ops inv_init
  generalize run ops {} = st at *
  have hb := hi.byName s
  have hh : (st.stack.filter (fun u => st.scopeName u = s)).head? = some u := by
    rw [filter_head_find]; exact hu
  have hf : (cb.successOnly && cb.critical) = false := by
    cases h1 : cb.successOnly <;> cases h2 : cb.critical <;> simp_all
  cases hbn : st.byName s with
  | none => rw [hbn] at hb; simp only [Option.getD_none] at hb; rw [← hb] at hh; cases hh
  | some l =>
    rw [hbn] at hb
    simp only [Option.getD_some] at hb
    rw [← hb] at hh
    cases l with
    | nil => cases hh
    | cons v l =>
      simp only [List.head?_cons, Option.some.injEq] at hh
      subst hh
      simp only [addCleanup, hf, Bool.false_eq_true, if_false, selectScope, hbn, place, St.emit]
      simp

/-- ... a name no open scope has is refused, and nothing changes; ... -/
theorem C04_named_refused (ops : List Op) (s : String) (cb : Cb)
    (hu : ∀ u ∈ (run ops {}).stack, (run ops {}).scopeName u ≠ s) :
    (addCleanup (.named s) cb (run ops {})).1 ≠ none ∧
    (addCleanup (.named s) cb (run ops {})).2 = run ops {} := by
  have hi := inv_run ops inv_init
  generalize run ops {} = st at *
  have hb := hi.byName s
  have hnil : st.stack.filter (fun u => st.scopeName u = s) = [] := by
    rw [List.filter_eq_nil_iff]; intro u h; simpa using hu u h
  rw [hnil] at hb
  unfold addCleanup
  split
  · exact ⟨by simp, rfl⟩
  · unfold selectScope
    simp only
    cases hbn : st.byName s with
    | none => simp
    | some l => rw [hbn] at hb; simp only [Option.getD_some] at hb; subst hb; simp

/-- ... and registering without a name (nor default) uses the innermost open scope, or waits for the first
scope to be opened, unless implicit scoping is forbidden. -/
theorem C04_implicit_registration (st : St) (cb : Cb)
    (hflags : ¬ (cb.critical = true ∧ cb.successOnly = true)) :
    (st.allowImplicit = false → addCleanup .implicit cb st = (some .cannotAdd, st)) ∧
    (st.allowImplicit = true → (addCleanup .implicit cb st).1 = none ∧
      (addCleanup .implicit cb st).2.log = st.log ++
        .added st.nextReg cb.critical cb.successOnly st.curResult ::
          (match st.stack with | [] => [] | u :: _ => [.placed st.nextReg u])) := by
  have hf : (cb.successOnly && cb.critical) = false := by
    cases h1 : cb.successOnly <;> cases h2 : cb.critical <;> simp_all
  constructor
  · intro h; simp [addCleanup, hf, selectScope, h]
  · intro h
    simp only [addCleanup, hf, Bool.false_eq_true, if_false, selectScope, h, Bool.not_true]
    cases st.stack with
    | nil => simp [place, St.emit]
    | cons u tl => simp [place, St.emit]

/-- ... Leaving out the scope altogether means the default scope in force, and no name if there is none. -/
theorem C04_default_registration (st : St) (cb : Cb) :
    addCleanup .dflt cb st = match st.defaultScope with
      | some s => addCleanup (.named s) cb st
      | none => addCleanup .implicit cb st := by
  unfold addCleanup
  cases h : st.defaultScope <;> simp [selectScope, h]

/-- Neither closing scopes nor anything callbacks do changes the two settings of the manager. -/
theorem record_settings (st : St) (r : RKey) (k : Kind) :
    (st.record r k).defaultScope = st.defaultScope ∧ (st.record r k).allowImplicit = st.allowImplicit := by
  unfold St.record; simp only; split <;> exact ⟨rfl, rfl⟩

theorem addCleanup_settings (sc : ScopeArg) (cb : Cb) (st : St) :
    (addCleanup sc cb st).2.defaultScope = st.defaultScope ∧
    (addCleanup sc cb st).2.allowImplicit = st.allowImplicit := by
  unfold addCleanup
  split
  · exact ⟨rfl, rfl⟩
  · split
    · exact ⟨rfl, rfl⟩
    · unfold place; simp only; split <;> exact ⟨rfl, rfl⟩

theorem runActs_settings (acts : List Act) : ∀ st : St,
    (runActs acts st).2.defaultScope = st.defaultScope ∧
    (runActs acts st).2.allowImplicit = st.allowImplicit := by
  induction acts with
  | nil => intro st; exact ⟨rfl, rfl⟩
  | cons a rest ih =>
    intro st
    cases a with
    | add sc cb =>
      have h1 := addCleanup_settings sc cb st
      simp only [runActs]
      split
      · rename_i heq; rw [heq] at h1; exact h1
      · rename_i st1 heq; rw [heq] at h1
        have h2 := ih st1
        exact ⟨h2.1.trans h1.1, h2.2.trans h1.2⟩
    | note k =>
      simp only [runActs]
      split
      · rename_i r _
        have h1 := record_settings st r k
        have h2 := ih (st.record r k)
        exact ⟨h2.1.trans h1.1, h2.2.trans h1.2⟩
      · exact ⟨rfl, rfl⟩

theorem guardedCall_settings (c : Reg) (st : St) :
    (guardedCall c st).2.defaultScope = st.defaultScope ∧
    (guardedCall c st).2.allowImplicit = st.allowImplicit := by
  have h0 := runActs_settings c.cb.acts st
  have h1 : (callCleanup c st).2.defaultScope = st.defaultScope ∧
      (callCleanup c st).2.allowImplicit = st.allowImplicit := by
    unfold callCleanup
    split
    rename_i o st1 heq
    rw [heq] at h0
    simp only
    split
    · exact h0
    · split
      · split
        · have := record_settings (st1.emit (.ended c.reg ((endOf o c.cb).map Exn.kind))) ‹RKey› (Exn.kind ‹Exn›)
          exact ⟨this.1.trans h0.1, this.2.trans h0.2⟩
        · exact h0
      · exact h0
  unfold guardedCall
  split
  · rename_i heq; rw [heq] at h1; exact h1
  · rename_i e rec st1 heq
    rw [heq] at h1
    simp only at h1 ⊢
    split <;> split
    · exact h1
    · have := record_settings st1 st1.currentForUpdate e.kind
      exact ⟨this.1.trans h1.1, this.2.trans h1.2⟩
    · exact h1
    · have := record_settings st1 st1.currentForUpdate e.kind
      exact ⟨this.1.trans h1.1, this.2.trans h1.2⟩

theorem callLoopN_settings : ∀ (n u : Nat) (f i : Bool) (st : St),
    (callLoopN n u f i st).2.defaultScope = st.defaultScope ∧
    (callLoopN n u f i st).2.allowImplicit = st.allowImplicit := by
  intro n
  induction n with
  | zero => intros; exact ⟨rfl, rfl⟩
  | succ n ih =>
    intro u f i st
    unfold callLoopN
    split
    · exact ⟨rfl, rfl⟩
    · simp only
      split
      · exact ih _ _ _ _
      · rename_i c rest _ _
        have h1 := guardedCall_settings c
          (({ st with cleanups := fun v => if v = u then rest else st.cleanups v }).emit (.ran c.reg u))
        split
        · rename_i heq; rw [heq] at h1; exact h1
        · rename_i st2 heq; rw [heq] at h1
          have h2 := ih u f i st2
          exact ⟨h2.1.trans h1.1, h2.2.trans h1.2⟩

theorem popScope_settings (name : String) (hook : Option Kind) (ts : List Nat) (st : St) :
    (popScope name hook ts st).2.defaultScope = st.defaultScope ∧
    (popScope name hook ts st).2.allowImplicit = st.allowImplicit := by
  unfold popScope
  split
  split
  · exact ⟨rfl, rfl⟩
  · rename_i f i _ _ u _ _
    split
    · exact ⟨rfl, rfl⟩
    · have : ∀ st1 : St, (callCleanups u f i hook st1).2.defaultScope = st1.defaultScope ∧
          (callCleanups u f i hook st1).2.allowImplicit = st1.allowImplicit := by
        intro st1
        unfold callCleanups
        split
        · simp only
          split
          · exact ⟨rfl, rfl⟩
          · exact record_settings _ _ _
        · exact callLoopN_settings _ _ _ _ _
      exact this (st.emit (.closing u f i))

/-- ... The default scope in force is the one set last, whatever scopes were opened and closed and whatever
cleanups did since: a cleanup registered without a scope goes where one naming that scope would go; and the same
holds for the permission to register without any scope. -/
theorem C04_setting_in_force (ops ops' : List Op) (cb : Cb) (st : St)
    (hq : ∀ o ∈ ops', ∀ d, o ≠ .setDefault d) :
    (∀ s, addCleanup .dflt cb (run (ops ++ .setDefault (some s) :: ops') st)
      = addCleanup (.named s) cb (run (ops ++ .setDefault (some s) :: ops') st)) ∧
    addCleanup .dflt cb (run (ops ++ .setDefault none :: ops') st)
      = addCleanup .implicit cb (run (ops ++ .setDefault none :: ops') st) := by
  have key : ∀ d, (run (ops ++ .setDefault d :: ops') st).defaultScope = d := by
    intro d
    have hrest : ∀ (l : List Op) (s : St), (∀ o ∈ l, ∀ d, o ≠ .setDefault d) →
        (run l s).defaultScope = s.defaultScope := by
      intro l
      induction l with
      | nil => intros; rfl
      | cons o l ih =>
        intro s h
        have h1 : (step s o).2.defaultScope = s.defaultScope := by
          cases o with
          | setDefault d => exact absurd rfl (h _ List.mem_cons_self d)
          | pop n k ts => exact (popScope_settings n k ts s).1
          | add sc cb => exact (addCleanup_settings sc cb s).1
          | note r k => exact (record_settings s r k).1
          | _ => rfl
        exact (ih _ (fun o ho => h o (List.mem_cons_of_mem _ ho))).trans h1
    have : run (ops ++ .setDefault d :: ops') st = run ops' { run ops st with defaultScope := d } := by
      simp only [run, List.foldl_append, List.foldl_cons]; rfl
    rw [this, hrest _ _ hq]
  constructor
  · intro s; rw [C04_default_registration, key]
  · rw [C04_default_registration, key]

theorem C04_permission_in_force (ops ops' : List Op) (cb : Cb) (st : St)
    (hflags : ¬ (cb.critical = true ∧ cb.successOnly = true))
    (hq : ∀ o ∈ ops', ∀ b, o ≠ .setImplicit b) (b : Bool) :
    (addCleanup .implicit cb (run (ops ++ .setImplicit b :: ops') st)).1 = none ↔ b = true := by
  have key : (run (ops ++ .setImplicit b :: ops') st).allowImplicit = b := by
    have hrest : ∀ (l : List Op) (s : St), (∀ o ∈ l, ∀ d, o ≠ .setImplicit d) →
        (run l s).allowImplicit = s.allowImplicit := by
      intro l
      induction l with
      | nil => intros; rfl
      | cons o l ih =>
        intro s h
        have h1 : (step s o).2.allowImplicit = s.allowImplicit := by
          cases o with
          | setImplicit d => exact absurd rfl (h _ List.mem_cons_self d)
          | pop n k ts => exact (popScope_settings n k ts s).2
          | add sc cb => exact (addCleanup_settings sc cb s).2
          | note r k => exact (record_settings s r k).2
          | _ => rfl
        exact (ih _ (fun o ho => h o (List.mem_cons_of_mem _ ho))).trans h1
    have : run (ops ++ .setImplicit b :: ops') st = run ops' { run ops st with allowImplicit := b } := by
      simp only [run, List.foldl_append, List.foldl_cons]; rfl
    rw [this, hrest _ _ hq]
  have := C04_implicit_registration (run (ops ++ .setImplicit b :: ops') st) cb hflags
  cases b with
  | false => rw [this.1 key]; simp
  | true => exact ⟨fun _ => rfl, fun _ => (this.2 key).1⟩

/-- With a default scope, a cleanup registered inside a test goes to it. -/
example : (run [.push "session", .push "test", .setDefault (some "session"), .add .dflt plain, .add .implicit plain] {}).log.filter
      (fun e => match e with | .placed .. => true | _ => false)
    = [.placed 0 0, .placed 1 1] := by decide

/-- Cleanups registered before any scope was opened go to the first one opened. -/
example : (run [.add .implicit plain, .add .implicit plain, .push "session", .push "test",
    .add (.named "session") plain, .pop "test" none [], .pop "session" none []] {}).log.filter
      (fun e => match e with | .ran .. | .placed .. => true | _ => false)
    = [.placed 0 0, .placed 1 0, .placed 2 0, .ran 2 0, .ran 1 0, .ran 0 0] := by decide

/-! ## C55: critical cleanups always run -/

/-- **C55 is violated**: "critical: this cleanup will take place even when tests are interrupted by the
user" (documentation of `add_cleanup`). When the interruption arrives while another cleanup of the scope
is running, the remaining ones - critical ones included - are dropped without being called. -/
theorem C55_critical_always_runs_violated :
    ∃ (ops : List Op) (r : Nat), .added r true false (some (.test 0)) ∈ (run ops {}).log ∧
      .dropped r 0 ∈ (run ops {}).log ∧ ¬ (.ran r 0 ∈ (run ops {}).log) ∧ (run ops {}).stack = [] :=
  ⟨[.setContext (some (.test 0)) (some 0), .start (.test 0), .push "test",
    .add .implicit (.mk true false [] none),
    .add .implicit (plain [] (some .interrupt)),
    .pop "test" none [0]], 0, by decide⟩

/-- **C55, partial**: if closing the scope returns normally (no cleanup raised a skip, an interruption or
a non-`Exception`, and no `before_test_cleanups` hook raised), every critical cleanup of the scope is called,
whatever the state of the results. Missing for the full property: the case where closing is cut short. -/
theorem C55_critical_runs_partial (ops : List Op) (name : String) (hook : Option Kind) (ts : List Nat)
    (st' : St) (u : Nat) (tl : List Nat) (hs : (run ops {}).stack = u :: tl)
    (h : popScope name hook ts (run ops {}) = (none, st')) (r : Nat) (x : Option RKey)
    (hp : .placed r u ∈ st'.log) (ha : .added r true false x ∈ st'.log) :
    .ran r u ∈ st'.log := by
  rcases C01_complete ops name hook ts st' u tl hs h r hp with h1 | h1
  · exact h1
  · exfalso
    have hst : st' = run (ops ++ [.pop name hook ts]) {} := by
      have : run (ops ++ [.pop name hook ts]) {} = (popScope name hook ts (run ops {})).2 := by
        simp only [run, List.foldl_append, List.foldl_cons, List.foldl_nil]; rfl
      rw [this, h]
    have hi := inv_run (ops ++ [.pop name hook ts]) inv_init
    rw [← hst] at hi
    obtain ⟨f, i, c, s, x', g1, g2, g3⟩ := hi.skipRule r u h1
    obtain ⟨rfl, rfl, _⟩ := hi.addedUniq _ _ _ _ _ _ _ ha g2
    exact g3 ⟨fun _ => rfl, fun _ => rfl⟩

example : ∃ st', popScope "test" none [0] (run ((demoFlags .interrupt).take 7) {}) = (none, st') ∧
    .placed 0 0 ∈ st'.log ∧ .added 0 true false (some (.test 0)) ∈ st'.log := ⟨_, rfl, by decide⟩

/-! ## C56: naming a scope that is not open is reported as such -/

/-- **C56 is violated**: after a scope was opened and closed once, naming it raises `IndexError` rather than
`IncorrectScope`. -/
theorem C56_incorrect_scope_reported_violated :
    ∃ (ops : List Op) (s : String) (cb : Cb),
      (run ops {}).stack = [] ∧ (addCleanup (.named s) cb (run ops {})).1 = some .indexError :=
  ⟨[.push "test", .pop "test" none []], "test", plain, by decide⟩

/-- **C56.** Naming a scope that is not open is always refused, and nothing is registered. -/
theorem C56_registers_nothing (ops : List Op) (s : String) (cb : Cb)
    (h : ∀ u ∈ (run ops {}).stack, (run ops {}).scopeName u ≠ s) :
    ∃ e, addCleanup (.named s) cb (run ops {}) = (some e, run ops {}) := by
  have hb := (inv_run ops inv_init).byName s
  rw [List.filter_eq_nil_iff.2 (by intro u hu; simpa using h u hu)] at hb
  unfold addCleanup selectScope
  split
  · exact ⟨_, rfl⟩
  · simp only
    cases hn : (run ops {}).byName s with
    | none => exact ⟨_, rfl⟩
    | some l =>
      rw [hn] at hb
      simp only [Option.getD_some] at hb
      subst hb
      exact ⟨_, rfl⟩

example : (run [.push "test", .pop "test" none []] {}).stack = [] ∧
    ∃ e, addCleanup (.named "test") plain (run [.push "test", .pop "test" none []] {}) =
      (some e, run [.push "test", .pop "test" none []] {}) :=
  ⟨by decide, C56_registers_nothing _ _ _ (by decide)⟩

/-- **C56.** Naming a scope that is open is accepted, and the cleanup is put on the innermost open scope of that name. -/
theorem C56_open_accepted (ops : List Op) (s : String) (cb : Cb)
    (hflags : ¬ (cb.critical = true ∧ cb.successOnly = true)) (inner outer : List Nat) (u : Nat)
    (hs : (run ops {}).stack = inner ++ u :: outer) (hu : (run ops {}).scopeName u = s)
    (hi : ∀ v ∈ inner, (run ops {}).scopeName v ≠ s) :
    (addCleanup (.named s) cb (run ops {})).1 = none ∧
    (addCleanup (.named s) cb (run ops {})).2.log = (run ops {}).log ++
      [.added (run ops {}).nextReg cb.critical cb.successOnly (run ops {}).curResult, .placed (run ops {}).nextReg u] := by
  have hb := (inv_run ops inv_init).byName s
  rw [hs, List.filter_append, List.filter_eq_nil_iff.2 (by intro v hv; simpa using hi v hv), List.nil_append,
    List.filter_cons_of_pos (by simpa using hu)] at hb
  have hf : (cb.successOnly && cb.critical) = false := by
    cases h1 : cb.successOnly <;> cases h2 : cb.critical <;> simp_all
  cases hn : (run ops {}).byName s with
  | none => rw [hn] at hb; simp at hb
  | some l =>
    rw [hn] at hb
    simp only [Option.getD_some] at hb
    subst hb
    simp [addCleanup, hf, selectScope, hn, place, St.emit]

/-- two open scopes have the name -/
example : (addCleanup (.named "a") plain (run [.push "a", .push "a", .push "b"] {})).2.log.getLast? = some (.placed 0 1) := by
  decide

/-- **C56, partial**: a name that was never used for a scope is reported with `IncorrectScope`. Missing: names
used before. -/
theorem C56_incorrect_scope_reported_partial (ops : List Op) (s : String) (cb : Cb)
    (hflags : ¬ (cb.critical = true ∧ cb.successOnly = true))
    (hnew : ∀ u, .opened u s ∉ (run ops {}).log) :
    addCleanup (.named s) cb (run ops {}) = (some .incorrectScope, run ops {}) := by
  have hkey : ∀ (ops : List Op) (st : St), (st.byName s ≠ none → ∃ u, Ev.opened u s ∈ st.log) →
      ((run ops st).byName s ≠ none → ∃ u, Ev.opened u s ∈ (run ops st).log) := by
    intro ops
    induction ops with
    | nil => intro st h; exact h
    | cons op ops ih =>
      intro st h
      apply ih
      have fr : ∀ st' : St, st'.byName = st.byName → (∀ e ∈ st.log, e ∈ st'.log) →
          (st'.byName s ≠ none → ∃ u, Ev.opened u s ∈ st'.log) := by
        intro st' h1 h2 h3
        rw [h1] at h3
        obtain ⟨u, hu⟩ := h h3
        exact ⟨u, h2 _ hu⟩
      cases op with
      | push n =>
        simp only [step, pushScope, St.emit]
        intro h1
        split at h1
        · rename_i hsn; subst hsn
          exact ⟨st.nextUid, by simp⟩
        · obtain ⟨u, hu⟩ := h h1
          exact ⟨u, List.mem_append_left _ (List.mem_append_left _ hu)⟩
      | pop n hk ts =>
        simp only [step]
        rcases popScope_cases n hk ts st with ⟨_, heq⟩ | ⟨u, tl, _, _, heq⟩ | ⟨u, tl, hs, hn, heq⟩
        · rw [heq]; exact h
        · rw [heq]; exact h
        · rw [heq]
          have hfr := (frame_emit st (.closing u (popFlags st ts).1 (popFlags st ts).2)).trans
            (frame_callCleanups u (popFlags st ts).1 (popFlags st ts).2 hk _)
          simp only
          intro h1
          have h2 : st.byName s ≠ none := by
            intro hz
            apply h1
            simp only [discarded]
            rw [hfr.byName, hz]; simp
          obtain ⟨v, hv⟩ := h h2
          refine ⟨v, ?_⟩
          have hm : ∀ (u : Nat) (f i : Bool) (hook : Option Kind) (st0 : St), Ev.opened v s ∈ st0.log →
              Ev.opened v s ∈ (callCleanups u f i hook st0).2.log := by
            have hacts : ∀ acts (st : St), Ev.opened v s ∈ st.log → Ev.opened v s ∈ (runActs acts st).2.log := by
              intro acts
              induction acts with
              | nil => intro st h; exact h
              | cons a rest ih =>
                intro st hst
                cases a with
                | add sc cb =>
                  have hg : Ev.opened v s ∈ (addCleanup sc cb st).2.log := by
                    unfold addCleanup
                    split
                    · exact hst
                    · split
                      · exact hst
                      · rename_i uid _
                        cases uid with
                        | none => exact List.mem_append_left _ hst
                        | some u => exact List.mem_append_left _ (List.mem_append_left _ hst)
                  simp only [runActs]
                  split <;> rename_i heq <;> rw [heq] at hg
                  · exact hg
                  · exact ih _ hg
                | note k =>
                  simp only [runActs]
                  split
                  · exact ih _ (by rw [log_record]; exact hst)
                  · exact hst
            intro u f i hook st0 h0
            unfold callCleanups
            split
            · simp only; split
              · exact h0
              · rw [log_record]; exact h0
            · revert h0
              apply callLoop_ind (P := fun st _ st' => Ev.opened v s ∈ st.log → Ev.opened v s ∈ st'.log)
              · intro st _ h; exact h
              · intro st c rest o st' _ _ ih h; exact ih (List.mem_append_left _ h)
              · intro st c rest e st' _ _ hg h
                obtain ⟨s1, h1, o, tl, hl, _, _⟩ := guardedCall_log c (taken st u rest (.ran c.reg u))
                rw [hg] at hl
                rw [hl, h1]
                exact List.mem_append_left _ (List.mem_append_left _ (hacts _ _ (List.mem_append_left _ h)))
              · intro st c rest st1 o st' _ _ hg ih h
                obtain ⟨s1, h1, o, tl, hl, _, _⟩ := guardedCall_log c (taken st u rest (.ran c.reg u))
                rw [hg] at hl
                apply ih
                simp only at hl
                rw [hl, h1]
                exact List.mem_append_left _ (List.mem_append_left _ (hacts _ _ (List.mem_append_left _ h)))
          exact List.mem_append_left _ (List.mem_append_left _ (hm _ _ _ _ _ (List.mem_append_left _ hv)))
      | add sc cb =>
        simp only [step]
        apply fr
        · exact (frame_addCleanup sc cb st).byName
        · intro e he
          unfold addCleanup
          split
          · exact he
          · split
            · exact he
            · rename_i uid _
              cases uid with
              | none => exact List.mem_append_left _ he
              | some u => exact List.mem_append_left _ (List.mem_append_left _ he)
      | setImplicit b => exact h
      | setDefault b => exact h
      | setContext a b => exact h
      | note r k =>
        exact fr _ (frame_record st r k).byName (by intro e he; simp only [step, log_record]; exact he)
      | start r => exact h
  have hb : (run ops {}).byName s = none := by
    cases hbn : (run ops {}).byName s with
    | none => rfl
    | some l =>
      exfalso
      obtain ⟨u, hu⟩ := hkey ops {} (by intro h; exact absurd rfl h) (by rw [hbn]; simp)
      exact hnew u hu
  have hf : (cb.successOnly && cb.critical) = false := by
    cases h1 : cb.successOnly <;> cases h2 : cb.critical <;> simp_all
  simp [addCleanup, hf, selectScope, hb]

example : (∀ u, .opened u "module" ∉ (run demoOps {}).log) ∧
    addCleanup (.named "module") plain (run demoOps {}) = (some .incorrectScope, run demoOps {}) := by
  have h : ∀ u, Ev.opened u "module" ∉ (run demoOps {}).log := by
    have : (run demoOps {}).log.all (fun e => match e with | .opened _ n => n != "module" | _ => true) = true := by
      decide
    intro u hu
    have := List.all_eq_true.1 this _ hu
    simp at this
  exact ⟨h, C56_incorrect_scope_reported_partial demoOps "module" plain (by decide) h⟩

end Slash.Cleanup
