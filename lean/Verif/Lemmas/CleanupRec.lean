import Verif.Lemmas.Cleanup
/-! Which exceptions of cleanups end up in which result. -/
namespace Slash.Cleanup

def isRan (r : Nat) : Ev → Bool | .ran r' _ => r' == r | _ => false
def isEnded (r : Nat) : Ev → Bool | .ended r' _ => r' == r | _ => false
def isRec (r : Nat) : Ev → Bool | .recorded r' _ _ => r' == r | _ => false

def isAddEv : Ev → Bool | .added .. => true | .placed .. => true | _ => false

/-- Log invariant about endings and recordings. `cur` = the cleanup being executed. -/
structure RecI (cur : Option Nat) (st : St) : Prop where
  rec1 : ∀ r k x c s, Ev.ended r (some k) ∈ st.log → k.isException = true →
      Ev.added r c s (some x) ∈ st.log → Ev.recorded r x k ∈ st.log
  recEnded : ∀ r, st.log.countP (isRec r) ≤ st.log.countP (isEnded r)
  endedRan : ∀ r, st.log.countP (isEnded r) + (if cur = some r then 1 else 0) ≤ st.log.countP (isRan r)

theorem RecI.ended_lt {act cur} {st : St} (hi : Inv act st) (h : RecI cur st) {r : Nat} {o : Option Kind}
    (he : Ev.ended r o ∈ st.log) : r < st.nextReg := by
  have h1 : 0 < st.log.countP (isEnded r) := by
    rw [List.countP_pos_iff]; exact ⟨_, he, by simp [isEnded]⟩
  have h2 := h.endedRan r
  have h3 : 0 < st.log.countP (isRan r) := by omega
  rw [List.countP_pos_iff] at h3
  obtain ⟨e, hm, hr⟩ := h3
  cases e <;> simp only [isRan, Bool.false_eq_true, beq_iff_eq] at hr
  rename_i r' u
  subst hr
  exact inv_disposed_lt hi (mem_disposed.2 ⟨_, hm, u, rfl⟩)

/-- appending events that are neither endings nor recordings nor additions of already ended ones -/
theorem RecI.append {act cur} {st st' : St} (hi : Inv act st) (h : RecI cur st) (m : List Ev)
    (hl : st'.log = st.log ++ m)
    (hm : ∀ e ∈ m, ∀ r, isEnded r e = false ∧ isRec r e = false)
    (hr : ∀ r, m.countP (isRan r) = 0)
    (ha : ∀ r c s x, Ev.added r c s x ∈ m → st.nextReg ≤ r) : RecI cur st' := by
  have he : ∀ r, m.countP (isEnded r) = 0 := by
    intro r; rw [List.countP_eq_zero]; intro e hme; simp [(hm e hme r).1]
  have hre : ∀ r, m.countP (isRec r) = 0 := by
    intro r; rw [List.countP_eq_zero]; intro e hme; simp [(hm e hme r).2]
  constructor
  · intro r k x c s h1 h2 h3
    rw [hl] at h1 h3 ⊢
    have h1' : Ev.ended r (some k) ∈ st.log := by
      rcases List.mem_append.1 h1 with g | g
      · exact g
      · have := (hm _ g r).1; simp [isEnded] at this
    rcases List.mem_append.1 h3 with g | g
    · exact List.mem_append_left _ (h.rec1 r k x c s h1' h2 g)
    · have := ha _ _ _ _ g
      have := h.ended_lt hi h1'
      omega
  · intro r; rw [hl, List.countP_append, List.countP_append, he, hre]; exact h.recEnded r
  · intro r; rw [hl, List.countP_append, List.countP_append, he, hr]; exact h.endedRan r

theorem RecI.same {act cur} {st st' : St} (hi : Inv act st) (h : RecI cur st) (hl : st'.log = st.log) :
    RecI cur st' := h.append hi [] (by simp [hl]) (by simp) (by simp) (by simp)

theorem rec_addCleanup {act cur} {st : St} (hi : Inv act st) (h : RecI cur st) (sc : ScopeArg) (cb : Cb) :
    RecI cur (addCleanup sc cb st).2 := by
  unfold addCleanup
  split
  · exact h
  · split
    · exact h
    · rename_i uid hs
      cases uid with
      | none =>
        refine h.append hi [.added st.nextReg cb.critical cb.successOnly st.curResult] rfl ?_ ?_ ?_
        · simp [isEnded, isRec]
        · simp [isRan]
        · intro r c s x he; simp at he; omega
      | some u =>
        refine h.append hi ([.added st.nextReg cb.critical cb.successOnly st.curResult] ++ [.placed st.nextReg u])
          (by rw [← List.append_assoc]; rfl) ?_ ?_ ?_
        · intro e he r; simp at he; rcases he with rfl | rfl <;> simp [isEnded, isRec]
        · simp [isRan]
        · intro r c s x he; simp at he; omega

theorem rec_runActs {act cur} (acts : List Act) {st : St} (hi : Inv act st) (h : RecI cur st) :
    RecI cur (runActs acts st).2 := by
  induction acts generalizing st with
  | nil => exact h
  | cons a rest ih =>
    cases a with
    | add sc cb =>
      have h1 := rec_addCleanup hi h sc cb
      have h2 := inv_addCleanup hi sc cb
      simp only [runActs]
      split <;> rename_i heq <;> rw [heq] at h1 h2
      · exact h1
      · exact ih h2 h1
    | note k =>
      simp only [runActs]
      split
      · exact ih (inv_record hi _ _) (h.same hi (log_record ..))
      · exact h

theorem countP_rec_snoc (l : List Ev) (p : Ev → Bool) (e : Ev) :
    (l ++ [e]).countP p = l.countP p + if p e then 1 else 0 := by
  rw [List.countP_append]; simp [List.countP_cons]

/-- The log written by one guarded call. -/
theorem guardedCall_log (c : Reg) (st : St) :
    ∃ st1 : St, st1 = (runActs c.cb.acts st).2 ∧
    ∃ o : Option Kind, ∃ tl : List Ev,
      (guardedCall c st).2.log = st1.log ++ [.ended c.reg o] ++ tl ∧
      (tl = [] ∨ ∃ k x, o = some k ∧ ∃ k', tl = [.recorded c.reg x k']) ∧
      (∀ k x, o = some k → k.isException = true → c.result = some x → tl = [.recorded c.reg x k]) := by
  refine ⟨_, rfl, ?_⟩
  cases hcc : callCleanup c st with
  | mk o2 st2 =>
    unfold guardedCall
    rw [hcc]
    unfold callCleanup at hcc
    cases hra : runActs c.cb.acts st with
    | mk o1 st1 =>
      rw [hra] at hcc
      simp only at hcc
      generalize endOf o1 c.cb = o' at hcc
      cases o' with
      | none =>
        simp only at hcc
        cases hcc
        exact ⟨none, [], by simp [St.emit], .inl rfl, by intro k x h; cases h⟩
      | some e =>
        refine ⟨some e.kind, ?_⟩
        simp only [Option.map_some] at hcc
        by_cases hex : e.kind.isException = true
        · simp only [hex, if_true] at hcc
          cases hres : c.result with
          | some x =>
            rw [hres] at hcc
            simp only at hcc
            cases hcc
            refine ⟨[.recorded c.reg x e.kind], ?_, .inr ⟨_, x, rfl, _, rfl⟩, ?_⟩
            · simp only [Bool.true_or, if_true]
              split <;> simp [St.emit, log_record]
            · intro k x' hk _ hx
              cases hk; cases hx; rfl
          | none =>
            rw [hres] at hcc
            simp only at hcc
            cases hcc
            simp only [Bool.false_or]
            cases hcr : (st1.emit (.ended c.reg (some e.kind))).curResult.isNone with
            | true =>
              refine ⟨[], ?_, .inl rfl, by intro k x _ _ h; cases h⟩
              simp only [if_true]; split <;> simp [St.emit]
            | false =>
              refine ⟨[.recorded c.reg (st1.emit (.ended c.reg (some e.kind))).currentForUpdate Exn.attribute.kind],
                ?_, .inr ⟨_, _, rfl, _, rfl⟩, by intro k x _ _ h; cases h⟩
              simp only [Bool.false_eq_true, if_false]
              split <;> simp [St.emit, log_record]
        · simp only [hex, Bool.false_eq_true, if_false] at hcc
          cases hcc
          simp only [Bool.false_or]
          cases hcr : (st1.emit (.ended c.reg (some e.kind))).curResult.isNone with
          | true =>
            refine ⟨[], ?_, .inl rfl, ?_⟩
            · simp only [if_true]; split <;> simp [St.emit]
            · intro k x hk hke; cases hk; exact absurd hke hex
          | false =>
            refine ⟨[.recorded c.reg (st1.emit (.ended c.reg (some e.kind))).currentForUpdate e.kind],
              ?_, .inr ⟨_, _, rfl, _, rfl⟩, ?_⟩
            · simp only [Bool.false_eq_true, if_false]
              split <;> simp [St.emit, log_record]
            · intro k x hk hke; cases hk; exact absurd hke hex

theorem rec_guardedCall {act} {c : Reg} {st : St} (hi : Inv act st) (h : RecI (some c.reg) st)
    (hinfo : Ev.added c.reg c.cb.critical c.cb.successOnly c.result ∈ st.log) :
    RecI none (guardedCall c st).2 := by
  obtain ⟨st1, hst1, o, tl, hlog, htl, hrec⟩ := guardedCall_log c st
  have hi1 : Inv act st1 := hst1 ▸ inv_runActs c.cb.acts hi
  have h1 : RecI (some c.reg) st1 := hst1 ▸ rec_runActs c.cb.acts hi h
  have hinfo1 : Ev.added c.reg c.cb.critical c.cb.successOnly c.result ∈ st1.log := by
    -- the log only grows
    rw [hst1]
    clear hst1 hlog hrec htl hi1 h1 hi h
    generalize c.cb.acts = acts
    induction acts generalizing st with
    | nil => exact hinfo
    | cons a rest ih =>
      cases a with
      | add sc cb =>
        simp only [runActs]
        have hg : Ev.added c.reg c.cb.critical c.cb.successOnly c.result ∈ (addCleanup sc cb st).2.log := by
          unfold addCleanup
          split
          · exact hinfo
          · split
            · exact hinfo
            · rename_i uid _
              cases uid with
              | none => exact List.mem_append_left _ hinfo
              | some u => exact List.mem_append_left _ (List.mem_append_left _ hinfo)
        split <;> rename_i heq <;> rw [heq] at hg
        · exact hg
        · exact ih hg
      | note k =>
        simp only [runActs]
        split
        · exact ih (by rw [log_record]; exact hinfo)
        · exact hinfo
  generalize (guardedCall c st).2 = st' at *
  -- facts about tl
  have htlcount : ∀ r, tl.countP (isRec r) ≤ if r = c.reg then (if o.isSome then 1 else 0) else 0 := by
    intro r
    rcases htl with rfl | ⟨k, x, rfl, k', rfl⟩
    · simp
    · simp only [List.countP_cons, List.countP_nil, isRec, Option.isSome_some, if_true, Nat.zero_add]
      by_cases hr : r = c.reg
      · subst hr; simp
      · have : ¬ (c.reg = r) := fun h => hr h.symm
        simp [hr, this]
  have htl0 : ∀ r, tl.countP (isEnded r) = 0 ∧ tl.countP (isRan r) = 0 := by
    intro r
    rcases htl with rfl | ⟨k, x, rfl, k', rfl⟩ <;> simp [isEnded, isRan]
  have hend : ∀ r, [Ev.ended c.reg o].countP (isEnded r) = if r = c.reg then 1 else 0 := by
    intro r
    simp only [List.countP_cons, List.countP_nil, isEnded, beq_iff_eq, Nat.zero_add]
    by_cases hr : r = c.reg
    · subst hr; simp
    · have : ¬ (c.reg = r) := fun h => hr h.symm
      simp [hr, this]
  constructor
  · intro r k x cc s g1 g2 g3
    rw [hlog] at g1 g3 ⊢
    have g3' : Ev.added r cc s (some x) ∈ st1.log := by
      simp only [List.mem_append, List.mem_singleton, reduceCtorEq, or_false] at g3
      rcases g3 with g3 | g3
      · exact g3
      · rcases htl with rfl | ⟨_, _, _, _, rfl⟩ <;> simp at g3
    have g1' : Ev.ended r (some k) ∈ st1.log ∨ (r = c.reg ∧ o = some k) := by
      simp only [List.mem_append, List.mem_singleton, Ev.ended.injEq] at g1
      rcases g1 with (g1 | ⟨g1, g1'⟩) | g1
      · exact .inl g1
      · exact .inr ⟨g1, g1'.symm⟩
      · rcases htl with rfl | ⟨_, _, _, _, rfl⟩ <;> simp at g1
    rcases g1' with g1' | ⟨rfl, g1'⟩
    · exact List.mem_append_left _ (List.mem_append_left _ (h1.rec1 r k x cc s g1' g2 g3'))
    · have := hi1.addedUniq _ _ _ _ _ _ _ hinfo1 g3'
      have hx := hrec k x g1' g2 this.2.2
      rw [hx]; simp
  · intro r
    rw [hlog]
    simp only [List.countP_append, hend, htl0, Nat.add_zero]
    have := h1.recEnded r
    have h2 := htlcount r
    have : [Ev.ended c.reg o].countP (isRec r) = 0 := by simp [isRec]
    rw [this]
    have hle : (if o.isSome = true then 1 else 0) ≤ 1 := by split <;> omega
    by_cases hr : r = c.reg
    · simp only [hr, if_true] at h2 this ⊢; subst hr; omega
    · simp only [hr, if_false] at h2 ⊢; omega
  · intro r
    rw [hlog]
    simp only [List.countP_append, hend, htl0, Nat.add_zero, reduceCtorEq, if_false]
    have h3 := h1.endedRan r
    have : [Ev.ended c.reg o].countP (isRan r) = 0 := by simp [isRan]
    rw [this]
    by_cases hr : r = c.reg
    · simp only [hr, if_true] at h3 ⊢; omega
    · have : ¬ (c.reg = r) := fun h => hr h.symm
      simp only [hr, this, Option.some.injEq, if_false] at h3 ⊢; omega

theorem rec_taken_ran {st : St} (h : RecI none st) (u : Nat) (c : Reg)
    (rest : List Reg) : RecI (some c.reg) (taken st u rest (.ran c.reg u)) := by
  have hl : (taken st u rest (.ran c.reg u)).log = st.log ++ [.ran c.reg u] := rfl
  constructor
  · intro r k x cc s h1 h2 h3
    rw [hl] at h1 h3 ⊢
    simp only [List.mem_append, List.mem_singleton, reduceCtorEq, or_false] at h1 h3
    exact List.mem_append_left _ (h.rec1 r k x cc s h1 h2 h3)
  · intro r; rw [hl, countP_rec_snoc, countP_rec_snoc]
    have := h.recEnded r
    simpa [isRec, isEnded] using this
  · intro r; rw [hl, countP_rec_snoc, countP_rec_snoc]
    have := h.endedRan r
    simp only [reduceCtorEq, if_false, Nat.add_zero, isEnded, Bool.false_eq_true, isRan, beq_iff_eq,
      Option.some.injEq] at this ⊢
    omega

theorem rec_callLoop {u : Nat} {f i : Bool} {st : St} (hi : Inv (some (u, f, i)) st) (h : RecI none st) :
    RecI none (callLoop u f i st).2 := by
  revert hi h
  apply callLoop_ind (P := fun st _ st' => Inv (some (u, f, i)) st → RecI none st → RecI none st')
  · intro st _ _ h; exact h
  · intro st c rest o st' hc hp ih hi h
    refine ih (inv_taken hi hc (.inr ⟨rfl, (passOver_iff ..).1 hp⟩)) ?_
    exact h.append hi [.skipped c.reg u] rfl (by simp [isEnded, isRec]) (by simp [isRan]) (by simp)
  · intro st c rest e st' hc hp hg hi h
    have hr : Rule f i c.cb.critical c.cb.successOnly := by
      have := passOver_iff c.cb f i
      rw [hp] at this; simpa using this
    have := rec_guardedCall (inv_taken hi hc (.inl ⟨rfl, hr⟩)) (rec_taken_ran h u c rest)
      (List.mem_append_left _ (hi.info c (.inr ⟨u, by rw [hc]; simp⟩)))
    rw [hg] at this; exact this
  · intro st c rest st1 o st' hc hp hg ih hi h
    have hr : Rule f i c.cb.critical c.cb.successOnly := by
      have := passOver_iff c.cb f i
      rw [hp] at this; simpa using this
    have h1 := rec_guardedCall (inv_taken hi hc (.inl ⟨rfl, hr⟩)) (rec_taken_ran h u c rest)
      (List.mem_append_left _ (hi.info c (.inr ⟨u, by rw [hc]; simp⟩)))
    have h2 := inv_guardedCall c (inv_taken hi hc (.inl ⟨rfl, hr⟩))
    rw [hg] at h1 h2; exact ih h2 h1

theorem rec_popScope {st : St} (hi : Inv none st) (h : RecI none st) (name : String)
    (hook : Option Kind) (ts : List Nat) : RecI none (popScope name hook ts st).2 := by
  rcases popScope_cases name hook ts st with ⟨_, heq⟩ | ⟨u, tl, _, _, heq⟩ | ⟨u, tl, hs, hn, heq⟩
  · rw [heq]; exact h
  · rw [heq]; exact h
  · rw [heq]
    simp only
    generalize (popFlags st ts).1 = f
    generalize (popFlags st ts).2 = i
    have hi1 := inv_closing hi (u := u) (by rw [hs]; simp) f i
    have h1 : RecI none (st.emit (.closing u f i)) :=
      h.append hi [.closing u f i] rfl (by simp [isEnded, isRec]) (by simp [isRan]) (by simp)
    have hi2 := inv_callCleanups (hook := hook) hi1
    have h2 : RecI none (callCleanups u f i hook (st.emit (.closing u f i))).2 := by
      unfold callCleanups
      split
      · simp only; split
        · exact h1
        · exact h1.same hi1 (log_record ..)
      · exact rec_callLoop hi1 h1
    generalize (callCleanups u f i hook (st.emit (.closing u f i))).2 = s2 at *
    refine h2.append hi2 ((s2.cleanups u).map (fun c => .dropped c.reg u) ++ [.closed u])
      (by rw [← List.append_assoc]; rfl) ?_ ?_ ?_
    · intro e he r
      simp only [List.mem_append, List.mem_map, List.mem_singleton] at he
      rcases he with ⟨c, _, rfl⟩ | rfl <;> simp [isEnded, isRec]
    · intro r
      rw [List.countP_eq_zero]
      intro e he
      simp only [List.mem_append, List.mem_map, List.mem_singleton] at he
      rcases he with ⟨c, _, rfl⟩ | rfl <;> simp [isRan]
    · intro r c s x he; simp at he

theorem rec_step {st : St} (hi : Inv none st) (h : RecI none st) (op : Op) : RecI none (step st op).2 := by
  cases op with
  | push n =>
    refine h.append hi ([.opened st.nextUid n] ++ st.pending.map (fun r => .placed r.reg st.nextUid))
      (by rw [← List.append_assoc]; rfl) ?_ ?_ ?_
    · intro e he r
      simp only [List.mem_append, List.mem_map, List.mem_singleton] at he
      rcases he with rfl | ⟨c, _, rfl⟩ <;> simp [isEnded, isRec]
    · intro r
      rw [List.countP_eq_zero]
      intro e he
      simp only [List.mem_append, List.mem_map, List.mem_singleton] at he
      rcases he with rfl | ⟨c, _, rfl⟩ <;> simp [isRan]
    · intro r c s x he; simp at he
  | pop n hk ts => exact rec_popScope hi h n hk ts
  | add sc cb => exact rec_addCleanup hi h sc cb
  | setImplicit b => exact h.same hi rfl
  | setDefault b => exact h.same hi rfl
  | setContext a b => exact h.same hi rfl
  | note r k => exact h.same hi (log_record ..)
  | start r => exact h.same hi rfl

theorem rec_run (ops : List Op) {st : St} (hi : Inv none st) (h : RecI none st) : RecI none (run ops st) := by
  induction ops generalizing st with
  | nil => exact h
  | cons op ops ih => exact ih (inv_step hi op) (rec_step hi h op)

theorem rec_init : RecI none {} := by
  constructor <;> intros <;> simp_all

/-! ### Recorded exceptions are in the results -/

def recIn (x : RKey) (ks : List Kind) : Ev → Bool
  | .recorded _ x' k => x' == x && ks.contains k
  | _ => false

structure ResI (st : St) : Prop where
  errs : ∀ x, st.log.countP (recIn x [.error, .other]) ≤ (st.results x).errors.length
  fails : ∀ x, st.log.countP (recIn x [.failure]) ≤ (st.results x).failures.length
  skips : ∀ x, st.log.countP (recIn x [.skip]) ≤ (st.results x).skips.length
  ints : ∀ x, 0 < st.log.countP (recIn x [.interrupt]) → (st.results x).interrupted = true

/-- results only grow -/
structure Grow (st st' : St) : Prop where
  errs : ∀ x, (st.results x).errors.length ≤ (st'.results x).errors.length
  fails : ∀ x, (st.results x).failures.length ≤ (st'.results x).failures.length
  skips : ∀ x, (st.results x).skips.length ≤ (st'.results x).skips.length
  ints : ∀ x, (st.results x).interrupted = true → (st'.results x).interrupted = true
  started : ∀ x, (st.results x).started = true → (st'.results x).started = true

theorem Grow.refl (st : St) : Grow st st := ⟨fun _ => Nat.le_refl _, fun _ => Nat.le_refl _, fun _ => Nat.le_refl _, fun _ h => h, fun _ h => h⟩

theorem grow_record (st : St) (x : RKey) (k : Kind) : Grow st (st.record x k) := by
  constructor <;> intro y <;>
    (cases k <;> simp only [St.record, St.updResult, Result.addKind, Result.addError, Result.addFailure,
      Result.addSkip, Result.markInterrupted, reduceCtorEq, if_true, if_false] <;>
      (repeat' split) <;> simp_all)

theorem ResI.mono {st st' : St} (h : ResI st) (hg : Grow st st') (m : List Ev) (hl : st'.log = st.log ++ m)
    (hm : ∀ e ∈ m, ∀ r x k, e ≠ .recorded r x k) : ResI st' := by
  have hz : ∀ x ks, m.countP (recIn x ks) = 0 := by
    intro x ks; rw [List.countP_eq_zero]; intro e he
    cases e <;> simp only [recIn, Bool.false_eq_true, not_false_eq_true]
    rename_i r x' k
    exact absurd rfl (hm _ he r x' k)
  constructor <;> intro x <;> rw [hl, List.countP_append, hz, Nat.add_zero]
  · exact Nat.le_trans (h.errs x) (hg.errs x)
  · exact Nat.le_trans (h.fails x) (hg.fails x)
  · exact Nat.le_trans (h.skips x) (hg.skips x)
  · exact fun hh => hg.ints x (h.ints x hh)

theorem res_same {st st' : St} (h : ResI st) (hr : st'.results = st.results) (m : List Ev)
    (hl : st'.log = st.log ++ m) (hm : ∀ e ∈ m, ∀ r x k, e ≠ .recorded r x k) : ResI st' :=
  h.mono (by constructor <;> intro x <;> rw [hr] <;> simp) m hl hm

theorem res_recorded {st : St} (h : ResI st) (r : Nat) (x : RKey) (k : Kind) :
    ResI ((st.record x k).emit (.recorded r x k)) := by
  have hg := grow_record st x k
  have hl : ((st.record x k).emit (.recorded r x k)).log = st.log ++ [.recorded r x k] := by
    simp [St.emit, log_record]
  have hres : ((st.record x k).emit (.recorded r x k)).results = (st.record x k).results := rfl
  constructor <;> intro y <;> rw [hl, countP_rec_snoc, hres]
  · have h1 := h.errs y; have h2 := hg.errs y
    by_cases hp : recIn y [.error, .other] (.recorded r x k) = true
    · simp only [hp, if_true]
      simp [recIn] at hp
      obtain ⟨rfl, hk⟩ := hp
      rcases hk with rfl | rfl <;>
        simp_all [St.record, St.updResult, Result.addKind, Result.addError]
    · simp only [hp, Bool.false_eq_true, if_false]; omega
  · have h1 := h.fails y; have h2 := hg.fails y
    by_cases hp : recIn y [.failure] (.recorded r x k) = true
    · simp only [hp, if_true]
      simp [recIn] at hp
      obtain ⟨rfl, rfl⟩ := hp
      simp_all [St.record, St.updResult, Result.addKind, Result.addFailure]
    · simp only [hp, Bool.false_eq_true, if_false]; omega
  · have h1 := h.skips y; have h2 := hg.skips y
    by_cases hp : recIn y [.skip] (.recorded r x k) = true
    · simp only [hp, if_true]
      simp [recIn] at hp
      obtain ⟨rfl, rfl⟩ := hp
      simp_all [St.record, St.updResult, Result.addKind, Result.addSkip]
    · simp only [hp, Bool.false_eq_true, if_false]; omega
  · intro hpos
    by_cases hp : recIn y [.interrupt] (.recorded r x k) = true
    · simp [recIn] at hp
      obtain ⟨rfl, rfl⟩ := hp
      simp only [St.record, St.updResult, Result.addKind, Result.markInterrupted, if_true]
      split <;> simp_all
    · simp only [hp, Bool.false_eq_true, if_false, Nat.add_zero] at hpos
      exact hg.ints y (h.ints y hpos)

theorem res_addCleanup {st : St} (h : ResI st) (sc : ScopeArg) (cb : Cb) :
    ResI (addCleanup sc cb st).2 := by
  unfold addCleanup
  split
  · exact h
  · split
    · exact h
    · rename_i uid hs
      cases uid with
      | none => exact res_same h rfl [.added st.nextReg cb.critical cb.successOnly st.curResult] rfl (by simp)
      | some u =>
        refine res_same h rfl ([.added st.nextReg cb.critical cb.successOnly st.curResult] ++ [.placed st.nextReg u])
          (by rw [← List.append_assoc]; rfl) (by simp)

theorem res_runActs (acts : List Act) {st : St} (h : ResI st) : ResI (runActs acts st).2 := by
  induction acts generalizing st with
  | nil => exact h
  | cons a rest ih =>
    cases a with
    | add sc cb =>
      have h1 := res_addCleanup h sc cb
      simp only [runActs]
      split <;> rename_i heq <;> rw [heq] at h1
      · exact h1
      · exact ih h1
    | note k =>
      simp only [runActs]
      split
      · exact ih (h.mono (grow_record ..) [] (by simp [log_record]) (by simp))
      · exact h

theorem res_callCleanup (c : Reg) {st : St} (h : ResI st) : ResI (callCleanup c st).2 := by
  have h1 := res_runActs c.cb.acts h
  unfold callCleanup
  split
  rename_i o st1 heq
  rw [heq] at h1
  simp only at h1 ⊢
  generalize endOf o c.cb = o'
  have h2 : ResI (st1.emit (.ended c.reg (o'.map Exn.kind))) :=
    res_same h1 rfl [.ended c.reg (o'.map Exn.kind)] rfl (by simp)
  split
  · exact h2
  · split
    · split
      · exact res_recorded h2 _ _ _
      · exact h2
    · exact h2

theorem res_guardedCall (c : Reg) {st : St} (h : ResI st) : ResI (guardedCall c st).2 := by
  have h1 := res_callCleanup c h
  unfold guardedCall
  split
  · rename_i heq; rw [heq] at h1; exact h1
  · rename_i e rec st1 heq
    rw [heq] at h1
    simp only
    have h2 : ResI (if (rec || st1.curResult.isNone) = true then st1
      else (st1.record st1.currentForUpdate e.kind).emit (.recorded c.reg st1.currentForUpdate e.kind)) := by
      split
      · exact h1
      · exact res_recorded h1 _ _ _
    split <;> exact h2

theorem res_callLoop {u : Nat} {f i : Bool} {st : St} (h : ResI st) : ResI (callLoop u f i st).2 := by
  revert h
  apply callLoop_ind (P := fun st _ st' => ResI st → ResI st')
  · intro st _ h; exact h
  · intro st c rest o st' hc hp ih h
    exact ih (res_same h rfl [.skipped c.reg u] rfl (by simp))
  · intro st c rest e st' hc hp hg h
    have := res_guardedCall c (res_same (st' := taken st u rest (.ran c.reg u)) h rfl [.ran c.reg u] rfl (by simp))
    rw [hg] at this; exact this
  · intro st c rest st1 o st' hc hp hg ih h
    have := res_guardedCall c (res_same (st' := taken st u rest (.ran c.reg u)) h rfl [.ran c.reg u] rfl (by simp))
    rw [hg] at this; exact ih this

theorem res_step {st : St} (h : ResI st) (op : Op) : ResI (step st op).2 := by
  cases op with
  | push n =>
    refine res_same h rfl ([.opened st.nextUid n] ++ st.pending.map (fun r => .placed r.reg st.nextUid))
      (by rw [← List.append_assoc]; rfl) ?_
    intro e he r x k heq
    subst heq
    simp at he
  | pop n hook ts =>
    show ResI (popScope n hook ts st).2
    rcases popScope_cases n hook ts st with ⟨_, heq⟩ | ⟨u, tl, _, _, heq⟩ | ⟨u, tl, hs, hn, heq⟩
    · rw [heq]; exact h
    · rw [heq]; exact h
    · rw [heq]
      simp only
      generalize (popFlags st ts).1 = f
      generalize (popFlags st ts).2 = i
      have h1 : ResI (st.emit (.closing u f i)) := res_same h rfl [.closing u f i] rfl (by simp)
      have h2 : ResI (callCleanups u f i hook (st.emit (.closing u f i))).2 := by
        unfold callCleanups
        split
        · simp only; split
          · exact h1
          · exact h1.mono (grow_record ..) [] (by simp [log_record]) (by simp)
        · exact res_callLoop h1
      generalize (callCleanups u f i hook (st.emit (.closing u f i))).2 = s2 at *
      refine res_same h2 rfl ((s2.cleanups u).map (fun c => .dropped c.reg u) ++ [.closed u])
        (by rw [← List.append_assoc]; rfl) ?_
      intro e he r x k heq
      subst heq
      simp at he
  | add sc cb => exact res_addCleanup h sc cb
  | setImplicit b => exact res_same h rfl [] (by simp [step]) (by simp)
  | setDefault b => exact res_same h rfl [] (by simp [step]) (by simp)
  | setContext a b => exact res_same h rfl [] (by simp [step]) (by simp)
  | note r k => exact h.mono (grow_record ..) [] (by simp [step, log_record]) (by simp)
  | start r =>
    refine h.mono ?_ [] (by simp [step, St.updResult]) (by simp)
    constructor <;> intro x <;> simp only [step, St.updResult, Result.markStarted] <;> split <;> simp

theorem res_run (ops : List Op) {st : St} (h : ResI st) : ResI (run ops st) := by
  induction ops generalizing st with
  | nil => exact h
  | cons op ops ih => exact ih (res_step h op)

theorem res_init : ResI {} := by
  constructor <;> intros <;> simp_all

theorem guardedCall_ended {c : Reg} {st st' : St} {e : Exn} (h : guardedCall c st = (some e, st')) :
    Ev.ended c.reg (some e.kind) ∈ st'.log := by
  have hesc := guardedCall_escapes h
  cases hcc : callCleanup c st with
  | mk o2 st2 =>
    unfold guardedCall at h
    rw [hcc] at h
    unfold callCleanup at hcc
    cases hra : runActs c.cb.acts st with
    | mk o1 st1 =>
      rw [hra] at hcc
      simp only at hcc
      generalize endOf o1 c.cb = o' at hcc
      cases o' with
      | none => simp only at hcc; cases hcc; cases h
      | some e' =>
        simp only [Option.map_some] at hcc
        have key : ∀ (st3 : St) (b : Bool) (x : RKey) (k : Kind),
            Ev.ended c.reg (some e'.kind) ∈ st3.log →
            Ev.ended c.reg (some e'.kind) ∈
              (if b = true then st3 else (st3.record x k).emit (.recorded c.reg x k)).log := by
          intro st3 b x k hm
          cases b
          · simp only [Bool.false_eq_true, if_false, St.emit, log_record]
            exact List.mem_append_left _ hm
          · simpa using hm
        have base : Ev.ended c.reg (some e'.kind) ∈ (st1.emit (.ended c.reg (some e'.kind))).log := by
          simp [St.emit]
        by_cases hex : e'.kind.isException = true
        · simp only [hex, if_true] at hcc
          cases hres : c.result with
          | some x =>
            rw [hres] at hcc; simp only at hcc; cases hcc
            simp only at h
            split at h
            · cases h
              apply key
              simp only [St.emit, log_record]
              simp
            · cases h
          | none =>
            rw [hres] at hcc; simp only at hcc; cases hcc
            simp only at h
            split at h
            · cases h; cases hesc
            · cases h
        · simp only [hex, Bool.false_eq_true, if_false] at hcc
          cases hcc
          simp only at h
          split at h
          · cases h; exact key _ _ _ _ base
          · cases h

/-- the loop is stopped only by a callback that raised what escapes -/
theorem callLoop_ended {u : Nat} {f i : Bool} {st : St} {e : Exn}
    (h : (callLoop u f i st).1 = some e) :
    ∃ r, Ev.ended r (some e.kind) ∈ (callLoop u f i st).2.log := by
  revert h
  apply callLoop_ind (P := fun _ o st' => o = some e → ∃ r, Ev.ended r (some e.kind) ∈ st'.log)
  · intro st _ h; cases h
  · intro st c rest o st' hc hp ih; exact ih
  · intro st c rest e' st' hc hp hg h; cases h; exact ⟨_, guardedCall_ended hg⟩
  · intro st c rest st1 o st' hc hp hg ih; exact ih

theorem guardedCall_current {c : Reg} {st st' : St} {e : Exn} (h : guardedCall c st = (some e, st'))
    (hk : e.kind.isException = false) (hc : st.curResult ≠ none) :
    Ev.recorded c.reg st.currentForUpdate e.kind ∈ st'.log := by
  have hf := frame_callCleanup c st
  cases hcc : callCleanup c st with
  | mk o2 st2 =>
    rw [hcc] at hf
    unfold guardedCall at h
    rw [hcc] at h
    have hb : ∀ x b, o2 = some (x, b) → x.kind.isException = false → b = false := by
      intro x b ho hx
      subst ho
      unfold callCleanup at hcc
      cases hra : runActs c.cb.acts st with
      | mk o1 st1 =>
        rw [hra] at hcc
        simp only at hcc
        generalize endOf o1 c.cb = o' at hcc
        cases o' with
        | none => simp only at hcc; cases hcc
        | some e' =>
          simp only at hcc
          split at hcc
          · rename_i hex
            split at hcc
            · cases hcc; rw [hex] at hx; cases hx
            · cases hcc; rfl
          · cases hcc; rfl
    cases o2 with
    | none => cases h
    | some p =>
      obtain ⟨x, b⟩ := p
      simp only at h
      split at h
      · cases h
        have := hb e b rfl hk
        subst this
        have hcr : st2.curResult ≠ none := by rw [hf.curResult]; exact hc
        have hcu : st2.currentForUpdate = st.currentForUpdate := by
          unfold St.currentForUpdate; rw [hf.curTest]
        rw [← hcu]
        cases hq : st2.curResult with
        | none => exact absurd hq hcr
        | some _ => simp [St.emit]
      · cases h

/-- what stops the loop and is no ordinary exception is recorded in the current result -/
theorem callLoop_current {u : Nat} {f i : Bool} {st : St} {e : Exn}
    (h : (callLoop u f i st).1 = some e) (hk : e.kind.isException = false) (hc : st.curResult ≠ none) :
    ∃ r, Ev.recorded r st.currentForUpdate e.kind ∈ (callLoop u f i st).2.log := by
  revert h hc
  apply callLoop_ind (P := fun st o st' => o = some e → st.curResult ≠ none →
    ∃ r, Ev.recorded r st.currentForUpdate e.kind ∈ st'.log)
  · intro st _ h; cases h
  · intro st c rest o st' hc hp ih h hcur; exact ih h hcur
  · intro st c rest e' st' hc hp hg h hcur; cases h
    exact ⟨_, guardedCall_current (st := taken st u rest (.ran c.reg u)) hg hk hcur⟩
  · intro st c rest st1 o st' hc hp hg ih h hcur
    have hfr := frame_guardedCall c (taken st u rest (.ran c.reg u))
    rw [hg] at hfr
    have hcu : st1.currentForUpdate = st.currentForUpdate := by
      unfold St.currentForUpdate; rw [hfr.curTest]; rfl
    rw [← hcu]
    exact ih h (by rw [hfr.curResult]; exact hcur)

theorem filter_head_find (l : List Nat) (p : Nat → Bool) : (l.filter p).head? = l.find? p := by
  simp

end Slash.Cleanup
