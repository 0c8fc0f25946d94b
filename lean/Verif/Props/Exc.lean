import Verif.Lemmas.Exc
/-! Property theorems about exception handling: C08, C40, C41, C42. -/
namespace Slash.Exc
variable {T : Type}

/-- Nothing is marked, anticipated or recorded yet. -/
def St.init : St T := { marks := fun _ => {}, ignored := [], trace := [] }

theorem init_trace : (St.init (T := T)).trace = [] := rfl
theorem init_handled (id : Nat) : ((St.init (T := T)).marks id).handled = false := rfl
theorem init_added (id : Nat) : ((St.init (T := T)).marks id).added = false := rfl

/-- `p` inside any number of nested `handling_exceptions` contexts (outermost first). -/
def nest : List (Cfg T) → Prog T → Prog T
  | [], p => p
  | c :: cs, p => .handling c (nest cs p)

/-- `p` inside `n` nested exception-swallowing contexts. -/
def nestSwallow : Nat → Prog T → Prog T
  | 0, p => p
  | n + 1, p => .swallowing (nestSwallow n p)

/-! ## A concrete class hierarchy for the non-vacuity examples
0 BaseException, 1 Exception, 2 AssertionError, 3 SkipTest, 4 KeyboardInterrupt, 5 GeneratorExit,
6 ValueError, 7 ExpectedExceptionNotCaught, 8 a class deriving from both ValueError and SkipTest. -/
def exIsa : Nat → Nat → Bool
  | c, d => c == d || d == 0 || (d == 1 && [2, 3, 6, 7, 8].contains c) || (d == 2 && c == 7) ||
      (c == 8 && (d == 6 || d == 3))

def exH : Hier Nat :=
  { isa := exIsa, exception := 1, genExit := 5, failureTypes := [2], skipTypes := [3],
    interruptTypes := [4], notCaught := 7 }

def exE : Env Nat :=
  { H := exH, hasSession := true, beforeRaises := fun _ => none, afterRaises := fun _ => none }

/-- an environment whose hook raises a new KeyboardInterrupt (object 99) for object 5 -/
def exE' : Env Nat :=
  { exE with beforeRaises := fun e => if e.id = 5 then some ⟨99, 4⟩ else none }

/-! ## C40: the exception-caught hooks fire exactly once per exception -/

/-- C40. However a script nests handling, anticipating, swallowing, try/except and try/finally, and
whatever the hooks themselves raise, the exception-caught hook fires at most once per exception. -/
theorem C40_caught_hook_at_most_once (E : Env T) (cls : Nat → T) (hE : E.Coh cls) (p : Prog T)
    (hp : p.Coh E.H cls) (id : Nat) :
    (eval E p St.init).2.trace.count (.before id) ≤ 1 := by
  obtain ⟨⟨tr, hd⟩, -⟩ := eval_main E cls hE p hp St.init
  rw [hd.trace]
  rw [init_trace, List.nil_append, hd.cntB id]; split <;> simp

/-- a script that handles the same ValueError (object 5) three times, once in a `finally` -/
def exP : Prog Nat :=
  .tryExcept [0]
    (.handling {} (.tryFinally (.handling {} (.handling { swallow := false } (.raise ⟨5, 6⟩)))
      (.tryExcept [1] (.handling {} (.raise ⟨5, 6⟩)) .done))) .done

def exCls : Nat → Nat := fun id => if id = 5 then 6 else if id = 99 then 4 else 7

example : exE.Coh exCls ∧ exP.Coh exE.H exCls ∧
    (eval exE exP St.init).2.trace.count (.before 5) = 1 := by
  refine ⟨⟨by simp [exE], by simp [exE]⟩, ?_, ?_⟩
  · simp [exP, Prog.Coh, Exc.Coh, exCls]
  · decide

example : exE'.Coh exCls ∧ (eval exE' exP St.init).2.trace.count (.before 5) = 1 ∧
    (eval exE' exP St.init).2.trace.count (.before 99) = 1 := by
  refine ⟨⟨?_, by simp [exE', exE]⟩, ?_, ?_⟩
  · intro e e'; simp only [exE']; split
    · intro h; injection h with h; subst h; rfl
    · simp
  · decide
  · decide

/-- C40. If an exception reaches a handling context and is neither anticipated nor passed through,
then by the time the context is left the hook has fired for it exactly once, no matter how many
contexts inside had seen it before. -/
theorem C40_caught_hook_exactly_once (E : Env T) (cls : Nat → T) (hE : E.Coh cls) (p : Prog T)
    (hp : p.Coh E.H cls) (c : Cfg T) (e : Exc T) (hout : (eval E p St.init).1 = some e)
    (hpass : E.H.inst e c.passthrough = false) :
    (eval E (.handling c p) St.init).2.trace.count (.before e.id) = 1 := by
  obtain ⟨⟨tr, hd⟩, -⟩ := eval_main E cls hE (.handling c p) hp St.init
  have hh : ((eval E (.handling c p) St.init).2.marks e.id).handled = true := by
    rcases h : eval E p St.init with ⟨o, st1⟩
    rw [h] at hout; simp only at hout; subst hout
    simp only [eval, h]
    rw [handlingExit_snd]
    have : E.H.inst e (c.passthrough ++ St.init.ignored) = false := by
      simpa [St.init] using hpass
    rw [this]; simp only [Bool.false_eq_true, if_false]
    exact handleException_handled ..
  have := hd.cntB e.id
  rw [hd.trace, List.count_append, this, hh]
  simp [St.init]

example : (eval exE exP St.init).1 = none ∧
    (eval exE (.handling { swallow := true } (.handling {} (.raise ⟨5, 6⟩))) St.init).2.trace
      = [.entry 5 .error, .before 5, .after 5] := by decide

/-- C40. Exceptions anticipated by `assert_raises` / `allowing_exceptions` never fire the hook,
however many handling contexts they cross inside. -/
theorem C40_anticipated_never_handled (E : Env T) (cls : Nat → T) (hE : E.Coh cls) (p : Prog T)
    (hp : p.Coh E.H cls) (ts : List T) (nc : Nat) (hnc : cls nc = E.H.notCaught) (id : Nat)
    (ha : E.H.inst ⟨id, cls id⟩ ts = true) :
    (eval E (.assertRaises ts nc p) St.init).2.trace.count (.before id) = 0 ∧
    (eval E (.allowing ts p) St.init).2.trace.count (.before id) = 0 := by
  have key : ∀ q : Prog T, (q = .assertRaises ts nc p ∨ q = .allowing ts p) →
      (eval E q St.init).2.trace.count (.before id) = 0 := by
    intro q hq
    have hqc : q.Coh E.H cls := by
      rcases hq with rfl | rfl
      · exact ⟨hnc, hp⟩
      · exact hp
    obtain ⟨⟨tr, hd⟩, -⟩ := eval_main E cls hE q hqc St.init
    have hh : ((eval E q St.init).2.marks id).handled = false := by
      have h0 := eval_anticipated E cls hE p hp { (St.init : St T) with ignored := (St.init : St T).ignored ++ ts } id
        (inst_append_right ha)
      rcases hq with rfl | rfl
      · simp only [eval, caughtExit_marks]; rw [h0]; rfl
      · simp only [eval, caughtExit_marks]; rw [h0]; rfl
    have := hd.cntB id
    rw [hd.trace, List.count_append, this, hh]
    simp [St.init]
  exact ⟨key _ (Or.inl rfl), key _ (Or.inr rfl)⟩

example : (eval exE (.assertRaises [6] 1 (.handling { swallow := true } (.handling {} (.raise ⟨5, 6⟩))))
    St.init).2.trace = [.caught 5] ∧
    (eval exE (.assertRaises [2] 1 (.handling {} (.handling {} (.raise ⟨5, 6⟩)))) St.init).2.trace
      = [.entry 5 .error, .before 5, .after 5] := by decide

/-! ## C08: an exception is recorded at most once, under the right heading -/

/-- C08. Whatever contexts and recording calls an exception passes, it contributes at most one entry
to results. -/
theorem C08_recorded_at_most_once (E : Env T) (cls : Nat → T) (hE : E.Coh cls) (p : Prog T)
    (hp : p.Coh E.H cls) (id : Nat) :
    (eval E p St.init).2.trace.countP (fun ev => match ev with | .entry i _ => i == id | _ => false) ≤ 1 := by
  obtain ⟨⟨tr, hd⟩, -⟩ := eval_main E cls hE p hp St.init
  rw [hd.trace]
  have h2 : tr.countP (fun ev => match ev with | .entry i _ => i == id | _ => false) =
      tr.countP (Ev.isEntryOf id) := by
    congr 1
  rw [init_trace, List.nil_append, h2, hd.cntE id]; split <;> simp

/-- C08. The heading: assertion failures are failures (first), else skips are skips, else
interruptions, else everything except GeneratorExit is an error. -/
theorem C08_recorded_kind (E : Env T) (cls : Nat → T) (hE : E.Coh cls) (p : Prog T)
    (hp : p.Coh E.H cls) (id : Nat) (k : Entry) (h : .entry id k ∈ (eval E p St.init).2.trace) :
    let is (ts : List T) : Prop := ∃ t ∈ ts, E.H.isa (cls id) t = true
    (k = .failure ↔ is E.H.failureTypes) ∧
    (k = .skip ↔ ¬ is E.H.failureTypes ∧ is E.H.skipTypes) ∧
    (k = .interruption ↔ ¬ is E.H.failureTypes ∧ ¬ is E.H.skipTypes ∧ is E.H.interruptTypes) ∧
    (k = .error → ¬ is [E.H.genExit]) := by
  obtain ⟨⟨tr, hd⟩, -⟩ := eval_main E cls hE p hp St.init
  rw [hd.trace] at h
  have hk := hd.kind id k (by simpa [St.init] using h)
  have key : ∀ ts : List T, (∃ t ∈ ts, E.H.isa (cls id) t = true) ↔ E.H.inst ⟨id, cls id⟩ ts = true := by
    intro ts; simp [Hier.inst]
  simp only [key]
  unfold classify at hk
  split at hk
  · injection hk with hk; subst hk; simp_all
  · split at hk
    · injection hk with hk; subst hk; simp_all
    · split at hk
      · injection hk with hk; subst hk; simp_all
      · split at hk
        · injection hk with hk; subst hk; simp_all
        · cases hk

/-- C08. With an active session, an unanticipated exception leaving a handling context has been
recorded exactly once (GeneratorExit: not at all). -/
theorem C08_recorded_exactly_once (E : Env T) (hs : E.hasSession = true) (cls : Nat → T)
    (hE : E.Coh cls) (p : Prog T)
    (hp : p.Coh E.H cls) (c : Cfg T) (e : Exc T) (hout : (eval E p St.init).1 = some e)
    (hpass : E.H.inst e c.passthrough = false) :
    (eval E (.handling c p) St.init).2.trace.countP
        (fun ev => match ev with | .entry i _ => i == e.id | _ => false) =
      if (∃ t ∈ E.H.failureTypes ++ E.H.skipTypes ++ E.H.interruptTypes, E.H.isa e.cls t = true) ∨
        E.H.isa e.cls E.H.genExit = false then 1 else 0 := by
  obtain ⟨⟨tr, hd⟩, -⟩ := eval_main E cls hE (.handling c p) hp St.init
  obtain ⟨-, hcoh⟩ := eval_main E cls hE p hp St.init
  have hh : ((eval E (.handling c p) St.init).2.marks e.id).added = true := by
    refine eval_handledAdded E hs (.handling c p) St.init (fun _ h => by cases h) e.id ?_
    rcases h : eval E p St.init with ⟨o, st1⟩
    rw [h] at hout; simp only at hout; subst hout
    simp only [eval, h]
    rw [handlingExit_snd]
    have : E.H.inst e (c.passthrough ++ St.init.ignored) = false := by
      simpa [St.init] using hpass
    rw [this]; simp only [Bool.false_eq_true, if_false]
    exact handleException_handled ..
  have hc := hd.cntE e.id
  have h2 : tr.countP (fun ev => match ev with | .entry i _ => i == e.id | _ => false) =
      tr.countP (Ev.isEntryOf e.id) := by
    congr 1
  rw [hd.trace, init_trace, List.nil_append, h2, hc, ← Exc.eq_of_coh (hcoh e hout)]
  simp only [hh, init_added, Bool.true_and, Bool.not_false]
  have h3 : (classify E.H e).isSome = true ↔
      ((∃ t ∈ E.H.failureTypes ++ E.H.skipTypes ++ E.H.interruptTypes, E.H.isa e.cls t = true) ∨
        E.H.isa e.cls E.H.genExit = false) := by
    have k : ∀ ts : List T, E.H.inst e ts = true ↔ ∃ t ∈ ts, E.H.isa e.cls t = true := by
      intro ts; simp [Hier.inst]
    have : (∃ t ∈ E.H.failureTypes ++ E.H.skipTypes ++ E.H.interruptTypes, E.H.isa e.cls t = true)
        ↔ (E.H.inst e E.H.failureTypes = true ∨ E.H.inst e E.H.skipTypes = true ∨
          E.H.inst e E.H.interruptTypes = true) := by
      rw [k, k, k]; simp [or_and_right, exists_or, or_assoc]
    rw [this]
    unfold classify
    have hg : E.H.inst e [E.H.genExit] = E.H.isa e.cls E.H.genExit := by simp [Hier.inst]
    rw [hg]
    cases E.H.inst e E.H.failureTypes <;> cases E.H.inst e E.H.skipTypes <;>
      cases E.H.inst e E.H.interruptTypes <;> cases E.H.isa e.cls E.H.genExit <;> simp
  by_cases hcl : (classify E.H e).isSome = true
  · rw [if_pos hcl, if_pos (h3.1 hcl)]
  · rw [if_neg hcl, if_neg (fun h => hcl (h3.2 h))]

example : (eval exE (.handling {} (.tryFinally (.handling {} (.seq (.record ⟨5, 2⟩) (.raise ⟨5, 2⟩)))
    (.record ⟨5, 2⟩))) St.init).2.trace = [.entry 5 .failure, .before 5, .after 5] := by decide
/-- multiple inheritance: ValueError + SkipTest is a skip; GeneratorExit is not recorded -/
example : (eval exE (.handling {} (.raise ⟨5, 8⟩)) St.init).2.trace =
    [.entry 5 .skip, .before 5, .after 5] ∧
    (eval exE (.handling {} (.raise ⟨5, 5⟩)) St.init).2.trace = [.before 5, .after 5] := by decide

/-! ## C41: what handling contexts swallow -/

/-- C41. Exact decision of one handling context around any script, when the exception hooks do not
raise: the exception is stopped iff it is not anticipated / passed through, is neither a skip (which only
matters while a session is active) nor an interruption, and is an instance of the swallow types (`Exception` when `swallow=True`);
in every other case the very same exception propagates. -/
theorem C41_handling_stops_iff (E : Env T) (hb : ∀ e, E.beforeRaises e = none)
    (ha : ∀ e, E.afterRaises e = none) (c : Cfg T) (p : Prog T) (st : St T)
    (e : Exc T) (hp : (eval E p st).1 = some e) :
    let is (ts : List T) : Prop := ∃ t ∈ ts, E.H.isa e.cls t = true
    let stops : Prop := ¬ is c.passthrough ∧ ¬ is st.ignored ∧
        ¬ (is E.H.skipTypes ∧ E.hasSession = true) ∧ ¬ is E.H.interruptTypes ∧
        (is c.swallowTypes ∨ (c.swallow = true ∧ E.H.isa e.cls E.H.exception = true))
    (stops → (eval E (.handling c p) st).1 = none) ∧
    (¬ stops → (eval E (.handling c p) st).1 = some e) := by
  have k : ∀ ts : List T, (∃ t ∈ ts, E.H.isa e.cls t = true) ↔ E.H.inst e ts = true := by
    intro ts; simp [Hier.inst]
  have kapp : ∀ a b : List T, E.H.inst e (a ++ b) = (E.H.inst e a || E.H.inst e b) := by
    intro a b; simp [Hier.inst]
  rcases h : eval E p st with ⟨o, st1⟩
  rw [h] at hp; simp only at hp; subst hp
  have hhe : (handleException E e st1).1 = none := by
    unfold handleException; split
    · rfl
    · simp [hb, ha]
  have hsw : E.H.inst e (c.effSwallow E.H) =
      (E.H.inst e c.swallowTypes || (c.swallow && E.H.isa e.cls E.H.exception)) := by
    unfold Cfg.effSwallow
    cases c.swallow
    · simp
    · simp [Hier.inst]
  have hnil : E.H.inst e [] = false := rfl
  cases hS : E.hasSession <;>
    simp only [eval, h, handlingExit_fst, hhe, k, Env.skipTypes, kapp, hsw, hS, hnil, if_true, Bool.false_eq_true, if_false,
      and_false, and_true] <;>
    cases E.H.inst e c.passthrough <;> cases E.H.inst e st.ignored <;>
    cases E.H.inst e E.H.skipTypes <;> cases E.H.inst e E.H.interruptTypes <;>
    cases E.H.inst e c.swallowTypes <;> cases c.swallow <;>
    cases E.H.isa e.cls E.H.exception <;> simp

/-- C41. A skip or an interruption gets out of any number of nested handling contexts, whatever they
swallow. -/
theorem C41_skip_and_interrupt_escape (E : Env T) (hb : ∀ e, E.beforeRaises e = none)
    (ha : ∀ e, E.afterRaises e = none) (hs : E.hasSession = true) (cs : List (Cfg T)) (e : Exc T)
    (he : E.H.inst e E.H.skipTypes = true ∨ E.H.inst e E.H.interruptTypes = true) (st : St T) :
    (eval E (nest cs (.raise e)) st).1 = some e := by
  induction cs generalizing st with
  | nil => rfl
  | cons c cs ih =>
    have := C41_handling_stops_iff E hb ha c (nest cs (.raise e)) st e (ih st)
    refine this.2 ?_
    have k : ∀ ts : List T, (∃ t ∈ ts, E.H.isa e.cls t = true) ↔ E.H.inst e ts = true := by
      intro ts; simp [Hier.inst]
    simp only [k]
    rcases he with he | he <;> simp [he, hs]

example : (eval exE (nest [{ swallow := true }, { swallowTypes := [3, 4, 0] }, {}] (.raise ⟨5, 4⟩))
    St.init).1 = some ⟨5, 4⟩ ∧
    (eval exE (nest [{ swallow := true }, {}] (.raise ⟨5, 6⟩)) St.init).1 = none ∧
    (eval exE (nest [{}, { swallowTypes := [2] }, {}] (.raise ⟨5, 6⟩)) St.init).1 = some ⟨5, 6⟩ := by
  decide

/-- C41. A handling context whose body does not raise does not raise either and does nothing. -/
theorem C41_handling_transparent (E : Env T) (c : Cfg T) (p : Prog T) (st : St T)
    (hp : (eval E p st).1 = none) : eval E (.handling c p) st = eval E p st := by
  rcases h : eval E p st with ⟨o, st1⟩
  rw [h] at hp; simp only at hp; subst hp
  simp [eval, h]

example : (eval exE (.handling {} (.record ⟨1, 2⟩)) St.init).1 = none := by decide

/-- C41. A `noswallow` mark gets an exception out of any number of swallowing contexts; an unmarked
exception (of whatever class) is stopped by the innermost one. -/
theorem C41_noswallow (E : Env T) (n : Nat) (e : Exc T) (st : St T) :
    (eval E (nestSwallow (n + 1) (.seq (.noswallow e) (.raise e))) st).1 = some e ∧
    ((st.marks e.id).swallow = true → (eval E (nestSwallow (n + 1) (.raise e)) st).1 = none) := by
  have key : ∀ n, ∃ st', eval E (nestSwallow n (.seq (.noswallow e) (.raise e))) st = (some e, st') ∧
      (st'.marks e.id).swallow = false := by
    intro n
    induction n with
    | zero => exact ⟨_, rfl, by simp [St.setMarks]⟩
    | succ n ih =>
      obtain ⟨st', h, hm⟩ := ih
      exact ⟨st', by simp [nestSwallow, eval, h, hm], hm⟩
  refine ⟨?_, ?_⟩
  · obtain ⟨st', h, -⟩ := key (n + 1)
    rw [h]
  · intro hm
    have : ∀ n, eval E (nestSwallow (n + 1) (.raise e)) st = (none, st) := by
      intro n
      induction n with
      | zero => simp [nestSwallow, eval, hm]
      | succ n ih => rw [nestSwallow, eval, ih]
    rw [this]

example : ((St.init (T := Nat)).marks 5).swallow = true := rfl

/-- C41. Whatever a function decorated with `disable_exception_swallowing` does, its exception leaves any number of swallowing contexts around the
call, and decorating changes nothing else: not the outcome, nor what is recorded and announced. -/
theorem C41_decorated (E : Env T) (n : Nat) (p : Prog T) (st : St T) :
    (eval E (nestSwallow n (.decorated p)) st).1 = (eval E p st).1 ∧
    (eval E (nestSwallow n (.decorated p)) st).2.trace = (eval E p st).2.trace ∧
    ∀ id, (∀ e, (eval E p st).1 = some e → e.id ≠ id) → (eval E (nestSwallow n (.decorated p)) st).2.marks id = (eval E p st).2.marks id := by
  rcases h : eval E p st with ⟨o, st1⟩
  cases o with
  | none =>
    have key : ∀ n, eval E (nestSwallow n (.decorated p)) st = (none, st1) := by
      intro n
      induction n with
      | zero => simp [nestSwallow, eval, h]
      | succ n ih => rw [nestSwallow, eval, ih]
    rw [key n]
    exact ⟨rfl, rfl, fun _ _ => rfl⟩
  | some e =>
    have key : ∀ n, eval E (nestSwallow n (.decorated p)) st = (some e, st1.setMarks e.id { st1.marks e.id with swallow := false }) := by
      intro n
      induction n with
      | zero => simp [nestSwallow, eval, h]
      | succ n ih =>
        rw [nestSwallow, eval, ih]
        simp [St.setMarks]
    rw [key n]
    refine ⟨rfl, rfl, fun id hid => ?_⟩
    simp only [St.setMarks]
    rw [if_neg (fun h => hid e rfl h.symm)]

example : (eval exE (nestSwallow 3 (.decorated (.seq (.record ⟨1, 2⟩) (.raise ⟨4, 3⟩)))) St.init).1 = some ⟨4, 3⟩ ∧
    (eval exE (nestSwallow 3 (.seq (.record ⟨1, 2⟩) (.raise ⟨4, 3⟩))) St.init).1 = none := by decide

theorem handleException_swallow (E : Env T) (e : Exc T) (st : St T) (id : Nat) :
    ((handleException E e st).2.marks id).swallow = (st.marks id).swallow := by
  have ha : ∀ st : St T, ((addException E.H e st).marks id).swallow = (st.marks id).swallow := by
    intro st
    unfold addException
    split
    · rfl
    · simp only
      split <;> simp only [St.emit, St.setMarks] <;> split <;> simp_all
  have hu : ∀ st : St T, ((updateCurrentResult E e st).marks id).swallow = (st.marks id).swallow := by
    intro st
    unfold updateCurrentResult
    split
    · exact ha st
    · rfl
  unfold handleException
  split
  · rfl
  · simp only
    split <;> simp only [St.emit] <;> rw [hu] <;> simp only [St.setMarks] <;> split <;> simp_all

/-- C41. An exception once marked stays so, whatever is done with it and with others. -/
theorem C41_mark_stays (E : Env T) (p : Prog T) (st : St T) (id : Nat) (h : (st.marks id).swallow = false) :
    ((eval E p st).2.marks id).swallow = false := by
  have hset : ∀ (st : St T) (e : Nat), (st.marks id).swallow = false → ((st.setMarks e { st.marks e with swallow := false }).marks id).swallow = false := by
    intro st e h
    simp only [St.setMarks]
    split
    · rfl
    · exact h
  induction p generalizing st with
  | done => exact h
  | raise e => exact h
  | seq p q ihp ihq =>
    have h1 := ihp st h
    simp only [eval]; split
    · rename_i heq; rw [heq] at h1; exact ihq _ h1
    · rename_i heq; rw [heq] at h1; exact h1
  | tryFinally p q ihp ihq =>
    have h2 := ihq (eval E p st).2 (ihp st h)
    simp only [eval]; split
    · rename_i heq; rw [heq] at h2; exact h2
    · rename_i heq; rw [heq] at h2; exact h2
  | tryExcept ts p q ihp ihq =>
    have h1 := ihp st h
    simp only [eval]; split
    · rename_i heq; rw [heq] at h1; split
      · exact ihq _ h1
      · exact h1
    · rename_i heq; rw [heq] at h1; exact h1
  | handling c p ih =>
    have h1 := ih st h
    simp only [eval]; split
    · rename_i heq; rw [heq] at h1; rw [handlingExit_snd]; split
      · exact h1
      · rw [handleException_swallow]; exact h1
    · rename_i heq; rw [heq] at h1; exact h1
  | assertRaises ts nc p ih => simp only [eval]; rw [caughtExit_marks]; exact ih { st with ignored := st.ignored ++ ts } h
  | allowing ts p ih => simp only [eval]; rw [caughtExit_marks]; exact ih { st with ignored := st.ignored ++ ts } h
  | swallowing p ih =>
    have h1 := ih st h
    simp only [eval]; split
    · rename_i heq; rw [heq] at h1; split <;> exact h1
    · rename_i heq; rw [heq] at h1; exact h1
  | record e =>
    simp only [eval]
    unfold addException
    split
    · exact h
    · simp only
      split <;> simp only [St.emit, St.setMarks] <;> split <;> simp_all
  | noswallow e => simp only [eval]; exact hset st e.id h
  | decorated p ih =>
    have h1 := ih st h
    simp only [eval]; split
    · rename_i heq; rw [heq] at h1; exact hset _ _ h1
    · rename_i heq; rw [heq] at h1; exact h1

-- An exception marked first and then handled, and raised again, leaves a swallowing context.
example : (eval exE (.swallowing (.seq (.noswallow ⟨1, 2⟩) (.handling {} (.raise ⟨1, 2⟩)))) St.init).1 = some ⟨1, 2⟩ := by decide

/-! ## C42: assert_raises / allowing_exceptions -/

/-- C42. Exact outcome of `assert_raises` around any script: an instance of the expected classes is
caught and exposed, any other exception propagates unchanged, and silence is an
`ExpectedExceptionNotCaught`. -/
theorem C42_assert_raises (E : Env T) (ts : List T) (nc : Nat) (p : Prog T) (st : St T) :
    let inside := eval E p { st with ignored := st.ignored ++ ts }
    let out := eval E (.assertRaises ts nc p) st
    (∀ e, inside.1 = some e → (∃ t ∈ ts, E.H.isa e.cls t = true) →
        out.1 = none ∧ out.2.trace = inside.2.trace ++ [.caught e.id]) ∧
    (∀ e, inside.1 = some e → (¬ ∃ t ∈ ts, E.H.isa e.cls t = true) →
        out.1 = some e ∧ out.2.trace = inside.2.trace) ∧
    (inside.1 = none → out.1 = some ⟨nc, E.H.notCaught⟩ ∧ out.2.trace = inside.2.trace) := by
  have k : ∀ e : Exc T, (∃ t ∈ ts, E.H.isa e.cls t = true) ↔ E.H.inst e ts = true := by
    intro e; simp [Hier.inst]
  simp only [k, eval, caughtExit]
  refine ⟨?_, ?_, ?_⟩
  · intro e h1 h2; rw [h1]; simp [h2, St.emit]
  · intro e h1 h2; rw [h1]; simp [h2]
  · intro h1; rw [h1]; simp

/-- C42. `allowing_exceptions` differs only in that silence is fine. -/
theorem C42_allowing (E : Env T) (ts : List T) (p : Prog T) (st : St T) :
    let inside := eval E p { st with ignored := st.ignored ++ ts }
    let out := eval E (.allowing ts p) st
    (inside.1 = none → out.1 = none) ∧
    (∀ nc, inside.1 ≠ none → out = eval E (.assertRaises ts nc p) st) := by
  simp only [eval, caughtExit]
  refine ⟨?_, ?_⟩
  · intro h1; rw [h1]; simp
  · intro nc h1
    cases h : (eval E p { st with ignored := st.ignored ++ ts }).1 with
    | none => exact absurd h h1
    | some e => rfl

/-- C42. Anticipation ends with the context: after any script, on every exit path, the set of
anticipated classes is what it was before. -/
theorem C42_anticipation_restored (E : Env T) (p : Prog T) (st : St T) :
    (eval E p st).2.ignored = st.ignored := eval_ignored E p st

example : (eval exE (.assertRaises [6] 1 (.assertRaises [2] 2 (.raise ⟨5, 6⟩))) St.init).1 = none ∧
    (eval exE (.assertRaises [6] 1 (.assertRaises [2] 2 .done)) St.init).1 = some ⟨2, 7⟩ ∧
    (eval exE (.assertRaises [6] 1 (.raise ⟨5, 8⟩)) St.init).1 = none ∧
    (eval exE (.allowing [6] .done) St.init).1 = none := by
  simp [eval, caughtExit, exE, exH, exIsa, Hier.inst, St.init]

end Slash.Exc
