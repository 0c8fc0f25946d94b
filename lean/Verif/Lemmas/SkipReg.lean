import Verif.Model.SkipReg
/-! Lemmas for `Verif.Props.SkipReg`. -/
namespace Slash.SkipReg

open Slash.Exc

variable {T : Type}

theorem inst_any (H : Hier T) (e : Exc T) (ts : List T) : H.inst e ts = ts.any (H.isa e.cls) := rfl

theorem any_mono {f : T → Bool} {l m : List T} (h : ∃ k, m = l ++ k) (hl : l.any f = true) : m.any f = true := by
  obtain ⟨k, rfl⟩ := h
  rw [List.any_append, hl]; rfl

/-- The skip types only grow. -/
theorem eval_grows (E : Env T) (p : Prog T) (s : S T) : ∃ k, (eval E p s).2.skip = s.skip ++ k := by
  induction p generalizing s with
  | done => exact ⟨[], by simp [eval]⟩
  | raise e => exact ⟨[], by simp [eval]⟩
  | register t => exact ⟨[t], rfl⟩
  | seq p q ihp ihq =>
    simp only [eval]
    obtain ⟨k, hk⟩ := ihp s
    rcases hp : eval E p s with ⟨_ | e, s1⟩ <;> rw [hp] at hk
    · obtain ⟨m, hm⟩ := ihq s1
      refine ⟨k ++ m, ?_⟩
      rw [← List.append_assoc, ← hk]; exact hm
    · exact ⟨k, hk⟩
  | tryFinally p q ihp ihq =>
    simp only [eval]
    obtain ⟨k, hk⟩ := ihp s
    rcases hp : eval E p s with ⟨o, s1⟩ ; rw [hp] at hk
    obtain ⟨m, hm⟩ := ihq s1
    refine ⟨k ++ m, ?_⟩
    rw [← List.append_assoc, ← hk]
    rcases hq : eval E q s1 with ⟨_ | e, s2⟩ <;> rw [hq] at hm <;> exact hm
  | tryExcept ts p q ihp ihq =>
    simp only [eval]
    obtain ⟨k, hk⟩ := ihp s
    rcases hp : eval E p s with ⟨_ | e, s1⟩ <;> rw [hp] at hk
    · exact ⟨k, hk⟩
    · obtain ⟨m, hm⟩ := ihq s1
      by_cases h : E.H.inst e ts = true
      · refine ⟨k ++ m, ?_⟩
        rw [← List.append_assoc, ← hk]
        simp only [h, if_true]; exact hm
      · refine ⟨k, ?_⟩
        simp only [h]; exact hk
  | handling c p ihp =>
    simp only [eval]
    obtain ⟨k, hk⟩ := ihp s
    rcases hp : eval E p s with ⟨_ | e, s1⟩ <;> rw [hp] at hk <;> exact ⟨k, hk⟩
  | exceptSkip p ihp =>
    simp only [eval]
    obtain ⟨k, hk⟩ := ihp s
    rcases hp : eval E p s with ⟨_ | e, s1⟩ <;> rw [hp] at hk
    · exact ⟨k, hk⟩
    · refine ⟨k, ?_⟩
      by_cases h : E.H.inst e s1.skip = true
      · simp only [h, if_true]; exact hk
      · simp only [h]; exact hk
  | started => exact ⟨[], by simp [eval]⟩
  | ifStarted p ih =>
    simp only [eval]
    by_cases h : s.started = true
    · simp only [h, if_true]; exact ih _
    · simp only [h]; exact ⟨[], by simp⟩

theorem handleException_ignored (E : Env T) (e : Exc T) (st : St T) : (handleException E e st).2.ignored = st.ignored := by
  unfold handleException updateCurrentResult addException
  simp only [St.setMarks, St.emit]
  repeat' split
  all_goals rfl

theorem handlingExit_ignored (E : Env T) (c : Cfg T) (pass : List T) (e : Exc T) (st : St T) :
    (handlingExit E c pass e st).2.ignored = st.ignored := by
  unfold handlingExit
  have h := handleException_ignored E e st
  rcases hh : handleException E e st with ⟨_ | e', st'⟩ <;> rw [hh] at h <;> dsimp only at h ⊢ <;> repeat' split
  all_goals first | exact h | rfl

/-- The ignored types are those of the beginning. -/
theorem eval_ignored (E : Env T) (p : Prog T) (s : S T) : (eval E p s).2.st.ignored = s.st.ignored := by
  induction p generalizing s with
  | done => rfl
  | raise e => rfl
  | register t => rfl
  | started => rfl
  | seq p q ihp ihq =>
    simp only [eval]
    have hk := ihp s
    rcases hp : eval E p s with ⟨_ | e, s1⟩ <;> rw [hp] at hk
    · exact (ihq s1).trans hk
    · exact hk
  | tryFinally p q ihp ihq =>
    simp only [eval]
    have hk := ihp s
    rcases hp : eval E p s with ⟨o, s1⟩ ; rw [hp] at hk
    have hm := ihq s1
    rcases hq : eval E q s1 with ⟨_ | e, s2⟩ <;> rw [hq] at hm <;> exact hm.trans hk
  | tryExcept ts p q ihp ihq =>
    simp only [eval]
    have hk := ihp s
    rcases hp : eval E p s with ⟨_ | e, s1⟩ <;> rw [hp] at hk
    · exact hk
    · by_cases h : E.H.inst e ts = true
      · simp only [h, if_true]; exact (ihq s1).trans hk
      · simp only [h]; exact hk
  | handling c p ihp =>
    simp only [eval]
    have hk := ihp s
    rcases hp : eval E p s with ⟨_ | e, s1⟩ <;> rw [hp] at hk
    · exact hk
    · exact (handlingExit_ignored _ _ _ _ _).trans hk
  | exceptSkip p ihp =>
    simp only [eval]
    have hk := ihp s
    rcases hp : eval E p s with ⟨_ | e, s1⟩ <;> rw [hp] at hk
    · exact hk
    · by_cases h : E.H.inst e s1.skip = true
      · simp only [h, if_true]; exact hk
      · simp only [h]; exact hk
  | ifStarted p ih =>
    simp only [eval]
    by_cases h : s.started = true
    · simp only [h, if_true]; exact ih _
    · simp only [h]; rfl

/-! ### Another class for an exception -/

/-- What `f` makes of the exceptions that a script raises. -/
def Prog.map (f : Exc T → Exc T) : Prog T → Prog T
  | .done => .done
  | .raise e => .raise (f e)
  | .register t => .register t
  | .seq p q => .seq (p.map f) (q.map f)
  | .tryFinally p q => .tryFinally (p.map f) (q.map f)
  | .tryExcept ts p q => .tryExcept ts (p.map f) (q.map f)
  | .handling c p => .handling c (p.map f)
  | .exceptSkip p => .exceptSkip (p.map f)
  | .started => .started
  | .ifStarted p => .ifStarted (p.map f)

/-- No `except` clause and no `passthrough_types` of the script tell classes `c` and `k` apart. -/
def Prog.Blind (H : Hier T) (c k : T) : Prog T → Prop
  | .done => True
  | .raise _ => True
  | .register _ => True
  | .seq p q => p.Blind H c k ∧ q.Blind H c k
  | .tryFinally p q => p.Blind H c k ∧ q.Blind H c k
  | .tryExcept ts p q => ts.any (H.isa c) = ts.any (H.isa k) ∧ p.Blind H c k ∧ q.Blind H c k
  | .handling cfg p => cfg.passthrough.any (H.isa c) = cfg.passthrough.any (H.isa k) ∧ p.Blind H c k
  | .exceptSkip p => p.Blind H c k
  | .started => True
  | .ifStarted p => p.Blind H c k

/-- `f` keeps the identity of exceptions and their class, but may turn exceptions of class `c` into exceptions of class `k`. -/
def Turns (c k : T) (f : Exc T → Exc T) : Prop := ∀ e, (f e).id = e.id ∧ ((f e).cls = e.cls ∨ e.cls = c ∧ (f e).cls = k)

theorem handleException_turns {E : Env T} {c k : T} {f : Exc T → Exc T} (hf : Turns c k f)
    (hc : E.H.failureTypes.any (E.H.isa c) = false) (hk : E.H.failureTypes.any (E.H.isa k) = false)
    (hsc : E.H.skipTypes.any (E.H.isa c) = true) (hsk : E.H.skipTypes.any (E.H.isa k) = true)
    (hb : ∀ e, E.beforeRaises (f e) = (E.beforeRaises e).map f) (ha : ∀ e, E.afterRaises (f e) = (E.afterRaises e).map f)
    (e : Exc T) (st : St T) :
    handleException E (f e) st = ((handleException E e st).1.map f, (handleException E e st).2) := by
  have hcl : classify E.H (f e) = classify E.H e := by
    rcases (hf e).2 with h | ⟨h1, h2⟩
    · unfold classify; simp only [inst_any, h]; rfl
    · unfold classify; simp [inst_any, h1, h2, hc, hk, hsc, hsk]
  have hadd : addException E.H (f e) st = addException E.H e st ∧
      ∀ st', addException E.H (f e) st' = addException E.H e st' := by
    constructor
    · unfold addException; simp only [hcl, (hf e).1]
    · intro st'; unfold addException; simp only [hcl, (hf e).1]
  unfold handleException updateCurrentResult
  simp only [hadd.2, (hf e).1, hb, ha]
  by_cases h : (st.marks e.id).handled = true
  · simp only [h, if_true]; rfl
  · simp only [h]
    rcases E.beforeRaises e with _ | x <;> rfl

theorem handlingExit_turns {E : Env T} {c k : T} {f : Exc T → Exc T} (hf : Turns c k f)
    (hc : E.H.failureTypes.any (E.H.isa c) = false) (hk : E.H.failureTypes.any (E.H.isa k) = false)
    (hsc : E.H.skipTypes.any (E.H.isa c) = true) (hsk : E.H.skipTypes.any (E.H.isa k) = true) (hs : E.hasSession = true)
    (hb : ∀ e, E.beforeRaises (f e) = (E.beforeRaises e).map f) (ha : ∀ e, E.afterRaises (f e) = (E.afterRaises e).map f)
    (cfg : Cfg T) (pass : List T) (hp : pass.any (E.H.isa c) = pass.any (E.H.isa k)) (e : Exc T) (st : St T) :
    handlingExit E cfg pass (f e) st = ((handlingExit E cfg pass e st).1.map f, (handlingExit E cfg pass e st).2) := by
  have h := handleException_turns hf hc hk hsc hsk hb ha e st
  have hpass : E.H.inst (f e) pass = E.H.inst e pass := by
    rcases (hf e).2 with h | ⟨h1, h2⟩
    · simp only [inst_any, h]
    · simp only [inst_any, h1, h2, hp]
  unfold handlingExit
  rw [h, hpass]
  by_cases h1 : E.H.inst e pass = true
  · simp only [h1, if_true]; rfl
  · simp only [h1]
    rcases handleException E e st with ⟨_ | x, st'⟩
    · have hskip : E.skipTypes = E.H.skipTypes := by unfold Env.skipTypes; rw [hs]; rfl
      rw [hskip]
      rcases (hf e).2 with h | ⟨h1, h2⟩
      · simp only [inst_any, h, Option.map_none]
        by_cases h3 : (E.H.skipTypes.any (E.H.isa e.cls) || E.H.interruptTypes.any (E.H.isa e.cls)) = true
        · simp only [h3, if_true]; rfl
        · simp only [h3]
          by_cases h4 : (cfg.effSwallow E.H).any (E.H.isa e.cls) = true
          · simp only [h4, if_true]; rfl
          · simp only [h4]; rfl
      · simp only [inst_any, h1, h2, hsc, hsk, Option.map_none, Bool.true_or, if_true]; rfl
    · rfl

theorem eval_turns {E : Env T} {c k : T} {f : Exc T → Exc T} (hf : Turns c k f)
    (hc : E.H.failureTypes.any (E.H.isa c) = false) (hk : E.H.failureTypes.any (E.H.isa k) = false) (hs : E.hasSession = true)
    (hb : ∀ e, E.beforeRaises (f e) = (E.beforeRaises e).map f) (ha : ∀ e, E.afterRaises (f e) = (E.afterRaises e).map f)
    (p : Prog T) (hp : p.Blind E.H c k) (s : S T) (hsc : s.skip.any (E.H.isa c) = true) (hsk : s.skip.any (E.H.isa k) = true)
    (hi : s.st.ignored.any (E.H.isa c) = s.st.ignored.any (E.H.isa k)) :
    eval E (p.map f) s = ((eval E p s).1.map f, (eval E p s).2) := by
  induction p generalizing s with
  | done => rfl
  | raise e => rfl
  | register t => rfl
  | started => rfl
  | seq p q ihp ihq =>
    have e1 := ihp hp.1 s hsc hsk hi
    have e2 := eval_grows E p s
    have e3 := eval_ignored E p s
    simp only [Prog.map, eval, e1]
    rcases hh : eval E p s with ⟨_ | e, s1⟩ <;> rw [hh] at e2 e3
    · exact ihq hp.2 s1 (any_mono e2 hsc) (any_mono e2 hsk) (by rw [e3]; exact hi)
    · rfl
  | tryFinally p q ihp ihq =>
    have e1 := ihp hp.1 s hsc hsk hi
    have e2 := eval_grows E p s
    have e3 := eval_ignored E p s
    simp only [Prog.map, eval, e1]
    rcases hh : eval E p s with ⟨o, s1⟩ ; rw [hh] at e2 e3
    simp only [ihq hp.2 s1 (any_mono e2 hsc) (any_mono e2 hsk) (by rw [e3]; exact hi)]
    rcases eval E q s1 with ⟨_ | e, s2⟩ <;> rfl
  | tryExcept ts p q ihp ihq =>
    have e1 := ihp hp.2.1 s hsc hsk hi
    have e2 := eval_grows E p s
    have e3 := eval_ignored E p s
    simp only [Prog.map, eval, e1]
    rcases hh : eval E p s with ⟨_ | e, s1⟩ <;> rw [hh] at e2 e3
    · rfl
    · have h1 : E.H.inst (f e) ts = E.H.inst e ts := by
        rcases (hf e).2 with h | ⟨h1, h2⟩
        · simp only [inst_any, h]
        · simp only [inst_any, h1, h2, hp.1]
      simp only [Option.map_some, h1]
      by_cases h : E.H.inst e ts = true
      · simp only [h, if_true]
        exact ihq hp.2.2 s1 (any_mono e2 hsc) (any_mono e2 hsk) (by rw [e3]; exact hi)
      · simp only [h]; rfl
  | handling cfg p ihp =>
    have e1 := ihp hp.2 s hsc hsk hi
    have e2 := eval_grows E p s
    have e3 := eval_ignored E p s
    simp only [Prog.map, eval, e1]
    rcases hh : eval E p s with ⟨_ | e, s1⟩ <;> rw [hh] at e2 e3
    · rfl
    · have := handlingExit_turns (E := now E s1.skip) hf hc hk (any_mono e2 hsc) (any_mono e2 hsk) hs hb ha cfg
        (cfg.passthrough ++ s.st.ignored) (by simp only [List.any_append]; exact congr (congrArg _ hp.1) hi) e s1.st
      simp only [Option.map_some, this]
  | exceptSkip p ihp =>
    have e1 := ihp hp s hsc hsk hi
    have e2 := eval_grows E p s
    simp only [Prog.map, eval, e1]
    rcases hh : eval E p s with ⟨_ | e, s1⟩ <;> rw [hh] at e2
    · rfl
    · have h1 : E.H.inst (f e) s1.skip = E.H.inst e s1.skip := by
        rcases (hf e).2 with h | ⟨h1, h2⟩
        · simp only [inst_any, h]
        · simp only [inst_any, h1, h2]; exact (any_mono e2 hsk).trans (any_mono e2 hsc).symm
      simp only [Option.map_some, h1]
      by_cases h : E.H.inst e s1.skip = true
      · simp only [h, if_true]; rfl
      · simp only [h]; rfl
  | ifStarted p ih =>
    simp only [Prog.map, eval]
    by_cases h : s.started = true
    · simp only [h, if_true]; exact ih hp _ hsc hsk hi
    · simp only [h]; rfl

/-- The same for tests. -/
def Test.map (f : Exc T → Exc T) (t : Test T) : Test T :=
  { opening := t.opening.map f, start := t.start.map f, body := t.body.map f, closing := t.closing.map f,
    summary := t.summary.map f, ended := t.ended.map f }

/-- No part of the test tells classes `c` and `k` apart. -/
def Test.Blind (H : Hier T) (c k : T) (t : Test T) : Prop :=
  t.opening.Blind H c k ∧ t.start.Blind H c k ∧ t.body.Blind H c k ∧ t.closing.Blind H c k ∧ t.summary.Blind H c k ∧
  t.ended.Blind H c k

theorem Test.map_prog (f : Exc T → Exc T) (t : Test T) : (t.map f).prog = t.prog.map f := rfl

theorem Test.prog_blind {H : Hier T} {c k : T} {t : Test T} (h : t.Blind H c k) : t.prog.Blind H c k := by
  obtain ⟨h1, h2, h3, h4, h5, h6⟩ := h
  simp only [Test.prog, guarded, Prog.Blind, List.any_nil, true_and]
  exact ⟨⟨⟨h1, ⟨h2, h3⟩, h4⟩, h5⟩, h6⟩

/-! ### What is recorded -/

/-- `cls` says of which class each exception that the script raises is. -/
def Prog.Of (cls : Nat → T) : Prog T → Prop
  | .done => True
  | .raise e => e.cls = cls e.id
  | .register _ => True
  | .seq p q => p.Of cls ∧ q.Of cls
  | .tryFinally p q => p.Of cls ∧ q.Of cls
  | .tryExcept _ p q => p.Of cls ∧ q.Of cls
  | .handling _ p => p.Of cls
  | .exceptSkip p => p.Of cls
  | .started => True
  | .ifStarted p => p.Of cls

/-- Recorded as `k` because of types registered at a moment when `a` was registered already and not more than `b`. -/
def Fits (H : Hier T) (cls : Nat → T) (a b : List T) (id : Nat) (k : Entry) : Prop :=
  ∃ m, (∃ x, m = a ++ x) ∧ (∃ y, b = m ++ y) ∧ classify { H with skipTypes := m } ⟨id, cls id⟩ = some k

theorem Fits.mono {H : Hier T} {cls : Nat → T} {a b a' b' : List T} {id : Nat} {k : Entry} (h : Fits H cls a b id k)
    (ha : ∃ x, a = a' ++ x) (hb : ∃ y, b' = b ++ y) : Fits H cls a' b' id k := by
  obtain ⟨m, ⟨x, hx⟩, ⟨y, hy⟩, hc⟩ := h
  obtain ⟨u, hu⟩ := ha
  obtain ⟨v, hv⟩ := hb
  exact ⟨m, ⟨u ++ x, by rw [hx, hu, List.append_assoc]⟩, ⟨y ++ v, by rw [hv, hy, List.append_assoc]⟩, hc⟩

/-- What an execution from `s` to `s'` adds to the trace. -/
def Adds (H : Hier T) (cls : Nat → T) (s s' : S T) : Prop :=
  ∃ new, s'.st.trace = s.st.trace ++ new ∧ ∀ id k, .entry id k ∈ new → Fits H cls s.skip s'.skip id k

theorem Adds.refl {H : Hier T} {cls : Nat → T} {s s' : S T} (h : s'.st.trace = s.st.trace) : Adds H cls s s' :=
  ⟨[], by rw [h]; simp, (fun _ _ h => nomatch h)⟩

theorem Adds.trans {H : Hier T} {cls : Nat → T} {s s1 s2 : S T} (h1 : Adds H cls s s1) (h2 : Adds H cls s1 s2)
    (g1 : ∃ k, s1.skip = s.skip ++ k) (g2 : ∃ k, s2.skip = s1.skip ++ k) : Adds H cls s s2 := by
  obtain ⟨n, hn, hf⟩ := h1
  obtain ⟨m, hm, hg⟩ := h2
  refine ⟨n ++ m, by rw [hm, hn, List.append_assoc], ?_⟩
  intro id k hk
  rcases List.mem_append.1 hk with hk | hk
  · exact (hf id k hk).mono ⟨[], by simp⟩ g2
  · exact (hg id k hk).mono g1 ⟨[], by simp⟩

theorem handleException_adds {E : Env T} {cls : Nat → T}
    (hb : ∀ e e', E.beforeRaises e = some e' → e'.cls = cls e'.id) (ha : ∀ e e', E.afterRaises e = some e' → e'.cls = cls e'.id)
    (e : Exc T) (he : e.cls = cls e.id) (s : S T) :
    (∀ e', (handleException (now E s.skip) e s.st).1 = some e' → e'.cls = cls e'.id) ∧
    Adds E.H cls s { s with st := (handleException (now E s.skip) e s.st).2 } := by
  have hadd : ∀ st : St T, st.trace = s.st.trace →
      ∃ new, (updateCurrentResult (now E s.skip) e st).trace = s.st.trace ++ new ∧
        ∀ id k, .entry id k ∈ new → Fits E.H cls s.skip s.skip id k := by
    intro st hst
    unfold updateCurrentResult addException
    by_cases h1 : (now E s.skip).hasSession = true
    · simp only [h1, if_true]
      by_cases h2 : (st.marks e.id).added = true
      · simp only [h2, if_true]; exact ⟨[], by rw [hst]; simp, (fun _ _ h => nomatch h)⟩
      · simp only [h2]
        rcases hc : classify (now E s.skip).H e with _ | k
        · exact ⟨[], by simp [St.setMarks, hst], (fun _ _ h => nomatch h)⟩
        · refine ⟨[.entry e.id k], by simp [St.setMarks, St.emit, hst], ?_⟩
          intro id k' hk'
          rw [List.mem_singleton] at hk'
          injection hk' with h3 h4
          subst h3 h4
          refine ⟨s.skip, ⟨[], by simp⟩, ⟨[], by simp⟩, ?_⟩
          rw [← he]; exact hc
    · simp only [h1]; exact ⟨[], by simp [hst], (fun _ _ h => nomatch h)⟩
  unfold handleException
  by_cases h : (s.st.marks e.id).handled = true
  · simp only [h, if_true]
    exact ⟨(fun _ h => nomatch h), .refl rfl⟩
  · simp only [h]
    obtain ⟨new, hn, hf⟩ := hadd (s.st.setMarks e.id { s.st.marks e.id with handled := true }) rfl
    rcases hx : E.beforeRaises e with _ | x
    · have hx' : (now E s.skip).beforeRaises e = none := hx
      simp only [hx']
      refine ⟨fun e' h' => ha e e' h', new ++ [.before e.id, .after e.id], ?_, ?_⟩
      · simp only [St.emit]; rw [show _ = s.st.trace ++ new from hn]; simp
      · intro id k hk
        simp only [List.mem_append, List.mem_cons, List.not_mem_nil, or_false, reduceCtorEq] at hk
        exact hf id k hk
    · have hx' : (now E s.skip).beforeRaises e = some x := hx
      simp only [hx']
      refine ⟨fun e' h' => ?_, new ++ [.before e.id], ?_, ?_⟩
      · injection h' with h'; subst h'; exact hb e x hx
      · simp only [St.emit]; rw [show _ = s.st.trace ++ new from hn]; simp
      · intro id k hk
        simp only [List.mem_append, List.mem_cons, List.not_mem_nil, or_false, reduceCtorEq] at hk
        exact hf id k hk

theorem handlingExit_adds {E : Env T} {cls : Nat → T}
    (hb : ∀ e e', E.beforeRaises e = some e' → e'.cls = cls e'.id) (ha : ∀ e e', E.afterRaises e = some e' → e'.cls = cls e'.id)
    (cfg : Cfg T) (pass : List T) (e : Exc T) (he : e.cls = cls e.id) (s : S T) :
    (∀ e', (handlingExit (now E s.skip) cfg pass e s.st).1 = some e' → e'.cls = cls e'.id) ∧
    Adds E.H cls s { s with st := (handlingExit (now E s.skip) cfg pass e s.st).2 } := by
  have hh := handleException_adds hb ha e he s
  have hthis : ∀ e', some e = some e' → e'.cls = cls e'.id := fun e' h' => by injection h' with h'; subst h'; exact he
  unfold handlingExit
  by_cases h1 : (now E s.skip).H.inst e pass = true
  · simp only [h1, if_true]
    exact ⟨hthis, .refl rfl⟩
  · simp only [h1]
    rcases hx : handleException (now E s.skip) e s.st with ⟨_ | x, st'⟩ <;> rw [hx] at hh
    · by_cases h2 : ((now E s.skip).H.inst e (now E s.skip).skipTypes || (now E s.skip).H.inst e (now E s.skip).H.interruptTypes) = true
      · simp only [h2, if_true]; exact ⟨hthis, hh.2⟩
      · simp only [h2]
        by_cases h3 : (now E s.skip).H.inst e (cfg.effSwallow (now E s.skip).H) = true
        · simp only [h3, if_true]; exact ⟨(fun _ h => nomatch h), hh.2⟩
        · simp only [h3]; exact ⟨hthis, hh.2⟩
    · exact hh

theorem eval_adds {E : Env T} {cls : Nat → T}
    (hb : ∀ e e', E.beforeRaises e = some e' → e'.cls = cls e'.id) (ha : ∀ e e', E.afterRaises e = some e' → e'.cls = cls e'.id)
    (p : Prog T) (hp : p.Of cls) (s : S T) :
    (∀ e', (eval E p s).1 = some e' → e'.cls = cls e'.id) ∧ Adds E.H cls s (eval E p s).2 := by
  induction p generalizing s with
  | done => exact ⟨(fun _ h => nomatch h), .refl rfl⟩
  | raise e => exact ⟨fun e' h' => by injection h' with h'; subst h'; exact hp, .refl rfl⟩
  | register t => exact ⟨(fun _ h => nomatch h), .refl rfl⟩
  | started => exact ⟨(fun _ h => nomatch h), .refl rfl⟩
  | seq p q ihp ihq =>
    have e1 := ihp hp.1 s
    have e2 := eval_grows E p s
    simp only [eval]
    rcases hh : eval E p s with ⟨_ | e, s1⟩ <;> rw [hh] at e1 e2
    · have e3 := ihq hp.2 s1
      exact ⟨e3.1, e1.2.trans e3.2 e2 (eval_grows E q s1)⟩
    · exact e1
  | tryFinally p q ihp ihq =>
    have e1 := ihp hp.1 s
    have e2 := eval_grows E p s
    simp only [eval]
    rcases hh : eval E p s with ⟨o, s1⟩ ; rw [hh] at e1 e2
    have e3 := ihq hp.2 s1
    have e4 := eval_grows E q s1
    rcases hq : eval E q s1 with ⟨_ | e, s2⟩ <;> rw [hq] at e3 e4
    · exact ⟨e1.1, e1.2.trans e3.2 e2 e4⟩
    · exact ⟨e3.1, e1.2.trans e3.2 e2 e4⟩
  | tryExcept ts p q ihp ihq =>
    have e1 := ihp hp.1 s
    have e2 := eval_grows E p s
    simp only [eval]
    rcases hh : eval E p s with ⟨_ | e, s1⟩ <;> rw [hh] at e1 e2
    · exact e1
    · by_cases h : E.H.inst e ts = true
      · simp only [h, if_true]
        have e3 := ihq hp.2 s1
        exact ⟨e3.1, e1.2.trans e3.2 e2 (eval_grows E q s1)⟩
      · simp only [h]; exact e1
  | handling cfg p ihp =>
    have e1 := ihp hp s
    have e2 := eval_grows E p s
    simp only [eval]
    rcases hh : eval E p s with ⟨_ | e, s1⟩ <;> rw [hh] at e1 e2
    · exact e1
    · have e3 := handlingExit_adds hb ha cfg (cfg.passthrough ++ s.st.ignored) e (e1.1 e rfl) s1
      exact ⟨e3.1, e1.2.trans e3.2 e2 ⟨[], by simp⟩⟩
  | exceptSkip p ihp =>
    have e1 := ihp hp s
    simp only [eval]
    rcases hh : eval E p s with ⟨_ | e, s1⟩ <;> rw [hh] at e1
    · exact e1
    · by_cases h : E.H.inst e s1.skip = true
      · simp only [h, if_true]; exact ⟨(fun _ h => nomatch h), e1.2⟩
      · simp only [h]; exact e1
  | ifStarted p ih =>
    simp only [eval]
    by_cases h : s.started = true
    · simp only [h, if_true]; exact ih hp _
    · simp only [h]; exact ⟨(fun _ h => nomatch h), .refl rfl⟩

/-- `cls` says of which class each exception that the test raises is. -/
def Test.Of (cls : Nat → T) (t : Test T) : Prop :=
  t.opening.Of cls ∧ t.start.Of cls ∧ t.body.Of cls ∧ t.closing.Of cls ∧ t.summary.Of cls ∧ t.ended.Of cls

theorem Test.prog_of {cls : Nat → T} {t : Test T} (h : t.Of cls) : t.prog.Of cls := by
  obtain ⟨h1, h2, h3, h4, h5, h6⟩ := h
  simp only [Test.prog, guarded, Prog.Of, true_and]
  exact ⟨⟨⟨h1, ⟨h2, h3⟩, h4⟩, h5⟩, h6⟩

theorem runTests_grows (E : Env T) (ts : List (Test T)) (s : S T) : ∃ k, (runTests E ts s).2.2.skip = s.skip ++ k := by
  induction ts generalizing s with
  | nil => exact ⟨[], by simp [runTests]⟩
  | cons t ts ih =>
    simp only [runTests]
    obtain ⟨k, hk⟩ := eval_grows E t.prog { s with st := { s.st with trace := [] }, started := false }
    rcases hh : eval E t.prog { s with st := { s.st with trace := [] }, started := false } with ⟨_ | e, s1⟩ <;> rw [hh] at hk
    · obtain ⟨m, hm⟩ := ih s1
      exact ⟨k ++ m, by rw [← List.append_assoc, ← hk]; exact hm⟩
    · exact ⟨k, hk⟩

theorem runTests_adds {E : Env T} {cls : Nat → T}
    (hb : ∀ e e', E.beforeRaises e = some e' → e'.cls = cls e'.id) (ha : ∀ e e', E.afterRaises e = some e' → e'.cls = cls e'.id)
    (ts : List (Test T)) (hts : ∀ t ∈ ts, t.Of cls) (s : S T) (evs : List Ev) (he : evs ∈ (runTests E ts s).1) (id : Nat) (k : Entry)
    (hk : .entry id k ∈ evs) : Fits E.H cls s.skip (runTests E ts s).2.2.skip id k := by
  induction ts generalizing s with
  | nil => cases he
  | cons t ts ih =>
    simp only [runTests] at he ⊢
    have e1 := (eval_adds hb ha t.prog (Test.prog_of (hts t (by simp))) { s with st := { s.st with trace := [] }, started := false }).2
    have e2 := eval_grows E t.prog { s with st := { s.st with trace := [] }, started := false }
    rcases hh : eval E t.prog { s with st := { s.st with trace := [] }, started := false } with ⟨_ | e, s1⟩ <;> rw [hh] at he e1 e2
    · have e3 := runTests_grows E ts s1
      rcases List.mem_cons.1 he with he | he
      · subst he
        obtain ⟨new, hn, hf⟩ := e1
        rw [show s1.st.trace = new from hn] at hk
        exact (hf id k hk).mono ⟨[], by simp⟩ e3
      · exact (ih (fun t ht => hts t (by simp [ht])) s1 he).mono e2 ⟨[], by simp⟩
    · obtain ⟨new, hn, hf⟩ := e1
      rw [List.mem_singleton.1 he, show s1.st.trace = new from hn] at hk
      exact hf id k hk

/-! ### What escapes -/

/-- All exceptions that the script raises fulfil `P`. -/
def Prog.All (P : Exc T → Prop) : Prog T → Prop
  | .done => True
  | .raise e => P e
  | .register _ => True
  | .seq p q => p.All P ∧ q.All P
  | .tryFinally p q => p.All P ∧ q.All P
  | .tryExcept _ p q => p.All P ∧ q.All P
  | .handling _ p => p.All P
  | .exceptSkip p => p.All P
  | .started => True
  | .ifStarted p => p.All P

theorem handlingExit_all {E : Env T} {P : Exc T → Prop} (hb : ∀ e, E.beforeRaises e = none) (ha : ∀ e, E.afterRaises e = none)
    (cfg : Cfg T) (pass : List T) (e : Exc T) (he : P e) (st : St T) (e' : Exc T) (h : (handlingExit E cfg pass e st).1 = some e') : P e' := by
  have hh : (handleException E e st).1 = none := by
    unfold handleException
    by_cases h1 : (st.marks e.id).handled = true
    · simp only [h1, if_true]
    · simp only [h1, hb, ha]; rfl
  have hw : (handlingExit E cfg pass e st).1 = none ∨ (handlingExit E cfg pass e st).1 = some e := by
    unfold handlingExit
    rcases hx : handleException E e st with ⟨_ | x, st'⟩
    · dsimp only
      repeat' split
      all_goals simp
    · rw [hx] at hh; cases hh
  rcases hw with hw | hw <;> rw [hw] at h
  · cases h
  · injection h with h; subst h; exact he

theorem eval_all {E : Env T} {P : Exc T → Prop} (hb : ∀ e, E.beforeRaises e = none) (ha : ∀ e, E.afterRaises e = none)
    (p : Prog T) (hp : p.All P) (s : S T) (e : Exc T) (h : (eval E p s).1 = some e) : P e := by
  induction p generalizing s e with
  | done => cases h
  | raise e => injection h with h; subst h; exact hp
  | register t => cases h
  | started => cases h
  | seq p q ihp ihq =>
    simp only [eval] at h
    rcases hh : eval E p s with ⟨_ | x, s1⟩ <;> rw [hh] at h
    · exact ihq hp.2 s1 e h
    · exact ihp hp.1 s e (by rw [hh]; exact h)
  | tryFinally p q ihp ihq =>
    simp only [eval] at h
    rcases hh : eval E p s with ⟨o, s1⟩ ; rw [hh] at h
    rcases hq : eval E q s1 with ⟨_ | x, s2⟩ <;> simp only [hq] at h
    · exact ihp hp.1 s e (by rw [hh]; exact h)
    · exact ihq hp.2 s1 e (by rw [hq]; exact h)
  | tryExcept ts p q ihp ihq =>
    simp only [eval] at h
    rcases hh : eval E p s with ⟨_ | x, s1⟩ <;> rw [hh] at h
    · cases h
    · by_cases h1 : E.H.inst x ts = true
      · simp only [h1, if_true] at h; exact ihq hp.2 s1 e h
      · simp only [h1] at h; exact ihp hp.1 s e (by rw [hh]; exact h)
  | handling cfg p ihp =>
    simp only [eval] at h
    rcases hh : eval E p s with ⟨_ | x, s1⟩ <;> rw [hh] at h
    · cases h
    · exact handlingExit_all (E := now E s1.skip) hb ha cfg _ x (ihp hp s x (by rw [hh])) s1.st e h
  | exceptSkip p ihp =>
    simp only [eval] at h
    rcases hh : eval E p s with ⟨_ | x, s1⟩ <;> rw [hh] at h
    · cases h
    · by_cases h1 : E.H.inst x s1.skip = true
      · simp only [h1, if_true] at h; cases h
      · simp only [h1] at h; exact ihp hp s e (by rw [hh]; exact h)
  | ifStarted p ih =>
    simp only [eval] at h
    by_cases h1 : s.started = true
    · simp only [h1, if_true] at h; exact ih hp _ e h
    · simp only [h1] at h; cases h

/-- What leaves a context that swallows, of ordinary exceptions and of exceptions registered already, is registered. -/
theorem guarded_escapes {E : Env T} (hb : ∀ e, E.beforeRaises e = none) (ha : ∀ e, E.afterRaises e = none)
    (hs : E.hasSession = true) (s0 : List T) (p : Prog T)
    (hp : p.All (fun e => E.H.isa e.cls E.H.exception = true ∧ E.H.inst e E.H.interruptTypes = false ∨ E.H.inst e s0 = true))
    (s : S T) (hs0 : ∃ x, s.skip = s0 ++ x) (hi : s.st.ignored = []) (e : Exc T) (h : (eval E (guarded p) s).1 = some e) :
    E.H.inst e (eval E (guarded p) s).2.skip = true := by
  simp only [guarded, eval, hi, List.append_nil] at h ⊢
  have hall := eval_all hb ha p hp s
  have hg := eval_grows E p s
  rcases hh : eval E p s with ⟨_ | x, s1⟩ <;> rw [hh] at h hall hg
  · cases h
  · have hx := hall x rfl
    have hhn : (handleException (now E s1.skip) x s1.st).1 = none := by
      unfold handleException
      by_cases h1 : (s1.st.marks x.id).handled = true
      · simp only [h1, if_true]
      · have hb' : (now E s1.skip).beforeRaises x = none := hb x
        have ha' : (now E s1.skip).afterRaises x = none := ha x
        simp only [h1, hb', ha']; rfl
    have hsk : (now E s1.skip).skipTypes = s1.skip := by
      unfold Env.skipTypes; rw [show (now E s1.skip).hasSession = true from hs]; rfl
    have hpass : (now E s1.skip).H.inst x [] = false := rfl
    show E.H.inst e s1.skip = true
    simp only [handlingExit, hpass] at h
    rcases hx2 : handleException (now E s1.skip) x s1.st with ⟨_ | y, st'⟩
    · simp only [hx2, hsk] at h
      by_cases h1 : E.H.inst x s1.skip = true
      · have h2 : (now E s1.skip).H.inst x s1.skip = true := h1
        simp only [h2, Bool.true_or, if_true] at h
        injection h with h; subst h; exact h1
      · exfalso
        rcases hx with ⟨hx1, hx3⟩ | hx1
        · have h2 : (now E s1.skip).H.inst x s1.skip = false := by
            have : E.H.inst x s1.skip = false := by simpa using h1
            exact this
          have h3 : (now E s1.skip).H.inst x (now E s1.skip).H.interruptTypes = false := hx3
          have h4 : (now E s1.skip).H.inst x (Cfg.effSwallow (now E s1.skip).H { swallow := true }) = true := by
            simp only [Cfg.effSwallow, Hier.inst, if_true, List.nil_append, List.any_cons, List.any_nil, Bool.or_false]
            exact hx1
          simp only [h2, h3, h4, Bool.or_self] at h
          cases h
        · exact h1 (any_mono (m := s1.skip) (l := s0) (by
            obtain ⟨a, ha⟩ := hs0; obtain ⟨b, hb⟩ := hg
            exact ⟨a ++ b, by rw [← List.append_assoc, ← ha]; exact hb⟩) hx1)
    · rw [hx2] at hhn; cases hhn

end Slash.SkipReg
