import Verif.Model.CtxReuse
/-!
# C182: entering the same context object again
-/
namespace Slash.Reuse
open Slash.Exc (Exc Ev Marks Env Cfg Entry)

variable {T : Type}

/-- The script that makes a new context for each `with` statement. -/
def plain (s : S T) : Prog T → Exc.Prog T
  | .done => .done
  | .raise e => .raise e
  | .seq p q => .seq (plain s p) (plain s q)
  | .tryExcept ts p q => .tryExcept ts (plain s p) (plain s q)
  | .handle c _ p => .handling c (plain s p)
  | .useHandling k p => .handling (s.handling k).cfg (plain s p)
  | .use k nc p => if (s.caught k).ensure then .assertRaises (s.caught k).types nc (plain s p) else .allowing (s.caught k).types (plain s p)

/-- No object of `assert_raises` or `allowing_exceptions` is entered while it is entered already (`l`: those that are), and those of
`handling_exceptions` are entered only where the same exceptions are anticipated (`I`) as when they were made. -/
def Apart (s : S T) : List T → List Nat → Prog T → Prop
  | _, _, .done => True
  | _, _, .raise _ => True
  | I, l, .seq p q => Apart s I l p ∧ Apart s I l q
  | I, l, .tryExcept _ p q => Apart s I l p ∧ Apart s I l q
  | I, l, .handle _ _ p => Apart s I l p
  | I, l, .useHandling k p => (s.handling k).pass = (s.handling k).cfg.passthrough ++ I ∧ Apart s I l p
  | I, l, .use k _ p => k ∉ l ∧ Apart s (I ++ (s.caught k).types) (k :: l) p

/-- The objects were made in the same way. -/
def Same (s s' : S T) : Prop :=
  (∀ k, (s'.caught k).types = (s.caught k).types ∧ (s'.caught k).ensure = (s.caught k).ensure) ∧
  ∀ k, (s'.handling k).cfg = (s.handling k).cfg ∧ (s'.handling k).pass = (s.handling k).pass

theorem handleException_ignored (E : Env T) (e : Exc T) (st : Exc.St T) : (Exc.handleException E e st).2.ignored = st.ignored := by
  have h1 : ∀ st : Exc.St T, (Exc.updateCurrentResult E e st).ignored = st.ignored := by
    intro st
    unfold Exc.updateCurrentResult
    split
    · unfold Exc.addException
      split
      · rfl
      · simp only
        split <;> rfl
    · rfl
  unfold Exc.handleException
  split
  · rfl
  · simp only
    split
    · exact (h1 _)
    · exact (h1 _)

theorem core_back (s : S T) (st : Exc.St T) (h : st.ignored = s.ignored.getD []) : (s.back st).core = st := by
  unfold S.back S.core
  rw [← h]

theorem exitHandling_eq (E : Env T) (c : Cfg T) (pass : List T) (e : Exc T) (s : S T) :
    Exc.handlingExit E c pass e s.core = ((exitHandling E c pass e s).1, (exitHandling E c pass e s).2.1.core) ∧
    (exitHandling E c pass e s).2.1.ignored = s.ignored ∧ (exitHandling E c pass e s).2.1.caught = s.caught ∧
    (exitHandling E c pass e s).2.1.handling = s.handling := by
  unfold Exc.handlingExit exitHandling
  have hi := handleException_ignored E e s.core
  rcases hh : Exc.handleException E e s.core with ⟨o, st⟩
  rw [hh] at hi
  have hb := core_back s st hi
  have x1 : (s.back st).ignored = s.ignored := rfl
  have x2 : (s.back st).caught = s.caught := rfl
  have x3 : (s.back st).handling = s.handling := rfl
  cases o <;> cases E.H.inst e pass <;> cases (E.H.inst e E.skipTypes || E.H.inst e E.H.interruptTypes) <;>
    cases E.H.inst e (c.effSwallow E.H) <;> simp [hb, x1, x2, x3]

/-- What stays the same while a script runs. -/
structure Keeps (s0 : S T) (I : List T) (l : List Nat) (s s' : S T) : Prop where
  ignored : s'.ignored = some I
  same : Same s0 s'
  opened : ∀ k ∈ l, (s'.caught k).ignoreCtx = (s.caught k).ignoreCtx

theorem Keeps.trans {s0 : S T} {I : List T} {l : List Nat} {a b c : S T} (h1 : Keeps s0 I l a b) (h2 : Keeps s0 I l b c) : Keeps s0 I l a c :=
  ⟨h2.ignored, h2.same, fun k hk => (h2.opened k hk).trans (h1.opened k hk)⟩

theorem eval_plain (E : Env T) (te : T) (s0 : S T) (p : Prog T) : ∀ (I : List T) (l : List Nat) (s : S T), Apart s0 I l p → s.ignored = some I →
    Same s0 s → Exc.eval E (plain s0 p) s.core = ((eval E te p s).1, (eval E te p s).2.core) ∧ Keeps s0 I l s (eval E te p s).2 := by
  induction p with
  | done => intro I l s _ hi hs; exact ⟨rfl, hi, hs, fun _ _ => rfl⟩
  | raise e => intro I l s _ hi hs; exact ⟨rfl, hi, hs, fun _ _ => rfl⟩
  | seq p q ihp ihq =>
    intro I l s ha hi hs
    obtain ⟨h1, h2⟩ := ihp I l s ha.1 hi hs
    simp only [plain, Exc.eval, eval, h1]
    rcases hp : eval E te p s with ⟨_ | e, s1⟩ <;> rw [hp] at h2
    · obtain ⟨h3, h4⟩ := ihq I l s1 ha.2 h2.ignored h2.same
      exact ⟨h3, h2.trans h4⟩
    · exact ⟨rfl, h2⟩
  | tryExcept ts p q ihp ihq =>
    intro I l s ha hi hs
    obtain ⟨h1, h2⟩ := ihp I l s ha.1 hi hs
    simp only [plain, Exc.eval, eval, h1]
    rcases hp : eval E te p s with ⟨_ | e, s1⟩ <;> rw [hp] at h2
    · exact ⟨rfl, h2⟩
    · by_cases hc : E.H.inst e ts = true
      · simp only [hc, if_true]
        obtain ⟨h3, h4⟩ := ihq I l s1 ha.2 h2.ignored h2.same
        exact ⟨h3, h2.trans h4⟩
      · simp only [hc]
        exact ⟨rfl, h2⟩
  | handle c t p ih =>
    intro I l s ha hi hs
    obtain ⟨h1, h2⟩ := ih I l s ha hi hs
    have hg : s.core.ignored = I := by unfold S.core; rw [hi]; rfl
    simp only [plain, Exc.eval, eval, hi, h1, hg]
    rcases hp : eval E te p s with ⟨_ | e, s1⟩ <;> rw [hp] at h2
    · exact ⟨rfl, h2⟩
    · obtain ⟨x1, x2, x3, x4⟩ := exitHandling_eq E c (c.passthrough ++ I) e s1
      refine ⟨x1, x2.trans h2.ignored, ?_, ?_⟩
      · unfold Same; rw [x3, x4]; exact h2.same
      · intro k hk; rw [x3]; exact h2.opened k hk
  | useHandling k p ih =>
    intro I l s ha hi hs
    obtain ⟨h1, h2⟩ := ih I l s ha.2 hi hs
    have hg : s.core.ignored = I := by unfold S.core; rw [hi]; rfl
    simp only [plain, Exc.eval, eval, h1, hg]
    rcases hp : eval E te p s with ⟨_ | e, s1⟩ <;> rw [hp] at h2
    · exact ⟨rfl, h2⟩
    · obtain ⟨y1, y2⟩ := h2.same.2 k
      dsimp only
      rw [y1, y2, ha.1]
      obtain ⟨x1, x2, x3, x4⟩ := exitHandling_eq E (s0.handling k).cfg ((s0.handling k).cfg.passthrough ++ I) e s1
      rcases hx : exitHandling E (s0.handling k).cfg ((s0.handling k).cfg.passthrough ++ I) e s1 with ⟨o, s2, b⟩
      rw [hx] at x1 x2 x3 x4
      dsimp only at x1 x2 x3 x4
      cases b
      · refine ⟨x1, x2.trans h2.ignored, ?_, ?_⟩
        · unfold Same; dsimp only; rw [x3, x4]; exact h2.same
        · intro k hk; dsimp only; rw [x3]; exact h2.opened k hk
      · refine ⟨x1, x2.trans h2.ignored, ⟨?_, ?_⟩, ?_⟩
        · intro j; show ((s2.caught j).types = _ ∧ (s2.caught j).ensure = _); rw [x3]; exact h2.same.1 j
        · intro j
          simp only [S.setHandling]
          by_cases hj : j = k
          · subst hj; simp only [if_true]; rw [x4]; exact h2.same.2 j
          · simp only [if_neg hj]; rw [x4]; exact h2.same.2 j
        · intro k hk; show (s2.caught k).ignoreCtx = _; rw [x3]; exact h2.opened k hk
  | use k nc p ih =>
    intro I l s ha hi hs
    obtain ⟨ht, hen⟩ := hs.1 k
    generalize hs1 : ({ s.setCaught k { s.caught k with ignoreCtx := some (some I) } with
      ignored := some (I ++ (s.caught k).types) } : S T) = s1
    have henter : (enterCaught k s).1 = some s1 := by
      unfold enterCaught
      simp only [S.setCaught, hi, if_true]
      rw [← hs1]; rfl
    have hi1 : s1.ignored = some (I ++ (s0.caught k).types) := by rw [← hs1, ← ht]
    have hc1 : s1.core = { s.core with ignored := I ++ (s0.caught k).types } := by rw [← hs1, ← ht]; rfl
    have hk1 : ∀ j, (s1.caught j).types = (s.caught j).types ∧ (s1.caught j).ensure = (s.caught j).ensure ∧
        (j ≠ k → (s1.caught j).ignoreCtx = (s.caught j).ignoreCtx) := by
      intro j
      rw [← hs1]
      simp only [S.setCaught]
      by_cases hj : j = k
      · subst hj; simp
      · simp [hj]
    have hself : (s1.caught k).ignoreCtx = some (some I) := by rw [← hs1]; simp [S.setCaught]
    have hsame1 : Same s0 s1 := by
      refine ⟨fun j => ⟨(hk1 j).1.trans (hs.1 j).1, (hk1 j).2.1.trans (hs.1 j).2⟩, fun j => ?_⟩
      rw [← hs1]; exact hs.2 j
    obtain ⟨h1, h2⟩ := ih (I ++ (s0.caught k).types) (k :: l) s1 ha.2 hi1 hsame1
    have hg : s.core.ignored = I := by unfold S.core; rw [hi]; rfl
    rcases hp : eval E te p s1 with ⟨o, s2⟩
    rw [hp] at h1 h2
    dsimp only at h1 h2
    have hev : eval E te (.use k nc p) s = exitCaught E k nc o (leaveIgnore k s2) := by
      rw [eval]
      rcases hh : enterCaught k s with ⟨a, b⟩
      rw [hh] at henter
      dsimp only at henter
      subst henter
      dsimp only
      rw [hp]
    have hctx : (s2.caught k).ignoreCtx = some (some I) := (h2.opened k (by simp)).trans hself
    obtain ⟨t2, e2⟩ := h2.same.1 k
    generalize hs3 : leaveIgnore k s2 = s3 at hev
    have hs3' : s3 = { s2.setCaught k { s2.caught k with ignoreCtx := some none } with ignored := some I } := by
      rw [← hs3]; unfold leaveIgnore; simp only [hctx]
    have hc3 : s3.core = { s2.core with ignored := I } := by rw [hs3']; rfl
    have hk3 : ∀ j, (s3.caught j).types = (s2.caught j).types ∧ (s3.caught j).ensure = (s2.caught j).ensure ∧
        (j ≠ k → (s3.caught j).ignoreCtx = (s2.caught j).ignoreCtx) := by
      intro j
      rw [hs3']
      simp only [S.setCaught]
      by_cases hj : j = k
      · subst hj; simp
      · simp [hj]
    have keep3 : Keeps s0 I l s s3 := by
      refine ⟨by rw [hs3'], ⟨fun j => ⟨(hk3 j).1.trans (h2.same.1 j).1, (hk3 j).2.1.trans (h2.same.1 j).2⟩, fun j => ?_⟩, fun j hj => ?_⟩
      · rw [hs3']; exact h2.same.2 j
      · have hne : j ≠ k := fun e => ha.1 (e ▸ hj)
        exact ((hk3 j).2.2 hne).trans ((h2.opened j (by simp [hj])).trans ((hk1 j).2.2 hne))
    have t3 : (s3.caught k).types = (s0.caught k).types := (hk3 k).1.trans t2
    have e3 : (s3.caught k).ensure = (s0.caught k).ensure := (hk3 k).2.1.trans e2
    have keep4 : ∀ n tr, Keeps s0 I l s { s3.setCaught k { s3.caught k with exception := n } with trace := tr } := by
      intro n tr
      refine ⟨keep3.ignored, ⟨fun j => ?_, keep3.same.2⟩, fun j hj => ?_⟩
      · simp only [S.setCaught]
        by_cases hj : j = k
        · subst hj; simpa using keep3.same.1 j
        · simp only [if_neg hj]; exact keep3.same.1 j
      · have hne : j ≠ k := fun e => ha.1 (e ▸ hj)
        simp only [S.setCaught, if_neg hne]
        exact keep3.opened j hj
    have hfin : Exc.caughtExit E.H (s0.caught k).types (s0.caught k).ensure nc o { s2.core with ignored := I } =
        ((exitCaught E k nc o s3).1, (exitCaught E k nc o s3).2.core) ∧ Keeps s0 I l s (exitCaught E k nc o s3).2 := by
      unfold Exc.caughtExit exitCaught
      rw [t3, e3, ← hc3]
      cases o with
      | none =>
        cases (s0.caught k).ensure
        · exact ⟨rfl, keep3⟩
        · exact ⟨rfl, keep3⟩
      | some e =>
        dsimp only
        by_cases hc : E.H.inst e (s0.caught k).types = true
        · simp only [hc, if_true]
          exact ⟨rfl, keep4 _ _⟩
        · simp only [hc]
          exact ⟨rfl, keep3⟩
    rw [hev]
    refine ⟨?_, hfin.2⟩
    rw [← hfin.1]
    simp only [plain]
    rw [hc1] at h1
    cases he : (s0.caught k).ensure
    · simp only [Bool.false_eq_true, if_false, Exc.eval, hg, h1]
      cases o <;> rfl
    · simp only [if_true, Exc.eval, hg, h1]

/-- **C182.** Using one object again and again is like making a new context each time - with respect to the exceptions that leave, what is
recorded, the hooks that are called, what is caught, and what is anticipated afterwards -, as long as no object of `assert_raises` or
`allowing_exceptions` is entered while it is entered already, and objects of `handling_exceptions` are used where the same exceptions are
anticipated as where they were made. -/
theorem C182_again_partial (E : Env T) (te : T) (p : Prog T) (I : List T) (s : S T) (hi : s.ignored = some I) (ha : Apart s I [] p) :
    Exc.eval E (plain s p) { marks := s.marks, ignored := I, trace := s.trace } =
      ((eval E te p s).1, { marks := (eval E te p s).2.marks, ignored := I, trace := (eval E te p s).2.trace }) ∧
    (eval E te p s).2.ignored = some I := by
  obtain ⟨h1, h2⟩ := eval_plain E te s p I [] s ha hi ⟨fun _ => ⟨rfl, rfl⟩, fun _ => ⟨rfl, rfl⟩⟩
  refine ⟨?_, h2.ignored⟩
  have e1 : s.core = { marks := s.marks, ignored := I, trace := s.trace } := by unfold S.core; rw [hi]; rfl
  have e2 : (eval E te p s).2.core = { marks := (eval E te p s).2.marks, ignored := I, trace := (eval E te p s).2.trace } := by
    unfold S.core; rw [h2.ignored]; rfl
  rw [← e1, h1, e2]

/-- Classes for the examples. -/
inductive C | base | exception | typeError | valueError | skipTest | keyboard | genExit | notCaught
deriving DecidableEq

/-- A session for the examples: all exceptions are plain ones. -/
def demo : Env C where
  H := { isa := fun a b => a = b || b = .base || (b = .exception && a ≠ .keyboard && a ≠ .genExit && a ≠ .base), exception := .exception,
         genExit := .genExit, failureTypes := [], skipTypes := [.skipTest], interruptTypes := [.keyboard], notCaught := .notCaught }
  hasSession := true
  beforeRaises := fun _ => none
  afterRaises := fun _ => none

/-- Objects for the examples: `assert_raises(ValueError)`, for odd numbers `allowing_exceptions(ValueError)`, and `handling_exceptions(swallow=True)`
made at the beginning, for odd numbers where `ValueError` was anticipated. -/
def start : S C where
  marks := fun _ => {}
  ignored := some []
  trace := []
  caught := fun k => { types := [.valueError], ensure := k % 2 == 0 }
  handling := fun k => { cfg := { swallow := true }, pass := if k % 2 = 0 then [] else [.valueError] }

example : let p : Prog C := .seq (.use 0 10 (.raise ⟨1, .valueError⟩)) (.seq (.useHandling 0 (.raise ⟨2, .typeError⟩))
      (.seq (.use 0 11 (.useHandling 1 (.raise ⟨3, .valueError⟩))) (.use 0 12 .done)))
    Apart start [] [] p ∧ (eval demo .typeError p start).1 = some ⟨12, .notCaught⟩ ∧
    (eval demo .typeError p start).2.trace = [.caught 1, .entry 2 .error, .before 2, .after 2, .caught 3] := by
  refine ⟨?_, by decide, by decide⟩
  simp [Apart, start]

/-- **C182 is violated** by entering an object of `assert_raises` or `allowing_exceptions` within itself: when the outer `with` statement is
left, the types that are ignored in this thread become `None`, whatever was anticipated before. -/
theorem C182_nested_violated (E : Env T) (te : T) (k n1 n2 : Nat) (p : Prog T) (I : List T) (s : S T) (hi : s.ignored = some I)
    (ha : Apart s (I ++ (s.caught k).types ++ (s.caught k).types) [k] p) :
    (eval E te (.use k n1 (.use k n2 p)) s).2.ignored = none := by
  generalize hs1 : ({ s.setCaught k { s.caught k with ignoreCtx := some (some I) } with
      ignored := some (I ++ (s.caught k).types) } : S T) = s1
  have henter : (enterCaught k s).1 = some s1 := by
    unfold enterCaught
    simp only [S.setCaught, hi, if_true]
    rw [← hs1]; rfl
  have ht1 : (s1.caught k).types = (s.caught k).types := by rw [← hs1]; simp [S.setCaught]
  generalize hs2 : ({ s1.setCaught k { s1.caught k with ignoreCtx := some (some (I ++ (s.caught k).types)) } with
      ignored := some (I ++ (s.caught k).types ++ (s1.caught k).types) } : S T) = s2
  have henter2 : (enterCaught k s1).1 = some s2 := by
    unfold enterCaught
    have : s1.ignored = some (I ++ (s.caught k).types) := by rw [← hs1]
    simp only [S.setCaught, this, if_true]
    rw [← hs2]; rfl
  have hself : (s2.caught k).ignoreCtx = some (some (I ++ (s.caught k).types)) := by rw [← hs2]; simp [S.setCaught]
  have hsame : Same s s2 := by
    constructor
    · intro j
      rw [← hs2, ← hs1]
      by_cases hj : j = k
      · subst hj; simp [S.setCaught]
      · simp [S.setCaught, hj]
    · intro j; rw [← hs2, ← hs1]; exact ⟨rfl, rfl⟩
  have keep := (eval_plain E te s p _ _ s2 ha (by rw [← hs2, ht1]) hsame).2
  have hexit : ∀ (nc : Nat) (o : Option (Exc T)) (x : S T), (exitCaught E k nc o x).2.ignored = x.ignored ∧
      ((exitCaught E k nc o x).2.caught k).ignoreCtx = (x.caught k).ignoreCtx := by
    intro nc o x
    unfold exitCaught
    split
    · split
      · exact ⟨rfl, by simp [S.setCaught]⟩
      · exact ⟨rfl, rfl⟩
    · split <;> exact ⟨rfl, rfl⟩
  have enter_eval : ∀ (nc : Nat) (q : Prog T) (x y : S T), (enterCaught k x).1 = some y →
      eval E te (.use k nc q) x = exitCaught E k nc (eval E te q y).1 (leaveIgnore k (eval E te q y).2) := by
    intro nc q x y h
    rw [eval]
    rcases hh : enterCaught k x with ⟨a, b⟩
    rw [hh] at h
    dsimp only at h
    subst h
    rfl
  rw [enter_eval n1 _ s s1 henter, (hexit _ _ _).1]
  have hinner : ((eval E te (.use k n2 p) s1).2.caught k).ignoreCtx = some none := by
    rw [enter_eval n2 _ s1 s2 henter2, (hexit _ _ _).2]
    unfold leaveIgnore
    rw [keep.opened k (by simp), hself]
    simp [S.setCaught]
  generalize (eval E te (.use k n2 p) s1).2 = z at hinner
  unfold leaveIgnore
  rw [hinner]

/-- **C182 is violated** from then on: in this thread no context can be entered any more, neither of `handling_exceptions` nor of `assert_raises` and
`allowing_exceptions` - all of them raise `TypeError` before their blocks are begun -, and nothing that is run ends this. -/
theorem C182_broken_violated (E : Env T) (te : T) (s : S T) (h : s.ignored = none) (p : Prog T) :
    (∀ c t, eval E te (.handle c t p) s = (some ⟨t, te⟩, s)) ∧ (∀ k nc, (eval E te (.use k nc p) s).1 = some ⟨nc, te⟩) ∧
    (∀ k nc, (eval E te (.use k nc p) s).2.trace = s.trace) ∧ (eval E te p s).2.ignored = none := by
  have huse : ∀ (s : S T), s.ignored = none → ∀ k nc p, eval E te (.use k nc p) s =
      (some ⟨nc, te⟩, s.setCaught k { s.caught k with ignoreCtx := some none }) := by
    intro s h k nc p
    rw [eval]
    have : enterCaught k s = (none, s.setCaught k { s.caught k with ignoreCtx := some none }) := by
      unfold enterCaught
      simp only [S.setCaught, h]
    rw [this]
  refine ⟨fun c t => by simp only [eval, h], fun k nc => by rw [huse s h], fun k nc => by rw [huse s h]; rfl, ?_⟩
  induction p generalizing s with
  | done => exact h
  | raise e => exact h
  | seq p q ihp ihq =>
    simp only [eval]
    have := ihp s h
    rcases hp : eval E te p s with ⟨_ | e, s1⟩ <;> rw [hp] at this
    · exact ihq s1 this
    · exact this
  | tryExcept ts p q ihp ihq =>
    simp only [eval]
    have := ihp s h
    rcases hp : eval E te p s with ⟨_ | e, s1⟩ <;> rw [hp] at this
    · exact this
    · by_cases hc : E.H.inst e ts = true
      · simp only [hc, if_true]; exact ihq s1 this
      · simp only [hc]; exact this
  | handle c t p ih => simp only [eval, h]
  | useHandling k p ih =>
    simp only [eval]
    have := ih s h
    rcases hp : eval E te p s with ⟨_ | e, s1⟩ <;> rw [hp] at this
    · exact this
    · dsimp only
      have hx := (exitHandling_eq E (s1.handling k).cfg (s1.handling k).pass e s1).2.1
      rcases hh : exitHandling E (s1.handling k).cfg (s1.handling k).pass e s1 with ⟨o, s2, b⟩
      rw [hh] at hx
      cases b <;> exact hx.trans this
  | use k nc p ih => rw [huse s h]; exact h

/-- The exception is caught as it should be, but afterwards the thread has lost the ability to handle exceptions; with two objects, nothing of
that kind happens. -/
example : let e : Exc C := ⟨1, .valueError⟩
    (eval demo .typeError (.use 0 10 (.seq (.use 0 11 (.raise e)) (.raise e))) start).1 = none ∧
    (eval demo .typeError (.seq (.use 0 10 (.seq (.use 0 11 (.raise e)) (.raise e))) (.handle {} 12 .done)) start).1 = some ⟨12, .typeError⟩ ∧
    (eval demo .typeError (.seq (.use 0 10 (.seq (.use 2 11 (.raise e)) (.raise e))) (.handle {} 12 .done)) start).1 = none := by decide

/-- **C182 is violated** by an object of `handling_exceptions` that was made before `assert_raises` or `allowing_exceptions` was entered:
exceptions that are anticipated are recorded nevertheless, as errors or whatever they are. With a context that is made on the spot they are not. -/
theorem C182_made_before_violated (E : Env T) (te : T) (k h nc : Nat) (e : Exc T) (kind : Entry) (s : S T) (hse : E.hasSession = true)
    (hb : E.beforeRaises e = none) (ha : E.afterRaises e = none) (I : List T) (hi : s.ignored = some I)
    (ht : E.H.inst e (s.caught k).types = true) (hp : E.H.inst e (s.handling h).pass = false)
    (hs : E.H.inst e ((s.handling h).cfg.effSwallow E.H) = false)
    (hm : (s.marks e.id).handled = false) (hm' : (s.marks e.id).added = false) (hk : Exc.classify E.H e = some kind) :
    (eval E te (.use k nc (.useHandling h (.raise e))) s).1 = none ∧
    (eval E te (.use k nc (.useHandling h (.raise e))) s).2.trace = s.trace ++ [.entry e.id kind, .before e.id, .after e.id, .caught e.id] ∧
    ∀ c t, (eval E te (.use k nc (.handle c t (.raise e))) s).1 = none ∧
      (eval E te (.use k nc (.handle c t (.raise e))) s).2.trace = s.trace ++ [.caught e.id] := by
  generalize hs1 : ({ s.setCaught k { s.caught k with ignoreCtx := some (some I) } with
      ignored := some (I ++ (s.caught k).types) } : S T) = s1
  have henter : (enterCaught k s).1 = some s1 := by
    unfold enterCaught
    simp only [S.setCaught, hi, if_true]
    rw [← hs1]; rfl
  have enter_eval : ∀ (q : Prog T), eval E te (.use k nc q) s = exitCaught E k nc (eval E te q s1).1 (leaveIgnore k (eval E te q s1).2) := by
    intro q
    rw [eval]
    rcases hh : enterCaught k s with ⟨a, b⟩
    rw [hh] at henter
    dsimp only at henter
    subst henter
    rfl
  have hc1 : s1.caught k = { s.caught k with ignoreCtx := some (some I) } := by rw [← hs1]; simp [S.setCaught]
  have hh1 : s1.handling = s.handling := by rw [← hs1]; rfl
  have hm1 : s1.marks = s.marks := by rw [← hs1]; rfl
  have htr1 : s1.trace = s.trace := by rw [← hs1]; rfl
  have hi1 : s1.ignored = some (I ++ (s.caught k).types) := by rw [← hs1]
  -- leaving, for any state with the same object
  have fin : ∀ x : S T, x.caught = s1.caught → (exitCaught E k nc (some e) (leaveIgnore k x)).1 = none ∧
      (exitCaught E k nc (some e) (leaveIgnore k x)).2.trace = x.trace ++ [.caught e.id] := by
    intro x hx
    have hxk : x.caught k = { s.caught k with ignoreCtx := some (some I) } := by rw [hx, hc1]
    have : E.H.inst e ((leaveIgnore k x).caught k).types = true := by
      unfold leaveIgnore
      rw [hxk]
      simp only [S.setCaught, if_true]
      exact ht
    unfold exitCaught
    simp only [this, if_true]
    refine ⟨trivial, ?_⟩
    unfold leaveIgnore
    rw [hxk]; rfl
  have hx : ∃ st, exitHandling E (s1.handling h).cfg (s1.handling h).pass e s1 = (some e, s1.back st, true) ∧
      st.trace = s.trace ++ [.entry e.id kind, .before e.id, .after e.id] := by
    have hh : ∃ st, Exc.handleException E e s1.core = (none, st) ∧ st.trace = s.trace ++ [.entry e.id kind, .before e.id, .after e.id] := by
      unfold Exc.handleException Exc.updateCurrentResult Exc.addException
      simp [S.core, hm1, hm, hse, Exc.St.setMarks, hm', hk, Exc.St.emit, hb, ha, htr1]
    obtain ⟨st, hst, htr⟩ := hh
    refine ⟨st, ?_, htr⟩
    unfold exitHandling
    rw [hst, hh1, hp, hs]
    cases (E.H.inst e E.skipTypes || E.H.inst e E.H.interruptTypes) <;> rfl
  obtain ⟨st, hst, htr⟩ := hx
  have h1 : eval E te (.useHandling h (.raise e)) s1 =
      (some e, (s1.back st).setHandling h { (s1.back st).handling h with exception := some e.id }) := by
    simp only [eval, hst]
  refine ⟨?_, ?_, ?_⟩
  · rw [enter_eval, h1]
    exact (fin ((s1.back st).setHandling h { (s1.back st).handling h with exception := some e.id }) rfl).1
  · rw [enter_eval, h1]
    refine (fin ((s1.back st).setHandling h { (s1.back st).handling h with exception := some e.id }) rfl).2.trans ?_
    show st.trace ++ _ = _
    rw [htr]; simp
  · intro c t
    have hpass : E.H.inst e (c.passthrough ++ (I ++ (s.caught k).types)) = true := by
      unfold Exc.Hier.inst at ht ⊢
      simp only [List.any_append, ht, Bool.or_true]
    have h2 : eval E te (.handle c t (.raise e)) s1 = (some e, s1) := by
      simp only [eval, hi1, exitHandling, hpass, if_true]
    rw [enter_eval, h2]
    refine ⟨(fin _ rfl).1, ?_⟩
    rw [(fin _ rfl).2, htr1]

example : (eval demo .typeError (.use 0 10 (.useHandling 0 (.raise ⟨1, .valueError⟩)))
      { start with handling := fun _ => { cfg := {}, pass := [] } }).2.trace = [.entry 1 .error, .before 1, .after 1, .caught 1] ∧
    (eval demo .typeError (.use 0 10 (.handle {} 11 (.raise ⟨1, .valueError⟩))) start).2.trace = [.caught 1] := by decide

/-- **C182 is violated** the other way round, too: an object of `handling_exceptions` that was made while exceptions were anticipated lets them pass
unrecorded where they are not anticipated any more. -/
theorem C182_made_within_violated (E : Env T) (te : T) (h : Nat) (e : Exc T) (s : S T) (hp : E.H.inst e (s.handling h).pass = true) :
    eval E te (.useHandling h (.raise e)) s = (some e, s) := by
  simp only [eval, exitHandling, hp, if_true]

example : (eval demo .typeError (.useHandling 1 (.raise ⟨1, .valueError⟩)) start).1 = some ⟨1, .valueError⟩ ∧
    (eval demo .typeError (.useHandling 1 (.raise ⟨1, .valueError⟩)) start).2.trace = [] ∧
    (eval demo .typeError (.handle { swallow := true } 10 (.raise ⟨1, .valueError⟩)) start).1 = none := by decide

/-- **C182.** The object that `with … as caught` gives is the same each time: its exception is the last one caught. -/
theorem C182_caught (E : Env T) (te : T) (k nc : Nat) (e : Exc T) (s : S T) (I : List T) (hi : s.ignored = some I)
    (ht : E.H.inst e (s.caught k).types = true) : ((eval E te (.use k nc (.raise e)) s).2.caught k).exception = some e.id := by
  simp [eval, enterCaught, S.setCaught, hi, leaveIgnore, exitCaught, ht]

/-- **C182.** The same is true of what `with handling_exceptions(...) as handled` gives: the last exception that was handled, or met again after it
was handled within; exceptions that pass leave it alone. -/
theorem C182_handled (E : Env T) (te : T) (h : Nat) (e : Exc T) (s : S T) (hb : E.beforeRaises e = none) (ha : E.afterRaises e = none) :
    ((eval E te (.useHandling h (.raise e)) s).2.handling h).exception =
      if E.H.inst e (s.handling h).pass then (s.handling h).exception else some e.id := by
  have hh : (Exc.handleException E e s.core).1 = none := by
    unfold Exc.handleException
    split
    · rfl
    · simp only [hb]; exact ha
  simp only [eval]
  cases hp : E.H.inst e (s.handling h).pass
  · rcases hx : Exc.handleException E e s.core with ⟨o, st⟩
    rw [hx] at hh
    dsimp only at hh
    subst hh
    unfold exitHandling
    simp only [hp, hx]
    cases (E.H.inst e E.skipTypes || E.H.inst e E.H.interruptTypes) <;> cases E.H.inst e ((s.handling h).cfg.effSwallow E.H) <;>
      simp [S.setHandling]
  · simp only [exitHandling, hp, if_true]

example : ((eval demo .typeError (.seq (.useHandling 0 (.raise ⟨5, .valueError⟩)) (.useHandling 0 .done)) start).2.handling 0).exception = some 5 ∧
    ((eval demo .typeError (.useHandling 1 (.raise ⟨5, .valueError⟩)) start).2.handling 1).exception = none := by decide

/-- **C182.** If a plugin's hook raises while an exception is handled - which happens only to exceptions that were not handled before -, what
`with handling_exceptions(...) as handled` gives stays what it was. -/
theorem C182_handled_hook (E : Env T) (te : T) (h : Nat) (e : Exc T) (s : S T) (hp : E.H.inst e (s.handling h).pass = false)
    (hm : (s.marks e.id).handled = false) (hr : E.beforeRaises e ≠ none ∨ E.afterRaises e ≠ none) :
    (eval E te (.useHandling h (.raise e)) s).2.handling = s.handling ∧
    (eval E te (.useHandling h (.raise e)) s).1 = if E.beforeRaises e = none then E.afterRaises e else E.beforeRaises e := by
  have hh : (Exc.handleException E e s.core).1 = if E.beforeRaises e = none then E.afterRaises e else E.beforeRaises e := by
    unfold Exc.handleException
    have : (s.core.marks e.id).handled = false := hm
    simp only [this, Bool.false_eq_true, if_false]
    cases hb : E.beforeRaises e <;> simp
  rcases hx : Exc.handleException E e s.core with ⟨o, st⟩
  rw [hx] at hh
  dsimp only at hh
  have ho : ∃ e', o = some e' := by
    rw [hh]
    cases hb : E.beforeRaises e with
    | none => cases ha : E.afterRaises e with
      | none => simp [hb, ha] at hr
      | some a => exact ⟨a, by simp⟩
    | some b => exact ⟨b, by simp⟩
  obtain ⟨e', he'⟩ := ho
  subst he'
  simp only [eval, exitHandling, hp, hx, Bool.false_eq_true, if_false]
  exact ⟨rfl, hh⟩

example : let E : Env C := { demo with afterRaises := fun _ => some ⟨9, .typeError⟩ }
    ((eval E .typeError (.useHandling 0 (.raise ⟨5, .valueError⟩)) start).2.handling 0).exception = none ∧
    (eval E .typeError (.useHandling 0 (.raise ⟨5, .valueError⟩)) start).1 = some ⟨9, .typeError⟩ := by decide

/-- **C182 is violated** by `allowing_exceptions`: if nothing is raised, the object still gives the exception that was caught when it was used before. -/
theorem C182_stale_violated (E : Env T) (te : T) (k nc nc' : Nat) (e : Exc T) (s : S T) (I : List T) (hi : s.ignored = some I)
    (ht : E.H.inst e (s.caught k).types = true) (he : (s.caught k).ensure = false) :
    (eval E te (.seq (.use k nc (.raise e)) (.use k nc' .done)) s).1 = none ∧
    ((eval E te (.seq (.use k nc (.raise e)) (.use k nc' .done)) s).2.caught k).exception = some e.id := by
  simp [eval, enterCaught, S.setCaught, hi, leaveIgnore, exitCaught, ht, he]

example : ((eval demo .typeError (.seq (.use 1 10 (.raise ⟨5, .valueError⟩)) (.use 1 11 .done)) start).2.caught 1).exception = some 5 ∧
    ((eval demo .typeError (.use 1 11 .done) start).2.caught 1).exception = none := by decide

end Slash.Reuse
