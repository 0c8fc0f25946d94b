import Verif.Model.HandlingArgs
import Verif.Props.Exc

/-!
# C169: the arguments of `handling_exceptions`
-/
namespace Slash.Exc

variable {T : Type}

/-- The way a script is left, in the words of `handling_exceptions`. -/
def Left.of (o : Option (Exc T)) : Left T :=
  match o with
  | none => .normally
  | some e => .raising e

/-- **C169** (partial): with tuples the context does what is told of it in C40 and C41: it is the context with these types, and it never
fails by itself. Missing: lists, see `C169_list_violated`. -/
theorem C169_tuples_partial (E : Env T) (a : RawArgs T) (sw pass : List T) (hs : a.swallowTypes = .tuple sw) (hp : a.passthrough = .tuple pass)
    (p : Prog T) (st : St T) :
    withHandling E a p st =
      (Left.of (eval E (.handling { swallow := a.swallow, swallowTypes := sw, passthrough := pass } p) st).1,
        (eval E (.handling { swallow := a.swallow, swallowTypes := sw, passthrough := pass } p) st).2) := by
  have hm : makeCtx E.H.exception a st.ignored =
      .ok { swallowTypes := .tuple (Cfg.effSwallow E.H { swallow := a.swallow, swallowTypes := sw, passthrough := pass }), passthrough := pass ++ st.ignored } := by
    unfold makeCtx
    rw [hs, hp]
    cases a.swallow <;> rfl
  unfold withHandling
  rw [hm]
  simp only [eval]
  rcases eval E p st with ⟨o, st1⟩
  cases o with
  | none => rfl
  | some e =>
    simp only [rawExit, handlingExit]
    cases E.H.inst e (pass ++ st.ignored) with
    | true => rfl
    | false =>
      simp only [Bool.false_eq_true, if_false]
      rcases handleException E e st1 with ⟨o', st2⟩
      cases o' with
      | some e' => rfl
      | none =>
        simp only
        cases E.H.inst e E.skipTypes || E.H.inst e E.H.interruptTypes with
        | true => rfl
        | false =>
          simp only [Bool.false_eq_true, if_false]
          cases E.H.inst e (Cfg.effSwallow E.H { swallow := a.swallow, swallowTypes := sw, passthrough := pass }) <;> rfl

/-- **C169** (partial): with tuples, and hooks that do not raise, an exception is stopped exactly if it is of one of the types to swallow (or any
`Exception`, with `swallow`), and neither of a type to pass, nor anticipated, nor a skip, nor an interruption; otherwise it leaves as
the exception it was. -/
theorem C169_stops_partial (E : Env T) (hb : ∀ e, E.beforeRaises e = none) (ha : ∀ e, E.afterRaises e = none)
    (a : RawArgs T) (sw pass : List T) (hs : a.swallowTypes = .tuple sw) (hp : a.passthrough = .tuple pass) (p : Prog T) (st : St T)
    (e : Exc T) (hr : (eval E p st).1 = some e) :
    let is (ts : List T) : Prop := ∃ t ∈ ts, E.H.isa e.cls t = true
    let stops : Prop := ¬ is pass ∧ ¬ is st.ignored ∧ ¬ (is E.H.skipTypes ∧ E.hasSession = true) ∧ ¬ is E.H.interruptTypes ∧
        (is sw ∨ (a.swallow = true ∧ E.H.isa e.cls E.H.exception = true))
    (stops → (withHandling E a p st).1 = .normally) ∧ (¬ stops → (withHandling E a p st).1 = .raising e) := by
  have h := C41_handling_stops_iff E hb ha { swallow := a.swallow, swallowTypes := sw, passthrough := pass } p st e hr
  rw [C169_tuples_partial E a sw pass hs hp]
  refine ⟨fun hh => ?_, fun hh => ?_⟩
  · rw [h.1 hh]; rfl
  · rw [h.2 hh]; rfl

/-- **C169**: the block is run, and its exceptions are handled, if and only if the types to pass are a tuple and the types to swallow are a
tuple, or a list without `swallow`. Otherwise the context fails before the block, which has no effect then. -/
theorem C169_refused (E : Env T) (a : RawArgs T) (p : Prog T) (st : St T) :
    ((∃ x, makeCtx E.H.exception a st.ignored = .error x) ↔
      ¬ ((∃ l, a.passthrough = .tuple l) ∧ ((∃ l, a.swallowTypes = .tuple l) ∨ (a.swallow = false ∧ ∃ l, a.swallowTypes = .list l)))) ∧
    ∀ x, makeCtx E.H.exception a st.ignored = .error x → withHandling E a p st = (.failing x, st) := by
  refine ⟨?_, fun x hx => by unfold withHandling; rw [hx]⟩
  unfold makeCtx
  rcases a with ⟨sw, swt, pt⟩
  cases sw <;> cases swt <;> cases pt <;> simp [Types.plus, Bind.bind, Except.bind]

/-- **C169**: with a list of types to swallow that is not empty, every exception that would be looked at for swallowing (not of a type to
pass, not anticipated, no skip and no interruption) is replaced by a `TypeError`, whether its type is in the list or not. It has been
handled before. With an empty list nothing is swallowed. -/
theorem C169_list (E : Env T) (hb : ∀ e, E.beforeRaises e = none) (ha : ∀ e, E.afterRaises e = none)
    (a : RawArgs T) (sw pass : List T) (hsw : a.swallow = false) (hs : a.swallowTypes = .list sw) (hp : a.passthrough = .tuple pass)
    (p : Prog T) (st : St T) (e : Exc T) (hr : (eval E p st).1 = some e) :
    let is (ts : List T) : Prop := ∃ t ∈ ts, E.H.isa e.cls t = true
    let looked : Prop := ¬ is pass ∧ ¬ is st.ignored ∧ ¬ (is E.H.skipTypes ∧ E.hasSession = true) ∧ ¬ is E.H.interruptTypes
    (looked → sw ≠ [] → (withHandling E a p st).1 = .failing .typeError) ∧
    (¬ looked ∨ sw = [] → (withHandling E a p st).1 = .raising e) ∧
    (¬ is pass → ¬ is st.ignored → ((withHandling E a p st).2.marks e.id).handled = true) := by
  intro is looked
  have hinst : ∀ ts, E.H.inst e ts = true ↔ is ts := by
    intro ts; simp [Hier.inst, is]
  have hm : makeCtx E.H.exception a st.ignored = .ok { swallowTypes := .list sw, passthrough := pass ++ st.ignored } := by
    unfold makeCtx
    rw [hs, hp, hsw]
    rfl
  have hw : withHandling E a p st = rawExit E { swallowTypes := .list sw, passthrough := pass ++ st.ignored } e (eval E p st).2 := by
    unfold withHandling
    rw [hm]
    simp only
    rcases hq : eval E p st with ⟨o, st1⟩
    rw [hq] at hr
    simp only at hr
    subst hr
    rfl
  rw [hw]
  generalize (eval E p st).2 = st1
  have hpass : E.H.inst e (pass ++ st.ignored) = true ↔ is pass ∨ is st.ignored := by
    rw [hinst]
    constructor
    · rintro ⟨t, ht, h⟩
      rcases List.mem_append.1 ht with ht | ht
      · exact .inl ⟨t, ht, h⟩
      · exact .inr ⟨t, ht, h⟩
    · rintro (⟨t, ht, h⟩ | ⟨t, ht, h⟩)
      · exact ⟨t, List.mem_append_left _ ht, h⟩
      · exact ⟨t, List.mem_append_right _ ht, h⟩
  have hskip : E.H.inst e E.skipTypes = true ↔ is E.H.skipTypes ∧ E.hasSession = true := by
    unfold Env.skipTypes
    cases E.hasSession with
    | true => simp [hinst]
    | false => simp [Hier.inst]
  have hhn : (handleException E e st1).1 = none := by
    unfold handleException
    split
    · rfl
    · simp [hb, ha]
  have hhm : ((handleException E e st1).2.marks e.id).handled = true := by
    unfold handleException
    cases hq : (st1.marks e.id).handled with
    | true => simpa using hq
    | false =>
      simp only [Bool.false_eq_true, if_false, hb, St.emit]
      unfold updateCurrentResult addException
      split
      · split
        · simp [St.setMarks]
        · split <;> simp [St.setMarks, St.emit]
      · simp [St.setMarks]
  rcases hh : handleException E e st1 with ⟨o, st2⟩
  rw [hh] at hhn hhm
  simp only at hhn hhm
  subst hhn
  unfold rawExit
  simp only [hh]
  cases h1 : E.H.inst e (pass ++ st.ignored) with
  | true =>
    have h1' := hpass.1 h1
    simp only [if_true]
    refine ⟨fun hl => ?_, fun _ => trivial, fun x y => ?_⟩
    · rcases h1' with h | h
      · exact absurd h hl.1
      · exact absurd h hl.2.1
    · rcases h1' with h | h
      · exact absurd h x
      · exact absurd h y
  | false =>
    have h1' : ¬ (is pass ∨ is st.ignored) := fun h => by rw [hpass.2 h] at h1; simp at h1
    simp only [Bool.false_eq_true, if_false]
    cases h2 : E.H.inst e E.skipTypes with
    | true =>
      simp only [Bool.true_or, if_true]
      exact ⟨fun hl => absurd (hskip.1 h2) hl.2.2.1, fun _ => trivial, fun _ _ => hhm⟩
    | false =>
      have h2' : ¬ (is E.H.skipTypes ∧ E.hasSession = true) := fun h => by rw [hskip.2 h] at h2; simp at h2
      simp only [Bool.false_or]
      cases h3 : E.H.inst e E.H.interruptTypes with
      | true =>
        simp only [if_true]
        exact ⟨fun hl => absurd ((hinst _).1 h3) hl.2.2.2, fun _ => trivial, fun _ _ => hhm⟩
      | false =>
        have h3' : ¬ is E.H.interruptTypes := fun h => by rw [(hinst _).2 h] at h3; simp at h3
        simp only [Bool.false_eq_true, if_false]
        have hl : looked := ⟨fun h => h1' (.inl h), fun h => h1' (.inr h), h2', h3'⟩
        cases sw with
        | nil => exact ⟨fun _ h => absurd rfl h, fun _ => rfl, fun _ _ => hhm⟩
        | cons t sw =>
          refine ⟨fun _ _ => rfl, fun h => ?_, fun _ _ => hhm⟩
          rcases h with h | h
          · exact absurd hl h
          · simp at h

/-- `Exception` is 0, `ValueError` 2, `KeyboardInterrupt` 9; every class but the last is an `Exception`. -/
def exArgsH : Hier Nat :=
  { isa := fun c d => c = d || (d = 0 && c != 9), exception := 0, genExit := 8, failureTypes := [], skipTypes := [5], interruptTypes := [9], notCaught := 7 }

/-- A session in which hooks do not raise. -/
def exArgsE : Env Nat := { H := exArgsH, hasSession := true, beforeRaises := fun _ => none, afterRaises := fun _ => none }

/-- **C169** (violated): `swallow_types` may be a list, says the assertion; but an exception of a type in the list is not swallowed, a
`TypeError` comes in its place. -/
theorem C169_list_violated :
    (withHandling exArgsE { swallowTypes := .list [2] } (.raise ⟨1, 2⟩) St.init).1 = .failing .typeError ∧
    (withHandling exArgsE { swallowTypes := .tuple [2] } (.raise ⟨1, 2⟩) St.init).1 = .normally := by decide

/-- **C169** (violated): with `swallow` a list is refused, by a `TypeError`. -/
theorem C169_list_swallow_violated :
    (withHandling exArgsE { swallow := true, swallowTypes := .list [2] } .done St.init).1 = .failing .typeError := by decide

example : (withHandling exArgsE { swallow := true, swallowTypes := .tuple [2] } (.raise ⟨1, 3⟩) St.init).1 = .normally := by decide
example : (withHandling exArgsE { swallowTypes := .tuple [2] } (.raise ⟨1, 3⟩) St.init).1 = .raising ⟨1, 3⟩ := by decide
example : (withHandling exArgsE { swallow := true, passthrough := .tuple [3] } (.raise ⟨1, 3⟩) St.init).1 = .raising ⟨1, 3⟩ := by decide
example : (withHandling exArgsE { swallow := true } (.raise ⟨1, 9⟩) St.init).1 = .raising ⟨1, 9⟩ := by decide
example : (withHandling exArgsE { swallowTypes := .other } .done St.init).1 = .failing .assertion := by decide
example : (withHandling exArgsE { passthrough := .list [3] } .done St.init).1 = .failing .typeError := by decide
example : (withHandling exArgsE { swallowTypes := .list [2] } (.raise ⟨1, 9⟩) St.init).1 = .raising ⟨1, 9⟩ := by decide

end Slash.Exc
