import Verif.Model.Requirement
import Verif.Lemmas.Util
/-!
# Requirements: properties C28, C66
-/
namespace Slash.Req

/-- `f` uses `g`, directly or through other fixtures (or is it). -/
inductive Uses (req : Nat → List Nat) : Nat → Nat → Prop
  | refl (f : Nat) : Uses req f f
  | step {f g h : Nat} : g ∈ req f → Uses req g h → Uses req f h

theorem mem_joinAll (ls : List (Option (List Nat))) (l : List Nat) (h : joinAll ls = some l) (r : Nat) :
    r ∈ l ↔ ∃ l', some l' ∈ ls ∧ r ∈ l' := by
  induction ls generalizing l with
  | nil => simp only [joinAll, Option.some.injEq] at h; subst h; simp
  | cons x ls ih =>
    cases x with
    | none => cases h
    | some l0 =>
      simp only [joinAll, Option.map_eq_some_iff] at h
      obtain ⟨l1, h1, rfl⟩ := h
      simp only [List.mem_append, ih l1 h1, List.mem_cons, Option.some.injEq]
      constructor
      · rintro (hr | ⟨l', h2, hr⟩)
        · exact ⟨l0, .inl rfl, hr⟩
        · exact ⟨l', .inr h2, hr⟩
      · rintro ⟨l', rfl | h2, hr⟩
        · exact .inl hr
        · exact .inr ⟨l', h2, hr⟩

theorem joinAll_none (ls : List (Option (List Nat))) (l : List Nat) (h : joinAll ls = some l) : none ∉ ls := by
  induction ls generalizing l with
  | nil => simp
  | cons x ls ih =>
    cases x with
    | none => cases h
    | some l0 =>
      simp only [joinAll, Option.map_eq_some_iff] at h
      obtain ⟨l1, h1, rfl⟩ := h
      simp [ih l1 h1]

theorem mem_joined (w : World) (n : Nat) (fs l : List Nat) (hf : ∀ f l, fixReqs w n f = some l → ∀ r, r ∈ l ↔ ∃ g, Uses w.req f g ∧ r ∈ w.own g)
    (h : joinAll (fs.map (fixReqs w n)) = some l) (r : Nat) : r ∈ l ↔ ∃ f ∈ fs, ∃ g, Uses w.req f g ∧ r ∈ w.own g := by
  rw [mem_joinAll _ _ h]
  constructor
  · rintro ⟨l', h1, hr⟩
    obtain ⟨f, hfm, e⟩ := List.mem_map.1 h1
    exact ⟨f, hfm, (hf f l' e r).1 hr⟩
  · rintro ⟨f, hfm, hr⟩
    cases e : fixReqs w n f with
    | none => exact absurd (List.mem_map.2 ⟨f, hfm, e⟩) (joinAll_none _ _ h)
    | some l' => exact ⟨l', List.mem_map.2 ⟨f, hfm, e⟩, (hf f l' e r).2 hr⟩

theorem mem_fixReqs (w : World) (n f : Nat) (l : List Nat) (h : fixReqs w n f = some l) (r : Nat) : r ∈ l ↔ ∃ g, Uses w.req f g ∧ r ∈ w.own g := by
  induction n generalizing f l r with
  | zero => cases h
  | succ n ih =>
    simp only [fixReqs, Option.map_eq_some_iff] at h
    obtain ⟨l1, h1, rfl⟩ := h
    rw [List.mem_append, mem_joined w n (w.req f) l1 (fun f l hl r => ih f l hl r) h1]
    constructor
    · rintro (hr | ⟨g, hg, g', hu, hr⟩)
      · exact ⟨f, .refl f, hr⟩
      · exact ⟨g', .step hg hu, hr⟩
    · rintro ⟨g, hu, hr⟩
      cases hu with
      | refl => exact .inl hr
      | step hg hu => exact .inr ⟨_, hg, g, hu, hr⟩

/-! ## C28 -/

/-- C28, collecting: the requirements of a test are those declared on it and on the fixtures it uses through its arguments or because they
are autouse ones, directly or not. -/
theorem C28_all_requirements_collected (w : World) (n : Nat) (l : List Nat) (h : getRequirements w n = some l) (r : Nat) :
    r ∈ l ↔ r ∈ w.declared ∨ (w.nofix = false ∧ ∃ f, (f ∈ w.args ∨ f ∈ w.autouse) ∧ ∃ g, Uses w.req f g ∧ r ∈ w.own g) := by
  unfold getRequirements at h
  cases hn : w.nofix with
  | true =>
    rw [hn] at h
    simp only [if_true, Option.some.injEq] at h
    subst h
    simp
  | false =>
    rw [hn] at h
    simp only [Bool.false_eq_true, if_false, Option.bind_eq_some_iff, Option.map_eq_some_iff] at h
    obtain ⟨l1, h1, l2, h2, rfl⟩ := h
    simp only [List.mem_eraseDups, List.mem_append, mem_joined w n _ _ (mem_fixReqs w n) h1, mem_joined w n _ _ (mem_fixReqs w n) h2, true_and]
    constructor
    · rintro (hr | ⟨f, hf, hr⟩ | ⟨f, hf, hr⟩)
      · exact .inl hr
      · exact .inr ⟨f, .inl hf, hr⟩
      · exact .inr ⟨f, .inr hf, hr⟩
    · rintro (hr | ⟨f, hf | hf, hr⟩)
      · exact .inl hr
      · exact .inr (.inl ⟨f, hf, hr⟩)
      · exact .inr (.inr ⟨f, hf, hr⟩)

/-- C28, the part that holds (no fixture comes from `use_fixtures` or is used by `before` or `after` of a class, and the test is not marked with `nofixtures`, unless there are
no autouse fixtures): nothing is unmet (and so the test runs, see `C28_avoided_not_run` for the runner) only if every requirement of the test and of
every fixture set up for it is met; otherwise one skip is recorded for each unmet requirement, and no others. -/
theorem C28_unmet_partial (w : World) (n : Nat) (us : List (Nat × Option String)) (h : unmet w n = some us) (hx : w.extra = [])
    (hnf : w.nofix = true → w.autouse = []) (har : w.around = []) :
    (us = [] ↔ (∀ r ∈ w.declared, (w.met r).1 = true) ∧ ∀ f ∈ used w, ∀ g, Uses w.req f g → ∀ r ∈ w.own g, (w.met r).1 = true) ∧
    (∀ r m, (r, m) ∈ us ↔ (r ∈ w.declared ∨ ∃ f ∈ used w, ∃ g, Uses w.req f g ∧ r ∈ w.own g) ∧ (w.met r).1 = false ∧ m = (w.met r).2) ∧
    (skips w us).length = us.length := by
  simp only [unmet, Option.map_eq_some_iff] at h
  obtain ⟨l, hl, rfl⟩ := h
  have hmem : ∀ r, r ∈ l ↔ r ∈ w.declared ∨ ∃ f ∈ used w, ∃ g, Uses w.req f g ∧ r ∈ w.own g := by
    intro r
    rw [C28_all_requirements_collected w n l hl r]
    unfold used
    rw [har, List.append_nil]
    cases hn : w.nofix with
    | true => simp [hnf hn]
    | false =>
      simp only [hx, Bool.false_eq_true, if_false, List.append_nil, List.mem_append, true_and]
      constructor
      · rintro (h | ⟨f, h1 | h1, h2⟩)
        · exact .inl h
        · exact .inr ⟨f, .inr h1, h2⟩
        · exact .inr ⟨f, .inl h1, h2⟩
      · rintro (h | ⟨f, h1 | h1, h2⟩)
        · exact .inl h
        · exact .inr ⟨f, .inr h1, h2⟩
        · exact .inr ⟨f, .inl h1, h2⟩
  have hus : ∀ r m, (r, m) ∈ l.filterMap (fun r => if (w.met r).1 then none else some (r, (w.met r).2)) ↔
      r ∈ l ∧ (w.met r).1 = false ∧ m = (w.met r).2 := by
    intro r m
    rw [List.mem_filterMap]
    constructor
    · rintro ⟨r', hr', e⟩
      split at e
      · cases e
      · rename_i hm
        simp only [Option.some.injEq, Prod.mk.injEq] at e
        obtain ⟨rfl, rfl⟩ := e
        exact ⟨hr', by simpa using hm, rfl⟩
    · rintro ⟨hr, hm, rfl⟩
      exact ⟨r, hr, by simp [hm]⟩
  refine ⟨?_, ?_, by simp [skips]⟩
  · constructor
    · intro he
      have hall : ∀ r ∈ l, (w.met r).1 = true := by
        intro r hr
        cases hm : (w.met r).1 with
        | true => rfl
        | false =>
          have := (hus r _).2 ⟨hr, hm, rfl⟩
          rw [he] at this
          cases this
      exact ⟨fun r hr => hall r ((hmem r).2 (.inl hr)), fun f hf g hu r hr => hall r ((hmem r).2 (.inr ⟨f, hf, g, hu, hr⟩))⟩
    · rintro ⟨h1, h2⟩
      rw [List.eq_nil_iff_forall_not_mem]
      rintro ⟨r, m⟩ hr
      obtain ⟨h3, h4, -⟩ := (hus r m).1 hr
      rcases (hmem r).1 h3 with h | ⟨f, hf, g, hu, h⟩
      · rw [h1 r h] at h4; cases h4
      · rw [h2 f hf g hu r h] at h4; cases h4
  · intro r m
    rw [hus, hmem]

/-- a test with a met requirement and an argument whose fixture uses a fixture with an unmet one -/
example : unmet {
    declared := [1], nofix := false, args := [0], autouse := [2], extra := [], own := fun f => if f = 1 then [3] else [],
    req := fun f => if f = 0 then [1] else [], cond := fun r => .const (r != 3), msg := fun _ => none, shown := fun _ => "",
    isSkip := fun _ => false } 5 = some [(3, none)] := by
  decide

/-- C28, the reasons: each unmet requirement is recorded in the result as one skip, and announced to the `test_avoided` hook, with a reason
that says why: the reason given to `slash.skipped`; the reason the condition came with; the message given to `slash.requires`, if the
condition came with none; or else how the condition is shown. -/
theorem C28_reasons (w : World) (n : Nat) (us : List (Nat × Option String)) (h : unmet w n = some us) :
    (∀ x ∈ reasons w us, ∃ u ∈ us, x = message w u) ∧
    ∀ r m, (r, m) ∈ us →
      (some (message w (r, m)) ∈ skips w us ∨ (w.isSkip r = true ∧ w.msg r ∈ skips w us)) ∧
      message w (r, m) ∈ reasons w us ∧
      (w.isSkip r = true → (w.msg r = none → message w (r, m) = "Skipped") ∧
        ∀ s, w.msg r = some s → s ≠ "" → message w (r, m) = s) ∧
      (w.isSkip r = false →
        (∀ b s, w.cond r = .fnWith b (some s) → s ≠ "" → message w (r, m) = "Unmet requirement: " ++ s) ∧
        (∀ s, (∀ b s', w.cond r = .fnWith b (some s') → s' = "") → w.msg r = some s →
          message w (r, m) = "Unmet requirement: " ++ s) ∧
        (w.msg r = none → (∀ b, w.cond r = .const b → message w (r, m) = "Unmet requirement: " ++ "?") ∧
          (∀ b, w.cond r = .fn b → message w (r, m) = "Unmet requirement: " ++ w.shown r) ∧
          (∀ b, w.cond r = .fnWith b none → message w (r, m) = "Unmet requirement: " ++ w.shown r))) := by
  have hm : ∀ r m, (r, m) ∈ us → m = (w.met r).2 := by
    intro r m hr
    simp only [unmet, Option.map_eq_some_iff] at h
    obtain ⟨l, -, rfl⟩ := h
    rw [List.mem_filterMap] at hr
    obtain ⟨r', -, e⟩ := hr
    split at e
    · cases e
    · simp only [Option.some.injEq, Prod.mk.injEq] at e
      obtain ⟨rfl, rfl⟩ := e
      rfl
  refine ⟨?_, ?_⟩
  · intro x hx
    simp only [reasons, List.mem_eraseDups, List.mem_map] at hx
    obtain ⟨u, hu, rfl⟩ := hx
    exact ⟨u, hu, rfl⟩
  · intro r m hr
    have hm' := hm r m hr
    refine ⟨?_, ?_, ?_, ?_⟩
    · cases hs : w.isSkip r with
      | false => exact .inl (List.mem_map.2 ⟨_, hr, by simp [hs]⟩)
      | true => exact .inr ⟨rfl, List.mem_map.2 ⟨_, hr, by simp [hs]⟩⟩
    · simp only [reasons, List.mem_eraseDups]
      exact List.mem_map.2 ⟨_, hr, rfl⟩
    · intro hs
      refine ⟨fun hn => by simp [message, hs, hn], fun s hn h0 => by simp [message, hs, hn, h0]⟩
    · intro hs
      subst hm'
      refine ⟨?_, ?_, ?_⟩
      · intro b s hc h0
        simp [message, hs, World.met, World.condOf, isMet, hc, h0]
      · intro s hc hn
        simp only [message, hs, World.met, World.condOf, World.text, isMet, hn, Bool.false_eq_true, if_false]
        cases hcc : w.cond r with
        | const b => simp only; split <;> simp_all
        | fn b => simp only; split <;> simp_all
        | fnWith b r' =>
          cases r' with
          | none => simp
          | some s' => simp [hc b s' hcc]
      · intro hn
        refine ⟨fun b hc => ?_, fun b hc => ?_, fun b hc => ?_⟩ <;>
          simp only [message, hs, World.met, World.condOf, World.text, isMet, hc, hn, Bool.false_eq_true, if_false]

/-- a skipped test with an unmet requirement: two skips -/
example : let w : World := {
    declared := [1, 2, 3], nofix := false, args := [], autouse := [], extra := [], own := fun _ => [], req := fun _ => [],
    cond := fun r => if r = 3 then .fnWith false (some "no disk") else .const true, msg := fun r => if r = 1 then none else some "why",
    shown := fun _ => "", isSkip := fun r => r = 1 }
    unmet w 1 = some [(1, none), (3, some "no disk")] ∧ skips w [(1, none), (3, some "no disk")] = [none, some "Unmet requirement: no disk"] ∧
    reasons w [(1, none), (3, some "no disk")] = ["Skipped", "Unmet requirement: no disk"] := by
  decide

/-- C28, what was declared: a test with a requirement made by `slash.skipped` is never run, whatever its condition, and the reason given is recorded;
one made by `slash.requires` stands in the way of the test exactly if its condition, or what the condition returns, is false. -/
theorem C28_declared (w : World) (n : Nat) (us : List (Nat × Option String)) (h : unmet w n = some us) (r : Nat) (hr : r ∈ w.declared) :
    (w.isSkip r = true → (r, w.msg r) ∈ us ∧ w.msg r ∈ skips w us) ∧
    (w.isSkip r = false → ∀ b,
      (w.cond r = .const b ∨ w.cond r = .fn b → ((∃ m, (r, m) ∈ us) ↔ b = false)) ∧
      ∀ m', w.cond r = .fnWith b m' → ((∃ m, (r, m) ∈ us) ↔ b = false)) := by
  simp only [unmet, Option.map_eq_some_iff] at h
  obtain ⟨l, hl, rfl⟩ := h
  have hm : r ∈ l := (C28_all_requirements_collected w n l hl r).2 (.inl hr)
  have key : (∃ m, (r, m) ∈ l.filterMap (fun r => if (w.met r).1 then none else some (r, (w.met r).2))) ↔ (w.met r).1 = false := by
    constructor
    · rintro ⟨m, hx⟩
      obtain ⟨r', -, e⟩ := List.mem_filterMap.1 hx
      split at e
      · cases e
      · rename_i hf
        simp only [Option.some.injEq, Prod.mk.injEq] at e
        rw [← e.1]; simpa using hf
    · intro hf
      exact ⟨_, List.mem_filterMap.2 ⟨r, hm, by rw [hf]; exact if_neg (by simp)⟩⟩
  refine ⟨?_, ?_⟩
  · intro hs
    have hin : (r, w.msg r) ∈ l.filterMap (fun r => if (w.met r).1 then none else some (r, (w.met r).2)) :=
      List.mem_filterMap.2 ⟨r, hm, by simp [World.met, World.condOf, hs, isMet]⟩
    exact ⟨hin, List.mem_map.2 ⟨_, hin, by simp [hs]⟩⟩
  · intro hs b
    refine ⟨?_, ?_⟩
    · rintro (hc | hc) <;> rw [key] <;> simp [World.met, World.condOf, hs, hc, isMet]
    · intro m' hc
      rw [key]; simp [World.met, World.condOf, hs, hc, isMet]

/-- requirement 1 is a `slash.skipped`, 2 a function that returns false with a reason, 3 a met one -/
example : let w : World := {
      declared := [1, 2, 3], nofix := false, args := [], autouse := [], extra := [], own := fun _ => [], req := fun _ => [],
      cond := fun r => if r = 2 then .fnWith false (some "no disk") else .const true,
      msg := fun r => if r = 1 then some "later" else none, shown := fun _ => "", isSkip := fun r => r = 1 }
    unmet w 5 = some [(1, some "later"), (2, some "no disk")] ∧
      skips w [(1, some "later"), (2, some "no disk")] = [some "later", some "Unmet requirement: no disk"] := by
  decide

/-- C28 fails for fixtures that the test names by `use_fixtures`: their requirements are not looked at, and they are set up. -/
theorem C28_use_fixtures_violated :
    let w : World := {
      declared := [], nofix := false, args := [], autouse := [], extra := [0], own := fun _ => [3], req := fun _ => [],
      cond := fun _ => .const false, msg := fun _ => none, shown := fun _ => "", isSkip := fun _ => false }
    unmet w 5 = some [] ∧ 0 ∈ used w ∧ (w.met 3).1 = false ∧ 3 ∈ w.own 0 := by
  decide

/-- C28 fails for tests of classes: the requirements of fixtures that `before` or `after` take are not looked at, and they are set up (unless the method takes
them as well). -/
theorem C28_before_violated :
    let w : World := {
      declared := [], nofix := false, args := [], autouse := [], extra := [], around := [0], own := fun _ => [3], req := fun _ => [],
      cond := fun _ => .const false, msg := fun _ => none, shown := fun _ => "", isSkip := fun _ => false }
    unmet w 5 = some [] ∧ 0 ∈ used w ∧ (w.met 3).1 = false ∧ 3 ∈ w.own 0 := by
  decide

/-- C28 fails for tests marked with `nofixtures`: autouse fixtures are set up for them, but their requirements are not looked at. -/
theorem C28_nofixtures_violated :
    let w : World := {
      declared := [], nofix := true, args := [], autouse := [0], extra := [], own := fun _ => [3], req := fun _ => [],
      cond := fun _ => .const false, msg := fun _ => none, shown := fun _ => "", isSkip := fun _ => false }
    unmet w 5 = some [] ∧ 0 ∈ used w ∧ (w.met 3).1 = false ∧ 3 ∈ w.own 0 := by
  decide

/-! ## C66 -/

/-- Every class is numbered after its base, and the requirements a class has of its own are marked as its own. -/
structure Heap.Ok (h : Heap) : Prop where
  after : ∀ c b, h.base c = some b → b < c
  key : ∀ c k l, h.own c = some (k, l) → k = c

/-- `d` is `c` or derives from it. -/
inductive Derives (h : Heap) (c : Nat) : Nat → Prop
  | refl : Derives h c c
  | step {d b : Nat} : h.base d = some b → Derives h c b → Derives h c d

theorem attr_key (h : Heap) (hok : h.Ok) (n d k : Nat) (l : List Nat) (ha : attr h n d = some (k, l)) : h.own k = some (k, l) ∧ Derives h k d := by
  induction n generalizing d with
  | zero => cases ha
  | succ n ih =>
    simp only [attr] at ha
    cases ho : h.own d with
    | some r' =>
      rw [ho] at ha
      simp only [Option.some.injEq] at ha
      subst ha
      have := hok.key _ _ _ ho
      subst this
      exact ⟨ho, .refl⟩
    | none =>
      rw [ho] at ha
      cases hb : h.base d with
      | none => rw [hb] at ha; cases ha
      | some b =>
        rw [hb] at ha
        obtain ⟨h1, h2⟩ := ih b ha
        exact ⟨h1, .step hb h2⟩

theorem getReqs_eq (h : Heap) (c : Nat) : getReqs h c = ((attr h (c + 1) c).map (·.2)).getD [] := by
  unfold getReqs readReqs reqList
  cases attr h (c + 1) c with
  | none => rfl
  | some r => obtain ⟨k, l⟩ := r; simp only; split <;> rfl

theorem requires_own (h : Heap) (c r : Nat) :
    requires h c r = { h with own := fun x => if x = c then some (c, getReqs h c ++ [r]) else h.own x } := by
  unfold requires getReqs readReqs reqList
  cases ha : attr h (c + 1) c with
  | none => simp only [if_true, Heap.mk.injEq, true_and]; funext x; split <;> simp
  | some p =>
    obtain ⟨k, l⟩ := p
    simp only
    split
    · simp
    · simp only [if_true, Heap.mk.injEq, true_and]; funext x; split <;> simp

theorem attr_change (h : Heap) (c : Nat) (v : Nat × List Nat) (n d : Nat) (hd : ¬ Derives h c d) :
    attr { h with own := fun x => if x = c then some v else h.own x } n d = attr h n d := by
  induction n generalizing d with
  | zero => rfl
  | succ n ih =>
    have hne : d ≠ c := by rintro rfl; exact hd .refl
    simp only [attr, if_neg hne]
    cases h.own d with
    | some r' => rfl
    | none =>
      cases hb : h.base d with
      | none => rfl
      | some b => exact ih b (fun hd' => hd (.step hb hd'))

/-- C66: `requires` adds the requirement to the class (or function) it decorates, which keeps those it has and those it has from its base;
all the classes which do not derive from it keep exactly what they have; and this goes on. -/
theorem C66_requires_is_local (h : Heap) (hok : h.Ok) (c r : Nat) :
    getReqs (requires h c r) c = getReqs h c ++ [r] ∧ (∀ d, ¬ Derives h c d → getReqs (requires h c r) d = getReqs h d) ∧
      (requires h c r).Ok := by
  rw [requires_own h]
  refine ⟨?_, ?_, ⟨hok.after, ?_⟩⟩
  · rw [getReqs_eq]; simp [attr]
  · intro d hd
    rw [getReqs_eq, attr_change h c _ _ d hd, getReqs_eq]
  · intro d k l hd
    simp only at hd
    split at hd
    · rename_i e; subst e; simp only [Option.some.injEq, Prod.mk.injEq] at hd; exact hd.1.symm
    · exact hok.key d k l hd

theorem attr_enough (h : Heap) (hok : h.Ok) (m n c : Nat) (hm : c < m) (hn : c < n) : attr h m c = attr h n c := by
  induction m generalizing n c with
  | zero => omega
  | succ m ih =>
    cases n with
    | zero => omega
    | succ n =>
      simp only [attr]
      cases h.own c with
      | some r => rfl
      | none =>
        cases hb : h.base c with
        | none => rfl
        | some b =>
          have := hok.after c b hb
          exact ih n b (by omega) (by omega)

/-- C66. Asking for the requirements of a class or function changes nothing: what is declared later on a base class is still found at the classes derived from it. -/
theorem C66_reading (h : Heap) (c : Nat) : (readReqs h c).2 = h := by
  unfold readReqs reqList
  split
  · rfl
  · split <;> rfl

example : getReqs (requires (readReqs ⟨fun c => if c = 1 then some 0 else none, fun _ => none⟩ 1).2 0 7) 1 = [7] := by decide

/-- C66: a class without requirements of its own has those of its base. -/
theorem C66_inherited (h : Heap) (hok : h.Ok) (c b : Nat) (hb : h.base c = some b) (ho : h.own c = none) : getReqs h c = getReqs h b := by
  rw [getReqs_eq, getReqs_eq]
  have := hok.after c b hb
  rw [attr_enough h hok (b + 1) c b (by omega) (by omega)]
  simp only [attr, ho, hb, Option.bind_some]

/-- A sequence of declarations, each of a requirement on a class or function. -/
def requireAll (h : Heap) (ops : List (Nat × Nat)) : Heap := ops.foldl (fun h op => requires h op.1 op.2) h

/-- No class is decorated after a class derived from it. (It is as it is if classes are decorated where they are defined.) -/
def BasesFirst (h : Heap) (ops : List (Nat × Nat)) : Prop :=
  ∀ pre post c r, ops = pre ++ (c, r) :: post → ∀ p ∈ post, Derives h p.1 c → p.1 = c

theorem derives_base {h h' : Heap} (e : h'.base = h.base) {c d : Nat} (hd : Derives h c d) : Derives h' c d := by
  induction hd with
  | refl => exact .refl
  | step hb _ ih => exact .step (by rw [e]; exact hb) ih

theorem requireAll_base (h : Heap) (ops : List (Nat × Nat)) : (requireAll h ops).base = h.base := by
  induction ops generalizing h with
  | nil => rfl
  | cons op ops ih => exact (ih _).trans (by simp only [requires_own])

theorem requireAll_ok (h : Heap) (hok : h.Ok) (ops : List (Nat × Nat)) : (requireAll h ops).Ok := by
  induction ops generalizing h with
  | nil => exact hok
  | cons op ops ih => exact ih _ (C66_requires_is_local h hok op.1 op.2).2.2

theorem requireAll_own (h : Heap) (ops : List (Nat × Nat)) (c : Nat) (hc : h.own c = none) (hn : ∀ r, (c, r) ∉ ops) : (requireAll h ops).own c = none := by
  induction ops generalizing h with
  | nil => exact hc
  | cons op ops ih =>
    refine ih _ ?_ (fun r hr => hn r (List.mem_cons_of_mem _ hr))
    simp only [requires_own]
    have : c ≠ op.1 := fun e => hn op.2 (by rw [e]; exact List.mem_cons_self ..)
    simp only [if_neg this, hc]

theorem getReqs_derived (h : Heap) (hok : h.Ok) (x c : Nat) (hd : Derives h x c) (hn : ∀ y, Derives h x y → y ≠ x → h.own y = none) :
    getReqs h c = getReqs h x := by
  induction hd with
  | refl => rfl
  | @step d b hb hd ih =>
    by_cases e : d = x
    · rw [e]
    · rw [C66_inherited h hok d b hb (hn d (.step hb hd) e)]; exact ih

theorem requireAll_snoc (h : Heap) (ops : List (Nat × Nat)) (op : Nat × Nat) : requireAll h (ops ++ [op]) = requires (requireAll h ops) op.1 op.2 := by
  simp [requireAll]

/-- C66 (partial: no class is decorated after a class derived from it): after any sequence of declarations, the requirements of each class and function are
those declared on itself and on the classes it derives from. -/
theorem C66_declared_partial (h : Heap) (hok : h.Ok) (h0 : ∀ c, h.own c = none) (ops : List (Nat × Nat)) (hb : BasesFirst h ops) (c r : Nat) :
    r ∈ getReqs (requireAll h ops) c ↔ ∃ b, (b, r) ∈ ops ∧ Derives h b c := by
  induction ops using Slash.snocInd generalizing c r with
  | nil =>
    have : getReqs h c = [] := by
      rw [getReqs_eq]
      have hn : ∀ n d, attr h n d = none := by
        intro n
        induction n with
        | zero => intro d; rfl
        | succ n ih =>
          intro d
          simp only [attr, h0]
          cases h.base d with
          | none => rfl
          | some b => exact ih b
      rw [hn]
      rfl
    show r ∈ getReqs h c ↔ _
    rw [this]
    simp
  | snoc ops op ih =>
    obtain ⟨x, q⟩ := op
    have hb' : BasesFirst h ops := by
      intro pre post c r e p hp
      exact hb pre (post ++ [(x, q)]) c r (by rw [e]; simp) p (List.mem_append_left _ hp)
    have ih := ih hb'
    rw [requireAll_snoc]
    have hok' := requireAll_ok h hok ops
    have eb := requireAll_base h ops
    have eb' : (requires (requireAll h ops) x q).base = h.base := by rw [requires_own]; exact eb
    obtain ⟨l1, l2, l3⟩ := C66_requires_is_local (requireAll h ops) hok' x q
    by_cases hd : Derives h x c
    · have hnone : ∀ y, Derives h x y → y ≠ x → ∀ r, (y, r) ∉ ops := by
        intro y hy hne r hr
        obtain ⟨pre, post, e⟩ := List.append_of_mem hr
        exact hne (hb pre (post ++ [(x, q)]) y r (by rw [e]; simp) (x, q) (by simp) hy).symm
      have e1 : getReqs (requireAll h ops) c = getReqs (requireAll h ops) x :=
        getReqs_derived _ hok' x c (derives_base eb hd)
          (fun y hy hne => requireAll_own h ops y (h0 y) (hnone y (derives_base eb.symm hy) hne))
      have e2 : getReqs (requires (requireAll h ops) x q) c = getReqs (requires (requireAll h ops) x q) x := by
        refine getReqs_derived _ l3 x c (derives_base eb' hd) (fun y hy hne => ?_)
        rw [requires_own]
        simp only [if_neg hne]
        exact requireAll_own h ops y (h0 y) (hnone y (derives_base eb'.symm hy) hne)
      rw [e2, l1, ← e1, List.mem_append, ih c r]
      constructor
      · rintro (⟨b, h1, h2⟩ | h1)
        · exact ⟨b, List.mem_append_left _ h1, h2⟩
        · rw [List.mem_singleton] at h1
          exact ⟨x, by simp [h1], hd⟩
      · rintro ⟨b, h1, h2⟩
        rcases List.mem_append.1 h1 with h1 | h1
        · exact .inl ⟨b, h1, h2⟩
        · simp only [List.mem_singleton, Prod.mk.injEq] at h1
          exact .inr (by simp [h1.2])
    · rw [l2 c (fun hx => hd (derives_base eb.symm hx)), ih c r]
      constructor
      · rintro ⟨b, h1, h2⟩
        exact ⟨b, List.mem_append_left _ h1, h2⟩
      · rintro ⟨b, h1, h2⟩
        rcases List.mem_append.1 h1 with h1 | h1
        · exact ⟨b, h1, h2⟩
        · simp only [List.mem_singleton, Prod.mk.injEq] at h1
          exact absurd (h1.1 ▸ h2) hd

/-- In whatever order classes are decorated: a class or function has no requirements but those declared on itself and on the classes it derives from, and it has
all those declared on itself. -/
theorem C66_only_declared (h : Heap) (hok : h.Ok) (h0 : ∀ c, h.own c = none) (ops : List (Nat × Nat)) (c r : Nat) :
    (r ∈ getReqs (requireAll h ops) c → ∃ b, (b, r) ∈ ops ∧ Derives h b c) ∧ ((c, r) ∈ ops → r ∈ getReqs (requireAll h ops) c) := by
  have trans : ∀ {a b d : Nat}, Derives h a b → Derives h b d → Derives h a d := by
    intro a b d h1 h2
    induction h2 with
    | refl => exact h1
    | step hb _ ih => exact .step hb ih
  have own_reqs : ∀ (H : Heap) k l, H.own k = some (k, l) → getReqs H k = l := by
    intro H k l hk
    rw [getReqs_eq]
    simp [attr, hk]
  have own_of : ∀ (H : Heap), H.Ok → ∀ c, r ∈ getReqs H c → ∃ k l, H.own k = some (k, l) ∧ Derives H k c ∧ r ∈ l := by
    intro H hH c hr
    rw [getReqs_eq] at hr
    cases ha : attr H (c + 1) c with
    | none => rw [ha] at hr; simp at hr
    | some p =>
      obtain ⟨k, l⟩ := p
      rw [ha] at hr
      obtain ⟨h1, h2⟩ := attr_key H hH _ c k l ha
      exact ⟨k, l, h1, h2, by simpa using hr⟩
  induction ops using Slash.snocInd generalizing c with
  | nil =>
    refine ⟨fun hr => ?_, by simp⟩
    obtain ⟨k, l, h1, -⟩ := own_of h hok c hr
    rw [h0] at h1
    cases h1
  | snoc ops op ih =>
    obtain ⟨x, q⟩ := op
    rw [requireAll_snoc]
    have hok' := requireAll_ok h hok ops
    have eb := requireAll_base h ops
    obtain ⟨l1, -, l3⟩ := C66_requires_is_local (requireAll h ops) hok' x q
    have eb' : (requires (requireAll h ops) x q).base = h.base := by rw [requires_own]; exact eb
    constructor
    · intro hr
      obtain ⟨k, l, h1, h2, h3⟩ := own_of _ l3 c hr
      replace h2 := derives_base eb'.symm h2
      by_cases e : k = x
      · subst e
        have := own_reqs _ _ _ h1
        rw [l1] at this
        rw [← this] at h3
        rcases List.mem_append.1 h3 with h3 | h3
        · obtain ⟨b, h4, h5⟩ := (ih k).1 h3
          exact ⟨b, List.mem_append_left _ h4, trans h5 h2⟩
        · rw [List.mem_singleton] at h3
          exact ⟨k, by simp [h3], h2⟩
      · have h1' : (requireAll h ops).own k = some (k, l) := by
          rw [requires_own] at h1
          simpa only [if_neg e] using h1
        obtain ⟨b, h4, h5⟩ := (ih k).1 (by rw [own_reqs _ _ _ h1']; exact h3)
        exact ⟨b, List.mem_append_left _ h4, trans h5 h2⟩
    · intro hr
      by_cases e : c = x
      · subst e
        rw [l1]
        rcases List.mem_append.1 hr with hr | hr
        · exact List.mem_append_left _ ((ih c).2 hr)
        · simp only [List.mem_singleton, Prod.mk.injEq, true_and] at hr
          exact List.mem_append_right _ (by simp [hr])
      · have hr' : (c, r) ∈ ops := by
          rcases List.mem_append.1 hr with hr | hr
          · exact hr
          · simp only [List.mem_singleton, Prod.mk.injEq] at hr
            exact absurd hr.1 e
        have hown : ∃ l, (requireAll h ops).own c = some (c, l) := by
          obtain ⟨pre, post, rfl⟩ := List.append_of_mem hr'
          have : ∀ (H : Heap) l, (∃ m, H.own c = some (c, m)) → ∃ m, (requireAll H l).own c = some (c, m) := by
            intro H l
            induction l generalizing H with
            | nil => exact fun h => h
            | cons op l ih =>
              rintro ⟨m, hm⟩
              refine ih _ ?_
              simp only [requires_own]
              by_cases e : c = op.1
              · exact ⟨_, by rw [if_pos e, ← e]⟩
              · exact ⟨m, by rw [if_neg e]; exact hm⟩
          have e : requireAll h (pre ++ (c, r) :: post) = requireAll (requires (requireAll h pre) c r) post := by simp [requireAll]
          rw [e]
          refine this _ _ ?_
          rw [requires_own]
          exact ⟨_, if_pos rfl⟩
        obtain ⟨l, hl⟩ := hown
        have h1 := (ih c).2 hr'
        rw [own_reqs _ _ _ hl] at h1
        rw [own_reqs _ c l (by rw [requires_own]; simp only [if_neg e, hl])]
        exact h1

/-- class 1 derives from class 0; both get requirements -/
example : let h := requires (requires ⟨fun c => if c = 1 then some 0 else none, fun _ => none⟩ 0 7) 1 8
    getReqs h 0 = [7] ∧ getReqs h 1 = [7, 8] := by
  decide

/-- C66 fails if a class is decorated after one derived from it: class 1, which has a requirement of its own, does not have the one its base class is given
later, while a class without requirements of its own (2) has it. -/
theorem C66_late_violated :
    let h : Heap := ⟨fun c => if c = 1 ∨ c = 2 then some 0 else none, fun _ => none⟩
    Derives h 0 1 ∧ getReqs (requireAll h [(1, 8), (0, 7)]) 1 = [8] ∧ getReqs (requireAll h [(1, 8), (0, 7)]) 2 = [7] :=
  ⟨.step (b := 0) (by decide) .refl, by decide, by decide⟩

/-- classes 1 and 2 derive from class 0, class 3 from class 1 -/
example : let h : Heap := ⟨fun c => if c = 1 ∨ c = 2 then some 0 else if c = 3 then some 1 else none, fun _ => none⟩
    let h' := requireAll h [(0, 5), (1, 6), (2, 7)]
    getReqs h' 0 = [5] ∧ getReqs h' 1 = [5, 6] ∧ getReqs h' 2 = [5, 7] ∧ getReqs h' 3 = [5, 6] := by
  decide

end Slash.Req
