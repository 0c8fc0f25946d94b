import Mathlib.Data.List.Induction
import Verif.Model.TestClass
/-!
# C148: skipped and abstract test classes
-/
namespace Slash.TC

/-- The reason given when a class was last skipped, if it was. -/
def lastSkip (ops : List Op) (c : Nat) : Option (Option Nat) :=
  ops.reverse.findSome? (fun o => match o with
    | .skipAll d r => if d = c then some r else none
    | .abstract _ => none)

theorem lastSkip_snoc (ops : List Op) (o : Op) (c : Nat) :
    lastSkip (ops ++ [o]) c = match o with
      | .skipAll d r => if d = c then some r else lastSkip ops c
      | .abstract _ => lastSkip ops c := by
  unfold lastSkip
  rw [List.reverse_append]
  simp only [List.reverse_cons, List.reverse_nil, List.nil_append, List.singleton_append, List.findSome?_cons]
  cases o with
  | skipAll d r =>
    by_cases h : d = c
    · simp [h]
    · simp [h]
  | abstract d => rfl

theorem history_snoc (mro : Nat → List Nat) (ops : List Op) (o : Op) : history mro (ops ++ [o]) = step mro (history mro ops) o := by
  unfold history
  rw [List.foldl_append]
  rfl

/-- The attributes after any operations. -/
theorem history_attrs (mro : Nat → List Nat) (ops : List Op) (c : Nat) :
    (history mro ops c).skipped = (match lastSkip ops c with
      | some _ => some true
      | none => if c = testClass then some false else none) ∧
    (history mro ops c).reason = (match lastSkip ops c with
      | some r => some r
      | none => if c = testClass then some none else none) ∧
    ((history mro ops c).abstract = some true ↔ Op.abstract c ∈ ops ∧ testClass ∈ mro c) ∧
    (history mro ops c).abstract ≠ some false := by
  induction ops using List.reverseRecOn with
  | nil =>
    unfold history initial lastSkip
    simp only [List.foldl_nil, List.reverse_nil, List.findSome?_nil]
    by_cases h : c = testClass
    · simp [h]
    · simp [h]
  | append_singleton ops o ih =>
    obtain ⟨h1, h2, h3, h4⟩ := ih
    rw [history_snoc, lastSkip_snoc]
    cases o with
    | skipAll d r =>
      by_cases hd : c = d
      · subst hd
        simp only [step, skipAll, Classes.set, if_true, List.mem_append, List.mem_singleton, reduceCtorEq, or_false]
        exact ⟨trivial, trivial, h3, h4⟩
      · have hd' : ¬ d = c := fun h => hd h.symm
        simp only [step, skipAll, Classes.set, if_neg hd, if_neg hd', List.mem_append, List.mem_singleton, reduceCtorEq, or_false]
        exact ⟨h1, h2, h3, h4⟩
    | abstract d =>
      simp only [step, abstractTestClass, List.mem_append, List.mem_singleton, Op.abstract.injEq]
      by_cases ht : testClass ∈ mro d
      · have ht' : (mro d).contains testClass = true := List.contains_iff_mem.2 ht
        simp only [ht', if_true, Option.getD_some, Classes.set]
        by_cases hd : c = d
        · subst hd
          simp only [if_true, or_true, true_and, true_iff]
          exact ⟨h1, h2, ht, by simp⟩
        · simp only [if_neg hd, hd, or_false]
          exact ⟨h1, h2, h3, h4⟩
      · have ht' : ¬ (mro d).contains testClass = true := fun h => ht (List.contains_iff_mem.1 h)
        simp only [ht', if_false, Option.getD_none]
        refine ⟨h1, h2, h3.trans ⟨fun h => ⟨Or.inl h.1, h.2⟩, ?_⟩, h4⟩
        rintro ⟨h | h, hm⟩
        · exact ⟨h, hm⟩
        · exact absurd (h ▸ hm) ht

/-- C148: a class has no tests because it is abstract exactly if it was itself declared abstract; what was declared of its base classes or of
classes derived from it does not matter. Otherwise it has exactly one test for each variation of each method whose name starts with `test`,
those it inherits included. -/
theorem C148_tests (mro : Nat → List Nat) (ops : List Op) (dir : List (List Char)) (variations : List Char → List Nat) (c : Nat)
    (hc : testClass ∈ mro c) :
    (generate mro (history mro ops) dir variations c).map (fun x => (x.method, x.variation)) =
      if Op.abstract c ∈ ops then []
      else (dir.filter (fun m => decide (m.take 4 = "test".toList))).flatMap (fun m => (variations m).map (fun v => (m, v))) := by
  have hpre : ∀ m, isTestMethod m = decide (m.take 4 = "test".toList) := by
    intro m
    unfold isTestMethod
    rw [Bool.eq_iff_iff, List.isPrefixOf_iff_prefix, decide_eq_true_iff]
    rw [List.prefix_iff_eq_take]
    exact eq_comm
  have ha := (history_attrs mro ops c).2.2
  unfold generate isAbstract
  by_cases h : Op.abstract c ∈ ops
  · rw [ha.1.2 ⟨h, hc⟩]
    simp [h]
  · have hn : (history mro ops c).abstract.getD false = false := by
      cases hx : (history mro ops c).abstract with
      | none => rfl
      | some b =>
        cases b
        · exact absurd hx ha.2
        · exact absurd (ha.1.1 hx).1 h
    rw [hn]
    simp only [Bool.false_eq_true, if_false, if_neg h, List.map_flatMap, List.map_map]
    rw [funext hpre]
    rfl

/-- C148: a test of a class is skipped exactly if the class or one it is derived from was skipped by `skip_all`; the reason is the one given
last for the first such class in the order in which Python looks for attributes. Nothing of such a test runs. -/
theorem C148_skipped (mro : Nat → List Nat) (ops : List Op) (dir : List (List Char)) (variations : List Char → List Nat) (c : Nat)
    (pre : List Nat) (hc : mro c = pre ++ [testClass]) (hpre : testClass ∉ pre) (x : Case)
    (hx : x ∈ generate mro (history mro ops) dir variations c) :
    x.run = match (mro c).findSome? (lastSkip ops) with
      | some r => .skip r
      | none => .normal := by
  have hrun : x.run = if isSkipped mro (history mro ops) c then .skip (skipReason mro (history mro ops) c) else .normal := by
    unfold generate at hx
    split at hx
    · cases hx
    · obtain ⟨m, _, hx⟩ := List.mem_flatMap.1 hx
      obtain ⟨v, _, rfl⟩ := List.mem_map.1 hx
      rfl
  have key : isSkipped mro (history mro ops) c = ((mro c).findSome? (lastSkip ops)).isSome ∧
      skipReason mro (history mro ops) c = ((mro c).findSome? (lastSkip ops)).getD none := by
    unfold isSkipped skipReason
    rw [hc]
    clear hrun hx hc
    induction pre with
    | nil =>
      simp only [List.nil_append, List.findSome?_cons, List.findSome?_nil]
      rw [(history_attrs mro ops testClass).1, (history_attrs mro ops testClass).2.1]
      cases lastSkip ops testClass with
      | none => simp
      | some r => simp
    | cons d l ih =>
      have hd : d ≠ testClass := fun h => hpre (by simp [h])
      have hl : testClass ∉ l := fun h => hpre (by simp [h])
      simp only [List.cons_append, List.findSome?_cons]
      rw [(history_attrs mro ops d).1, (history_attrs mro ops d).2.1]
      cases lastSkip ops d with
      | none =>
        simp only [if_neg hd]
        exact ih hl
      | some r => simp
  rw [hrun, key.2]
  cases hf : (mro c).findSome? (lastSkip ops) with
  | none =>
    rw [if_neg (by rw [key.1, hf]; simp)]
  | some r =>
    rw [if_pos (by rw [key.1, hf]; simp)]
    rfl

/-- a base class that is abstract and skipped, a class derived from it, and one derived from that which is skipped for another reason -/
example :
    let mro : Nat → List Nat := fun c => if c = 1 then [1, 0] else if c = 2 then [2, 1, 0] else if c = 3 then [3, 2, 1, 0] else [c]
    let s := history mro [.abstract 1, .skipAll 1 (some 5), .skipAll 3 none, .skipAll 3 (some 6), .abstract 9]
    let dir := ["before".toList, "test_a".toList, "testB".toList]
    generate mro s dir (fun _ => [0, 1]) 1 = [] ∧
    generate mro s dir (fun _ => [0]) 2 = [⟨"test_a".toList, 0, .skip (some 5)⟩, ⟨"testB".toList, 0, .skip (some 5)⟩] ∧
    generate mro s dir (fun _ => [0]) 3 = [⟨"test_a".toList, 0, .skip (some 6)⟩, ⟨"testB".toList, 0, .skip (some 6)⟩] ∧
    generate mro s dir (fun _ => [0]) 0 = [⟨"test_a".toList, 0, .normal⟩, ⟨"testB".toList, 0, .normal⟩] := by
  refine ⟨?_, ?_, ?_, ?_⟩ <;> decide +kernel

/-- C148: a class that is not derived from `slash.Test` cannot be declared abstract. -/
theorem C148_abstract_refused (mro : Nat → List Nat) (s : Classes) (c : Nat) :
    abstractTestClass mro s c = none ↔ testClass ∉ mro c := by
  unfold abstractTestClass
  by_cases h : testClass ∈ mro c
  · simp [h]
  · simp [h]

example : abstractTestClass (fun c => [c]) initial 4 = none := rfl

end Slash.TC
