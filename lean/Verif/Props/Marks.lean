import Verif.Lemmas.Marks
/-! Marks on plugins, methods and tests: C112, C113. -/
namespace Slash.Marks

/-! ## C112: marks of plugins -/

/-- A decorator gives its object the mark: the value, or the value added at the end of the list. -/
theorem C112_set (parents : Id → List Id) (ops : List Op) (op : Op) (h : (mark parents (run parents {} ops) op).2 = false) :
    get parents (mark parents (run parents {} ops) op).1 op.obj op.name =
      if op.append then
        match get parents (run parents {} ops) op.obj op.name with
        | some (.many l) => some (.many (l ++ [op.value]))
        | _ => some (.many [op.value])
      else some (.one op.value) := by
  have hi := inv_run (parents := parents) inv_init ops
  generalize run parents {} ops = st at h hi ⊢
  unfold mark at h ⊢
  cases hr : ref parents st op.obj with
  | none =>
    rw [hr] at h
    simp only at h ⊢
    have g0 : get parents st op.obj op.name = none := by unfold get; rw [hr]
    rw [g0]
    have key : ∀ v, get parents { own := fun y => if y = op.obj then some st.dicts.length else st.own y, dicts := st.dicts ++ [[(op.name, v)]] } op.obj op.name = some v := by
      intro v
      unfold get ref
      simp [List.findSome?_cons, Dict.get]
    unfold newVal at h ⊢
    cases op.append <;> simp [key]
  | some r =>
    rw [hr] at h
    simp only at h ⊢
    obtain ⟨y, _, hy⟩ := ref_some hr
    have hv := hi.valid y r hy
    have g0 : get parents st op.obj op.name = (st.dicts.getD r []).get op.name := by unfold get; rw [hr]
    have key : ∀ v, get parents { st with dicts := st.dicts.modify r (·.set op.name v) } op.obj op.name = some v := by
      intro v
      unfold get
      have : ref parents { st with dicts := st.dicts.modify r (·.set op.name v) } op.obj = some r := hr
      rw [this]
      simp only
      rw [List.getD_eq_getElem?_getD, List.getElem?_modify_eq, List.getElem?_eq_getElem hv]
      simp [dget_set]
    rw [g0]
    unfold newVal at h ⊢
    cases ha : op.append with
    | false => simp [key]
    | true =>
      rw [ha] at h
      cases hd : (st.dicts.getD r []).get op.name with
      | none => simp [key]
      | some w =>
        cases w with
        | one v => rw [hd] at h; simp at h
        | many l => simp [key]

example : get (fun _ => []) (run (fun _ => []) {} [⟨0, "needs", 1, true⟩, ⟨0, "needs", 2, true⟩, ⟨1, "mode", 5, false⟩]) 0 "needs" = some (.many [1, 2]) := by decide

/-- A decorator raises if and only if it appends to a mark that was set to a single value; then it changes nothing. -/
theorem C112_raises (parents : Id → List Id) (ops : List Op) (op : Op) :
    ((mark parents (run parents {} ops) op).2 = true ↔ op.append = true ∧ ∃ v, get parents (run parents {} ops) op.obj op.name = some (.one v)) ∧
    ((mark parents (run parents {} ops) op).2 = true → (mark parents (run parents {} ops) op).1 = run parents {} ops) := by
  generalize run parents {} ops = st
  unfold mark get
  cases hr : ref parents st op.obj with
  | none => unfold newVal; cases op.append <;> simp
  | some r =>
    simp only
    unfold newVal
    cases op.append with
    | false => simp
    | true =>
      cases (st.dicts.getD r []).get op.name with
      | none => simp
      | some w => cases w <;> simp

example : (mark (fun _ => []) (run (fun _ => []) {} [⟨0, "needs", 1, false⟩]) ⟨0, "needs", 2, true⟩).2 = true ∧
    (mark (fun _ => []) (run (fun _ => []) {} [⟨0, "mode", 1, false⟩]) ⟨0, "needs", 2, true⟩).2 = false := by decide

/-- Other marks of the same object stay. -/
theorem C112_others (parents : Id → List Id) (ops : List Op) (op : Op) (name : String) (hn : name ≠ op.name) :
    get parents (mark parents (run parents {} ops) op).1 op.obj name = get parents (run parents {} ops) op.obj name := by
  have hi := inv_run (parents := parents) inv_init ops
  generalize run parents {} ops = st at hi ⊢
  unfold mark
  cases hr : ref parents st op.obj with
  | none =>
    simp only
    have g0 : get parents st op.obj name = none := by unfold get; rw [hr]
    rw [g0]
    split
    · unfold get ref
      have : ¬ op.name = name := fun e => hn e.symm
      simp [List.findSome?_cons, Dict.get, this]
    · exact g0
  | some r =>
    simp only
    split
    · rename_i v _
      unfold get
      have : ref parents { st with dicts := st.dicts.modify r (·.set op.name v) } op.obj = some r := hr
      rw [this, hr]
      simp only
      rw [List.getD_eq_getElem?_getD, List.getD_eq_getElem?_getD, List.getElem?_modify_eq]
      cases st.dicts[r]? <;> simp [dget_set, hn]
    · rfl

/-- Marking an object changes only what it and the objects that inherit from it show, provided it has marks of its own already or
inherits none. -/
theorem C112_local_partial (parents : Id → List Id) (ops : List Op) (op : Op) (y : Id) (name : String)
    (h : (run parents {} ops).own op.obj ≠ none ∨ ∀ z ∈ parents op.obj, (run parents {} ops).own z = none) (hy : op.obj ∉ y :: parents y) :
    get parents (mark parents (run parents {} ops) op).1 y name = get parents (run parents {} ops) y name := by
  have hi := inv_run (parents := parents) inv_init ops
  generalize run parents {} ops = st at hi h ⊢
  unfold mark
  cases hr : ref parents st op.obj with
  | none =>
    simp only
    split
    · rename_i v _
      have : ∀ d, ref parents { own := fun y => if y = op.obj then some st.dicts.length else st.own y, dicts := d } y = ref parents st y := by
        intro d
        unfold ref
        apply findSome_congr
        intro a ha
        have : a ≠ op.obj := by rintro rfl; exact hy ha
        simp [this]
      unfold get
      rw [this]
      cases hq : ref parents st y with
      | none => rfl
      | some r =>
        obtain ⟨z, _, hz⟩ := ref_some hq
        have := hi.valid z r hz
        simp only
        rw [List.getD_eq_getElem?_getD, List.getD_eq_getElem?_getD, List.getElem?_append_left this]
    · rfl
  | some r =>
    simp only
    have ho : st.own op.obj = some r := by
      unfold ref at hr
      rw [List.findSome?_cons] at hr
      cases ho : st.own op.obj with
      | some q => rw [ho] at hr; exact hr
      | none =>
        rw [ho] at hr h
        rcases h with h | h
        · exact absurd rfl h
        · obtain ⟨a, ha, e⟩ := List.exists_of_findSome?_eq_some hr
          rw [h a ha] at e; cases e
    split
    · rename_i v _
      unfold get
      have : ref parents { st with dicts := st.dicts.modify r (·.set op.name v) } y = ref parents st y := rfl
      rw [this]
      cases hq : ref parents st y with
      | none => rfl
      | some q =>
        obtain ⟨z, hz, hzo⟩ := ref_some hq
        have hne : r ≠ q := by
          rintro rfl
          rw [hi.inj _ _ _ ho hzo] at hy
          exact hy hz
        simp only
        rw [List.getD_eq_getElem?_getD, List.getD_eq_getElem?_getD, List.getElem?_modify]; simp [hne]
    · rfl

/-- Class `1` inherits from class `0`, and so does class `2`. -/
def family : Id → List Id := fun x => if x = 1 ∨ x = 2 then [0] else []

example : get family (mark family (run family {} [⟨0, "needs", 1, true⟩]) ⟨0, "needs", 2, true⟩).1 1 "needs" = some (.many [1, 2]) ∧
    get family (mark family (run family {} []) ⟨1, "needs", 2, true⟩).1 0 "needs" = none := by decide

/-- The full claim, marking a class does not mark others that do not inherit from it, is false: marking a class whose base class has marks marks the
base class and all classes that inherit from it. -/
theorem C112_local_violated : ∃ parents ops op y z name, op.obj ∉ y :: parents y ∧ op.obj ∉ z :: parents z ∧
    get parents (run parents {} ops) y name = none ∧ get parents (mark parents (run parents {} ops) op).1 y name ≠ none ∧
    get parents (mark parents (run parents {} ops) op).1 z name ≠ none :=
  ⟨family, [⟨0, "provides", 1, true⟩], ⟨1, "needs", 2, true⟩, 0, 2, "needs", by decide, by decide, by decide, by decide, by decide⟩

/-! ## C113: markers of tests -/

/-- A marker gives its function the value; with an appending marker the value is added to those already there. -/
theorem C113_set (parents : Id → List Id) (st : FSt) (name : String) (append : Bool) (value : Nat) (o : Obj) :
    fget parents (fmark parents st name append value o) o name =
      some (if append then (fget parents st o name).getD [] ++ [value] else [value]) := by
  show (List.findSome? _ (_ :: _)) = _
  rw [List.findSome?_cons]
  simp [fmark]

/-- Marking never changes what others show that do not inherit from the marked object; and no other marker is affected. -/
theorem C113_local (parents : Id → List Id) (st : FSt) (name : String) (append : Bool) (value : Nat) (o p : Obj) (n : String)
    (h : n ≠ name ∨ o.normalize ∉ p.normalize :: parents p.normalize) : fget parents (fmark parents st name append value o) p n = fget parents st p n := by
  unfold fget
  apply findSome_congr
  intro a ha
  have : ¬ (a = o.normalize ∧ n = name) := by
    rintro ⟨rfl, rfl⟩
    rcases h with h | h
    · exact h rfl
    · exact h ha
  simp [fmark, this]

/-- After any decorators: a test shows, for an appending marker, all values given to it in the order of decoration (innermost decorator
first), if nothing is inherited. -/
theorem C113_all (parents : Id → List Id) (name : String) (o : Obj) (hp : parents o.normalize = []) (ops : List FOp) (ha : ∀ op ∈ ops, op.name = name → op.append = true) :
    (fget parents (frun parents {} ops) o name).getD [] = (ops.filter (fun op => op.name = name ∧ op.obj.normalize = o.normalize)).map (·.value) := by
  suffices ∀ st : FSt, (fget parents (frun parents st ops) o name).getD [] =
      (fget parents st o name).getD [] ++ (ops.filter (fun op => op.name = name ∧ op.obj.normalize = o.normalize)).map (·.value) by
    rw [this]; unfold fget; simp [hp]
  induction ops with
  | nil => intro st; simp [frun]
  | cons op ops ih =>
    intro st
    have e1 : frun parents st (op :: ops) = frun parents (fmark parents st op.name op.append op.value op.obj) ops := rfl
    rw [e1, ih (fun x hx => ha x (by simp [hx])), List.filter_cons]
    by_cases h : op.name = name ∧ op.obj.normalize = o.normalize
    · obtain ⟨h1, h2⟩ := h
      have hap := ha op (by simp) h1
      subst h1
      have e2 : ∀ st : FSt, fget parents st o op.name = fget parents st op.obj op.name := by intro st; unfold fget; rw [h2]
      rw [e2, C113_set, hap, e2]
      simp [h2]
    · rw [if_neg (by simpa using h), C113_local]
      by_cases h1 : name = op.name
      · right
        rw [hp]
        simp
        exact fun e => h ⟨h1.symm, e⟩
      · exact .inl h1

/-- A class method or static method and the function it wraps have the same markers: it does not matter whether a marker is applied below or above
`@classmethod`. -/
theorem C113_wrapped (parents : Id → List Id) (st : FSt) (name : String) (append : Bool) (value : Nat) (f m : Id) :
    (∀ n, fget parents st ⟨some f, m⟩ n = fget parents st ⟨none, f⟩ n) ∧
    fmark parents st name append value ⟨some f, m⟩ = fmark parents st name append value ⟨none, f⟩ := ⟨fun _ => rfl, rfl⟩

example : fget family (fmark family {} "repeat" false 7 ⟨some 2, 3⟩) ⟨none, 2⟩ "repeat" = some [7] := by decide

/-- The values of markers in the examples: a class method `3` that wraps function `2`, class `1` inherits from `0`. -/
example : fget family (frun family {} [⟨"exclude", true, 7, ⟨some 2, 3⟩⟩, ⟨"exclude", true, 8, ⟨none, 2⟩⟩, ⟨"exclude", true, 9, ⟨none, 1⟩⟩]) ⟨some 2, 3⟩ "exclude" = some [7, 8] := by decide
example : fget family (frun family {} [⟨"exclude", true, 7, ⟨none, 0⟩⟩, ⟨"exclude", true, 8, ⟨none, 1⟩⟩]) ⟨none, 0⟩ "exclude" = some [7] ∧
    fget family (frun family {} [⟨"exclude", true, 7, ⟨none, 0⟩⟩, ⟨"exclude", true, 8, ⟨none, 1⟩⟩]) ⟨none, 1⟩ "exclude" = some [7, 8] ∧
    fget family (frun family {} [⟨"repeat", false, 7, ⟨none, 0⟩⟩, ⟨"repeat", false, 8, ⟨none, 0⟩⟩]) ⟨none, 2⟩ "repeat" = some [8] := by decide

end Slash.Marks
