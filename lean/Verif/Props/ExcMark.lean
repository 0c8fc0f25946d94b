import Verif.Model.ExcMark
import Verif.Lemmas.Util
/-!
# C54: marks on exception classes and objects
-/
namespace Slash.ExcMark

/-- What a user sees: the value `get_exception_mark` returns. -/
def sees (w : World) (st : St) (o : Obj) (n : Nat) : Option Nat := (get w o n st).1

/-- The object a call is about. -/
def Op.obj : Op → Obj
  | .mark o _ _ => o
  | .get o _ => o

/-- Marks put on `src` may legitimately be seen on `o`: the object itself, or a class it derives from. -/
def appliesTo (w : World) : Obj → Obj → Prop
  | .cls c, .cls d => d = c ∨ c ∈ w.bases d
  | .cls c, .inst i => w.cls i = c ∨ c ∈ w.bases (w.cls i)
  | .inst i, .inst j => i = j
  | .inst _, .cls _ => False

theorem Marks.get_set (m : Marks) (n v n' : Nat) :
    (m.set n v).get n' = if n' = n then some v else m.get n' := by
  unfold Marks.get Marks.set
  by_cases h : n' = n
  · simp [h]
  · have : (n == n') = false := by simp; exact fun h' => h h'.symm
    simp [h, this]

theorem put_own (st : St) (o o' : Obj) (m : Marks) :
    (st.put o m).own o' = if o' = o then some m else st.own o' := rfl

theorem firstOwner_mem {st : St} {cs : List Nat} {d : Nat} (h : firstOwner st cs = some d) :
    d ∈ cs ∧ (st.own (.cls d)).isSome = true :=
  ⟨List.mem_of_find?_eq_some h, by simpa using List.find?_some h⟩

theorem firstOwner_congr {st st' : St} (cs : List Nat)
    (h : ∀ c ∈ cs, (st'.own (.cls c)).isSome = (st.own (.cls c)).isSome) : firstOwner st' cs = firstOwner st cs := by
  unfold firstOwner
  induction cs with
  | nil => rfl
  | cons c cs ih =>
    have := h c (by simp)
    simp only [List.find?_cons, this, ih (fun c hc => h c (by simp [hc]))]

/-- the visible value, without the side effects of reading -/
def view (w : World) (st : St) : Obj → Marks
  | .cls c => match firstOwner st (c :: w.bases c) with
    | some d => (st.own (.cls d)).getD []
    | none => []
  | .inst i => match st.own (.inst i) with
    | some m => m
    | none => match firstOwner st (w.cls i :: w.bases (w.cls i)) with
      | some d => (st.own (.cls d)).getD []
      | none => []

theorem sees_eq (w : World) (st : St) (o : Obj) (n : Nat) : sees w st o n = (view w st o).get n := by
  unfold sees get view ensure
  cases o with
  | cls c =>
    dsimp only
    cases h : firstOwner st (c :: w.bases c) with
    | some d => rfl
    | none => simp [put_own]
  | inst i =>
    dsimp only
    cases hi : st.own (.inst i) with
    | some m => simp [hi]
    | none =>
      cases h : firstOwner st (w.cls i :: w.bases (w.cls i)) with
      | some d => simp [put_own]
      | none => simp [put_own]

/-- changing only an object's own attribute does not affect class lookups -/
theorem firstOwner_put_inst (st : St) (i : Nat) (m : Marks) (cs : List Nat) :
    firstOwner (st.put (.inst i) m) cs = firstOwner st cs :=
  firstOwner_congr cs (fun c _ => by simp [put_own])

theorem view_put_inst (w : World) (st : St) (i : Nat) (m : Marks) (o : Obj) (ho : o ≠ .inst i) :
    view w (st.put (.inst i) m) o = view w st o := by
  cases o with
  | cls c => simp [view, firstOwner_put_inst, put_own]
  | inst j =>
    have h : (Obj.inst j) ≠ .inst i := ho
    have h' : ¬ j = i := fun hh => h (by rw [hh])
    simp [view, firstOwner_put_inst, put_own, h']

/-- **C54.** Setting a mark makes it visible with that value on that very class or object. -/
theorem C54_mark_is_seen (w : World) (st : St) (o : Obj) (n v : Nat) :
    sees w (mark w o n v st) o n = some v := by
  rw [sees_eq]
  cases o with
  | cls c =>
    cases h : firstOwner st (c :: w.bases c) with
    | some d =>
      have hens : ensure w st (.cls c) = (.cls d, st) := by simp only [ensure, h]
      simp only [mark, hens]
      have hd := firstOwner_mem h
      have : firstOwner (st.put (.cls d) (((st.own (.cls d)).getD []).set n v)) (c :: w.bases c) = some d := by
        rw [← h]; apply firstOwner_congr
        intro e _
        rw [put_own]
        by_cases he : e = d
        · subst he; simp [hd.2]
        · simp [he]
      simp only [view, this, put_own, if_true, Option.getD_some, Marks.get_set]
    | none =>
      have hens : ensure w st (.cls c) = (.cls c, st.put (.cls c) []) := by simp only [ensure, h]
      simp only [mark, hens, view]
      have : firstOwner ((st.put (.cls c) []).put (.cls c) ((((st.put (.cls c) []).own (.cls c)).getD []).set n v))
          (c :: w.bases c) = some c := by
        unfold firstOwner; simp [put_own]
      rw [this]; simp [put_own, Marks.get_set]
  | inst i =>
    unfold mark ensure
    dsimp only
    split
    · simp [view, put_own, Marks.get_set]
    · split <;> simp [view, put_own, Marks.get_set]

/-- **C54.** A mark set on one exception object is seen on that object only: every class and every other object
looks exactly as before. -/
theorem C54_object_marks_are_local (w : World) (st : St) (i n v : Nat) (o : Obj) (n' : Nat) (ho : o ≠ .inst i) :
    sees w (mark w (.inst i) n v st) o n' = sees w st o n' := by
  rw [sees_eq, sees_eq]
  congr 1
  unfold mark ensure
  dsimp only
  split
  · exact view_put_inst w st i _ o ho
  · split <;> rw [view_put_inst _ _ _ _ _ ho, view_put_inst _ _ _ _ _ ho]

/-- **C54.** An exception object on which nobody set or read marks shows the marks of its class. -/
theorem C54_fresh_object_inherits (w : World) (ops : List Op) (i n : Nat) (h : ∀ op ∈ ops, op.obj ≠ .inst i) :
    sees w (run w ops) (.inst i) n = sees w (run w ops) (.cls (w.cls i)) n := by
  have hown : (run w ops).own (.inst i) = none := by
    induction ops using snocInd with
    | nil => rfl
    | snoc ops op ih =>
      have h1 := ih (fun op hop => h op (by simp [hop]))
      have h2 := h op (by simp)
      simp only [run, List.foldl_append, List.foldl_cons, List.foldl_nil]
      have hrun : List.foldl (step w) {} ops = run w ops := rfl
      rw [hrun]
      generalize run w ops = st at h1
      have hens : ∀ o, o ≠ .inst i → (ensure w st o).2.own (.inst i) = none ∧ (ensure w st o).1 ≠ .inst i := by
        intro o ho
        have ho' : ¬ Obj.inst i = o := fun hh => ho hh.symm
        cases o with
        | cls c =>
          unfold ensure; dsimp only
          split
          · exact ⟨h1, by simp⟩
          · exact ⟨by simp [put_own, h1], by simp⟩
        | inst j =>
          unfold ensure; dsimp only
          split
          · exact ⟨h1, ho⟩
          · split <;> exact ⟨by rw [put_own, if_neg ho']; exact h1, ho⟩
      cases op with
      | mark o m v =>
        have := hens o h2
        simp only [step, mark]
        rw [put_own, if_neg (fun hh => this.2 hh.symm)]
        exact this.1
      | get o m => exact (hens o h2).1
  rw [sees_eq, sees_eq]
  simp [view, hown]

/-- **C54 is violated**: marking a class whose base class has been marked before (as `app.py:25` does with
`SlashException`) writes into the dictionary of the base class, so the mark shows on the base class, on its other
subclasses and on their instances. Here 1 and 2 are both subclasses of 0. -/
theorem C54_class_marks_are_local_violated :
    ∃ (w : World) (ops : List Op), w.bases 2 = [0] ∧ w.bases 0 = [] ∧
      (∀ n v, .mark (.cls 2) n v ∉ ops) ∧ (∀ v, .mark (.cls 0) 7 v ∉ ops) ∧
      sees w (run w ops) (.cls 0) 7 = some 1 ∧ sees w (run w ops) (.cls 2) 7 = some 1 :=
  ⟨{ bases := fun c => if c = 0 then [] else [0], cls := fun _ => 2 },
   [.mark (.cls 0) 5 1, .mark (.cls 1) 7 1], by
    refine ⟨rfl, rfl, ?_, ?_, by decide, by decide⟩
    · intro n v; simp
    · intro v; simp⟩

/-- In `ops`, classes are touched (marked or read) only before their base classes are, or when touched
already. -/
def BasesLast (w : World) (ops : List Op) : Prop :=
  ∀ pre op post c, ops = pre ++ op :: post → op.obj = .cls c →
    (∃ op' ∈ pre, op'.obj = .cls c) ∨ ∀ b ∈ w.bases c, ∀ op' ∈ pre, op'.obj ≠ .cls b

/-- **C54, partial**: if classes are marked before (never after) their base classes, every mark seen anywhere was
put, with that value, on the object itself or on a class it derives from. Missing: histories marking a
subclass after its base class. -/
theorem C54_class_marks_are_local_partial (w : World) (ops : List Op) (hb : BasesLast w ops)
    (trans : ∀ c d e, d ∈ w.bases c → e ∈ w.bases d → e ∈ w.bases c) (o : Obj) (n v : Nat)
    (hs : sees w (run w ops) o n = some v) :
    ∃ src, .mark src n v ∈ ops ∧ appliesTo w src o := by
  -- invariant: owners were touched, touched classes own; every stored mark is justified
  have inv : (∀ c, ((run w ops).own (.cls c)).isSome = true ↔ ∃ op ∈ ops, op.obj = .cls c) ∧
      (∀ o m, (run w ops).own o = some m → ∀ n v, m.get n = some v → ∃ src, .mark src n v ∈ ops ∧ appliesTo w src o) := by
    clear hs o n v
    induction ops using snocInd with
    | nil => exact ⟨by intro c; simp [run], by intro o m h; simp [run] at h⟩
    | snoc ops op ih =>
      have hb' : BasesLast w ops := by
        intro pre op' post c he hc
        exact hb pre op' (post ++ [op]) c (by rw [he]; simp) hc
      obtain ⟨i1, i2⟩ := ih hb'
      have hop := hb ops op [] 
      simp only [run, List.foldl_append, List.foldl_cons, List.foldl_nil]
      have hrun : List.foldl (step w) {} ops = run w ops := rfl
      rw [hrun]
      generalize run w ops = st at i1 i2
      -- effect of `ensure`
      have hens : ∀ o, op.obj = o → (ensure w st o).1 = o ∧
          (∀ c, ((ensure w st o).2.own (.cls c)).isSome = true ↔ ((st.own (.cls c)).isSome = true ∨ o = .cls c)) ∧
          (∀ o' m, (ensure w st o).2.own o' = some m → ∀ n v, m.get n = some v →
            ∃ src, .mark src n v ∈ ops ∧ appliesTo w src o') ∧ ((ensure w st o).2.own o).isSome = true := by
        intro o ho
        cases o with
        | cls c =>
          have hc := hop c rfl ho
          unfold ensure; dsimp only
          cases hf : firstOwner st (c :: w.bases c) with
          | some d =>
            have hd := firstOwner_mem hf
            have hdc : d = c := by
              rcases hc with h | h
              · have hcown := (i1 c).2 h
                unfold firstOwner at hf
                simp only [List.find?_cons, hcown] at hf
                exact (Option.some.inj hf).symm
              · rcases List.mem_cons.1 hd.1 with h' | h'
                · exact h'
                · obtain ⟨op', h1, h2⟩ := (i1 d).1 hd.2
                  exact absurd h2 (h d h' op' h1)
            subst hdc
            refine ⟨rfl, ?_, i2, hd.2⟩
            intro c'
            constructor
            · exact .inl
            · rintro (h | h)
              · exact h
              · cases h; exact hd.2
          | none =>
            refine ⟨rfl, ?_, ?_, by simp [put_own]⟩
            · intro c'
              rw [put_own]
              by_cases h : c' = c
              · subst h; simp
              · have h' : ¬ c = c' := fun hh => h hh.symm
                simp [h, h']
            · intro o' m hm
              rw [put_own] at hm
              by_cases h : o' = .cls c
              · rw [if_pos h] at hm
                cases hm
                intro n v hv; cases hv
              · rw [if_neg h] at hm; exact i2 o' m hm
        | inst i =>
          unfold ensure; dsimp only
          have key : ∀ m0 : Marks, (∀ n v, m0.get n = some v → ∃ src, .mark src n v ∈ ops ∧ appliesTo w src (.inst i)) →
              (∀ c, (((st.put (.inst i) m0)).own (.cls c)).isSome = true ↔ ((st.own (.cls c)).isSome = true ∨ Obj.inst i = .cls c)) ∧
              (∀ o' m, (st.put (.inst i) m0).own o' = some m → ∀ n v, m.get n = some v →
                ∃ src, .mark src n v ∈ ops ∧ appliesTo w src o') := by
            intro m0 hm0
            refine ⟨by intro c; simp [put_own], ?_⟩
            intro o' m hm
            rw [put_own] at hm
            by_cases h : o' = .inst i
            · rw [if_pos h] at hm
              cases hm; subst h; exact hm0
            · rw [if_neg h] at hm; exact i2 o' m hm
          split
          · rename_i h
            exact ⟨rfl, by intro c; simp, i2, h⟩
          · cases hf : firstOwner st (w.cls i :: w.bases (w.cls i)) with
            | some d =>
              have hd := firstOwner_mem hf
              obtain ⟨m, hm⟩ := Option.isSome_iff_exists.1 hd.2
              have := key m (by
                intro n v hv
                obtain ⟨src, h1, h2⟩ := i2 _ m hm n v hv
                refine ⟨src, h1, ?_⟩
                cases src with
                | inst j => exact absurd h2 (by simp [appliesTo])
                | cls s =>
                  simp only [appliesTo] at h2 ⊢
                  rcases List.mem_cons.1 hd.1 with h' | h' <;> rcases h2 with h2 | h2
                  · left; rw [← h', h2]
                  · right; rw [← h']; exact h2
                  · right; rw [← h2]; exact h'
                  · right; exact trans _ _ _ h' h2)
              simp only [hm, Option.getD_some]
              exact ⟨by trivial, this.1, this.2, by simp [put_own]⟩
            | none =>
              have := key [] (by intro n v hv; cases hv)
              exact ⟨by trivial, this.1, this.2, by simp [put_own]⟩
      have lift : ∀ {n v o'}, (∃ src, Op.mark src n v ∈ ops ∧ appliesTo w src o') →
          ∃ src, Op.mark src n v ∈ ops ++ [op] ∧ appliesTo w src o' := by
        rintro n v o' ⟨src, h1, h2⟩; exact ⟨src, by simp [h1], h2⟩
      have touched : ∀ c, ((∃ op' ∈ ops ++ [op], op'.obj = .cls c) ↔ ((st.own (.cls c)).isSome = true ∨ op.obj = .cls c)) := by
        intro c
        rw [i1]
        constructor
        · rintro ⟨op', h1, h2⟩
          rcases List.mem_append.1 h1 with h | h
          · exact .inl ⟨op', h, h2⟩
          · rw [List.mem_singleton] at h; subst h; exact .inr h2
        · rintro (⟨op', h1, h2⟩ | h)
          · exact ⟨op', by simp [h1], h2⟩
          · exact ⟨op, by simp, h⟩
      cases op with
      | get o n0 =>
        obtain ⟨_, e2, e3, _⟩ := hens o rfl
        refine ⟨fun c => ?_, fun o' m hm n v hv => lift (e3 o' m hm n v hv)⟩
        rw [touched c]; exact e2 c
      | mark o n0 v0 =>
        obtain ⟨e1, e2, e3, e4⟩ := hens o rfl
        simp only [step, mark]
        rw [e1]
        refine ⟨?_, ?_⟩
        · intro c
          rw [touched c, put_own]
          by_cases h : Obj.cls c = o
          · simp [h, Op.obj]
          · rw [if_neg h]; exact e2 c
        · intro o' m hm n v hv
          rw [put_own] at hm
          by_cases h : o' = o
          · rw [if_pos h] at hm
            cases hm
            rw [Marks.get_set] at hv
            by_cases hn : n = n0
            · rw [if_pos hn] at hv; cases hv; subst hn h
              refine ⟨o', by simp, ?_⟩
              cases o' <;> simp [appliesTo]
            · rw [if_neg hn] at hv
              obtain ⟨m', hm'⟩ := Option.isSome_iff_exists.1 e4
              rw [hm'] at hv
              subst h
              exact lift (e3 _ m' hm' n v hv)
          · rw [if_neg h] at hm
            exact lift (e3 o' m hm n v hv)
  obtain ⟨_, i2⟩ := inv
  rw [sees_eq] at hs
  have up : ∀ c0, (match firstOwner (run w ops) (c0 :: w.bases c0) with
      | some d => ((run w ops).own (.cls d)).getD []
      | none => ([] : Marks)).get n = some v →
      ∃ s, .mark (.cls s) n v ∈ ops ∧ (c0 = s ∨ s ∈ w.bases c0) := by
    intro c0 h
    cases hf : firstOwner (run w ops) (c0 :: w.bases c0) with
    | none => rw [hf] at h; cases h
    | some d =>
      rw [hf] at h
      have hd := firstOwner_mem hf
      obtain ⟨m, hm⟩ := Option.isSome_iff_exists.1 hd.2
      simp only [hm, Option.getD_some] at h
      obtain ⟨src, h1, h2⟩ := i2 _ m hm n v h
      cases src with
      | inst j => exact absurd h2 (by simp [appliesTo])
      | cls s =>
        refine ⟨s, h1, ?_⟩
        simp only [appliesTo] at h2
        rcases List.mem_cons.1 hd.1 with h' | h' <;> rcases h2 with h2 | h2
        · left; rw [← h', h2]
        · right; rw [← h']; exact h2
        · right; rw [← h2]; exact h'
        · right; exact trans _ _ _ h' h2
  cases o with
  | cls c =>
    obtain ⟨s, h1, h2⟩ := up c hs
    exact ⟨_, h1, h2⟩
  | inst i =>
    simp only [view] at hs
    cases hi : (run w ops).own (.inst i) with
    | some m => rw [hi] at hs; exact i2 _ m hi n v hs
    | none =>
      rw [hi] at hs
      obtain ⟨s, h1, h2⟩ := up (w.cls i) hs
      exact ⟨_, h1, h2⟩

/-- a hierarchy 2 < 1 < 0, object 9 of class 2: subclass marked first, then the base -/
example :
    let w : World := { bases := fun c => if c = 2 then [1, 0] else if c = 1 then [0] else [], cls := fun _ => 2 }
    let ops : List Op := [.mark (.cls 1) 5 1, .mark (.cls 0) 7 1, .mark (.inst 9) 8 1]
    sees w (run w ops) (.inst 9) 5 = some 1 ∧ sees w (run w ops) (.cls 0) 5 = none ∧
    sees w (run w ops) (.cls 2) 8 = none := by decide

example : BasesLast { bases := fun c => if c = 1 then [0] else [], cls := fun _ => 1 }
    [.mark (.cls 1) 5 1, .mark (.cls 0) 7 1] := by
  intro pre op post c he hc
  right
  match pre, he with
  | [], _ => simp
  | [_], he => simp at he; obtain ⟨rfl, rfl, _⟩ := he; simp [Op.obj] at hc; subst hc; simp
  | [_, _], he => simp at he
  | _ :: _ :: _ :: _, he => simp at he

end Slash.ExcMark
