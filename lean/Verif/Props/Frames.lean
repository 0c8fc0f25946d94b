import Verif.Model.Frames
/-!
# C142: the variables of frames
-/
namespace Slash.Frames

/-- What stands for a value: a text that names its type if `repr` is not to be called or raises, else what `repr` gives. -/
def plain (v : Val) : Str :=
  if v.listed then "<'".toList ++ v.typeName ++ "' object ".toList ++ v.hex ++ ">".toList
  else match v.repr with
    | some s => s
    | none => "[Unprintable '".toList ++ v.typeName ++ "' object]".toList

/-- A text of at most 100 characters. -/
def clip (s : Str) : Str := if s.length ≤ 100 then s else s.take 97 ++ "...".toList

/-- A name that both begins and ends with `__`. -/
def Dunder (a : Str) : Prop := (∃ t, a = '_' :: '_' :: t) ∧ (∃ t, a = t ++ ['_', '_'])

/-- `a` is an attribute of `v` that is shown: it is in `__dict__`, its name does not both begin and end with `__`, it can be read, and is not a function, a
method or a class. -/
def Shows (w : World) (v : Val) (a : Str) (x : Val) : Prop :=
  (∃ l, w.dict v.id = some l ∧ a ∈ l) ∧ ¬ Dunder a ∧ w.attr v.id a = some x ∧ x.func = false ∧ x.method = false ∧ x.cls = false

/-- The values for examples: an object, one of a type whose `repr` is not to be called, one whose `repr` fails, a function. -/
def exObj : Val := { id := 1, repr := some "obj".toList }
def exSecret : Val := { id := 2, typeName := "Secret".toList, hex := "ff".toList, repr := some "pw".toList, listed := true }
def exBroken : Val := { id := 3, typeName := "B".toList, repr := none }
def exFunc : Val := { id := 4, func := true }

/-- The attributes for examples. -/
def exWorld : World where
  dict := fun i => if i = 1 then some ["__x__".toList, "key".toList, "run".toList, "bad".toList, "b".toList] else if i = 2 then some ["z".toList] else none
  attr := fun i a =>
    if i = 1 ∧ a = "key".toList then some exSecret else if i = 1 ∧ a = "run".toList then some exFunc
    else if i = 1 ∧ a = "b".toList then some exBroken else if i = 2 then some exObj else none

/-- The frame for examples. -/
def exFrame : Frame where
  names := ["g".toList, "f".toList]
  globals := [("g".toList, exObj), ("f".toList, exFunc), ("h".toList, exObj)]
  locals := [("self".toList, exObj), ("@py".toList, exObj), ("s".toList, exSecret)]

theorem text_eq (v : Val) : (safeRepr true v).1 = clip (plain v) ∧ (safeRepr false v).1 = plain v := by
  have hp : (if v.listed then skipText v else v.repr.getD (unprintable v)) = plain v := by
    unfold plain skipText unprintable
    split
    · rfl
    · cases v.repr <;> rfl
  unfold safeRepr Rep.safeRepr
  simp only [hp, Bool.true_and, Bool.false_and, Bool.false_eq_true, if_false, and_true, decide_eq_true_eq, Rep.maxRepr]
  unfold clip
  by_cases h : (plain v).length ≤ 100
  · rw [if_pos h, if_neg (by omega)]
  · rw [if_neg h, if_pos (by omega)]
    rfl

theorem dunder_iff (a : Str) : dunder a = true ↔ Dunder a := by
  unfold dunder Dunder
  rw [Bool.and_eq_true, List.isPrefixOf_iff_prefix, List.isSuffixOf_iff_suffix]
  constructor
  · rintro ⟨⟨t, h⟩, ⟨u, h'⟩⟩
    exact ⟨⟨t, h.symm⟩, ⟨u, h'.symm⟩⟩
  · rintro ⟨⟨t, h⟩, ⟨u, h'⟩⟩
    exact ⟨⟨t, h.symm⟩, ⟨u, h'.symm⟩⟩

theorem mem_iterAttrs (w : World) (v : Val) (l : List Str) (a : Str) (x : Val) :
    (a, x) ∈ (iterAttrs w v l).1 ↔ a ∈ l ∧ ¬ Dunder a ∧ w.attr v.id a = some x ∧ x.func = false ∧ x.method = false ∧ x.cls = false := by
  induction l with
  | nil => simp [iterAttrs]
  | cons b l ih =>
    simp only [iterAttrs]
    by_cases hd : dunder b = true
    · rw [if_pos hd, ih]
      constructor
      · rintro ⟨h, h'⟩; exact ⟨List.mem_cons_of_mem _ h, h'⟩
      · rintro ⟨h, h'⟩
        rcases List.mem_cons.1 h with rfl | h
        · exact absurd ((dunder_iff _).1 hd) h'.1
        · exact ⟨h, h'⟩
    · rw [if_neg hd]
      have hd' : ¬ Dunder b := fun e => hd ((dunder_iff _).2 e)
      cases hb : w.attr v.id b with
      | none =>
        simp only [ih]
        constructor
        · rintro ⟨h, h'⟩; exact ⟨List.mem_cons_of_mem _ h, h'⟩
        · rintro ⟨h, h'⟩
          rcases List.mem_cons.1 h with rfl | h
          · rw [hb] at h'; cases h'.2.1
          · exact ⟨h, h'⟩
      | some y =>
        simp only
        by_cases hy : (y.method || y.func || y.cls) = true
        · rw [if_pos hy]
          simp only [ih]
          constructor
          · rintro ⟨h, h'⟩; exact ⟨List.mem_cons_of_mem _ h, h'⟩
          · rintro ⟨h, h'⟩
            rcases List.mem_cons.1 h with rfl | h
            · rw [hb] at h'
              obtain ⟨-, e, h1, h2, h3⟩ := h'
              cases e
              simp [h1, h2, h3] at hy
            · exact ⟨h, h'⟩
        · rw [if_neg hy]
          simp only [List.mem_cons, ih, Prod.mk.injEq]
          constructor
          · rintro (⟨rfl, rfl⟩ | ⟨h, h'⟩)
            · refine ⟨.inl rfl, hd', hb, ?_⟩
              simpa [and_assoc, and_comm, and_left_comm] using hy
            · exact ⟨.inr h, h'⟩
          · rintro ⟨rfl | h, h'⟩
            · rw [hb] at h'
              exact .inl ⟨rfl, by have := h'.2.1; cases this; rfl⟩
            · exact .inr ⟨h, h'⟩

theorem mem_attributes (w : World) (v : Val) (a : Str) (x : Val) : (a, x) ∈ (attributes w v).1 ↔ Shows w v a x := by
  unfold attributes Shows
  simp only [mem_iterAttrs]
  cases hd : w.dict v.id with
  | none => simp
  | some l => simp

theorem mem_unwrap (w : World) (y : Str × Val) (n : Str) (x : Val) :
    (n, x) ∈ (unwrap w y).1 ↔ (n, x) = y ∨ (y.1 = "self".toList ∧ y.2.listed = false ∧ ∃ a, n = "self.".toList ++ a ∧ Shows w y.2 a x) := by
  unfold unwrap
  by_cases h : y.1 = "self".toList ∧ y.2.listed = false
  · rw [if_pos h]
    simp only [List.mem_cons, List.mem_map, Prod.mk.injEq]
    constructor
    · rintro (e | ⟨z, hz, rfl, rfl⟩)
      · exact .inl e
      · exact .inr ⟨h.1, h.2, z.1, rfl, (mem_attributes _ _ _ _).1 hz⟩
    · rintro (e | ⟨-, -, a, rfl, hs⟩)
      · exact .inl e
      · exact .inr ⟨(a, x), (mem_attributes _ _ _ _).2 hs, rfl, rfl⟩
  · rw [if_neg h]
    simp only [List.mem_singleton]
    constructor
    · exact .inl
    · rintro (e | ⟨h1, h2, -⟩)
      · exact e
      · exact absurd ⟨h1, h2⟩ h

theorem mem_shown (w : World) (b : Bool) (l : List (Str × Val)) (n t : Str) :
    (n, t) ∈ (reprAll b ((l.map (unwrap w)).flatMap (·.1))).1 ↔
      (∃ v, (n, v) ∈ l ∧ t = (safeRepr b v).1) ∨
      (∃ v a x, ("self".toList, v) ∈ l ∧ v.listed = false ∧ n = "self.".toList ++ a ∧ Shows w v a x ∧ t = (safeRepr b x).1) := by
  unfold reprAll
  constructor
  · intro h
    obtain ⟨⟨m, x⟩, hx, e⟩ := List.mem_map.1 h
    simp only [Prod.mk.injEq] at e
    obtain ⟨rfl, rfl⟩ := e
    obtain ⟨u, hu, hx⟩ := List.mem_flatMap.1 hx
    obtain ⟨⟨k, y⟩, hy, rfl⟩ := List.mem_map.1 hu
    rcases (mem_unwrap w (k, y) m x).1 hx with e | ⟨h1, h2, a, rfl, hs⟩
    · cases e
      exact .inl ⟨x, hy, rfl⟩
    · simp only at h1 h2 hs
      subst h1
      exact .inr ⟨y, a, x, hy, h2, rfl, hs, rfl⟩
  · rintro (⟨v, hv, rfl⟩ | ⟨v, a, x, hv, hl, rfl, hs, rfl⟩)
    · exact List.mem_map.2 ⟨(n, v), List.mem_flatMap.2 ⟨_, List.mem_map.2 ⟨_, hv, rfl⟩, (mem_unwrap w (n, v) n v).2 (.inl rfl)⟩, rfl⟩
    · exact List.mem_map.2 ⟨(_, x), List.mem_flatMap.2 ⟨_, List.mem_map.2 ⟨_, hv, rfl⟩,
        (mem_unwrap w ("self".toList, v) _ x).2 (.inr ⟨rfl, hl, a, rfl, hs⟩)⟩, rfl⟩

/-- C142: what is recorded of the locals of a frame: every local whose name has no `@`, and for `self`, unless `repr` of it is not to be called, its
attributes, each with its text of at most 100 characters; and nothing else. -/
theorem C142_locals (w : World) (f : Frame) (n : Str) (t : Str) :
    (n, t) ∈ (captureLocals w f).1 ↔
      (∃ v, (n, v) ∈ f.locals ∧ '@' ∉ n ∧ t = clip (plain v)) ∨
      (∃ v a x, ("self".toList, v) ∈ f.locals ∧ v.listed = false ∧ n = "self.".toList ++ a ∧ Shows w v a x ∧ t = clip (plain x)) := by
  show (n, t) ∈ (reprAll true _).1 ↔ _
  rw [mem_shown]
  have hf : ∀ n v, (n, v) ∈ f.locals.filter (fun x => !(x.1.contains '@')) ↔ (n, v) ∈ f.locals ∧ '@' ∉ n := by
    intro n v
    rw [List.mem_filter]
    simp
  simp only [hf, (text_eq _).1]
  constructor
  · rintro (⟨v, ⟨h1, h2⟩, h3⟩ | ⟨v, a, x, ⟨h1, -⟩, h2⟩)
    · exact .inl ⟨v, h1, h2, h3⟩
    · exact .inr ⟨v, a, x, h1, h2⟩
  · rintro (⟨v, h1, h2, h3⟩ | ⟨v, a, x, h1, h2⟩)
    · exact .inl ⟨v, ⟨h1, h2⟩, h3⟩
    · exact .inr ⟨v, a, x, ⟨h1, by decide +kernel⟩, h2⟩

example : (captureLocals exWorld exFrame).1 = [("self".toList, "obj".toList), ("self.key".toList, "<'Secret' object ff>".toList),
    ("self.b".toList, "[Unprintable 'B' object]".toList), ("s".toList, "<'Secret' object ff>".toList)] := by decide +kernel

/-- C142: what is recorded of the globals of a frame: those the code of the frame names and that are not functions, methods, modules or classes, each with
its text of at most 100 characters; and nothing else. -/
theorem C142_globals (f : Frame) (n : Str) (t : Str) :
    (n, t) ∈ (captureGlobals f).1 ↔
      ∃ v, (n, v) ∈ f.globals ∧ n ∈ f.names ∧ v.func = false ∧ v.method = false ∧ v.module = false ∧ v.cls = false ∧ t = clip (plain v) := by
  unfold captureGlobals reprAll globalIncluded
  simp only [List.mem_map, List.mem_filter, Prod.exists, Prod.mk.injEq, List.contains_iff_mem, Bool.and_eq_true, Bool.not_eq_true',
    Bool.or_eq_false_iff, (text_eq _).1]
  constructor
  · rintro ⟨m, v, ⟨h1, h2, ⟨⟨h3, h4⟩, h5⟩, h6⟩, rfl, rfl⟩
    exact ⟨v, h1, h2, h3, h4, h5, h6, rfl⟩
  · rintro ⟨v, h1, h2, h3, h4, h5, h6, rfl⟩
    exact ⟨n, v, ⟨h1, h2, ⟨⟨h3, h4⟩, h5⟩, h6⟩, rfl, rfl⟩

example : (captureGlobals exFrame).1 = [("g".toList, "obj".toList)] := by decide +kernel

/-- C142: with `log.traceback_variables`, what is logged of a frame: all locals and the attributes of `self`, as above, but with whole texts. -/
theorem C142_logged (w : World) (f : Frame) (n : Str) (t : Str) :
    (n, t) ∈ (shownVars w f).1 ↔
      (∃ v, (n, v) ∈ f.locals ∧ t = plain v) ∨
      (∃ v a x, ("self".toList, v) ∈ f.locals ∧ v.listed = false ∧ n = "self.".toList ++ a ∧ Shows w v a x ∧ t = plain x) := by
  show (n, t) ∈ (reprAll false _).1 ↔ _
  rw [mem_shown]
  simp only [(text_eq _).2]

example : (shownVars exWorld exFrame).1.map (·.1) = ["self".toList, "self.key".toList, "self.b".toList, "@py".toList, "s".toList] := by decide +kernel

/-- The value an event is about. -/
def Ev.about : Ev → Nat
  | .repr i => i
  | .dict i => i
  | .attr i _ => i

theorem ev_iterAttrs (w : World) (v : Val) (l : List Str) (e : Ev) (h : e ∈ (iterAttrs w v l).2) : ∃ a ∈ l, e = .attr v.id a ∧ ¬ Dunder a := by
  induction l with
  | nil => simp [iterAttrs] at h
  | cons b l ih =>
    simp only [iterAttrs] at h
    have lift : (∃ a ∈ l, e = .attr v.id a ∧ ¬ Dunder a) → ∃ a ∈ b :: l, e = .attr v.id a ∧ ¬ Dunder a := by
      rintro ⟨a, ha, h'⟩; exact ⟨a, List.mem_cons_of_mem _ ha, h'⟩
    by_cases hd : dunder b = true
    · rw [if_pos hd] at h
      exact lift (ih h)
    · rw [if_neg hd] at h
      have hd' : ¬ Dunder b := fun e => hd ((dunder_iff _).2 e)
      have key : e = .attr v.id b ∨ e ∈ (iterAttrs w v l).2 := by
        cases hb : w.attr v.id b with
        | none => rw [hb] at h; exact List.mem_cons.1 h
        | some y =>
          rw [hb] at h
          simp only at h
          split at h <;> exact List.mem_cons.1 h
      rcases key with rfl | h
      · exact ⟨b, List.mem_cons_self .., rfl, hd'⟩
      · exact lift (ih h)

theorem ev_reprAll (t : Bool) (l : List (Str × Val)) (e : Ev) (h : e ∈ (reprAll t l).2) : ∃ x ∈ l, x.2.listed = false ∧ e = .repr x.2.id := by
  simp only [reprAll, List.mem_flatMap] at h
  obtain ⟨x, hx, h⟩ := h
  simp only [safeRepr] at h
  split at h
  · cases h
  · rename_i hl
    exact ⟨x, hx, by simpa using hl, List.mem_singleton.1 h⟩

theorem ev_unwrap (w : World) (y : Str × Val) (e : Ev) (h : e ∈ (unwrap w y).2) :
    y.1 = "self".toList ∧ y.2.listed = false ∧ (e = .dict y.2.id ∨ ∃ a l, w.dict y.2.id = some l ∧ a ∈ l ∧ e = .attr y.2.id a ∧ ¬ Dunder a) := by
  unfold unwrap at h
  split at h
  · rename_i hs
    refine ⟨hs.1, hs.2, ?_⟩
    simp only [attributes, List.mem_cons] at h
    rcases h with h | h
    · exact .inl h
    · obtain ⟨a, ha, h1, h2⟩ := ev_iterAttrs _ _ _ _ h
      cases hd : w.dict y.2.id with
      | none => rw [hd] at ha; cases ha
      | some l => rw [hd] at ha; exact .inr ⟨a, l, rfl, ha, h1, h2⟩
  · cases h

/-- C142: when frames are recorded and logged, `repr` is only called for values of types that are not in `log.repr_blacklisted_types`; and attributes are only
looked up of locals named `self` that are not of such types, and only those in their `__dict__` whose names do not both begin and end with `__`. -/
theorem C142_calls (w : World) (b : Bool) (fs : List Frame) (e : Ev) (h : e ∈ recordAll w b fs) :
    ∃ f ∈ fs, ∃ n v, v.listed = false ∧
      ((e = .repr v.id ∧ ((n, v) ∈ f.locals ∨ (n, v) ∈ f.globals ∨ ∃ u, ("self".toList, u) ∈ f.locals ∧ u.listed = false ∧ Shows w u n v)) ∨
       (e = .dict v.id ∧ n = "self".toList ∧ (n, v) ∈ f.locals) ∨
       (∃ a l, e = .attr v.id a ∧ w.dict v.id = some l ∧ a ∈ l ∧ ¬ Dunder a ∧ n = "self".toList ∧ (n, v) ∈ f.locals)) := by
  have hun : ∀ (f : Frame) (l : List (Str × Val)) (t : Bool), l ⊆ f.locals →
      e ∈ (l.map (unwrap w)).flatMap (·.2) ++ (reprAll t ((l.map (unwrap w)).flatMap (·.1))).2 →
      ∃ n v, v.listed = false ∧
      ((e = .repr v.id ∧ ((n, v) ∈ f.locals ∨ (n, v) ∈ f.globals ∨ ∃ u, ("self".toList, u) ∈ f.locals ∧ u.listed = false ∧ Shows w u n v)) ∨
       (e = .dict v.id ∧ n = "self".toList ∧ (n, v) ∈ f.locals) ∨
       (∃ a l, e = .attr v.id a ∧ w.dict v.id = some l ∧ a ∈ l ∧ ¬ Dunder a ∧ n = "self".toList ∧ (n, v) ∈ f.locals)) := by
    intro f l t hl h
    rw [List.mem_append] at h
    rcases h with h | h
    · simp only [List.mem_flatMap, List.mem_map] at h
      obtain ⟨u, ⟨y, hy, rfl⟩, h⟩ := h
      obtain ⟨h1, h2, h3⟩ := ev_unwrap w y e h
      refine ⟨y.1, y.2, h2, .inr ?_⟩
      rcases h3 with h3 | ⟨a, l', h3, h4, h5, h6⟩
      · exact .inl ⟨h3, h1, hl hy⟩
      · exact .inr ⟨a, l', h5, h3, h4, h6, h1, hl hy⟩
    · obtain ⟨x, hx, h1, h2⟩ := ev_reprAll _ _ _ h
      simp only [List.mem_flatMap, List.mem_map] at hx
      obtain ⟨u, ⟨y, hy, rfl⟩, hx⟩ := hx
      rcases (mem_unwrap w y x.1 x.2).1 hx with rfl | ⟨h3, h4, a, -, h5⟩
      · exact ⟨x.1, x.2, h1, .inl ⟨h2, .inl (hl hy)⟩⟩
      · refine ⟨a, x.2, h1, .inl ⟨h2, .inr (.inr ⟨y.2, ?_, h4, h5⟩)⟩⟩
        rw [← h3]; exact hl hy
  unfold recordAll at h
  rw [List.mem_append] at h
  rcases h with h | h
  · obtain ⟨f, hf, h⟩ := List.mem_flatMap.1 h
    refine ⟨f, hf, ?_⟩
    rw [List.mem_append] at h
    rcases h with h | h
    · exact hun f (f.locals.filter (fun x => !(x.1.contains '@'))) true (fun _ h => (List.mem_filter.1 h).1) h
    · obtain ⟨x, hx, h1, h2⟩ := ev_reprAll _ _ _ h
      exact ⟨x.1, x.2, h1, .inl ⟨h2, .inr (.inl (List.mem_filter.1 hx).1)⟩⟩
  · split at h
    · obtain ⟨f, hf, h⟩ := List.mem_flatMap.1 h
      exact ⟨f, hf, hun f f.locals false (fun _ h => h) h⟩
    · cases h

/-- C142: so no code of an object of a type in `log.repr_blacklisted_types` is called for it, wherever in the frames it is. -/
theorem C142_listed_silent (w : World) (b : Bool) (fs : List Frame) (i : Nat)
    (h1 : ∀ f ∈ fs, ∀ x ∈ f.locals ++ f.globals, x.2.id = i → x.2.listed = true) (h2 : ∀ j a x, w.attr j a = some x → x.id = i → x.listed = true) :
    ∀ e ∈ recordAll w b fs, e.about ≠ i := by
  intro e he hi
  obtain ⟨f, hf, n, v, hv, h⟩ := C142_calls w b fs e he
  have hid : v.id = i := by
    rcases h with ⟨rfl, -⟩ | ⟨rfl, -⟩ | ⟨a, l, rfl, -⟩ <;> exact hi
  have hm : (n, v) ∈ f.locals ++ f.globals ∨ ∃ j, w.attr j n = some v := by
    rcases h with ⟨-, h | h | ⟨u, -, -, h⟩⟩ | ⟨-, -, h⟩ | ⟨a, l, -, -, -, -, -, h⟩
    · exact .inl (List.mem_append_left _ h)
    · exact .inl (List.mem_append_right _ h)
    · exact .inr ⟨u.id, h.2.2.1⟩
    · exact .inl (List.mem_append_left _ h)
    · exact .inl (List.mem_append_left _ h)
  rcases hm with hm | ⟨j, hj⟩
  · rw [h1 f hf _ hm hid] at hv; cases hv
  · rw [h2 j n v hj hid] at hv; cases hv

example : recordAll exWorld true [exFrame] = [.dict 1, .attr 1 "key".toList, .attr 1 "run".toList, .attr 1 "bad".toList, .attr 1 "b".toList, .repr 1, .repr 3,
    .repr 1, .dict 1, .attr 1 "key".toList, .attr 1 "run".toList, .attr 1 "bad".toList, .attr 1 "b".toList, .repr 1, .repr 3, .repr 1] := by decide +kernel

/-- C142: variables that are shown in logs but not recorded (their names contain `@`) are looked at only if variables are logged
(`log.traceback_variables`), and then they are. -/
theorem C142_unrecorded (w : World) (fs : List Frame) (hl : ∀ f ∈ fs, ∀ x ∈ f.locals, '@' ∈ x.1) (hg : ∀ f ∈ fs, f.globals = []) :
    recordAll w false fs = [] ∧
    ∀ f ∈ fs, ∀ x ∈ f.locals, (safeRepr false x.2).2 ⊆ recordAll w true fs := by
  constructor
  · unfold recordAll
    simp only [Bool.false_eq_true, if_false, List.append_nil, List.flatMap_eq_nil_iff]
    intro f hf
    have h1 : f.locals.filter (fun x => !(x.1.contains '@')) = [] := by
      rw [List.filter_eq_nil_iff]
      intro x hx
      simp [hl f hf x hx]
    unfold captureLocals captureGlobals
    rw [h1, hg f hf]
    rfl
  · intro f hf x hx e he
    unfold recordAll
    rw [List.mem_append, if_pos rfl]
    right
    refine List.mem_flatMap.2 ⟨f, hf, ?_⟩
    unfold shownVars reprAll
    simp only [List.mem_append]
    right
    refine List.mem_flatMap.2 ⟨x, ?_, he⟩
    refine List.mem_flatMap.2 ⟨_, List.mem_map_of_mem hx, ?_⟩
    unfold unwrap
    split <;> simp

example : let f : Frame := { exFrame with locals := [("@py".toList, { id := 5 })], globals := [] }
    recordAll exWorld false [f] = [] ∧ recordAll exWorld true [f] = [.repr 5] := by decide +kernel

/-- C142: the attributes of an exception that are recorded: those of its `__dict__` as above; numbers and strings as they are, others by their texts. -/
theorem C142_attributes (w : World) (v : Val) (a : Str) (t : Shown) :
    (a, t) ∈ (distillAttrs w false v).1 ↔ ∃ x, Shows w v a x ∧ t = if x.scalar then .raw x else .text (plain x) := by
  unfold distillAttrs
  simp only [List.mem_map, Prod.exists, Prod.mk.injEq]
  constructor
  · rintro ⟨b, x, h, rfl, rfl⟩
    exact ⟨x, (mem_attributes _ _ _ _).1 h, by rw [(text_eq x).2]⟩
  · rintro ⟨x, h, rfl⟩
    exact ⟨a, x, (mem_attributes _ _ _ _).2 h, rfl, by rw [(text_eq x).2]⟩

example : (distillAttrs exWorld false exObj).1 = [("key".toList, .text "<'Secret' object ff>".toList), ("b".toList, .text "[Unprintable 'B' object]".toList)] := by
  decide +kernel

theorem mem_iterCalls (w : World) (v : Val) (l : List Str) (e : Ev) : e ∈ (iterAttrs w v l).2 ↔ ∃ a ∈ l, ¬ Dunder a ∧ e = .attr v.id a := by
  induction l with
  | nil => simp [iterAttrs]
  | cons b l ih =>
    simp only [iterAttrs]
    by_cases hd : dunder b = true
    · rw [if_pos hd, ih]
      simp [(dunder_iff b).1 hd]
    · rw [if_neg hd]
      have hd' : ¬ Dunder b := fun e => hd ((dunder_iff _).2 e)
      have : ∀ q : List (Str × Val) × List Ev, q.2 = .attr v.id b :: (iterAttrs w v l).2 → (e ∈ q.2 ↔ ∃ a ∈ b :: l, ¬ Dunder a ∧ e = .attr v.id a) := by
        intro q hq
        rw [hq, List.mem_cons, ih]
        simp [hd']
      split
      · exact this _ rfl
      · split
        · exact this _ rfl
        · exact this _ rfl

/-- C142: for the attributes of an exception, exactly this code of users is called: its `__dict__` is looked up, the attributes in it whose names do not both begin and end
with `__`, and `repr` of those that are shown and are no numbers or strings, nor of a type whose `repr` is not to be called. -/
theorem C142_attribute_calls (w : World) (b : Bool) (v : Val) (e : Ev) : e ∈ (distillAttrs w b v).2 ↔
    e = .dict v.id ∨ (∃ l a, w.dict v.id = some l ∧ a ∈ l ∧ ¬ Dunder a ∧ e = .attr v.id a) ∨
    ∃ a x, Shows w v a x ∧ x.scalar = false ∧ x.listed = false ∧ e = .repr x.id := by
  have h1 : e ∈ (attributes w v).2 ↔ e = .dict v.id ∨ ∃ l a, w.dict v.id = some l ∧ a ∈ l ∧ ¬ Dunder a ∧ e = .attr v.id a := by
    unfold attributes
    simp only [List.mem_cons, mem_iterCalls]
    cases hd : w.dict v.id with
    | none => simp
    | some l => simp
  have h2 : e ∈ (attributes w v).1.flatMap (fun y => if y.2.scalar then [] else (safeRepr b y.2).2) ↔
      ∃ a x, Shows w v a x ∧ x.scalar = false ∧ x.listed = false ∧ e = .repr x.id := by
    rw [List.mem_flatMap]
    constructor
    · rintro ⟨⟨a, x⟩, hx, he⟩
      refine ⟨a, x, (mem_attributes _ _ _ _).1 hx, ?_⟩
      unfold safeRepr at he
      cases hs : x.scalar <;> cases hl : x.listed <;> simp [hs, hl] at he ⊢
      exact he
    · rintro ⟨a, x, hx, hs, hl, rfl⟩
      exact ⟨(a, x), (mem_attributes _ _ _ _).2 hx, by simp [hs, hl, safeRepr]⟩
  unfold distillAttrs
  dsimp only
  rw [List.mem_append, h1, h2, or_assoc]

example : (distillAttrs exWorld false exObj).2 = [.dict 1, .attr 1 "key".toList, .attr 1 "run".toList, .attr 1 "bad".toList, .attr 1 "b".toList, .repr 3] := by
  decide +kernel

end Slash.Frames
