import Verif.Lemmas.VarNames
/-!
# Names of the parameters of a test: property C144
-/
namespace Slash.VN
open Slash.Meta (Str)

theorem argRoots_mem {lookup : Str → Option Obj} {f : Func} (as : List (Str × Str)) (l : List (Str × Obj)) (h : argRoots lookup f as = some l) :
    (∀ r ∈ l, ∃ a ∈ as, argObj lookup f a = some r.2 ∧ r.1 = argName f a.1) ∧
    (∀ a ∈ as, ∃ o, argObj lookup f a = some o ∧ (argName f a.1, o) ∈ l) := by
  induction as generalizing l with
  | nil => cases h; simp
  | cons a as ih =>
    simp only [argRoots] at h
    cases ha : argObj lookup f a with
    | none => rw [ha] at h; cases h
    | some o =>
      rw [ha] at h
      simp only [Option.map_eq_some_iff] at h
      obtain ⟨l', hl', rfl⟩ := h
      obtain ⟨h1, h2⟩ := ih l' hl'
      constructor
      · intro r hr
        rcases List.mem_cons.1 hr with rfl | hr
        · exact ⟨a, List.mem_cons_self, ha, rfl⟩
        · obtain ⟨x, hx, h⟩ := h1 r hr
          exact ⟨x, List.mem_cons_of_mem _ hx, h⟩
      · intro x hx
        rcases List.mem_cons.1 hx with rfl | hx
        · exact ⟨o, ha, List.mem_cons_self⟩
        · obtain ⟨y, hy, h⟩ := h2 x hx
          exact ⟨y, hy, List.mem_cons_of_mem _ h⟩

theorem extraRoots_mem {lookup : Str → Option Obj} (ns : List Str) (l : List (Str × Obj)) (h : extraRoots lookup ns = some l) :
    (∀ r ∈ l, r.1 ∈ ns ∧ lookup r.1 = some r.2) ∧ (∀ n ∈ ns, ∃ o, lookup n = some o ∧ (n, o) ∈ l) := by
  induction ns generalizing l with
  | nil => cases h; simp
  | cons n ns ih =>
    simp only [extraRoots] at h
    cases ha : lookup n with
    | none => rw [ha] at h; cases h
    | some o =>
      rw [ha] at h
      simp only [Option.map_eq_some_iff] at h
      obtain ⟨l', hl', rfl⟩ := h
      obtain ⟨h1, h2⟩ := ih l' hl'
      constructor
      · intro r hr
        rcases List.mem_cons.1 hr with rfl | hr
        · exact ⟨List.mem_cons_self, ha⟩
        · exact ⟨List.mem_cons_of_mem _ (h1 r hr).1, (h1 r hr).2⟩
      · intro x hx
        rcases List.mem_cons.1 hx with rfl | hx
        · exact ⟨o, ha, List.mem_cons_self⟩
        · obtain ⟨y, hy, h⟩ := h2 x hx
          exact ⟨y, hy, List.mem_cons_of_mem _ h⟩

theorem roots_mem {lookup : Str → Option Obj} {autouse : List (Str × Obj)} {f : Func} {l : List (Str × Obj)}
    (h : roots lookup autouse f = some l) (r : Str × Obj) :
    r ∈ l ↔ (∃ a ∈ f.args, argObj lookup f a = some r.2 ∧ r.1 = argName f a.1) ∨ (∃ a ∈ autouse, r = (':' :: ':' :: a.1, a.2)) ∨
      (r.1 ∈ f.extras ∧ lookup r.1 = some r.2) := by
  unfold roots at h
  cases h1 : argRoots lookup f f.args with
  | none => rw [h1] at h; cases h
  | some l1 =>
    cases h2 : extraRoots lookup f.extras with
    | none => rw [h1, h2] at h; cases h
    | some l2 =>
      rw [h1, h2] at h
      cases h
      obtain ⟨a1, a2⟩ := argRoots_mem _ _ h1
      obtain ⟨e1, e2⟩ := extraRoots_mem _ _ h2
      rw [List.mem_append, List.mem_append]
      constructor
      · rintro ((h | h) | h)
        · exact .inl (a1 r h)
        · obtain ⟨a, ha, rfl⟩ := List.mem_map.1 h
          exact .inr (.inl ⟨a, ha, rfl⟩)
        · exact .inr (.inr (e1 r h))
      · rintro (⟨a, ha, h3, h4⟩ | ⟨a, ha, rfl⟩ | ⟨h3, h4⟩)
        · obtain ⟨o, ho, hm⟩ := a2 a ha
          rw [h3] at ho
          cases ho
          rw [← h4] at hm
          exact .inl (.inl hm)
        · exact .inl (.inr (List.mem_map.2 ⟨a, ha, rfl⟩))
        · obtain ⟨o, ho, hm⟩ := e2 _ h3
          rw [h4] at ho
          cases ho
          exact .inr hm

theorem allRoots_mem {lookup : Str → Option Obj} {autouse : List (Str × Obj)} (fs : List Func) (l : List (Str × Obj))
    (h : allRoots lookup autouse fs = some l) (r : Str × Obj) :
    r ∈ l ↔ ∃ f ∈ fs, ∃ lf, roots lookup autouse f = some lf ∧ r ∈ lf := by
  induction fs generalizing l with
  | nil => cases h; simp
  | cons f fs ih =>
    simp only [allRoots] at h
    cases hf : roots lookup autouse f with
    | none => rw [hf] at h; cases h
    | some lf =>
      rw [hf] at h
      simp only [Option.map_eq_some_iff] at h
      obtain ⟨l', hl', rfl⟩ := h
      rw [List.mem_append, ih l' hl']
      constructor
      · rintro (h | ⟨g, hg, h⟩)
        · exact ⟨f, List.mem_cons_self, lf, hf, h⟩
        · exact ⟨g, List.mem_cons_of_mem _ hg, h⟩
      · rintro ⟨g, hg, lg, h1, h2⟩
        rcases List.mem_cons.1 hg with rfl | hg
        · rw [hf] at h1; cases h1; exact .inl h2
        · exact .inr ⟨g, hg, lg, h1, h2⟩

theorem allRoots_some {lookup : Str → Option Obj} {autouse : List (Str × Obj)} (fs : List Func) (l : List (Str × Obj))
    (h : allRoots lookup autouse fs = some l) (f : Func) (hf : f ∈ fs) : ∃ lf, roots lookup autouse f = some lf := by
  induction fs generalizing l with
  | nil => cases hf
  | cons g fs ih =>
    simp only [allRoots] at h
    cases hg : roots lookup autouse g with
    | none => rw [hg] at h; cases h
    | some lg =>
      rw [hg] at h
      simp only [Option.map_eq_some_iff] at h
      obtain ⟨l', hl', rfl⟩ := h
      rcases List.mem_cons.1 hf with rfl | hf
      · exact ⟨lg, hg⟩
      · exact ih l' hl' hf

/-- A test and its names: the fixtures and their arguments, its functions (`fs`, at least one), where names lead to (`rs`) and the names of its
parameters (`b`). Each parametrized name is an argument of the function. -/
structure Named (defs : Defs) (lookup : Str → Option Obj) (autouse : List (Str × Obj)) (fs : List Func) (rs b : List (Str × Obj)) : Prop where
  wf : WF defs
  some : fs ≠ []
  params : ∀ f ∈ fs, (f.params.map (·.1)).Nodup ∧ ∀ x ∈ f.params, x.1 ∈ f.args.map (·.1)
  roots : allRoots lookup autouse fs = Option.some rs
  dots : ∀ r ∈ rs, '.' ∉ r.1
  names : ∃ fuel, populateAll defs fuel rs [] = Option.some b

theorem lookup_of_nodup {β : Type} (l : List (Str × β)) (hn : (l.map (·.1)).Nodup) (x : Str × β) (hx : x ∈ l) : l.lookup x.1 = some x.2 := by
  induction l with
  | nil => cases hx
  | cons y l ih =>
    rw [List.map_cons, List.nodup_cons] at hn
    rcases List.mem_cons.1 hx with rfl | hx
    · obtain ⟨a, b⟩ := x; simp [List.lookup_cons]
    · have : (x.1 == y.1) = false := by
        rw [beq_eq_false_iff_ne]
        rintro e
        exact hn.1 (e ▸ List.mem_map_of_mem hx)
      have hl := ih hn.2 hx
      obtain ⟨a, b⟩ := y
      simp only at this
      rw [List.lookup_cons, this]
      exact hl

theorem lookup_mem {α β : Type} [BEq α] [LawfulBEq α] (l : List (α × β)) (k : α) (v : β) (h : l.lookup k = some v) : (k, v) ∈ l := by
  induction l with
  | nil => cases h
  | cons y l ih =>
    obtain ⟨a, b⟩ := y
    rw [List.lookup_cons] at h
    split at h
    · rename_i e
      cases h
      rw [eq_of_beq e]; exact List.mem_cons_self
    · exact List.mem_cons_of_mem _ (ih h)

/-- what is needed and what is named are the same objects -/
theorem Named.needed_iff {defs : Defs} {lookup : Str → Option Obj} {autouse : List (Str × Obj)} {fs : List Func} {rs b : List (Str × Obj)}
    (h : Named defs lookup autouse fs rs b) (o : Obj) : o ∈ allNeeded lookup autouse fs ↔ ∃ r ∈ rs, r.2 = o := by
  unfold allNeeded
  rw [List.mem_append]
  constructor
  · rintro (ho | ho)
    · obtain ⟨a, ha, rfl⟩ := List.mem_map.1 ho
      obtain ⟨f, hf⟩ := List.exists_mem_of_ne_nil _ h.some
      obtain ⟨lf, hlf⟩ := allRoots_some fs rs h.roots f hf
      exact ⟨(':' :: ':' :: a.1, a.2), (allRoots_mem fs rs h.roots _).2 ⟨f, hf, lf, hlf, (roots_mem hlf _).2 (.inr (.inl ⟨a, ha, rfl⟩))⟩, rfl⟩
    · obtain ⟨f, hf, ho⟩ := List.mem_flatMap.1 ho
      obtain ⟨lf, hlf⟩ := allRoots_some fs rs h.roots f hf
      have key : ∀ r ∈ lf, r ∈ rs := fun r hr => (allRoots_mem fs rs h.roots r).2 ⟨f, hf, lf, hlf, hr⟩
      unfold neededOf at ho
      rw [List.mem_append, List.mem_append] at ho
      rcases ho with (ho | ho) | ho
      · obtain ⟨x, hx, rfl⟩ := List.mem_map.1 ho
        obtain ⟨a, ha, hax⟩ := List.mem_map.1 ((h.params f hf).2 x hx)
        refine ⟨(argName f a.1, x.2), key _ ((roots_mem hlf _).2 (.inl ⟨a, ha, ?_, rfl⟩)), rfl⟩
        unfold argObj
        rw [hax, lookup_of_nodup _ (h.params f hf).1 x hx]
      · obtain ⟨a, ha, hao⟩ := List.mem_filterMap.1 ho
        exact ⟨(argName f a.1, o), key _ ((roots_mem hlf _).2 (.inl ⟨a, ha, hao, rfl⟩)), rfl⟩
      · obtain ⟨n, hn, hno⟩ := List.mem_filterMap.1 ho
        exact ⟨(n, o), key _ ((roots_mem hlf _).2 (.inr (.inr ⟨hn, hno⟩))), rfl⟩
  · rintro ⟨r, hr, rfl⟩
    obtain ⟨f, hf, lf, hlf, hrf⟩ := (allRoots_mem fs rs h.roots r).1 hr
    have key : r.2 ∈ neededOf lookup f → r.2 ∈ fs.flatMap (neededOf lookup) := fun hm => List.mem_flatMap.2 ⟨f, hf, hm⟩
    rcases (roots_mem hlf r).1 hrf with ⟨a, ha, h1, h2⟩ | ⟨a, ha, rfl⟩ | ⟨h1, h2⟩
    · refine .inr (key ?_)
      unfold neededOf
      rw [List.mem_append, List.mem_append]
      exact .inl (.inr (List.mem_filterMap.2 ⟨a, ha, h1⟩))
    · exact .inl (List.mem_map.2 ⟨a, ha, rfl⟩)
    · refine .inr (key ?_)
      unfold neededOf
      rw [List.mem_append]
      exact .inr (List.mem_filterMap.2 ⟨r.1, h1, h2⟩)

/-! ## C144 -/

/-- C144: naming ends, whatever the fixtures depend on (even on each other), if there are finitely many (`V`). -/
theorem C144_ends (defs : Defs) (V : List Nat) (hV : ∀ i ∈ V, ∀ kw, defs i = some kw → ∀ e ∈ kw, e.2.id ∈ V) (rs : List (Str × Obj))
    (hr : ∀ r ∈ rs, r.2.id ∈ V) : ∃ b, ∀ k, populateAll defs (V.length + k) rs [] = some b := by
  obtain ⟨b, hb⟩ := populateAll_ends V hV rs [] hr V.length (Nat.le_refl _)
  refine ⟨b, fun k => ?_⟩
  have mono : ∀ (fuel : Nat) (visited : List Nat) (stack b res : List (Str × Obj)), walk defs fuel visited stack b = some res →
      walk defs (fuel + k) visited stack b = some res := by
    intro fuel
    induction fuel with
    | zero =>
      intro visited stack b res h
      cases stack with
      | nil => cases h; cases k <;> rfl
      | cons x stack => cases h
    | succ fuel ih =>
      intro visited stack b res h
      cases stack with
      | nil => cases h; rw [Nat.add_right_comm]; rfl
      | cons x stack =>
        obtain ⟨name, o⟩ := x
        rw [Nat.add_right_comm]
        simp only [walk] at h ⊢
        cases hd : defs o.id with
        | none => rw [hd] at h; exact ih _ _ _ _ h
        | some kw => rw [hd] at h; exact ih _ _ _ _ h
  have : ∀ (rs b res : List (Str × Obj)), populateAll defs V.length rs b = some res → populateAll defs (V.length + k) rs b = some res := by
    intro rs
    induction rs with
    | nil => intro b res h; exact h
    | cons r rs ih =>
      intro b res h
      simp only [populateAll] at h ⊢
      cases hp : populate defs V.length r b with
      | none => rw [hp] at h; cases h
      | some b1 =>
        rw [hp] at h
        rw [show populate defs (V.length + k) r b = some b1 from mono _ _ _ _ _ hp]
        exact ih b1 res h
  exact this rs [] b hb

/-- C144: the names are different, and each of them tells the way from an argument, an autouse fixture or a fixture of `use_fixtures` through the
arguments of fixtures to the parameter it stands for. -/
theorem C144_names {defs : Defs} {lookup : Str → Option Obj} {autouse : List (Str × Obj)} {fs : List Func} {rs b : List (Str × Obj)}
    (h : Named defs lookup autouse fs rs b) :
    (b.map (·.1)).Nodup ∧ ∀ e ∈ b, defs e.2.id = none ∧ ∃ f ∈ fs, ∃ r : Str × Obj, Leads defs r.1 r.2 e.1 e.2 ∧
      ((∃ a ∈ f.args, r.1 = argName f a.1 ∧ (f.params.lookup a.1).or (lookup a.2) = some r.2) ∨
        (∃ a ∈ autouse, r.1 = ':' :: ':' :: a.1 ∧ r.2 = a.2) ∨ (r.1 ∈ f.extras ∧ lookup r.1 = some r.2)) := by
  obtain ⟨fuel, hp⟩ := h.names
  obtain ⟨h1, -, h3⟩ := populateAll_sound rs [] b hp
  refine ⟨h3 (by simp), fun e he => ?_⟩
  rcases h1 e he with h' | ⟨r, hr, hl, hd⟩
  · cases h'
  · obtain ⟨f, hf, lf, hlf, hrf⟩ := (allRoots_mem fs rs h.roots r).1 hr
    refine ⟨hd, f, hf, r, hl, ?_⟩
    rcases (roots_mem hlf r).1 hrf with ⟨a, ha, k1, k2⟩ | ⟨a, ha, k⟩ | k
    · refine .inl ⟨a, ha, k2, ?_⟩
      unfold argObj at k1
      rw [← k1]
      cases f.params.lookup a.1 <;> rfl
    · exact .inr (.inl ⟨a, ha, by rw [k], by rw [k]⟩)
    · exact .inr (.inr k)

theorem mapM_some {α β : Type} (f : α → Option β) (l : List α) (h : ∀ a ∈ l, ∃ c, f a = some c) :
    ∃ r, l.mapM f = some r ∧ r.length = l.length ∧ ∀ (i : Nat) (a : α), l[i]? = some a → f a = r[i]? := by
  induction l with
  | nil => exact ⟨[], rfl, rfl, by simp⟩
  | cons a l ih =>
    obtain ⟨c, hc⟩ := h a List.mem_cons_self
    obtain ⟨r, h1, h2, h3⟩ := ih (fun x hx => h x (List.mem_cons_of_mem _ hx))
    refine ⟨c :: r, by simp [List.mapM_cons, hc, h1], by simp [h2], ?_⟩
    intro i x hx
    cases i with
    | zero => simp at hx; subst hx; simpa using hc
    | succ i => simpa using h3 i x (by simpa using hx)

/-- The needed fixtures with what the store computes for them, as `iter_variations` uses them. -/
structure Computed (defs : Defs) (scope : Nat → Nat) (objs : List Obj) (needs : List Var.Need) : Prop where
  needs : ∃ memo fuel, FG.MemoOk (fdef defs scope) memo ∧
    (∀ n, n ∈ needs ↔ ∃ o ∈ objs, n.scope = (fdef defs scope o.id).scope ∧ FG.needed (fdef defs scope) memo fuel o.id = some (some n.params)) ∧
    ∀ o ∈ objs, ∃ l, FG.needed (fdef defs scope) memo fuel o.id = some (some l)

theorem Computed.params {defs : Defs} {scope : Nat → Nat} {objs : List Obj} {needs : List Var.Need} (h : Computed defs scope objs needs)
    (size : Nat → Nat) (v : List (Nat × Nat)) (hv : v ∈ Var.iterVariations size needs) (p : Nat) :
    p ∈ v.map (·.1) ↔ ∃ o ∈ objs, FG.Param (fdef defs scope) o.id p := by
  obtain ⟨memo, fuel, hm, hn, hall⟩ := h.needs
  rw [Var.C21_transitive (fdef defs scope) memo hm fuel (objs.map (·.id)) needs (fun n => by
    rw [hn]
    constructor
    · rintro ⟨o, ho, h⟩; exact ⟨o.id, List.mem_map_of_mem ho, h⟩
    · rintro ⟨i, hi, h⟩
      obtain ⟨o, ho, rfl⟩ := List.mem_map.1 hi
      exact ⟨o, ho, h⟩) (fun i hi => by
    obtain ⟨o, ho, rfl⟩ := List.mem_map.1 hi
    exact hall o ho) size v hv p]
  constructor
  · rintro ⟨i, hi, h⟩
    obtain ⟨o, ho, rfl⟩ := List.mem_map.1 hi
    exact ⟨o, ho, h⟩
  · rintro ⟨o, ho, h⟩; exact ⟨o.id, List.mem_map_of_mem ho, h⟩

/-- C144: each name of a variation has the index of the value the variation gives to the parameter the name stands for; the construction of a variation
never fails. -/
theorem C144_indices {defs : Defs} {lookup : Str → Option Obj} {autouse : List (Str × Obj)} {fs : List Func} {rs b : List (Str × Obj)}
    (h : Named defs lookup autouse fs rs b) {scope : Nat → Nat} {needs : List Var.Need} (hc : Computed defs scope (allNeeded lookup autouse fs) needs)
    (size : Nat → Nat) (v : List (Nat × Nat)) (hv : v ∈ Var.iterVariations size needs) :
    ∃ ids, idOf b v = some ids ∧ ids.map (·.1) = b.map (·.1) ∧ ∀ (n : Str) (o : Obj), (n, o) ∈ b → ∃ i, (n, i) ∈ ids ∧ (o.id, i) ∈ v ∧ i < size o.id := by
  have key : ∀ e ∈ b, ∃ i, v.lookup e.2.id = some i := by
    intro e he
    obtain ⟨fuel, hp⟩ := h.names
    rcases (populateAll_sound rs [] b hp).1 e he with h' | ⟨r, hr, hl, hd⟩
    · cases h'
    · have hm := (hc.params size v hv e.2.id).2 ⟨r.2, (h.needed_iff r.2).2 ⟨r, hr, rfl⟩, (leads_reach hl).2 hd⟩
      obtain ⟨x, hx, hxe⟩ := List.mem_map.1 hm
      cases hlk : v.lookup e.2.id with
      | some i => exact ⟨i, rfl⟩
      | none =>
        have := List.lookup_eq_none_iff.1 hlk x hx
        simp [hxe] at this
  obtain ⟨ids, h1, h2, h3⟩ := mapM_some (fun e : Str × Obj => (v.lookup e.2.id).map (fun i => (e.1, i))) b (fun e he => by
    obtain ⟨i, hi⟩ := key e he
    exact ⟨(e.1, i), by rw [hi]; rfl⟩)
  refine ⟨ids, h1, ?_, fun n o ho => ?_⟩
  · apply List.ext_getElem?
    intro i
    rw [List.getElem?_map, List.getElem?_map]
    cases hb : b[i]? with
    | none =>
      rw [List.getElem?_eq_none_iff] at hb
      rw [List.getElem?_eq_none (by omega)]; rfl
    | some e =>
      rw [← h3 i e hb]
      obtain ⟨j, hj⟩ := key e (List.mem_of_getElem? hb)
      simp [hj]
  · obtain ⟨i, hi⟩ := List.getElem?_of_mem ho
    obtain ⟨j, hj⟩ := key _ ho
    have := h3 i _ hi
    simp only [hj, Option.map_some] at this
    have hmem := lookup_mem v _ _ hj
    exact ⟨j, List.mem_of_getElem? this.symm, hmem, (Var.C21_each_is_a_combination size needs v hv).2.2 _ _ hmem⟩

/-- C144: if equal names of starting points stand for the same thing, each parameter of the test has a name. -/
theorem C144_each_parameter_named_partial {defs : Defs} {lookup : Str → Option Obj} {autouse : List (Str × Obj)} {fs : List Func}
    {rs b : List (Str × Obj)} (h : Named defs lookup autouse fs rs b) (hu : ∀ r ∈ rs, ∀ x ∈ rs, r.1 = x.1 → r.2 = x.2)
    {scope : Nat → Nat} {needs : List Var.Need} (hc : Computed defs scope (allNeeded lookup autouse fs) needs)
    (size : Nat → Nat) (v : List (Nat × Nat)) (hv : v ∈ Var.iterVariations size needs) (p : Nat) (hp : p ∈ v.map (·.1)) :
    ∃ e ∈ b, e.2.id = p := by
  obtain ⟨o, ho, hpar⟩ := (hc.params size v hv p).1 hp
  obtain ⟨r, hr, rfl⟩ := (h.needed_iff o).1 ho
  obtain ⟨fuel, hq⟩ := h.names
  obtain ⟨e, he, -, hei⟩ := populateAll_complete h.wf rs [] b h.dots hu hq r hr p hpar
  exact ⟨e, he, hei⟩

/-- C144: if equal names of starting points stand for the same thing, two variations of a test that have the same indices for all names are the
same variation. -/
theorem C144_distinct_partial {defs : Defs} {lookup : Str → Option Obj} {autouse : List (Str × Obj)} {fs : List Func} {rs b : List (Str × Obj)}
    (h : Named defs lookup autouse fs rs b) (hu : ∀ r ∈ rs, ∀ x ∈ rs, r.1 = x.1 → r.2 = x.2)
    {scope : Nat → Nat} {needs : List Var.Need} (hc : Computed defs scope (allNeeded lookup autouse fs) needs)
    (size : Nat → Nat) (v w : List (Nat × Nat)) (hv : v ∈ Var.iterVariations size needs) (hw : w ∈ Var.iterVariations size needs)
    (he : idOf b v = idOf b w) : v = w := by
  obtain ⟨ids, e1, e2, e3⟩ := C144_indices h hc size v hv
  obtain ⟨ids', f1, f2, f3⟩ := C144_indices h hc size w hw
  rw [e1, f1] at he
  cases he
  have hids : (ids.map (·.1)).Nodup := by rw [e2]; exact (C144_names h).1
  have hvn := (Var.C21_each_is_a_combination size needs v hv).1
  have hwn := (Var.C21_each_is_a_combination size needs w hw).1
  have agree : ∀ p i j, (p, i) ∈ v → (p, j) ∈ w → i = j := by
    intro p i j hi hj
    obtain ⟨e, he, hep⟩ := C144_each_parameter_named_partial h hu hc size v hv p (List.mem_map_of_mem hi)
    obtain ⟨n, o⟩ := e
    obtain ⟨i', h1, h2, -⟩ := e3 n o he
    obtain ⟨j', h3, h4, -⟩ := f3 n o he
    simp only at hep
    subst hep
    have a1 := inj_on_of_nodup_map hvn hi h2 rfl
    have a2 := inj_on_of_nodup_map hwn hj h4 rfl
    have a3 := inj_on_of_nodup_map hids h1 h3 rfl
    simp only [Prod.mk.injEq, true_and] at a1 a2 a3
    omega
  rw [Var.iterVariations_eq] at hv hw
  obtain ⟨l, hl, rfl⟩ := List.mem_map.1 hv
  obtain ⟨m, hm, rfl⟩ := List.mem_map.1 hw
  have hl1 := ((Var.mem_product _ l).1 hl).1
  have hm1 := ((Var.mem_product _ m).1 hm).1
  simp only [List.length_map] at hl1 hm1
  congr 1
  apply List.ext_getElem (by omega)
  intro i h1 h2
  have hi : i < (Var.neededIds needs).length := by omega
  refine agree (Var.neededIds needs)[i] _ _ ?_ ?_
  · exact List.mem_of_getElem? (i := i) (by rw [List.getElem?_zip_eq_some]; simp [h1, hi])
  · exact List.mem_of_getElem? (i := i) (by rw [List.getElem?_zip_eq_some]; simp [h2, hi])

/-- C144: this is so for a test function whose arguments have different names, for autouse fixtures of different names, if `use_fixtures` and
the arguments of the function understand the same name in the same way. -/
theorem C144_function_distinct_partial {defs : Defs} {lookup : Str → Option Obj} {autouse : List (Str × Obj)} {f : Func} {rs b : List (Str × Obj)}
    (h : Named defs lookup autouse [f] rs b) (hp : f.prefixed = none) (hargs : (f.args.map (·.1)).Nodup) (hauto : (autouse.map (·.1)).Nodup)
    (hcolon : ∀ a ∈ f.args, ':' ∉ a.1) (hcolon' : ∀ n ∈ f.extras, ':' ∉ n)
    (hextra : ∀ a ∈ f.args, a.1 ∈ f.extras → a.2 = a.1 ∧ ∀ x ∈ f.params, x.1 ≠ a.1)
    {scope : Nat → Nat} {needs : List Var.Need} (hc : Computed defs scope (allNeeded lookup autouse [f]) needs)
    (size : Nat → Nat) (v w : List (Nat × Nat)) (hv : v ∈ Var.iterVariations size needs) (hw : w ∈ Var.iterVariations size needs)
    (he : idOf b v = idOf b w) : v = w := by
  refine C144_distinct_partial h (fun r hr x hx e => ?_) hc size v w hv hw he
  have key : ∀ r ∈ rs, (∃ a ∈ f.args, argObj lookup f a = some r.2 ∧ r.1 = a.1) ∨ (∃ a ∈ autouse, r = (':' :: ':' :: a.1, a.2)) ∨
      (r.1 ∈ f.extras ∧ lookup r.1 = some r.2) := by
    intro r hr
    obtain ⟨g, hg, lf, hlf, hrf⟩ := (allRoots_mem [f] rs h.roots r).1 hr
    rw [List.mem_singleton.1 hg] at hlf
    have := (roots_mem hlf r).1 hrf
    simpa only [argName, hp] using this
  have mixed : ∀ (r x : Str × Obj), r.1 = x.1 → (∃ a ∈ f.args, argObj lookup f a = some r.2 ∧ r.1 = a.1) →
      (x.1 ∈ f.extras ∧ lookup x.1 = some x.2) → r.2 = x.2 := by
    rintro r x e ⟨a, ha, h1, h2⟩ ⟨h3, h4⟩
    obtain ⟨k1, k2⟩ := hextra a ha (by rw [← h2, e]; exact h3)
    unfold argObj at h1
    have hno : f.params.lookup a.1 = none := by
      cases hl : f.params.lookup a.1 with
      | none => rfl
      | some o => exact absurd rfl (k2 _ (lookup_mem _ _ _ hl))
    rw [hno, k1, ← h2, e, h4] at h1
    simpa using h1.symm
  rcases key r hr with ⟨a, ha, h1, h2⟩ | ⟨a, ha, rfl⟩ | ⟨h1, h2⟩ <;> rcases key x hx with ⟨c, hc', h3, h4⟩ | ⟨c, hc', rfl⟩ | ⟨h3, h4⟩
  · have : a = c := inj_on_of_nodup_map hargs ha hc' (by rw [← h2, ← h4, e])
    subst this
    rw [h1] at h3
    simpa using h3
  · exact absurd (by rw [← h2, e]; simp) (hcolon a ha)
  · exact mixed r x e ⟨a, ha, h1, h2⟩ ⟨h3, h4⟩
  · exact absurd (by rw [← h4, ← e]; simp) (hcolon c hc')
  · have : a = c := inj_on_of_nodup_map hauto ha hc' (by simpa using e)
    rw [this]
  · exact absurd (by rw [← e]; simp) (hcolon' _ h3)
  · exact (mixed x r e.symm ⟨c, hc', h3, h4⟩ ⟨h1, h2⟩).symm
  · exact absurd (by rw [e]; simp) (hcolon' _ h1)
  · rw [e, h4] at h2
    simpa using h2.symm

theorem nodup_of_map {α β : Type} (f : α → β) {l : List α} (h : (l.map f).Nodup) : l.Nodup := by
  induction l with
  | nil => simp
  | cons a l ih =>
    rw [List.map_cons, List.nodup_cons] at h
    exact List.nodup_cons.2 ⟨fun hm => h.1 (List.mem_map_of_mem hm), ih h.2⟩

theorem insertName_mem {α : Type} (x y : Str × α) (l : List (Str × α)) : y ∈ Meta.insertName x l ↔ y = x ∨ y ∈ l := by
  induction l with
  | nil => simp [Meta.insertName]
  | cons z l ih =>
    simp only [Meta.insertName]
    split
    · simp
    · simp only [List.mem_cons, ih]
      constructor
      · rintro (h | h | h) <;> simp [h]
      · rintro (h | h | h) <;> simp [h]

/-- C144: what is compared between the processes of a parallel run depends on the names and their indices only, not on the order in which they were
found. -/
theorem C144_dump (a c : List (Str × Nat)) (ha : (a.map (·.1)).Nodup) (hc : (c.map (·.1)).Nodup) :
    dump a = dump c ↔ ∀ e, e ∈ a ↔ e ∈ c := by
  have mem : ∀ (l : List (Str × Nat)) (e : Str × Nat), e ∈ dump l ↔ e ∈ l := by
    intro l e
    induction l with
    | nil => simp [dump, Meta.sortNames]
    | cons x l ih => show e ∈ Meta.insertName x (Meta.sortNames l) ↔ _; rw [insertName_mem, List.mem_cons]; exact or_congr_right ih
  constructor
  · intro h e
    rw [← mem a, h, mem c]
  · intro h
    have perm : ∀ l : List (Str × Nat), (dump l).Perm l := by
      intro l
      induction l with
      | nil => exact .nil
      | cons x l ih =>
        refine List.Perm.trans ?_ (List.Perm.cons x ih)
        show (Meta.insertName x (dump l)).Perm _
        generalize dump l = m
        clear ih
        induction m with
        | nil => exact .refl _
        | cons z m ih =>
          simp only [Meta.insertName]
          split
          · exact .refl _
          · exact (List.Perm.cons z ih).trans (List.Perm.swap _ _ _)
    have nd : ∀ l : List (Str × Nat), (l.map (·.1)).Nodup → ((dump l).map (·.1)).Nodup := fun l hl => ((perm l).map _).nodup_iff.2 hl
    have hp : (dump a).Perm (dump c) := by
      rw [List.perm_ext_iff_of_nodup (nodup_of_map _ (nd a ha)) (nodup_of_map _ (nd c hc))]
      intro e; rw [mem, mem, h]
    refine List.Perm.eq_of_pairwise (le := fun a b => a.1.map Char.toNat ≤ b.1.map Char.toNat) ?_ (Meta.C69_sorted a) (Meta.C69_sorted c) hp
    intro x y hx hy h1 h2
    have hxy : x.1.map Char.toNat = y.1.map Char.toNat := List.le_antisymm h1 h2
    have hinj : x.1 = y.1 := (List.map_inj_right (fun p q e => Char.toNat_inj.1 e)).1 hxy
    exact inj_on_of_nodup_map (nd a ha) hx (hp.mem_iff.2 hy) hinj

/-! ## Examples -/

/-- The needed fixtures with the parameters computed for them. -/
def needsOf (defs : Defs) (scope : Nat → Nat) (fuel : Nat) (objs : List Obj) : List Var.Need :=
  objs.filterMap (fun o => match FG.needed (fdef defs scope) (fun _ => none) fuel o.id with
    | some (some l) => some ⟨(fdef defs scope o.id).scope, l⟩
    | _ => none)

theorem needsOf_computed (defs : Defs) (scope : Nat → Nat) (fuel : Nat) (objs : List Obj)
    (h : ∀ o ∈ objs, (FG.needed (fdef defs scope) (fun _ => none) fuel o.id).join.isSome = true) :
    Computed defs scope objs (needsOf defs scope fuel objs) := by
  have hs : ∀ o ∈ objs, ∃ l, FG.needed (fdef defs scope) (fun _ => none) fuel o.id = some (some l) := by
    intro o ho
    have := h o ho
    cases hf : FG.needed (fdef defs scope) (fun _ => none) fuel o.id with
    | none => rw [hf] at this; cases this
    | some r =>
      cases r with
      | none => rw [hf] at this; cases this
      | some l => exact ⟨l, rfl⟩
  refine ⟨fun _ => none, fuel, (fun f l hl => by cases hl), fun n => ?_, hs⟩
  unfold needsOf
  rw [List.mem_filterMap]
  constructor
  · rintro ⟨o, ho, h'⟩
    obtain ⟨l, hl⟩ := hs o ho
    simp only [hl, Option.some.injEq] at h'
    exact ⟨o, ho, by rw [← h'], by rw [hl, ← h']⟩
  · rintro ⟨o, ho, h1, h2⟩
    refine ⟨o, ho, ?_⟩
    simp only [h2, ← h1]

/-- Fixtures 1 (argument `b`: fixture 2, parametrized by `p`, parameter 11) and 2 (parametrized by `q`, parameter 12), and parameters 11-14. -/
def exDefs : Defs := fun i =>
  if i = 1 then some [("p".toList, ⟨11, none⟩), ("b".toList, ⟨2, none⟩)]
  else if i = 2 then some [("q".toList, ⟨12, none⟩)]
  else none

/-- Names of fixtures: `a` is fixture 1, `b` is fixture 2. -/
def exLookup : Str → Option Obj := fun n => if n = "a".toList then some ⟨1, none⟩ else if n = "b".toList then some ⟨2, none⟩ else none

theorem exDefs_wf : WF exDefs := by
  intro i kw h
  unfold exDefs at h
  split at h
  · cases h; decide
  · split at h
    · cases h; decide
    · cases h

/-- `def test(a, x)`, parametrized by `x` (parameter 13), with `use_fixtures(['b'])` -/
def exFunc : Func := { args := [("a".toList, "a".toList), ("x".toList, "x".toList)], params := [("x".toList, ⟨13, none⟩)], extras := ["b".toList] }

/-- Its parameters are named `a.p`, `a.b.q`, `x` and `b.q`; `a.b.q` and `b.q` are the same parameter. All hypotheses of the theorems hold. -/
example :
    let b : List (Str × Obj) := [("a.b.q".toList, ⟨12, none⟩), ("a.p".toList, ⟨11, none⟩), ("x".toList, ⟨13, none⟩), ("b.q".toList, ⟨12, none⟩)]
    let rs : List (Str × Obj) := [("a".toList, ⟨1, none⟩), ("x".toList, ⟨13, none⟩), ("b".toList, ⟨2, none⟩)]
    Named exDefs exLookup [] [exFunc] rs b ∧ (∀ r ∈ rs, ∀ x ∈ rs, r.1 = x.1 → r.2 = x.2) ∧
    Computed exDefs (fun _ => 0) (allNeeded exLookup [] [exFunc]) (needsOf exDefs (fun _ => 0) 9 (allNeeded exLookup [] [exFunc])) ∧
    (Var.iterVariations (fun _ => 2) (needsOf exDefs (fun _ => 0) 9 (allNeeded exLookup [] [exFunc]))).length = 8 ∧
    idOf b [(13, 0), (11, 1), (12, 1)] = some [("a.b.q".toList, 1), ("a.p".toList, 1), ("x".toList, 0), ("b.q".toList, 1)] := by
  refine ⟨⟨exDefs_wf, by simp, by decide, by decide +kernel, by decide, ⟨9, by decide +kernel⟩⟩, by decide, ?_, by decide +kernel, by decide +kernel⟩
  exact needsOf_computed _ _ _ _ (by decide +kernel)

/-- the hypotheses about the function -/
example : exFunc.prefixed = none ∧ (exFunc.args.map (·.1)).Nodup ∧ (∀ a ∈ exFunc.args, ':' ∉ a.1) ∧ (∀ n ∈ exFunc.extras, ':' ∉ n) ∧
    (∀ a ∈ exFunc.args, a.1 ∈ exFunc.extras → a.2 = a.1 ∧ ∀ x ∈ exFunc.params, x.1 ≠ a.1) := by decide

/-- the names end also if fixtures depend on each other -/
example : populateAll (fun i => if i = 1 then some [("b".toList, ⟨2, none⟩)] else if i = 2 then some [("a".toList, ⟨1, none⟩), ("q".toList, ⟨3, none⟩)] else none) 3
    [("a".toList, ⟨1, none⟩)] [] = some [("a.b.q".toList, ⟨3, none⟩)] := by decide +kernel

/-- the order in which parameters were found does not matter -/
example : dump [("b".toList, 1), ("a".toList, 0)] = [("a".toList, 0), ("b".toList, 1)] ∧
    dump [("a".toList, 0), ("b".toList, 1)] = [("a".toList, 0), ("b".toList, 1)] := by decide

/-! ## Cases in which the code does not give each parameter a name -/

/-- C144: the full statement is false: `before` of a class and of its base class, both parametrized by `x` (parameters 11 and 12): the test has four
variations, and pairs of them have the same indices and hence the same address. -/
theorem C144_inherited_before_violated :
    let before (p : Nat) : Func := { args := [("x".toList, "x".toList)], params := [("x".toList, ⟨p, none⟩)] }
    let fs := methodsOf [(some (before 11), none), (some (before 12), none)] {}
    ∃ rs b, Named (fun _ => none) (fun _ => none) [] fs rs b ∧
      Computed (fun _ => none) (fun _ => 0) (allNeeded (fun _ => none) [] fs) (needsOf (fun _ => none) (fun _ => 0) 9 (allNeeded (fun _ => none) [] fs)) ∧
      (Var.iterVariations (fun _ => 2) (needsOf (fun _ => none) (fun _ => 0) 9 (allNeeded (fun _ => none) [] fs))) =
        [[(11, 0), (12, 0)], [(11, 0), (12, 1)], [(11, 1), (12, 0)], [(11, 1), (12, 1)]] ∧
      idOf b [(11, 0), (12, 0)] = some [("before:x".toList, 0)] ∧ idOf b [(11, 1), (12, 0)] = some [("before:x".toList, 0)] := by
  refine ⟨[("before:x".toList, ⟨11, none⟩), ("before:x".toList, ⟨12, none⟩)], [("before:x".toList, ⟨12, none⟩)],
    ⟨fun i kw h => (by cases h), by decide, by decide, by decide +kernel, by decide, ⟨9, by decide +kernel⟩⟩, ?_, by decide +kernel, by decide +kernel, by decide +kernel⟩
  exact needsOf_computed _ _ _ _ (by decide +kernel)

/-- C144: the full statement is false: an autouse fixture of a file that has the name of an autouse fixture of `slashconf.py`, both parametrized by `x`. -/
theorem C144_autouse_same_name_violated :
    let defs : Defs := fun i => if i = 1 then some [("x".toList, ⟨11, none⟩)] else if i = 2 then some [("x".toList, ⟨12, none⟩)] else none
    let autouse : List (Str × Obj) := [("a".toList, ⟨1, none⟩), ("a".toList, ⟨2, none⟩)]
    ∃ rs b, Named defs (fun _ => none) autouse [{}] rs b ∧
      (Var.iterVariations (fun _ => 2) (needsOf defs (fun _ => 0) 9 (allNeeded (fun _ => none) autouse [{}]))).length = 4 ∧
      idOf b [(11, 0), (12, 0)] = some [("::a.x".toList, 0)] ∧ idOf b [(11, 1), (12, 0)] = some [("::a.x".toList, 0)] := by
  refine ⟨[("::a".toList, ⟨1, none⟩), ("::a".toList, ⟨2, none⟩)], [("::a.x".toList, ⟨12, none⟩)],
    ⟨?_, by decide, by decide, by decide +kernel, by decide, ⟨9, by decide +kernel⟩⟩, by decide +kernel, by decide +kernel, by decide +kernel⟩
  intro i kw h
  simp only at h
  split at h
  · cases h; decide
  · split at h
    · cases h; decide
    · cases h

/-- C144: of several names parametrized together in a fixture, only the first gets a name: `parametrize(('p', 'q'), ...)` of fixture `a`. For
a test function each of the names is there. -/
theorem C144_tuple_in_fixture_violated :
    let kw : List (Str × Obj) := [("p".toList, ⟨11, some 0⟩), ("q".toList, ⟨11, some 1⟩)]
    populateAll (fun i => if i = 1 then some kw else none) 9 [("a".toList, ⟨1, none⟩)] [] = some [("a.p".toList, ⟨11, some 0⟩)] ∧
    populateAll (fun _ => none) 9 kw [] = some kw := by decide +kernel

end Slash.VN
