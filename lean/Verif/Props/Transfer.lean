import Verif.Model.Transfer
/-! C135 (errors and failures of a result), C136 (results of workers), C137 (notice about slow operations). -/
namespace Slash.Tr

/-! ## C135: errors and failures -/

/-- What holds at all times. -/
structure Inv (env : ExcEnv) (s : ESt) : Prop where
  errors : ∀ id ∈ s.errors, id < s.heap.length
  failures : ∀ id ∈ s.failures, id < s.heap.length
  failure : ∀ id o, s.heap[id]? = some o → (o.failure = true ↔ o.exc.any env.failureType = true ∨ id ∈ s.failures)
  cache : ∀ e id, (e, id) ∈ s.cache → ∃ o, s.heap[id]? = some o ∧ o.exc = some e
  held : ∀ (id : Nat) (o : ErrObj), s.heap[id]? = some o → o.held = true → o.exc.isSome = true

theorem Inv.init (env : ExcEnv) : Inv env {} := ⟨by simp, by simp, by simp, by simp, by simp⟩

theorem Inv.alloc {env : ExcEnv} {s : ESt} (h : Inv env s) (exc : Option Nat) (cache : List (Nat × Nat))
    (hc : ∀ e id, (e, id) ∈ cache → (e, id) ∈ s.cache ∨ (id = s.heap.length ∧ exc = some e)) :
    Inv env { s with heap := s.heap ++ [mkErr env s exc], cache := cache } := by
  refine ⟨?_, ?_, ?_, ?_, ?_⟩
  · intro id hid; have := h.errors id hid; simp; omega
  · intro id hid; have := h.failures id hid; simp; omega
  · intro id o ho
    simp only [List.getElem?_append] at ho
    split at ho
    · exact h.failure id o ho
    · rename_i hlt
      have hid : id - s.heap.length = 0 := by
        cases hh : id - s.heap.length with
        | zero => rfl
        | succ n => rw [hh] at ho; simp at ho
      rw [hid] at ho
      simp only [List.getElem?_cons_zero, Option.some.injEq] at ho
      subst ho
      simp only [mkErr]
      constructor
      · intro g; exact Or.inl g
      · rintro (g | g)
        · exact g
        · exact absurd (h.failures id g) hlt
  · intro e id hid
    rcases hc e id hid with g | ⟨rfl, rfl⟩
    · obtain ⟨o, ho, hoe⟩ := h.cache e id g
      refine ⟨o, ?_, hoe⟩
      have hlt : id < s.heap.length := by
        rcases Nat.lt_or_ge id s.heap.length with g | g
        · exact g
        · rw [List.getElem?_eq_none g] at ho; cases ho
      rw [List.getElem?_append_left hlt, ho]
    · exact ⟨mkErr env s (some e), by simp, rfl⟩
  · intro id o ho hh
    rcases Nat.lt_or_ge id s.heap.length with g | g
    · exact h.held id o (by rw [← List.getElem?_append_left g]; exact ho) hh
    · rw [List.getElem?_append_right g] at ho
      cases hi : id - s.heap.length with
      | zero =>
        rw [hi] at ho
        simp only [List.getElem?_cons_zero, Option.some.injEq] at ho
        subst ho
        exact hh
      | succ n => rw [hi] at ho; simp at ho

theorem cached_mem {s : ESt} {e id : Nat} (h : cached s e = some id) : (e, id) ∈ s.cache := by
  unfold cached at h
  cases hf : s.cache.find? (fun x => x.1 == e) with
  | none => simp [hf] at h
  | some x =>
    have h1 := List.mem_of_find?_eq_some hf
    have h2 := List.find?_some hf
    simp only [hf, Option.map_some, Option.some.injEq] at h
    obtain ⟨a, b⟩ := x
    simp only [beq_iff_eq] at h2
    subst h2; subst h
    exact h1

/-- What resolving the argument does: everything but the objects and what is remembered stays, and the object is there. -/
structure Resolved (env : ExcEnv) (c : Call) (s : ESt) (id : Nat) (t : ESt) : Prop where
  inv : Inv env t
  lt : id < t.heap.length
  errors : t.errors = s.errors
  failures : t.failures = s.failures
  hooks : t.hooks = s.hooks
  reported : t.reported = s.reported
  fatals : t.fatals = s.fatals
  added : t.added = s.added
  le : s.heap.length ≤ t.heap.length
  old : ∀ i, i < s.heap.length → t.heap[i]? = s.heap[i]?
  new : ∀ i o, s.heap.length ≤ i → t.heap[i]? = some o → ∃ exc, o = mkErr env s exc
  object : match c.arg with
    | .none => ∃ e o, c.info.or c.current = some e ∧ t.heap[id]? = some o ∧ o.exc = some e
    | .obj i => id = i
    | .value => id = s.heap.length ∧ t.heap[id]? = some (mkErr env s c.info)

theorem getElem?_alloc {α : Type} (l : List α) (x : α) (i : Nat) (o : α) (hi : l.length ≤ i) (h : (l ++ [x])[i]? = some o) : o = x := by
  rw [List.getElem?_append_right hi] at h
  cases hh : i - l.length with
  | zero => rw [hh] at h; simpa using h.symm
  | succ n => rw [hh] at h; simp at h

theorem capture_spec {env : ExcEnv} {s : ESt} (h : Inv env s) (e : Nat) :
    let r := capture env e s
    (r.2 = s ∧ cached s e = some r.1) ∨
    (cached s e = none ∧ r = (s.heap.length, { s with heap := s.heap ++ [mkErr env s (some e)], cache := if env.settable e then (e, s.heap.length) :: s.cache else s.cache })) := by
  unfold capture
  cases hc : cached s e with
  | some id => exact Or.inl ⟨rfl, rfl⟩
  | none => exact Or.inr ⟨rfl, rfl⟩

theorem resolve_spec {env : ExcEnv} {s : ESt} (h : Inv env s) (c : Call) (id : Nat) (t : ESt) (hr : resolve env c s = some (id, t)) : Resolved env c s id t := by
  unfold resolve at hr
  cases ha : c.arg with
  | none =>
    rw [ha] at hr
    simp only at hr
    cases he : c.info.or c.current with
    | none => rw [he] at hr; cases hr
    | some e =>
      rw [he] at hr
      simp only [Option.some.injEq] at hr
      rcases capture_spec h e with ⟨h1, h2⟩ | ⟨h1, h2⟩
      · rw [hr] at h1 h2
        simp only at h1 h2
        subst h1
        obtain ⟨o, ho, hoe⟩ := h.cache e id (cached_mem h2)
        have hlt : id < t.heap.length := by
          rcases Nat.lt_or_ge id t.heap.length with g | g
          · exact g
          · rw [List.getElem?_eq_none g] at ho; cases ho
        refine ⟨h, hlt, rfl, rfl, rfl, rfl, rfl, rfl, Nat.le_refl _, fun _ _ => rfl, ?_, ?_⟩
        · intro i o' hi ho'; rw [List.getElem?_eq_none hi] at ho'; cases ho'
        · rw [ha]; exact ⟨e, o, he, ho, hoe⟩
      · rw [hr] at h2
        simp only [Prod.mk.injEq] at h2
        obtain ⟨rfl, rfl⟩ := h2
        refine ⟨h.alloc _ _ ?_, by simp, rfl, rfl, rfl, rfl, rfl, rfl, by simp, ?_, ?_, ?_⟩
        · intro e' id' hid
          split at hid
          · rcases List.mem_cons.1 hid with g | g
            · simp only [Prod.mk.injEq] at g; exact Or.inr ⟨g.2, by rw [g.1]⟩
            · exact Or.inl g
          · exact Or.inl hid
        · intro i hi; exact List.getElem?_append_left hi
        · intro i o hi ho; exact ⟨_, getElem?_alloc _ _ _ _ hi ho⟩
        · rw [ha]; exact ⟨e, mkErr env s (some e), he, by simp, rfl⟩
  | obj i =>
    rw [ha] at hr
    simp only at hr
    split at hr
    · rename_i hlt
      simp only [Option.some.injEq, Prod.mk.injEq] at hr
      obtain ⟨rfl, rfl⟩ := hr
      refine ⟨h, hlt, rfl, rfl, rfl, rfl, rfl, rfl, Nat.le_refl _, fun _ _ => rfl, ?_, ?_⟩
      · intro i o' hi ho'; rw [List.getElem?_eq_none hi] at ho'; cases ho'
      · rw [ha]
    · cases hr
  | value =>
    rw [ha] at hr
    simp only [Option.some.injEq, Prod.mk.injEq] at hr
    obtain ⟨rfl, rfl⟩ := hr
    refine ⟨h.alloc _ s.cache (fun _ _ g => Or.inl g), by simp, rfl, rfl, rfl, rfl, rfl, rfl, by simp, ?_, ?_, ?_⟩
    · intro i hi; exact List.getElem?_append_left hi
    · intro i o hi ho; exact ⟨_, getElem?_alloc _ _ _ _ hi ho⟩
    · rw [ha]; exact ⟨rfl, by simp⟩

theorem modify_heap (id : Nat) (f : ErrObj → ErrObj) (s : ESt) (i : Nat) : (modify id f s).heap[i]? = if i = id then (s.heap[i]?).map f else s.heap[i]? := by
  unfold modify
  cases ho : s.heap[id]? with
  | none =>
    simp only
    by_cases hi : i = id
    · subst hi; simp [ho]
    · simp [hi]
  | some o =>
    simp only
    rw [List.getElem?_set]
    by_cases hi : id = i
    · subst hi
      have hlt : id < s.heap.length := by
        rcases Nat.lt_or_ge id s.heap.length with g | g
        · exact g
        · rw [List.getElem?_eq_none g] at ho; cases ho
      rw [if_pos rfl, if_pos hlt, if_pos rfl, ho]; rfl
    · rw [if_neg hi, if_neg (Ne.symm hi)]

theorem modify_rest (id : Nat) (f : ErrObj → ErrObj) (s : ESt) : (modify id f s).heap.length = s.heap.length ∧ (modify id f s).cache = s.cache ∧ (modify id f s).fatals = s.fatals ∧
    (modify id f s).added = s.added ∧ (modify id f s).errors = s.errors ∧ (modify id f s).failures = s.failures ∧ (modify id f s).hooks = s.hooks ∧ (modify id f s).reported = s.reported := by
  unfold modify
  split <;> simp

/-- The state after an addition that was possible. -/
structure Added (c : Call) (t : ESt) (id : Nat) (r : Option Nat × ESt) : Prop where
  errors : r.2.errors = if c.failure then t.errors else t.errors ++ [id]
  failures : r.2.failures = if c.failure then t.failures ++ [id] else t.failures
  hooks : r.2.hooks = if c.triggers then t.hooks ++ [id] else t.hooks
  result : r.1 = if c.triggers && c.hookRaises then none else some id
  reported : r.2.reported = if c.triggers && c.hookRaises then t.reported else t.reported ++ [id]
  cache : r.2.cache = t.cache
  fatals : r.2.fatals = t.fatals
  added : r.2.added = t.added
  heap : ∀ i, r.2.heap[i]? = if i = id then (t.heap[i]?).map (fun o => { o with failure := o.failure || c.failure, held := o.held && (c.triggers && c.hookRaises) }) else t.heap[i]?
  length : r.2.heap.length = t.heap.length

theorem add_eq (env : ExcEnv) (c : Call) (s : ESt) : (resolve env c s = none ∧ add env c s = (none, s)) ∨
    ∃ id t, resolve env c s = some (id, t) ∧ Added c t id (add env c s) := by
  unfold add
  cases hr : resolve env c s with
  | none => exact Or.inl ⟨rfl, rfl⟩
  | some x =>
    obtain ⟨id, t⟩ := x
    refine Or.inr ⟨id, t, rfl, ?_⟩
    obtain ⟨f, arg, info, cur, tr, hk⟩ := c
    cases f <;> cases tr <;> cases hk <;>
      simp only [Bool.false_eq_true, if_false, if_true, Bool.and_true, Bool.and_false, Bool.true_and, Bool.false_and] <;>
      constructor <;>
      (try intro i) <;>
      simp only [modify_heap, (modify_rest _ _ _).1, (modify_rest _ _ _).2.1, (modify_rest _ _ _).2.2.1, (modify_rest _ _ _).2.2.2.1, (modify_rest _ _ _).2.2.2.2.1,
        (modify_rest _ _ _).2.2.2.2.2.1, (modify_rest _ _ _).2.2.2.2.2.2.1, (modify_rest _ _ _).2.2.2.2.2.2.2,
        Bool.false_eq_true, if_false, if_true, Bool.and_true, Bool.and_false, Bool.true_and, Bool.false_and, Bool.or_true, Bool.or_false] <;>
      (try split) <;> (try (cases t.heap[i]? <;> rfl)) <;> rfl

theorem Inv.add {env : ExcEnv} {s : ESt} (h : Inv env s) (c : Call) : Inv env (add env c s).2 := by
  rcases add_eq env c s with ⟨-, e⟩ | ⟨id, t, hr, ha⟩
  · rw [e]; exact h
  · have R := resolve_spec h c id t hr
    have It := R.inv
    refine ⟨?_, ?_, ?_, ?_, ?_⟩
    · rw [ha.errors, ha.length]
      intro x hx
      split at hx
      · exact It.errors x hx
      · rcases List.mem_append.1 hx with g | g
        · exact It.errors x g
        · simp only [List.mem_singleton] at g; subst g; exact R.lt
    · rw [ha.failures, ha.length]
      intro x hx
      split at hx
      · rcases List.mem_append.1 hx with g | g
        · exact It.failures x g
        · simp only [List.mem_singleton] at g; subst g; exact R.lt
      · exact It.failures x hx
    · intro i o ho
      rw [ha.heap] at ho
      rw [ha.failures]
      by_cases hi : i = id
      · subst hi
        rw [if_pos rfl] at ho
        cases hto : t.heap[i]? with
        | none => rw [hto] at ho; cases ho
        | some o' =>
          rw [hto] at ho
          simp only [Option.map_some, Option.some.injEq] at ho
          subst ho
          have := It.failure i o' hto
          simp only [Bool.or_eq_true]
          cases hf : c.failure with
          | true => simp
          | false => simpa using this
      · rw [if_neg hi] at ho
        have := It.failure i o ho
        cases hf : c.failure with
        | true => simp [hi, this]
        | false => simpa using this
    · intro e i hi
      rw [ha.cache] at hi
      obtain ⟨o, ho, hoe⟩ := It.cache e i hi
      by_cases g : i = id
      · have := ha.heap i; rw [if_pos g, ho, Option.map_some] at this; exact ⟨_, this, hoe⟩
      · exact ⟨o, by rw [ha.heap, if_neg g, ho], hoe⟩
    · intro i o ho hh
      rw [ha.heap] at ho
      split at ho
      · cases hto : t.heap[i]? with
        | none => rw [hto] at ho; cases ho
        | some o' =>
          rw [hto] at ho
          simp only [Option.map_some, Option.some.injEq] at ho
          subst ho
          simp only [Bool.and_eq_true] at hh
          exact It.held i o' hto hh.1
      · exact It.held i o ho hh

theorem Inv.exception {env : ExcEnv} {s : ESt} (h : Inv env s) (e : Nat) (cur : Option Nat) (hk : Bool) : Inv env (addException env e cur hk s) := by
  unfold addException
  split
  · exact h
  · have h' : Inv env { s with added := e :: s.added } := ⟨h.errors, h.failures, h.failure, h.cache, h.held⟩
    simp only
    split <;> exact h'.add _

theorem Inv.op {env : ExcEnv} {s : ESt} (h : Inv env s) (op : EOp) : Inv env (op.run env s) := by
  cases op with
  | add c => exact h.add c
  | exception e cur hk => exact h.exception e cur hk
  | markExc e => exact ⟨h.errors, h.failures, h.failure, h.cache, h.held⟩
  | create exc => exact h.alloc exc s.cache (fun _ _ g => Or.inl g)
  | markErr id =>
    obtain ⟨m1, m2, m3, m4, m5, m6, m7, m8⟩ := modify_rest id (fun o => { o with fatal := true }) s
    refine ⟨?_, ?_, ?_, ?_, ?_⟩
    · intro x hx; rw [EOp.run, m1]; rw [EOp.run, m5] at hx; exact h.errors x hx
    · intro x hx; rw [EOp.run, m1]; rw [EOp.run, m6] at hx; exact h.failures x hx
    · intro i o ho
      rw [EOp.run, modify_heap] at ho
      rw [EOp.run, m6]
      split at ho
      · cases hs : s.heap[i]? with
        | none => rw [hs] at ho; cases ho
        | some o' =>
          rw [hs] at ho
          simp only [Option.map_some, Option.some.injEq] at ho
          subst ho
          exact h.failure i o' hs
      · exact h.failure i o ho
    · intro e i hi
      rw [EOp.run, m2] at hi
      obtain ⟨o, ho, hoe⟩ := h.cache e i hi
      by_cases g : i = id
      · have := modify_heap id (fun o => { o with fatal := true }) s i; rw [if_pos g, ho, Option.map_some] at this; exact ⟨_, this, hoe⟩
      · exact ⟨o, by rw [EOp.run, modify_heap, if_neg g, ho], hoe⟩
    · intro i o ho hh
      rw [EOp.run, modify_heap] at ho
      split at ho
      · cases hs : s.heap[i]? with
        | none => rw [hs] at ho; cases ho
        | some o' =>
          rw [hs] at ho
          simp only [Option.map_some, Option.some.injEq] at ho
          subst ho
          exact h.held i o' hs hh
      · exact h.held i o ho hh

theorem Inv.run {env : ExcEnv} (ops : List EOp) : ∀ {s : ESt}, Inv env s → Inv env (runE env ops s) := by
  induction ops with
  | nil => intro s h; exact h
  | cons op ops ih => intro s h; exact ih (h.op op)

/-- `add_error` and `add_failure` add exactly one error to their list, trigger `error_added` for it once and report it once (unless the hook raises), and return it. It is
the given object; or a new one for a given message; or one for the exception that is given or else active. Without any of these nothing is changed. -/
theorem C135_call (env : ExcEnv) (ops : List EOp) (c : Call) :
    let s := runE env ops {}
    let r := add env c s
    (c.arg = .none → c.info = none → c.current = none → r = (none, s)) ∧
    ((c.arg = .none ∧ (c.info.or c.current).isSome) ∨ (∃ i, c.arg = .obj i ∧ i < s.heap.length) ∨ c.arg = .value →
      ∃ id o, r.2.heap[id]? = some o ∧
        r.2.errors = (if c.failure then s.errors else s.errors ++ [id]) ∧ r.2.failures = (if c.failure then s.failures ++ [id] else s.failures) ∧
        r.2.hooks = (if c.triggers then s.hooks ++ [id] else s.hooks) ∧
        r.1 = (if c.triggers && c.hookRaises then none else some id) ∧ r.2.reported = (if c.triggers && c.hookRaises then s.reported else s.reported ++ [id]) ∧
        (c.failure = true → o.failure = true) ∧
        (c.arg = .none → o.exc = c.info.or c.current) ∧ (∀ i, c.arg = .obj i → id = i) ∧ (c.arg = .value → id = s.heap.length ∧ o.exc = c.info)) := by
  intro s r
  have h : Inv env s := (Inv.init env).run ops
  constructor
  · intro h1 h2 h3
    rcases add_eq env c s with ⟨-, e⟩ | ⟨id, t, hr, -⟩
    · exact e
    · rw [resolve, h1, h2, h3] at hr; cases hr
  · intro hc
    rcases add_eq env c s with ⟨hr, -⟩ | ⟨id, t, hr, ha⟩
    · rw [resolve] at hr
      rcases hc with ⟨h1, h2⟩ | ⟨i, h1, h2⟩ | h1
      · rw [h1] at hr
        simp only at hr
        cases he : c.info.or c.current with
        | none => rw [he] at h2; cases h2
        | some e => rw [he] at hr; cases hr
      · rw [h1] at hr; simp only [h2, if_true] at hr; cases hr
      · rw [h1] at hr; cases hr
    · have R := resolve_spec h c id t hr
      have hlt := R.lt
      have hto : t.heap[id]? = some t.heap[id] := List.getElem?_eq_getElem hlt
      have hobj : r.2.heap[id]? = some { t.heap[id] with failure := t.heap[id].failure || c.failure, held := t.heap[id].held && (c.triggers && c.hookRaises) } := by
        rw [ha.heap, if_pos rfl, hto]; rfl
      refine ⟨id, _, hobj, ?_, ?_, ?_, ha.result, ?_, ?_, ?_, ?_, ?_⟩
      · rw [ha.errors, R.errors]
      · rw [ha.failures, R.failures]
      · rw [ha.hooks, R.hooks]
      · rw [ha.reported, R.reported]
      · intro hf; simp [hf]
      · intro g
        have := R.object
        rw [g] at this
        obtain ⟨e, o, h1, h2, h3⟩ := this
        rw [hto] at h2
        cases h2
        rw [h1]; exact h3
      · intro i g
        have := R.object
        rw [g] at this
        exact this
      · intro g
        have := R.object
        rw [g] at this
        obtain ⟨h1, h2⟩ := this
        rw [hto] at h2
        simp only [Option.some.injEq] at h2
        refine ⟨h1, ?_⟩
        simp only [h2, mkErr]

/-- Every error in the list of failures is a failure; one in the list of errors is one exactly if its exception is of a failure type or it has been added
as a failure too. -/
theorem C135_failures_partial (env : ExcEnv) (ops : List EOp) :
    let s := runE env ops {}
    (∀ id ∈ s.failures, ∃ o, s.heap[id]? = some o ∧ o.failure = true) ∧
    (∀ id ∈ s.errors, ∃ o, s.heap[id]? = some o ∧ (o.failure = true ↔ (∃ e, o.exc = some e ∧ env.failureType e = true) ∨ id ∈ s.failures)) := by
  intro s
  have h : Inv env s := (Inv.init env).run ops
  constructor
  · intro id hid
    have hlt := h.failures id hid
    exact ⟨_, List.getElem?_eq_getElem hlt, (h.failure id _ (List.getElem?_eq_getElem hlt)).2 (Or.inr hid)⟩
  · intro id hid
    have hlt := h.errors id hid
    refine ⟨_, List.getElem?_eq_getElem hlt, (h.failure id _ (List.getElem?_eq_getElem hlt)).trans ?_⟩
    rw [Option.any_eq_true]

/-- An environment for examples: exceptions below 10 are failures, attributes can be set on all but 99. -/
abbrev exEnv : ExcEnv := { failureType := fun e => decide (e < 10), settable := fun e => e != 99 }

/-- The full claim, errors are no failures, is false: adding the active exception as a failure turns the error that was recorded for it into a failure. -/
theorem C135_failures_violated : ∃ ops : List EOp, let s := runE exEnv ops {}
    s.errors = [0] ∧ s.failures = [0] ∧ s.heap.map (·.failure) = [true] ∧ (runE exEnv (ops.take 1) {}).heap.map (·.failure) = [false] :=
  ⟨[.add { current := some 20 }, .add { failure := true, current := some 20 }], by decide⟩

example : let s := runE exEnv [.exception 20 (some 20) false, .exception 3 (some 3) false, .exception 20 (some 20) false, .add { arg := .value }] {}
    s.errors = [0, 2] ∧ s.failures = [1] ∧ s.heap.map (·.failure) = [false, true, false] ∧ s.hooks = [0, 1, 2] := by decide

theorem cached_op (env : ExcEnv) (op : EOp) (s : ESt) (e id : Nat) (h : Inv env s) (hc : cached s e = some id) : cached (op.run env s) e = some id := by
  have hcall : ∀ (c : Call) (s : ESt), Inv env s → cached s e = some id → cached (add env c s).2 e = some id := by
    intro c s h hc
    rcases add_eq env c s with ⟨-, he⟩ | ⟨i, t, hr, ha⟩
    · rw [he]; exact hc
    · have : cached t e = some id := by
        unfold resolve at hr
        split at hr
        · split at hr
          · rename_i e' _
            simp only [Option.some.injEq] at hr
            rcases capture_spec h e' with ⟨h1, -⟩ | ⟨h1, h2⟩
            · rw [hr] at h1; simp only at h1; rw [h1]; exact hc
            · rw [hr] at h2
              simp only [Prod.mk.injEq] at h2
              rw [h2.2]
              unfold cached
              simp only
              have hne : (e' == e) = false := by
                cases hq : e' == e with
                | false => rfl
                | true =>
                  have : e' = e := by simpa using hq
                  subst this
                  rw [hc] at h1; cases h1
              split
              · rw [List.find?_cons_of_neg (by simp [hne])]; exact hc
              · exact hc
          · cases hr
        · split at hr
          · simp only [Option.some.injEq, Prod.mk.injEq] at hr; rw [← hr.2]; exact hc
          · cases hr
        · simp only [Option.some.injEq, Prod.mk.injEq] at hr; rw [← hr.2]; exact hc
      unfold cached at this ⊢
      rw [ha.cache]; exact this
  cases op with
  | add c => exact hcall c s h hc
  | exception e' cur hk =>
    simp only [EOp.run, addException]
    split
    · exact hc
    · have h' : Inv env { s with added := e' :: s.added } := ⟨h.errors, h.failures, h.failure, h.cache, h.held⟩
      split <;> exact hcall _ _ h' hc
  | markExc e' => exact hc
  | create exc => exact hc
  | markErr i => unfold cached at hc ⊢; rw [EOp.run, (modify_rest i _ s).2.1]; exact hc

theorem cached_run (env : ExcEnv) (ops : List EOp) (e id : Nat) : ∀ s, Inv env s → cached s e = some id → cached (runE env ops s) e = some id := by
  induction ops with
  | nil => intro s _ h; exact h
  | cons op ops ih => intro s h hc; exact ih _ (h.op op) (cached_op env op s e id h hc)

/-- Adding the same exception several times, whatever happens in between, gives the same error, if attributes can be set on the exception. -/
theorem C135_same_partial (env : ExcEnv) (ops ops' : List EOp) (e : Nat) (hs : env.settable e = true) (c c' : Call)
    (h1 : c.arg = .none) (h2 : c.info.or c.current = some e) (h1' : c'.arg = .none) (h2' : c'.info.or c'.current = some e) (id id' : Nat)
    (hr : (add env c (runE env ops {})).1 = some id) (hr' : (add env c' (runE env ops' (add env c (runE env ops {})).2)).1 = some id') : id' = id := by
  have hI : Inv env (runE env ops {}) := (Inv.init env).run ops
  have hI2 := hI.add c
  have get : ∀ (c : Call) (s : ESt), Inv env s → c.arg = .none → c.info.or c.current = some e → ∀ id, (add env c s).1 = some id →
      cached (add env c s).2 e = some id ∧ (∀ j, cached s e = some j → j = id) := by
    intro c s h a b id hr
    rcases add_eq env c s with ⟨-, he⟩ | ⟨i, t, hres, ha⟩
    · rw [he] at hr; cases hr
    · rw [ha.result] at hr
      split at hr
      · cases hr
      · simp only [Option.some.injEq] at hr
        subst hr
        rw [resolve, a] at hres
        simp only [b, Option.some.injEq] at hres
        have hcc : cached (add env c s).2 e = cached t e := by unfold cached; rw [ha.cache]
        rw [hcc]
        rcases capture_spec h e with ⟨g1, g2⟩ | ⟨g1, g2⟩
        · rw [hres] at g1 g2
          simp only at g1 g2
          rw [g1]
          exact ⟨g2, fun j hj => by rw [hj] at g2; exact Option.some.inj g2⟩
        · rw [hres] at g2
          simp only [Prod.mk.injEq, hs, if_true] at g2
          rw [g2.2, g2.1]
          refine ⟨by simp [cached], fun j hj => by rw [hj] at g1; cases g1⟩
  have g1 := (get c _ hI h1 h2 id hr).1
  have g2 := cached_run env ops' e id _ hI2 g1
  exact ((get c' _ (hI2.run ops') h1' h2' id' hr').2 id g2).symm

/-- Else there are two errors. -/
theorem C135_same_violated : (runE exEnv [.add { current := some 99 }, .add { current := some 99 }] {}).errors = [0, 1] := by decide

/-- If an exception is marked as fatal before an error is made from it, all its errors are fatal. -/
theorem C135_fatal_partial (env : ExcEnv) (e : Nat) (ops : List EOp) : ∀ (s : ESt), Inv env s → e ∈ s.fatals → (∀ (i : Nat) (o : ErrObj), s.heap[i]? = some o → o.exc = some e → o.fatal = true) →
    ∀ (i : Nat) (o : ErrObj), (runE env ops s).heap[i]? = some o → o.exc = some e → o.fatal = true := by
  have hmk : ∀ (s : ESt) (exc : Option Nat), e ∈ s.fatals → (mkErr env s exc).exc = some e → (mkErr env s exc).fatal = true := by
    intro s exc hf he
    simp only [mkErr] at he ⊢
    rw [he]
    simpa using hf
  have hcall : ∀ (c : Call) (s : ESt), Inv env s → e ∈ s.fatals → (∀ (i : Nat) (o : ErrObj), s.heap[i]? = some o → o.exc = some e → o.fatal = true) →
      e ∈ (add env c s).2.fatals ∧ ∀ (i : Nat) (o : ErrObj), (add env c s).2.heap[i]? = some o → o.exc = some e → o.fatal = true := by
    intro c s h hf hall
    rcases add_eq env c s with ⟨-, he⟩ | ⟨id, t, hr, ha⟩
    · rw [he]; exact ⟨hf, hall⟩
    · have R := resolve_spec h c id t hr
      refine ⟨by rw [ha.fatals, R.fatals]; exact hf, ?_⟩
      have ht : ∀ (i : Nat) (o : ErrObj), t.heap[i]? = some o → o.exc = some e → o.fatal = true := by
        intro i o ho hoe
        rcases Nat.lt_or_ge i s.heap.length with g | g
        · rw [R.old i g] at ho; exact hall i o ho hoe
        · obtain ⟨exc, rfl⟩ := R.new i o g ho
          exact hmk s exc hf hoe
      intro i o ho hoe
      rw [ha.heap] at ho
      split at ho
      · cases hto : t.heap[i]? with
        | none => rw [hto] at ho; cases ho
        | some o' =>
          rw [hto] at ho
          simp only [Option.map_some, Option.some.injEq] at ho
          subst ho
          exact ht i o' hto hoe
      · exact ht i o ho hoe
  induction ops with
  | nil => intro s _ _ h; exact h
  | cons op ops ih =>
    intro s h hf hall
    refine ih (op.run env s) (h.op op) ?_ ?_
    · cases op with
      | add c => exact (hcall c s h hf hall).1
      | exception e' cur hk =>
        simp only [EOp.run, addException]
        have h' : Inv env { s with added := e' :: s.added } := ⟨h.errors, h.failures, h.failure, h.cache, h.held⟩
        split
        · exact hf
        · split <;> exact (hcall _ _ h' hf hall).1
      | markExc e' => exact List.mem_cons_of_mem _ hf
      | create exc => exact hf
      | markErr i => rw [EOp.run, (modify_rest i _ s).2.2.1]; exact hf
    · cases op with
      | add c => exact (hcall c s h hf hall).2
      | exception e' cur hk =>
        simp only [EOp.run, addException]
        have h' : Inv env { s with added := e' :: s.added } := ⟨h.errors, h.failures, h.failure, h.cache, h.held⟩
        split
        · exact hall
        · split <;> exact (hcall _ _ h' hf hall).2
      | markExc e' => exact hall
      | create exc =>
        intro i o ho hoe
        rcases Nat.lt_or_ge i s.heap.length with g | g
        · exact hall i o (by rw [EOp.run, List.getElem?_append_left g] at ho; exact ho) hoe
        · have := getElem?_alloc _ _ _ _ g ho
          subst this
          exact hmk s exc hf hoe
      | markErr j =>
        intro i o ho hoe
        rw [EOp.run, modify_heap] at ho
        split at ho
        · cases hs : s.heap[i]? with
          | none => rw [hs] at ho; cases ho
          | some o' =>
            rw [hs] at ho
            simp only [Option.map_some, Option.some.injEq] at ho
            subst ho
            rfl
        · exact hall i o ho hoe

/-- Marking an exception as fatal after an error was made from it has no effect. -/
theorem C135_fatal_violated : let s := runE exEnv [.add { current := some 20 }, .markExc 20, .add { current := some 20 }] {}
    s.fatals = [20] ∧ s.errors = [0, 0] ∧ s.heap.map (·.fatal) = [false] := by decide

example : let s := runE exEnv [.markExc 20, .add { current := some 20 }, .add { arg := .value }, .markErr 1] {}
    s.heap.map (·.fatal) = [true, true] := by decide

/-- An error is fatal only if it was marked as fatal itself, or the exception it was made from was: errors added by messages never are unless they are marked. -/
theorem C135_fatal_only (env : ExcEnv) (ops : List EOp) (i : Nat) (o : ErrObj) (ho : (runE env ops {}).heap[i]? = some o) (hfat : o.fatal = true) :
    EOp.markErr i ∈ ops ∨ ∃ e, o.exc = some e ∧ EOp.markExc e ∈ ops := by
  have key : ∀ (F : Nat → Prop) (M : Nat → Prop) (ops : List EOp), (∀ e, EOp.markExc e ∈ ops → F e) → (∀ i, EOp.markErr i ∈ ops → M i) → ∀ s : ESt, Inv env s →
      (∀ e ∈ s.fatals, F e) → (∀ (i : Nat) (o : ErrObj), s.heap[i]? = some o → o.fatal = true → M i ∨ ∃ e, o.exc = some e ∧ F e) →
      ∀ (i : Nat) (o : ErrObj), (runE env ops s).heap[i]? = some o → o.fatal = true → M i ∨ ∃ e, o.exc = some e ∧ F e := by
    intro F M ops
    have hmk : ∀ (s : ESt) (exc : Option Nat), (∀ e ∈ s.fatals, F e) → (mkErr env s exc).fatal = true → ∃ e, (mkErr env s exc).exc = some e ∧ F e := by
      intro s exc hf he
      cases exc with
      | none => simp [mkErr] at he
      | some e => exact ⟨e, rfl, hf e (by simpa [mkErr] using he)⟩
    have hcall : ∀ (c : Call) (s : ESt), Inv env s → (∀ e ∈ s.fatals, F e) →
        (∀ (i : Nat) (o : ErrObj), s.heap[i]? = some o → o.fatal = true → M i ∨ ∃ e, o.exc = some e ∧ F e) →
        (∀ e ∈ (add env c s).2.fatals, F e) ∧
          ∀ (i : Nat) (o : ErrObj), (add env c s).2.heap[i]? = some o → o.fatal = true → M i ∨ ∃ e, o.exc = some e ∧ F e := by
      intro c s h hf hall
      rcases add_eq env c s with ⟨-, he⟩ | ⟨id, t, hr, ha⟩
      · rw [he]; exact ⟨hf, hall⟩
      · have R := resolve_spec h c id t hr
        refine ⟨by rw [ha.fatals, R.fatals]; exact hf, ?_⟩
        have ht : ∀ (i : Nat) (o : ErrObj), t.heap[i]? = some o → o.fatal = true → M i ∨ ∃ e, o.exc = some e ∧ F e := by
          intro i o ho hoe
          rcases Nat.lt_or_ge i s.heap.length with g | g
          · rw [R.old i g] at ho; exact hall i o ho hoe
          · obtain ⟨exc, rfl⟩ := R.new i o g ho
            exact Or.inr (hmk s exc hf hoe)
        intro i o ho hoe
        rw [ha.heap] at ho
        split at ho
        · cases hto : t.heap[i]? with
          | none => rw [hto] at ho; cases ho
          | some o' =>
            rw [hto] at ho
            simp only [Option.map_some, Option.some.injEq] at ho
            subst ho
            exact ht i o' hto hoe
        · exact ht i o ho hoe
    induction ops with
    | nil => intro _ _ s _ _ h; exact h
    | cons op ops ih =>
      intro hF hM s h hf hall
      refine ih (fun e he => hF e (List.mem_cons_of_mem _ he)) (fun j hj => hM j (List.mem_cons_of_mem _ hj)) (op.run env s) (h.op op) ?_ ?_
      · cases op with
        | add c => exact (hcall c s h hf hall).1
        | exception e' cur hk =>
          simp only [EOp.run, addException]
          have h' : Inv env { s with added := e' :: s.added } := ⟨h.errors, h.failures, h.failure, h.cache, h.held⟩
          split
          · exact hf
          · split <;> exact (hcall _ _ h' hf hall).1
        | markExc e' =>
          intro e he
          rcases List.mem_cons.1 he with rfl | he
          · exact hF _ (List.mem_cons_self ..)
          · exact hf e he
        | create exc => exact hf
        | markErr i => rw [EOp.run, (modify_rest i _ s).2.2.1]; exact hf
      · cases op with
        | add c => exact (hcall c s h hf hall).2
        | exception e' cur hk =>
          simp only [EOp.run, addException]
          have h' : Inv env { s with added := e' :: s.added } := ⟨h.errors, h.failures, h.failure, h.cache, h.held⟩
          split
          · exact hall
          · split <;> exact (hcall _ _ h' hf hall).2
        | markExc e' => exact hall
        | create exc =>
          intro i o ho hoe
          rcases Nat.lt_or_ge i s.heap.length with g | g
          · exact hall i o (by rw [EOp.run, List.getElem?_append_left g] at ho; exact ho) hoe
          · have := getElem?_alloc _ _ _ _ g ho
            subst this
            exact Or.inr (hmk s exc hf hoe)
        | markErr j =>
          intro i o ho hoe
          rw [EOp.run, modify_heap] at ho
          split at ho
          · rename_i hij
            subst hij
            exact Or.inl (hM _ (List.mem_cons_self ..))
          · exact hall i o ho hoe
  exact key (fun e => EOp.markExc e ∈ ops) (fun i => EOp.markErr i ∈ ops) ops (fun _ h => h) (fun _ h => h) {} (Inv.init env) (by simp) (by simp) i o ho hfat

example : (runE exEnv [.markExc 20, .add { arg := .value }, .add { current := some 21 }] {}).heap.map (·.fatal) = [false, false] := by decide

/-- Whether a hook raises. -/
def EOp.hookRaises : EOp → Bool
  | .add c => c.triggers && c.hookRaises
  | .exception _ _ h => h
  | _ => false

/-- As long as no callback of `error_added` raises, no error in a result holds its exception. -/
theorem C135_released_partial (env : ExcEnv) (ops : List EOp) (hk : ∀ op ∈ ops, op.hookRaises = false) :
    let s := runE env ops {}
    ∀ id, id ∈ s.errors ∨ id ∈ s.failures → ∀ o, s.heap[id]? = some o → o.held = false := by
  have hcall : ∀ (c : Call) (s : ESt), Inv env s → (c.triggers && c.hookRaises) = false → (∀ id, id ∈ s.errors ∨ id ∈ s.failures → ∀ o, s.heap[id]? = some o → o.held = false) →
      ∀ id, id ∈ (add env c s).2.errors ∨ id ∈ (add env c s).2.failures → ∀ o, (add env c s).2.heap[id]? = some o → o.held = false := by
    intro c s h hno hall
    rcases add_eq env c s with ⟨-, he⟩ | ⟨id, t, hr, ha⟩
    · rw [he]; exact hall
    · have R := resolve_spec h c id t hr
      intro i hi o ho
      rw [ha.heap] at ho
      by_cases g : i = id
      · rw [if_pos g] at ho
        cases hto : t.heap[i]? with
        | none => rw [hto] at ho; cases ho
        | some o' =>
          rw [hto] at ho
          simp only [Option.map_some, Option.some.injEq] at ho
          subst ho
          simp [hno]
      · rw [if_neg g] at ho
        have hmem : i ∈ s.errors ∨ i ∈ s.failures := by
          rw [ha.errors, ha.failures, R.errors, R.failures] at hi
          split at hi
          · simpa [g] using hi
          · simpa [g] using hi
        have hlt : i < s.heap.length := hmem.elim (h.errors i) (h.failures i)
        rw [R.old i hlt] at ho
        exact hall i hmem o ho
  have key : ∀ (ops : List EOp), (∀ op ∈ ops, op.hookRaises = false) → ∀ (s : ESt), Inv env s → (∀ id, id ∈ s.errors ∨ id ∈ s.failures → ∀ o, s.heap[id]? = some o → o.held = false) →
      ∀ id, id ∈ (runE env ops s).errors ∨ id ∈ (runE env ops s).failures → ∀ o, (runE env ops s).heap[id]? = some o → o.held = false := by
    intro ops
    induction ops with
    | nil => intro _ s _ h; exact h
    | cons op ops ih =>
      intro hk s h hall
      refine ih (fun x hx => hk x (by simp [hx])) (op.run env s) (h.op op) ?_
      have hop := hk op (by simp)
      cases op with
      | add c => exact hcall c s h hop hall
      | exception e' cur hk =>
        simp only [EOp.hookRaises] at hop
        subst hop
        simp only [EOp.run, addException]
        have h' : Inv env { s with added := e' :: s.added } := ⟨h.errors, h.failures, h.failure, h.cache, h.held⟩
        split
        · exact hall
        · split <;> exact hcall _ _ h' rfl hall
      | markExc e' => exact hall
      | create exc =>
        intro i hi o ho
        have hlt : i < s.heap.length := hi.elim (h.errors i) (h.failures i)
        exact hall i hi o (by rw [EOp.run, List.getElem?_append_left hlt] at ho; exact ho)
      | markErr j =>
        intro i hi o ho
        obtain ⟨-, -, -, -, m5, m6, -, -⟩ := modify_rest j (fun o => { o with fatal := true }) s
        rw [EOp.run, m5, m6] at hi
        rw [EOp.run, modify_heap] at ho
        split at ho
        · cases hs : s.heap[i]? with
          | none => rw [hs] at ho; cases ho
          | some o' =>
            rw [hs] at ho
            simp only [Option.map_some, Option.some.injEq] at ho
            subst ho
            exact hall i hi o' hs
        · exact hall i hi o ho
  exact key ops hk {} (Inv.init env) (by simp)

/-- An error holds nothing if it was not made from an exception. -/
theorem C135_held (env : ExcEnv) (ops : List EOp) (id : Nat) (o : ErrObj) (ho : (runE env ops {}).heap[id]? = some o) (hh : o.held = true) : ∃ e, o.exc = some e :=
  Option.isSome_iff_exists.1 (((Inv.init env).run ops).held id o ho hh)

/-- Else it is kept. -/
theorem C135_released_violated : (runE exEnv [.add { current := some 20, hookRaises := true }] {}).heap.map (·.held) = [true] ∧
    (runE exEnv [.add { current := some 20, hookRaises := true }] {}).errors = [0] := by decide

/-- `add_exception` records the exception, as a failure exactly if it is of such a type, once however often it is called; provided that it is the active exception. -/
theorem C135_exception_partial (env : ExcEnv) (ops ops' : List EOp) (e : Nat) (cur : Option Nat) (hk hk' : Bool) (hn : e ∉ (runE env ops {}).added) :
    let s := runE env ops {}
    let t := addException env e (some e) hk s
    (∃ id o, t.heap[id]? = some o ∧ o.exc = some e ∧
      t.errors = (if env.failureType e then s.errors else s.errors ++ [id]) ∧ t.failures = (if env.failureType e then s.failures ++ [id] else s.failures)) ∧
    (e ∈ (runE env ops' t).added ∧ addException env e cur hk' (runE env ops' t) = runE env ops' t) := by
  intro s t
  have h : Inv env s := (Inv.init env).run ops
  have hn' : s.added.contains e = false := by simpa using hn
  have h' : Inv env { s with added := e :: s.added } := ⟨h.errors, h.failures, h.failure, h.cache, h.held⟩
  have hadd : ∀ (c : Call) (s : ESt), (add env c s).2.added = s.added := by
    intro c s
    rcases add_eq env c s with ⟨-, he⟩ | ⟨id, t, hr, ha⟩
    · rw [he]
    · rw [ha.added]
      unfold resolve at hr
      split at hr
      · split at hr
        · simp only [Option.some.injEq, capture] at hr
          split at hr
          · simp only [Prod.mk.injEq] at hr; rw [← hr.2]
          · simp only [Prod.mk.injEq] at hr; rw [← hr.2]
        · cases hr
      · split at hr
        · simp only [Option.some.injEq, Prod.mk.injEq] at hr; rw [← hr.2]
        · cases hr
      · simp only [Option.some.injEq, Prod.mk.injEq] at hr; rw [← hr.2]
  have htadd : e ∈ t.added := by
    simp only [t, addException, hn', Bool.false_eq_true, if_false]
    split <;> rw [hadd] <;> simp
  have hkeep : ∀ (ops : List EOp) (u : ESt), e ∈ u.added → e ∈ (runE env ops u).added := by
    intro ops
    induction ops with
    | nil => intro u hu; exact hu
    | cons op ops ih =>
      intro u hu
      refine ih _ ?_
      cases op with
      | add c => exact (by rw [hadd]; exact hu : e ∈ (Tr.add env c u).2.added)
      | exception e' cur hk =>
        simp only [EOp.run, addException]
        split
        · exact hu
        · split <;> rw [hadd] <;> exact List.mem_cons_of_mem _ hu
      | markExc e' => exact hu
      | create exc => exact hu
      | markErr i => exact (by rw [(modify_rest i _ u).2.2.2.1]; exact hu : e ∈ (modify i (fun o => { o with fatal := true }) u).added)
  refine ⟨?_, hkeep ops' t htadd, ?_⟩
  · have done : ∀ (c : Call), c.arg = .none → c.info.or c.current = some e →
        ∃ id o, (add env c { s with added := e :: s.added }).2.heap[id]? = some o ∧ o.exc = some e ∧
          (add env c { s with added := e :: s.added }).2.errors = (if c.failure then s.errors else s.errors ++ [id]) ∧
          (add env c { s with added := e :: s.added }).2.failures = (if c.failure then s.failures ++ [id] else s.failures) := by
      intro c h1 h2
      rcases add_eq env c { s with added := e :: s.added } with ⟨hr, -⟩ | ⟨id, u, hr, ha⟩
      · rw [resolve, h1] at hr
        simp only [h2] at hr
        cases hr
      · have R := resolve_spec h' c id u hr
        have := R.object
        rw [h1] at this
        obtain ⟨e', o, g1, g2, g3⟩ := this
        rw [h2] at g1
        cases g1
        have hh := ha.heap id
        rw [if_pos rfl, g2, Option.map_some] at hh
        exact ⟨id, _, hh, g3, by rw [ha.errors, R.errors], by rw [ha.failures, R.failures]⟩
    simp only [t, addException, hn', Bool.false_eq_true, if_false]
    cases hf : env.failureType e with
    | true => simpa using done { failure := true, current := some e, hookRaises := hk } rfl rfl
    | false => simpa using done { info := some e, current := some e, hookRaises := hk } rfl rfl
  · have := hkeep ops' t htadd
    rw [addException, if_pos (by simpa using this)]

/-- The full claim is false: a failure that is given but not active is lost, also when it is added again, and another one that happens to be active is recorded in its place. -/
theorem C135_exception_violated :
    (let s := runE exEnv [.exception 3 none false, .exception 3 (some 3) false] {}; s.errors = [] ∧ s.failures = [] ∧ s.added = [3]) ∧
    (let s := runE exEnv [.exception 3 (some 20) false] {}; s.failures = [0] ∧ s.heap.map (·.exc) = [some 20]) := by decide

/-! ## C136: results of workers -/

theorem mem_serialize (pickle : Key → PEnd) (l ks : List Key) (h : serialize pickle l = some ks) (k : Key) : k ∈ ks ↔ k ∈ l ∧ pickle k = .ok := by
  induction l generalizing ks with
  | nil => simp only [serialize, Option.some.injEq] at h; subst h; simp
  | cons a l ih =>
    unfold serialize at h
    cases hp : pickle a with
    | ok =>
      rw [hp] at h
      simp only at h
      cases hs : serialize pickle l with
      | none => rw [hs] at h; cases h
      | some ks' =>
        rw [hs] at h
        simp only [Option.map_some, Option.some.injEq] at h
        subst h
        simp only [List.mem_cons, ih ks' hs]
        constructor
        · rintro (rfl | ⟨h1, h2⟩)
          · exact ⟨Or.inl rfl, hp⟩
          · exact ⟨Or.inr h1, h2⟩
        · rintro ⟨rfl | h1, h2⟩
          · exact Or.inl rfl
          · exact Or.inr ⟨h1, h2⟩
    | caught =>
      rw [hp] at h
      simp only at h
      rw [ih ks h]
      constructor
      · rintro ⟨h1, h2⟩; exact ⟨List.mem_cons_of_mem _ h1, h2⟩
      · rintro ⟨h1, h2⟩
        rcases List.mem_cons.1 h1 with rfl | h1
        · rw [hp] at h2; cases h2
        · exact ⟨h1, h2⟩
    | raised => rw [hp] at h; cases h

theorem assignAll_field {α : Type} (f : Res → α) (k0 : Key) (hset : ∀ w r, f (assign k0 w r) = f w) (hother : ∀ k w r, k ≠ k0 → f (assign k w r) = f r)
    (unpickle : Key → PEnd) (w : Res) (ks : List Key) (r : Res) (h : (assignAll unpickle w ks r).2 = false) :
    f (assignAll unpickle w ks r).1 = if k0 ∈ ks ∧ unpickle k0 = .ok then f w else f r := by
  have keep : ∀ ks r, (assignAll unpickle w ks r).2 = false → f r = f w → f (assignAll unpickle w ks r).1 = f w := by
    intro ks
    induction ks with
    | nil => intro r _ hr; exact hr
    | cons k ks ih =>
      intro r h hr
      unfold assignAll at h ⊢
      cases hu : unpickle k with
      | ok =>
        rw [hu] at h
        simp only at h ⊢
        refine ih _ h ?_
        by_cases hk : k = k0
        · subst hk; exact hset w r
        · rw [hother k w r hk]; exact hr
      | caught => rw [hu] at h; exact ih _ h hr
      | raised => rw [hu] at h; cases h
  induction ks generalizing r with
  | nil => simp [assignAll]
  | cons k ks ih =>
    unfold assignAll at h ⊢
    by_cases hk : k = k0
    · subst hk
      cases hu : unpickle k with
      | ok =>
        rw [hu] at h
        simp only at h ⊢
        rw [keep _ _ h (hset w r), if_pos ⟨by simp, trivial⟩]
      | caught =>
        rw [hu] at h
        simp only at h ⊢
        rw [ih _ h, hu]
        simp
      | raised => rw [hu] at h; cases h
    · have hmem : (k0 ∈ k :: ks ∧ unpickle k0 = .ok) ↔ (k0 ∈ ks ∧ unpickle k0 = .ok) := by
        simp [Ne.symm hk]
      cases hu : unpickle k with
      | ok =>
        rw [hu] at h
        simp only at h ⊢
        rw [ih _ h, hother k w r hk]
        simp only [hmem]
      | caught =>
        rw [hu] at h
        simp only at h ⊢
        rw [ih _ h]
        simp only [hmem]
      | raised => rw [hu] at h; cases h

/-- Each attribute of the parent's result is the worker's if it can be pickled and unpickled, else as before; identity and facts are never sent. Everything in the
lists of the parent's result is reported once: failures, errors, skips. -/
theorem C136_attributes (pickle unpickle : Key → PEnd) (w r : Res) (h : (send pickle unpickle w r).2.2 = false) :
    let t := (send pickle unpickle w r).1
    let sent := fun k => pickle k = .ok ∧ unpickle k = .ok
    t.metadata = r.metadata ∧ t.facts = r.facts ∧
    (t.errors = w.errors ∧ sent .errors ∨ t.errors = r.errors ∧ ¬ sent .errors) ∧ (t.failures = w.failures ∧ sent .failures ∨ t.failures = r.failures ∧ ¬ sent .failures) ∧
    (t.skips = w.skips ∧ sent .skips ∨ t.skips = r.skips ∧ ¬ sent .skips) ∧ (t.started = w.started ∧ sent .started ∨ t.started = r.started ∧ ¬ sent .started) ∧
    (t.finished = w.finished ∧ sent .finished ∨ t.finished = r.finished ∧ ¬ sent .finished) ∧
    (t.interrupted = w.interrupted ∧ sent .interrupted ∨ t.interrupted = r.interrupted ∧ ¬ sent .interrupted) ∧
    (t.data = w.data ∧ sent .data ∨ t.data = r.data ∧ ¬ sent .data) ∧ (t.details = w.details ∧ sent .details ∨ t.details = r.details ∧ ¬ sent .details) ∧
    (t.startTime = w.startTime ∧ sent .startTime ∨ t.startTime = r.startTime ∧ ¬ sent .startTime) ∧ (t.endTime = w.endTime ∧ sent .endTime ∨ t.endTime = r.endTime ∧ ¬ sent .endTime) ∧
    (t.logPath = w.logPath ∧ sent .logPath ∨ t.logPath = r.logPath ∧ ¬ sent .logPath) ∧ (t.extraLogs = w.extraLogs ∧ sent .extraLogs ∨ t.extraLogs = r.extraLogs ∧ ¬ sent .extraLogs) ∧
    (send pickle unpickle w r).2.1 = t.failures.map .failure ++ t.errors.map .error ++ t.skips.map .skip := by
  intro t sent
  have hsend : ∃ ks, serialize pickle w.keys = some ks ∧ (assignAll unpickle w ks r).2 = false ∧ t = (assignAll unpickle w ks r).1 ∧
      (send pickle unpickle w r).2.1 = t.failures.map .failure ++ t.errors.map .error ++ t.skips.map .skip := by
    unfold send at h
    simp only [t]
    unfold send
    cases hs : serialize pickle w.keys with
    | none => rw [hs] at h; cases h
    | some ks =>
      rw [hs] at h
      simp only at h ⊢
      cases ha : assignAll unpickle w ks r with
      | mk r' b =>
        rw [ha] at h
        cases b with
        | true => cases h
        | false => exact ⟨ks, rfl, by rw [ha], by rw [ha], rfl⟩
  obtain ⟨ks, hs, hb, ht, hrep⟩ := hsend
  have field : ∀ {α : Type} (f : Res → α) (k0 : Key), k0 ∈ w.keys → (∀ w r, f (assign k0 w r) = f w) → (∀ k w r, k ≠ k0 → f (assign k w r) = f r) →
      (f t = f w ∧ sent k0) ∨ (f t = f r ∧ ¬ sent k0) := by
    intro α f k0 hk h1 h2
    have := assignAll_field f k0 h1 h2 unpickle w ks r hb
    rw [← ht] at this
    have hm : (k0 ∈ ks ∧ unpickle k0 = .ok) ↔ sent k0 := by
      rw [mem_serialize pickle _ _ hs]
      constructor
      · rintro ⟨⟨-, a⟩, b⟩; exact ⟨a, b⟩
      · rintro ⟨a, b⟩; exact ⟨⟨hk, a⟩, b⟩
    by_cases g : sent k0
    · rw [if_pos (hm.2 g)] at this; exact Or.inl ⟨this, g⟩
    · rw [if_neg (fun x => g (hm.1 x))] at this; exact Or.inr ⟨this, g⟩
  have const : ∀ {α : Type} (f : Res → α), (∀ k w r, f (assign k w r) = f r) → f t = f r := by
    intro α f hf
    rw [ht]
    clear ht hs hrep field h t
    induction ks generalizing r with
    | nil => rfl
    | cons k ks ih =>
      unfold assignAll at hb ⊢
      cases hu : unpickle k with
      | ok => rw [hu] at hb; simp only at hb ⊢; exact (ih (assign k w r) hb).trans (hf k w r)
      | caught => rw [hu] at hb; exact ih r hb
      | raised => simp [hu] at hb
  have ck : ∀ k : Key, k ∈ [Key.data, .startTime, .endTime, .errors, .failures, .skips, .details, .started, .finished, .interrupted, .logPath, .extraLogs] → k ∈ w.keys := by
    intro k hk; exact List.mem_append_left _ hk
  refine ⟨const (·.metadata) ?_, const (·.facts) ?_, field (·.errors) .errors (ck _ (by simp)) (fun _ _ => rfl) ?_, field (·.failures) .failures (ck _ (by simp)) (fun _ _ => rfl) ?_,
    field (·.skips) .skips (ck _ (by simp)) (fun _ _ => rfl) ?_, field (·.started) .started (ck _ (by simp)) (fun _ _ => rfl) ?_,
    field (·.finished) .finished (ck _ (by simp)) (fun _ _ => rfl) ?_, field (·.interrupted) .interrupted (ck _ (by simp)) (fun _ _ => rfl) ?_,
    field (·.data) .data (ck _ (by simp)) (fun _ _ => rfl) ?_, field (·.details) .details (ck _ (by simp)) (fun _ _ => rfl) ?_,
    field (·.startTime) .startTime (ck _ (by simp)) (fun _ _ => rfl) ?_, field (·.endTime) .endTime (ck _ (by simp)) (fun _ _ => rfl) ?_,
    field (·.logPath) .logPath (ck _ (by simp)) (fun _ _ => rfl) ?_, field (·.extraLogs) .extraLogs (ck _ (by simp)) (fun _ _ => rfl) ?_, hrep⟩ <;>
    (intro k w r; first | (intro hk; cases k <;> first | rfl | exact absurd rfl hk) | (cases k <;> rfl))

/-- The same holds for the attributes users have set on a result. -/
theorem C136_extra (pickle unpickle : Key → PEnd) (w r : Res) (h : (send pickle unpickle w r).2.2 = false) (n : Nat) (hn : n ∈ w.extras.map (·.1)) :
    ((send pickle unpickle w r).1.extras.filter (fun x => x.1 == n) = w.extras.filter (fun x => x.1 == n) ∧ pickle (.extra n) = .ok ∧ unpickle (.extra n) = .ok) ∨
    ((send pickle unpickle w r).1.extras.filter (fun x => x.1 == n) = r.extras.filter (fun x => x.1 == n) ∧ ¬ (pickle (.extra n) = .ok ∧ unpickle (.extra n) = .ok)) := by
  cases hs : serialize pickle w.keys with
  | none => unfold send at h; rw [hs] at h; cases h
  | some ks =>
    have hb : (assignAll unpickle w ks r).2 = false ∧ (send pickle unpickle w r).1 = (assignAll unpickle w ks r).1 := by
      unfold send at h ⊢
      rw [hs] at h ⊢
      simp only at h ⊢
      cases ha : assignAll unpickle w ks r with
      | mk r' b =>
        rw [ha] at h
        cases b with
        | true => cases h
        | false => exact ⟨rfl, rfl⟩
    obtain ⟨hb, he⟩ := hb
    have := assignAll_field (fun r => r.extras.filter (fun x => x.1 == n)) (.extra n) ?_ ?_ unpickle w ks r hb
    · have hm : (.extra n ∈ ks ∧ unpickle (.extra n) = .ok) ↔ (pickle (.extra n) = .ok ∧ unpickle (.extra n) = .ok) := by
        rw [mem_serialize pickle _ _ hs]
        have hk : Key.extra n ∈ w.keys := by
          obtain ⟨x, hx, rfl⟩ := List.mem_map.1 hn
          exact List.mem_append_right _ (List.mem_map.2 ⟨x, hx, rfl⟩)
        simp [hk]
      rw [he]
      by_cases g : pickle (.extra n) = .ok ∧ unpickle (.extra n) = .ok
      · rw [if_pos (hm.2 g)] at this; exact Or.inl ⟨this, g⟩
      · rw [if_neg (fun x => g (hm.1 x))] at this; exact Or.inr ⟨this, g⟩
    · intro w r
      simp only [assign, List.filter_append, List.filter_filter]
      rw [List.filter_eq_nil_iff.2 (by intro x _; cases hx : x.1 == n <;> simp_all)]
      simp
    · intro k w r hk
      cases k with
      | extra m =>
        simp only [assign, List.filter_append, List.filter_filter]
        have hmn : m ≠ n := fun g => hk (by rw [g])
        have hnil : w.extras.filter (fun x => x.1 == n && x.1 == m) = [] := by
          refine List.filter_eq_nil_iff.2 fun x _ hx => ?_
          simp only [Bool.and_eq_true, beq_iff_eq] at hx
          exact hmn (hx.2.symm.trans hx.1)
        rw [hnil, List.append_nil]
        refine List.filter_congr fun x _ => ?_
        by_cases hx : x.1 = n
        · simp [hx, Ne.symm hmn]
        · simp [hx]
      | _ => rfl

/-- If everything can be pickled and unpickled, the parent's result says the same as the worker's about the outcome of the test. -/
theorem C136_outcome_partial (pickle unpickle : Key → PEnd) (w r : Res) (hp : ∀ k, pickle k = .ok) (hu : ∀ k, unpickle k = .ok) :
    (send pickle unpickle w r).2.2 = false ∧
    (∀ allow, (send pickle unpickle w r).1.isSuccess allow = w.isSuccess allow) ∧
    (send pickle unpickle w r).1.errors = w.errors ∧ (send pickle unpickle w r).1.failures = w.failures ∧ (send pickle unpickle w r).1.skips = w.skips ∧
    (send pickle unpickle w r).2.1 = w.failures.map .failure ++ w.errors.map .error ++ w.skips.map .skip := by
  have h0 : (send pickle unpickle w r).2.2 = false := by
    have hs : ∀ l, serialize pickle l = some l := by
      intro l
      induction l with
      | nil => rfl
      | cons k l ih => simp [serialize, hp, ih]
    have ha : ∀ ks r, (assignAll unpickle w ks r).2 = false := by
      intro ks
      induction ks with
      | nil => intro r; rfl
      | cons k ks ih => intro r; simp only [assignAll, hu]; exact ih _
    unfold send
    rw [hs]
    simp only
    have := ha w.keys r
    cases hx : assignAll unpickle w w.keys r with
    | mk a b => rw [hx] at this; simp only at this; subst this; rfl
  have A := C136_attributes pickle unpickle w r h0
  simp only [hp, hu, and_self, not_true_eq_false, and_false, or_false, and_true] at A
  obtain ⟨-, -, e1, e2, e3, e4, -, e6, -, -, -, -, -, -, e7⟩ := A
  refine ⟨h0, ?_, e1, e2, e3, ?_⟩
  · intro allow
    unfold Res.isSuccess
    rw [e1, e2, e3, e4, e6]
  · rw [e7, e1, e2, e3]

example : let w : Res := { errors := [1], skips := [2], started := true, extras := [(7, 8)] }
    let r := send (fun _ => .ok) (fun _ => .ok) w { metadata := 5 }
    r.1.errors = [1] ∧ r.1.metadata = 5 ∧ r.1.extras = [(7, 8)] ∧ r.2.1 = [.error 1, .skip 2] ∧ r.1.isSuccess true = false := by decide

/-- The full claim is false: if the errors of a test cannot be pickled (or unpickled), the test is successful for the parent; facts are never sent; if pickling raises an exception
that is not expected nothing arrives. -/
theorem C136_violated :
    (∃ w : Res, w.isSuccess true = false ∧ (send (fun k => if k = .errors then .caught else .ok) (fun _ => .ok) w {}).1.isSuccess true = true ∧
      (send (fun k => if k = .errors then .caught else .ok) (fun _ => .ok) w {}).2 = ([], false)) ∧
    (∃ w : Res, (send (fun _ => .ok) (fun _ => .ok) w {}).1.facts ≠ w.facts) ∧
    (∃ w : Res, w.isSuccess true = true ∧ (send (fun k => if k = .details then .raised else .ok) (fun _ => .ok) w {}).1.isSuccess true = false) :=
  ⟨⟨{ started := true, errors := [1] }, by decide⟩, ⟨{ facts := 1 }, by decide⟩, ⟨{ started := true }, by decide⟩⟩

/-! ## C137: the notice about slow operations -/

/-- What holds in all states. -/
def NInv (hasEnd : Bool) (s : NSt) : Prop :=
  ((s.main = .block ∨ s.main = .set) → s.evt = false) ∧
  (s.main = .finish ∨ s.main = .done ∨ s.main = .failed → s.note = .over) ∧
  (s.note = .waiting ∨ s.note = .timedOut → s.flag = false ∧ s.shown = []) ∧
  (s.note = .reported → s.flag = false ∧ s.shown = [.message]) ∧
  (s.note = .over → s.flag = false → s.shown = [] ∧ s.main ≠ .failed) ∧
  (s.note = .over → s.flag = true → s.shown = if s.main = .done ∧ hasEnd = true then [.message, .endMessage] else [.message]) ∧
  (s.main = .failed → s.session = false ∧ hasEnd = true)

theorem NInv.step {hasEnd : Bool} {s t : NSt} (h : NInv hasEnd s) (st : Step hasEnd s t) : NInv hasEnd t := by
  obtain ⟨h1, h2, h3, h4, h5, h6, h7⟩ := h
  obtain ⟨m, n, e, ss, f, sh⟩ := s
  simp only at h1 h2 h3 h4 h5 h6 h7
  unfold NInv
  cases st <;> simp only at * <;> (try subst_vars) <;> grind

theorem NInv.reach {hasEnd : Bool} {s : NSt} (h : Reach hasEnd {} s) : NInv hasEnd s := by
  induction h with
  | start => simp [NInv]
  | step _ st ih => exact ih.step st

/-- In every execution at most the message and then the end message are shown, each at most once; when it is over, the end message was shown exactly if there is
one and the message was. -/
theorem C137_shown (hasEnd : Bool) (s : NSt) (h : Reach hasEnd {} s) :
    (s.shown = [] ∨ s.shown = [.message] ∨ s.shown = [.message, .endMessage]) ∧
    (s.main = .done → (.endMessage ∈ s.shown ↔ .message ∈ s.shown ∧ hasEnd = true)) ∧
    (.endMessage ∈ s.shown → s.main = .done) := by
  obtain ⟨h1, h2, h3, h4, h5, h6, h7⟩ := NInv.reach h
  cases hn : s.note <;> cases hf : s.flag <;> simp only [hn, hf] at * <;> grind

/-- after the block the event is set -/
theorem evt_set {hasEnd : Bool} {s : NSt} (h : Reach hasEnd {} s) : s.main = .block ∨ s.main = .set ∨ s.evt = true := by
  induction h with
  | start => exact Or.inl rfl
  | step _ st ih => cases st <;> simp_all

/-- If the block ends in time (it and the call that wakes the other thread are over while that thread still waits), nothing is shown. -/
theorem C137_quick (hasEnd : Bool) (s t : NSt) (h : Reach hasEnd {} s) (hw : s.note = .waiting) (hb : s.main ≠ .block) (hs : s.main ≠ .set) (ht : Reach hasEnd s t) : t.shown = [] := by
  have h0 := NInv.reach h
  have he : s.evt = true := by
    rcases evt_set h with g | g | g
    · exact absurd g hb
    · exact absurd g hs
    · exact g
  have key : (t.evt = true ∧ t.shown = [] ∧ t.flag = false ∧ (t.note = .waiting ∨ t.note = .over)) := by
    induction ht with
    | start => exact ⟨he, (h0.2.2.1 (Or.inl hw)).2, (h0.2.2.1 (Or.inl hw)).1, Or.inl hw⟩
    | step _ st ih =>
      obtain ⟨a, b, c, d⟩ := ih
      cases st <;> simp_all
  exact key.2.1

/-- The length of an execution. -/
inductive Steps (hasEnd : Bool) : Nat → NSt → NSt → Prop where
  | zero (s : NSt) : Steps hasEnd 0 s s
  | succ {n : Nat} {s t u : NSt} : Step hasEnd s t → Steps hasEnd n t u → Steps hasEnd (n + 1) s u

/-- Steps that are left. -/
def left (s : NSt) : Nat :=
  (match s.main with | .block => 5 | .set => 3 | .join => 2 | .finish => 1 | _ => 0) + (match s.note with | .waiting => 3 | .timedOut => 2 | .reported => 1 | .over => 0)

/-- After the block the operation ends: there is always a next step until it is over, and there are at most six. -/
theorem C137_ends (hasEnd : Bool) (s : NSt) (h : Reach hasEnd {} s) :
    (s.main ≠ .done → s.main ≠ .failed → ∃ t, Step hasEnd s t) ∧ (s.main ≠ .block → ∀ n t, Steps hasEnd n s t → n ≤ 6) := by
  constructor
  · intro hd hf
    obtain ⟨h1, h2, h3, h4, h5, h6, h7⟩ := NInv.reach h
    cases hm : s.main with
    | block => exact ⟨_, .blockEnds s hm⟩
    | set => exact ⟨_, .set s hm⟩
    | done => exact absurd hm hd
    | failed => exact absurd hm hf
    | finish =>
      cases hfl : (s.flag && hasEnd) with
      | false => exact ⟨_, .quiet s hm hfl⟩
      | true =>
        cases hs : s.session with
        | true => exact ⟨_, .finish s hm hfl hs⟩
        | false => exact ⟨_, .noReporter s hm hfl hs⟩
    | join =>
      cases hn : s.note with
      | over => exact ⟨_, .join s hm hn⟩
      | reported => exact ⟨_, .flag s hn⟩
      | timedOut =>
        cases hs : s.session with
        | true => exact ⟨_, .report s hn hs⟩
        | false => exact ⟨_, .noSession s hn hs⟩
      | waiting =>
        cases he : s.evt with
        | true => exact ⟨_, .wakes s hn he⟩
        | false => exact ⟨_, .timeout s hn he⟩
  · intro hb n t hst
    have hle : left s ≤ 6 := by
      unfold left
      cases hm : s.main <;> cases s.note <;> simp_all
    have key : ∀ n s t, s.main ≠ .block → Steps hasEnd n s t → n ≤ left s := by
      intro n
      induction n with
      | zero => intro s t _ _; exact Nat.zero_le _
      | succ n ih =>
        intro s t hb hst
        cases hst with
        | succ st rest =>
          have hdec : ∀ u, Step hasEnd s u → left u < left s ∧ u.main ≠ .block := by
            intro u st
            cases st <;> simp_all [left]
          obtain ⟨d1, d2⟩ := hdec _ st
          have := ih _ _ d2 rest
          omega
    exact Nat.le_trans (key n s t hb hst) hle

/-- If there is a session when the block ends, the operation does not fail. -/
theorem C137_fails_partial (hasEnd : Bool) (s t : NSt) (h : Reach hasEnd {} s) (hb : s.main ≠ .block) (hs : s.session = true) (ht : Reach hasEnd s t) : t.main ≠ .failed := by
  have h0 := NInv.reach h
  have key : NInv hasEnd t ∧ t.session = true ∧ t.main ≠ .block := by
    induction ht with
    | start => exact ⟨h0, hs, hb⟩
    | step _ st ih =>
      obtain ⟨a, b, c⟩ := ih
      refine ⟨a.step st, ?_⟩
      cases st <;> simp_all
  intro hf
  have := (key.1.2.2.2.2.2.2 hf).1
  rw [key.2.1] at this
  cases this

/-- It fails if the session is closed in the block after the message was shown. -/
theorem C137_fails_violated : ∃ s, Reach true {} s ∧ s.main = .failed := by
  refine ⟨_, .step (.step (.step (.step (.step (.step (.step (.step .start
    (.timeout _ rfl rfl)) (.report _ rfl rfl)) (.flag _ rfl)) (.session _ false rfl)) (.blockEnds _ rfl)) (.set _ rfl)) (.join _ rfl rfl)) (.noReporter _ rfl rfl rfl), rfl⟩

example : ∃ s, Reach true {} s ∧ s.main = .done ∧ s.shown = [.message, .endMessage] := by
  refine ⟨_, .step (.step (.step (.step (.step (.step (.step .start
    (.timeout _ rfl rfl)) (.report _ rfl rfl)) (.flag _ rfl)) (.blockEnds _ rfl)) (.set _ rfl)) (.join _ rfl rfl)) (.finish _ rfl rfl rfl), rfl, rfl⟩

end Slash.Tr
