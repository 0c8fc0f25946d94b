import Verif.Model.Signature
/-! Calls of functions with any signature: C164. -/
namespace Slash.Sig

/-- Named arguments only: no positional-only ones, no `*args`, no `**kwargs`. -/
def Plain (sig : List P) : Prop := ∀ p ∈ sig, p.kind = .normal ∨ p.kind = .kwOnly

/-- Methods, and only they, have a first argument called `self`. -/
def SelfFirst (method : Bool) (sig : List P) : Prop :=
  if method then ∃ p ps, sig = p :: ps ∧ p.name = selfName ∧ p.kind = .normal
  else ∀ p ∈ sig, p.name ≠ selfName

/-- What the arguments of a test should be: the object for `self`, its value for a parameter, the value of the fixture for all others. -/
def wanted (lookup : Name → Option Nat) (params : List (Name × Nat)) (sig : List P) : List (Name × Val) :=
  sig.map fun p =>
    (p.name, if p.name = selfName then .self else .given ((get p.name params).getD ((lookup p.name).getD 0)))

theorem get_append (k : Name) (a b : List (Name × Nat)) : get k (a ++ b) = (get k a).or (get k b) := by
  unfold get
  rw [List.find?_append]
  cases a.find? (fun x => x.1 == k) <;> simp

theorem get_none (k : Name) (a : List (Name × Nat)) : get k a = none ↔ ∀ x ∈ a, x.1 ≠ k := by
  unfold get
  simp [List.find?_eq_none]

theorem get_map (k : Name) (f : Name → Nat) (l : List Name) :
    get k (l.map fun n => (n, f n)) = if k ∈ l then some (f k) else none := by
  induction l with
  | nil => rfl
  | cons n l ih =>
    unfold get at ih ⊢
    rw [List.map_cons, List.find?_cons]
    by_cases h : n = k
    · subst h; simp
    · have : (n == k) = false := by simpa using h
      simp only [this]
      rw [ih]
      have : k ≠ n := fun e => h e.symm
      simp [this]

theorem bindAll_given (first : Option Name) (kw : List (Name × Nat)) (sig : List P) (hp : Plain sig)
    (h : ∀ p ∈ sig, first = some p.name ∨ ∃ v, get p.name kw = some v) :
    bindAll first kw sig =
      some (sig.map fun p => (p.name, if first = some p.name then .self else .given ((get p.name kw).getD 0))) := by
  induction sig with
  | nil => rfl
  | cons p ps ih =>
    have ih := ih (fun q hq => hp q (List.mem_cons_of_mem _ hq)) (fun q hq => h q (List.mem_cons_of_mem _ hq))
    have hk := hp p (List.mem_cons_self ..)
    have hv : ¬ ((p.kind = .varPos || p.kind = .varKw) = true) := by
      rcases hk with e | e <;> simp [e]
    have hkw : p.keyword = true := by
      unfold P.keyword
      rcases hk with e | e <;> simp [e]
    unfold bindAll
    rw [if_neg hv, ih]
    unfold bindOne
    by_cases hf : first = some p.name
    · simp [hf]
    · rcases h p (List.mem_cons_self ..) with e | ⟨v, e⟩
      · exact absurd e hf
      · simp [hf, hkw, e]

/-- The names of the arguments. -/
theorem mem_arguments (method : Bool) (sig : List P) (hs : SelfFirst method sig) (hn : (sig.map (·.name)).Nodup) (k : Name) :
    k ∈ arguments sig ↔ k ≠ selfName ∧ ∃ p ∈ sig, p.name = k := by
  unfold SelfFirst at hs
  unfold arguments
  cases method with
  | true =>
    rw [if_pos (by rfl)] at hs
    obtain ⟨p, ps, rfl, e, _⟩ := hs
    rw [List.map_cons, List.nodup_cons] at hn
    simp only [List.map_cons, e, if_true]
    rw [e] at hn
    constructor
    · intro h
      obtain ⟨q, hq, rfl⟩ := List.mem_map.1 h
      exact ⟨fun e' => hn.1 (e' ▸ h), q, List.mem_cons_of_mem _ hq, rfl⟩
    · rintro ⟨h1, q, hq, rfl⟩
      rcases List.mem_cons.1 hq with rfl | hq
      · exact absurd e h1
      · exact List.mem_map_of_mem hq
  | false =>
    rw [if_neg (by decide)] at hs
    have : arguments sig = sig.map (·.name) := by
      unfold arguments
      cases sig with
      | nil => rfl
      | cons p ps => simp only [List.map_cons]; rw [if_neg (hs p (List.mem_cons_self ..))]
    unfold arguments at this
    rw [this]
    constructor
    · intro h
      obtain ⟨q, hq, rfl⟩ := List.mem_map.1 h
      exact ⟨hs q hq, q, hq, rfl⟩
    · rintro ⟨_, q, hq, rfl⟩
      exact List.mem_map_of_mem hq

/-- A test function or method with named arguments, whose parameters are arguments of it: if each other argument names a fixture, it is called
with all its arguments, each with its value, and nothing else. -/
theorem C164_called_partial (lookup : Name → Option Nat) (params : List (Name × Nat)) (method : Bool) (sig : List P)
    (hp : Plain sig) (hs : SelfFirst method sig) (hn : (sig.map (·.name)).Nodup) (ht : ∀ p ∈ sig, p.name ≠ thisName)
    (hpar : ∀ x ∈ params, x.1 ≠ selfName ∧ ∃ p ∈ sig, p.name = x.1)
    (hf : ∀ p ∈ sig, p.name ≠ selfName → get p.name params = none → lookup p.name ≠ none) :
    test lookup params false method sig = .ran (.called (wanted lookup params sig) []) := by
  have hm := mem_arguments method sig hs hn
  unfold test
  rw [if_neg (by decide)]
  simp only
  rw [if_neg (by
    intro h
    obtain ⟨n, hn', hl⟩ := List.any_eq_true.1 h
    obtain ⟨ha, hg⟩ := List.mem_filter.1 hn'
    obtain ⟨hne, p, hps, rfl⟩ := (hm n).1 ha
    exact hf p hps hne (by simpa using hg) (by simpa using hl))]
  generalize hnames : ((arguments sig).filter (fun n => (get n params).isNone)).filter (· != thisName) = names
  have hmem : ∀ k, k ∈ names ↔ k ≠ selfName ∧ (∃ p ∈ sig, p.name = k) ∧ get k params = none := by
    intro k
    rw [← hnames, List.mem_filter, List.mem_filter, hm]
    constructor
    · rintro ⟨⟨⟨a, b⟩, c⟩, _⟩
      exact ⟨a, b, by simpa using c⟩
    · rintro ⟨a, ⟨p, hps, rfl⟩, c⟩
      exact ⟨⟨⟨a, p, hps, rfl⟩, by simp [c]⟩, by simpa using ht p hps⟩
  have hfil : params.filter (fun x => !((names.map (fun n => (n, (lookup n).getD 0))).any (fun y => y.1 == x.1))) = params := by
    apply List.filter_eq_self.2
    intro x hx
    cases he : (names.map (fun n => (n, (lookup n).getD 0))).any (fun y => y.1 == x.1) with
    | false => rfl
    | true =>
      obtain ⟨y, hy, e⟩ := List.any_eq_true.1 he
      obtain ⟨n, hn', rfl⟩ := List.mem_map.1 hy
      have e : n = x.1 := by simpa using e
      have := (get_none n params).1 ((hmem n).1 hn').2.2 x hx
      exact absurd e.symm this
  rw [hfil]
  generalize hkw : names.map (fun n => (n, (lookup n).getD 0)) ++ params = kw
  have hkeys : ∀ x ∈ kw, x.1 ≠ selfName ∧ ∃ p ∈ sig, p.name = x.1 := by
    intro x hx
    rw [← hkw, List.mem_append] at hx
    rcases hx with hx | hx
    · obtain ⟨n, hn', rfl⟩ := List.mem_map.1 hx
      exact ⟨((hmem n).1 hn').1, ((hmem n).1 hn').2.1⟩
    · exact hpar x hx
  have hget : ∀ p ∈ sig, p.name ≠ selfName → get p.name kw = some ((get p.name params).getD ((lookup p.name).getD 0)) := by
    intro p hps hne
    rw [← hkw, get_append, get_map p.name (fun n => (lookup n).getD 0)]
    cases hg : get p.name params with
    | none =>
      rw [if_pos ((hmem p.name).2 ⟨hne, ⟨p, hps, rfl⟩, hg⟩)]
      simp
    | some v =>
      rw [if_neg (fun h => by rw [((hmem p.name).1 h).2.2] at hg; cases hg)]
      simp
  have hkey : ∀ p ∈ sig, p.keyword = true := by
    intro p hps
    unfold P.keyword
    rcases hp p hps with e | e <;> simp [e]
  have hrest : kw.filter (fun x => !(sig.any (fun p => p.name == x.1 && p.keyword))) = [] := by
    apply List.filter_eq_nil_iff.2
    intro x hx
    obtain ⟨_, p, hps, e⟩ := hkeys x hx
    have : sig.any (fun p => p.name == x.1 && p.keyword) = true :=
      List.any_eq_true.2 ⟨p, hps, by simp [e, hkey p hps]⟩
    simp [this]
  have hfirst : ∃ first, (if method then ((sig.filter P.positional).head?).map (·.name) else none) = first ∧
      (method = true → first = some selfName) ∧ (method = false → first = none) := by
    refine ⟨_, rfl, ?_, ?_⟩
    · rintro rfl
      unfold SelfFirst at hs
      rw [if_pos (by rfl)] at hs
      obtain ⟨p, ps, rfl, e, hk⟩ := hs
      have : p.positional = true := by simp [P.positional, hk]
      simp [List.filter_cons, this, e]
    · rintro rfl; rfl
  obtain ⟨first, hfe, hf1, hf0⟩ := hfirst
  have hself : ∀ p ∈ sig, (first = some p.name ↔ p.name = selfName) := by
    intro p hps
    cases method with
    | true => rw [hf1 rfl]; exact ⟨fun h => (Option.some.inj h).symm, fun h => by rw [h]⟩
    | false =>
      rw [hf0 rfl]
      unfold SelfFirst at hs
      rw [if_neg (by decide)] at hs
      exact ⟨(fun h => by cases h), fun h => absurd h (hs p hps)⟩
  have hb := bindAll_given first kw sig hp (by
    intro p hps
    by_cases h : p.name = selfName
    · exact Or.inl ((hself p hps).2 h)
    · exact Or.inr ⟨_, hget p hps h⟩)
  unfold call
  simp only [hfe, hrest]
  rw [if_neg (by
    cases method with
    | true => rw [hf1 rfl]; simp
    | false => simp)]
  rw [if_neg (by
    intro h
    obtain ⟨x, hx, e⟩ := List.any_eq_true.1 h
    obtain ⟨hne, p, hps, e'⟩ := hkeys x hx
    have e := (Bool.and_eq_true _ _ ▸ e).1
    have e : first = some x.1 := by simpa using e
    rw [← e'] at e hne
    exact hne ((hself p hps).1 e))]
  rw [if_neg (by simp), hb]
  simp only
  congr 2
  unfold wanted
  apply List.map_congr_left
  intro p hps
  by_cases h : p.name = selfName
  · rw [if_pos ((hself p hps).2 h), if_pos h]
  · rw [if_neg (fun e => h ((hself p hps).1 e)), if_neg h, hget p hps h]
    rfl

/-- Loading fails for the others: an argument that is no parameter and names no fixture. -/
theorem C164_unknown (lookup : Name → Option Nat) (params : List (Name × Nat)) (method : Bool) (sig : List P) :
    test lookup params false method sig = .unknown ↔ ∃ n ∈ arguments sig, (∀ x ∈ params, x.1 ≠ n) ∧ lookup n = none := by
  unfold test
  rw [if_neg (by decide)]
  simp only
  constructor
  · intro h
    split at h
    · rename_i hc
      obtain ⟨n, hn, hl⟩ := List.any_eq_true.1 hc
      obtain ⟨ha, hg⟩ := List.mem_filter.1 hn
      exact ⟨n, ha, (get_none n params).1 (by simpa using hg), by simpa using hl⟩
    · cases h
  · rintro ⟨n, ha, hg, hl⟩
    rw [if_pos]
    refine List.any_eq_true.2 ⟨n, List.mem_filter.2 ⟨ha, ?_⟩, by simp [hl]⟩
    rw [(get_none n params).2 hg]; rfl

/-- The parameters a call with no keywords leaves without a value. -/
theorem bindAll_none (first : Option Name) (sig : List P) :
    bindAll first [] sig = none ↔ ∃ p ∈ sig, p.kind ≠ .varPos ∧ p.kind ≠ .varKw ∧ first ≠ some p.name ∧ p.dflt = false := by
  have hg : ∀ n, get n [] = none := fun _ => rfl
  induction sig with
  | nil => simp [bindAll]
  | cons p ps ih =>
    unfold bindAll
    by_cases hk : p.kind = .varPos ∨ p.kind = .varKw
    · rw [if_pos (by simpa using hk)]
      refine ih.trans ?_
      constructor
      · rintro ⟨q, hq, h⟩; exact ⟨q, List.mem_cons_of_mem _ hq, h⟩
      · rintro ⟨q, hq, h⟩
        rcases List.mem_cons.1 hq with rfl | hq
        · rcases hk with e | e
          · exact absurd e h.1
          · exact absurd e h.2.1
        · exact ⟨q, hq, h⟩
    · rw [if_neg (by simpa using hk)]
      have hk : p.kind ≠ .varPos ∧ p.kind ≠ .varKw := ⟨fun e => hk (Or.inl e), fun e => hk (Or.inr e)⟩
      unfold bindOne
      simp only [hg, ite_self]
      by_cases hf : first = some p.name
      · simp only [hf, if_true, Option.map_eq_none_iff]
        rw [hf] at ih
        refine ih.trans ?_
        constructor
        · rintro ⟨q, hq, h⟩; exact ⟨q, List.mem_cons_of_mem _ hq, h⟩
        · rintro ⟨q, hq, h⟩
          rcases List.mem_cons.1 hq with rfl | hq
          · exact absurd rfl h.2.2.1
          · exact ⟨q, hq, h⟩
      · simp only [hf, if_false]
        cases hd : p.dflt with
        | false => simp only [Bool.false_eq_true, if_false]; exact ⟨fun _ => ⟨p, List.mem_cons_self .., hk.1, hk.2, hf, hd⟩, fun _ => trivial⟩
        | true =>
          simp only [if_true, Option.map_eq_none_iff]
          refine ih.trans ?_
          constructor
          · rintro ⟨q, hq, h⟩; exact ⟨q, List.mem_cons_of_mem _ hq, h⟩
          · rintro ⟨q, hq, h⟩
            rcases List.mem_cons.1 hq with rfl | hq
            · rw [hd] at h; exact absurd h.2.2.2 (by decide)
            · exact ⟨q, hq, h⟩

/-- A function marked with `nofixtures` is called as Python calls it with no arguments: whatever fixtures there are, this fails if and only if an argument
without a default is left. -/
theorem C164_nofixtures (lookup : Name → Option Nat) (params : List (Name × Nat)) (sig : List P) :
    test lookup params true false sig = .ran .typeError ↔
      ∃ p ∈ sig, p.kind ≠ .varPos ∧ p.kind ≠ .varKw ∧ p.dflt = false := by
  have : test lookup params true false sig =
      .ran (match bindAll none [] sig with | none => .typeError | some args => .called args []) := by
    simp [test, call]
    rfl
  rw [this]
  have h := bindAll_none none sig
  cases hb : bindAll none [] sig with
  | none =>
    obtain ⟨p, hp, a, b, _, c⟩ := h.1 hb
    exact ⟨fun _ => ⟨p, hp, a, b, c⟩, fun _ => rfl⟩
  | some args =>
    constructor
    · intro e; cases e
    · rintro ⟨p, hp, a, b, c⟩
      rw [h.2 ⟨p, hp, a, b, by simp, c⟩] at hb
      cases hb

/-- Fixtures `a` with value 1 and `args` with value 7. -/
def exLookup : Name → Option Nat := fun n => if n = ['a'] then some 1 else if n = "args".toList then some 7 else if n = ['s', 'e', 'l', 'f'] then some 9 else
  if n = ['t', 'h', 'i', 's'] then some 8 else none

-- A method with a fixture, a keyword-only parameter and a default that is never used.
example : test exLookup [(['b'], 5)] false true [⟨['s', 'e', 'l', 'f'], .normal, false⟩, ⟨['a'], .normal, true⟩, ⟨['b'], .kwOnly, false⟩] =
    .ran (.called [(['s', 'e', 'l', 'f'], .self), (['a'], .given 1), (['b'], .given 5)] []) := by decide

example : Plain [⟨['s', 'e', 'l', 'f'], .normal, false⟩, ⟨['a'], .normal, true⟩, ⟨['b'], .kwOnly, false⟩] ∧
    SelfFirst true [⟨['s', 'e', 'l', 'f'], .normal, false⟩, ⟨['a'], .normal, true⟩, ⟨['b'], .kwOnly, false⟩] := by
  refine ⟨?_, ?_⟩
  · unfold Plain; decide
  · exact ⟨_, _, rfl, rfl, rfl⟩

example : test exLookup [] true false [⟨['c'], .normal, true⟩] = .ran (.called [(['c'], .default)] []) := by decide

/-- An argument with a default must name a fixture all the same. -/
theorem C164_default_violated : test exLookup [] false false [⟨['c'], .normal, true⟩] = .unknown := by decide

/-- `*args` and `**kwargs` are taken for arguments that name fixtures; if there is a fixture of that name, the call fails, or the fixture ends in `**kwargs`. -/
theorem C164_variadic_violated :
    test (fun _ => none) [] false false [⟨"args".toList, .varPos, false⟩] = .unknown ∧
    test exLookup [] false false [⟨"args".toList, .varPos, false⟩] = .ran .typeError ∧
    test (fun _ => none) [] false false [⟨"kwargs".toList, .varKw, false⟩] = .unknown ∧
    test exLookup [] false false [⟨"args".toList, .varKw, false⟩] = .ran (.called [] [("args".toList, 7)]) ∧
    test exLookup [] false false [⟨['a'], .normal, false⟩, ⟨"args".toList, .varKw, false⟩] =
      .ran (.called [(['a'], .given 1)] [("args".toList, 7)]) := by decide

/-- A positional-only argument is looked up, but cannot be given, whether it has a default or not. -/
theorem C164_positional_violated : test exLookup [] false false [⟨['a'], .posOnly, false⟩] = .ran .typeError ∧
    test exLookup [] false false [⟨['a'], .posOnly, true⟩] = .ran .typeError := by decide

/-- A parameter that is no argument is found out only when the test runs. -/
theorem C164_extra_violated : test exLookup [(['b'], 5)] false false [⟨['a'], .normal, false⟩] = .ran .typeError := by decide

/-- The first argument of a method is taken for a fixture unless it is called `self`; a function's first argument is not if it is. -/
theorem C164_self_violated :
    test exLookup [] false true [⟨['m', 'e'], .normal, false⟩] = .unknown ∧
    test exLookup [] false true [⟨['a'], .normal, false⟩] = .ran .typeError ∧
    test exLookup [] false false [⟨['s', 'e', 'l', 'f'], .normal, false⟩] = .ran .typeError := by decide

/-- A fixture called `this` is not given to tests. -/
theorem C164_this_violated : test exLookup [] false false [⟨['t', 'h', 'i', 's'], .normal, false⟩] = .ran .typeError := by decide

/-- A method whose first argument is called something else than `self` is never called: the argument is taken for a fixture or a parameter, and
given by keyword although Python has given the object to it. -/
theorem C164_self_fails (lookup : Name → Option Nat) (params : List (Name × Nat)) (p : P) (ps : List P)
    (hk : p.kind = .normal) (hs : p.name ≠ selfName) (ht : p.name ≠ thisName) (args : List (Name × Val)) (rest : List (Name × Nat)) :
    test lookup params false true (p :: ps) ≠ .ran (.called args rest) := by
  unfold test
  rw [if_neg (by decide)]
  simp only
  split
  · exact fun h => nomatch h
  · generalize hkw : (List.map (fun n => (n, (lookup n).getD 0)) (List.filter (· != thisName)
      (List.filter (fun n => (get n params).isNone) (arguments (p :: ps))))) = kwargs
    have hmem : ∃ v, (p.name, v) ∈ kwargs ++ params.filter (fun x => !(kwargs.any (fun y => y.1 == x.1))) := by
      by_cases hc : ∃ v, (p.name, v) ∈ kwargs
      · obtain ⟨v, hv⟩ := hc
        exact ⟨v, List.mem_append.2 (.inl hv)⟩
      · have hn : get p.name params ≠ none := by
          intro hg
          apply hc
          refine ⟨(lookup p.name).getD 0, ?_⟩
          rw [← hkw]
          refine List.mem_map.2 ⟨p.name, List.mem_filter.2 ⟨List.mem_filter.2 ⟨?_, by rw [hg]; rfl⟩, ?_⟩, rfl⟩
          · simp [arguments, hs]
          · rw [bne_iff_ne]; exact ht
        rw [Ne, get_none] at hn
        have ⟨x, hx, hx'⟩ : ∃ x ∈ params, x.1 = p.name := by
          refine Classical.byContradiction fun h => hn fun x hx e => h ⟨x, hx, e⟩
        refine ⟨x.2, List.mem_append.2 (.inr (List.mem_filter.2 ⟨?_, ?_⟩))⟩
        · rw [← hx']; exact hx
        · simp only [Bool.not_eq_true', List.any_eq_false]
          intro y hy e
          refine hc ⟨y.2, ?_⟩
          have : y.1 = p.name := by simpa using e
          rw [← this]; exact hy
    obtain ⟨v, hv⟩ := hmem
    generalize kwargs ++ params.filter (fun x => !(kwargs.any (fun y => y.1 == x.1))) = kw at hv
    unfold call
    have hpos : p.positional = true := by simp [P.positional, hk]
    have hfirst : (((p :: ps).filter P.positional).head?).map (·.name) = some p.name := by simp [hpos]
    simp only [if_true, hfirst]
    rw [if_neg (by simp), if_pos]
    · intro h; injection h with h; exact nomatch h
    · refine List.any_eq_true.2 ⟨_, hv, ?_⟩
      simp only [BEq.rfl, Bool.true_and]
      refine List.any_eq_true.2 ⟨p, List.mem_cons_self .., ?_⟩
      simp [P.keyword, hk]

example (args : List (Name × Val)) (rest : List (Name × Nat)) :
    test exLookup [] false true [⟨['a'], .normal, false⟩, ⟨['b'], .normal, true⟩] ≠ .ran (.called args rest) :=
  C164_self_fails exLookup [] ⟨['a'], .normal, false⟩ _ rfl (by decide) (by decide) args rest

/-- A parameter that is no argument of a function with named arguments only: the function is never called. -/
theorem C164_extra_fails (lookup : Name → Option Nat) (params : List (Name × Nat)) (method : Bool) (sig : List P) (hp : Plain sig)
    (x : Name × Nat) (hx : x ∈ params) (hn : ∀ p ∈ sig, p.name ≠ x.1) (args : List (Name × Val)) (rest : List (Name × Nat)) :
    test lookup params false method sig ≠ .ran (.called args rest) := by
  unfold test
  rw [if_neg (by decide)]
  simp only
  split
  · exact fun h => nomatch h
  · generalize hkw : (List.map (fun n => (n, (lookup n).getD 0)) (List.filter (· != thisName)
      (List.filter (fun n => (get n params).isNone) (arguments sig)))) = kwargs
    have hsub : ∀ n ∈ arguments sig, ∃ p ∈ sig, p.name = n := by
      intro n h
      unfold arguments at h
      have : n ∈ sig.map (·.name) := by
        cases hl : sig.map (·.name) with
        | nil => simp [hl] at h
        | cons a l =>
          simp only [hl] at h
          split at h
          · exact List.mem_cons_of_mem _ h
          · exact h
      obtain ⟨p, hp, e⟩ := List.mem_map.1 this
      exact ⟨p, hp, e⟩
    have hmem : x ∈ kwargs ++ params.filter (fun x => !(kwargs.any (fun y => y.1 == x.1))) := by
      refine List.mem_append.2 (.inr (List.mem_filter.2 ⟨hx, ?_⟩))
      simp only [Bool.not_eq_true', List.any_eq_false]
      intro y hy e
      rw [← hkw] at hy
      obtain ⟨n, hn', rfl⟩ := List.mem_map.1 hy
      obtain ⟨p, hp', e'⟩ := hsub n (List.mem_filter.1 (List.mem_filter.1 hn').1).1
      exact hn p hp' (e'.trans (by simpa using e))
    generalize kwargs ++ params.filter (fun x => !(kwargs.any (fun y => y.1 == x.1))) = kw at hmem
    unfold call
    generalize (if method = true then ((sig.filter P.positional).head?).map (·.name) else none) = first
    simp only
    split
    · intro h; injection h with h; exact nomatch h
    · split
      · intro h; injection h with h; exact nomatch h
      · rw [if_pos]
        · intro h; injection h with h; exact nomatch h
        · rw [Bool.and_eq_true]
          constructor
          · rw [Bool.not_eq_true', List.isEmpty_eq_false_iff]
            refine List.ne_nil_of_mem (a := x) (List.mem_filter.2 ⟨hmem, ?_⟩)
            simp only [Bool.not_eq_true', List.any_eq_false]
            intro p hp' e
            have : p.name = x.1 := by
              rw [Bool.and_eq_true] at e
              simpa using e.1
            exact hn p hp' this
          · simp only [Bool.not_eq_true', List.any_eq_false]
            intro p hp' e
            have : p.kind = .varKw := by simpa using e
            rcases hp p hp' with h | h <;> rw [h] at this <;> exact nomatch this

example (args : List (Name × Val)) (rest : List (Name × Nat)) :
    test exLookup [(['a'], 4), (['b'], 5)] false false [⟨['a'], .normal, false⟩] ≠ .ran (.called args rest) :=
  C164_extra_fails exLookup _ false _ (by intro p hp; simp at hp; subst hp; exact .inl rfl) (['b'], 5) (by decide)
    (by intro p hp; simp at hp; subst hp; decide) args rest

end Slash.Sig
