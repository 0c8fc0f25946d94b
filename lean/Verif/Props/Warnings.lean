import Verif.Model.Warnings
/-!
# Properties of ignored warnings (C48, C52)
-/
namespace Slash.Warn

/-- Specification: a criterion accepts a string, if it is the same string or an expression that matches it. -/
def Pat.Accepts : Pat → List Char → Prop
  | .str s, w => w = s
  | .regex m, w => m w = true

/-- Specification: all the criteria a filter specifies hold for a warning. -/
structure Filter.Covers (sub : Nat → Nat → Bool) (f : Filter) (w : W) : Prop where
  category : ∀ c, f.category = some c → sub w.category c = true
  filename : ∀ p, f.filename = some p → p.Accepts w.filename
  lineno : ∀ n, f.lineno = some n → w.lineno = n
  message : ∀ p, f.message = some p → p.Accepts w.message

/-- No criterion of the filter is the empty string or the number 0. -/
structure Filter.Proper (f : Filter) : Prop where
  filename : f.filename ≠ some (.str [])
  lineno : f.lineno ≠ some 0
  message : f.message ≠ some (.str [])

theorem catFails_iff (sub : Nat → Nat → Bool) (o : Option Nat) (c : Nat) :
    catFails sub o c = false ↔ ∀ d, o = some d → sub c d = true := by cases o <;> simp [catFails]

theorem patFails_iff (o : Option Pat) (h : o ≠ some (.str [])) (w : List Char) :
    patFails o w = false ↔ ∀ p, o = some p → p.Accepts w := by
  cases o with
  | none => simp [patFails]
  | some p =>
    cases p with
    | str s =>
      have : s ≠ [] := fun e => h (by rw [e])
      simp only [patFails, Pat.truthy, Pat.matches, Option.some.injEq, forall_eq', Pat.Accepts]
      simp only [List.isEmpty_eq_false_iff.2 this, Bool.not_false, Bool.true_and, Bool.not_eq_false', beq_iff_eq]
      exact eq_comm
    | regex m => simp [patFails, Pat.truthy, Pat.matches, Pat.Accepts]

theorem lineFails_iff (o : Option Nat) (h : o ≠ some 0) (n : Nat) :
    lineFails o n = false ↔ ∀ m, o = some m → n = m := by
  cases o with
  | none => simp [lineFails]
  | some m =>
    have : m ≠ 0 := fun e => h (by rw [e])
    simp [lineFails, this]

theorem matches_iff (sub : Nat → Nat → Bool) (f : Filter) (w : W) :
    f.matches sub w = true ↔ catFails sub f.category w.category = false ∧ patFails f.filename w.filename = false ∧
      lineFails f.lineno w.lineno = false ∧ patFails f.message w.message = false := by
  unfold Filter.matches
  cases catFails sub f.category w.category <;> cases patFails f.filename w.filename <;>
    cases lineFails f.lineno w.lineno <;> cases patFails f.message w.message <;> simp

/-- C48 (partial: for filters none of whose criteria is an empty string or 0): a filter matches a warning iff all the
criteria it specifies hold. -/
theorem C48_matches_partial (sub : Nat → Nat → Bool) (f : Filter) (hf : f.Proper) (w : W) :
    f.matches sub w = true ↔ f.Covers sub w := by
  rw [matches_iff, catFails_iff, patFails_iff _ hf.filename, lineFails_iff _ hf.lineno, patFails_iff _ hf.message]
  exact ⟨fun ⟨a, b, c, d⟩ => ⟨a, b, c, d⟩, fun ⟨a, b, c, d⟩ => ⟨a, b, c, d⟩⟩

/-- The hypothesis of `C48_matches_partial` is satisfiable with all four criteria given. -/
example : Filter.Proper {
    category := some 1, filename := some (.str ['a']), lineno := some 3,
    message := some (.regex (fun s => s.head? == some 'b')) } :=
  ⟨by simp, by simp, by simp⟩

example : Filter.matches (fun a b => a == b) { category := some 1, message := some (.regex (fun s => s.head? == some 'b')) }
    ⟨1, ['f'], 7, ['b', 'c']⟩ = true ∧
  Filter.matches (fun a b => a == b) { category := some 1, message := some (.regex (fun s => s.head? == some 'b')) }
    ⟨1, ['f'], 7, ['c']⟩ = false := by decide

/-- C48 is violated: a filter for warnings with an empty message ignores warnings with any message. -/
theorem C48_matches_violated : ∃ (f : Filter) (w : W), f.matches (fun _ _ => true) w = true ∧
    ¬ f.Covers (fun _ _ => true) w :=
  ⟨{ message := some (.str []) }, ⟨0, [], 1, ['b']⟩, by decide, fun h => by cases h.message (.str []) rfl⟩

/-- Whatever the criteria are: a filter whose criteria all hold matches. -/
theorem C48_covers_matches (sub : Nat → Nat → Bool) (f : Filter) (w : W) (h : f.Covers sub w) :
    f.matches sub w = true := by
  obtain ⟨a, b, c, d⟩ := h
  have e : ∀ (o : Option Pat) (s : List Char), (∀ p, o = some p → p.Accepts s) → patFails o s = false := by
    intro o s h
    cases o with
    | none => rfl
    | some p =>
      have := h p rfl
      cases p with
      | str t => cases this; simp [patFails, Pat.matches]
      | regex m => have : m s = true := this; simp [patFails, Pat.matches, this]
  refine (matches_iff sub f w).2 ⟨(catFails_iff _ _ _).2 a, e _ _ b, ?_, e _ _ d⟩
  cases h : f.lineno with
  | none => rfl
  | some n => simp [lineFails, c n h]

example : Filter.Covers (fun _ _ => true) { lineno := some 3 } ⟨0, [], 3, []⟩ :=
  ⟨by simp, by simp, by simp, by simp⟩

/-- C48: an emitted warning is recorded (at the end) iff no filter in force matches; nothing else changes. -/
theorem C48_recorded_iff (sub : Nat → Nat → Bool) (w : W) (st : St) :
    ((∀ f ∈ st.filters.map (·.2), f.matches sub w = false) → capture sub w st = { st with recorded := st.recorded ++ [w] })
      ∧ ((∃ f ∈ st.filters.map (·.2), f.matches sub w = true) → capture sub w st = st) := by
  constructor
  · intro h
    have : shouldFilter sub st w = false := by
      simp only [shouldFilter, List.any_eq_false]
      intro x hx
      simp [h x.2 (List.mem_map_of_mem hx)]
    simp [capture, this]
  · rintro ⟨f, hf, hm⟩
    obtain ⟨x, hx, rfl⟩ := List.mem_map.1 hf
    have : shouldFilter sub st w = true := List.any_eq_true.2 ⟨x, hx, hm⟩
    simp [capture, this]

/-! ### What a program does to the filters -/

/-- Specification of the effect of code on the list of filters: whether it raises, whether it cleared the list, and the
filters it added since. A context that is left normally adds nothing of its own. `leak` says whether a context left by
an exception leaves its filter behind. -/
structure Eff where
  raises : Bool := false
  clears : Bool := false
  added : List Filter := []

mutual
/-- The effect of one action. -/
def eff (leak : Bool) : Act → Eff
  | .warn _ => {}
  | .ignore f => { added := [f] }
  | .clear => { clears := true }
  | .raise => { raises := true }
  | .attempt body => { effAll leak body with raises := false }
  | .within f body =>
    let e := effAll leak body
    if leak && e.raises && !e.clears then { e with added := f :: e.added } else e
/-- The effect of a block: actions after an exception do not happen, clearing forgets what was added before. -/
def effAll (leak : Bool) : List Act → Eff
  | [] => {}
  | a :: as =>
    let e := eff leak a
    if e.raises then e
    else
      let e' := effAll leak as
      { raises := e'.raises, clears := e.clears || e'.clears, added := if e'.clears then e'.added else e.added ++ e'.added }
end

/-- The filters after code with this effect was run with the filters `F`. -/
def Eff.apply (e : Eff) (F : List Filter) : List Filter := (if e.clears then [] else F) ++ e.added

/-- The filters in force. -/
def St.inForce (st : St) : List Filter := st.filters.map (·.2)

/-- Identities are below the counter. -/
def St.Ok (st : St) : Prop := ∀ x ∈ st.filters, x.1 < st.next

/-- What a piece of code does to the state. -/
structure Does (e : Eff) (st : St) (r : Bool × St) : Prop where
  raises : r.1 = e.raises
  next : st.next ≤ r.2.next
  filters : ∃ new, r.2.filters = (if e.clears then [] else st.filters) ++ new ∧ new.map (·.2) = e.added ∧
    ∀ x ∈ new, st.next ≤ x.1 ∧ x.1 < r.2.next

theorem Does.ok {e : Eff} {st : St} {r : Bool × St} (h : Does e st r) (hs : st.Ok) : r.2.Ok := by
  obtain ⟨new, h1, h2, h3⟩ := h.filters
  intro x hx
  rw [h1] at hx
  rcases List.mem_append.1 hx with hx | hx
  · have := h.next
    split at hx
    · cases hx
    · have := hs x hx; omega
  · exact (h3 x hx).2

theorem Does.inForce {e : Eff} {st : St} {r : Bool × St} (h : Does e st r) : r.2.inForce = e.apply st.inForce := by
  obtain ⟨new, h1, h2, h3⟩ := h.filters
  unfold St.inForce Eff.apply
  rw [h1, List.map_append, h2]
  split <;> rfl

theorem Does.trans {e e' : Eff} {st : St} {r r' : Bool × St} (h : Does e st r) (hr : e.raises = false)
    (h' : Does e' r.2 r') :
    Does { raises := e'.raises, clears := e.clears || e'.clears,
           added := if e'.clears then e'.added else e.added ++ e'.added } st r' := by
  obtain ⟨new, h1, h2, h3⟩ := h.filters
  obtain ⟨new', h1', h2', h3'⟩ := h'.filters
  have n1 := h.next
  have n2 := h'.next
  refine ⟨h'.raises, Nat.le_trans n1 n2, ?_⟩
  cases hc : e'.clears with
  | true =>
    rw [hc] at h1'
    exact ⟨new', by simpa using h1', by simpa using h2', fun x hx => ⟨Nat.le_trans n1 (h3' x hx).1, (h3' x hx).2⟩⟩
  | false =>
    rw [hc] at h1'
    refine ⟨new ++ new', ?_, by simp [h2, h2'], ?_⟩
    · rw [h1', h1]; simp
    · intro x hx
      rcases List.mem_append.1 hx with hx | hx
      · have := h3 x hx; omega
      · have := h3' x hx; omega

theorem eraseP_ids (id : Nat) (l : List (Nat × Filter)) (h : ∀ x ∈ l, x.1 ≠ id) :
    l.eraseP (fun f => f.1 == id) = l :=
  List.eraseP_of_forall_not (fun x hx => by simpa using h x hx)

theorem capture_filters (sub : Nat → Nat → Bool) (w : W) (st : St) :
    (capture sub w st).filters = st.filters ∧ (capture sub w st).next = st.next := by
  unfold capture; split <;> exact ⟨rfl, rfl⟩

theorem execAll_cons (sub : Nat → Nat → Bool) (a : Act) (as : List Act) (st : St) :
    execAll sub (a :: as) st = if (exec sub a st).1 = true then exec sub a st else execAll sub as (exec sub a st).2 := by
  rw [execAll]
  generalize exec sub a st = r
  obtain ⟨b, s⟩ := r
  cases b <;> rfl

mutual
theorem exec_does (sub : Nat → Nat → Bool) : ∀ (a : Act) (st : St), st.Ok → Does (eff true a) st (exec sub a st)
  | .warn w, st, _ => by
    have := capture_filters sub w st
    exact ⟨rfl, by simp [exec, this.2], [], by simp [exec, this.1, eff], rfl, by simp⟩
  | .ignore f, st, _ =>
    ⟨rfl, by simp [exec, ignoreWarnings], [(st.next, f)], by simp [exec, ignoreWarnings, eff], by simp [eff], by
      simp [exec, ignoreWarnings]⟩
  | .clear, st, _ => ⟨rfl, by simp [exec, Warn.clear], [], by simp [exec, Warn.clear, eff], rfl, by simp⟩
  | .raise, st, _ => ⟨rfl, by simp [exec], [], by simp [exec, eff], rfl, by simp⟩
  | .attempt body, st, hs => by
    have ih := execAll_does sub body st hs
    rw [exec, eff]
    exact ⟨rfl, ih.next, ih.filters⟩
  | .within f body, st, hs => by
    have hs1 : (ignoreWarnings f st).2.Ok := by
      intro x hx
      simp only [ignoreWarnings, List.mem_append, List.mem_singleton] at hx ⊢
      rcases hx with hx | rfl
      · have := hs x hx; omega
      · simp
    have ih := execAll_does sub body (ignoreWarnings f st).2 hs1
    have hex : exec sub (.within f body) st = leave st.next (execAll sub body (ignoreWarnings f st).2) := by
      rw [exec]; rfl
    rw [hex]
    rw [show eff true (.within f body) = (if (true && (effAll true body).raises && !(effAll true body).clears) = true then
      { effAll true body with added := f :: (effAll true body).added } else effAll true body) by rw [eff]]
    generalize execAll sub body (ignoreWarnings f st).2 = r at ih ⊢
    generalize effAll true body = e at ih ⊢
    obtain ⟨hr, hn, new, h1, h2, h3⟩ := ih
    obtain ⟨b, st2⟩ := r
    obtain ⟨er, ec, ea⟩ := e
    simp only [ignoreWarnings] at hr hn h1 h2 h3
    subst hr
    have hnew : ∀ x ∈ new, x.1 ≠ st.next := fun x hx => by have := (h3 x hx).1; omega
    have hnew' : ∀ x ∈ new, st.next ≤ x.1 ∧ x.1 < st2.next := fun x hx => by have := h3 x hx; omega
    cases b <;> cases ec
    · have hold : ∀ x ∈ st.filters, ¬ (fun f : Nat × Filter => f.1 == st.next) x = true := fun x hx => by
        have := hs x hx
        simp only [beq_iff_eq]; omega
      refine ⟨rfl, by simp only [leave, remove]; omega, new, ?_, h2, hnew'⟩
      simp only [leave, remove, h1, Bool.false_eq_true, if_false, List.append_assoc, Bool.and_false, Bool.false_and]
      rw [List.eraseP_append_right _ hold]
      simp
    · refine ⟨rfl, by simp only [leave, remove]; omega, new, ?_, h2, hnew'⟩
      simpa [leave, remove, h1] using eraseP_ids _ _ hnew
    · refine ⟨rfl, by simp only [leave]; omega, (st.next, f) :: new, by simp [leave, h1], by simp [h2], ?_⟩
      intro x hx
      rcases List.mem_cons.1 hx with rfl | hx
      · exact ⟨Nat.le_refl _, by simp only [leave]; omega⟩
      · exact hnew' x hx
    · exact ⟨rfl, by simp only [leave]; omega, new, by simp [leave, h1], h2, hnew'⟩
theorem execAll_does (sub : Nat → Nat → Bool) : ∀ (as : List Act) (st : St), st.Ok → Does (effAll true as) st (execAll sub as st)
  | [], st, _ => ⟨rfl, by simp [execAll], [], by simp [execAll, effAll], rfl, by simp⟩
  | a :: as, st, hs => by
    have h1 := exec_does sub a st hs
    have h2 := execAll_does sub as (exec sub a st).2 (h1.ok hs)
    rw [execAll_cons]
    rw [show effAll true (a :: as) = (if (eff true a).raises = true then eff true a else
      { raises := (effAll true as).raises, clears := (eff true a).clears || (effAll true as).clears,
        added := if (effAll true as).clears then (effAll true as).added
          else (eff true a).added ++ (effAll true as).added }) by rw [effAll]]
    have hr := h1.raises
    generalize exec sub a st = r at *
    obtain ⟨b, st1⟩ := r
    cases b with
    | true => rw [if_pos hr.symm]; exact h1
    | false => rw [if_neg (c := (eff true a).raises = true) (by rw [← hr]; simp)]; exact h1.trans hr.symm h2
end

/-- C48: a context that is left normally leaves the same filters in force as its block would have done on its own, and
its own filter object is gone. (`st.Ok` holds initially and is preserved by all code, see `C48_states`.) -/
theorem C48_context_undone (sub : Nat → Nat → Bool) (f : Filter) (body : List Act) (st : St) (hs : st.Ok)
    (hn : (exec sub (.within f body) st).1 = false) :
    (exec sub (.within f body) st).2.inForce = (execAll sub body st).2.inForce ∧
      ∀ x ∈ (exec sub (.within f body) st).2.filters, x.1 ≠ (ignoreWarnings f st).1 := by
  have h1 := exec_does sub (.within f body) st hs
  have h2 := execAll_does sub body st hs
  have hr := h1.raises
  have he : eff true (.within f body) = effAll true body := by
    rw [hn] at hr
    rw [eff] at hr ⊢
    split
    · next h => rw [if_pos h] at hr; simp only at hr; simp [← hr] at h
    · rfl
  refine ⟨by rw [h1.inForce, h2.inForce, he], ?_⟩
  have hs1 : (ignoreWarnings f st).2.Ok := by
    intro x hx
    simp only [ignoreWarnings, List.mem_append, List.mem_singleton] at hx ⊢
    rcases hx with hx | rfl
    · have := hs x hx; omega
    · simp
  have h3 := execAll_does sub body (ignoreWarnings f st).2 hs1
  have hex : exec sub (.within f body) st = leave st.next (execAll sub body (ignoreWarnings f st).2) := by
    rw [exec]; rfl
  rw [hex] at hn ⊢
  obtain ⟨-, -, new, hf, -, hnew⟩ := h3
  generalize execAll sub body (ignoreWarnings f st).2 = r at *
  obtain ⟨b, st2⟩ := r
  cases b with
  | true => simp [leave] at hn
  | false =>
    intro x hx
    simp only [leave, remove] at hx
    simp only at hf
    rw [hf] at hx
    have hnew : ∀ x ∈ new, x.1 ≠ st.next := fun x hx => by
      have := (hnew x hx).1; simp only [ignoreWarnings] at this; omega
    have hold : ∀ x ∈ st.filters, ¬ (fun f : Nat × Filter => f.1 == st.next) x = true := fun x hx => by
      have := hs x hx
      simp only [beq_iff_eq]; omega
    split at hx
    · rw [List.nil_append, eraseP_ids _ _ hnew] at hx
      exact hnew x hx
    · simp only [ignoreWarnings, List.append_assoc] at hx
      rw [List.eraseP_append_right _ hold] at hx
      simp only [List.cons_append, List.nil_append, List.mem_append] at hx
      rcases hx with hx | hx
      · have := hs x hx
        simp only [ignoreWarnings]; omega
      · rw [List.eraseP_cons_of_pos (by simp)] at hx
        exact hnew x hx

/-- The states that code can reach from the empty one satisfy the hypothesis `Ok` of the theorems. -/
theorem C48_states (sub : Nat → Nat → Bool) (as : List Act) : (execAll sub as {}).2.Ok :=
  (execAll_does sub as {} (fun _ h => nomatch h)).ok (fun _ h => nomatch h)

/-- `C48_context_undone` with a nested context, a filter added and a failure caught inside of the block. -/
example : (exec (fun _ _ => true) (.within { lineno := some 1 }
      [.ignore { lineno := some 2 }, .within { lineno := some 3 } [.warn ⟨0, [], 3, []⟩], .warn ⟨0, [], 1, []⟩,
        .warn ⟨0, [], 7, []⟩, .attempt [.raise]]) {}).1 = false ∧
    ((exec (fun _ _ => true) (.within { lineno := some 1 }
      [.ignore { lineno := some 2 }, .within { lineno := some 3 } [.warn ⟨0, [], 3, []⟩], .warn ⟨0, [], 1, []⟩,
        .warn ⟨0, [], 7, []⟩, .attempt [.raise]]) {}).2.inForce.map (·.lineno) = [some 2]) ∧
    (exec (fun _ _ => true) (.within { lineno := some 1 }
      [.ignore { lineno := some 2 }, .within { lineno := some 3 } [.warn ⟨0, [], 3, []⟩], .warn ⟨0, [], 1, []⟩,
        .warn ⟨0, [], 7, []⟩, .attempt [.raise]]) {}).2.recorded = [⟨0, [], 7, []⟩] := by decide

mutual
/-- The warnings emitted by code when the filters `F` are in force, each with the filters in force when it is. -/
def emitted : Act → List Filter → List (W × List Filter)
  | .warn w, F => [(w, F)]
  | .within f body, F => emittedAll body (F ++ [f])
  | .attempt body, F => emittedAll body F
  | .ignore _, _ | .clear, _ | .raise, _ => []
/-- The same for a block. -/
def emittedAll : List Act → List Filter → List (W × List Filter)
  | [], _ => []
  | a :: as, F => emitted a F ++ if (eff true a).raises then [] else emittedAll as ((eff true a).apply F)
end

/-- Specification: the warnings not matched by any filter in force when they were emitted. -/
def unfiltered (sub : Nat → Nat → Bool) (l : List (W × List Filter)) : List W :=
  (l.filter (fun p => p.2.all (fun f => !f.matches sub p.1))).map (·.1)

theorem unfiltered_append (sub : Nat → Nat → Bool) (l m : List (W × List Filter)) :
    unfiltered sub (l ++ m) = unfiltered sub l ++ unfiltered sub m := by simp [unfiltered]

theorem capture_recorded (sub : Nat → Nat → Bool) (w : W) (st : St) :
    (capture sub w st).recorded = st.recorded ++ unfiltered sub [(w, st.inForce)] := by
  have h : shouldFilter sub st w = !(st.inForce.all (fun f => !f.matches sub w)) := by
    simp [shouldFilter, St.inForce, List.any_eq_not_all_not, Function.comp_def]
  unfold capture unfiltered
  rw [h]
  cases hb : st.inForce.all (fun f => !f.matches sub w) <;> simp [hb]

theorem leave_recorded (id : Nat) (r : Bool × St) : (leave id r).2.recorded = r.2.recorded := by
  obtain ⟨b, st⟩ := r
  cases b <;> rfl

mutual
theorem exec_recorded (sub : Nat → Nat → Bool) : ∀ (a : Act) (st : St), st.Ok →
    (exec sub a st).2.recorded = st.recorded ++ unfiltered sub (emitted a st.inForce)
  | .warn w, st, _ => by rw [exec, emitted]; exact capture_recorded sub w st
  | .ignore f, st, _ => by rw [exec, emitted]; simp [ignoreWarnings, unfiltered]
  | .clear, st, _ => by rw [exec, emitted]; simp [Warn.clear, unfiltered]
  | .raise, st, _ => by rw [exec, emitted]; simp [unfiltered]
  | .attempt body, st, hs => by rw [exec, emitted]; exact execAll_recorded sub body st hs
  | .within f body, st, hs => by
    have hs1 : (ignoreWarnings f st).2.Ok := by
      intro x hx
      simp only [ignoreWarnings, List.mem_append, List.mem_singleton] at hx ⊢
      rcases hx with hx | rfl
      · have := hs x hx; omega
      · simp
    have ih := execAll_recorded sub body (ignoreWarnings f st).2 hs1
    have hex : exec sub (.within f body) st = leave st.next (execAll sub body (ignoreWarnings f st).2) := by
      rw [exec]; rfl
    rw [hex, leave_recorded, ih, emitted]
    simp [ignoreWarnings, St.inForce]
theorem execAll_recorded (sub : Nat → Nat → Bool) : ∀ (as : List Act) (st : St), st.Ok →
    (execAll sub as st).2.recorded = st.recorded ++ unfiltered sub (emittedAll as st.inForce)
  | [], st, _ => by simp [execAll, emittedAll, unfiltered]
  | a :: as, st, hs => by
    have h1 := exec_does sub a st hs
    have ih1 := exec_recorded sub a st hs
    have ih2 := execAll_recorded sub as (exec sub a st).2 (h1.ok hs)
    rw [execAll_cons, emittedAll, h1.raises]
    split
    · rw [ih1, List.append_nil]
    · rw [ih2, ih1, h1.inForce, unfiltered_append, List.append_assoc]
end

/-- C48: whatever code is run, the recorded warnings are exactly those of the emitted ones that no filter in force at
that moment matches, in the order in which they were emitted; inside of a context its filter is in force. -/
theorem C48_recorded_exactly (sub : Nat → Nat → Bool) (as : List Act) (st : St) (hs : st.Ok) :
    (execAll sub as st).2.recorded = st.recorded ++ unfiltered sub (emittedAll as st.inForce) :=
  execAll_recorded sub as st hs

/-- Inside of the context the warnings that its filter matches are not recorded, unless filters are cleared. -/
example : (execAll (fun _ _ => true) [.within { lineno := some 1 } [.warn ⟨0, [], 1, []⟩, .clear, .warn ⟨0, [], 1, ['x']⟩]]
    {}).2.recorded = [⟨0, [], 1, ['x']⟩] := by decide

mutual
/-- Nothing in the code clears the filters. -/
def NoClear : Act → Prop
  | .clear => False
  | .within _ body | .attempt body => NoClearAll body
  | _ => True
/-- The same for a block. -/
def NoClearAll : List Act → Prop
  | [] => True
  | a :: as => NoClear a ∧ NoClearAll as
end

mutual
theorem noClear_eff (leak : Bool) : ∀ a, NoClear a → (eff leak a).clears = false
  | .warn _, _ | .ignore _, _ | .raise, _ => by simp [eff]
  | .clear, h => by simp [NoClear] at h
  | .attempt body, h => by rw [eff]; exact noClear_effAll leak body (by simpa [NoClear] using h)
  | .within f body, h => by
    have := noClear_effAll leak body (by simpa [NoClear] using h)
    rw [eff]
    split <;> exact this
theorem noClear_effAll (leak : Bool) : ∀ as, NoClearAll as → (effAll leak as).clears = false
  | [], _ => by simp [effAll]
  | a :: as, h => by
    have h : NoClear a ∧ NoClearAll as := by simpa [NoClearAll] using h
    have h1 := noClear_eff leak a h.1
    have h2 := noClear_effAll leak as h.2
    rw [effAll]
    simp only
    split
    · exact h1
    · simp [h1, h2]
end

mutual
theorem emitted_inForce (f : Filter) : ∀ (a : Act) (F : List Filter), NoClear a → f ∈ F →
    ∀ p ∈ emitted a F, f ∈ p.2
  | .warn w, F, _, hf => by simp [emitted, hf]
  | .ignore _, F, _, _ | .raise, F, _, _ => by simp [emitted]
  | .clear, F, h, _ => by simp [NoClear] at h
  | .attempt body, F, h, hf => by rw [emitted]; exact emittedAll_inForce f body F (by simpa [NoClear] using h) hf
  | .within g body, F, h, hf => by
    rw [emitted]; exact emittedAll_inForce f body _ (by simpa [NoClear] using h) (List.mem_append_left _ hf)
theorem emittedAll_inForce (f : Filter) : ∀ (as : List Act) (F : List Filter), NoClearAll as → f ∈ F →
    ∀ p ∈ emittedAll as F, f ∈ p.2
  | [], F, _, _ => by simp [emittedAll]
  | a :: as, F, h, hf => by
    have h : NoClear a ∧ NoClearAll as := by simpa [NoClearAll] using h
    intro p hp
    rw [emittedAll] at hp
    rcases List.mem_append.1 hp with hp | hp
    · exact emitted_inForce f a F h.1 hf p hp
    · split at hp
      · cases hp
      · refine emittedAll_inForce f as _ h.2 ?_ p hp
        simp [Eff.apply, noClear_eff true a h.1, hf]
end

/-- C48: unless filters are cleared, no warning recorded inside of the context is matched by its filter. -/
theorem C48_in_force_inside (sub : Nat → Nat → Bool) (f : Filter) (body : List Act) (hc : NoClearAll body) (st : St)
    (hs : st.Ok) :
    ∃ new, (exec sub (.within f body) st).2.recorded = st.recorded ++ new ∧ ∀ w ∈ new, f.matches sub w = false := by
  refine ⟨_, exec_recorded sub _ st hs, fun w hw => ?_⟩
  obtain ⟨p, hp, rfl⟩ := List.mem_map.1 hw
  obtain ⟨hp, ha⟩ := List.mem_filter.1 hp
  rw [emitted] at hp
  have := List.all_eq_true.1 ha f (emittedAll_inForce f body _ hc (by simp) p hp)
  simpa using this

example : NoClearAll [.warn ⟨0, [], 1, []⟩, .within { lineno := some 2 } [.ignore {}], .raise] := by 
  refine ⟨?_, ?_, ?_, ?_⟩ <;> simp [NoClearAll, NoClear]

/-- C52 is violated: if the block raises, the filter of the context stays. -/
theorem C52_restored_violated : ∃ (f : Filter) (body : List Act),
    (exec (fun _ _ => true) (.within f body) {}).1 = true ∧
      (exec (fun _ _ => true) (.within f body) {}).2.filters.length = 1 ∧
      (execAll (fun _ _ => true) body {}).2.filters = [] :=
  ⟨{ lineno := some 1 }, [.raise], by decide, by decide, rfl⟩

/-- C52 (partial): what is left behind by a context that is left by an exception is its own filter and nothing else: the
filters in force are those its block would have left on its own, with the context's filter put before the ones which the
block added; and if the block cleared the filters, exactly those its block would have left. -/
theorem C52_restored_partial (sub : Nat → Nat → Bool) (f : Filter) (body : List Act) (st : St) (hs : st.Ok)
    (hr : (exec sub (.within f body) st).1 = true) :
    (execAll sub body st).1 = true ∧
    ((∃ added, (execAll sub body st).2.inForce = st.inForce ++ added ∧
        (exec sub (.within f body) st).2.inForce = st.inForce ++ f :: added) ∨
      (exec sub (.within f body) st).2.inForce = (execAll sub body st).2.inForce) := by
  have h1 := exec_does sub (.within f body) st hs
  have h2 := execAll_does sub body st hs
  have hr' := h1.raises
  rw [h2.raises, h1.inForce, h2.inForce]
  rw [hr] at hr'
  rw [eff] at hr' ⊢
  clear h1 h2 hr
  generalize effAll true body = e at *
  obtain ⟨er, ec, ea⟩ := e
  cases er with
  | false => cases ec <;> exact absurd hr' (show ¬ true = false by decide)
  | true =>
    refine ⟨rfl, ?_⟩
    cases ec with
    | false => exact .inl ⟨ea, rfl, rfl⟩
    | true => exact .inr rfl

example : (exec (fun _ _ => true) (.within { lineno := some 1 } [.ignore { lineno := some 2 }, .raise]) {}).1 = true := by
  decide

end Slash.Warn
