import Verif.Model.TestRun
import Verif.Lemmas.FixtureLife
/-!
# Lemmas on running tests and the callbacks of fixtures
-/
namespace Slash.TestRun

open Slash.Fix (Env Steps Base)

/-- the elements up to the first one for which `p` holds, with it -/
def upTo {α : Type} (p : α → Bool) : List α → List α
  | [] => []
  | x :: xs => if p x then [x] else x :: upTo p xs

theorem upTo_eq_self {α : Type} {p : α → Bool} {l : List α} (h : ∀ x ∈ l, p x = false) : upTo p l = l := by
  induction l with
  | nil => rfl
  | cons x xs ih =>
    have h1 := h x (by simp)
    have h2 := ih (fun y hy => h y (by simp [hy]))
    simp [upTo, h1, h2]

theorem upTo_prefix {α : Type} (p : α → Bool) (l : List α) : upTo p l <+: l := by
  induction l with
  | nil => exact List.prefix_rfl
  | cons x xs ih =>
    unfold upTo
    split
    · exact ⟨xs, rfl⟩
    · obtain ⟨t, ht⟩ := ih
      exact ⟨t, by simp [ht]⟩

/-- what a list of callbacks raises -/
def firstRaise (cs : List Cb) : Option Kind := cs.findSome? (·.raises)

/-- the names of the callbacks that get called -/
def called (cs : List Cb) : List Nat := (upTo (·.raises.isSome) cs).map (·.tag)

/-- the events of the callbacks of one fixture -/
def evsOf (ev : Nat → Ev) (cs : List Cb) : List Ev := (called cs).map ev ++ (firstRaise cs).toList.map .recorded

theorem callbacks_eq (ev : Nat → Ev) (cs : List Cb) (st : St) : callbacks ev cs st =
    ((firstRaise cs).map (fun k => { kind := k }), { st with trace := st.trace ++ (called cs).map ev }) := by
  induction cs generalizing st with
  | nil => simp [callbacks, firstRaise, called, upTo]
  | cons c cs ih =>
    unfold callbacks
    cases h : c.raises with
    | some k => simp [firstRaise, called, upTo, h, St.emit]
    | none =>
      simp only [ih]
      simp [firstRaise, called, upTo, h, St.emit]

theorem handled_callbacks (ev : Nat → Ev) (cs : List Cb) (st : St) : handling (callbacks ev cs st) =
    ((firstRaise cs).map (fun k => { kind := k, handled := true }), { st with trace := st.trace ++ evsOf ev cs }) := by
  rw [callbacks_eq]
  cases h : firstRaise cs with
  | none => simp [handling, evsOf, h]
  | some k => simp [handling, handle, evsOf, h, St.emit]

theorem callEnd_eq (R : Nat → Reg) (n : Nat) (st : St) : callEnd R n st =
    ((firstRaise (R n).ends).map (fun k => { kind := k, handled := true }),
     { st with started := st.started.filter (· != n), trace := st.trace ++ evsOf (.fin n) (R n).ends }) := by
  unfold callEnd
  rw [handled_callbacks]

theorem callStart_eq (R : Nat → Reg) (n : Nat) (st : St) (h : n ∉ st.started) : callStart R n st =
    ((firstRaise (R n).starts).map (fun k => { kind := k, handled := true }),
     { st with started := n :: st.started, trace := st.trace ++ evsOf (.start n) (R n).starts }) := by
  unfold callStart
  rw [if_neg h, handled_callbacks]

/-- the fixtures whose start callbacks get called -/
def begun (R : Nat → Reg) (ns : List Nat) : List Nat := upTo (fun n => (firstRaise (R n).starts).isSome) ns

/-- whether the end callbacks of a fixture raise something that is not swallowed -/
def endEscapes (R : Nat → Reg) (n : Nat) : Option Kind :=
  match firstRaise (R n).ends with
  | some k => if k.escapes then some k else none
  | none => none

/-- the fixtures whose end callbacks get called -/
def ended (R : Nat → Reg) (ns : List Nat) : List Nat := upTo (fun n => (endEscapes R n).isSome) ns

theorem callStarts_eq (R : Nat → Reg) (ns : List Nat) (st : St) (hn : ns.Nodup) (h : ∀ n ∈ ns, n ∉ st.started) : callStarts R ns st =
    ((ns.findSome? (fun n => firstRaise (R n).starts)).map (fun k => { kind := k, handled := true }),
     { st with started := (begun R ns).reverse ++ st.started,
               trace := st.trace ++ (begun R ns).flatMap (fun n => evsOf (.start n) (R n).starts) }) := by
  induction ns generalizing st with
  | nil => simp [callStarts, begun, upTo]
  | cons n ns ih =>
    unfold callStarts
    rw [callStart_eq R n st (h n (by simp))]
    cases hr : firstRaise (R n).starts with
    | some k => simp [begun, upTo, hr]
    | none =>
      simp only [Option.map_none]
      rw [ih]
      · simp [begun, upTo, hr]
      · exact (List.nodup_cons.1 hn).2
      · intro m hm
        simp only [List.mem_cons, not_or]
        exact ⟨fun e => (List.nodup_cons.1 hn).1 (e ▸ hm), h m (by simp [hm])⟩

/-- without any assumption -/
theorem callStarts_gen (R : Nat → Reg) (ns : List Nat) (st : St) : ∃ d s,
    (callStarts R ns st).2 = { st with started := s, trace := st.trace ++ d } ∧ (∀ n ∈ s, n ∈ st.started ∨ n ∈ ns) ∧
    (∀ e ∈ d, (∃ n t, e = .start n t) ∨ ∃ k, e = .recorded k) := by
  induction ns generalizing st with
  | nil => exact ⟨[], st.started, by simp [callStarts], by simp, by simp⟩
  | cons n ns ih =>
    unfold callStarts
    by_cases h : n ∈ st.started
    · have h1 : callStart R n st = (none, st) := by unfold callStart; rw [if_pos h]
      rw [h1]
      obtain ⟨d, s, h1, h2, h3⟩ := ih st
      exact ⟨d, s, h1, fun m hm => (h2 m hm).elim .inl (fun h => .inr (by simp [h])), h3⟩
    · rw [callStart_eq R n st h]
      have hev : ∀ e ∈ evsOf (.start n) (R n).starts, (∃ n t, e = .start n t) ∨ ∃ k, e = .recorded k := by
        intro e he
        unfold evsOf at he
        rcases List.mem_append.1 he with he | he
        · obtain ⟨t, -, rfl⟩ := List.mem_map.1 he; exact .inl ⟨_, _, rfl⟩
        · obtain ⟨t, -, rfl⟩ := List.mem_map.1 he; exact .inr ⟨_, rfl⟩
      cases hr : firstRaise (R n).starts with
      | some k =>
        refine ⟨_, _, rfl, ?_, hev⟩
        intro m hm
        rcases List.mem_cons.1 hm with rfl | hm
        · exact .inr (by simp)
        · exact .inl hm
      | none =>
        simp only [Option.map_none]
        obtain ⟨d, s, h1, h2, h3⟩ := ih { st with started := n :: st.started, trace := st.trace ++ evsOf (.start n) (R n).starts }
        refine ⟨evsOf (.start n) (R n).starts ++ d, s, ?_, ?_, ?_⟩
        · rw [h1]; simp
        · intro m hm
          rcases h2 m hm with h | h
          · rcases List.mem_cons.1 h with rfl | h
            · exact .inr (by simp)
            · exact .inl h
          · exact .inr (by simp [h])
        · intro e he
          rcases List.mem_append.1 he with he | he
          · exact hev e he
          · exact h3 e he

theorem callEnds_eq (R : Nat → Reg) (ns : List Nat) (st : St) : callEnds R ns st =
    ((ns.findSome? (endEscapes R)).map (fun k => { kind := k, handled := true }),
     { st with started := st.started.filter (fun m => !decide (m ∈ ended R ns)),
               trace := st.trace ++ (ended R ns).flatMap (fun n => evsOf (.fin n) (R n).ends) }) := by
  induction ns generalizing st with
  | nil =>
    have : st.started.filter (fun _ => true) = st.started := List.filter_eq_self.2 (by simp)
    simp [callEnds, ended, upTo, this]
  | cons n ns ih =>
    unfold callEnds
    rw [callEnd_eq]
    have hf : ∀ l : List Nat, (st.started.filter (· != n)).filter (fun m => !decide (m ∈ l)) = st.started.filter (fun m => !decide (m ∈ n :: l)) := by
      intro l
      rw [List.filter_filter]
      apply List.filter_congr
      intro m _
      by_cases e : m = n <;> by_cases h : m ∈ l <;> simp [e, h]
    have h0 := hf []
    cases hr : firstRaise (R n).ends with
    | none =>
      have he : endEscapes R n = none := by simp [endEscapes, hr]
      simp only [Option.map_none]
      rw [ih]
      simp only [ended, upTo, he, List.findSome?_cons, Option.isSome_none, Bool.false_eq_true, if_false, List.flatMap_cons,
        List.append_assoc]
      rw [← hf]
      rfl
    | some k =>
      simp only [Option.map_some]
      by_cases hk : k.escapes = true
      · have he : endEscapes R n = some k := by simp [endEscapes, hr, hk]
        simp only [hk, if_true, ended, upTo, he, List.findSome?_cons, Option.isSome_some, List.flatMap_cons, List.flatMap_nil,
          List.append_nil, Option.map_some]
        rw [← h0]
        simp
      · have he : endEscapes R n = none := by simp [endEscapes, hr, hk]
        rw [if_neg hk, ih]
        simp only [ended, upTo, he, List.findSome?_cons, Option.isSome_none, Bool.false_eq_true, if_false, List.flatMap_cons,
          List.append_assoc]
        rw [← hf]
        rfl

/-! ## The store -/

/-- what setting up and ending scopes do to the active fixtures -/
structure Later (s s' : Fix.St) : Prop where
  clock : s.clock ≤ s'.clock
  active : ∀ a ∈ s'.active, a ∈ s.active ∨ s.clock ≤ a.value
  keys : s.keys.Nodup → s'.keys.Nodup

theorem Later.refl (s : Fix.St) : Later s s := ⟨Nat.le_refl _, fun _ h => .inl h, id⟩

theorem Later.trans {a b c : Fix.St} (h1 : Later a b) (h2 : Later b c) : Later a c :=
  ⟨Nat.le_trans h1.clock h2.clock, fun x hx => (h2.active x hx).elim (h1.active x) (fun h => .inr (Nat.le_trans h1.clock h)),
   fun h => h2.keys (h1.keys h)⟩

theorem later_deactivate (f : Nat) (s : Fix.St) : Later s (Fix.deactivate f s).2 := by
  cases hg : Fix.getActive s f with
  | none => rw [Fix.deactivate_none hg]; exact .refl _
  | some a =>
    obtain ⟨d, h1, -, -⟩ := Fix.deactivate_some hg
    rw [h1]
    exact ⟨Nat.le_refl _, fun x hx => .inl (List.mem_filter.1 hx).1, id⟩

theorem later_touch (k : Nat) (s : Fix.St) : Later s (Fix.touch k s) := by
  unfold Fix.touch
  split
  · exact .refl _
  · rename_i h
    refine ⟨Nat.le_refl _, fun _ h => .inl h, fun hn => ?_⟩
    rw [List.nodup_append]
    exact ⟨hn, by simp, fun a ha b hb => by simp at hb; subst hb; exact fun e => h (e ▸ ha)⟩

theorem steps_later {E : Env} {s s' : Fix.St} (h : Steps E s s') : Later s s' := by
  induction h with
  | refl => exact .refl _
  | touch k _ ih => exact ih.trans (later_touch k _)
  | comp c _ ih => exact ih.trans ⟨Nat.le_refl _, fun _ h => .inl h, id⟩
  | deact f _ ih => exact ih.trans (later_deactivate f _)
  | act f vs _ _ _ ih =>
    refine ih.trans ⟨Nat.le_succ _, ?_, id⟩
    intro a ha
    rcases List.mem_append.1 ha with ha | ha
    · exact .inl ha
    · simp at ha; subst ha; exact .inr (Nat.le_refl _)

theorem later_popLoop (fs : List Nat) (s : Fix.St) : Later s (Fix.popLoop fs s).2 := by
  induction fs generalizing s with
  | nil => exact .refl _
  | cons f fs ih =>
    simp only [Fix.popLoop]
    have h := later_deactivate f s
    generalize Fix.deactivate f s = p at h ⊢
    rcases p with ⟨r, s1⟩
    cases r with
    | none => exact h.trans (ih s1)
    | some k =>
      simp only
      split
      · exact h
      · exact h.trans (ih s1)

theorem later_popScopes (D : Nat → FG.FDef) (s : Nat) (ks : List Nat) (st : Fix.St) : Later st (Fix.popScopes D s ks st).2 := by
  induction ks generalizing st with
  | nil => exact .refl _
  | cons k ks ih =>
    simp only [Fix.popScopes]
    split
    · have h := later_popLoop ((st.active.filter (fun a => (D a.id).scope == k)).map (·.id)).reverse st
      generalize Fix.popLoop ((st.active.filter (fun a => (D a.id).scope == k)).map (·.id)).reverse st = p at h ⊢
      rcases p with ⟨r, st1⟩
      cases r with
      | none => exact h.trans (ih st1)
      | some e => exact h
    · exact ih st

theorem later_popScope (D : Nat → FG.FDef) (s : Nat) (i : Bool) (st : Fix.St) : Later st (Fix.popScope D s i st).2 := by
  unfold Fix.popScope
  split
  · exact .refl _
  · exact later_popScopes D s _ st

theorem later_setup (E : Env) (fuel : Nat) (fs : List Nat) (s : Fix.St) : Later s (Fix.setup E fuel fs s).2 :=
  steps_later (Fix.setup_steps E fuel fs s)

/-- the active fixtures, in the order of the callbacks -/
theorem iterActive_perm {D B} {s : Fix.St} (hb : Base D B s) (hk : s.keys.Nodup) : (iterActive D s).Perm (s.active.map (·.value)) := by
  have gen : ∀ (ks : List Nat) (l : List Fix.Act), ks.Nodup → (∀ a ∈ l, (D a.id).scope ∈ ks) →
      (ks.flatMap (fun k => (l.filter (fun a => (D a.id).scope == k)).map (·.value))).Perm (l.map (·.value)) := by
    intro ks
    induction ks with
    | nil =>
      intro l _ h
      cases l with
      | nil => simp
      | cons a l => exact absurd (h a (by simp)) (by simp)
    | cons k ks ih =>
      intro l hn h
      obtain ⟨h1, h2⟩ := List.nodup_cons.1 hn
      have e : ks.flatMap (fun k => (l.filter (fun a => (D a.id).scope == k)).map (·.value)) =
          ks.flatMap (fun k' => ((l.filter (fun a => (D a.id).scope != k)).filter (fun a => (D a.id).scope == k')).map (·.value)) := by
        have : ∀ ks' : List Nat, k ∉ ks' → ks'.flatMap (fun k => (l.filter (fun a => (D a.id).scope == k)).map (·.value)) =
          ks'.flatMap (fun k' => ((l.filter (fun a => (D a.id).scope != k)).filter (fun a => (D a.id).scope == k')).map (·.value)) := by
          intro ks'
          induction ks' with
          | nil => intro _; rfl
          | cons k' ks' ih' =>
            intro hm
            simp only [List.mem_cons, not_or] at hm
            simp only [List.flatMap_cons]
            rw [ih' hm.2]
            congr 1
            rw [List.filter_filter]
            congr 1
            apply List.filter_congr
            intro a _
            by_cases e : (D a.id).scope = k'
            · have : k' ≠ k := fun h => hm.1 h.symm
              simp [e, this]
            · simp [e]
        exact this ks h1
      simp only [List.flatMap_cons]
      rw [e]
      have := ih (l.filter (fun a => (D a.id).scope != k)) h2 (by
        intro a ha
        have hm := List.mem_filter.1 ha
        rcases List.mem_cons.1 (h a hm.1) with h' | h'
        · simp [h'] at hm
        · exact h')
      refine (List.Perm.append_left _ this).trans ?_
      rw [← List.map_append]
      apply List.Perm.map
      have := List.filter_append_perm (fun a : Fix.Act => (D a.id).scope == k) l
      simpa [bne] using this
  exact gen s.keys s.active hk hb.keys

theorem iterActive_nodup {D B} {s : Fix.St} (hb : Base D B s) (hk : s.keys.Nodup) : (iterActive D s).Nodup := by
  rw [(iterActive_perm hb hk).nodup_iff]
  have := hb.sorted
  refine List.pairwise_map.2 (this.imp ?_)
  intro a b h e
  omega

/-- what holds of the store and the marks at any time -/
structure Inv (D : Nat → FG.FDef) (B : Nat → Nat → Fix.Body) (st : St) : Prop where
  base : Base D B st.store
  keys : st.store.keys.Nodup
  lt : ∀ n ∈ st.started, n < st.store.clock

/-- no active fixture is marked -/
def Fresh (st : St) : Prop := ∀ a ∈ st.store.active, a.value ∉ st.started

theorem Inv.init (D : Nat → FG.FDef) (B : Nat → Nat → Fix.Body) : Inv D B {} :=
  ⟨Fix.base_init D B, by simp, by simp⟩

theorem Inv.later {D B} {st : St} (h : Inv D B st) {s : Fix.St} (hs : Later st.store s) (hb : Base D B s) : Inv D B { st with store := s } :=
  ⟨hb, hs.keys h.keys, fun n hn => Nat.lt_of_lt_of_le (h.lt n hn) hs.clock⟩

theorem Fresh.later {D B} {st : St} (hf : Fresh st) (h : Inv D B st) {s : Fix.St} (hs : Later st.store s) : Fresh { st with store := s } := by
  intro a ha hm
  rcases hs.active a ha with h1 | h1
  · exact hf a h1 hm
  · exact absurd (h.lt _ hm) (by omega)

/-! ## Calling with fixtures -/

/-- `callWith` up to the end callbacks -/
def mid (E : Env) (R : Nat → Reg) (p : Part) (f : Fn) (ts : Bool) (s : Fix.St) (st : St) : Option Exn × St :=
  match (if ts then callStarts R (iterActive E.defs s) { st with store := s } else (none, { st with store := s })) with
  | (some x, st) => (some x, st)
  | (none, st) => (f.raises.map (fun k => { kind := k }), st.emit (.call p))

theorem callWith_error {E : Env} {R : Nat → Reg} {fuel : Nat} {p : Part} {f : Fn} {ts te : Bool} {st : St} {e : Fix.Err} {s : Fix.St}
    (h : Fix.setup E fuel f.needs st.store = (.error e, s)) : callWith E R fuel p f ts te st = (some (exnOf e), { st with store := s }) := by
  unfold callWith
  rw [h]

theorem callWith_ok {E : Env} {R : Nat → Reg} {fuel : Nat} {p : Part} {f : Fn} {ts : Bool} {st : St} {vs : List Nat} {s : Fix.St}
    (h : Fix.setup E fuel f.needs st.store = (.ok vs, s)) : callWith E R fuel p f ts false st = mid E R p f ts s st := by
  unfold callWith
  rw [h]
  rfl

theorem callWith_ok_end {E : Env} {R : Nat → Reg} {fuel : Nat} {p : Part} {f : Fn} {ts : Bool} {st : St} {vs : List Nat} {s : Fix.St}
    (h : Fix.setup E fuel f.needs st.store = (.ok vs, s)) : callWith E R fuel p f ts true st =
      (match (iterActive E.defs s).findSome? (endEscapes R) with
       | some k => some { kind := k, handled := true }
       | none => (mid E R p f ts s st).1,
       { (mid E R p f ts s st).2 with
           started := (mid E R p f ts s st).2.started.filter (fun m => !decide (m ∈ ended R (iterActive E.defs s))),
           trace := (mid E R p f ts s st).2.trace ++ (ended R (iterActive E.defs s)).flatMap (fun n => evsOf (.fin n) (R n).ends) }) := by
  have h0 : callWith E R fuel p f ts true st =
      match callEnds R (iterActive E.defs s) (mid E R p f ts s st).2 with
      | (some x, st') => (some x, st')
      | (none, st') => ((mid E R p f ts s st).1, st') := by
    unfold callWith
    rw [h]
    rfl
  rw [h0, callEnds_eq]
  cases (iterActive E.defs s).findSome? (endEscapes R) <;> rfl

/-- the events before the end callbacks -/
theorem mid_gen (E : Env) (R : Nat → Reg) (p : Part) (f : Fn) (ts : Bool) (s : Fix.St) (st : St) : ∃ d s',
    (mid E R p f ts s st).2 = { store := s, started := s', trace := st.trace ++ d } ∧
    (∀ n ∈ s', n ∈ st.started ∨ ts = true ∧ n ∈ iterActive E.defs s) ∧
    (∀ e ∈ d, (ts = true ∧ ∃ n t, e = .start n t) ∨ (ts = true ∧ ∃ k, e = .recorded k) ∨ e = .call p) := by
  unfold mid
  cases ts with
  | false => exact ⟨[.call p], st.started, rfl, fun n hn => .inl hn, by simp⟩
  | true =>
    rw [if_pos rfl]
    obtain ⟨d, s', h1, h2, h3⟩ := callStarts_gen R (iterActive E.defs s) { st with store := s }
    generalize callStarts R (iterActive E.defs s) { st with store := s } = r at h1 ⊢
    rcases r with ⟨x, st1⟩
    simp only at h1
    subst h1
    cases x with
    | some x =>
      exact ⟨d, s', rfl, fun n hn => (h2 n hn).elim .inl (fun h => .inr ⟨rfl, h⟩), fun e he => (h3 e he).elim (fun h => .inl ⟨rfl, h⟩) (fun h => .inr (.inl ⟨rfl, h⟩))⟩
    | none =>
      refine ⟨d ++ [.call p], s', by simp [St.emit], fun n hn => (h2 n hn).elim .inl (fun h => .inr ⟨rfl, h⟩), ?_⟩
      intro e he
      rcases List.mem_append.1 he with he | he
      · exact (h3 e he).elim (fun h => .inl ⟨rfl, h⟩) (fun h => .inr (.inl ⟨rfl, h⟩))
      · simp at he; exact .inr (.inr he)

theorem mid_false (E : Env) (R : Nat → Reg) (p : Part) (f : Fn) (s : Fix.St) (st : St) : mid E R p f false s st =
    (f.raises.map (fun k => { kind := k }), { st with store := s, trace := st.trace ++ [.call p] }) := rfl

theorem mid_fresh {E : Env} {R : Nat → Reg} {p : Part} {f : Fn} {s : Fix.St} {st : St} (hn : (iterActive E.defs s).Nodup)
    (h : ∀ n ∈ iterActive E.defs s, n ∉ st.started) : mid E R p f true s st =
      (match (iterActive E.defs s).findSome? (fun n => firstRaise (R n).starts) with
       | some k => (some { kind := k, handled := true },
           { store := s, started := (begun R (iterActive E.defs s)).reverse ++ st.started,
             trace := st.trace ++ (begun R (iterActive E.defs s)).flatMap (fun n => evsOf (.start n) (R n).starts) })
       | none => (f.raises.map (fun k => { kind := k }),
           { store := s, started := (iterActive E.defs s).reverse ++ st.started,
             trace := st.trace ++ (iterActive E.defs s).flatMap (fun n => evsOf (.start n) (R n).starts) ++ [.call p] })) := by
  unfold mid
  rw [if_pos rfl, callStarts_eq R _ { st with store := s } hn h]
  cases hf : (iterActive E.defs s).findSome? (fun n => firstRaise (R n).starts) with
  | some k => rfl
  | none =>
    have : begun R (iterActive E.defs s) = iterActive E.defs s := by
      unfold begun
      refine upTo_eq_self ?_
      intro n hn
      have := List.findSome?_eq_none_iff.1 hf n hn
      simp [this]
    simp only [this, Option.map_none, St.emit]

/-- the marks are gone when the end callbacks were called -/
theorem ended_all {R : Nat → Reg} (hR : ∀ n, ∀ c ∈ (R n).ends, ∀ k, c.raises = some k → k.escapes = false) (ns : List Nat) :
    ended R ns = ns ∧ ns.findSome? (endEscapes R) = none := by
  have h : ∀ n, endEscapes R n = none := by
    intro n
    unfold endEscapes
    split
    · rename_i k hk
      obtain ⟨c, hc, h⟩ := List.exists_of_findSome?_eq_some hk
      simp [hR n c hc k h]
    · rfl
  exact ⟨upTo_eq_self (fun n _ => by simp [h n]), List.findSome?_eq_none_iff.2 (fun n _ => h n)⟩

theorem base_setup {E : Env} {fuel : Nat} {fs : List Nat} {s : Fix.St} (h : Base E.defs E.body s) :
    Base E.defs E.body (Fix.setup E fuel fs s).2 := h.steps (Fix.setup_steps E fuel fs s)

theorem callWith_inv {E : Env} (R : Nat → Reg) (fuel : Nat) (p : Part) (f : Fn) (ts te : Bool) {st : St} (h : Inv E.defs E.body st) :
    Inv E.defs E.body (callWith E R fuel p f ts te st).2 := by
  have hl := later_setup E fuel f.needs st.store
  have hb := base_setup (fuel := fuel) (fs := f.needs) h.base
  cases hs : Fix.setup E fuel f.needs st.store with
  | mk r s =>
    rw [hs] at hl hb
    cases r with
    | error e => rw [callWith_error hs]; exact h.later hl hb
    | ok vs =>
      obtain ⟨d, s', h1, h2, h3⟩ := mid_gen E R p f ts s st
      have hlt : ∀ n ∈ s', n < s.clock := by
        intro n hn
        rcases h2 n hn with h' | ⟨-, h'⟩
        · exact Nat.lt_of_lt_of_le (h.lt n h') hl.clock
        · have := (iterActive_perm hb (hl.keys h.keys)).mem_iff.1 h'
          obtain ⟨a, ha, rfl⟩ := List.mem_map.1 this
          exact hb.lt a ha
      cases te with
      | false =>
        rw [callWith_ok hs, h1]
        exact ⟨hb, hl.keys h.keys, hlt⟩
      | true =>
        rw [callWith_ok_end hs, h1]
        exact ⟨hb, hl.keys h.keys, fun n hn => hlt n (List.mem_filter.1 hn).1⟩

theorem handling_inv {D B} {r : Option Exn × St} (h : Inv D B r.2) : Inv D B (handling r).2 := by
  rcases r with ⟨x, st⟩
  cases x with
  | none => exact h
  | some x =>
    simp only [handling, handle]
    split
    · exact h
    · exact ⟨h.base, h.keys, h.lt⟩

theorem handling_store (r : Option Exn × St) : (handling r).2.store = r.2.store ∧ (handling r).2.started = r.2.started ∧
    ((handling r).1 = none ↔ r.1 = none) ∧
    ∃ d, (handling r).2.trace = r.2.trace ++ d ∧ ∀ e ∈ d, ∃ k, e = .recorded k := by
  rcases r with ⟨x, st⟩
  cases x with
  | none => exact ⟨rfl, rfl, by simp [handling], [], by simp [handling], by simp⟩
  | some x =>
    simp only [handling, handle]
    split
    · exact ⟨rfl, rfl, by simp, [], by simp, by simp⟩
    · exact ⟨rfl, rfl, by simp, [.recorded x.kind], rfl, by simp⟩

theorem runClass_inv {E : Env} (R : Nat → Reg) (fuel : Nat) (c : Cls) {st : St} (h : Inv E.defs E.body st) :
    Inv E.defs E.body (runClass E R fuel c st).2 := by
  unfold runClass
  have h1 := callWith_inv R fuel .before c.before false false h
  generalize callWith E R fuel .before c.before false false st = r1 at h1 ⊢
  rcases r1 with ⟨x, st1⟩
  cases x with
  | some x => exact h1
  | none =>
    simp only
    have h2 := callWith_inv R fuel .test c.method true false h1
    have h3 := handling_inv (r := (noGenerator c.method (callWith E R fuel .test c.method true false st1).1, (callWith E R fuel .test c.method true false st1).2)) h2
    have h4 := handling_inv (callWith_inv R fuel .after c.after false true h3)
    split
    · rename_i h'; rw [h'] at h4; exact h4
    · rename_i h'; rw [h'] at h4; exact h4

theorem step_inv {D : Nat → FG.FDef} {B : Nat → Nat → Fix.Body} (R : Nat → Reg) (fuel : Nat) (op : Op) {st : St} (h : Inv D B st) :
    Inv D B (step D B R fuel op st).2 := by
  cases op with
  | function P v f => exact callWith_inv (E := { defs := D, params := P, var := v, body := B }) R fuel .test f true true h
  | cls P v c => exact runClass_inv (E := { defs := D, params := P, var := v, body := B }) R fuel c h
  | scopeEnd s i =>
    have hl := later_popScope D s i st.store
    have hb := Fix.popScope_base s i st.store h.base
    simp only [step]
    generalize Fix.popScope D s i st.store = r at hl hb ⊢
    rcases r with ⟨x, s⟩
    cases x <;> exact h.later hl hb

theorem steps_inv {D : Nat → FG.FDef} {B : Nat → Nat → Fix.Body} (R : Nat → Reg) (fuel : Nat) (ops : List Op) {st : St} (h : Inv D B st) :
    Inv D B (steps D B R fuel ops st) := by
  induction ops generalizing st with
  | nil => exact h
  | cons op ops ih => exact ih (step_inv R fuel op h)

end Slash.TestRun
