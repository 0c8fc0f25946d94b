import Verif.Model.UseFixtures
import Verif.Lemmas.Util
/-!
# C188: fixtures that are used through `use_fixtures`
-/
namespace Slash.Use
open Slash.Args (Name Elem requiredNames fixturesSet)

/-- The fixtures that a test uses: those of its arguments (but `this` and its parameters), those it names with `use_fixtures`, and those that are named
with `use_fixtures` on fixtures that it uses. -/
inductive Reached (S : Store) (t : Fn) : Nat → Prop
  | argument (a r : Name) (f : Nat) : (a, r) ∈ t.args → a ∉ t.params.map (·.1) → ¬ (a = r ∧ a = ['t', 'h', 'i', 's']) → S.lookup r = some f → Reached S t f
  | named (x : Name) (f : Nat) : x ∈ t.extra → x ≠ ['t', 'h', 'i', 's'] → S.lookup x = some f → Reached S t f
  | step (g : Nat) (x : Name) (f : Nat) : Reached S t g → x ∈ S.extra g → x ≠ ['t', 'h', 'i', 's'] → S.lookup x = some f → Reached S t f

/-- A fixture, the fixtures it takes as arguments, those they take, and so on. -/
inductive Below (S : Store) (f : Nat) : Nat → Prop
  | self : Below S f f
  | arg (g d : Nat) : Below S f g → d ∈ S.args g → Below S f d

/-- The same as `Reached`, for the elements from which a set is made. -/
inductive Used (S : Store) (es : List Elem) : Nat → Prop
  | root (e : Elem) (f : Nat) : e ∈ es → e ≠ Args.this → S.lookup e.real = some f → Used S es f
  | step (g : Nat) (x : Name) (f : Nat) : Used S es g → x ∈ S.extra g → Elem.one x ≠ Args.this → S.lookup x = some f → Used S es f

theorem Used.mono {S : Store} {es es' : List Elem} (h : ∀ e ∈ es, e ∈ es') {f : Nat} (hu : Used S es f) : Used S es' f := by
  induction hu with
  | root e f he h1 h2 => exact .root e f (h e he) h1 h2
  | step g x f _ h1 h2 h3 ih => exact .step g x f ih h1 h2 h3

theorem Used.trans {S : Store} {es : List Elem} {g : Nat} (hg : Used S es g) {f : Nat} (hu : Used S ((S.extra g).map .one) f) : Used S es f := by
  induction hu with
  | root e f he h1 h2 =>
    obtain ⟨x, hx, rfl⟩ := List.mem_map.1 he
    exact .step g x f hg hx h1 h2
  | step g' x f _ h1 h2 h3 ih => exact .step g' x f ih h1 h2 h3

theorem Used.cons {S : Store} {e : Elem} {es : List Elem} {f : Nat} (hu : Used S (e :: es) f) :
    (e ≠ Args.this ∧ ∃ g, S.lookup e.real = some g ∧ (f = g ∨ Used S ((S.extra g).map .one) f)) ∨ Used S es f := by
  induction hu with
  | root e' f he h1 h2 =>
    rcases List.mem_cons.1 he with rfl | he
    · exact .inl ⟨h1, f, h2, .inl rfl⟩
    · exact .inr (.root e' f he h1 h2)
  | step g x f _ h1 h2 h3 ih =>
    rcases ih with ⟨a, g', b, c⟩ | h
    · refine .inl ⟨a, g', b, .inr ?_⟩
      rcases c with rfl | c
      · exact .root (.one x) f (List.mem_map.2 ⟨x, h1, rfl⟩) h2 h3
      · exact .step g x f c h1 h2 h3
    · exact .inr (.step g x f h h1 h2 h3)

theorem mem_addSet2 (x : Name × Nat) (s : List (Name × Nat)) (f : Nat) : f ∈ (Args.addSet x s).map (·.2) ↔ f = x.2 ∨ f ∈ s.map (·.2) := by
  unfold Args.addSet
  split
  · rename_i h
    have h' : x ∈ s := by simpa using h
    constructor
    · exact .inr
    · rintro (rfl | h)
      · exact List.mem_map.2 ⟨x, h', rfl⟩
      · exact h
  · simp only [List.map_append, List.mem_append, List.map_cons, List.map_nil, List.mem_singleton]
    exact or_comm

/-- The members of the set. -/
theorem set_used (S : Store) (n : Nat) : ∀ (es : List Elem) (s s' : List (Name × Nat)), fixturesSet S.lookup S.extra n es s = .ok s' →
    ∀ f, f ∈ s'.map (·.2) ↔ f ∈ s.map (·.2) ∨ Used S es f := by
  induction n with
  | zero => intro es s s' h; cases h
  | succ n ih =>
    intro es s s' h f
    cases es with
    | nil =>
      simp only [fixturesSet, Args.R.ok.injEq] at h
      subst h
      constructor
      · exact .inl
      · rintro (h | h)
        · exact h
        · exfalso
          generalize hes : ([] : List Elem) = es at h
          induction h with
          | root e f he => subst hes; cases he
          | step _ _ _ _ _ _ _ ih' => exact ih'
    | cons e es =>
      simp only [fixturesSet] at h
      split at h
      · rename_i he
        rw [ih _ _ _ h]
        constructor
        · rintro (h | h)
          · exact .inl h
          · exact .inr (h.mono (fun _ => List.mem_cons_of_mem _))
        · rintro (h | h)
          · exact .inl h
          · rcases h.cons with ⟨a, _⟩ | h
            · exact absurd he a
            · exact .inr h
      · rename_i hne
        cases hl : S.lookup e.real with
        | none => rw [hl] at h; cases h
        | some g =>
          rw [hl] at h
          dsimp only at h
          cases h1 : fixturesSet S.lookup S.extra n ((S.extra g).map .one) (Args.addSet (e.arg, g) s) with
          | unknown => rw [h1] at h; cases h
          | deep => rw [h1] at h; cases h
          | ok s1 =>
            rw [h1] at h
            dsimp only at h
            rw [ih _ _ _ h, ih _ _ _ h1, mem_addSet2]
            have hroot : Used S (e :: es) g := .root e g (by simp) hne hl
            constructor
            · rintro (((h | h) | h) | h)
              · exact .inr (h ▸ hroot)
              · exact .inl h
              · exact .inr (hroot.trans h)
              · exact .inr (h.mono (fun _ => List.mem_cons_of_mem _))
            · rintro (h | h)
              · exact .inl (.inl (.inr h))
              · rcases h.cons with ⟨_, g', a, b⟩ | h
                · rw [hl] at a
                  cases a
                  rcases b with rfl | b
                  · exact .inl (.inl (.inl rfl))
                  · exact .inl (.inr b)
                · exact .inr h

/-- Making the set goes into each fixture that is used. -/
theorem set_into (S : Store) (n : Nat) : ∀ (es : List Elem) (s s' : List (Name × Nat)), fixturesSet S.lookup S.extra n es s = .ok s' →
    ∀ f, Used S es f → ∃ m, m < n ∧ ∃ s1 s2, fixturesSet S.lookup S.extra m ((S.extra f).map .one) s1 = .ok s2 := by
  induction n with
  | zero => intro es s s' h; cases h
  | succ n ih =>
    intro es s s' h f hu
    cases es with
    | nil =>
      exfalso
      generalize hes : ([] : List Elem) = es at hu
      induction hu with
      | root e f he => subst hes; cases he
      | step _ _ _ _ _ _ _ ih' => exact ih'
    | cons e es =>
      simp only [fixturesSet] at h
      split at h
      · rename_i he
        rcases hu.cons with ⟨a, _⟩ | hu
        · exact absurd he a
        · obtain ⟨m, hm, r⟩ := ih _ _ _ h f hu
          exact ⟨m, by omega, r⟩
      · cases hl : S.lookup e.real with
        | none => rw [hl] at h; cases h
        | some g =>
          rw [hl] at h
          dsimp only at h
          cases h1 : fixturesSet S.lookup S.extra n ((S.extra g).map .one) (Args.addSet (e.arg, g) s) with
          | unknown => rw [h1] at h; cases h
          | deep => rw [h1] at h; cases h
          | ok s1 =>
            rw [h1] at h
            dsimp only at h
            rcases hu.cons with ⟨_, g', a, b⟩ | hu
            · rw [hl] at a
              cases a
              rcases b with rfl | b
              · exact ⟨n, by omega, _, _, h1⟩
              · obtain ⟨m, hm, r⟩ := ih _ _ _ h1 f b
                exact ⟨m, by omega, r⟩
            · obtain ⟨m, hm, r⟩ := ih _ _ _ h f hu
              exact ⟨m, by omega, r⟩

theorem set_cycle (S : Store) (f : Nat) (hf : Used S ((S.extra f).map .one) f) (n : Nat) :
    ∀ s s', fixturesSet S.lookup S.extra n ((S.extra f).map .one) s ≠ .ok s' := by
  induction n using Nat.strongRecOn with
  | ind n ih =>
    intro s s' h
    obtain ⟨m, hm, s1, s2, h1⟩ := set_into S n _ _ _ h f hf
    exact ih m hm s1 s2 h1

/-- What is true of the functions that were called: each was called once, none of them was active at first, and each after those of its arguments. -/
structure Part (S : Store) (act0 : List Nat) (st : St) : Prop where
  nodup : st.ran.Nodup
  fresh : ∀ f ∈ st.ran, f ∉ act0
  order : ∀ l1 f l2, st.ran = l1 ++ f :: l2 → ∀ d ∈ S.args f, d ∈ act0 ∨ d ∈ l1

/-- As long as nothing was raised, those that are active are those that were at first and those whose functions were called. -/
structure Inv (S : Store) (act0 : List Nat) (st : St) : Prop extends Part S act0 st where
  active : ∀ f, f ∈ st.active ↔ f ∈ act0 ∨ f ∈ st.ran

/-- What computing values does. -/
structure Res (S : Store) (V act0 path roots : List Nat) (st : St) (r : Out × St) : Prop where
  part : Part S act0 r.2
  ok : r.1 = .ok → Inv S act0 r.2 ∧ ∀ f ∈ roots, f ∈ r.2.active ∧ ∀ p ∈ S.needs f, p ∈ V
  path : ∀ g ∈ path, g ∈ r.2.active → g ∈ st.active
  mono : ∀ g ∈ st.active, g ∈ r.2.active
  ran : ∀ g ∈ r.2.ran, g ∈ st.ran ∨ ∃ f ∈ roots, Below S f g

theorem each_res (S : Store) (V act0 path : List Nat) (c : Nat → St → Out × St)
    (hc : ∀ f st, Inv S act0 st → Res S V act0 path [f] st (c f st)) (fs : List Nat) :
    ∀ st, Inv S act0 st → Res S V act0 path fs st (each c fs st) := by
  induction fs with
  | nil => intro st hi; exact ⟨hi.toPart, fun _ => ⟨hi, by simp⟩, fun _ _ h => h, fun _ h => h, fun _ h => .inl h⟩
  | cons f fs ih =>
    intro st hi
    have h1 := hc f st hi
    simp only [each]
    have hbad : ∀ r : Out × St, Res S V act0 path [f] st r → r.1 ≠ .ok → Res S V act0 path (f :: fs) st r := by
      intro r hr hne
      refine ⟨hr.part, fun h => absurd h hne, hr.path, hr.mono, fun g hg => ?_⟩
      rcases hr.ran g hg with h | ⟨f', hf', h⟩
      · exact .inl h
      · exact .inr ⟨f', by simp at hf'; simp [hf'], h⟩
    rcases hcf : c f st with ⟨o, st1⟩
    rw [hcf] at h1
    cases o with
    | ok =>
      obtain ⟨hi1, hf1⟩ := h1.ok rfl
      have h2 := ih st1 hi1
      refine ⟨h2.part, fun h => ?_, fun g hg h => h1.path g hg (h2.path g hg h), fun g hg => h2.mono g (h1.mono g hg), fun g hg => ?_⟩
      · obtain ⟨a, b⟩ := h2.ok h
        refine ⟨a, fun g hg => ?_⟩
        rcases List.mem_cons.1 hg with rfl | hg
        · obtain ⟨x, y⟩ := hf1 g (by simp)
          exact ⟨h2.mono g x, y⟩
        · exact b g hg
      · rcases h2.ran g hg with h | ⟨f', hf', h⟩
        · rcases h1.ran g h with h | ⟨f', hf', h⟩
          · exact .inl h
          · exact .inr ⟨f', by simp at hf'; simp [hf'], h⟩
        · exact .inr ⟨f', by simp [hf'], h⟩
    | keyError => exact hbad _ h1 (by simp)
    | cyclic => exact hbad _ h1 (by simp)
    | raised x => exact hbad _ h1 (by simp)
    | unknown => exact hbad _ h1 (by simp)
    | deep => exact hbad _ h1 (by simp)

theorem Below.head {S : Store} {f d g : Nat} (hd : d ∈ S.args f) (h : Below S d g) : Below S f g := by
  induction h with
  | self => exact .arg f d .self hd
  | arg g d' _ h1 ih => exact .arg g d' ih h1

theorem compute_res (S : Store) (V act0 : List Nat) (n : Nat) : ∀ (path : List Nat) (f : Nat) (st : St), Inv S act0 st →
    Res S V act0 path [f] st (compute S V n path f st) := by
  induction n with
  | zero => intro path f st hi; exact ⟨hi.toPart, fun h => by simp [compute] at h, fun _ _ h => h, fun _ h => h, fun _ h => .inl h⟩
  | succ n ih =>
    intro path f st hi
    have same : ∀ o : Out, (o = .ok → f ∈ st.active ∧ ∀ p ∈ S.needs f, p ∈ V) → Res S V act0 path [f] st (o, st) := by
      intro o ho
      exact ⟨hi.toPart, fun h => ⟨hi, by simpa using ho h⟩, fun _ _ h => h, fun _ h => h, fun _ h => .inl h⟩
    simp only [compute]
    by_cases hp : path.contains f = true
    · simp only [hp, ↓reduceIte]
      exact same _ (by simp)
    simp only [hp, Bool.false_eq_true, ↓reduceIte]
    have hp' : f ∉ path := by simpa using hp
    by_cases ha : st.active.contains f = true
    · simp only [ha, ↓reduceIte]
      by_cases hv : (S.needs f).all V.contains = true
      · simp only [hv, ↓reduceIte]
        exact same _ (fun _ => ⟨by simpa using ha, by simpa using hv⟩)
      · simp only [hv, Bool.false_eq_true, ↓reduceIte]
        exact same _ (by simp)
    simp only [ha, Bool.false_eq_true, ↓reduceIte]
    have ha' : f ∉ st.active := by simpa using ha
    have h1 := each_res S V act0 (f :: path) (compute S V n (f :: path)) (fun g st h => ih (f :: path) g st h) (S.args f) st hi
    have hran : ∀ r : Out × St, Res S V act0 (f :: path) (S.args f) st r → ∀ g ∈ r.2.ran, g ∈ st.ran ∨ ∃ f' ∈ [f], Below S f' g := by
      intro r hr g hg
      rcases hr.ran g hg with h | ⟨d, hd, h⟩
      · exact .inl h
      · exact .inr ⟨f, by simp, h.head hd⟩
    have hbad : ∀ r : Out × St, Res S V act0 (f :: path) (S.args f) st r → ∀ o : Out, o ≠ .ok → Res S V act0 path [f] st (o, r.2) := by
      intro r hr o ho
      exact ⟨hr.part, fun h => absurd h ho, fun g hg => hr.path g (List.mem_cons_of_mem _ hg), hr.mono, hran r hr⟩
    rcases hcf : each (compute S V n (f :: path)) (S.args f) st with ⟨o, st1⟩
    rw [hcf] at h1
    cases o with
    | ok =>
      obtain ⟨hi1, hargs⟩ := h1.ok rfl
      dsimp only at hi1 hargs ⊢
      by_cases hv : (S.needs f).all V.contains = true
      · simp only [hv, Bool.not_true, Bool.false_eq_true, ↓reduceIte]
        have hfa : f ∉ st1.active := fun h => ha' (h1.path f (by simp) h)
        have hfr : f ∉ st1.ran := fun h => hfa ((hi1.active f).2 (.inr h))
        have hf0 : f ∉ act0 := fun h => hfa ((hi1.active f).2 (.inl h))
        have hpart : ∀ a, Part S act0 { active := a, ran := st1.ran ++ [f] } := by
          intro a
          refine ⟨?_, ?_, ?_⟩
          · rw [List.nodup_append]
            refine ⟨hi1.nodup, by simp, ?_⟩
            intro x hx y hy
            simp only [List.mem_singleton] at hy
            rintro rfl
            exact hfr (hy ▸ hx)
          · intro g hg
            rcases List.mem_append.1 hg with hg | hg
            · exact hi1.fresh g hg
            · simp only [List.mem_singleton] at hg
              exact hg ▸ hf0
          · intro l1 g l2 hl d hd
            dsimp only at hl
            rcases List.eq_nil_or_concat l2 with rfl | ⟨l2', z, rfl⟩
            · have := List.append_inj' hl rfl
              have e1 : st1.ran = l1 := this.1
              have e2 : f = g := by simpa using this.2
              subst e2
              have := (hi1.active d).1 (hargs d hd).1
              rw [e1] at this
              exact this
            · have hl' : st1.ran ++ [f] = (l1 ++ g :: l2') ++ [z] := by rw [hl]; simp
              have := List.append_inj' hl' rfl
              exact hi1.order l1 g l2' this.1 d hd
        have hran' : ∀ g ∈ st1.ran ++ [f], g ∈ st.ran ∨ ∃ f' ∈ [f], Below S f' g := by
          intro g hg
          rcases List.mem_append.1 hg with hg | hg
          · exact hran _ h1 g hg
          · simp only [List.mem_singleton] at hg
            subst hg
            exact .inr ⟨g, by simp, .self⟩
        by_cases hr : S.raises f = true
        · simp only [hr, ↓reduceIte]
          exact ⟨hpart _, by simp, fun g hg => h1.path g (List.mem_cons_of_mem _ hg), h1.mono, hran'⟩
        · simp only [hr, Bool.false_eq_true, ↓reduceIte]
          refine ⟨hpart _, fun _ => ⟨⟨hpart _, ?_⟩, ?_⟩, ?_, ?_, hran'⟩
          · intro g
            simp only [List.mem_append, hi1.active g, or_assoc]
          · intro g hg
            simp only [List.mem_singleton] at hg
            subst hg
            exact ⟨by simp, by simpa using hv⟩
          · intro g hg h
            rcases List.mem_append.1 h with h | h
            · exact h1.path g (List.mem_cons_of_mem _ hg) h
            · simp only [List.mem_singleton] at h
              exact absurd (h ▸ hg) hp'
          · intro g hg
            exact List.mem_append_left _ (h1.mono g hg)
      · simp only [hv, Bool.not_false, ↓reduceIte]
        exact hbad _ h1 _ (by simp)
    | keyError => exact hbad _ h1 _ (by simp)
    | cyclic => exact hbad _ h1 _ (by simp)
    | raised x => exact hbad _ h1 _ (by simp)
    | unknown => exact hbad _ h1 _ (by simp)
    | deep => exact hbad _ h1 _ (by simp)

/-- The result of a part, from whatever state the part before ended in. -/
theorem activate_res (S : Store) (V act0 : List Nat) (n : Nat) (es : List Elem) (st : St) (hi : Inv S act0 st) :
    Part S act0 (activate S V n es st).2 ∧ (∀ g ∈ st.active, g ∈ (activate S V n es st).2.active) ∧
    (∀ g ∈ (activate S V n es st).2.ran, g ∈ st.ran ∨ ∃ f, Used S es f ∧ Below S f g) ∧
    ((activate S V n es st).1 = .ok → Inv S act0 (activate S V n es st).2 ∧
      ∀ f, Used S es f → f ∈ (activate S V n es st).2.active ∧ (∀ p ∈ S.needs f, p ∈ V) ∧ ¬ Used S ((S.extra f).map .one) f) := by
  unfold activate
  cases hs : fixturesSet S.lookup S.extra n es [] with
  | unknown => exact ⟨hi.toPart, fun _ h => h, fun _ h => .inl h, fun h => by simp at h⟩
  | deep => exact ⟨hi.toPart, fun _ h => h, fun _ h => .inl h, fun h => by simp at h⟩
  | ok s =>
    dsimp only
    have hu := set_used S n es [] s hs
    have hr := each_res S V act0 [] (compute S V n []) (fun f st h => compute_res S V act0 n [] f st h) (s.map (·.2)) st hi
    refine ⟨hr.part, hr.mono, fun g hg => ?_, fun h => ?_⟩
    · rcases hr.ran g hg with h | ⟨f, hf, h⟩
      · exact .inl h
      · refine .inr ⟨f, ?_, h⟩
        rcases (hu f).1 hf with h | h
        · simp at h
        · exact h
    · obtain ⟨a, b⟩ := hr.ok h
      refine ⟨a, fun f hf => ?_⟩
      obtain ⟨c, d⟩ := b f ((hu f).2 (.inr hf))
      refine ⟨c, d, fun hcyc => ?_⟩
      obtain ⟨m, _, s1, s2, h1⟩ := set_into S n es [] s hs f hf
      exact set_cycle S f hcyc m s1 s2 h1

theorem ne_this (x : Name) : Elem.one x ≠ Args.this ↔ x ≠ ['t', 'h', 'i', 's'] := by simp [Args.this]

theorem mem_required (skip : List Name) (args : List (Name × Name)) (e : Elem) :
    e ∈ requiredNames skip args ↔ ∃ a r, (a, r) ∈ args ∧ a ∉ skip ∧ e = (if r = a then .one a else .two a r) := by
  unfold requiredNames
  simp only [List.mem_map, List.mem_filter, Bool.not_eq_true', Prod.exists]
  constructor
  · rintro ⟨a, r, ⟨h1, h2⟩, rfl⟩
    exact ⟨a, r, h1, by simpa using h2, rfl⟩
  · rintro ⟨a, r, h1, h2, rfl⟩
    exact ⟨a, r, ⟨h1, by simpa using h2⟩, rfl⟩

/-- The order in which the names given to `use_fixtures` on the test come: the names that are no arguments, in any order. -/
def Order (t : Fn) (order : List Name) : Prop :=
  order.Nodup ∧ ∀ x, x ∈ order ↔ x ∈ t.extra ∧ ¬ ((x, x) ∈ t.args ∧ x ∉ t.params.map (·.1))

/-- What a test uses comes from its arguments or from the names that are no arguments. -/
theorem reached_iff (S : Store) (t : Fn) (order : List Name) (ho : Order t order) (f : Nat) :
    Reached S t f ↔ Used S (requiredNames (t.params.map (·.1)) t.args) f ∨ Used S (order.map .one) f := by
  constructor
  · intro h
    induction h with
    | argument a r f h1 h2 h3 h4 =>
      left
      refine .root (if r = a then .one a else .two a r) f ((mem_required _ _ _).2 ⟨a, r, h1, h2, rfl⟩) ?_ ?_
      · split
        · rename_i e
          subst e
          exact (ne_this r).2 (fun h => h3 ⟨rfl, h⟩)
        · simp [Args.this]
      · split
        · rename_i e
          subst e
          exact h4
        · exact h4
    | named x f h1 h2 h3 =>
      by_cases hx : (x, x) ∈ t.args ∧ x ∉ t.params.map (·.1)
      · exact .inl (.root (.one x) f ((mem_required _ _ _).2 ⟨x, x, hx.1, hx.2, by simp⟩) ((ne_this x).2 h2) h3)
      · exact .inr (.root (.one x) f (List.mem_map.2 ⟨x, (ho.2 x).2 ⟨h1, hx⟩, rfl⟩) ((ne_this x).2 h2) h3)
    | step g x f _ h1 h2 h3 ih =>
      rcases ih with ih | ih
      · exact .inl (.step g x f ih h1 ((ne_this x).2 h2) h3)
      · exact .inr (.step g x f ih h1 ((ne_this x).2 h2) h3)
  · rintro (h | h)
    · induction h with
      | root e f h1 h2 h3 =>
        obtain ⟨a, r, e1, e2, rfl⟩ := (mem_required _ _ _).1 h1
        by_cases hr : r = a
        · subst hr
          rw [if_pos rfl] at h2 h3
          exact .argument r r f e1 e2 (fun h => (ne_this r).1 h2 h.2) h3
        · rw [if_neg hr] at h3
          exact .argument a r f e1 e2 (fun h => hr h.1.symm) h3
      | step g x f _ h1 h2 h3 ih => exact .step g x f ih h1 ((ne_this x).1 h2) h3
    · induction h with
      | root e f h1 h2 h3 =>
        obtain ⟨x, hx, rfl⟩ := List.mem_map.1 h1
        exact .named x f ((ho.2 x).1 hx).1 ((ne_this x).1 h2) h3
      | step g x f _ h1 h2 h3 ih => exact .step g x f ih h1 ((ne_this x).1 h2) h3

/-- All about running a test. -/
theorem callTest_all (S : Store) (V : List Nat) (n : Nat) (autouse : List Nat) (t : Fn) (order : List Name) (ho : Order t order) (act0 : List Nat) :
    Part S act0 (callTest S V n autouse t order ⟨act0, []⟩).2 ∧
    (∀ g ∈ (callTest S V n autouse t order ⟨act0, []⟩).2.ran,
      ∃ f, (f ∈ autouse ∨ (t.nofix = false ∧ Reached S t f)) ∧ Below S f g) ∧
    ((callTest S V n autouse t order ⟨act0, []⟩).1 = .ok →
      Inv S act0 (callTest S V n autouse t order ⟨act0, []⟩).2 ∧
      (∀ f ∈ autouse, f ∈ (callTest S V n autouse t order ⟨act0, []⟩).2.active) ∧
      (t.nofix = false → ∀ f, Reached S t f → f ∈ (callTest S V n autouse t order ⟨act0, []⟩).2.active ∧ (∀ p ∈ S.needs f, p ∈ V) ∧
        ¬ Used S ((S.extra f).map .one) f)) := by
  have hi0 : Inv S act0 ⟨act0, []⟩ := ⟨⟨by simp, by simp, by simp⟩, by simp⟩
  have h0 := each_res S V act0 [] (compute S V n []) (fun f st h => compute_res S V act0 n [] f st h) autouse ⟨act0, []⟩ hi0
  have r0 : ∀ g ∈ (each (compute S V n []) autouse ⟨act0, []⟩).2.ran, ∃ f, (f ∈ autouse ∨ (t.nofix = false ∧ Reached S t f)) ∧ Below S f g := by
    intro g hg
    rcases h0.ran g hg with h | ⟨f, hf, h⟩
    · cases h
    · exact ⟨f, .inl hf, h⟩
  unfold callTest
  rcases he : each (compute S V n []) autouse ⟨act0, []⟩ with ⟨o, st⟩
  rw [he] at h0 r0
  by_cases hok : o = .ok
  · subst hok
    dsimp only
    obtain ⟨hi1, ha1⟩ := h0.ok rfl
    by_cases hn : t.nofix = true
    · simp only [hn, ↓reduceIte]
      refine ⟨hi1.toPart, fun g hg => ?_, fun _ => ⟨hi1, fun f hf => (ha1 f hf).1, by simp⟩⟩
      rw [hn] at r0
      exact r0 g hg
    · simp only [hn, Bool.false_eq_true, ↓reduceIte]
      have hn' : t.nofix = false := by simpa using hn
      obtain ⟨p2, m2, r2, k2⟩ := activate_res S V act0 n (requiredNames (t.params.map (·.1)) t.args) st hi1
      have r2' : ∀ g ∈ (activate S V n (requiredNames (t.params.map (·.1)) t.args) st).2.ran,
          ∃ f, (f ∈ autouse ∨ (t.nofix = false ∧ Reached S t f)) ∧ Below S f g := by
        intro g hg
        rcases r2 g hg with h | ⟨f, hf, h⟩
        · exact r0 g h
        · exact ⟨f, .inr ⟨hn', (reached_iff S t order ho f).2 (.inl hf)⟩, h⟩
      rcases he2 : activate S V n (requiredNames (t.params.map (·.1)) t.args) st with ⟨o2, st2⟩
      rw [he2] at p2 m2 r2' k2 ⊢
      by_cases hok2 : o2 = .ok
      · subst hok2
        dsimp only
        obtain ⟨hi2, ha2⟩ := k2 rfl
        obtain ⟨p3, m3, r3, k3⟩ := activate_res S V act0 n (order.map .one) st2 hi2
        rw [hn'] at r2'
        refine ⟨p3, fun g hg => ?_, fun h => ?_⟩
        · rcases r3 g hg with h | ⟨f, hf, h⟩
          · obtain ⟨f, hf, hb⟩ := r2' g h
            exact ⟨f, by simpa using hf, hb⟩
          · exact ⟨f, .inr ⟨by trivial, (reached_iff S t order ho f).2 (.inr hf)⟩, h⟩
        · obtain ⟨hi3, ha3⟩ := k3 h
          refine ⟨hi3, fun f hf => m3 f (m2 f (ha1 f hf).1), fun _ f hf => ?_⟩
          rcases (reached_iff S t order ho f).1 hf with hf | hf
          · obtain ⟨a, b⟩ := ha2 f hf
            exact ⟨m3 f a, b⟩
          · exact ha3 f hf
      · simp only [hn'] at r2'
        have fin : Part S act0 st2 ∧ (∀ g ∈ st2.ran, ∃ f, (f ∈ autouse ∨ (True ∧ Reached S t f)) ∧ Below S f g) :=
          ⟨p2, fun g hg => by simpa using r2' g hg⟩
        cases o2 <;> first | exact absurd rfl hok2 | exact ⟨fin.1, fin.2, fun h => by cases h⟩
  · cases o <;> first | exact absurd rfl hok | exact ⟨h0.part, r0, fun h => by cases h⟩

theorem each_ok (c : Nat → St → Out × St) (fs : List Nat) (h : ∀ f ∈ fs, ∀ st, (c f st).1 = .ok) (st : St) : (each c fs st).1 = .ok := by
  induction fs generalizing st with
  | nil => rfl
  | cons f fs ih =>
    simp only [each]
    have h1 := h f (by simp) st
    rcases hc : c f st with ⟨o, st1⟩
    rw [hc] at h1
    dsimp only at h1
    subst h1
    exact ih (fun g hg => h g (by simp [hg])) st1

theorem common_fuel {α : Type} (Q : Nat → α → Prop) (l : List α) (h : ∀ a ∈ l, ∃ N, ∀ n, N ≤ n → Q n a) : ∃ N, ∀ n, N ≤ n → ∀ a ∈ l, Q n a := by
  induction l with
  | nil => exact ⟨0, by simp⟩
  | cons a l ih =>
    obtain ⟨N1, h1⟩ := h a (by simp)
    obtain ⟨N2, h2⟩ := ih (fun b hb => h b (by simp [hb]))
    refine ⟨max N1 N2, fun n hn b hb => ?_⟩
    rcases List.mem_cons.1 hb with rfl | hb
    · exact h1 n (by omega)
    · exact h2 n (by omega) b hb

theorem set_ok (S : Store) (u : Nat → Nat) (P : Nat → Prop)
    (hu : ∀ g, P g → ∀ x ∈ S.extra g, x ≠ ['t', 'h', 'i', 's'] → ∃ f, S.lookup x = some f ∧ u f < u g ∧ P f) (k : Nat) :
    ∀ es : List Elem, (∀ e ∈ es, e ≠ Args.this → ∃ f, S.lookup e.real = some f ∧ u f < k ∧ P f) →
      ∃ N, ∀ n, N ≤ n → ∀ s, ∃ s', fixturesSet S.lookup S.extra n es s = .ok s' := by
  induction k with
  | zero =>
    intro es
    induction es with
    | nil => intro _; exact ⟨1, fun n hn s => by obtain ⟨m, rfl⟩ : ∃ m, n = m + 1 := ⟨n - 1, by omega⟩; exact ⟨s, rfl⟩⟩
    | cons e es ih =>
      intro h
      obtain ⟨N, hN⟩ := ih (fun e' he' => h e' (by simp [he']))
      have he : e = Args.this := by
        by_cases he : e = Args.this
        · exact he
        · obtain ⟨f, _, hf, _⟩ := h e (by simp) he
          omega
      refine ⟨N + 1, fun n hn s => ?_⟩
      obtain ⟨m, rfl⟩ : ∃ m, n = m + 1 := ⟨n - 1, by omega⟩
      simp only [fixturesSet, he, ↓reduceIte]
      exact hN m (by omega) s
  | succ k ihk =>
    intro es
    induction es with
    | nil => intro _; exact ⟨1, fun n hn s => by obtain ⟨m, rfl⟩ : ∃ m, n = m + 1 := ⟨n - 1, by omega⟩; exact ⟨s, rfl⟩⟩
    | cons e es ih =>
      intro h
      obtain ⟨N, hN⟩ := ih (fun e' he' => h e' (by simp [he']))
      by_cases he : e = Args.this
      · refine ⟨N + 1, fun n hn s => ?_⟩
        obtain ⟨m, rfl⟩ : ∃ m, n = m + 1 := ⟨n - 1, by omega⟩
        simp only [fixturesSet, he, ↓reduceIte]
        exact hN m (by omega) s
      · obtain ⟨f, hl, hf, hP⟩ := h e (by simp) he
        obtain ⟨N2, hN2⟩ := ihk ((S.extra f).map .one) (by
          intro e' he' hne
          obtain ⟨x, hx, rfl⟩ := List.mem_map.1 he'
          obtain ⟨f', a, b, c⟩ := hu f hP x hx ((ne_this x).1 hne)
          exact ⟨f', a, by omega, c⟩)
        refine ⟨max N N2 + 1, fun n hn s => ?_⟩
        obtain ⟨m, rfl⟩ : ∃ m, n = m + 1 := ⟨n - 1, by omega⟩
        simp only [fixturesSet, he, ↓reduceIte, hl]
        obtain ⟨s1, h1⟩ := hN2 m (by omega) (Args.addSet (e.arg, f) s)
        rw [h1]
        exact hN m (by omega) s1

theorem compute_ok (S : Store) (V : List Nat) (r : Nat → Nat) (hr : ∀ f, ∀ d ∈ S.args f, r d < r f) (k : Nat) :
    ∀ f, r f < k → (∀ g, Below S f g → (∀ p ∈ S.needs g, p ∈ V) ∧ S.raises g = false) →
      ∃ N, ∀ n, N ≤ n → ∀ path st, (∀ g ∈ path, r f < r g) → (compute S V n path f st).1 = .ok := by
  induction k with
  | zero => intro f h; omega
  | succ k ih =>
    intro f hf hb
    obtain ⟨N, hN⟩ := common_fuel (fun n d => ∀ path st, (∀ g ∈ path, r d < r g) → (compute S V n path d st).1 = .ok) (S.args f)
      (fun d hd => ih d (by have := hr f d hd; omega) (fun g hg => hb g (hg.head hd)))
    refine ⟨N + 1, fun n hn path st hp => ?_⟩
    obtain ⟨m, rfl⟩ : ∃ m, n = m + 1 := ⟨n - 1, by omega⟩
    have hpath : path.contains f = false := by
      by_cases h : f ∈ path
      · have := hp f h; omega
      · simpa using h
    have hneeds : (S.needs f).all V.contains = true := by simpa using (hb f .self).1
    simp only [compute, hpath, hneeds, (hb f .self).2, Bool.false_eq_true, ↓reduceIte, Bool.not_true]
    by_cases ha : st.active.contains f = true
    · simp only [ha, ↓reduceIte]
    · simp only [ha, Bool.false_eq_true, ↓reduceIte]
      have h1 := each_ok (compute S V m (f :: path)) (S.args f) (fun d hd st => hN m (by omega) d hd (f :: path) st (by
        intro g hg
        have := hr f d hd
        rcases List.mem_cons.1 hg with rfl | hg
        · exact this
        · have := hp g hg; omega)) st
      rcases he : each (compute S V m (f :: path)) (S.args f) st with ⟨o, st1⟩
      rw [he] at h1
      dsimp only at h1
      subst h1
      rfl

theorem needs_below (S : Store) (hn : ∀ f, ∀ d ∈ S.args f, ∀ p ∈ S.needs d, p ∈ S.needs f) {f g : Nat} (h : Below S f g) :
    ∀ p ∈ S.needs g, p ∈ S.needs f := by
  induction h with
  | self => exact fun _ h => h
  | arg g d _ h1 ih => exact fun p hp => ih p (hn g d h1 p hp)

theorem activate_ok (S : Store) (V : List Nat) (r u : Nat → Nat) (P : Nat → Prop) (hr : ∀ f, ∀ d ∈ S.args f, r d < r f)
    (hu : ∀ g, P g → ∀ x ∈ S.extra g, x ≠ ['t', 'h', 'i', 's'] → ∃ f, S.lookup x = some f ∧ u f < u g ∧ P f)
    (hb : ∀ f, P f → ∀ g, Below S f g → (∀ p ∈ S.needs g, p ∈ V) ∧ S.raises g = false)
    (es : List Elem) (hes : ∀ e ∈ es, e ≠ Args.this → ∃ f, S.lookup e.real = some f ∧ P f) :
    ∃ N, ∀ n, N ≤ n → ∀ st, (activate S V n es st).1 = .ok := by
  -- a bound for the ranks of the roots
  have hk : ∃ k, ∀ e ∈ es, e ≠ Args.this → ∃ f, S.lookup e.real = some f ∧ u f < k ∧ P f := by
    obtain ⟨N, hN⟩ := common_fuel (fun n (e : Elem) => e ≠ Args.this → ∃ f, S.lookup e.real = some f ∧ u f < n ∧ P f) es (by
      intro e he
      by_cases hne : e = Args.this
      · exact ⟨0, fun _ _ h => absurd hne h⟩
      · obtain ⟨f, h1, h2⟩ := hes e he hne
        exact ⟨u f + 1, fun n hn _ => ⟨f, h1, by omega, h2⟩⟩)
    exact ⟨N, fun e he hne => hN N (Nat.le_refl _) e he hne⟩
  obtain ⟨k, hk⟩ := hk
  obtain ⟨N1, h1⟩ := set_ok S u P hu k es hk
  obtain ⟨s0, hs0⟩ := h1 N1 (Nat.le_refl _) []
  have hP : ∀ f, Used S es f → P f := by
    intro f hf
    induction hf with
    | root e f a b c =>
      obtain ⟨f', x, y⟩ := hes e a b
      rw [c] at x
      cases x
      exact y
    | step g x f _ a b c ih =>
      obtain ⟨f', x', _, y⟩ := hu g ih x a ((ne_this x).1 b)
      rw [c] at x'
      cases x'
      exact y
  obtain ⟨N2, h2⟩ := common_fuel (fun n f => ∀ path st, (∀ g ∈ path, r f < r g) → (compute S V n path f st).1 = .ok) (s0.map (·.2)) (by
    intro f hf
    have hfu : Used S es f := by
      rcases (set_used S N1 es [] s0 hs0 f).1 hf with h | h
      · simp at h
      · exact h
    exact compute_ok S V r hr (r f + 1) f (by omega) (hb f (hP f hfu)))
  refine ⟨max N1 N2, fun n hn st => ?_⟩
  obtain ⟨s, hs⟩ := h1 n (by omega) []
  unfold activate
  rw [hs]
  refine each_ok _ _ (fun f hf st => ?_) st
  refine h2 n (by omega) f ?_ [] st (by simp)
  exact (set_used S N1 es [] s0 hs0 f).2 ((set_used S n es [] s hs f).1 hf)

/-- **C188.** When a test function is called, all fixtures that it uses - those of its arguments, those that it names with `use_fixtures`, and
those that are named with `use_fixtures` on fixtures that it uses - are active, and so are those declared with `autouse`. (The part that holds:
`use_fixtures` on fixtures that come in as arguments of fixtures, or through `autouse`, has no effect.) -/
theorem C188_used_partial (S : Store) (V : List Nat) (n : Nat) (autouse : List Nat) (t : Fn) (order : List Name) (ho : Order t order)
    (hn : t.nofix = false) (act0 : List Nat) (st : St) (h : callTest S V n autouse t order ⟨act0, []⟩ = (.ok, st)) :
    (∀ f, Reached S t f → f ∈ st.active) ∧ (∀ f ∈ autouse, f ∈ st.active) ∧ ∀ f, f ∈ st.active ↔ f ∈ act0 ∨ f ∈ st.ran := by
  obtain ⟨_, _, h3⟩ := callTest_all S V n autouse t order ho act0
  rw [h] at h3
  obtain ⟨a, b, c⟩ := h3 rfl
  exact ⟨fun f hf => (c hn f hf).1, b, a.active⟩

/-- **C188.** No other functions of fixtures are called than those of the fixtures that the test uses, those declared with `autouse`, and those that they take
as arguments, directly or through others - however it ends. -/
theorem C188_only (S : Store) (V : List Nat) (n : Nat) (autouse : List Nat) (t : Fn) (order : List Name) (ho : Order t order) (act0 : List Nat) :
    ∀ g ∈ (callTest S V n autouse t order ⟨act0, []⟩).2.ran, ∃ f, (f ∈ autouse ∨ (t.nofix = false ∧ Reached S t f)) ∧ Below S f g :=
  (callTest_all S V n autouse t order ho act0).2.1

/-- **C188.** However it ends, the function of a fixture is called at most once, it is not called if the fixture was active already, and it is called after
those of the fixtures that it takes as arguments (unless these were active). -/
theorem C188_once (S : Store) (V : List Nat) (n : Nat) (autouse : List Nat) (t : Fn) (order : List Name) (ho : Order t order) (act0 : List Nat) :
    (callTest S V n autouse t order ⟨act0, []⟩).2.ran.Nodup ∧ (∀ f ∈ (callTest S V n autouse t order ⟨act0, []⟩).2.ran, f ∉ act0) ∧
    ∀ l1 f l2, (callTest S V n autouse t order ⟨act0, []⟩).2.ran = l1 ++ f :: l2 → ∀ d ∈ S.args f, d ∈ act0 ∨ d ∈ l1 := by
  obtain ⟨a, b, c⟩ := (callTest_all S V n autouse t order ho act0).1
  exact ⟨a, b, c⟩

/-- **C188.** The test function is called indeed - if no function of a fixture raises, all names are known, no fixture comes to use itself through
`use_fixtures` or arguments (ranks `u` and `r`), and the fixtures named with `use_fixtures` on fixtures need no parameters that the test has not got
anyway. -/
theorem C188_called_partial (S : Store) (autouse : List Nat) (t : Fn) (order : List Name) (ho : Order t order) (r u : Nat → Nat)
    (hr : ∀ f, ∀ d ∈ S.args f, r d < r f) (hneeds : ∀ f, ∀ d ∈ S.args f, ∀ p ∈ S.needs d, p ∈ S.needs f)
    (hargs : ∀ a q, (a, q) ∈ t.args → ∃ f, S.lookup q = some f) (hextra : ∀ x ∈ t.extra, ∃ f, S.lookup x = some f)
    (hu : ∀ g, Reached S t g → ∀ x ∈ S.extra g, ∃ f, S.lookup x = some f ∧ u f < u g)
    (hp : ∀ g, Reached S t g → ∀ x ∈ S.extra g, ∀ f, S.lookup x = some f → ∀ p ∈ S.needs f, p ∈ variation S autouse t)
    (hraise : ∀ f, f ∈ autouse ∨ Reached S t f → ∀ g, Below S f g → S.raises g = false) (act0 : List Nat) :
    ∃ N, ∀ n, N ≤ n → (callTest S (variation S autouse t) n autouse t order ⟨act0, []⟩).1 = .ok := by
  have ha : ∀ f ∈ autouse, ∀ p ∈ S.needs f, p ∈ variation S autouse t := by
    intro f hf p hp
    exact List.mem_append_left _ (List.mem_flatMap.2 ⟨f, hf, hp⟩)
  obtain ⟨N0, h0⟩ := common_fuel (fun n f => ∀ path st, (∀ g ∈ path, r f < r g) → (compute S (variation S autouse t) n path f st).1 = .ok) autouse
    (fun f hf => compute_ok S _ r hr (r f + 1) f (by omega)
      (fun g hg => ⟨fun p hp => ha f hf p (needs_below S hneeds hg p hp), hraise f (.inl hf) g hg⟩))
  have e0 : ∀ n, N0 ≤ n → (each (compute S (variation S autouse t) n []) autouse ⟨act0, []⟩).1 = .ok :=
    fun n hn => each_ok _ _ (fun f hf st => h0 n hn f hf [] st (by simp)) _
  by_cases hn : t.nofix = true
  · refine ⟨N0, fun n hn' => ?_⟩
    unfold callTest
    have := e0 n hn'
    rcases he : each (compute S (variation S autouse t) n []) autouse ⟨act0, []⟩ with ⟨o, st⟩
    rw [he] at this
    dsimp only at this
    subst this
    simp only [hn, ↓reduceIte]
  · have hn' : t.nofix = false := by simpa using hn
    have hdir : ∀ f, Reached S t f → ∀ p ∈ S.needs f, p ∈ variation S autouse t := by
      intro f hf p hpf
      cases hf with
      | argument a q _ h1 h2 h3 h4 =>
        unfold variation
        rw [hn']
        refine List.mem_append_right _ (List.mem_append_left _ (List.mem_append_right _ (List.mem_flatMap.2 ⟨f, ?_, hpf⟩)))
        exact List.mem_filterMap.2 ⟨(a, q), List.mem_filter.2 ⟨h1, by simpa using h2⟩, h4⟩
      | named x _ h1 h2 h3 =>
        unfold variation
        rw [hn']
        exact List.mem_append_right _ (List.mem_append_right _ (List.mem_flatMap.2 ⟨f, List.mem_filterMap.2 ⟨x, h1, h3⟩, hpf⟩))
      | step g x _ h1 h2 h3 h4 => exact hp g h1 x h2 f h4 p hpf
    have hu' : ∀ g, Reached S t g → ∀ x ∈ S.extra g, x ≠ ['t', 'h', 'i', 's'] → ∃ f, S.lookup x = some f ∧ u f < u g ∧ Reached S t f := by
      intro g hg x hx hne
      obtain ⟨f, h1, h2⟩ := hu g hg x hx
      exact ⟨f, h1, h2, .step g x f hg hx hne h1⟩
    have hb : ∀ f, Reached S t f → ∀ g, Below S f g → (∀ p ∈ S.needs g, p ∈ variation S autouse t) ∧ S.raises g = false :=
      fun f hf g hg => ⟨fun p hp => hdir f hf p (needs_below S hneeds hg p hp), hraise f (.inr hf) g hg⟩
    obtain ⟨N1, h1⟩ := activate_ok S (variation S autouse t) r u (Reached S t) hr hu' hb (requiredNames (t.params.map (·.1)) t.args) (by
      intro e he hne
      obtain ⟨a, q, b1, b2, rfl⟩ := (mem_required _ _ _).1 he
      obtain ⟨f, hf⟩ := hargs a q b1
      have e1 : S.lookup (if q = a then Elem.one a else .two a q).real = some f := by
        split
        · rename_i e
          subst e
          exact hf
        · exact hf
      refine ⟨f, e1, .argument a q f b1 b2 ?_ hf⟩
      rintro ⟨rfl, h⟩
      rw [if_pos rfl] at hne
      exact (ne_this a).1 hne h)
    obtain ⟨N2, h2⟩ := activate_ok S (variation S autouse t) r u (Reached S t) hr hu' hb (order.map .one) (by
      intro e he hne
      obtain ⟨x, hx, rfl⟩ := List.mem_map.1 he
      obtain ⟨f, hf⟩ := hextra x ((ho.2 x).1 hx).1
      exact ⟨f, hf, .named x f ((ho.2 x).1 hx).1 ((ne_this x).1 hne) hf⟩)
    refine ⟨max N0 (max N1 N2), fun n hm => ?_⟩
    unfold callTest
    have a0 := e0 n (by omega)
    rcases he : each (compute S (variation S autouse t) n []) autouse ⟨act0, []⟩ with ⟨o, st⟩
    rw [he] at a0
    dsimp only at a0
    subst a0
    simp only [hn', Bool.false_eq_true, ↓reduceIte]
    have a1 := h1 n (by omega) st
    rcases he1 : activate S (variation S autouse t) n (requiredNames (t.params.map (·.1)) t.args) st with ⟨o, st1⟩
    rw [he1] at a1 ⊢
    dsimp only at a1
    subst a1
    exact h2 n (by omega) st1

/-- Fixtures for the examples: `a` (1), which takes `b` (2), which uses `c` (3); `d` (4) uses `c` and `e` (5); `e` needs parameter 7; `x` (6) uses `y` (8),
which uses `x`. -/
def demo : Store where
  args := fun f => if f = 1 then [2] else []
  extra := fun f => if f = 2 then [['c']] else if f = 4 then [['c'], ['e']] else if f = 6 then [['y']] else if f = 8 then [['x']] else []
  needs := fun f => if f = 5 then [7] else []
  lookup := fun x => if x = ['a'] then some 1 else if x = ['b'] then some 2 else if x = ['c'] then some 3 else if x = ['d'] then some 4
    else if x = ['e'] then some 5 else if x = ['x'] then some 6 else if x = ['y'] then some 8 else none
  raises := fun _ => false

/-- A test that takes `a` and names `d` and `e` uses all but `x` and `y`; here `b` was active. -/
example : let t : Fn := { args := [(['a'], ['a'])], extra := [['d'], ['e']] }
    variation demo [] t = [7] ∧ callTest demo (variation demo [] t) 9 [] t [['e'], ['d']] ⟨[2], []⟩ = (.ok, ⟨[2, 1, 5, 4, 3], [1, 5, 4, 3]⟩) ∧
    callTest demo (variation demo [] t) 9 [] t [['d'], ['e']] ⟨[2], []⟩ = (.ok, ⟨[2, 1, 4, 3, 5], [1, 4, 3, 5]⟩) := by decide +kernel

/-- The conditions under which the test is called can be met. -/
example : let S : Store := { demo with extra := fun f => if f = 4 then [['c'], ['e']] else [] }
    let t : Fn := { args := [(['a'], ['a'])], extra := [['d'], ['e']] }
    ∃ N, ∀ n, N ≤ n → (callTest S (variation S [] t) n [] t [['e'], ['d']] ⟨[], []⟩).1 = .ok := by
  intro S t
  refine C188_called_partial S [] t [['e'], ['d']] ⟨by decide, ?_⟩ (fun f => if f = 1 then 1 else 0) (fun f => if f = 4 then 1 else 0)
    ?_ ?_ ?_ ?_ ?_ ?_ (fun _ _ _ _ => rfl) []
  · intro x
    simp only [t, List.mem_cons, List.not_mem_nil, or_false, Prod.mk.injEq]
    constructor
    · rintro (rfl | rfl) <;> simp
    · rintro ⟨h | h, _⟩ <;> simp [h]
  · intro f d hd
    by_cases h : f = 1
    · subst h; simp [S, demo] at hd; subst hd; decide
    · simp [S, demo, h] at hd
  · intro f d hd
    by_cases h : f = 1
    · subst h; simp [S, demo] at hd; subst hd; simp [S, demo]
    · simp [S, demo, h] at hd
  · intro a q h
    simp [t] at h
    exact ⟨1, by simp [h, S, demo]⟩
  · intro x h
    simp [t] at h
    rcases h with rfl | rfl
    · exact ⟨4, by simp [S, demo]⟩
    · exact ⟨5, by simp [S, demo]⟩
  · intro g _ x hx
    by_cases h : g = 4
    · subst h
      simp [S] at hx
      rcases hx with rfl | rfl
      · exact ⟨3, by simp [S, demo], by decide⟩
      · exact ⟨5, by simp [S, demo], by decide⟩
    · simp [S, h] at hx
  · intro g _ x hx f hf p hp
    by_cases h : f = 5
    · subst h
      simp [S, demo] at hp
      subst hp
      decide
    · simp [S, demo, h] at hp

/-- A function that raises, and an argument that was declared with `slash.use`. -/
example : let t : Fn := { args := [(['z'], ['a'])], extra := [['c']] }
    callTest { demo with raises := fun f => f = 1 } [] 9 [3] t [['c']] ⟨[], []⟩ = (.raised 1, ⟨[3, 2], [3, 2, 1]⟩) := by decide +kernel

/-- **C188 is violated** by `use_fixtures` on a fixture that comes in as argument of a fixture: the test that takes `a`, which takes `b`, is called without
`c`, which `b` uses; the test that takes `b` itself is not. -/
theorem C188_through_argument_violated :
    callTest demo [] 9 [] { args := [(['a'], ['a'])] } [] ⟨[], []⟩ = (.ok, ⟨[2, 1], [2, 1]⟩) ∧
    callTest demo [] 9 [] { args := [(['b'], ['b'])] } [] ⟨[], []⟩ = (.ok, ⟨[2, 3], [2, 3]⟩) := by decide +kernel

/-- **C188 is violated** by `use_fixtures` on a fixture that is declared with `autouse`: the test is called without `c`. -/
theorem C188_autouse_violated :
    callTest demo [] 9 [2] { args := [] } [] ⟨[], []⟩ = (.ok, ⟨[2], [2]⟩) := by decide +kernel

/-- **C188 is violated** by `use_fixtures` on a test that is marked with `nofixtures`: the names are ignored, for all tests and all states. -/
theorem C188_nofixtures_violated (S : Store) (V : List Nat) (n : Nat) (t : Fn) (order : List Name) (st : St) (h : t.nofix = true) :
    callTest S V n [] t order st = (.ok, st) := by
  simp [callTest, each, h]

example : callTest demo [] 9 [] { args := [], extra := [['c']], nofix := true } [['c']] ⟨[], []⟩ = (.ok, ⟨[], []⟩) := by decide +kernel

/-- **C188 is violated** by fixtures with parameters: if a fixture that the test uses through `use_fixtures` on a fixture needs a parameter which the test
has not got otherwise, the test function is not called, whatever the state. -/
theorem C188_parameter_violated (S : Store) (n : Nat) (autouse : List Nat) (t : Fn) (order : List Name) (ho : Order t order) (hn : t.nofix = false)
    (act0 : List Nat) (f : Nat) (hf : Reached S t f) (p : Nat) (hp : p ∈ S.needs f) (hv : p ∉ variation S autouse t) :
    (callTest S (variation S autouse t) n autouse t order ⟨act0, []⟩).1 ≠ .ok :=
  fun h => hv ((((callTest_all S _ n autouse t order ho act0).2.2 h).2.2 hn f hf).2.1 p hp)

/-- A test that names `d` only gets a `KeyError`: `e` needs parameter 7. With `e` named as well, it is called (above). -/
example : let t : Fn := { args := [], extra := [['d']] }
    variation demo [] t = [] ∧ callTest demo (variation demo [] t) 9 [] t [['d']] ⟨[], []⟩ = (.keyError, ⟨[4, 3], [4, 3]⟩) := by decide +kernel

/-- A fixture comes to use another one through `use_fixtures`, in one step or more. -/
inductive Uses (S : Store) (g : Nat) : Nat → Prop
  | one (x : Name) (f : Nat) : x ∈ S.extra g → x ≠ ['t', 'h', 'i', 's'] → S.lookup x = some f → Uses S g f
  | more (g' : Nat) (x : Name) (f : Nat) : Uses S g g' → x ∈ S.extra g' → x ≠ ['t', 'h', 'i', 's'] → S.lookup x = some f → Uses S g f

/-- **C188 is violated** by fixtures that come to use themselves through `use_fixtures`: unlike with arguments, this is not noticed when the tests are
loaded; a test that uses one of them is not called, however deep the recursion may be. -/
theorem C188_cycle_violated (S : Store) (V : List Nat) (n : Nat) (autouse : List Nat) (t : Fn) (order : List Name) (ho : Order t order)
    (hn : t.nofix = false) (act0 : List Nat) (f : Nat) (hf : Reached S t f) (hc : Uses S f f) :
    (callTest S V n autouse t order ⟨act0, []⟩).1 ≠ .ok := by
  intro h
  refine (((callTest_all S V n autouse t order ho act0).2.2 h).2.2 hn f hf).2.2 ?_
  have : ∀ g, Uses S f g → Used S ((S.extra f).map .one) g := by
    intro g hg
    induction hg with
    | one x g a b c => exact .root (.one x) g (List.mem_map.2 ⟨x, a, rfl⟩) ((ne_this x).2 b) c
    | more g' x g _ a b c ih => exact .step g' x g ih a ((ne_this x).2 b) c
  exact this f hc

example : callTest demo [] 50 [] { args := [(['x'], ['x'])] } [] ⟨[], []⟩ = (.deep, ⟨[], []⟩) ∧ Uses demo 6 6 :=
  ⟨by decide +kernel, .more 8 ['x'] 6 (.one ['y'] 8 (by decide) (by decide) (by decide)) (by decide) (by decide) (by decide)⟩

theorem set_prefix (S : Store) (n : Nat) : ∀ (es : List Elem) (s s' : List (Name × Nat)), fixturesSet S.lookup S.extra n es s = .ok s' → s <+: s' := by
  induction n with
  | zero => intro es s s' h; cases h
  | succ n ih =>
    intro es s s' h
    cases es with
    | nil => simp only [fixturesSet, Args.R.ok.injEq] at h; subst h; exact List.prefix_refl _
    | cons e es =>
      simp only [fixturesSet] at h
      split at h
      · exact ih _ _ _ h
      · cases hl : S.lookup e.real with
        | none => rw [hl] at h; cases h
        | some g =>
          rw [hl] at h
          dsimp only at h
          cases h1 : fixturesSet S.lookup S.extra n ((S.extra g).map .one) (Args.addSet (e.arg, g) s) with
          | unknown => rw [h1] at h; cases h
          | deep => rw [h1] at h; cases h
          | ok s1 =>
            rw [h1] at h
            dsimp only at h
            refine List.IsPrefix.trans ?_ ((ih _ _ _ h1).trans (ih _ _ _ h))
            unfold Args.addSet
            split
            · exact List.prefix_refl _
            · exact List.prefix_append _ _

theorem each_prefix (c : Nat → St → Out × St) (hc : ∀ f st, st.ran <+: (c f st).2.ran) (fs : List Nat) : ∀ st, st.ran <+: (each c fs st).2.ran := by
  induction fs with
  | nil => intro st; exact List.prefix_refl _
  | cons f fs ih =>
    intro st
    simp only [each]
    have h1 := hc f st
    rcases h : c f st with ⟨o, st1⟩
    rw [h] at h1
    cases o <;> first | exact h1 | exact h1.trans (ih st1)

theorem compute_prefix (S : Store) (V : List Nat) (n : Nat) : ∀ path f st, st.ran <+: (compute S V n path f st).2.ran := by
  induction n with
  | zero => intro path f st; exact List.prefix_refl _
  | succ n ih =>
    intro path f st
    simp only [compute]
    split
    · exact List.prefix_refl _
    · split
      · exact List.prefix_refl _
      · have h1 := each_prefix (compute S V n (f :: path)) (ih (f :: path)) (S.args f) st
        rcases h : each (compute S V n (f :: path)) (S.args f) st with ⟨o, st1⟩
        rw [h] at h1
        cases o <;> dsimp only <;> first | exact h1 | skip
        split
        · exact h1
        · split
          · exact h1.trans (List.prefix_append _ _)
          · exact h1.trans (List.prefix_append _ _)

/-- **C188 is violated** by the order: unlike with arguments, the function of a fixture is called before those of the fixtures that are named with
`use_fixtures` on it - if the test takes it as its only argument and nothing was active, it is the first one of all, for all fixtures without arguments. -/
theorem C188_before_violated (S : Store) (V : List Nat) (n : Nat) (x : Name) (f : Nat) (hx : x ≠ ['t', 'h', 'i', 's']) (hl : S.lookup x = some f)
    (ha : S.args f = []) (hne : S.needs f = []) (hr : S.raises f = false) (st : St)
    (h : callTest S V n [] { args := [(x, x)] } [] ⟨[], []⟩ = (.ok, st)) : st.ran.head? = some f := by
  have hreq : requiredNames [] [(x, x)] = [.one x] := by simp [requiredNames]
  have hthis : Elem.one x ≠ Args.this := (ne_this x).2 hx
  simp only [callTest, each, Bool.false_eq_true, ↓reduceIte, List.map_nil, hreq] at h
  cases n with
  | zero => simp [activate, fixturesSet] at h
  | succ n =>
    cases hs : fixturesSet S.lookup S.extra (n + 1) [.one x] [] with
    | unknown => simp [activate, hs] at h
    | deep => simp [activate, hs] at h
    | ok s =>
      -- the fixture is the first of the set
      have hhead : ∃ l, s = (x, f) :: l := by
        simp only [fixturesSet, hthis, ↓reduceIte, Elem.real, hl] at hs
        cases h1 : fixturesSet S.lookup S.extra n ((S.extra f).map .one) (Args.addSet ((Elem.one x).arg, f) []) with
        | unknown => rw [h1] at hs; cases hs
        | deep => rw [h1] at hs; cases hs
        | ok s1 =>
          rw [h1] at hs
          dsimp only at hs
          obtain ⟨l, hl⟩ := (set_prefix S n _ _ _ h1).trans (set_prefix S n _ _ _ hs)
          exact ⟨l, by rw [← hl]; simp [Args.addSet, Elem.arg]⟩
      obtain ⟨l, rfl⟩ := hhead
      have hfirst : compute S V (n + 1) [] f ⟨[], []⟩ = (.ok, ⟨[f], [f]⟩) := by
        simp [compute, ha, hne, hr, each]
      have hnil : ∀ st, activate S V (n + 1) [] st = (.ok, st) := fun st => by simp [activate, fixturesSet, each]
      have hact : activate S V (n + 1) [.one x] ⟨[], []⟩ = each (compute S V (n + 1) []) (l.map (·.2)) ⟨[f], [f]⟩ := by
        simp [activate, hs, each, hfirst]
      have hpre := each_prefix (compute S V (n + 1) []) (compute_prefix S V (n + 1) []) (l.map (·.2)) ⟨[f], [f]⟩
      rw [hact] at h
      rcases he : each (compute S V (n + 1) []) (l.map (·.2)) ⟨[f], [f]⟩ with ⟨o, st1⟩
      rw [he] at h hpre
      cases o <;> simp [hnil] at h
      subst h
      obtain ⟨k, hk⟩ := hpre
      dsimp only at hk
      rw [← hk]
      rfl

example : callTest demo [] 9 [] { args := [(['b'], ['b'])] } [] ⟨[], []⟩ = (.ok, ⟨[2, 3], [2, 3]⟩) := by decide +kernel

end Slash.Use
