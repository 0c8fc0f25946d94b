import Verif.Model.FixtureGraph
import Verif.Lemmas.Util
/-!
# Fixture definitions: properties C18, C19
-/
namespace Slash.FG

/-! ## Scopes -/

theorem resolveArgs_ok {raw : Nat → Raw} {f : Nat} {lookup : String → Option Nat} {l : List (String × String)} {r : List (String × Nat)}
    (h : resolveArgs raw f lookup l = .ok r) :
    (∀ p ∈ r, (raw f).scope ≤ (raw p.2).scope ∧ p.2 ≠ f) ∧
    (∀ p ∈ l, p.1 ∉ (raw f).params.map (·.1) → ∃ g, lookup p.2 = some g ∧ (p.1, g) ∈ r) ∧
    (∀ p ∈ r, ∃ q ∈ l, q.1 = p.1 ∧ lookup q.2 = some p.2 ∧ q.1 ∉ (raw f).params.map (·.1)) := by
  induction l generalizing r with
  | nil => simp only [resolveArgs, Except.ok.injEq] at h; subst h; simp
  | cons p l ih =>
    obtain ⟨arg, name⟩ := p
    simp only [resolveArgs] at h
    split at h
    · rename_i hp
      obtain ⟨h1, h2, h3⟩ := ih h
      refine ⟨h1, ?_, ?_⟩
      · intro q hq hn
        rcases List.mem_cons.1 hq with rfl | hq
        · exact absurd hp hn
        · exact h2 q hq hn
      · intro q hq
        obtain ⟨q', hq', h⟩ := h3 q hq
        exact ⟨q', by simp [hq'], h⟩
    · rename_i hp
      split at h
      · cases h
      · rename_i g hg
        split at h
        · cases h
        · rename_i hs
          split at h
          · cases h
          · rename_i hne
            cases hr : resolveArgs raw f lookup l with
            | error e => rw [hr] at h; cases h
            | ok r' =>
              rw [hr] at h
              simp only [Except.map, Except.ok.injEq] at h
              subst h
              obtain ⟨h1, h2, h3⟩ := ih hr
              refine ⟨?_, ?_, ?_⟩
              · intro q hq
                rcases List.mem_cons.1 hq with rfl | hq
                · exact ⟨Nat.le_of_not_lt hs, hne⟩
                · exact h1 q hq
              · intro q hq hn
                rcases List.mem_cons.1 hq with rfl | hq
                · exact ⟨g, hg, by simp⟩
                · obtain ⟨g', h4, h5⟩ := h2 q hq hn
                  exact ⟨g', h4, by simp [h5]⟩
              · intro q hq
                rcases List.mem_cons.1 hq with rfl | hq
                · exact ⟨(arg, name), by simp, rfl, hg, hp⟩
                · obtain ⟨q', hq', h⟩ := h3 q hq
                  exact ⟨q', by simp [hq'], h⟩

theorem resolveAll_ok {raw : Nat → Raw} {lookup : Nat → String → Option Nat} {ids : List Nat} {r : List (Nat × FDef)}
    (h : resolveAll raw lookup ids = .ok r) :
    r.map (·.1) = ids ∧ ∀ p ∈ r, resolveFix raw lookup p.1 = .ok p.2 := by
  induction ids generalizing r with
  | nil => simp only [resolveAll, Except.ok.injEq] at h; subst h; simp
  | cons f ids ih =>
    simp only [resolveAll] at h
    split at h
    · cases h
    · rename_i d hd
      cases hr : resolveAll raw lookup ids with
      | error e => rw [hr] at h; cases h
      | ok r' =>
        rw [hr] at h
        simp only [Except.map, Except.ok.injEq] at h
        subst h
        obtain ⟨h1, h2⟩ := ih hr
        refine ⟨by simp [h1], fun p hp => ?_⟩
        rcases List.mem_cons.1 hp with rfl | hp
        · exact hd
        · exact h2 p hp

theorem nodup_eraseDups (l : List Nat) : l.eraseDups.Nodup := by
  match l with
  | [] => exact List.nodup_nil
  | a :: l =>
    rw [List.eraseDups_cons, List.nodup_cons]
    refine ⟨?_, nodup_eraseDups _⟩
    rw [List.mem_eraseDups, List.mem_filter]
    simp
termination_by l.length
decreasing_by exact Nat.lt_succ_of_le (List.length_filter_le _ _)

/-- C19: if all fixtures resolve, each fixture got a definition, all its arguments which are not parameters were found,
each dependency has a scope at least as wide and is another fixture, and its parametrizations are there, each once. -/
theorem C19_dependencies_live_longer (raw : Nat → Raw) (lookup : Nat → String → Option Nat) (ids : List Nat)
    (r : List (Nat × FDef)) (h : resolveAll raw lookup ids = .ok r) :
    r.map (·.1) = ids ∧
    ∀ p ∈ r, p.2.scope = (raw p.1).scope ∧ (∀ g ∈ p.2.needs, p.2.scope ≤ (raw g).scope ∧ g ≠ p.1) ∧
      (∀ g, g ∈ p.2.needs ↔ ∃ q ∈ (raw p.1).required, q.1 ∉ (raw p.1).params.map (·.1) ∧ lookup p.1 q.2 = some g) ∧
      p.2.params.Nodup ∧ ∀ i, i ∈ p.2.params ↔ ∃ a, (a, i) ∈ (raw p.1).params := by
  obtain ⟨h1, h2⟩ := resolveAll_ok h
  refine ⟨h1, fun p hp => ?_⟩
  have := h2 p hp
  unfold resolveFix at this
  cases hr : resolveArgs raw p.1 (lookup p.1) (raw p.1).required with
  | error e => rw [hr] at this; cases this
  | ok l =>
    rw [hr] at this
    simp only [Except.map, Except.ok.injEq] at this
    obtain ⟨k1, k2, k3⟩ := resolveArgs_ok hr
    rw [← this]
    refine ⟨rfl, ?_, fun g => ⟨?_, ?_⟩, nodup_eraseDups _, fun i => ?_⟩
    · intro g hg
      obtain ⟨q, hq, rfl⟩ := List.mem_map.1 hg
      exact k1 q hq
    · intro hg
      obtain ⟨q, hq, rfl⟩ := List.mem_map.1 hg
      obtain ⟨q', h3, -, h4, h5⟩ := k3 q hq
      exact ⟨q', h3, h5, h4⟩
    · rintro ⟨q, h3, h4, h5⟩
      obtain ⟨g', h6, h7⟩ := k2 q h3 h4
      rw [h5] at h6
      cases h6
      exact List.mem_map.2 ⟨_, h7, rfl⟩
    · simp only [List.mem_eraseDups, List.mem_map, Prod.exists, exists_eq_right]

/-- C19: a fixture with an argument naming a fixture of narrower scope is rejected, whatever the order of resolution. -/
theorem C19_narrower_rejected (raw : Nat → Raw) (lookup : Nat → String → Option Nat) (ids : List Nat) (f g : Nat) (q : String × String)
    (hf : f ∈ ids) (hq : q ∈ (raw f).required) (hp : q.1 ∉ (raw f).params.map (·.1)) (hl : lookup f q.2 = some g)
    (hs : (raw g).scope < (raw f).scope) : ∃ e, resolveAll raw lookup ids = .error e := by
  cases h : resolveAll raw lookup ids with
  | error e => exact ⟨e, rfl⟩
  | ok r =>
    obtain ⟨h1, h2⟩ := C19_dependencies_live_longer raw lookup ids r h
    rw [← h1] at hf
    obtain ⟨p, hp', rfl⟩ := List.mem_map.1 hf
    obtain ⟨h3, h4, h5, -⟩ := h2 p hp'
    have := (h4 g ((h5 g).2 ⟨q, hq, hp, hl⟩)).1
    omega

/-- a session fixture on a test fixture is rejected, a test fixture on a session fixture is not -/
example :
    let raw : Nat → Raw := fun f => if f = 0 then { scope := 2, required := [("b", "b")] } else { required := [("a", "a")] }
    let lookup : Nat → String → Option Nat := fun _ n => if n = "a" then some 0 else if n = "b" then some 1 else none
    resolveFix raw lookup 0 = .error .scope ∧ resolveFix raw lookup 1 = .ok { needs := [0] } := by
  constructor <;> rfl

/-- an argument that is a parameter is not looked up -/
example : resolveFix (fun _ => { required := [("x", "x"), ("y", "y")], params := [("x", 7), ("y", 7)] }) (fun _ _ => none) 0 = .ok { params := [7] } := by
  rfl

/-! ## Dependency cycles -/

/-- one or more dependency steps -/
inductive Trans (defs : Nat → FDef) : Nat → Nat → Prop where
  | one {f g} : g ∈ (defs f).needs → Trans defs f g
  | cons {f g h} : g ∈ (defs f).needs → Trans defs g h → Trans defs f h

/-- zero or more dependency steps -/
def Reach (defs : Nat → FDef) (f g : Nat) : Prop := f = g ∨ Trans defs f g

theorem Trans.trans {defs : Nat → FDef} {f g h : Nat} (a : Trans defs f g) (b : Trans defs g h) : Trans defs f h := by
  induction a with
  | one e => exact .cons e b
  | cons e _ ih => exact .cons e (ih b)

theorem Reach.trans_one {defs : Nat → FDef} {f g h : Nat} (a : Reach defs f g) (b : h ∈ (defs g).needs) : Trans defs f h := by
  rcases a with rfl | a
  · exact .one b
  · exact a.trans (.one b)

/-- a fixture on a dependency cycle can be reached -/
def Cyclic (defs : Nat → FDef) (f : Nat) : Prop := ∃ g, Reach defs f g ∧ Trans defs g g

theorem Reach.refl (defs : Nat → FDef) (f : Nat) : Reach defs f f := .inl rfl

/-- parameters of the fixtures that can be reached -/
def Param (defs : Nat → FDef) (f p : Nat) : Prop := ∃ g, Reach defs f g ∧ p ∈ (defs g).params

theorem mem_addAll (l xs : List Nat) (p : Nat) : p ∈ addAll l xs ↔ p ∈ l ∨ p ∈ xs := by
  induction xs generalizing l with
  | nil => simp [addAll]
  | cons x xs ih =>
    simp only [addAll, ih, List.mem_cons]
    split
    · rename_i h
      constructor
      · rintro (h' | h')
        · exact .inl h'
        · exact .inr (.inr h')
      · rintro (h' | rfl | h')
        · exact .inl h'
        · exact .inl h
        · exact .inr h'
    · simp only [List.mem_append, List.mem_singleton]
      constructor
      · rintro ((h' | h') | h')
        · exact .inl h'
        · exact .inr (.inl h')
        · exact .inr (.inr h')
      · rintro (h' | h' | h')
        · exact .inl (.inl h')
        · exact .inl (.inr h')
        · exact .inr h'

theorem nodup_addAll (l xs : List Nat) (h : l.Nodup) : (addAll l xs).Nodup := by
  induction xs generalizing l with
  | nil => exact h
  | cons x xs ih =>
    simp only [addAll]
    apply ih
    split
    · exact h
    · rename_i hx
      exact List.nodup_append.2 ⟨h, by simp, by simp; intro a ha e; exact hx (e ▸ ha)⟩

/-- the work-list entries pushed -/
theorem push_some {path : List Nat} {gs : List Nat} {stack stack' : List Entry} (h : push path gs stack = some stack') :
    (∀ g ∈ gs, g ∉ path) ∧ ∀ e, e ∈ stack' ↔ e ∈ stack ∨ ∃ g ∈ gs, e = (g, path ++ [g]) := by
  induction gs generalizing stack with
  | nil => simp only [push, Option.some.injEq] at h; subst h; simp
  | cons g gs ih =>
    simp only [push] at h
    split at h
    · cases h
    · rename_i hg
      obtain ⟨h1, h2⟩ := ih h
      refine ⟨?_, fun e => ?_⟩
      · intro x hx
        rcases List.mem_cons.1 hx with rfl | hx
        · exact hg
        · exact h1 x hx
      · rw [h2]
        simp only [List.mem_cons]
        constructor
        · rintro ((rfl | h) | ⟨x, hx, rfl⟩)
          · exact .inr ⟨g, .inl rfl, rfl⟩
          · exact .inl h
          · exact .inr ⟨x, .inr hx, rfl⟩
        · rintro (h | ⟨x, rfl | hx, rfl⟩)
          · exact .inl (.inr h)
          · exact .inl (.inl rfl)
          · exact .inr ⟨x, hx, rfl⟩

theorem push_none {path : List Nat} {gs : List Nat} {stack : List Entry} (h : push path gs stack = none) : ∃ g ∈ gs, g ∈ path := by
  induction gs generalizing stack with
  | nil => simp [push] at h
  | cons g gs ih =>
    simp only [push] at h
    split at h
    · exact ⟨g, by simp, by assumption⟩
    · obtain ⟨x, hx, hx'⟩ := ih h; exact ⟨x, by simp [hx], hx'⟩

/-- what the memo table says is right: an entry is the set of parameters, and there is no cycle -/
def MemoOk (defs : Nat → FDef) (memo : Nat → Option (List Nat)) : Prop :=
  ∀ f l, memo f = some l → ¬ Cyclic defs f ∧ ∀ p, p ∈ l ↔ Param defs f p

/-- the fixtures on the path of an entry lead to it -/
def EntryOk (defs : Nat → FDef) (e : Entry) : Prop := e.1 ∈ e.2 ∧ ∀ g ∈ e.2, Reach defs g e.1

theorem entryOk_push {defs : Nat → FDef} {f g : Nat} {path : List Nat} (h : EntryOk defs (f, path)) (hg : g ∈ (defs f).needs) :
    EntryOk defs (g, path ++ [g]) := by
  refine ⟨by simp, fun x hx => ?_⟩
  rcases List.mem_append.1 hx with hx | hx
  · exact .inr ((h.2 x hx).trans_one hg)
  · simp only [List.mem_singleton] at hx; subst hx; exact .refl _ _

theorem collect_spec {defs : Nat → FDef} {memo : Nat → Option (List Nat)} (hm : MemoOk defs memo) :
    ∀ (fuel : Nat) (stack : List Entry) (ret : List Nat) (res : Option (List Nat)),
      (∀ e ∈ stack, EntryOk defs e) → collect defs memo fuel stack ret = some res →
      match res with
      | none => ∃ e ∈ stack, Cyclic defs e.1
      | some l => (∀ e ∈ stack, ¬ Cyclic defs e.1 ∧ ∀ g, Trans defs e.1 g → g ∉ e.2) ∧
          (∀ p, p ∈ l ↔ p ∈ ret ∨ ∃ e ∈ stack, Param defs e.1 p) ∧ (ret.Nodup → l.Nodup) := by
  intro fuel
  induction fuel with
  | zero =>
    intro stack ret res hs h
    cases stack with
    | nil => simp only [collect, Option.some.injEq] at h; subst h; simp
    | cons e stack => simp [collect] at h
  | succ fuel ih =>
    intro stack ret res hs h
    cases stack with
    | nil => simp only [collect, Option.some.injEq] at h; subst h; simp
    | cons e stack =>
      obtain ⟨f, path⟩ := e
      have he := hs (f, path) (by simp)
      simp only [collect] at h
      cases hmf : memo f with
      | some l =>
        rw [hmf] at h
        have := ih stack _ res (fun e he => hs e (by simp [he])) h
        obtain ⟨hcy, hpar⟩ := hm f l hmf
        cases res with
        | none => obtain ⟨e, h1, h2⟩ := this; exact ⟨e, by simp [h1], h2⟩
        | some r =>
          obtain ⟨h1, h2, h3⟩ := this
          refine ⟨?_, ?_, fun hn => h3 (nodup_addAll _ _ hn)⟩
          · intro e he'
            rcases List.mem_cons.1 he' with rfl | he'
            · refine ⟨hcy, fun g hg hgp => hcy ?_⟩
              rcases he.2 g hgp with h4 | h4
              · exact ⟨f, .refl _ _, by simp only at h4 hg; rw [h4] at hg; exact hg⟩
              · exact ⟨f, .refl _ _, Trans.trans hg h4⟩
            · exact h1 e he'
          · intro p
            rw [h2, mem_addAll, hpar]
            simp only [List.mem_cons, exists_eq_or_imp, or_assoc]
      | none =>
        rw [hmf] at h
        simp only at h
        cases hp : push path (defs f).needs stack with
        | none =>
          rw [hp] at h
          simp only [Option.some.injEq] at h
          subst h
          obtain ⟨g, hg, hgp⟩ := push_none hp
          exact ⟨(f, path), by simp, f, .refl _ _, by
            have := he.2 g hgp
            simp only at this
            rcases this with rfl | h4
            · exact .one hg
            · exact .cons hg h4⟩
        | some stack' =>
          rw [hp] at h
          obtain ⟨hp1, hp2⟩ := push_some hp
          have hs' : ∀ e ∈ stack', EntryOk defs e := by
            intro e he'
            rcases (hp2 e).1 he' with h5 | ⟨g, hg, rfl⟩
            · exact hs e (by simp [h5])
            · exact entryOk_push he hg
          have := ih stack' _ res hs' h
          cases res with
          | none =>
            obtain ⟨e, h1, h2⟩ := this
            rcases (hp2 e).1 h1 with h5 | ⟨g, hg, rfl⟩
            · exact ⟨e, by simp [h5], h2⟩
            · obtain ⟨x, hx, hx'⟩ := h2
              refine ⟨(f, path), by simp, x, ?_, hx'⟩
              simp only at hx ⊢
              rcases hx with rfl | hx
              · exact .inr (.one hg)
              · exact .inr (.cons hg hx)
          | some r =>
            obtain ⟨h1, h2, h3⟩ := this
            have hself : ∀ g, Trans defs f g → g ∉ path := by
              intro g hg
              cases hg with
              | one e => exact hp1 g e
              | cons e t =>
                rename_i y
                intro hgp
                exact (h1 (y, path ++ [y]) ((hp2 _).2 (.inr ⟨y, e, rfl⟩))).2 g t (by simp [hgp])
            refine ⟨?_, ?_, fun hn => h3 (nodup_addAll _ _ hn)⟩
            · intro e he'
              rcases List.mem_cons.1 he' with rfl | he'
              · refine ⟨?_, hself⟩
                rintro ⟨x, hx, hxx⟩
                simp only at hx
                rcases hx with rfl | hx
                · exact hself _ hxx he.1
                · cases hx with
                  | one e => exact (h1 (x, path ++ [x]) ((hp2 _).2 (.inr ⟨x, e, rfl⟩))).1 ⟨x, .refl _ _, hxx⟩
                  | cons e t =>
                    rename_i y
                    exact (h1 (y, path ++ [y]) ((hp2 _).2 (.inr ⟨y, e, rfl⟩))).1 ⟨x, .inr t, hxx⟩
              · exact h1 e ((hp2 e).2 (.inl he'))
            · intro p
              rw [h2, mem_addAll]
              constructor
              · rintro ((h5 | h5) | ⟨e, h5, h6⟩)
                · exact .inl h5
                · exact .inr ⟨(f, path), by simp, f, .refl _ _, h5⟩
                · rcases (hp2 e).1 h5 with h7 | ⟨g, hg, rfl⟩
                  · exact .inr ⟨e, by simp [h7], h6⟩
                  · obtain ⟨x, hx, hx'⟩ := h6
                    refine .inr ⟨(f, path), by simp, x, ?_, hx'⟩
                    simp only at hx ⊢
                    rcases hx with rfl | hx
                    · exact .inr (.one hg)
                    · exact .inr (.cons hg hx)
              · rintro (h5 | ⟨e, h5, h6⟩)
                · exact .inl (.inl h5)
                · rcases List.mem_cons.1 h5 with rfl | h5
                  · obtain ⟨x, hx, hx'⟩ := h6
                    simp only at hx
                    rcases hx with rfl | hx
                    · exact .inl (.inr hx')
                    · cases hx with
                      | one e => exact .inr ⟨(x, path ++ [x]), (hp2 _).2 (.inr ⟨x, e, rfl⟩), x, .refl _ _, hx'⟩
                      | cons e t =>
                        rename_i y
                        exact .inr ⟨(y, path ++ [y]), (hp2 _).2 (.inr ⟨y, e, rfl⟩), x, .inr t, hx'⟩
                  · exact .inr ⟨e, (hp2 e).2 (.inl h5), h6⟩

/-! Termination -/

/-- a bound on the work an entry causes: `V` is a set of fixtures closed under dependencies, `d` a bound on the number of
dependencies -/
def weight (V : List Nat) (d : Nat) (stack : List Entry) : Nat := (stack.map (fun e => (d + 1) ^ (V.length - e.2.length))).sum

theorem push_weight {V : List Nat} {d : Nat} {path : List Nat} {k : Nat} {gs : List Nat} {stack stack' : List Entry}
    (h : push path gs stack = some stack') (hk : V.length - (path.length + 1) = k) :
    weight V d stack' = weight V d stack + gs.length * (d + 1) ^ k := by
  induction gs generalizing stack with
  | nil => simp only [push, Option.some.injEq] at h; subst h; simp
  | cons g gs ih =>
    simp only [push] at h
    split at h
    · cases h
    · rw [ih h]
      simp only [weight, List.map_cons, List.sum_cons, List.length_append, List.length_cons, List.length_nil, Nat.zero_add, hk,
        Nat.succ_mul]
      omega

/-- paths stay without repetition, inside the closed set -/
def EntryIn (V : List Nat) (e : Entry) : Prop := e.2.Nodup ∧ e.2 ⊆ V ∧ e.1 ∈ V

theorem collect_terminates {defs : Nat → FDef} (memo : Nat → Option (List Nat)) (V : List Nat) (d : Nat)
    (hV : ∀ f ∈ V, ∀ g ∈ (defs f).needs, g ∈ V) (hd : ∀ f ∈ V, (defs f).needs.length ≤ d) :
    ∀ (fuel : Nat) (stack : List Entry) (ret : List Nat), (∀ e ∈ stack, EntryIn V e) → weight V d stack ≤ fuel →
      ∃ res, collect defs memo fuel stack ret = some res := by
  intro fuel
  induction fuel with
  | zero =>
    intro stack ret hs hw
    cases stack with
    | nil => exact ⟨some ret, rfl⟩
    | cons e stack =>
      exfalso
      simp only [weight, List.map_cons, List.sum_cons] at hw
      have : 0 < (d + 1) ^ (V.length - e.2.length) := Nat.pow_pos (Nat.succ_pos d)
      omega
  | succ fuel ih =>
    intro stack ret hs hw
    cases stack with
    | nil => exact ⟨some ret, rfl⟩
    | cons e stack =>
      obtain ⟨f, path⟩ := e
      have hpos : 0 < (d + 1) ^ (V.length - path.length) := Nat.pow_pos (Nat.succ_pos d)
      have hw' : (d + 1) ^ (V.length - path.length) + weight V d stack ≤ fuel + 1 := by
        simpa [weight] using hw
      simp only [collect]
      cases memo f with
      | some l => exact ih stack _ (fun e he => hs e (by simp [he])) (by omega)
      | none =>
        simp only
        cases hp : push path (defs f).needs stack with
        | none => exact ⟨none, rfl⟩
        | some stack' =>
          obtain ⟨hp1, hp2⟩ := push_some hp
          obtain ⟨e1, e2, e3⟩ := hs (f, path) (by simp)
          simp only at e1 e2 e3
          refine ih stack' _ ?_ ?_
          · intro e he
            rcases (hp2 e).1 he with he | ⟨g, hg, rfl⟩
            · exact hs e (by simp [he])
            · refine ⟨?_, ?_, hV f e3 g hg⟩
              · exact List.nodup_append.2 ⟨e1, by simp, by simp; intro a ha e; exact hp1 g hg (e ▸ ha)⟩
              · intro x hx
                rcases List.mem_append.1 hx with hx | hx
                · exact e2 hx
                · simp only [List.mem_singleton] at hx; subst hx; exact hV f e3 _ hg
          · rw [push_weight hp rfl]
            cases hn : (defs f).needs with
            | nil => simp only [List.length_nil, Nat.zero_mul]; omega
            | cons g gs =>
              have hg : g ∈ (defs f).needs := by rw [hn]; simp
              have hlt : path.length + 1 ≤ V.length := by
                have := nodup_subset_length (l := g :: path) (w := V) (List.nodup_cons.2 ⟨hp1 g hg, e1⟩) (by
                  intro x hx
                  rcases List.mem_cons.1 hx with rfl | hx
                  · exact hV f e3 _ hg
                  · exact e2 hx)
                simpa using this
              rw [← hn]
              have hle := hd f e3
              have hpow : (d + 1) ^ (V.length - path.length) = (d + 1) * (d + 1) ^ (V.length - (path.length + 1)) := by
                rw [show V.length - path.length = (V.length - (path.length + 1)) + 1 by omega, Nat.pow_succ, Nat.mul_comm]
              have hpos2 : 0 < (d + 1) ^ (V.length - (path.length + 1)) := Nat.pow_pos (Nat.succ_pos d)
              have hmul := Nat.mul_le_mul_right ((d + 1) ^ (V.length - (path.length + 1))) hle
              rw [hpow, Nat.add_mul, Nat.one_mul] at hw'
              omega

/-- the result does not depend on the fuel, once there is enough -/
theorem collect_more {defs : Nat → FDef} {memo : Nat → Option (List Nat)} :
    ∀ {fuel : Nat} {stack : List Entry} {ret : List Nat} {res : Option (List Nat)}, collect defs memo fuel stack ret = some res →
      ∀ k, collect defs memo (fuel + k) stack ret = some res := by
  intro fuel
  induction fuel with
  | zero =>
    intro stack ret res h k
    cases stack with
    | nil => cases k <;> simpa [collect] using h
    | cons e stack => simp [collect] at h
  | succ fuel ih =>
    intro stack ret res h k
    cases stack with
    | nil => rw [show fuel + 1 + k = (fuel + k) + 1 by omega]; simpa [collect] using h
    | cons e stack =>
      obtain ⟨f, path⟩ := e
      rw [show fuel + 1 + k = (fuel + k) + 1 by omega]
      simp only [collect] at h ⊢
      cases hm : memo f with
      | some l => rw [hm] at h; exact ih h k
      | none =>
        rw [hm] at h
        simp only at h ⊢
        cases hp : push path (defs f).needs stack with
        | none => rw [hp] at h; exact h
        | some stack' => rw [hp] at h; exact ih h k

/-- C18: collecting what a fixture needs terminates, whatever the (finite) dependency graph: `V` is any finite set of
fixtures containing the given one and all dependencies of its members. -/
theorem C18_terminates (defs : Nat → FDef) (memo : Nat → Option (List Nat)) (V : List Nat)
    (hV : ∀ f ∈ V, ∀ g ∈ (defs f).needs, g ∈ V) (f : Nat) (hf : f ∈ V) :
    ∃ fuel res, ∀ k, needed defs memo (fuel + k) f = some res := by
  have hd : ∀ x ∈ V, (defs x).needs.length ≤ (V.map (fun x => (defs x).needs.length)).sum := by
    intro x hx
    clear hV hf
    induction V with
    | nil => simp at hx
    | cons v V ih =>
      simp only [List.map_cons, List.sum_cons]
      rcases List.mem_cons.1 hx with rfl | hx
      · omega
      · have := ih hx; omega
  obtain ⟨res, hres⟩ := collect_terminates memo V _ hV hd _ [(f, [f])] []
    (by intro e he; simp only [List.mem_singleton] at he; subst he; exact ⟨by simp, by simpa using hf, hf⟩) (Nat.le_refl _)
  exact ⟨_, res, fun k => collect_more hres k⟩

/-- C18: whenever it ends, the cycle error was raised exactly if the fixture leads to a dependency cycle, and otherwise the
result is exactly the set of all parameters of all fixtures it leads to, without repetition. `memo` holds earlier
results. -/
theorem C18_error_iff_cycle (defs : Nat → FDef) (memo : Nat → Option (List Nat)) (hm : MemoOk defs memo) (fuel f : Nat)
    (res : Option (List Nat)) (h : needed defs memo fuel f = some res) :
    (res = none ↔ Cyclic defs f) ∧ ∀ l, res = some l → l.Nodup ∧ ∀ p, p ∈ l ↔ Param defs f p := by
  have := collect_spec hm fuel [(f, [f])] [] res
    (by intro e he; simp only [List.mem_singleton] at he; subst he; exact ⟨by simp, by simp [Reach]⟩) h
  cases res with
  | none =>
    obtain ⟨e, he, hc⟩ := this
    simp only [List.mem_singleton] at he
    subst he
    exact ⟨⟨fun _ => hc, fun _ => rfl⟩, fun l hl => by cases hl⟩
  | some l =>
    obtain ⟨h1, h2, h3⟩ := this
    refine ⟨⟨(fun h => by cases h), fun hc => absurd hc (h1 (f, [f]) (by simp)).1⟩, fun l' hl => ?_⟩
    simp only [Option.some.injEq] at hl
    subst hl
    refine ⟨h3 (by simp), fun p => ?_⟩
    rw [h2]
    simp

/-- C18: the table of earlier results stays right when a new result is stored in it
(`fixture_store.py:152-154`). So the results do not depend on what was computed before. -/
theorem C18_memo_stays_right (defs : Nat → FDef) (memo : Nat → Option (List Nat)) (hm : MemoOk defs memo) (fuel f : Nat)
    (l : List Nat) (h : needed defs memo fuel f = some (some l)) : MemoOk defs (fun g => if g = f then some l else memo g) := by
  obtain ⟨h1, h2⟩ := C18_error_iff_cycle defs memo hm fuel f (some l) h
  intro g l' hg
  simp only at hg
  split at hg
  · rename_i e
    subst e
    simp only [Option.some.injEq] at hg
    subst hg
    exact ⟨(fun hc => by cases h1.2 hc), (h2 _ rfl).2⟩
  · exact hm g l' hg

/-- a diamond with parameters, and a cycle behind it -/
example :
    let defs : Nat → FDef := fun f =>
      if f = 0 then { needs := [1, 2] } else if f = 1 then { needs := [3], params := [10] }
      else if f = 2 then { needs := [3], params := [11, 12] } else if f = 3 then { params := [13] }
      else if f = 4 then { needs := [0, 5] } else if f = 5 then { needs := [6] } else { needs := [5] }
    needed defs (fun _ => none) 20 0 = some (some [11, 12, 13, 10]) ∧ needed defs (fun _ => none) 20 4 = some none := by
  decide

end Slash.FG
