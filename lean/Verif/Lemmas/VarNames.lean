import Verif.Model.VarNames
import Verif.Props.Variation
import Verif.Props.TestMeta
/-!
# Lemmas about the names of parameters
-/
namespace Slash.VN
open Slash.Meta (Str)

/-- The name `n` says how to get from the starting point `o`, named `r`, to the object `g`: through arguments of fixtures. -/
inductive Leads (defs : Defs) (r : Str) (o : Obj) : Str → Obj → Prop
  | root : Leads defs r o r o
  | step {n s : Str} {f g : Obj} {kw : List (Str × Obj)} : Leads defs r o n f → defs f.id = some kw → (s, g) ∈ kw → Leads defs r o (dot n s) g

/-- Arguments have different names, and names of arguments have no dots. -/
def WF (defs : Defs) : Prop := ∀ i kw, defs i = some kw → (kw.map (·.1)).Nodup ∧ ∀ e ∈ kw, '.' ∉ e.1

theorem dot_inj {n n' s s' : Str} (hs : '.' ∉ s) (hs' : '.' ∉ s') (h : dot n s = dot n' s') : n = n' ∧ s = s' := by
  unfold dot at h
  induction n generalizing n' with
  | nil =>
    cases n' with
    | nil => simpa using h
    | cons c n' =>
      simp only [List.nil_append, List.cons_append, List.cons.injEq] at h
      obtain ⟨-, h⟩ := h
      subst h
      simp at hs
  | cons c n ih =>
    cases n' with
    | nil =>
      simp only [List.nil_append, List.cons_append, List.cons.injEq] at h
      obtain ⟨-, h⟩ := h
      subst h
      simp at hs'
    | cons c' n' =>
      simp only [List.cons_append, List.cons.injEq] at h
      obtain ⟨h1, h2⟩ := ih h.2
      exact ⟨by rw [h.1, h1], h2⟩

theorem mem_dot (n s : Str) : '.' ∈ dot n s := by simp [dot]

theorem Leads.inj {defs : Defs} (hw : WF defs) {r r' : Str} {o o' : Obj} (hr : '.' ∉ r) (hr' : '.' ∉ r') {n : Str} {g g' : Obj}
    (h : Leads defs r o n g) (h' : Leads defs r' o' n g') : r = r' ∧ (o = o' → g = g') := by
  induction h generalizing g' with
  | root =>
    generalize hn : r = n at h'
    cases h' with
    | root => exact ⟨rfl, fun e => e⟩
    | step _ _ _ => subst hn; exact absurd (mem_dot _ _) hr
  | @step n s f g kw _ hd hm ih =>
    generalize hn : dot n s = m at h'
    cases h' with
    | root => subst hn; exact absurd (mem_dot _ _) hr'
    | @step n' s' f' _ kw' h1 hd' hm' =>
      obtain ⟨e1, e2⟩ := dot_inj ((hw _ _ hd).2 _ hm) ((hw _ _ hd').2 _ hm') hn
      subst e1 e2
      obtain ⟨e, k⟩ := ih h1
      refine ⟨e, fun e' => ?_⟩
      rw [← k e', hd] at hd'
      cases hd'
      have := inj_on_of_nodup_map (hw _ _ hd).1 hm hm' rfl
      exact congrArg Prod.snd this

/-! ## Dictionaries -/

theorem mem_bind {k : Str} {v : Obj} {b : List (Str × Obj)} {e : Str × Obj} (h : e ∈ bind k v b) : e = (k, v) ∨ e ∈ b := by
  induction b with
  | nil => exact .inl (List.mem_singleton.1 h)
  | cons x b ih =>
    simp only [bind] at h
    split at h
    · rcases List.mem_cons.1 h with h | h
      · exact .inl h
      · exact .inr (List.mem_cons_of_mem _ h)
    · rcases List.mem_cons.1 h with h | h
      · exact .inr (h ▸ List.mem_cons_self)
      · rcases ih h with h | h
        · exact .inl h
        · exact .inr (List.mem_cons_of_mem _ h)

theorem self_mem_bind (k : Str) (v : Obj) (b : List (Str × Obj)) : (k, v) ∈ bind k v b := by
  induction b with
  | nil => simp [bind]
  | cons x b ih =>
    simp only [bind]
    split
    · simp
    · exact List.mem_cons_of_mem _ ih

theorem mem_bind_of_mem {k : Str} {v : Obj} {b : List (Str × Obj)} {e : Str × Obj} (h : e ∈ b) (hk : e.1 = k → e.2 = v) : e ∈ bind k v b := by
  induction b with
  | nil => cases h
  | cons x b ih =>
    simp only [bind]
    split
    · rename_i hx
      rcases List.mem_cons.1 h with rfl | h
      · exact List.mem_cons.2 (.inl (Prod.ext hx (hk hx)))
      · exact List.mem_cons_of_mem _ h
    · rcases List.mem_cons.1 h with rfl | h
      · exact List.mem_cons_self
      · exact List.mem_cons_of_mem _ (ih h)

theorem keys_bind_nodup {k : Str} {v : Obj} {b : List (Str × Obj)} (h : (b.map (·.1)).Nodup) : ((bind k v b).map (·.1)).Nodup := by
  induction b with
  | nil => simp [bind]
  | cons x b ih =>
    rw [List.map_cons, List.nodup_cons] at h
    simp only [bind]
    split
    · rename_i hx
      rw [List.map_cons, List.nodup_cons, ← hx]; exact h
    · rename_i hx
      rw [List.map_cons, List.nodup_cons]
      refine ⟨fun hm => ?_, ih h.2⟩
      obtain ⟨y, hy, he⟩ := List.mem_map.1 hm
      rcases mem_bind hy with rfl | hy
      · exact hx he.symm
      · exact h.1 (he ▸ List.mem_map_of_mem hy)

/-! ## The walk -/

theorem pushSubs_spec (name : Str) (kw : List (Str × Obj)) (visited : List Nat) (stack : List (Str × Obj)) :
    (∀ i, i ∈ (pushSubs name kw visited stack).1 ↔ i ∈ visited ∨ ∃ e ∈ kw, e.2.id = i) ∧
    (∀ e ∈ (pushSubs name kw visited stack).2, e ∈ stack ∨ ∃ x ∈ kw, e = (dot name x.1, x.2)) ∧
    (∀ e ∈ stack, e ∈ (pushSubs name kw visited stack).2) ∧
    (∀ e ∈ kw, e.2.id ∉ visited → ∃ x ∈ (pushSubs name kw visited stack).2, x.2.id = e.2.id) := by
  induction kw generalizing visited stack with
  | nil => simp [pushSubs]
  | cons x kw ih =>
    obtain ⟨sub, o⟩ := x
    simp only [pushSubs]
    split
    · rename_i hv
      obtain ⟨h1, h2, h3, h4⟩ := ih visited stack
      refine ⟨fun i => ?_, fun e he => ?_, h3, fun e he hn => ?_⟩
      · rw [h1]
        constructor
        · rintro (h | ⟨e, he, h⟩)
          · exact .inl h
          · exact .inr ⟨e, List.mem_cons_of_mem _ he, h⟩
        · rintro (h | ⟨e, he, h⟩)
          · exact .inl h
          · rcases List.mem_cons.1 he with rfl | he
            · exact .inl (h ▸ hv)
            · exact .inr ⟨e, he, h⟩
      · rcases h2 e he with h | ⟨x, hx, h⟩
        · exact .inl h
        · exact .inr ⟨x, List.mem_cons_of_mem _ hx, h⟩
      · rcases List.mem_cons.1 he with rfl | he
        · exact absurd hv hn
        · exact h4 e he hn
    · rename_i hv
      obtain ⟨h1, h2, h3, h4⟩ := ih (o.id :: visited) ((dot name sub, o) :: stack)
      refine ⟨fun i => ?_, fun e he => ?_, fun e he => h3 e (List.mem_cons_of_mem _ he), fun e he hn => ?_⟩
      · rw [h1, List.mem_cons]
        constructor
        · rintro ((h | h) | ⟨e, he, h⟩)
          · exact .inr ⟨(sub, o), List.mem_cons_self, h.symm⟩
          · exact .inl h
          · exact .inr ⟨e, List.mem_cons_of_mem _ he, h⟩
        · rintro (h | ⟨e, he, h⟩)
          · exact .inl (.inr h)
          · rcases List.mem_cons.1 he with rfl | he
            · exact .inl (.inl h.symm)
            · exact .inr ⟨e, he, h⟩
      · rcases h2 e he with h | ⟨x, hx, h⟩
        · rcases List.mem_cons.1 h with h | h
          · exact .inr ⟨(sub, o), List.mem_cons_self, h⟩
          · exact .inl h
        · exact .inr ⟨x, List.mem_cons_of_mem _ hx, h⟩
      · by_cases ho : e.2.id = o.id
        · exact ⟨_, h3 _ List.mem_cons_self, ho.symm⟩
        · rcases List.mem_cons.1 he with rfl | he
          · exact absurd rfl ho
          · exact h4 e he (by rw [List.mem_cons]; exact fun h => h.elim ho hn)

/-- soundness of the walk, and what it keeps -/
theorem walk_sound {defs : Defs} {r : Str} {o : Obj} (fuel : Nat) (visited : List Nat) (stack b res : List (Str × Obj))
    (hs : ∀ e ∈ stack, Leads defs r o e.1 e.2) (h : walk defs fuel visited stack b = some res) :
    (∀ e ∈ res, e ∈ b ∨ (Leads defs r o e.1 e.2 ∧ defs e.2.id = none)) ∧
    (∀ e ∈ b, (∀ g, Leads defs r o e.1 g → e.2 = g) → e ∈ res) ∧
    ((b.map (·.1)).Nodup → (res.map (·.1)).Nodup) := by
  induction fuel generalizing visited stack b with
  | zero =>
    cases stack with
    | nil => cases h; exact ⟨fun e he => .inl he, fun e he _ => he, id⟩
    | cons x stack => cases h
  | succ fuel ih =>
    cases stack with
    | nil => cases h; exact ⟨fun e he => .inl he, fun e he _ => he, id⟩
    | cons x stack =>
      obtain ⟨name, f⟩ := x
      simp only [walk] at h
      have hf := hs _ List.mem_cons_self
      cases hd : defs f.id with
      | some kw =>
        rw [hd] at h
        refine ih _ _ b (fun e he => ?_) h
        rcases (pushSubs_spec name kw visited stack).2.1 e he with h' | ⟨x, hx, h'⟩
        · exact hs e (List.mem_cons_of_mem _ h')
        · rw [h']; exact .step hf hd hx
      | none =>
        rw [hd] at h
        obtain ⟨h1, h2, h3⟩ := ih _ _ _ (fun e he => hs e (List.mem_cons_of_mem _ he)) h
        refine ⟨fun e he => ?_, fun e he hg => ?_, fun hn => h3 (keys_bind_nodup hn)⟩
        · rcases h1 e he with h | h
          · rcases mem_bind h with rfl | h
            · exact .inr ⟨hf, hd⟩
            · exact .inl h
          · exact .inr h
        · exact h2 e (mem_bind_of_mem he (fun e' => hg f (e' ▸ hf))) hg

/-- completeness of the walk -/
theorem walk_complete {defs : Defs} (hw : WF defs) {r : Str} {o : Obj} (hr : '.' ∉ r) (fuel : Nat) (visited : List Nat)
    (stack b res : List (Str × Obj)) (hs : ∀ e ∈ stack, Leads defs r o e.1 e.2)
    (hv : ∀ i ∈ visited, (∃ e ∈ stack, e.2.id = i) ∨
      ((defs i = none → ∃ e ∈ b, Leads defs r o e.1 e.2 ∧ e.2.id = i) ∧ ∀ kw, defs i = some kw → ∀ e ∈ kw, e.2.id ∈ visited))
    (h : walk defs fuel visited stack b = some res) :
    ∃ V : List Nat, (∀ i ∈ visited, i ∈ V) ∧ ∀ i ∈ V,
      (defs i = none → ∃ e ∈ res, Leads defs r o e.1 e.2 ∧ e.2.id = i) ∧ ∀ kw, defs i = some kw → ∀ e ∈ kw, e.2.id ∈ V := by
  have base : ∀ (visited : List Nat) (b : List (Str × Obj)), (∀ i ∈ visited, (∃ e ∈ ([] : List (Str × Obj)), e.2.id = i) ∨
      ((defs i = none → ∃ e ∈ b, Leads defs r o e.1 e.2 ∧ e.2.id = i) ∧ ∀ kw, defs i = some kw → ∀ e ∈ kw, e.2.id ∈ visited)) →
      ∃ V : List Nat, (∀ i ∈ visited, i ∈ V) ∧ ∀ i ∈ V,
      (defs i = none → ∃ e ∈ b, Leads defs r o e.1 e.2 ∧ e.2.id = i) ∧ ∀ kw, defs i = some kw → ∀ e ∈ kw, e.2.id ∈ V := by
    intro visited b hv
    refine ⟨visited, fun i hi => hi, fun i hi => ?_⟩
    rcases hv i hi with ⟨e, he, -⟩ | h
    · cases he
    · exact h
  induction fuel generalizing visited stack b with
  | zero =>
    cases stack with
    | nil => cases h; exact base _ _ hv
    | cons x stack => cases h
  | succ fuel ih =>
    cases stack with
    | nil => cases h; exact base _ _ hv
    | cons x stack =>
      obtain ⟨name, f⟩ := x
      simp only [walk] at h
      have hf := hs _ List.mem_cons_self
      cases hd : defs f.id with
      | some kw =>
        rw [hd] at h
        obtain ⟨p1, p2, p3, p4⟩ := pushSubs_spec name kw visited stack
        obtain ⟨V, hV1, hV2⟩ := ih _ _ b (fun e he => by
          rcases p2 e he with h' | ⟨x, hx, h'⟩
          · exact hs e (List.mem_cons_of_mem _ h')
          · rw [h']; exact .step hf hd hx) (fun i hi => by
          by_cases hi' : i ∈ visited
          · rcases hv i hi' with ⟨e, he, hei⟩ | ⟨h1, h2⟩
            · rcases List.mem_cons.1 he with rfl | he
              · right
                simp only at hei
                subst hei
                refine ⟨fun hn => (by rw [hd] at hn; cases hn), fun kw' hk e he => ?_⟩
                rw [hd] at hk; cases hk
                exact (p1 _).2 (.inr ⟨e, he, rfl⟩)
              · exact .inl ⟨e, p3 e he, hei⟩
            · exact .inr ⟨h1, fun kw' hk e he => (p1 _).2 (.inl (h2 kw' hk e he))⟩
          · rcases (p1 i).1 hi with h' | ⟨e, he, hei⟩
            · exact absurd h' hi'
            · obtain ⟨x, hx, hxi⟩ := p4 e he (hei ▸ hi')
              exact .inl ⟨x, hx, hxi.trans hei⟩) h
        exact ⟨V, fun i hi => hV1 i ((p1 i).2 (.inl hi)), hV2⟩
      | none =>
        rw [hd] at h
        refine ih visited stack _ (fun e he => hs e (List.mem_cons_of_mem _ he)) (fun i hi => ?_) h
        rcases hv i hi with ⟨e, he, hei⟩ | ⟨h1, h2⟩
        · rcases List.mem_cons.1 he with rfl | he
          · right
            simp only at hei
            subst hei
            exact ⟨fun _ => ⟨(name, f), self_mem_bind _ _ _, hf, rfl⟩, fun kw hk => by rw [hd] at hk; cases hk⟩
          · exact .inl ⟨e, he, hei⟩
        · refine .inr ⟨fun hn => ?_, h2⟩
          obtain ⟨e, he, hl, hei⟩ := h1 hn
          refine ⟨e, mem_bind_of_mem he (fun ek => ?_), hl, hei⟩
          subst ek
          exact (Leads.inj hw hr hr hl hf).2 rfl

/-- the walk ends: `V` are the objects that can be met -/
theorem walk_ends {defs : Defs} (V : List Nat) (hV : ∀ i ∈ V, ∀ kw, defs i = some kw → ∀ e ∈ kw, e.2.id ∈ V) (fuel : Nat) (visited : List Nat)
    (stack b : List (Str × Obj)) (hn : visited.Nodup) (hs : visited ⊆ V) (hst : ∀ e ∈ stack, e.2.id ∈ V)
    (hf : stack.length + V.length ≤ fuel + visited.length) : ∃ res, walk defs fuel visited stack b = some res := by
  induction fuel generalizing visited stack b with
  | zero =>
    cases stack with
    | nil => exact ⟨b, rfl⟩
    | cons x stack =>
      have := nodup_subset_length hn hs
      simp only [List.length_cons] at hf
      omega
  | succ fuel ih =>
    cases stack with
    | nil => exact ⟨b, rfl⟩
    | cons x stack =>
      obtain ⟨name, f⟩ := x
      simp only [walk, List.length_cons] at hf ⊢
      cases hd : defs f.id with
      | none => exact ih visited stack _ hn hs (fun e he => hst e (List.mem_cons_of_mem _ he)) (by omega)
      | some kw =>
        have hk := hV _ (hst _ List.mem_cons_self) kw hd
        have : ∀ (kw : List (Str × Obj)) (visited : List Nat) (stack : List (Str × Obj)), (∀ e ∈ kw, e.2.id ∈ V) → visited.Nodup → visited ⊆ V →
            (∀ e ∈ stack, e.2.id ∈ V) →
            (pushSubs name kw visited stack).1.Nodup ∧ (pushSubs name kw visited stack).1 ⊆ V ∧
            (∀ e ∈ (pushSubs name kw visited stack).2, e.2.id ∈ V) ∧
            (pushSubs name kw visited stack).2.length + visited.length = stack.length + (pushSubs name kw visited stack).1.length := by
          intro kw
          induction kw with
          | nil => intro visited stack _ h1 h2 h3; exact ⟨h1, h2, h3, rfl⟩
          | cons x kw ihk =>
            obtain ⟨sub, o⟩ := x
            intro visited stack h0 h1 h2 h3
            simp only [pushSubs]
            split
            · exact ihk visited stack (fun e he => h0 e (List.mem_cons_of_mem _ he)) h1 h2 h3
            · rename_i ho
              have hoV := h0 _ List.mem_cons_self
              obtain ⟨k1, k2, k3, k4⟩ := ihk (o.id :: visited) ((dot name sub, o) :: stack) (fun e he => h0 e (List.mem_cons_of_mem _ he))
                (List.nodup_cons.2 ⟨ho, h1⟩) (List.cons_subset.2 ⟨hoV, h2⟩) (fun e he => by
                  rcases List.mem_cons.1 he with rfl | he
                  · exact hoV
                  · exact h3 e he)
              refine ⟨k1, k2, k3, ?_⟩
              simp only [List.length_cons] at k4
              omega
        obtain ⟨k1, k2, k3, k4⟩ := this kw visited stack hk hn hs (fun e he => hst e (List.mem_cons_of_mem _ he))
        exact ih _ _ b k1 k2 k3 (by omega)

/-! ## What can be reached -/

theorem fdef_needs {defs : Defs} {scope : Nat → Nat} {i j : Nat} (h : j ∈ (fdef defs scope i).needs) :
    ∃ kw, defs i = some kw ∧ ∃ e ∈ kw, e.2.id = j := by
  unfold fdef at h
  split at h
  · cases h
  · rename_i kw hd
    obtain ⟨e, he, hj⟩ := List.mem_map.1 h
    exact ⟨kw, hd, e, (List.mem_filter.1 he).1, hj⟩

theorem fdef_params {defs : Defs} {scope : Nat → Nat} {i p : Nat} (h : p ∈ (fdef defs scope i).params) :
    defs p = none ∧ (p = i ∨ ∃ kw, defs i = some kw ∧ ∃ e ∈ kw, e.2.id = p) := by
  unfold fdef at h
  split at h
  · rename_i hd
    have : p = i := by simpa using h
    exact ⟨this ▸ hd, .inl this⟩
  · rename_i kw hd
    obtain ⟨e, he, hj⟩ := List.mem_map.1 h
    obtain ⟨h1, h2⟩ := List.mem_filter.1 he
    exact ⟨by rw [← hj]; simpa using h2, .inr ⟨kw, hd, e, h1, hj⟩⟩

theorem closed_trans {defs : Defs} {scope : Nat → Nat} (V : List Nat) (hV : ∀ i ∈ V, ∀ kw, defs i = some kw → ∀ e ∈ kw, e.2.id ∈ V) {i j : Nat}
    (h : FG.Trans (fdef defs scope) i j) (hi : i ∈ V) : j ∈ V := by
  induction h with
  | one h =>
    obtain ⟨kw, hd, e, he, hj⟩ := fdef_needs h
    exact hj ▸ hV _ hi kw hd e he
  | cons h _ ih =>
    obtain ⟨kw, hd, e, he, hj⟩ := fdef_needs h
    exact ih (hj ▸ hV _ hi kw hd e he)

theorem closed_param {defs : Defs} {scope : Nat → Nat} (V : List Nat) (hV : ∀ i ∈ V, ∀ kw, defs i = some kw → ∀ e ∈ kw, e.2.id ∈ V) {i p : Nat}
    (h : FG.Param (fdef defs scope) i p) (hi : i ∈ V) : p ∈ V ∧ defs p = none := by
  obtain ⟨g, hg, hp⟩ := h
  have hgV : g ∈ V := by
    rcases hg with rfl | hg
    · exact hi
    · exact closed_trans V hV hg hi
  obtain ⟨h1, h2⟩ := fdef_params hp
  refine ⟨?_, h1⟩
  rcases h2 with rfl | ⟨kw, hd, e, he, hj⟩
  · exact hgV
  · exact hj ▸ hV _ hgV kw hd e he

theorem leads_reach {defs : Defs} {scope : Nat → Nat} {r n : Str} {o g : Obj} (h : Leads defs r o n g) :
    (∀ kw, defs g.id = some kw → FG.Reach (fdef defs scope) o.id g.id) ∧ (defs g.id = none → FG.Param (fdef defs scope) o.id g.id) := by
  induction h with
  | root =>
    refine ⟨fun _ _ => .inl rfl, fun hn => ⟨o.id, .inl rfl, ?_⟩⟩
    unfold fdef
    rw [hn]; simp
  | @step n s f g kw _ hd hm ih =>
    have hr := ih.1 kw hd
    refine ⟨fun kw' hk => .inr (hr.trans_one ?_), fun hn => ⟨f.id, hr, ?_⟩⟩
    · unfold fdef
      rw [hd]
      exact List.mem_map.2 ⟨(s, g), List.mem_filter.2 ⟨hm, by simp [hk]⟩, rfl⟩
    · unfold fdef
      rw [hd]
      exact List.mem_map.2 ⟨(s, g), List.mem_filter.2 ⟨hm, by simp [hn]⟩, rfl⟩

/-! ## All starting points -/

theorem populateAll_sound {defs : Defs} {fuel : Nat} (rs b res : List (Str × Obj)) (h : populateAll defs fuel rs b = some res) :
    (∀ e ∈ res, e ∈ b ∨ ∃ r ∈ rs, Leads defs r.1 r.2 e.1 e.2 ∧ defs e.2.id = none) ∧
    (∀ e ∈ b, (∀ r ∈ rs, ∀ g, Leads defs r.1 r.2 e.1 g → e.2 = g) → e ∈ res) ∧
    ((b.map (·.1)).Nodup → (res.map (·.1)).Nodup) := by
  induction rs generalizing b with
  | nil => cases h; exact ⟨fun e he => .inl he, fun e he _ => he, id⟩
  | cons r rs ih =>
    simp only [populateAll] at h
    cases hp : populate defs fuel r b with
    | none => rw [hp] at h; cases h
    | some b1 =>
      rw [hp] at h
      obtain ⟨h1, h2, h3⟩ := ih b1 h
      obtain ⟨k1, k2, k3⟩ := walk_sound (r := r.1) (o := r.2) fuel _ _ b b1 (fun e he => by
        rw [List.mem_singleton.1 he]; exact .root) hp
      refine ⟨fun e he => ?_, fun e he hg => ?_, fun hn => h3 (k3 hn)⟩
      · rcases h1 e he with h | ⟨x, hx, h⟩
        · rcases k1 e h with h | h
          · exact .inl h
          · exact .inr ⟨r, List.mem_cons_self, h⟩
        · exact .inr ⟨x, List.mem_cons_of_mem _ hx, h⟩
      · exact h2 e (k2 e he (hg r List.mem_cons_self)) (fun x hx => hg x (List.mem_cons_of_mem _ hx))

theorem populateAll_complete {defs : Defs} (hw : WF defs) {fuel : Nat} {scope : Nat → Nat} (rs b res : List (Str × Obj)) (hr : ∀ r ∈ rs, '.' ∉ r.1)
    (hu : ∀ r ∈ rs, ∀ x ∈ rs, r.1 = x.1 → r.2 = x.2) (h : populateAll defs fuel rs b = some res) (r : Str × Obj) (hm : r ∈ rs) (p : Nat)
    (hp : FG.Param (fdef defs scope) r.2.id p) : ∃ e ∈ res, Leads defs r.1 r.2 e.1 e.2 ∧ e.2.id = p := by
  induction rs generalizing b with
  | nil => cases hm
  | cons x rs ih =>
    simp only [populateAll] at h
    cases hq : populate defs fuel x b with
    | none => rw [hq] at h; cases h
    | some b1 =>
      rw [hq] at h
      rcases List.mem_cons.1 hm with rfl | hm
      · obtain ⟨V, hV1, hV2⟩ := walk_complete hw (r := r.1) (o := r.2) (hr _ List.mem_cons_self) fuel [r.2.id] [r] b b1
          (fun e he => by rw [List.mem_singleton.1 he]; exact .root)
          (fun i hi => .inl ⟨r, List.mem_singleton.2 rfl, (List.mem_singleton.1 hi).symm⟩) hq
        obtain ⟨hpV, hpn⟩ := closed_param V (fun i hi => (hV2 i hi).2) hp (hV1 _ (List.mem_singleton.2 rfl))
        obtain ⟨e, he, hl, hei⟩ := (hV2 p hpV).1 hpn
        refine ⟨e, (populateAll_sound rs b1 res h).2.1 e he (fun y hy g hg => ?_), hl, hei⟩
        obtain ⟨h1, h2⟩ := Leads.inj hw (hr _ List.mem_cons_self) (hr y (List.mem_cons_of_mem _ hy)) hl hg
        exact h2 (hu _ List.mem_cons_self y (List.mem_cons_of_mem _ hy) h1)
      · exact ih b1 (fun y hy => hr y (List.mem_cons_of_mem _ hy))
          (fun y hy z hz => hu y (List.mem_cons_of_mem _ hy) z (List.mem_cons_of_mem _ hz)) h hm

theorem populateAll_ends {defs : Defs} (V : List Nat) (hV : ∀ i ∈ V, ∀ kw, defs i = some kw → ∀ e ∈ kw, e.2.id ∈ V) (rs b : List (Str × Obj))
    (hr : ∀ r ∈ rs, r.2.id ∈ V) (fuel : Nat) (hf : V.length ≤ fuel) : ∃ res, populateAll defs fuel rs b = some res := by
  induction rs generalizing b with
  | nil => exact ⟨b, rfl⟩
  | cons r rs ih =>
    obtain ⟨b1, h1⟩ := walk_ends V hV fuel [r.2.id] [r] b (by simp) (by simpa using hr r List.mem_cons_self)
      (fun e he => by rw [List.mem_singleton.1 he]; exact hr r List.mem_cons_self) (by simp only [List.length_singleton]; omega)
    simp only [populateAll, populate, h1]
    exact ih b1 (fun x hx => hr x (List.mem_cons_of_mem _ hx))

end Slash.VN
