import Verif.Model.Tagging
/-!
# Tags: properties C26, C65
-/
namespace Slash.Tag

/-! ## Dictionaries -/

/-- The tag is there (with or without a value). -/
def Has (t : Tags) (k : Nat) : Prop := k ∈ t.map (·.1)

/-- Each tag is there once (as in a dict). -/
def Dict (t : Tags) : Prop := (t.map (·.1)).Nodup

theorem has_set (k : Nat) (v : Option Nat) (t : Tags) (j : Nat) : Has (set k v t) j ↔ j = k ∨ Has t j := by
  unfold Has
  induction t with
  | nil => simp [set]
  | cons e t ih =>
    simp only [set]
    split
    · rename_i h; subst h; simp
    · simp only [List.map_cons, List.mem_cons, ih]
      constructor
      · rintro (h | h | h) <;> simp [h]
      · rintro (h | h | h) <;> simp [h]

theorem get_set (k : Nat) (v : Option Nat) (t : Tags) (j : Nat) : get (set k v t) j = if j = k then v else get t j := by
  unfold get
  induction t with
  | nil =>
    simp only [set, List.find?_cons, List.find?_nil]
    by_cases h : j = k
    · subst h; simp
    · have hb : (k == j) = false := by simpa using fun e : k = j => h e.symm
      rw [if_neg h]; simp [hb]
  | cons e t ih =>
    simp only [set]
    split
    · rename_i h
      subst h
      simp only [List.find?_cons]
      by_cases h : j = e.1
      · subst h; simp
      · have hb : (e.1 == j) = false := by simpa using fun e' => h e'.symm
        simp [hb, h]
    · rename_i h
      simp only [List.find?_cons]
      by_cases h2 : e.1 = j
      · subst h2; simp [h]
      · have hb : (e.1 == j) = false := by simpa using h2
        simp only [hb]
        exact ih

theorem dict_set (k : Nat) (v : Option Nat) (t : Tags) (h : Dict t) : Dict (set k v t) := by
  induction t with
  | nil => simp [set, Dict]
  | cons e t ih =>
    simp only [Dict, List.map_cons, List.nodup_cons] at h
    simp only [set]
    split
    · rename_i he
      subst he
      simp only [Dict, List.map_cons, List.nodup_cons]
      exact h
    · rename_i he
      simp only [Dict, List.map_cons, List.nodup_cons]
      refine ⟨fun hm => ?_, ih h.2⟩
      rcases (has_set k v t e.1).1 hm with rfl | hm
      · exact he rfl
      · exact h.1 hm

theorem get_none_of_not_has {t : Tags} {k : Nat} (h : ¬ Has t k) : get t k = none := by
  unfold get Has at *
  rw [List.find?_eq_none.2]
  · rfl
  · intro e he hk
    simp only [beq_iff_eq] at hk
    exact h (List.mem_map.2 ⟨e, he, hk⟩)

theorem get_mem {t : Tags} (h : Dict t) {k : Nat} {v : Option Nat} (hm : (k, v) ∈ t) : get t k = v := by
  induction t with
  | nil => cases hm
  | cons e t ih =>
    simp only [Dict, List.map_cons, List.nodup_cons] at h
    unfold get at *
    simp only [List.find?_cons]
    rcases List.mem_cons.1 hm with rfl | hm
    · simp
    · split
      · rename_i he
        simp only [beq_iff_eq] at he
        exact absurd (List.mem_map.2 ⟨_, hm, rfl⟩) (he ▸ h.1)
      · exact ih h.2 hm

theorem mem_of_has {t : Tags} (h : Dict t) {k : Nat} (hk : Has t k) : (k, get t k) ∈ t := by
  obtain ⟨⟨k', v⟩, he, rfl⟩ := List.mem_map.1 hk
  rw [get_mem h he]
  exact he

theorem upd_cons (a : Tags) (e : Nat × Option Nat) (b : Tags) : upd a (e :: b) = upd (set e.1 e.2 a) b := rfl

theorem dict_upd (a b : Tags) (h : Dict a) : Dict (upd a b) := by
  induction b generalizing a with
  | nil => exact h
  | cons e b ih => rw [upd_cons]; exact ih _ (dict_set _ _ _ h)

theorem has_upd (a b : Tags) (k : Nat) : Has (upd a b) k ↔ Has a k ∨ Has b k := by
  induction b generalizing a with
  | nil => simp [upd, Has]
  | cons e b ih =>
    rw [upd_cons, ih, has_set]
    simp only [Has, List.map_cons, List.mem_cons]
    constructor
    · rintro ((h | h) | h) <;> simp [h]
    · rintro (h | h | h) <;> simp [h]

theorem get_upd (a b : Tags) (hb : Dict b) (k : Nat) : (Has b k → get (upd a b) k = get b k) ∧ (¬ Has b k → get (upd a b) k = get a k) := by
  induction b generalizing a with
  | nil => exact ⟨fun h => absurd h (by simp [Has]), fun _ => rfl⟩
  | cons e b ih =>
    simp only [Dict, List.map_cons, List.nodup_cons] at hb
    have := ih (set e.1 e.2 a) hb.2
    rw [upd_cons]
    constructor
    · intro h
      by_cases hk : Has b k
      · rw [this.1 hk]
        have hne : e.1 ≠ k := by rintro rfl; exact hb.1 hk
        simp only [get, List.find?_cons]
        have : (e.1 == k) = false := by simpa using hne
        simp [this]
      · have he : k = e.1 := by
          simp only [Has, List.map_cons, List.mem_cons] at h hk
          rcases h with h | h
          · exact h
          · exact absurd h hk
        rw [this.2 hk, get_set, if_pos he]
        subst he
        simp [get]
    · intro h
      simp only [Has, List.map_cons, List.mem_cons, not_or] at h
      rw [this.2 h.2, get_set, if_neg h.1]

/-! ## Merging -/

/-- Something merged from sources: every tag of every source is there, and no others, and every value of every source. -/
structure Merged (src : Tags → Prop) (t : Tags) : Prop where
  dict : Dict t
  has : ∀ k, Has t k ↔ ∃ s, src s ∧ Has s k
  val : ∀ k v, (∃ s, src s ∧ get s k = some v) → get t k = some v
  back : ∀ k v, get t k = some v → ∃ s, src s ∧ get s k = some v

/-- Two of the sources give one tag different values, or one gives it a value and another one does not. -/
def Clash (src : Tags → Prop) : Prop := ∃ s s' k v, src s ∧ src s' ∧ get s k = some v ∧ Has s' k ∧ get s' k ≠ some v

theorem merged_one (t : Tags) (h : Dict t) : Merged (· = t) t :=
  ⟨h, fun k => ⟨fun hk => ⟨t, rfl, hk⟩, fun ⟨s, e, hs⟩ => e ▸ hs⟩, fun k v ⟨s, e, hs⟩ => e ▸ hs, fun k v hk => ⟨t, rfl, hk⟩⟩

theorem has_of_get {t : Tags} {k v : Nat} (h : get t k = some v) : Has t k := by
  apply Classical.byContradiction
  intro hn
  rw [get_none_of_not_has hn] at h; cases h

theorem conflict_false {a b : Tags} (hb : Dict b) (h : conflict a b = false) {k : Nat} (hk : Has b k) : get a k = get b k ∨ get a k = none := by
  simp only [conflict, List.any_eq_false] at h
  have := h _ (mem_of_has hb hk)
  simp only [Bool.and_eq_true, Bool.not_eq_true', beq_eq_false_iff_ne, ne_eq, not_and, Decidable.not_not] at this
  by_cases h1 : get a k = get b k
  · exact .inl h1
  · exact .inr (this h1)

theorem conflict_true {a b : Tags} (hb : Dict b) (h : conflict a b = true) : ∃ k v, get a k = some v ∧ Has b k ∧ get b k ≠ some v := by
  simp only [conflict, List.any_eq_true] at h
  obtain ⟨⟨k, w⟩, he, hc⟩ := h
  simp only [Bool.and_eq_true, Bool.not_eq_true', beq_eq_false_iff_ne, ne_eq] at hc
  cases hv : get a k with
  | none => exact absurd hv hc.2
  | some v => exact ⟨k, v, hv, List.mem_map.2 ⟨_, he, rfl⟩, by rw [get_mem hb he, ← hv]; exact fun e => hc.1 e.symm⟩

theorem merged_upd {s1 s2 : Tags → Prop} {a b : Tags} (ha : Merged s1 a) (hb : Merged s2 b) (h : conflict a b = false) :
    Merged (fun s => s1 s ∨ s2 s) (upd a b) := by
  have key : ∀ k v, get a k = some v → get (upd a b) k = some v := by
    intro k v hv
    by_cases hk : Has b k
    · rw [(get_upd a b hb.dict k).1 hk]
      rcases conflict_false hb.dict h hk with e | e
      · rw [← e]; exact hv
      · rw [e] at hv; cases hv
    · rw [(get_upd a b hb.dict k).2 hk]; exact hv
  refine ⟨dict_upd _ _ ha.dict, ?_, ?_, ?_⟩
  · intro k
    rw [has_upd, ha.has, hb.has]
    constructor
    · rintro (⟨s, h1, h2⟩ | ⟨s, h1, h2⟩)
      · exact ⟨s, .inl h1, h2⟩
      · exact ⟨s, .inr h1, h2⟩
    · rintro ⟨s, h1 | h1, h2⟩
      · exact .inl ⟨s, h1, h2⟩
      · exact .inr ⟨s, h1, h2⟩
  · rintro k v ⟨s, h1 | h1, h2⟩
    · exact key k v (ha.val k v ⟨s, h1, h2⟩)
    · have := hb.val k v ⟨s, h1, h2⟩
      rw [(get_upd a b hb.dict k).1 (has_of_get this)]; exact this
  · intro k v hv
    by_cases hk : Has b k
    · rw [(get_upd a b hb.dict k).1 hk] at hv
      obtain ⟨s, h1, h2⟩ := hb.back k v hv
      exact ⟨s, .inr h1, h2⟩
    · rw [(get_upd a b hb.dict k).2 hk] at hv
      obtain ⟨s, h1, h2⟩ := ha.back k v hv
      exact ⟨s, .inl h1, h2⟩

theorem clash_of_conflict {s1 s2 : Tags → Prop} {a b : Tags} (ha : Merged s1 a) (hb : Merged s2 b) (h : conflict a b = true) :
    Clash (fun s => s1 s ∨ s2 s) := by
  obtain ⟨k, v, h1, h2, h3⟩ := conflict_true hb.dict h
  obtain ⟨s, h4, h5⟩ := ha.back k v h1
  obtain ⟨s', h6, h7⟩ := (hb.has k).1 h2
  refine ⟨s, s', k, v, .inl h4, .inr h6, h5, h7, ?_⟩
  intro e
  exact h3 (hb.val k v ⟨s', h6, e⟩)

/-- No two of the sources give one tag different values if they could be merged. -/
theorem merged_consistent {src : Tags → Prop} {t : Tags} (h : Merged src t) {s s' : Tags} {k v v' : Nat} (hs : src s) (hs' : src s')
    (h1 : get s k = some v) (h2 : get s' k = some v') : v = v' := by
  have e1 := h.val k v ⟨s, hs, h1⟩
  have e2 := h.val k v' ⟨s', hs', h2⟩
  rw [e1] at e2
  simpa using e2

/-- `NO_TAGS` is merged from nothing. -/
def MergedO (src : Tags → Prop) : Option Tags → Prop
  | none => ∀ s, src s → s = []
  | some t => Merged src t

/-- What a computation that merges sources comes to. -/
def Good (src : Tags → Prop) : R (Option Tags) → Prop
  | .ok t => MergedO src t
  | .conflict => Clash src
  | .deep => True

theorem merged_congr {s1 s2 : Tags → Prop} {t : Tags} (h : ∀ s, s1 s ↔ s2 s) (hm : Merged s1 t) : Merged s2 t := by
  have : s1 = s2 := funext fun s => propext (h s)
  exact this ▸ hm

theorem good_congr {s1 s2 : Tags → Prop} {r : R (Option Tags)} (h : ∀ s, s1 s ↔ s2 s) (hm : Good s1 r) : Good s2 r := by
  have : s1 = s2 := funext fun s => propext (h s)
  exact this ▸ hm

theorem clash_mono {s1 s2 : Tags → Prop} (h : ∀ s, s1 s → s2 s) (hc : Clash s1) : Clash s2 := by
  obtain ⟨s, s', k, v, h1, h2, h3⟩ := hc
  exact ⟨s, s', k, v, h s h1, h s' h2, h3⟩

theorem merged_nil_left {s1 s2 : Tags → Prop} {t : Tags} (h1 : ∀ s, s1 s → s = []) (h2 : Merged s2 t) : Merged (fun s => s1 s ∨ s2 s) t := by
  refine ⟨h2.dict, ?_, ?_, ?_⟩
  · intro k
    rw [h2.has]
    constructor
    · rintro ⟨s, h3, h4⟩; exact ⟨s, .inr h3, h4⟩
    · rintro ⟨s, h3 | h3, h4⟩
      · rw [h1 s h3] at h4; simp [Has] at h4
      · exact ⟨s, h3, h4⟩
  · rintro k v ⟨s, h3 | h3, h4⟩
    · rw [h1 s h3] at h4; cases h4
    · exact h2.val k v ⟨s, h3, h4⟩
  · intro k v hv
    obtain ⟨s, h3, h4⟩ := h2.back k v hv
    exact ⟨s, .inr h3, h4⟩

theorem add_good {s1 s2 : Tags → Prop} {a b : Option Tags} (ha : MergedO s1 a) (hb : MergedO s2 b) : Good (fun s => s1 s ∨ s2 s) (add a b) := by
  cases a with
  | none =>
    cases b with
    | none => exact fun s hs => hs.elim (ha s) (hb s)
    | some b => exact merged_nil_left ha hb
  | some a =>
    cases b with
    | none => exact merged_congr (fun s => Or.comm) (merged_nil_left hb ha)
    | some b =>
      simp only [add]
      split
      · rename_i h; exact clash_of_conflict ha hb h
      · rename_i h; exact merged_upd ha hb (by simpa using h)

theorem bind_good {s1 s2 : Tags → Prop} {r : R (Option Tags)} {f : Option Tags → R (Option Tags)} (h1 : Good s1 r)
    (h2 : ∀ t, r = .ok t → MergedO s1 t → Good s2 (f t)) (h : ∀ s, s1 s → s2 s) : Good s2 (r.bind f) := by
  cases r with
  | ok t => exact h2 t rfl h1
  | conflict => exact clash_mono h h1
  | deep => trivial

theorem foldR_good {β : Type} (f : Option Tags → β → R (Option Tags)) (src : β → Tags → Prop)
    (hf : ∀ b acc (s0 : Tags → Prop), MergedO s0 acc → Good (fun s => s0 s ∨ src b s) (f acc b)) (l : List β) (acc : Option Tags)
    (s0 : Tags → Prop) (h0 : MergedO s0 acc) : Good (fun s => s0 s ∨ ∃ b ∈ l, src b s) (foldR f acc l) := by
  induction l generalizing acc s0 with
  | nil => exact good_congr (by simp) (show Good s0 (.ok acc) from h0)
  | cons b l ih =>
    rw [foldR]
    refine bind_good (hf b acc s0 h0) (fun t _ ht => ?_) ?_
    · refine good_congr ?_ (ih t _ ht)
      intro s
      simp only [List.mem_cons, exists_eq_or_imp, or_assoc]
    · rintro s (h | h)
      · exact .inl h
      · exact .inr ⟨b, by simp, h⟩

/-- `f` uses `g`, directly or through other fixtures (or is it). -/
inductive Uses (req : Nat → List Nat) : Nat → Nat → Prop
  | refl (f : Nat) : Uses req f f
  | step {f g h : Nat} : g ∈ req f → Uses req g h → Uses req f h

/-- The result of `update` in terms of `add`. -/
def someR : R Tags → R (Option Tags)
  | .ok t => .ok (some t)
  | .conflict => .conflict
  | .deep => .deep

theorem someR_update (a : Tags) (b : Option Tags) : someR (update a b) = add (some a) b := by
  cases b with
  | none => rfl
  | some b => simp only [update, add]; split <;> rfl

theorem someR_foldR {β : Type} (f : Tags → β → R Tags) (g : Option Tags → β → R (Option Tags)) (h : ∀ a b, someR (f a b) = g (some a) b)
    (l : List β) (a : Tags) : someR (foldR f a l) = foldR g (some a) l := by
  induction l generalizing a with
  | nil => rfl
  | cons b l ih =>
    rw [foldR, foldR, ← h]
    cases hf : f a b with
    | ok t => exact ih t
    | conflict => rfl
    | deep => rfl

theorem someR_bind {α : Type} (r : R α) (f : α → R Tags) : someR (r.bind f) = r.bind (fun a => someR (f a)) := by
  cases r <;> rfl

theorem bind_someR (r : R Tags) (f : Option Tags → R (Option Tags)) : (someR r).bind f = r.bind (fun t => f (some t)) := by
  cases r <;> rfl

/-- The tags declared on a fixture. -/
def OwnOf (own : Nat → Option Tags) (f : Nat) (s : Tags) : Prop := own f = some s

/-- The tags declared on what a fixture uses. -/
def FixSrc (own : Nat → Option Tags) (req : Nat → List Nat) (f : Nat) (s : Tags) : Prop := ∃ g, Uses req f g ∧ own g = some s

theorem mergedO_getD (own : Nat → Option Tags) (ho : ∀ f t, own f = some t → Dict t) (f : Nat) : Merged (OwnOf own f) ((own f).getD []) := by
  unfold OwnOf
  cases h : own f with
  | none =>
    refine ⟨by simp [Dict], fun k => ⟨fun hk => by simp [Has] at hk, fun ⟨s, e, _⟩ => by cases e⟩, fun k v ⟨s, e, _⟩ => (by cases e), fun k v hk => by cases hk⟩
  | some t =>
    have := merged_one t (ho f t h)
    exact merged_congr (fun s => by simp [eq_comm]) this

theorem fixTags_good (own : Nat → Option Tags) (ho : ∀ f t, own f = some t → Dict t) (req : Nat → List Nat) (n f : Nat) :
    Good (FixSrc own req f) (someR (fixTags own req n f)) := by
  induction n generalizing f with
  | zero => trivial
  | succ n ih =>
    rw [fixTags, someR_foldR _ (fun acc g => (someR (fixTags own req n g)).bind (fun t => add acc t))]
    · refine good_congr ?_ (foldR_good _ (FixSrc own req) ?_ (req f) _ _ (show MergedO _ (some _) from mergedO_getD own ho f))
      · intro s
        constructor
        · rintro (h | ⟨g, hg, h, hu, e⟩)
          · exact ⟨f, .refl f, h⟩
          · exact ⟨h, .step hg hu, e⟩
        · rintro ⟨g, hu, e⟩
          cases hu with
          | refl => exact .inl e
          | step hg hu => exact .inr ⟨_, hg, g, hu, e⟩
      · intro g acc s0 h0
        exact bind_good (ih g) (fun t _ ht => good_congr (fun s => Iff.rfl) (add_good h0 ht)) (fun s hs => .inr hs)
    · intro a g
      rw [someR_bind, bind_someR]
      congr 1
      funext t
      exact someR_update a (some t)

/-- The sources of the tags of a test: what is declared on it, the values of its parameters, and the fixtures it uses. -/
def TestSrc (own : Nat → Option Tags) (req : Nat → List Nat) (declared : List (Option Tags)) (params : List Tags) (nofix : Bool) (fs : List Nat)
    (s : Tags) : Prop :=
  some s ∈ declared ∨ s ∈ params ∨ (nofix = false ∧ ∃ f ∈ fs, ∃ g, Uses req f g ∧ own g = some s)

theorem testTags_good (own : Nat → Option Tags) (req : Nat → List Nat) (n : Nat) (declared : List (Option Tags)) (params : List Tags) (nofix : Bool)
    (fs : List Nat) (ho : ∀ f t, own f = some t → Dict t) (hd : ∀ t, some t ∈ declared → Dict t) (hp : ∀ t ∈ params, Dict t) :
    Good (TestSrc own req declared params nofix fs) (testTags own req n declared params nofix fs) := by
  have g1 : Good (fun s => False ∨ ∃ b ∈ declared, b = some s) (foldR add none declared) := by
    have : ∀ l : List (Option Tags), (∀ t, some t ∈ l → Dict t) → ∀ acc s0, MergedO s0 acc →
        Good (fun s => s0 s ∨ ∃ b ∈ l, b = some s) (foldR add acc l) := by
      intro l
      induction l with
      | nil => intro _ acc s0 h0; exact good_congr (by simp) (show Good s0 (.ok acc) from h0)
      | cons b l ih =>
        intro hl acc s0 h0
        rw [foldR]
        have hb : MergedO (fun s => b = some s) b := by
          cases b with
          | none => intro s hs; cases hs
          | some t => exact merged_congr (fun s => by simp [eq_comm]) (merged_one t (hl t (by simp)))
        refine bind_good (add_good h0 hb) (fun t _ ht => ?_) ?_
        · refine good_congr ?_ (ih (fun t ht => hl t (by simp [ht])) t _ ht)
          intro s
          simp only [List.mem_cons, exists_eq_or_imp, or_assoc]
        · rintro s (h | h)
          · exact .inl h
          · exact .inr ⟨b, by simp, h⟩
    exact this declared hd none (fun _ => False) (fun s hs => hs.elim)
  have g2 : Good (fun s => False ∨ ∃ b ∈ params, b = s) (someR (variationTags params)) := by
    have : ∀ l : List Tags, (∀ t ∈ l, Dict t) → ∀ acc s0, Merged s0 acc →
        Good (fun s => s0 s ∨ ∃ b ∈ l, b = s) (someR (foldR (fun acc t => update acc (some t)) acc l)) := by
      intro l
      induction l with
      | nil => intro _ acc s0 h0; exact good_congr (by simp) (show Good s0 (.ok (some acc)) from h0)
      | cons b l ih =>
        intro hl acc s0 h0
        rw [foldR, someR_bind]
        have hb : MergedO (fun s => b = s) (some b) := merged_congr (fun s => eq_comm) (merged_one b (hl b (by simp)))
        have ha : Good _ (add (some acc) (some b)) := add_good (show MergedO s0 (some acc) from h0) hb
        rw [← someR_update] at ha
        cases hu : update acc (some b) with
        | ok t =>
          rw [hu] at ha
          refine good_congr ?_ (ih (fun t ht => hl t (by simp [ht])) t _ ha)
          intro s
          simp only [List.mem_cons, exists_eq_or_imp, or_assoc]
        | conflict =>
          rw [hu] at ha
          refine clash_mono ?_ ha
          rintro s (h | h)
          · exact .inl h
          · exact .inr ⟨b, by simp, h⟩
        | deep => trivial
    refine this params hp [] (fun _ => False) ⟨by simp [Dict], fun k => ?_, fun k v ⟨s, e, _⟩ => e.elim, fun k v hk => (by cases hk)⟩
    exact ⟨fun hk => by simp [Has] at hk, fun ⟨s, e, _⟩ => e.elim⟩
  have g3 : Good (fun s => False ∨ ∃ f ∈ fs, FixSrc own req f s) (fixturesTags own req n fs) := by
    unfold fixturesTags
    have e : (fun acc g => (fixTags own req n g).bind (fun t => add acc (some t))) =
        (fun (acc : Option Tags) g => (someR (fixTags own req n g)).bind (fun t => add acc t)) := by
      funext acc g
      rw [bind_someR]
    rw [e]
    refine foldR_good _ (FixSrc own req) ?_ fs none (fun _ => False) (fun s hs => hs.elim)
    intro g acc s0 h0
    exact bind_good (fixTags_good own ho req n g) (fun t _ ht => add_good h0 ht) (fun s hs => .inr hs)
  unfold testTags
  refine bind_good g1 (fun d _ hd' => ?_) (fun s hs => ?_)
  · rw [← bind_someR (variationTags params) (fun v => (add d v).bind (fun t => if nofix then .ok t else (fixturesTags own req n fs).bind (fun f => add t f)))]
    refine bind_good g2 (fun v _ hv => ?_) (fun s hs => ?_)
    · refine bind_good (add_good hd' hv) (fun t _ ht => ?_) (fun s hs => ?_)
      · cases nofix with
        | true =>
          refine good_congr ?_ (show Good _ (.ok t) from ht)
          intro s
          simp only [TestSrc, Bool.true_eq_false, false_and, or_false, false_or, exists_eq_right]
        | false =>
          refine bind_good g3 (fun f _ hf => ?_) (fun s hs => ?_)
          · refine good_congr ?_ (add_good ht hf)
            intro s
            simp only [TestSrc, true_and, false_or, exists_eq_right, FixSrc, or_assoc]
          · simp only [false_or] at hs
            exact .inr (.inr ⟨rfl, hs⟩)
      · simp only [false_or, exists_eq_right] at hs
        exact hs.elim .inl (fun h => .inr (.inl h))
    · simp only [false_or, exists_eq_right] at hs
      exact .inr (.inl hs)
  · simp only [false_or, exists_eq_right] at hs
    exact .inl hs

/-! ## C26 -/

/-- C26: the tags of a test are those of all the sources: the test itself, the values of its parameters, and the fixtures it uses,
directly or not, in whatever order they are merged; each value a source gives to a tag is the value of the tag; no other tags and values
are there. -/
theorem C26_keeps_everything (own : Nat → Option Tags) (req : Nat → List Nat) (n : Nat) (declared : List (Option Tags)) (params : List Tags)
    (nofix : Bool) (fs : List Nat) (ho : ∀ f t, own f = some t → Dict t) (hd : ∀ t, some t ∈ declared → Dict t) (hp : ∀ t ∈ params, Dict t)
    (t : Tags) (h : testTags own req n declared params nofix fs = .ok (some t)) :
    (∀ k, Has t k ↔ ∃ s, TestSrc own req declared params nofix fs s ∧ Has s k) ∧
    (∀ k v, get t k = some v ↔ ∃ s, TestSrc own req declared params nofix fs s ∧ get s k = some v) := by
  have := testTags_good own req n declared params nofix fs ho hd hp
  rw [h] at this
  exact ⟨this.has, fun k v => ⟨this.back k v, this.val k v⟩⟩

/-- C26: if two sources give one tag different values, there is a conflict (or the fixtures depend on each other too deeply for the fuel). -/
theorem C26_conflict_raised (own : Nat → Option Tags) (req : Nat → List Nat) (n : Nat) (declared : List (Option Tags)) (params : List Tags)
    (nofix : Bool) (fs : List Nat) (ho : ∀ f t, own f = some t → Dict t) (hd : ∀ t, some t ∈ declared → Dict t) (hp : ∀ t ∈ params, Dict t)
    (s s' : Tags) (hs : TestSrc own req declared params nofix fs s) (hs' : TestSrc own req declared params nofix fs s') (k v v' : Nat)
    (h1 : get s k = some v) (h2 : get s' k = some v') (hne : v ≠ v') (hdeep : testTags own req n declared params nofix fs ≠ .deep) :
    testTags own req n declared params nofix fs = .conflict := by
  have := testTags_good own req n declared params nofix fs ho hd hp
  cases h : testTags own req n declared params nofix fs with
  | conflict => rfl
  | deep => exact absurd h hdeep
  | ok t =>
    rw [h] at this
    cases t with
    | none => rw [this s hs] at h1; cases h1
    | some t => exact absurd (merged_consistent this hs hs' h1 h2) hne

/-- C26, the part that holds (no tag has a value in one source and none in another one): there is a conflict only if two sources give one
tag different values. With `C26_conflict_raised` that does not depend on the order in which they are merged. See
`C26_order_violated` for the rest. -/
theorem C26_conflict_only_if_partial (own : Nat → Option Tags) (req : Nat → List Nat) (n : Nat) (declared : List (Option Tags)) (params : List Tags)
    (nofix : Bool) (fs : List Nat) (ho : ∀ f t, own f = some t → Dict t) (hd : ∀ t, some t ∈ declared → Dict t) (hp : ∀ t ∈ params, Dict t)
    (hmix : ∀ s s', TestSrc own req declared params nofix fs s → TestSrc own req declared params nofix fs s' → ∀ k, Has s k → Has s' k →
      get s k = none → get s' k = none)
    (h : testTags own req n declared params nofix fs = .conflict) :
    ∃ s s' k v v', TestSrc own req declared params nofix fs s ∧ TestSrc own req declared params nofix fs s' ∧ get s k = some v ∧
      get s' k = some v' ∧ v ≠ v' := by
  have := testTags_good own req n declared params nofix fs ho hd hp
  rw [h] at this
  obtain ⟨s, s', k, v, h1, h2, h3, h4, h5⟩ := this
  cases hv : get s' k with
  | none => rw [hmix s' s h2 h1 k h4 (has_of_get h3) hv] at h3; cases h3
  | some v' => exact ⟨s, s', k, v, v', h1, h2, h3, hv, fun e => h5 (by rw [hv, e])⟩

/-- a test with tag 1, whose parameter has tag 2 = 5 and whose fixture uses a fixture with tag 2 = 5 and tag 3; and the same with 2 = 6 -/
example :
    testTags (fun f => if f = 1 then some [(2, some 5), (3, none)] else none) (fun f => if f = 0 then [1] else []) 3 [some [(1, none)]] [[(2, some 5)]]
      false [0] = .ok (some [(1, none), (2, some 5), (3, none)]) ∧
    testTags (fun f => if f = 1 then some [(2, some 6), (3, none)] else none) (fun f => if f = 0 then [1] else []) 3 [some [(1, none)]] [[(2, some 5)]]
      false [0] = .conflict := by
  decide

/-- C26 fails when one source gives a tag a value and another one does not: whether that is a conflict depends on which one comes first. -/
theorem C26_order_violated :
    add (some [(1, none)]) (some [(1, some 5)]) = .ok (some [(1, some 5)]) ∧ add (some [(1, some 5)]) (some [(1, none)]) = .conflict := by
  decide

/-- C26, for the fixtures that are set up for a test (partial: there are no fixtures but those among its arguments): each tag of each fixture that is set up for the test, or that such
a fixture uses, is a tag of the test, with the value it has. -/
theorem C26_set_up_partial (F : Fixtures) (own : Nat → Option Tags) (req : Nat → List Nat) (n : Nat) (declared : List (Option Tags)) (params : List Tags)
    (nofix : Bool) (ho : ∀ f t, own f = some t → Dict t) (hd : ∀ t, some t ∈ declared → Dict t) (hp : ∀ t ∈ params, Dict t)
    (ha : F.autouse = []) (hx : F.extra = []) (har : F.around = []) (t : Tags) (h : F.tags own req n declared params nofix = .ok (some t))
    (f : Nat) (hf : f ∈ F.setUp nofix) (s : Tags) (hs : FixSrc own req f s) :
    (∀ k, Has s k → Has t k) ∧ ∀ k v, get s k = some v → get t k = some v := by
  obtain ⟨h1, h2⟩ := C26_keeps_everything own req n declared params nofix F.args ho hd hp t h
  have hsrc : TestSrc own req declared params nofix F.args s := by
    unfold Fixtures.setUp at hf
    rw [ha, hx, har] at hf
    cases nofix with
    | true => simp at hf
    | false => exact .inr (.inr ⟨rfl, f, by simpa using hf, hs⟩)
  exact ⟨fun k hk => (h1 k).2 ⟨s, hsrc, hk⟩, fun k v hk => (h2 k v).2 ⟨s, hsrc, hk⟩⟩

/-- a fixture that uses another one -/
example : (Fixtures.tags { args := [0] } (fun f => some [(f, some 7)]) (fun f => if f = 0 then [1] else []) 3 [none] [] false) = .ok (some [(0, some 7), (1, some 7)]) ∧
    0 ∈ (Fixtures.setUp { args := [0] } false) := by decide

/-- C26 fails for fixtures declared with `autouse`, those named by `use_fixtures`, and those that `before` or `after` of a class take: they are set up for the test, but their tags are
not tags of the test (their conflicts with tags of the test are not noticed either), although those of arguments are. -/
theorem C26_set_up_violated (own : Nat → Option Tags) (req : Nat → List Nat) (n : Nat) (declared : List (Option Tags)) (params : List Tags) (nofix : Bool) (f : Nat) :
    (f ∈ (Fixtures.setUp { autouse := [f] } nofix) ∧ f ∈ (Fixtures.setUp { extra := [f] } false) ∧ f ∈ (Fixtures.setUp { around := [f] } nofix)) ∧
    (Fixtures.tags { autouse := [f] } own req n declared params nofix = Fixtures.tags {} own req n declared params nofix) ∧
    (Fixtures.tags { extra := [f] } own req n declared params nofix = Fixtures.tags {} own req n declared params nofix) ∧
    (Fixtures.tags { around := [f] } own req n declared params nofix = Fixtures.tags {} own req n declared params nofix) := by
  refine ⟨⟨?_, ?_, ?_⟩, rfl, rfl, rfl⟩ <;> simp [Fixtures.setUp]

example : Fixtures.tags { autouse := [0] } (fun _ => some [(1, some 5)]) (fun _ => []) 3 [some [(1, some 6)]] [] false = .ok (some [(1, some 6)]) ∧
    Fixtures.tags { args := [0] } (fun _ => some [(1, some 5)]) (fun _ => []) 3 [some [(1, some 6)]] [] false = .conflict := by decide

/-! ## C65 -/

/-- C65 fails: class 1 derives from class 0, which is tagged with tag 7. Tagging class 1 with tag 8 tags class 0 with it as well. -/
theorem C65_base_class_tagged_violated :
    ∃ h1 h2, tagTest ⟨fun c => if c = 1 then some 0 else none, fun _ => none, fun _ => [], 0⟩ 0 7 none = .ok h1 ∧ tagTest h1 1 8 none = .ok h2 ∧
      getTags h1 0 = some [(7, none)] ∧ getTags h2 0 = some [(7, none), (8, none)] ∧ getTags h2 1 = some [(7, none), (8, none)] :=
  ⟨_, _, rfl, rfl, by decide, by decide, by decide⟩

/-- Every class is numbered after its base; the objects the classes refer to as their own are different and exist. -/
structure Heap.Ok (h : Heap) : Prop where
  after : ∀ c b, h.base c = some b → b < c
  lt : ∀ c r, h.own c = some r → r < h.next
  inj : ∀ c d r, h.own c = some r → h.own d = some r → c = d

/-- `d` is `c` or derives from it. -/
inductive Derives (h : Heap) (c : Nat) : Nat → Prop
  | refl : Derives h c c
  | step {d b : Nat} : h.base d = some b → Derives h c b → Derives h c d

theorem attr_owner (h : Heap) (n d r : Nat) (ha : attr h n d = some r) : ∃ c, Derives h c d ∧ h.own c = some r := by
  induction n generalizing d with
  | zero => cases ha
  | succ n ih =>
    simp only [attr] at ha
    cases ho : h.own d with
    | some r' =>
      rw [ho] at ha
      simp only [Option.some.injEq] at ha
      subst ha
      exact ⟨d, .refl, ho⟩
    | none =>
      rw [ho] at ha
      cases hb : h.base d with
      | none => rw [hb] at ha; cases ha
      | some b =>
        rw [hb] at ha
        obtain ⟨c, h1, h2⟩ := ih b ha
        exact ⟨c, .step hb h1, h2⟩

theorem attr_own_change (h : Heap) (c r : Nat) (obj : Nat → Tags) (nx n d : Nat) (hd : ¬ Derives h c d) :
    attr { h with own := fun x => if x = c then some r else h.own x, obj := obj, next := nx } n d = attr h n d := by
  induction n generalizing d with
  | zero => rfl
  | succ n ih =>
    have hne : d ≠ c := by rintro rfl; exact hd .refl
    simp only [attr, if_neg hne]
    cases h.own d with
    | some r' => rfl
    | none =>
      cases hb : h.base d with
      | none => rfl
      | some b => exact ih b (fun hd' => hd (.step hb hd'))

theorem attr_obj (h : Heap) (obj : Nat → Tags) (n d : Nat) : attr { h with obj := obj } n d = attr h n d := by
  induction n generalizing d with
  | zero => rfl
  | succ n ih =>
    simp only [attr]
    cases h.own d with
    | some r' => rfl
    | none =>
      cases hb : h.base d with
      | none => rfl
      | some b => exact ih b

/-- C65, the part that holds (the class has tags of its own, or neither it nor the classes it derives from have any): tagging a class
only changes the tags of the class and of those which derive from it. -/
theorem C65_others_untouched_partial (h h' : Heap) (hok : h.Ok) (c k : Nat) (v : Option Nat) (ht : tagTest h c k v = .ok h')
    (hc : h.own c ≠ none ∨ attr h (c + 1) c = none) (d : Nat) (hd : ¬ Derives h c d) : getTags h' d = getTags h d := by
  unfold tagTest at ht
  cases ha : attr h (c + 1) c with
  | none =>
    rw [ha] at ht
    have hg : (!(get [] k == v) && !(get [] k == none)) = false := by simp [get]
    simp only [if_true, hg, Bool.false_eq_true, if_false, R.ok.injEq] at ht
    subst ht
    unfold getTags
    rw [attr_own_change h c h.next _ _ _ d hd]
    cases hda : attr h (d + 1) d with
    | none => rfl
    | some r =>
      obtain ⟨o, -, ho⟩ := attr_owner h _ _ _ hda
      have := hok.lt o r ho
      have hne : r ≠ h.next := by omega
      simp [hne]
  | some r =>
    rw [ha] at ht
    simp only at ht
    split at ht
    · cases ht
    · simp only [R.ok.injEq] at ht
      subst ht
      unfold getTags
      rw [attr_obj]
      have hown : h.own c = some r := by
        rcases hc with hc | hc
        · cases ho : h.own c with
          | none => exact absurd ho hc
          | some r' => simp only [attr, ho] at ha; exact ha
        · rw [hc] at ha; cases ha
      cases hda : attr h (d + 1) d with
      | none => rfl
      | some r' =>
        obtain ⟨o, h1, ho⟩ := attr_owner h _ _ _ hda
        have hne : r' ≠ r := by
          rintro rfl
          exact hd (hok.inj o c _ ho hown ▸ h1)
        simp [hne]

/-- class 1 derives from the untagged class 0 and is tagged -/
example : ∃ h1, tagTest ⟨fun c => if c = 1 then some 0 else none, fun _ => none, fun _ => [], 0⟩ 1 8 (some 3) = .ok h1 ∧
    getTags h1 0 = none ∧ getTags h1 1 = some [(8, some 3)] :=
  ⟨_, rfl, by decide, by decide⟩

theorem Heap.Ok.tagTest {h h' : Heap} (hok : h.Ok) {c k : Nat} {v : Option Nat} (ht : tagTest h c k v = .ok h') : h'.Ok ∧ h'.base = h.base := by
  unfold Tag.tagTest at ht
  cases ha : attr h (c + 1) c with
  | some r =>
    rw [ha] at ht
    simp only at ht
    split at ht
    · cases ht
    · simp only [R.ok.injEq] at ht
      subst ht
      exact ⟨⟨hok.after, hok.lt, hok.inj⟩, rfl⟩
  | none =>
    rw [ha] at ht
    have hg : (!(get [] k == v) && !(get [] k == none)) = false := by simp [get]
    simp only [if_true, hg, Bool.false_eq_true, if_false, R.ok.injEq] at ht
    subst ht
    refine ⟨⟨hok.after, fun d r hd => ?_, fun d e r hd he => ?_⟩, rfl⟩
    · dsimp only at hd ⊢
      split at hd
      · cases hd; omega
      · have := hok.lt d r hd; omega
    · dsimp only at hd he
      split at hd <;> split at he
      · omega
      · cases hd; have := hok.lt e _ he; omega
      · cases he; have := hok.lt d _ hd; omega
      · exact hok.inj d e r hd he

/-- Classes are tagged one after the other; a conflict leaves everything as it is. -/
def tagAll (h : Heap) : List (Nat × Nat × Option Nat) → Heap
  | [] => h
  | x :: l => tagAll (match tagTest h x.1 x.2.1 x.2.2 with | .ok h' => h' | _ => h) l

theorem tagAll_ok (l : List (Nat × Nat × Option Nat)) : ∀ h : Heap, h.Ok → (tagAll h l).Ok ∧ (tagAll h l).base = h.base := by
  induction l with
  | nil => exact fun h hok => ⟨hok, rfl⟩
  | cons x l ih =>
    intro h hok
    simp only [tagAll]
    cases ht : tagTest h x.1 x.2.1 x.2.2 with
    | ok h' =>
      have h1 := hok.tagTest ht
      have h2 := ih h' h1.1
      exact ⟨h2.1, h2.2.trans h1.2⟩
    | _ => exact ih h hok

/-- C65, for all histories: after any sequence of taggings of classes that began without tags, tagging a class that has tags of its own, or that has none at all,
only changes the tags of the class and of those which derive from it. -/
theorem C65_history_partial (base : Nat → Option Nat) (hb : ∀ c b, base c = some b → b < c) (obj : Nat → Tags) (l : List (Nat × Nat × Option Nat))
    (c k : Nat) (v : Option Nat) (h h' : Heap) (hh : h = tagAll ⟨base, fun _ => none, obj, 0⟩ l) (ht : tagTest h c k v = .ok h')
    (hc : h.own c ≠ none ∨ getTags h c = none) (d : Nat) (hd : ¬ Derives h c d) : getTags h' d = getTags h d := by
  have h0 : (⟨base, fun _ => none, obj, 0⟩ : Heap).Ok := ⟨hb, (fun _ _ h => nomatch h), (fun _ _ _ h => nomatch h)⟩
  have hok : h.Ok := by rw [hh]; exact (tagAll_ok l _ h0).1
  refine C65_others_untouched_partial h h' hok c k v ht ?_ d hd
  rcases hc with hc | hc
  · exact .inl hc
  · refine .inr ?_
    unfold getTags at hc
    cases ha : attr h (c + 1) c with
    | none => rfl
    | some r => rw [ha] at hc; cases hc

/-- two classes that have nothing to do with each other, tagged one after the other, and again -/
example : let h := tagAll ⟨fun _ => none, fun _ => none, fun _ => [], 0⟩ [(0, 7, none), (1, 8, none)]
    getTags h 0 = some [(7, none)] ∧ getTags h 1 = some [(8, none)] ∧ h.own 1 ≠ none ∧ ¬ Derives h 1 0 ∧
    getTags (tagAll h [(1, 9, some 2)]) 0 = some [(7, none)] ∧ getTags (tagAll h [(1, 9, some 2)]) 1 = some [(8, none), (9, some 2)] := by
  refine ⟨by decide, by decide, by decide, ?_, by decide, by decide⟩
  intro hd
  cases hd with
  | step hb _ => cases hb

end Slash.Tag
