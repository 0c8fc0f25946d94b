import Verif.Model.TestMeta
import Verif.Props.IdSpace
/-!
# Names of tests: properties C69, C70, C71
-/
namespace Slash.Meta

theorem insertName_map {α β : Type} (f : Str × α → Str × β) (hf : ∀ x, (f x).1 = x.1) (x : Str × α) (l : List (Str × α)) :
    insertName (f x) (l.map f) = (insertName x l).map f := by
  induction l with
  | nil => rfl
  | cons y l ih =>
    simp only [List.map_cons, insertName, hf]
    split
    · rfl
    · rw [ih]; rfl

theorem sortNames_map {α β : Type} (f : Str × α → Str × β) (hf : ∀ x, (f x).1 = x.1) (l : List (Str × α)) :
    sortNames (l.map f) = (sortNames l).map f := by
  induction l with
  | nil => rfl
  | cons y l ih => rw [List.map_cons, sortNames, ih, insertName_map f hf]; rfl

theorem insertName_perm {α : Type} (x : Str × α) (l : List (Str × α)) : (insertName x l).Perm (x :: l) := by
  induction l with
  | nil => exact .refl _
  | cons y l ih =>
    simp only [insertName]
    split
    · exact .refl _
    · exact (ih.cons y).trans (.swap x y l)

theorem sortNames_perm {α : Type} (l : List (Str × α)) : (sortNames l).Perm l := by
  induction l with
  | nil => exact .refl _
  | cons x l ih => exact (insertName_perm x _).trans (ih.cons x)

/-- What comes before the first `c` and after it is unique. -/
theorem split_first {c : Char} {a b s t : Str} (ha : c ∉ a) (hb : c ∉ b) (h : a ++ c :: s = b ++ c :: t) : a = b ∧ s = t := by
  induction a generalizing b with
  | nil =>
    cases b with
    | nil => simpa using h
    | cons x b =>
      simp only [List.nil_append, List.cons_append, List.cons.injEq] at h
      exact absurd (List.mem_cons.2 (.inl h.1)) hb
  | cons y a ih =>
    cases b with
    | nil =>
      simp only [List.nil_append, List.cons_append, List.cons.injEq] at h
      exact absurd (List.mem_cons.2 (.inl h.1.symm)) ha
    | cons x b =>
      simp only [List.cons_append, List.cons.injEq] at h
      obtain ⟨rfl, h⟩ := h
      obtain ⟨rfl, rfl⟩ := ih (fun m => ha (List.mem_cons.2 (.inr m))) (fun m => hb (List.mem_cons.2 (.inr m))) h
      exact ⟨rfl, rfl⟩

theorem join_inj {α : Type} (n f g : α → Str) (w : List α) (hf : ∀ x ∈ w, ',' ∉ f x) (hg : ∀ x ∈ w, ',' ∉ g x) :
    joinComma (w.map (fun x => n x ++ '=' :: f x)) = joinComma (w.map (fun x => n x ++ '=' :: g x)) ↔ ∀ x ∈ w, f x = g x := by
  constructor
  · induction w with
    | nil => simp
    | cons x w ih =>
      intro h
      cases w with
      | nil =>
        simp only [List.map_cons, List.map_nil, joinComma] at h
        have := List.append_cancel_left h
        simp only [List.cons.injEq, true_and] at this
        simpa using this
      | cons y w =>
        simp only [List.map_cons, joinComma, List.append_assoc, List.cons_append] at h
        have h := List.append_cancel_left h
        simp only [List.cons.injEq, true_and] at h
        obtain ⟨h1, h2⟩ := split_first (hf x (by simp)) (hg x (by simp)) h
        intro z hz
        rcases List.mem_cons.1 hz with rfl | hz
        · exact h1
        · exact ih (fun x hx => hf x (List.mem_cons.2 (.inr hx))) (fun x hx => hg x (List.mem_cons.2 (.inr hx)))
            (by simpa only [List.map_cons] using h2) z hz
  · intro h
    have : w.map (fun x => n x ++ '=' :: f x) = w.map (fun x => n x ++ '=' :: g x) := List.map_congr_left (fun x hx => by rw [h x hx])
    rw [this]

theorem no_comma_digits (i : Nat) : ',' ∉ Nat.toDigits 10 i := by
  intro h
  have := Nat.isDigit_of_mem_toDigits (by omega) (by omega) h
  exact absurd this (by decide)

theorem no_comma_valid (s : Str) (h : validName s = true) : ',' ∉ s := by
  cases s with
  | nil => simp
  | cons c t =>
    simp only [validName, Bool.and_eq_true] at h
    obtain ⟨⟨h1, h2⟩, -⟩ := h
    intro hm
    rcases List.mem_cons.1 hm with rfl | hm
    · exact absurd h1 (by decide)
    · split at h2
      · rename_i hl
        have : t = t.dropLast ++ ['\n'] := by
          cases t with
          | nil => cases hl
          | cons a t =>
            rw [List.getLast?_eq_some_iff] at hl
            obtain ⟨ys, e⟩ := hl
            rw [e]; simp
        rw [this, List.mem_append] at hm
        rcases hm with hm | hm
        · exact absurd (List.all_eq_true.1 h2 _ hm) (by decide)
        · exact absurd hm (by decide)
      · exact absurd (List.all_eq_true.1 h2 _ hm) (by decide)

theorem no_comma_format (name : Str) (l : Label) (value : Str) (hn : ',' ∉ name) (hl : l.valid = true) : ',' ∉ format name l value := by
  have key : ∀ l : Label, ',' ∉ l.text → ',' ∉ (if value.all isPrintableChar then value else name ++ l.text) := by
    intro l hl hm
    split at hm
    · rename_i hv
      exact absurd (List.all_eq_true.1 hv _ hm) (by decide)
    · rcases List.mem_append.1 hm with h | h
      · exact hn h
      · exact hl h
  cases l with
  | named s => exact no_comma_valid s hl
  | index i => exact key (.index i) (no_comma_digits i)
  | nothing => exact key .nothing (by decide)

/-- C69 for the representations of two variations, of the same parameters (`w` has the name of each, with its label and value in the first and
in the second variation): they are the same if and only if each parameter is written the same way in both. -/
theorem C69_same_representation_iff (w : List (Str × (Label × Str) × (Label × Str))) (hn : ∀ p ∈ w, ',' ∉ p.1)
    (hl : ∀ p ∈ w, p.2.1.1.valid = true ∧ p.2.2.1.valid = true) :
    safeRepr (w.map (fun p => (p.1, p.2.1))) = safeRepr (w.map (fun p => (p.1, p.2.2))) ↔
      ∀ p ∈ w, format p.1 p.2.1.1 p.2.1.2 = format p.1 p.2.2.1 p.2.2.2 := by
  unfold safeRepr
  rw [sortNames_map (fun p : Str × (Label × Str) × (Label × Str) => (p.1, p.2.1)) (fun _ => rfl),
    sortNames_map (fun p : Str × (Label × Str) × (Label × Str) => (p.1, p.2.2)) (fun _ => rfl), List.map_map, List.map_map]
  have hp := sortNames_perm w
  rw [show ((fun x : Str × Label × Str => x.1 ++ '=' :: format x.1 x.2.1 x.2.2) ∘ fun p : Str × (Label × Str) × (Label × Str) => (p.1, p.2.1)) =
      fun x => x.1 ++ '=' :: format x.1 x.2.1.1 x.2.1.2 from rfl,
    show ((fun x : Str × Label × Str => x.1 ++ '=' :: format x.1 x.2.1 x.2.2) ∘ fun p : Str × (Label × Str) × (Label × Str) => (p.1, p.2.2)) =
      fun x => x.1 ++ '=' :: format x.1 x.2.2.1 x.2.2.2 from rfl,
    join_inj (fun x : Str × (Label × Str) × (Label × Str) => x.1) (fun x => format x.1 x.2.1.1 x.2.1.2)
      (fun x => format x.1 x.2.2.1 x.2.2.2)]
  · exact ⟨fun h p hm => h p (hp.mem_iff.2 hm), fun h p hm => h p (hp.mem_iff.1 hm)⟩
  · intro x hx
    have hx := hp.mem_iff.1 hx
    exact no_comma_format _ _ _ (hn x hx) (hl x hx).1
  · intro x hx
    have hx := hp.mem_iff.1 hx
    exact no_comma_format _ _ _ (hn x hx) (hl x hx).2

/-- parameter `b` named, `a` without a label and not printable -/
example : safeRepr [(['b'], .named ['x'], ['!']), (['a'], .index 1, ['.'])] = ['a', '=', 'a', '1', ',', 'b', '=', 'x'] := by decide +kernel

/-- C69 for the addresses of two tests of one file: they are the same if and only if the tests have the same address in the file and
variations with the same representation. -/
theorem C69_same_address_iff (t u : Test) (hfile : t.file = u.file) (ht : '(' ∉ t.addressInFile) (hu : '(' ∉ u.addressInFile) :
    t.address = u.address ↔ t.addressInFile = u.addressInFile ∧ t.variation.map safeRepr = u.variation.map safeRepr := by
  unfold Test.address
  rw [hfile, List.append_assoc, List.append_assoc]
  constructor
  · intro h
    have h := List.append_cancel_left h
    simp only [List.cons_append, List.cons.injEq, true_and] at h
    cases hv : t.variation with
    | none =>
      cases hw : u.variation with
      | none => rw [hv, hw] at h; simpa using h
      | some w =>
        rw [hv, hw] at h
        simp only [List.append_nil] at h
        exact absurd (by rw [h]; simp) ht
    | some v =>
      cases hw : u.variation with
      | none =>
        rw [hv, hw] at h
        simp only [List.append_nil] at h
        exact absurd (by rw [← h]; simp) hu
      | some w =>
        rw [hv, hw] at h
        simp only [List.cons_append] at h
        obtain ⟨h1, h2⟩ := split_first ht hu h
        exact ⟨h1, by simpa using List.append_cancel_right h2⟩
  · rintro ⟨h1, h2⟩
    rw [h1]
    cases hv : t.variation <;> cases hw : u.variation <;> rw [hv, hw] at h2 <;> simp_all

/-- C69, the part that holds: two variations of one test have different addresses if different values of a parameter are written in different
ways. -/
theorem C69_distinct_partial (t u : Test) (hfile : t.file = u.file) (haddr : t.addressInFile = u.addressInFile) (hp : '(' ∉ t.addressInFile)
    (w : List (Str × (Label × Str) × (Label × Str))) (ht : t.variation = some (w.map (fun p => (p.1, p.2.1))))
    (hu : u.variation = some (w.map (fun p => (p.1, p.2.2)))) (hn : ∀ p ∈ w, ',' ∉ p.1)
    (hl : ∀ p ∈ w, p.2.1.1.valid = true ∧ p.2.2.1.valid = true)
    (hw : ∀ p ∈ w, p.2.1 ≠ p.2.2 → format p.1 p.2.1.1 p.2.1.2 ≠ format p.1 p.2.2.1 p.2.2.2) (hne : t.variation ≠ u.variation) :
    t.address ≠ u.address := by
  intro h
  have := ((C69_same_address_iff t u hfile hp (haddr ▸ hp)).1 h).2
  rw [ht, hu] at this
  simp only [Option.map_some, Option.some.injEq] at this
  have hall := (C69_same_representation_iff w hn hl).1 this
  apply hne
  rw [ht, hu]
  congr 1
  apply List.map_congr_left
  intro p hp'
  by_cases e : p.2.1 = p.2.2
  · rw [e]
  · exact absurd (hall p hp') (hw p hp' e)

example : (⟨['f'], ['t'], [], none, some [(['a'], .index 0, ['1'])]⟩ : Test).address = ['f', ':', 't', '(', 'a', '=', '1', ')'] := by
  decide +kernel

/-- C69 for values without labels: if no value of the parameter is printable, all are written in different ways. -/
theorem C69_not_printable (name : Str) (values : List Str) (hv : ∀ v ∈ values, v.all isPrintableChar = false) :
    ((normalize (values.map (fun v => (none, v)))).map (fun x => format name x.1 x.2)).Nodup := by
  unfold normalize
  rw [List.map_map]
  have : (values.map (fun v => ((none : Option Label), v))).zipIdx.map
      ((fun x : Label × Str => format name x.1 x.2) ∘ fun x : (Option Label × Str) × Nat => (x.1.1.getD (.index x.2), x.1.2)) =
      ((values.map (fun v => ((none : Option Label), v))).zipIdx.map (·.2)).map (fun i => name ++ Nat.toDigits 10 i) := by
    rw [List.map_map]
    apply List.map_congr_left
    intro x hx
    have hm := List.mem_zipIdx' hx
    have hx1 : x.1 = (none, values[x.2]'(by simpa using hm.1)) := hm.2.trans (by simp)
    simp only [Function.comp, hx1, Option.getD_none]
    have := hv (values[x.2]'(by simpa using hm.1)) (List.getElem_mem _)
    simp only [format, this, Bool.false_eq_true, if_false, Label.text]
  rw [this, List.zipIdx_map_snd]
  refine List.Pairwise.map _ ?_ (List.nodup_range' ..)
  intro a b hab h
  exact hab (IdSpace.digits_inj.1 (List.append_cancel_left h))

theorem strLe_iff (s t : Str) : strLe s t = true ↔ s.map Char.toNat ≤ t.map Char.toNat := by
  induction s generalizing t with
  | nil => simp [strLe]
  | cons a s ih =>
    cases t with
    | nil => simp [strLe]
    | cons b t =>
      simp only [strLe, List.map_cons, List.cons_le_cons_iff]
      by_cases h : a = b
      · subst h
        simp [ih]
      · have hn : a.toNat ≠ b.toNat := fun e => h (Char.toNat_inj.1 e)
        simp [h, hn]

theorem strLe_total (s t : Str) : strLe s t = true ∨ strLe t s = true := by
  rw [strLe_iff, strLe_iff]; exact List.le_total _ _

/-- C69: the parameters are written in the order of their names (by code points), so that the order of arguments does not matter. -/
theorem C69_sorted {α : Type} (v : List (Str × α)) :
    (sortNames v).Pairwise (fun a b => a.1.map Char.toNat ≤ b.1.map Char.toNat) := by
  induction v with
  | nil => exact .nil
  | cons x v ih =>
    show (insertName x (sortNames v)).Pairwise _
    generalize sortNames v = l at ih
    induction l with
    | nil => simp [insertName]
    | cons y l ihl =>
      rw [List.pairwise_cons] at ih
      unfold insertName
      split
      · rename_i h
        rw [strLe_iff] at h
        refine List.pairwise_cons.2 ⟨?_, List.pairwise_cons.2 ih⟩
        intro z hz
        rcases List.mem_cons.1 hz with rfl | hz
        · exact h
        · exact List.le_trans h (ih.1 z hz)
      · rename_i h
        have h' : strLe y.1 x.1 = true := (strLe_total x.1 y.1).resolve_left h
        rw [strLe_iff] at h'
        refine List.pairwise_cons.2 ⟨?_, ihl ih.2⟩
        intro z hz
        rcases List.mem_cons.1 ((insertName_perm x l).mem_iff.1 hz) with rfl | hz
        · exact h'
        · exact ih.1 z hz

/-- C69: the value of a parameter without a label is written with letters, digits, dashes and underscores only, if the name of the parameter is
(as names of arguments are, apart from letters outside ASCII): nothing in an address can be mistaken for the separators in it. -/
theorem C69_safe_text (name : Str) (l : Label) (value : Str) (hl : ∀ s, l ≠ .named s) (hn : l ≠ .nothing)
    (hname : ∀ c ∈ name, c.isAlphanum = true ∨ c = '-' ∨ c = '_') :
    ∀ c ∈ format name l value, c.isAlphanum = true ∨ c = '-' ∨ c = '_' := by
  intro c hc
  cases l with
  | named s => exact absurd rfl (hl s)
  | nothing => exact absurd rfl hn
  | index i =>
    simp only [format] at hc
    split at hc
    · rename_i h
      have := List.all_eq_true.1 h c hc
      simpa [isPrintableChar, or_assoc] using this
    · rcases List.mem_append.1 hc with h | h
      · exact hname c h
      · left
        have := Nat.isDigit_of_mem_toDigits (by decide) (by decide) h
        simp [Char.isAlphanum, this]

example : format ['n'] (.index 3) ['a', '/', 'b'] = ['n', '3'] ∧ format ['n'] (.index 3) ['a', '-', 'b'] = ['a', '-', 'b'] := by decide +kernel

/-- C69, labels: the names that can be given to the values of parameters are those of at most 30 letters, digits and underscores, not
beginning with a digit. (Missing for all strings: `$` also matches before a newline, see below.) -/
theorem C69_label_partial (s : Str) (hs : '\n' ∉ s) :
    (Label.named s).valid = true ↔ s ≠ [] ∧ s.length ≤ 30 ∧
      (∀ c ∈ s, c.isAlpha = true ∨ c.isDigit = true ∨ c = '_') ∧ ∀ c, s.head? = some c → c.isDigit = false := by
  cases s with
  | nil => simp [Label.valid, validName]
  | cons c t =>
    have hl : ¬ (t.getLast? = some '\n') := fun h => hs (List.mem_cons_of_mem _ (List.mem_of_getLast? h))
    have hcd : c.isDigit = true → c.isAlpha = false ∧ c ≠ '_' := by
      intro h
      constructor
      · simp only [Char.isDigit, Bool.and_eq_true, decide_eq_true_eq] at h
        simp only [Char.isAlpha, Char.isUpper, Char.isLower, Bool.or_eq_false_iff, Bool.and_eq_false_iff,
          decide_eq_false_iff_not]
        have h1 := h.1
        have h2 := h.2
        simp only [ge_iff_le, UInt32.le_iff_toNat_le] at h1 h2 ⊢
        have e1 : ('0').val.toNat = 48 := rfl
        have e2 : ('9').val.toNat = 57 := rfl
        have e3 : ('A').val.toNat = 65 := rfl
        have e4 : ('a').val.toNat = 97 := rfl
        omega
      · rintro rfl; revert h; decide
    simp only [Label.valid, validName, hl, if_false, isStart, isPart, Bool.and_eq_true, Bool.or_eq_true, beq_iff_eq,
      decide_eq_true_eq, List.all_eq_true, Char.isAlphanum, ne_eq, reduceCtorEq, not_false_eq_true, true_and,
      List.length_cons, List.mem_cons, forall_eq_or_imp, List.head?_cons, Option.some.injEq, forall_eq']
    constructor
    · rintro ⟨⟨h1, h2⟩, h3⟩
      refine ⟨by omega, ⟨?_, ?_⟩, ?_⟩
      · rcases h1 with h1 | h1
        · exact .inl h1
        · exact .inr (.inr h1)
      · intro x hx
        rcases h2 x hx with (h | h) | h
        · exact .inl h
        · exact .inr (.inl h)
        · exact .inr (.inr h)
      · cases hd : c.isDigit with
        | false => rfl
        | true =>
          obtain ⟨h4, h5⟩ := hcd hd
          rcases h1 with h1 | h1
          · rw [h4] at h1; cases h1
          · exact absurd h1 h5
    · rintro ⟨h3, ⟨h1, h2⟩, h4⟩
      refine ⟨⟨?_, ?_⟩, by omega⟩
      · rcases h1 with h1 | h1 | h1
        · exact .inl h1
        · rw [h4] at h1; cases h1
        · exact .inr h1
      · intro x hx
        rcases h2 x hx with h | h | h
        · exact .inl (.inl h)
        · exact .inl (.inr h)
        · exact .inr h

example : (Label.named (List.replicate 30 'a')).valid = true ∧ (Label.named (List.replicate 31 'a')).valid = false ∧
    (Label.named ['1', 'a']).valid = false ∧ (Label.named ['_', '1']).valid = true := by decide

/-- C69: values without a name are always accepted, whatever their place. -/
theorem C69_unnamed_valid (i : Nat) : (Label.index i).valid = true ∧ Label.nothing.valid = true := ⟨rfl, rfl⟩

example : ∀ x ∈ normalize [(none, ['a', ',']), (some (.named ['b']), []), (none, [])], x.1.valid = true := by decide

/-- ... A newline at the end is accepted. -/
theorem C69_label_newline_violated : (Label.named ['a', '\n']).valid = true := by decide

/-- C69 fails for values with the same text: `1` and `'1'` give two tests with one address. -/
theorem C69_same_text_violated :
    let vs := normalize [(none, ['1']), (none, ['1'])]
    let t (i : Nat) : Test := ⟨['f'], ['t'], [], none, some [(['a'], vs.getD i (.nothing, []))]⟩
    (t 0).variation ≠ (t 1).variation ∧ (t 0).address = (t 1).address := by
  decide +kernel

/-- C69 fails for a printable value that looks like the name and the index of another one. -/
theorem C69_looks_like_index_violated :
    let vs := normalize [(none, ['?']), (none, ['a', '0'])]
    let t (i : Nat) : Test := ⟨['f'], ['t'], [], none, some [(['a'], vs.getD i (.nothing, []))]⟩
    (t 0).variation ≠ (t 1).variation ∧ (t 0).address = (t 1).address := by
  decide +kernel

/-- C69 fails for `slash.param` values without a label. -/
theorem C69_no_label_violated :
    let vs := normalize [(some .nothing, ['?']), (some .nothing, ['!'])]
    let t (i : Nat) : Test := ⟨['f'], ['t'], [], none, some [(['a'], vs.getD i (.nothing, []))]⟩
    (t 0).variation ≠ (t 1).variation ∧ (t 0).address = (t 1).address := by
  decide +kernel

/-! ## C70 -/

theorem dset_fst (k v : Nat) (l : List (Nat × Nat)) (h : k ∉ l.map (·.1)) : dset k v l = l ++ [(k, v)] := by
  induction l with
  | nil => rfl
  | cons e l ih =>
    simp only [List.map_cons, List.mem_cons, not_or] at h
    simp only [dset]
    rw [if_neg (fun e' => h.1 e'.symm), ih h.2]
    rfl

theorem addAll_single (ds : List (Nat × Nat)) (i : Info) (hargs : ∀ d ∈ ds, d.1 ∈ i.args) (hi : (i.params.map (·.1)).Nodup) :
    i.addAll (ds.map (fun d => (.one d.1, d.2))) =
      if ((i.params ++ ds).map (·.1)).Nodup then some { i with params := i.params ++ ds } else none := by
  induction ds generalizing i with
  | nil => simp [Info.addAll, hi]
  | cons d ds ih =>
    simp only [List.map_cons, Info.addAll, Info.addOptions]
    by_cases hk : d.1 ∈ i.params.map (·.1)
    · have : i.params.any (fun x => x.1 == d.1) = true := by
        obtain ⟨x, hx, e⟩ := List.mem_map.1 hk
        exact List.any_eq_true.2 ⟨x, hx, by simp [e]⟩
      rw [this]
      simp only [if_true]
      rw [if_neg]
      intro hnd
      simp only [List.map_append, List.map_cons, List.nodup_append] at hnd
      exact hnd.2.2 _ hk _ (by simp) rfl
    · have : i.params.any (fun x => x.1 == d.1) = false := by
        rw [Bool.eq_false_iff]
        intro h
        obtain ⟨x, hx, e⟩ := List.any_eq_true.1 h
        exact hk (List.mem_map.2 ⟨x, hx, by simpa using e⟩)
      rw [this]
      simp only [Bool.false_eq_true, if_false, Names.list, List.foldl_cons, List.foldl_nil]
      have hs : i.setOne d.2 d.1 = { i with params := i.params ++ [d] } := by
        unfold Info.setOne
        rw [if_pos (hargs d (by simp)), dset_fst _ _ _ hk]
      rw [hs, ih { i with params := i.params ++ [d] } (fun d' hd' => hargs d' (by simp [hd']))]
      · simp
      · simp only [List.map_append, List.map_cons, List.map_nil]
        rw [List.nodup_append]
        refine ⟨hi, by simp, ?_⟩
        intro a ha b hb e
        simp only [List.mem_singleton] at hb
        exact hk (hb ▸ e ▸ ha)

/-- C70, the part that holds (each declaration is for a single argument of the function): the declarations are accepted if and only if no
argument is declared twice, and then each argument is parametrized by what was declared for it. -/
theorem C70_declared_once_partial (args : List Nat) (ds : List (Nat × Nat)) (hargs : ∀ d ∈ ds, d.1 ∈ args) :
    (((⟨args, [], []⟩ : Info).addAll (ds.map (fun d => (.one d.1, d.2)))).isSome = true ↔ (ds.map (·.1)).Nodup) ∧
    ∀ i, (⟨args, [], []⟩ : Info).addAll (ds.map (fun d => (.one d.1, d.2))) = some i → ∀ d ∈ ds, i.get d.1 = [d.2] := by
  rw [addAll_single ds ⟨args, [], []⟩ hargs (by simp)]
  simp only [List.nil_append]
  by_cases h : (ds.map (·.1)).Nodup
  · rw [if_pos h]
    refine ⟨by simp [h], ?_⟩
    intro i hi d hd
    simp only [Option.some.injEq] at hi
    subst hi
    simp only [Info.get, List.append_nil]
    clear hargs
    induction ds with
    | nil => cases hd
    | cons e ds ih =>
      simp only [List.map_cons, List.nodup_cons] at h
      rcases List.mem_cons.1 hd with rfl | hd
      · have : ds.filter (fun x => x.1 == d.1) = [] := by
          rw [List.filter_eq_nil_iff]
          intro x hx e
          exact h.1 (List.mem_map.2 ⟨x, hx, by simpa using e⟩)
        simp [this]
      · have hne : (e.1 == d.1) = false := by
          rw [Bool.eq_false_iff]
          intro e'
          exact h.1 (List.mem_map.2 ⟨d, hd, (by simpa using e' : e.1 = d.1).symm⟩)
        rw [List.filter_cons, hne]
        exact ih h.2 hd
  · rw [if_neg h]
    exact ⟨by simp [h], fun i hi => by cases hi⟩

example : (⟨[1, 2], [], []⟩ : Info).addAll [(.one 1, 7), (.one 2, 8)] = some ⟨[1, 2], [(1, 7), (2, 8)], []⟩ := by decide

/-- C70 fails for names that are not arguments (they are for use by the body through keyword arguments): the second declaration wins
silently. -/
theorem C70_no_argument_violated :
    ((⟨[1], [], []⟩ : Info).addAll [(.one 5, 7), (.one 5, 8)]).map (·.get 5) = some [8] := by decide

/-- C70 fails for an argument that is declared by itself and then in a tuple: the first declaration is lost silently. -/
theorem C70_tuple_violated :
    ((⟨[1, 2], [], []⟩ : Info).addAll [(.one 1, 7), (.tuple [1, 2], 8)]).map (·.get 1) = some [8] ∧
    ((⟨[1, 2], [], []⟩ : Info).addAll [(.tuple [1, 2], 8), (.one 1, 7)]) = none := by decide

/-! ## C71 -/

theorem beforeParen_self (s : Str) (h : '(' ∉ s) : beforeParen s = s := by
  unfold beforeParen
  induction s with
  | nil => rfl
  | cons c s ih =>
    simp only [List.mem_cons, not_or] at h
    rw [List.takeWhile_cons_of_pos (by simpa using fun e => h.1 e.symm), ih h.2]

/-- C71, the part that holds (a class is loaded by its own name): the function name of a test is the name of the function, or of the method. -/
theorem C71_function_name_partial (file name : Str) (cls : Option Str) (variation : Option Vals) (hn : '(' ∉ name) (hc : cls ≠ some []) :
    (match cls with
      | none => (⟨file, name, [], none, variation⟩ : Test)
      | some c => ⟨file, c, '.' :: name, some c, variation⟩).functionName = some name := by
  cases cls with
  | none => simp [Test.functionName, Test.addressInFile, beforeParen_self name hn]
  | some c =>
    cases c with
    | nil => exact absurd rfl hc
    | cons a c =>
      simp only [Test.functionName, Test.addressInFile]
      have h1 : (a :: c ++ ['.']).isPrefixOf (a :: c ++ '.' :: name) = true := by
        rw [List.isPrefixOf_iff_prefix]
        exact ⟨name, by simp⟩
      refine (if_pos h1).trans ?_
      have h2 : (a :: c ++ '.' :: name).drop ((a :: c).length + 1) = name := by
        rw [show a :: c ++ '.' :: name = (a :: c ++ ['.']) ++ name by simp, List.drop_left' (by simp)]
      rw [h2, beforeParen_self name hn]

example : (⟨['f'], ['C'], ['.', 't'], some ['C'], none⟩ : Test).functionName = some ['t'] := by decide

/-- C71 fails for a class which is also known under another name in the module: asking for the function name of the tests that are loaded from
it under the other name raises an assertion error. -/
theorem C71_alias_violated : (⟨['f'], ['D'], ['.', 't'], some ['C'], none⟩ : Test).functionName = none := by decide

end Slash.Meta
