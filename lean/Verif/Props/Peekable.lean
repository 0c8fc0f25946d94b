import Verif.Model.Peekable
/-!
# C15: peekable iteration is transparent
-/
namespace Slash.Peekable
variable {α : Type}

/-- What a call shows of the next element of the sequence. -/
def shown (g : Got α) : Op → Obs α
  | .next | .peek => .got g
  | .hasNext => match g with | .item _ => .flag true | .stop => .flag false | .raised e => .got (.raised e)
  | .peekOrNone => match g with | .stop => .none | g => .got g

/-- Whether the call takes it from the sequence: `next` takes elements, and an exception is taken by the call that meets it. -/
def takes (g : Got α) (op : Op) : Bool :=
  match g with
  | .item _ => op == .next
  | .stop => false
  | .raised _ => true

/-- The specification: `k` is how much has been taken from the sequence. -/
def specRun (seq : Nat → Got α) (k : Nat) : List Op → List (Obs α)
  | [] => []
  | op :: ops => shown (seq k) op :: specRun seq (if takes (seq k) op then k + 1 else k) ops

/-- `st` has taken `k` items -/
def Rel (seq : Nat → Got α) (k : Nat) (st : St α) : Prop :=
  st.seq = seq ∧ match st.peeked with
    | none => st.pos = k
    | some (some a) => seq k = .item a ∧ st.pos = k + 1
    | some none => seq k = .stop ∧ st.pos = k

theorem rel_peek {seq : Nat → Got α} {k : Nat} {st : St α} (h : Rel seq k st) :
    st.peek.1 = seq k ∧ Rel seq (if takes (seq k) .peek then k + 1 else k) st.peek.2 := by
  obtain ⟨sq, pos, pk⟩ := st
  obtain ⟨rfl, h2⟩ := h
  obtain ⟨g, hk⟩ : ∃ g, sq k = g := ⟨_, rfl⟩
  rcases pk with _ | _ | a
  · dsimp only at h2
    subst h2
    cases g <;> simp [St.peek, St.advance, hk, Rel, takes]
  · obtain ⟨h2, h3⟩ := h2
    change sq k = _ at h2
    have ht : ¬ takes (sq k) .peek = true := by rw [h2]; exact Bool.false_ne_true
    rw [if_neg ht]
    exact ⟨h2.symm, rfl, h2, h3⟩
  · obtain ⟨h2, h3⟩ := h2
    change sq k = _ at h2
    have ht : ¬ takes (sq k) .peek = true := by rw [h2]; exact Bool.false_ne_true
    rw [if_neg ht]
    exact ⟨h2.symm, rfl, h2, h3⟩

theorem rel_next {seq : Nat → Got α} {k : Nat} {st : St α} (h : Rel seq k st) :
    st.next.1 = seq k ∧ Rel seq (if takes (seq k) .next then k + 1 else k) st.next.2 := by
  obtain ⟨sq, pos, pk⟩ := st
  obtain ⟨rfl, h2⟩ := h
  obtain ⟨g, hk⟩ : ∃ g, sq k = g := ⟨_, rfl⟩
  rcases pk with _ | _ | a
  · dsimp only at h2
    subst h2
    cases g <;> simp [St.next, St.advance, hk, Rel, takes]
  · obtain ⟨h2, h3⟩ := h2
    change sq k = _ at h2
    have ht : ¬ takes (sq k) .next = true := by rw [h2]; exact Bool.false_ne_true
    rw [if_neg ht]
    exact ⟨h2.symm, rfl, h3⟩
  · obtain ⟨h2, h3⟩ := h2
    change sq k = _ at h2
    have ht : takes (sq k) .next = true := by rw [h2]; rfl
    rw [if_pos ht]
    exact ⟨h2.symm, rfl, h3⟩

theorem rel_hasNext {seq : Nat → Got α} {k : Nat} {st : St α} (h : Rel seq k st) :
    st.hasNext.1 = shown (seq k) .hasNext ∧ Rel seq (if takes (seq k) .hasNext then k + 1 else k) st.hasNext.2 := by
  obtain ⟨h1, h2⟩ := rel_peek h
  unfold St.hasNext
  revert h1 h2
  rcases st.peek with ⟨g, st⟩
  intro h1 h2
  dsimp only at h1 h2
  subst h1
  cases hk : seq k <;> rw [hk] at h2 <;> exact ⟨rfl, h2⟩

theorem rel_step {seq : Nat → Got α} {k : Nat} {st : St α} (h : Rel seq k st) (op : Op) :
    (step st op).1 = shown (seq k) op ∧ Rel seq (if takes (seq k) op then k + 1 else k) (step st op).2 := by
  cases op with
  | next =>
    obtain ⟨h1, h2⟩ := rel_next h
    exact ⟨congrArg Obs.got h1, h2⟩
  | peek =>
    obtain ⟨h1, h2⟩ := rel_peek h
    exact ⟨congrArg Obs.got h1, h2⟩
  | hasNext => exact rel_hasNext h
  | peekOrNone =>
    obtain ⟨h1, h2⟩ := rel_hasNext h
    show (St.peekOrNone st).1 = _ ∧ Rel _ _ (St.peekOrNone st).2
    unfold St.peekOrNone
    revert h1 h2
    rcases st.hasNext with ⟨o, st⟩
    intro h1 h2
    dsimp only at h1 h2
    subst h1
    cases hk : seq k with
    | item a =>
      rw [hk] at h2
      obtain ⟨h3, h4⟩ := rel_peek (k := k) h2
      rw [hk] at h4
      exact ⟨congrArg Obs.got (h3.trans hk), h4⟩
    | stop => rw [hk] at h2; exact ⟨rfl, h2⟩
    | raised e => rw [hk] at h2; exact ⟨rfl, h2⟩

/-- **C15.** Whatever interleaving of calls is made, every call returns what it would return on the plain sequence in
which only `next` consumes; and an exception of the iterator comes out once, of the call that meets it. -/
theorem C15_transparent (seq : Nat → Got α) (ops : List Op) :
    run { seq := seq } ops = specRun seq 0 ops := by
  suffices ∀ k st, Rel seq k st → run st ops = specRun seq k ops from this 0 _ ⟨rfl, rfl⟩
  induction ops with
  | nil => intros; rfl
  | cons op ops ih =>
    intro k st h
    obtain ⟨h1, h2⟩ := rel_step h op
    simp only [run, specRun]
    exact congr (congrArg List.cons h1) (ih _ _ h2)

/-- An iterator over a list. -/
def ofList (l : List α) (i : Nat) : Got α := match l[i]? with | some a => .item a | none => .stop

/-- the items delivered by the `next` calls -/
def delivered : List Op → List (Obs α) → List (Obs α)
  | .next :: ops, r :: os => r :: delivered ops os
  | _ :: ops, _ :: os => delivered ops os
  | _, _ => []

/-- **C15.** In particular, for an iterator over a list, the `next` calls deliver the list in order and then stop,
regardless of the other calls in between. -/
theorem C15_yields_original_sequence (l : List α) (ops : List Op) :
    delivered ops (run { seq := ofList l } ops) =
      (List.range (ops.count .next)).map (fun i => .got (ofList l i)) := by
  rw [C15_transparent]
  suffices ∀ k ≤ l.length, delivered ops (specRun (ofList l) k ops) =
      (List.range (ops.count .next)).map (fun i => .got (ofList l (k + i))) by simpa using this 0 (by omega)
  have hlt : ∀ k, k < l.length → ∃ a, ofList l k = .item a := by
    intro k h
    exact ⟨l[k], by simp [ofList, h]⟩
  have hge : ∀ k, l.length ≤ k → ofList l k = .stop := by
    intro k h
    simp [ofList, h]
  have hno : ∀ k op, op ≠ .next → takes (ofList l k) op = false := by
    intro k op ho
    by_cases h : k < l.length
    · obtain ⟨a, ha⟩ := hlt k h
      simp [takes, ha, ho]
    · simp [takes, hge k (by omega)]
  induction ops with
  | nil => intros; rfl
  | cons op ops ih =>
    intro k hk
    cases op with
    | next =>
      simp only [specRun, delivered, List.count_cons_self, List.range_succ_eq_map, List.map_cons, List.map_map, shown,
        Nat.add_zero]
      congr 1
      by_cases h : k < l.length
      · obtain ⟨a, ha⟩ := hlt k h
        have : takes (ofList l k) .next = true := by simp [takes, ha]
        rw [if_pos this, ih (k + 1) (by omega)]
        apply List.map_congr_left
        intro i _
        simp only [Function.comp_apply]
        congr 2; omega
      · have : ¬ takes (ofList l k) .next = true := by simp [takes, hge k (by omega)]
        rw [if_neg this, ih k hk]
        apply List.map_congr_left
        intro i _
        simp only [Function.comp_apply]
        rw [hge _ (by omega), hge _ (by omega)]
    | peek => simp only [specRun, delivered, hno k .peek (by simp), Bool.false_eq_true, if_false]; rw [ih k hk]; simp [List.count_cons]
    | hasNext => simp only [specRun, delivered, hno k .hasNext (by simp), Bool.false_eq_true, if_false]; rw [ih k hk]; simp [List.count_cons]
    | peekOrNone => simp only [specRun, delivered, hno k .peekOrNone (by simp), Bool.false_eq_true, if_false]; rw [ih k hk]; simp [List.count_cons]

/-- **C15.** A call of `next` returns what a call of `peek` before it returned, unless that raised an exception of the iterator. -/
theorem C15_peek_next (seq : Nat → Got α) (ops : List Op) (g : Got α) (hg : ∀ e, g ≠ .raised e)
    (h : (run { seq := seq } (ops ++ [.peek, .next]))[ops.length]? = some (.got g)) :
    (run { seq := seq } (ops ++ [.peek, .next]))[ops.length + 1]? = some (.got g) := by
  rw [C15_transparent] at h ⊢
  generalize 0 = k at h ⊢
  induction ops generalizing k with
  | nil =>
    simp only [List.nil_append, List.length_nil, specRun, shown, List.getElem?_cons_zero, Option.some.injEq, Obs.got.injEq] at h
    have ht : takes (seq k) .peek = false := by
      cases hk : seq k with
      | item a => rfl
      | stop => rfl
      | raised e => exact absurd (h.symm.trans hk) (hg e)
    rw [h] at ht
    simp [specRun, shown, ht, h]
  | cons op ops ih =>
    simp only [List.cons_append, List.length_cons, specRun, List.getElem?_cons_succ] at h ⊢
    exact ih _ h

example : run { seq := ofList [10, 20] } [.peek, .next, .hasNext, .next, .hasNext, .peekOrNone, .next, .next]
    = [.got (.item 10), .got (.item 10), .flag true, .got (.item 20), .flag false, .none, .got .stop, .got .stop] := by
  decide

/-- An iterator that raises once: whoever asks first for the element gets the exception. -/
example : run { seq := fun i => [.item 10, .raised 7, .item 20][i]?.getD .stop } [.next, .hasNext, .next, .peek, .next]
    = [.got (.item 10), .got (.raised 7), .got (.item 20), .got .stop, .got .stop] := by decide

end Slash.Peekable
