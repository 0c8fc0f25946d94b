import Verif.Model.Pattern
/-!
# Lemmas on the parsing of filter expressions
-/
namespace Slash.Pat

/-! ## Consumption -/

theorem skipWsL_len (p : Option Char) (t : List Char) : (skipWsL p t).rest.length ≤ t.length := by
  induction t generalizing p with
  | nil => simp [skipWsL]
  | cons c t ih =>
    simp only [skipWsL]
    split
    · have := ih (some c); simp only [List.length_cons]; omega
    · simp

theorem strip_len (l : List Char) (p : Option Char) (t : List Char) (j : Inp) (h : strip l p t = some j) :
    j.rest.length + l.length = t.length := by
  induction l generalizing p t with
  | nil => simp only [strip, Option.some.injEq] at h; subst h; simp
  | cons c l ih =>
    cases t with
    | nil => simp [strip] at h
    | cons d t =>
      simp only [strip] at h
      split at h
      · have := ih _ _ h; simp only [List.length_cons]; omega
      · cases h

theorem pLit_len (l : List Char) (i j : Inp) (h : pLit l i = some j) : j.rest.length + l.length ≤ i.rest.length := by
  have h1 := strip_len _ _ _ _ h
  have h2 := skipWsL_len i.prev i.rest
  unfold skipWs at h1
  omega

theorem dropWhile_len (p : Char → Bool) (t : List Char) : (t.dropWhile p).length ≤ t.length := by
  induction t with
  | nil => simp
  | cons c t ih =>
    simp only [List.dropWhile_cons]
    split
    · simp only [List.length_cons]; omega
    · simp

theorem pWord_len (i j : Inp) (w : List Char) (h : pWord i = some (w, j)) : j.rest.length ≤ i.rest.length := by
  unfold pWord at h
  simp only at h
  split at h
  · cases h
  · simp only [Option.some.injEq, Prod.mk.injEq] at h
    obtain ⟨-, rfl⟩ := h
    have h1 := skipWsL_len i.prev i.rest
    have h2 := dropWhile_len isWordChar (skipWs i).rest
    unfold skipWs at h2 ⊢
    simp only at h2 ⊢
    omega

theorem pKwNot_len (i j : Inp) (h : pKwNot i = some j) : j.rest.length + 3 ≤ i.rest.length := by
  unfold pKwNot at h
  simp only at h
  split at h
  · cases h
  · rename_i k hk
    have h1 := strip_len _ _ _ _ hk
    have h2 := skipWsL_len i.prev i.rest
    unfold skipWs at h1
    split at h
    · cases h
    · split at h
      · cases h
      · simp only [Option.some.injEq] at h
        subst h
        simp only [List.length_cons, List.length_nil] at h1
        omega

theorem pMatcher_len (i j : Inp) (m : M) (h : pMatcher i = some (m, j)) : j.rest.length ≤ i.rest.length := by
  unfold pMatcher at h
  split at h
  · rename_i w j' hw
    simp only [Option.some.injEq, Prod.mk.injEq] at h
    obtain ⟨-, rfl⟩ := h
    cases hl : pLit ['t', 'a', 'g', ':'] i with
    | none => rw [hl] at hw; cases hw
    | some k =>
      rw [hl] at hw
      have h1 := pLit_len _ _ _ hl
      have h2 := pWord_len _ _ _ hw
      omega
  · cases hw : pWord i with
    | none => rw [hw] at h; cases h
    | some r =>
      obtain ⟨w, j'⟩ := r
      rw [hw] at h
      simp only [Option.map_some, Option.some.injEq, Prod.mk.injEq] at h
      obtain ⟨-, rfl⟩ := h
      exact pWord_len _ _ _ hw

theorem all_len (n : Nat) :
    (∀ i m j, pBase n i = .ok m j → j.rest.length ≤ i.rest.length) ∧ (∀ i m j, pNot n i = .ok m j → j.rest.length ≤ i.rest.length) ∧
    (∀ b i m j, pChain n b i = .ok m j → j.rest.length ≤ i.rest.length) ∧
    (∀ b i m j, pTail n b i = .ok m j → j.rest.length ≤ i.rest.length) := by
  induction n with
  | zero =>
    refine ⟨?_, ?_, ?_, ?_⟩
    · intro i m j h; rw [pBase] at h; cases h
    · intro i m j h; rw [pNot] at h; cases h
    · intro b i m j h; rw [pChain] at h; cases h
    · intro b i m j h; rw [pTail] at h; cases h
  | succ n ih =>
    obtain ⟨ih1, ih2, ih3, ih4⟩ := ih
    have operand : ∀ (b : Bool) i m j, (if b then pChain n false i else pNot n i) = .ok m j → j.rest.length ≤ i.rest.length := by
      intro b i m j h
      cases b
      · exact ih2 _ _ _ h
      · exact ih3 _ _ _ _ h
    refine ⟨?_, ?_, ?_, ?_⟩
    · intro i m j h
      rw [pBase] at h
      split at h
      · rename_i hm
        cases h
        exact pMatcher_len _ _ _ hm
      · split at h
        · cases h
        · rename_i hl
          split at h
          · cases h
          · cases h
          · rename_i hc
            split at h
            · cases h
            · rename_i hr
              cases h
              have h1 := pLit_len _ _ _ hl
              have h2 := pLit_len _ _ _ hr
              have h3 := ih3 _ _ _ _ hc
              omega
    · intro i m j h
      rw [pNot] at h
      split at h
      · exact ih1 _ _ _ h
      · rename_i hk
        split at h
        · cases h
        · exact ih1 _ _ _ h
        · rename_i hn
          cases h
          have h1 := pKwNot_len _ _ hk
          have h2 := ih2 _ _ _ hn
          omega
    · intro b i m j h
      rw [pChain] at h
      split at h
      · cases h
      · cases h
      · rename_i ho
        have h1 := operand _ _ _ _ ho
        split at h
        · cases h
        · cases h
        · cases h; exact h1
        · rename_i ht
          cases h
          have h2 := ih4 _ _ _ _ ht
          omega
    · intro b i m j h
      rw [pTail] at h
      split at h
      · cases h; exact Nat.le_refl _
      · rename_i hl
        have h0 := pLit_len _ _ _ hl
        split at h
        · cases h
        · cases h; exact Nat.le_refl _
        · rename_i ho
          have h1 := operand _ _ _ _ ho
          split at h
          · cases h
          · cases h
          · rename_i ht
            cases h
            have h2 := ih4 _ _ _ _ ht
            omega

/-! ## Fuel -/

theorem all_mono (n : Nat) :
    (∀ i, pBase n i ≠ .fuel → pBase (n + 1) i = pBase n i) ∧ (∀ i, pNot n i ≠ .fuel → pNot (n + 1) i = pNot n i) ∧
    (∀ b i, pChain n b i ≠ .fuel → pChain (n + 1) b i = pChain n b i) ∧
    (∀ b i, pTail n b i ≠ .fuel → pTail (n + 1) b i = pTail n b i) := by
  induction n with
  | zero =>
    refine ⟨?_, ?_, ?_, ?_⟩
    · intro i h; rw [pBase] at h; exact absurd rfl h
    · intro i h; rw [pNot] at h; exact absurd rfl h
    · intro b i h; rw [pChain] at h; exact absurd rfl h
    · intro b i h; rw [pTail] at h; exact absurd rfl h
  | succ n ih =>
    obtain ⟨ih1, ih2, ih3, ih4⟩ := ih
    have operand : ∀ (b : Bool) i, (if b then pChain n false i else pNot n i) ≠ .fuel →
        (if b then pChain (n + 1) false i else pNot (n + 1) i) = (if b then pChain n false i else pNot n i) := by
      intro b i h
      cases b
      · exact ih2 _ h
      · exact ih3 _ _ h
    refine ⟨?_, ?_, ?_, ?_⟩
    · intro i h
      rw [pBase] at h
      rw [pBase, pBase.eq_def (n + 1)]
      simp only
      cases hm : pMatcher i with
      | some r => rfl
      | none =>
        simp only [hm] at h ⊢
        cases hl : pLit ['('] i with
        | none => rfl
        | some j =>
          simp only [hl] at h ⊢
          have : pChain n true j ≠ .fuel := by intro e; rw [e] at h; exact h rfl
          rw [ih3 _ _ this]
    · intro i h
      rw [pNot] at h
      rw [pNot, pNot.eq_def (n + 1)]
      simp only
      cases hk : pKwNot i with
      | none => simp only [hk] at h ⊢; exact ih1 _ h
      | some j =>
        simp only [hk] at h ⊢
        have : pNot n j ≠ .fuel := by intro e; rw [e] at h; exact h rfl
        rw [ih2 _ this]
        cases hn : pNot n j with
        | fuel => rfl
        | ok m k => rfl
        | fail => simp only [hn] at h ⊢; exact ih1 _ h
    · intro b i h
      rw [pChain] at h
      rw [pChain.eq_def (n + 1 + 1) b i, pChain.eq_def (n + 1) b i]
      simp only
      have : (if b then pChain n false i else pNot n i) ≠ .fuel := by intro e; rw [e] at h; exact h rfl
      rw [operand _ _ this]
      cases ho : (if b then pChain n false i else pNot n i) with
      | fuel => rfl
      | fail => rfl
      | ok m j =>
        simp only [ho] at h ⊢
        have : pTail n b j ≠ .fuel := by intro e; rw [e] at h; exact h rfl
        rw [ih4 _ _ this]
    · intro b i h
      rw [pTail] at h
      rw [pTail, pTail.eq_def (n + 1)]
      simp only
      cases hl : pLit (opText b) i with
      | none => rfl
      | some j =>
        simp only [hl] at h ⊢
        have : (if b then pChain n false j else pNot n j) ≠ .fuel := by intro e; rw [e] at h; exact h rfl
        rw [operand _ _ this]
        cases ho : (if b then pChain n false j else pNot n j) with
        | fuel => rfl
        | fail => rfl
        | ok m k =>
          simp only [ho] at h ⊢
          have : pTail n b k ≠ .fuel := by intro e; rw [e] at h; exact h rfl
          rw [ih4 _ _ this]

theorem chain_mono {n k : Nat} {b : Bool} {i : Inp} (h : pChain n b i ≠ .fuel) : pChain (n + k) b i = pChain n b i := by
  induction k with
  | zero => rfl
  | succ k ih => rw [← Nat.add_assoc, (all_mono (n + k)).2.2.1 b i (by rw [ih]; exact h), ih]

theorem tail_mono {n k : Nat} {b : Bool} {i : Inp} (h : pTail n b i ≠ .fuel) : pTail (n + k) b i = pTail n b i := by
  induction k with
  | zero => rfl
  | succ k ih => rw [← Nat.add_assoc, (all_mono (n + k)).2.2.2 b i (by rw [ih]; exact h), ih]

theorem not_mono {n k : Nat} {i : Inp} (h : pNot n i ≠ .fuel) : pNot (n + k) i = pNot n i := by
  induction k with
  | zero => rfl
  | succ k ih => rw [← Nat.add_assoc, (all_mono (n + k)).2.1 i (by rw [ih]; exact h), ih]

theorem base_mono {n k : Nat} {i : Inp} (h : pBase n i ≠ .fuel) : pBase (n + k) i = pBase n i := by
  induction k with
  | zero => rfl
  | succ k ih => rw [← Nat.add_assoc, (all_mono (n + k)).1 i (by rw [ih]; exact h), ih]

theorem opText_len (b : Bool) : 2 ≤ (opText b).length := by cases b <;> decide

theorem all_fuel (n : Nat) :
    (∀ i, 5 * i.rest.length + 1 ≤ n → pBase n i ≠ .fuel) ∧ (∀ i, 5 * i.rest.length + 2 ≤ n → pNot n i ≠ .fuel) ∧
    (∀ (b : Bool) i, 5 * i.rest.length + (if b then 4 else 3) ≤ n → pChain n b i ≠ .fuel) ∧
    (∀ b i, 5 * i.rest.length + 1 ≤ n → pTail n b i ≠ .fuel ∧ pTail n b i ≠ .fail) := by
  induction n with
  | zero =>
    refine ⟨?_, ?_, ?_, ?_⟩
    · intro i h; omega
    · intro i h; omega
    · intro b i h; cases b <;> simp at h
    · intro b i h; omega
  | succ n ih =>
    obtain ⟨ih1, ih2, ih3, ih4⟩ := ih
    have operand : ∀ (b : Bool) i, 5 * i.rest.length + (if b then 3 else 2) ≤ n → (if b then pChain n false i else pNot n i) ≠ .fuel := by
      intro b i h
      cases b
      · exact ih2 _ (by simpa using h)
      · exact ih3 _ _ (by simpa using h)
    refine ⟨?_, ?_, ?_, ?_⟩
    · intro i hi h
      rw [pBase] at h
      split at h
      · cases h
      · split at h
        · cases h
        · rename_i hl
          have h1 := pLit_len _ _ _ hl
          simp only [List.length_cons, List.length_nil] at h1
          split at h
          · rename_i j hc
            exact ih3 true _ (by simp only [if_true]; omega) hc
          · cases h
          · split at h <;> cases h
    · intro i hi h
      rw [pNot] at h
      split at h
      · exact ih1 _ (by omega) h
      · rename_i hk
        have h1 := pKwNot_len _ _ hk
        split at h
        · rename_i hn; exact ih2 _ (by omega) hn
        · exact ih1 _ (by omega) h
        · cases h
    · intro b i hi h
      rw [pChain] at h
      split at h
      · rename_i ho
        refine operand b i ?_ ho
        cases b <;> simp only [if_true, Bool.false_eq_true, if_false] at hi ⊢ <;> omega
      · cases h
      · rename_i m j ho
        have h1 : j.rest.length ≤ i.rest.length := by
          cases b
          · exact (all_len n).2.1 _ _ _ ho
          · exact (all_len n).2.2.1 _ _ _ _ ho
        have h2 : 5 * j.rest.length + 1 ≤ n := by
          cases b <;> simp only [if_true, Bool.false_eq_true, if_false] at hi <;> omega
        split at h
        · rename_i ht; exact (ih4 b j h2).1 ht
        · cases h
        · cases h
        · cases h
    · intro b i hi
      rw [pTail]
      split
      · exact ⟨(fun h => by cases h), (fun h => by cases h)⟩
      · rename_i j hl
        have h0 := pLit_len _ _ _ hl
        have h0' := opText_len b
        split
        · rename_i ho
          refine absurd ho (operand b j ?_)
          cases b <;> simp only [if_true, Bool.false_eq_true, if_false] <;> omega
        · exact ⟨(fun h => by cases h), (fun h => by cases h)⟩
        · rename_i m k ho
          have h1 : k.rest.length ≤ j.rest.length := by
            cases b
            · exact (all_len n).2.1 _ _ _ ho
            · exact (all_len n).2.2.1 _ _ _ _ ho
          have h2 := ih4 b k (by omega)
          split
          · rename_i ht; exact absurd ht h2.1
          · rename_i ht; exact absurd ht h2.2
          · exact ⟨(fun h => by cases h), (fun h => by cases h)⟩

/-- Parsing always finishes. -/
theorem parse_finishes (s : List Char) : parse s ≠ .fuel := (all_fuel _).2.2.1 true ⟨none, s⟩ (by simp)

/-- The amount of fuel does not matter. -/
theorem parse_eq (s : List Char) (n : Nat) (m : M) (j : Inp) (h : pChain n true ⟨none, s⟩ = .ok m j) : parse s = .ok m j := by
  have h1 := parse_finishes s
  have h2 : pChain n true ⟨none, s⟩ ≠ .fuel := by rw [h]; intro h; cases h
  unfold parse at h1 ⊢
  rw [← chain_mono (k := n) h1, Nat.add_comm, chain_mono h2, h]

end Slash.Pat
