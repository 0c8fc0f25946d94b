import Verif.Lemmas.Pattern
/-!
# Filter expressions: properties C24, C25
-/
namespace Slash.Pat

/-! ## What expressions mean, and how they are written -/

/-- Filter expressions: a word, `tag:` and a word, `not`, `and`, `or`. -/
inductive Expr
  | word (w : List Char)
  | tag (w : List Char)
  | not (e : Expr)
  | and (a b : Expr)
  | or (a b : Expr)

/-- A tag matches a word: the word is `name=value` and the tag has this value, or the word has no `=` and is (`exact`), or is
part of, the name of a tag. -/
def TagMatch (tags : Tags) (exact : Bool) (w : List Char) : Prop :=
  (∃ k v, w = k ++ '=' :: v ∧ '=' ∉ k ∧ (k, some v) ∈ tags) ∨
    ('=' ∉ w ∧ ∃ e ∈ tags, if exact then w = e.1 else w <:+: e.1)

/-- The boolean reading of an expression on a test. -/
def Expr.Holds (d : Meta) : Expr → Prop
  | .word w => w <:+: d.address ∨ TagMatch d.tags false w
  | .tag w => TagMatch d.tags true w
  | .not e => ¬ e.Holds d
  | .and a b => a.Holds d ∧ b.Holds d
  | .or a b => a.Holds d ∨ b.Holds d

/-- White space. -/
def Ws (l : List Char) : Prop := ∀ c ∈ l, isWs c = true

/-- A word which is neither read as `tag:` and a word nor as `not` and something else. -/
structure GoodWord (w : List Char) : Prop where
  ne : w ≠ []
  chars : ∀ c ∈ w, isWordChar c = true
  noTag : ¬ ['t', 'a', 'g', ':'] <+: w
  noNot : ∀ r, w = ['n', 'o', 't'] ++ r → ∃ c r', r = c :: r' ∧ (c.isAlphanum = true ∨ c = '_' ∨ c = '$')

/-- The texts of an expression: level 0 is a word, `tag:` and a word, or an expression in parentheses; level 1 adds `not`, level 2 `and`,
and level 3 `or`. There may be white space anywhere between the elements. -/
inductive Spell : Nat → Expr → List Char → Prop
  | word {w : List Char} : GoodWord w → Spell 0 (.word w) w
  | tag {w a : List Char} : Ws a → w ≠ [] → (∀ c ∈ w, isWordChar c = true) → Spell 0 (.tag w) (['t', 'a', 'g', ':'] ++ (a ++ w))
  | paren {e : Expr} {s a b : List Char} : Ws a → Ws b → Spell 3 e s → Spell 0 e ('(' :: (a ++ (s ++ (b ++ [')']))))
  | base {e : Expr} {s : List Char} : Spell 0 e s → Spell 1 e s
  | not {e : Expr} {s a : List Char} : Ws a → (a ≠ [] ∨ s.head? = some '(') → Spell 1 e s →
      Spell 1 (.not e) (['n', 'o', 't'] ++ (a ++ s))
  | up1 {e : Expr} {s : List Char} : Spell 1 e s → Spell 2 e s
  | and {e1 e2 : Expr} {s1 s2 a b : List Char} : Ws a → a ≠ [] → Ws b → b ≠ [] → Spell 2 e1 s1 → Spell 1 e2 s2 →
      Spell 2 (.and e1 e2) (s1 ++ (a ++ (['a', 'n', 'd'] ++ (b ++ s2))))
  | up2 {e : Expr} {s : List Char} : Spell 2 e s → Spell 3 e s
  | or {e1 e2 : Expr} {s1 s2 a b : List Char} : Ws a → a ≠ [] → Ws b → b ≠ [] → Spell 3 e1 s1 → Spell 2 e2 s2 →
      Spell 3 (.or e1 e2) (s1 ++ (a ++ (['o', 'r'] ++ (b ++ s2))))

/-! ## White space -/

theorem skipWs_idem (i : Inp) : skipWs (skipWs i) = skipWs i := by
  obtain ⟨p, t⟩ := i
  unfold skipWs
  simp only
  induction t generalizing p with
  | nil => rfl
  | cons c t ih =>
    simp only [skipWsL]
    split
    · exact ih _
    · rename_i h
      simp only [skipWsL]
      rw [if_neg h]

theorem pBase_skip (n : Nat) (i : Inp) : pBase n (skipWs i) = pBase n i := by
  cases n with
  | zero => rw [pBase, pBase]
  | succ n => rw [pBase, pBase]; simp only [pMatcher, pLit, pWord, skipWs_idem]

theorem pNot_skip (n : Nat) (i : Inp) : pNot n (skipWs i) = pNot n i := by
  cases n with
  | zero => rw [pNot, pNot]
  | succ n => rw [pNot, pNot]; simp only [pKwNot, skipWs_idem, pBase_skip]

theorem pChain_skip (n : Nat) (b : Bool) (i : Inp) : pChain n b (skipWs i) = pChain n b i := by
  induction n generalizing b with
  | zero => rw [pChain, pChain]
  | succ n ih =>
    rw [pChain.eq_def (n + 1) b i, pChain.eq_def (n + 1) b (skipWs i)]
    simp only [pNot_skip, ih]

theorem skipWsL_append (p : Option Char) (a s : List Char) (ha : Ws a) : skipWsL p (a ++ s) = skipWsL (if a = [] then p else a.getLast?) s := by
  induction a generalizing p with
  | nil => simp
  | cons c a ih =>
    simp only [List.cons_append, skipWsL]
    rw [if_pos (ha c (by simp)), ih _ (fun c hc => ha c (by simp [hc]))]
    cases a with
    | nil => simp
    | cons d a => simp

/-- The character before is not part of an identifier. -/
def PrevOk (p : Option Char) : Prop := p.any isIdent = false

theorem ws_not_ident (c : Char) (h : isWs c = true) : isIdent c = false := by
  simp only [isWs, Bool.or_eq_true, beq_iff_eq] at h
  rcases h with ((rfl | rfl) | rfl) | rfl <;> decide

theorem ws_not_word (c : Char) (h : isWs c = true) : isWordChar c = false := by
  simp only [isWs, Bool.or_eq_true, beq_iff_eq] at h
  rcases h with ((rfl | rfl) | rfl) | rfl <;> decide

theorem prevOk_ws (a : List Char) (ha : Ws a) (hne : a ≠ []) : PrevOk a.getLast? := by
  rw [List.getLast?_eq_some_getLast hne]
  exact ws_not_ident _ (ha _ (List.getLast_mem hne))

/-- What may follow an expression: nothing, white space, or a closing parenthesis. -/
def Cont (t : List Char) : Prop := t = [] ∨ ∃ c r, t = c :: r ∧ (isWs c = true ∨ c = ')')

theorem cont_ws (a t : List Char) (ha : Ws a) (hne : a ≠ []) : Cont (a ++ t) := by
  cases a with
  | nil => exact absurd rfl hne
  | cons c a => exact .inr ⟨c, a ++ t, rfl, .inl (ha c (by simp))⟩

theorem cont_not_word {c : Char} {r : List Char} (h : Cont (c :: r)) : isWordChar c = false := by
  rcases h with h | ⟨c', r', e, h⟩
  · cases h
  · simp only [List.cons.injEq] at e
    obtain ⟨rfl, rfl⟩ := e
    rcases h with h | rfl
    · exact ws_not_word _ h
    · decide

/-- The text starts with something other than white space. -/
def Start (s : List Char) : Prop := ∃ c r, s = c :: r ∧ isWs c = false

theorem start_append {s : List Char} (t : List Char) (h : Start s) : Start (s ++ t) := by
  obtain ⟨c, r, rfl, h⟩ := h
  exact ⟨c, r ++ t, rfl, h⟩

theorem start_ne {s : List Char} (h : Start s) : s ≠ [] := by
  obtain ⟨c, r, rfl, h⟩ := h
  simp

theorem word_not_ws (c : Char) (h : isWordChar c = true) : isWs c = false := by
  cases hw : isWs c with
  | false => rfl
  | true => rw [ws_not_word c hw] at h; cases h

theorem spell_start {l : Nat} {e : Expr} {s : List Char} (h : Spell l e s) : Start s := by
  induction h with
  | @word w hw =>
    cases w with
    | nil => exact absurd rfl hw.ne
    | cons c r => exact ⟨c, r, rfl, word_not_ws c (hw.chars c (by simp))⟩
  | tag => exact ⟨'t', _, rfl, by decide⟩
  | paren => exact ⟨'(', _, rfl, by decide⟩
  | base _ ih => exact ih
  | not => exact ⟨'n', _, rfl, by decide⟩
  | up1 _ ih => exact ih
  | and _ _ _ _ _ _ ih _ => exact start_append _ ih
  | up2 _ ih => exact ih
  | or _ _ _ _ _ _ ih _ => exact start_append _ ih

theorem skipWs_start (p : Option Char) (s : List Char) (h : Start s) : skipWs ⟨p, s⟩ = ⟨p, s⟩ := by
  obtain ⟨c, r, rfl, h⟩ := h
  simp [skipWs, skipWsL, h]

theorem skipWs_ws (p : Option Char) (a s : List Char) (ha : Ws a) (h : Start s) :
    skipWs ⟨p, a ++ s⟩ = ⟨if a = [] then p else a.getLast?, s⟩ := by
  have := skipWs_start (if a = [] then p else a.getLast?) s h
  unfold skipWs at this ⊢
  simp only at this ⊢
  rw [skipWsL_append _ _ _ ha, this]

theorem strip_append (l : List Char) (hl : l ≠ []) (p : Option Char) (t : List Char) : strip l p (l ++ t) = some ⟨l.getLast?, t⟩ := by
  induction l generalizing p with
  | nil => exact absurd rfl hl
  | cons c l ih =>
    simp only [List.cons_append, strip, if_true]
    cases l with
    | nil => simp [strip]
    | cons d l => rw [ih (by simp)]; simp

theorem strip_some (l : List Char) (p : Option Char) (t : List Char) (j : Inp) (h : strip l p t = some j) : t = l ++ j.rest := by
  induction l generalizing p t with
  | nil => simp only [strip, Option.some.injEq] at h; subst h; rfl
  | cons c l ih =>
    cases t with
    | nil => simp [strip] at h
    | cons d t =>
      simp only [strip] at h
      split at h
      · rename_i e
        subst e
        rw [List.cons_append, ← ih _ _ h]
      · cases h

theorem pLit_ws (l : List Char) (hl : Start l) (p : Option Char) (a t : List Char) (ha : Ws a) : pLit l ⟨p, a ++ (l ++ t)⟩ = some ⟨l.getLast?, t⟩ := by
  unfold pLit
  rw [skipWs_ws _ _ _ ha (start_append _ hl)]
  exact strip_append _ (start_ne hl) _ _

theorem prefix_of_prefix_append (l w t : List Char) (hl : ∀ c ∈ l, isWordChar c = true) (ht : Cont t) (h : l <+: w ++ t) : l <+: w := by
  induction l generalizing w with
  | nil => exact List.nil_prefix
  | cons c l ih =>
    cases w with
    | nil =>
      obtain ⟨r, hr⟩ := h
      cases t with
      | nil => simp at hr
      | cons d t =>
        simp only [List.cons_append, List.nil_append, List.cons.injEq] at hr
        have := cont_not_word ht
        rw [← hr.1, hl c (by simp)] at this
        cases this
    | cons d w =>
      obtain ⟨r, hr⟩ := h
      simp only [List.cons_append, List.cons.injEq] at hr
      obtain ⟨rfl, hr⟩ := hr
      obtain ⟨q, hq⟩ := ih w (fun c hc => hl c (by simp [hc])) ⟨r, hr⟩
      exact ⟨q, by rw [List.cons_append, hq]⟩

theorem takeWhile_word (w t : List Char) (hw : ∀ c ∈ w, isWordChar c = true) (ht : Cont t) :
    (w ++ t).takeWhile isWordChar = w ∧ (w ++ t).dropWhile isWordChar = t := by
  induction w with
  | nil =>
    cases t with
    | nil => simp
    | cons d t => simp [cont_not_word ht]
  | cons c w ih =>
    have := ih (fun c hc => hw c (by simp [hc]))
    simp only [List.cons_append, List.takeWhile_cons, List.dropWhile_cons, hw c (by simp), if_true]
    exact ⟨by rw [this.1], this.2⟩

theorem pWord_word (p : Option Char) (a w t : List Char) (ha : Ws a) (hne : w ≠ []) (hw : ∀ c ∈ w, isWordChar c = true) (ht : Cont t) :
    pWord ⟨p, a ++ (w ++ t)⟩ = some (w, ⟨w.getLast?, t⟩) := by
  have hs : Start (w ++ t) := by
    cases w with
    | nil => exact absurd rfl hne
    | cons c r => exact ⟨c, r ++ t, rfl, word_not_ws c (hw c (by simp))⟩
  unfold pWord
  rw [skipWs_ws _ _ _ ha hs]
  simp only [(takeWhile_word w t hw ht).1, (takeWhile_word w t hw ht).2]
  rw [if_neg hne]

theorem base_word (p : Option Char) (w t : List Char) (hw : GoodWord w) (ht : Cont t) :
    pBase 1 ⟨p, w ++ t⟩ = .ok (.inc false w) ⟨w.getLast?, t⟩ := by
  have hs : Start w := spell_start (.word hw)
  have h1 : pLit ['t', 'a', 'g', ':'] ⟨p, w ++ t⟩ = none := by
    cases h : pLit ['t', 'a', 'g', ':'] ⟨p, w ++ t⟩ with
    | none => rfl
    | some j =>
      unfold pLit at h
      rw [skipWs_start _ _ (start_append _ hs)] at h
      exact absurd (prefix_of_prefix_append _ w t (by decide) ht ⟨_, (strip_some _ _ _ _ h).symm⟩) hw.noTag
  have h2 := pWord_word p [] w t (by intro c hc; cases hc) hw.ne hw.chars ht
  rw [pBase]
  simp only [pMatcher, h1, Option.bind_none]
  rw [List.nil_append] at h2
  rw [h2]
  rfl

theorem base_tag (p : Option Char) (a w t : List Char) (ha : Ws a) (hne : w ≠ []) (hw : ∀ c ∈ w, isWordChar c = true) (ht : Cont t) :
    pBase 1 ⟨p, ['t', 'a', 'g', ':'] ++ (a ++ w) ++ t⟩ = .ok (.inc true w) ⟨w.getLast?, t⟩ := by
  have h1 := pLit_ws ['t', 'a', 'g', ':'] ⟨'t', _, rfl, by decide⟩ p [] (a ++ (w ++ t)) (by intro c hc; cases hc)
  have h2 := pWord_word (some ':') a w t ha hne hw ht
  rw [List.nil_append] at h1
  rw [pBase]
  simp only [pMatcher, List.append_assoc]
  rw [h1]
  simp only [Option.bind_some]
  have e : (['t', 'a', 'g', ':'] : List Char).getLast? = some ':' := rfl
  rw [e, h2]

theorem not_base (p : Option Char) (e : Expr) (s t : List Char) (h : Spell 0 e s) (ht : Cont t) : pKwNot ⟨p, s ++ t⟩ = none := by
  have hs := skipWs_start p (s ++ t) (start_append _ (spell_start h))
  unfold pKwNot
  simp only [hs]
  cases hk : strip ['n', 'o', 't'] p (s ++ t) with
  | none => rfl
  | some k =>
    have h1 := strip_some _ _ _ _ hk
    cases h with
    | word hw =>
      obtain ⟨r, hr⟩ := prefix_of_prefix_append _ s t (by decide) ht ⟨_, h1.symm⟩
      obtain ⟨c, r', rfl, hc'⟩ := hw.noNot r hr.symm
      have hc : isIdent c = true := by
        rcases hc' with h | h | h <;> simp [isIdent, h]
      rw [← hr, List.append_assoc, List.append_cancel_left_eq] at h1
      simp only [← h1, List.cons_append, List.head?_cons, Option.any_some, hc, if_true]
    | tag => simp at h1
    | paren => simp at h1

/-! ## Parsing what was written -/

/-- After white space an operator of the other kind, or a closing parenthesis, or nothing. -/
def Stop (b : Bool) (t : List Char) : Prop := ∀ p, pLit (opText b) ⟨p, t⟩ = none

theorem tail_stop (b : Bool) (p : Option Char) (t : List Char) (h : Stop b t) : pTail 1 b ⟨p, t⟩ = .ok [] ⟨p, t⟩ := by
  rw [pTail, h p]

theorem chain_of (b : Bool) (n1 n2 : Nat) (i j k : Inp) (m : M) (ms : List M)
    (h1 : (if b then pChain n1 false i else pNot n1 i) = .ok m j) (h2 : pTail n2 b j = .ok ms k) (hk : ms = [] → k = j) :
    ∃ n, pChain n b i = .ok (if ms = [] then m else mkOp b (m :: ms)) k := by
  refine ⟨n1 + n2 + 1, ?_⟩
  rw [pChain]
  have e1 : (if b then pChain (n1 + n2) false i else pNot (n1 + n2) i) = .ok m j := by
    cases b
    · simp only [Bool.false_eq_true, if_false] at h1 ⊢
      rw [not_mono (by rw [h1]; intro h; cases h), h1]
    · simp only [if_true] at h1 ⊢
      rw [chain_mono (by rw [h1]; intro h; cases h), h1]
  have e2 : pTail (n1 + n2) b j = .ok ms k := by
    rw [Nat.add_comm, tail_mono (by rw [h2]; intro h; cases h), h2]
  simp only [e1, e2]
  cases ms with
  | nil => rw [hk rfl]; rfl
  | cons m' ms => rfl

theorem tail_of (b : Bool) (n1 n2 : Nat) (i j k l : Inp) (m : M) (ms : List M) (h0 : pLit (opText b) i = some j)
    (h1 : (if b then pChain n1 false j else pNot n1 j) = .ok m k) (h2 : pTail n2 b k = .ok ms l) :
    ∃ n, pTail n b i = .ok (m :: ms) l := by
  refine ⟨n1 + n2 + 1, ?_⟩
  rw [pTail]
  have e1 : (if b then pChain (n1 + n2) false j else pNot (n1 + n2) j) = .ok m k := by
    cases b
    · simp only [Bool.false_eq_true, if_false] at h1 ⊢
      rw [not_mono (by rw [h1]; intro h; cases h), h1]
    · simp only [if_true] at h1 ⊢
      rw [chain_mono (by rw [h1]; intro h; cases h), h1]
  have e2 : pTail (n1 + n2) b k = .ok ms l := by
    rw [Nat.add_comm, tail_mono (by rw [h2]; intro h; cases h), h2]
  simp only [h0, e1, e2]

theorem tail_k (n : Nat) (b : Bool) (i k : Inp) (ms : List M) (h : pTail n b i = .ok ms k) : ms = [] → k = i := by
  cases n with
  | zero => rw [pTail] at h; cases h
  | succ n =>
    rw [pTail] at h
    split at h
    · cases h; intro _; rfl
    · split at h
      · cases h
      · cases h; intro _; rfl
      · split at h
        · cases h
        · cases h
        · cases h; intro h; cases h

theorem getLast_app (s t : List Char) (h : t ≠ []) : (s ++ t).getLast? = t.getLast? := by
  rw [List.getLast?_append, List.getLast?_eq_some_getLast h]; rfl

/-- What parsing a text of some level comes to. -/
def Parses : Nat → (List M → Prop) → List Char → Prop
  | 0, P, s => ∃ m, P [m] ∧ ∀ p t, Cont t → ∃ n, pBase n ⟨p, s ++ t⟩ = .ok m ⟨s.getLast?, t⟩
  | 1, P, s => ∃ m, P [m] ∧ ∀ p t, PrevOk p → Cont t → ∃ n, pNot n ⟨p, s ++ t⟩ = .ok m ⟨s.getLast?, t⟩
  | 2, P, s => ∃ m ms, P (m :: ms) ∧ ∀ p t, PrevOk p → Cont t → ∃ j n, pNot n ⟨p, s ++ t⟩ = .ok m j ∧
      ∀ ts k n, pTail n false ⟨s.getLast?, t⟩ = .ok ts k → ∃ n, pTail n false j = .ok (ms ++ ts) k
  | _, P, s => ∃ m ms, P (m :: ms) ∧ ∀ p t, PrevOk p → Cont t → Stop false t → ∃ j n, pChain n false ⟨p, s ++ t⟩ = .ok m j ∧
      ∀ ts k n, pTail n true ⟨s.getLast?, t⟩ = .ok ts k → ∃ n, pTail n true j = .ok (ms ++ ts) k

/-- The meaning of the operands of a level. -/
def Means (l : Nat) (e : Expr) (ms : List M) : Prop :=
  ∀ d : Meta, (d.tags.map (·.1)).Nodup → ((if l = 3 then M.anyMatch d ms else M.allMatch d ms) = true ↔ e.Holds d)

theorem isIn_iff (w t : List Char) : isIn w t = true ↔ w <:+: t := by
  induction t with
  | nil =>
    cases w with
    | nil => simp [isIn, List.isPrefixOf]
    | cons c w => simp [isIn, List.isPrefixOf]
  | cons c t ih => rw [isIn, Bool.or_eq_true, ih, List.infix_cons_iff, List.isPrefixOf_iff_prefix]

theorem splitEq_none (w : List Char) : splitEq w = none ↔ '=' ∉ w := by
  induction w with
  | nil => simp [splitEq]
  | cons c w ih =>
    simp only [splitEq]
    split
    · rename_i h; subst h; simp
    · rename_i h
      simp only [Option.map_eq_none_iff, ih, List.mem_cons, not_or]
      exact ⟨fun hw => ⟨fun e => h e.symm, hw⟩, fun hw => hw.2⟩

theorem splitEq_some (w k v : List Char) : splitEq w = some (k, v) ↔ w = k ++ '=' :: v ∧ '=' ∉ k := by
  induction w generalizing k with
  | nil => simp [splitEq]
  | cons c w ih =>
    simp only [splitEq]
    split
    · rename_i h
      subst h
      simp only [Option.some.injEq, Prod.mk.injEq]
      constructor
      · rintro ⟨rfl, rfl⟩; simp
      · rintro ⟨e, hk⟩
        cases k with
        | nil => simpa using e
        | cons d k =>
          simp only [List.cons_append, List.cons.injEq] at e
          exact absurd (List.mem_cons.2 (.inl e.1)) hk
    · rename_i h
      simp only [Option.map_eq_some_iff, Prod.mk.injEq]
      constructor
      · rintro ⟨⟨k', v'⟩, h1, rfl, rfl⟩
        obtain ⟨h2, h3⟩ := (ih k').1 h1
        exact ⟨by simp [h2], fun hm => (List.mem_cons.1 hm).elim (fun e => h e.symm) h3⟩
      · rintro ⟨e, hk⟩
        cases k with
        | nil => simp only [List.nil_append, List.cons.injEq] at e; exact absurd e.1 h
        | cons d k =>
          simp only [List.cons_append, List.cons.injEq] at e
          obtain ⟨rfl, e⟩ := e
          exact ⟨(k, v), (ih k).2 ⟨e, fun hm => hk (by simp [hm])⟩, rfl, rfl⟩

theorem getTag_some (tags : Tags) (h : (tags.map (·.1)).Nodup) (k v : List Char) : getTag tags k = some v ↔ (k, some v) ∈ tags := by
  unfold getTag
  induction tags with
  | nil => simp
  | cons e tags ih =>
    obtain ⟨k', v'⟩ := e
    simp only [List.map_cons, List.nodup_cons] at h
    simp only [List.find?_cons]
    split
    · rename_i he
      simp only [beq_iff_eq] at he
      subst he
      simp only [Option.bind_some, List.mem_cons, Prod.mk.injEq, true_and]
      constructor
      · intro e; exact .inl e.symm
      · rintro (e | hm)
        · exact e.symm
        · exact absurd (List.mem_map.2 ⟨_, hm, rfl⟩) h.1
    · rename_i he
      rw [ih h.2]
      simp only [List.mem_cons, Prod.mk.injEq]
      constructor
      · intro hm; exact .inr hm
      · rintro (⟨rfl, -⟩ | hm)
        · simp at he
        · exact hm

theorem tagsMatch_iff (tags : Tags) (h : (tags.map (·.1)).Nodup) (w : List Char) (exact : Bool) :
    tagsMatch tags w exact = true ↔ TagMatch tags exact w := by
  unfold tagsMatch TagMatch
  cases hs : splitEq w with
  | some r =>
    obtain ⟨k, v⟩ := r
    obtain ⟨h1, h2⟩ := (splitEq_some _ _ _).1 hs
    simp only [beq_iff_eq, getTag_some tags h]
    constructor
    · intro hm; exact .inl ⟨k, v, h1, h2, hm⟩
    · rintro (⟨k', v', h3, h4, hm⟩ | ⟨hn, -⟩)
      · have := (splitEq_some _ _ _).2 ⟨h3, h4⟩
        rw [hs] at this
        simp only [Option.some.injEq, Prod.mk.injEq] at this
        rw [this.1, this.2]; exact hm
      · rw [(splitEq_none w).2 hn] at hs; cases hs
  | none =>
    have hn := (splitEq_none w).1 hs
    simp only [List.any_eq_true]
    constructor
    · rintro ⟨e, he, hm⟩
      refine .inr ⟨hn, e, he, ?_⟩
      cases exact
      · simpa [isIn_iff] using hm
      · simpa using hm
    · rintro (⟨k', v', h3, h4, hm⟩ | ⟨-, e, he, hm⟩)
      · rw [(splitEq_some _ _ _).2 ⟨h3, h4⟩] at hs; cases hs
      · refine ⟨e, he, ?_⟩
        cases exact
        · simpa [isIn_iff] using hm
        · simpa using hm

theorem allMatch_append (d : Meta) (xs ys : List M) : M.allMatch d (xs ++ ys) = (M.allMatch d xs && M.allMatch d ys) := by
  induction xs with
  | nil => simp [M.allMatch]
  | cons x xs ih => simp [M.allMatch, ih, Bool.and_assoc]

theorem anyMatch_append (d : Meta) (xs ys : List M) : M.anyMatch d (xs ++ ys) = (M.anyMatch d xs || M.anyMatch d ys) := by
  induction xs with
  | nil => simp [M.anyMatch]
  | cons x xs ih => simp [M.anyMatch, ih, Bool.or_assoc]

theorem chain_means (b : Bool) (d : Meta) (m : M) (ms : List M) :
    (if ms = [] then m else mkOp b (m :: ms)).matches d = (if b then M.anyMatch d (m :: ms) else M.allMatch d (m :: ms)) := by
  cases b <;> cases ms <;> simp [mkOp, M.matches, M.allMatch, M.anyMatch]

theorem stop_paren (b : Bool) (a t : List Char) (ha : Ws a) : Stop b (a ++ ')' :: t) := by
  intro p
  have hs : Start (')' :: t) := ⟨_, _, rfl, by decide⟩
  unfold pLit
  rw [skipWs_ws _ _ _ ha hs]
  cases b <;> simp [opText, strip]

theorem stop_nil (b : Bool) : Stop b [] := by
  intro p
  cases b <;> simp [pLit, skipWs, skipWsL, opText, strip]

theorem stop_or (a t : List Char) (ha : Ws a) : Stop false (a ++ (['o', 'r'] ++ t)) := by
  intro p
  have hs : Start (['o', 'r'] ++ t) := ⟨_, _, rfl, by decide⟩
  unfold pLit
  rw [skipWs_ws _ _ _ ha hs]
  simp [opText, strip]

theorem spell_parses {l : Nat} {e : Expr} {s : List Char} (h : Spell l e s) : Parses l (Means l e) s := by
  induction h with
  | @word w hw =>
    refine ⟨.inc false w, ?_, fun p t ht => ⟨1, base_word p w t hw ht⟩⟩
    intro d hd
    simp only [M.allMatch, M.matches, incMatches, Expr.Holds, ← tagsMatch_iff d.tags hd, ← isIn_iff]
    cases tagsMatch d.tags w false <;> simp
  | @tag w a ha hne hw =>
    refine ⟨.inc true w, ?_, fun p t ht => ⟨1, ?_⟩⟩
    · intro d hd
      simp only [M.allMatch, M.matches, incMatches, Expr.Holds, ← tagsMatch_iff d.tags hd]
      cases tagsMatch d.tags w true <;> simp
    · have := base_tag p a w t ha hne hw ht
      rw [this, getLast_app _ _ (by simp [hne]), getLast_app _ _ hne]
  | @paren e s a b ha hb hsp ih =>
    obtain ⟨m, ms, hm, hp⟩ := ih
    refine ⟨if ms = [] then m else mkOp true (m :: ms), ?_, fun p t ht => ?_⟩
    · intro d hd
      have := hm d hd
      simp only [if_true] at this
      simp only [M.allMatch, chain_means, Bool.and_true, if_true, show (0 : Nat) ≠ 3 from by decide, if_false]
      exact this
    · have hst := stop_paren true b t hb
      have hsf := stop_paren false b t hb
      have hcont : Cont (b ++ ')' :: t) := by
        cases b with
        | nil => exact .inr ⟨_, _, rfl, .inr rfl⟩
        | cons c b => exact cont_ws _ _ hb (by simp)
      have hpo : PrevOk (if a = [] then some '(' else a.getLast?) := by
        split
        · exact (by decide : isIdent '(' = false)
        · rename_i hne; exact prevOk_ws a ha hne
      obtain ⟨j, n, h1, h2⟩ := hp _ _ hpo hcont hsf
      obtain ⟨n2, h3⟩ := h2 _ _ 1 (tail_stop true _ _ hst)
      rw [List.append_nil] at h3
      obtain ⟨n3, h4⟩ := chain_of true n n2 _ _ _ m ms (by simpa using h1) h3 (tail_k _ _ _ _ _ h3)
      rw [← skipWs_ws (some '(') a (s ++ (b ++ ')' :: t)) ha (start_append _ (spell_start hsp)), pChain_skip] at h4
      refine ⟨n3 + 1, ?_⟩
      have hm0 : ∀ r, pMatcher ⟨p, '(' :: r⟩ = none := by
        intro r
        have hsk := skipWs_start p ('(' :: r) ⟨_, _, rfl, by decide⟩
        simp only [pMatcher, pLit, pWord, hsk, strip]
        rfl
      have hl : ∀ r, pLit ['('] ⟨p, '(' :: r⟩ = some ⟨some '(', r⟩ := by
        intro r
        have hsk := skipWs_start p ('(' :: r) ⟨_, _, rfl, by decide⟩
        simp only [pLit, hsk, strip, if_true]
      have hr := pLit_ws [')'] ⟨_, _, rfl, by decide⟩ s.getLast? b t hb
      have hr' : pLit [')'] ⟨s.getLast?, b ++ ')' :: t⟩ = some ⟨some ')', t⟩ := hr
      rw [pBase]
      simp only [List.cons_append, List.append_assoc, hm0, hl, List.nil_append, h4, hr']
      congr 2
      have : '(' :: (a ++ (s ++ (b ++ [')']))) = ('(' :: (a ++ (s ++ b))) ++ [')'] := by simp
      rw [this, getLast_app _ _ (by simp)]
      rfl
  | @base e s hsp ih =>
    obtain ⟨m, hm, hp⟩ := ih
    refine ⟨m, hm, fun p t _ ht => ?_⟩
    obtain ⟨n, h1⟩ := hp p t ht
    exact ⟨n + 1, by rw [pNot, not_base p e s t hsp ht]; exact h1⟩
  | @not e s a ha hsep hsp ih =>
    obtain ⟨m, hm, hp⟩ := ih
    refine ⟨.exc m, ?_, fun p t hpo ht => ?_⟩
    · intro d hd
      have := hm d hd
      simp only [M.allMatch, Bool.and_true, show (1 : Nat) ≠ 3 from by decide, if_false] at this
      simp only [M.allMatch, M.matches, Bool.and_true, show (1 : Nat) ≠ 3 from by decide, if_false, Expr.Holds, ← this, Bool.not_eq_true,
        Bool.not_eq_true']
    · have hss := start_append t (spell_start hsp)
      have hk : pKwNot ⟨p, ['n', 'o', 't'] ++ (a ++ (s ++ t))⟩ = some ⟨some 't', a ++ (s ++ t)⟩ := by
        unfold pKwNot
        rw [skipWs_start p (['n', 'o', 't'] ++ (a ++ (s ++ t))) ⟨'n', _, rfl, by decide⟩]
        simp only
        rw [strip_append _ (by simp)]
        simp only
        rw [if_neg, if_neg]
        · rfl
        · rw [hpo]; simp
        · cases a with
          | nil =>
            rcases hsep with h | h
            · exact absurd rfl h
            · cases s with
              | nil => simp at h
              | cons c s => simp only [List.head?_cons, Option.some.injEq] at h; subst h; exact (by decide : ¬ (isIdent '(' = true))
          | cons c a => simp [ws_not_ident c (ha c (by simp))]
      by_cases hne : a = []
      · subst hne
        rcases hsep with h | h
        · exact absurd rfl h
        · -- nothing between `not` and the parenthesis
          have h0 : Spell 0 e s := by
            cases hsp with
            | base h0 => exact h0
            | not => simp at h
          obtain ⟨m', hm', hp'⟩ := (show ∃ m', m' = m ∧ ∃ n, pNot n ⟨some 't', s ++ t⟩ = .ok m ⟨s.getLast?, t⟩ from by
            obtain ⟨n, h1⟩ := hp none t (by unfold PrevOk; rfl) ht
            refine ⟨m, rfl, n, ?_⟩
            cases n with
            | zero => rw [pNot] at h1; cases h1
            | succ n =>
              rw [pNot, not_base _ e s t h0 ht] at h1 ⊢
              simp only at h1 ⊢
              cases n with
              | zero => rw [pBase] at h1; cases h1
              | succ n =>
                rw [pBase] at h1 ⊢
                cases s with
                | nil => simp at h
                | cons c s =>
                  simp only [List.head?_cons, Option.some.injEq] at h
                  subst h
                  have hsk : ∀ p, skipWs ⟨p, '(' :: s ++ t⟩ = ⟨p, '(' :: s ++ t⟩ := fun p => skipWs_start p _ ⟨_, _, rfl, by decide⟩
                  simp only [pMatcher, pLit, pWord, hsk] at h1 ⊢
                  simpa [strip] using h1)
          subst hm'
          obtain ⟨n, h1⟩ := hp'
          refine ⟨n + 1, ?_⟩
          rw [pNot]
          simp only [List.nil_append] at hk
          simp only [List.append_assoc, List.nil_append, hk, h1]
          rw [getLast_app _ _ (start_ne (spell_start hsp))]
      · obtain ⟨n, h1⟩ := hp _ t (prevOk_ws a ha hne) ht
        have h2 := skipWs_ws (some 't') a (s ++ t) ha hss
        rw [if_neg hne] at h2
        rw [← h2, pNot_skip] at h1
        refine ⟨n + 1, ?_⟩
        rw [pNot]
        simp only [List.append_assoc, hk, h1]
        rw [getLast_app _ _ (by simp [start_ne (spell_start hsp)]), getLast_app _ _ (start_ne (spell_start hsp))]
  | @up1 e s hsp ih =>
    obtain ⟨m, hm, hp⟩ := ih
    refine ⟨m, [], hm, fun p t hpo ht => ?_⟩
    obtain ⟨n, h1⟩ := hp p t hpo ht
    exact ⟨_, n, h1, fun ts k n hts => ⟨n, hts⟩⟩
  | @and e1 e2 s1 s2 a b ha hane hb hbne hsp1 hsp2 ih1 ih2 =>
    obtain ⟨m, ms, hm, hp⟩ := ih1
    obtain ⟨m2, hm2, hp2⟩ := ih2
    refine ⟨m, ms ++ [m2], ?_, fun p t hpo ht => ?_⟩
    · intro d hd
      have e1 := hm d hd
      have e2 := hm2 d hd
      simp only [show (2 : Nat) ≠ 3 from by decide, show (1 : Nat) ≠ 3 from by decide, if_false] at e1 e2 ⊢
      rw [← List.cons_append, allMatch_append, Bool.and_eq_true, e1, e2]
      rfl
    · obtain ⟨j, n, h1, h2⟩ := hp p (a ++ (['a', 'n', 'd'] ++ (b ++ (s2 ++ t)))) hpo (cont_ws _ _ ha hane)
      refine ⟨j, n, by simpa [List.append_assoc] using h1, fun ts k n' hts => ?_⟩
      obtain ⟨n2, h3⟩ := hp2 _ t (prevOk_ws b hb hbne) ht
      have hsk := skipWs_ws (some 'd') b (s2 ++ t) hb (start_append _ (spell_start hsp2))
      rw [if_neg hbne] at hsk
      rw [← hsk, pNot_skip] at h3
      have hl := pLit_ws (opText false) ⟨'a', _, rfl, by decide⟩ s1.getLast? a (b ++ (s2 ++ t)) ha
      have hlast : (s1 ++ (a ++ (['a', 'n', 'd'] ++ (b ++ s2)))).getLast? = s2.getLast? := by
        have := start_ne (spell_start hsp2)
        rw [getLast_app _ _ (by simp), getLast_app _ _ (by simp), getLast_app _ _ (by simp [this]), getLast_app _ _ this]
      rw [hlast] at hts
      obtain ⟨n3, h4⟩ := tail_of false n2 n' _ _ _ _ m2 ts hl h3 hts
      obtain ⟨n4, h5⟩ := h2 _ _ _ h4
      exact ⟨n4, by rw [h5]; simp⟩
  | @up2 e s hsp ih =>
    obtain ⟨m, ms, hm, hp⟩ := ih
    refine ⟨if ms = [] then m else mkOp false (m :: ms), [], ?_, fun p t hpo ht hst => ?_⟩
    · intro d hd
      have := hm d hd
      simp only [show (2 : Nat) ≠ 3 from by decide, if_false] at this
      simp only [if_true, M.anyMatch, chain_means, Bool.false_eq_true, if_false, Bool.or_false]
      exact this
    · obtain ⟨j, n, h1, h2⟩ := hp p t hpo ht
      obtain ⟨n2, h3⟩ := h2 _ _ 1 (tail_stop false _ _ hst)
      rw [List.append_nil] at h3
      obtain ⟨n3, h4⟩ := chain_of false n n2 _ _ _ m ms (by simpa using h1) h3 (tail_k _ _ _ _ _ h3)
      exact ⟨_, n3, h4, fun ts k n hts => ⟨n, hts⟩⟩
  | @or e1 e2 s1 s2 a b ha hane hb hbne hsp1 hsp2 ih1 ih2 =>
    obtain ⟨m, ms, hm, hp⟩ := ih1
    obtain ⟨m2, ms2, hm2, hp2⟩ := ih2
    refine ⟨m, ms ++ [if ms2 = [] then m2 else mkOp false (m2 :: ms2)], ?_, fun p t hpo ht hst => ?_⟩
    · intro d hd
      have e1 := hm d hd
      have e2 := hm2 d hd
      simp only [show (2 : Nat) ≠ 3 from by decide, if_true, if_false] at e1 e2 ⊢
      rw [← List.cons_append, anyMatch_append, Bool.or_eq_true, e1]
      simp only [M.anyMatch, chain_means, Bool.false_eq_true, if_false, Bool.or_false, e2]
      rfl
    · obtain ⟨j, n, h1, h2⟩ := hp p (a ++ (['o', 'r'] ++ (b ++ (s2 ++ t)))) hpo (cont_ws _ _ ha hane) (stop_or _ _ ha)
      refine ⟨j, n, by simpa [List.append_assoc] using h1, fun ts k n' hts => ?_⟩
      obtain ⟨j2, n2, h3, h3'⟩ := hp2 _ t (prevOk_ws b hb hbne) ht
      obtain ⟨n5, h6⟩ := h3' _ _ 1 (tail_stop false _ _ hst)
      rw [List.append_nil] at h6
      obtain ⟨n6, h7⟩ := chain_of false n2 n5 _ _ _ m2 ms2 (by simpa using h3) h6 (tail_k _ _ _ _ _ h6)
      have hsk := skipWs_ws (some 'r') b (s2 ++ t) hb (start_append _ (spell_start hsp2))
      rw [if_neg hbne] at hsk
      rw [← hsk, pChain_skip] at h7
      have hl := pLit_ws (opText true) ⟨'o', _, rfl, by decide⟩ s1.getLast? a (b ++ (s2 ++ t)) ha
      have hlast : (s1 ++ (a ++ (['o', 'r'] ++ (b ++ s2)))).getLast? = s2.getLast? := by
        have := start_ne (spell_start hsp2)
        rw [getLast_app _ _ (by simp), getLast_app _ _ (by simp), getLast_app _ _ (by simp [this]), getLast_app _ _ this]
      rw [hlast] at hts
      obtain ⟨n3, h4⟩ := tail_of true n6 n' _ _ _ _ _ ts hl h7 hts
      obtain ⟨n4, h5⟩ := h2 _ _ _ h4
      exact ⟨n4, by rw [h5]; simp⟩

/-! ## C24 -/

/-- C24, the part that holds (the words in the expression are neither read as `tag:` and a word nor as `not` and something else): every
text of an expression, of whatever depth, is accepted up to its end, and selects exactly the tests for which the boolean reading
holds. -/
theorem C24_boolean_reading_partial (e : Expr) (s a b : List Char) (h : Spell 3 e s) (ha : Ws a) (hb : Ws b) :
    ∃ m, matcher (a ++ (s ++ b)) = some m ∧ ∀ d : Meta, (d.tags.map (·.1)).Nodup → (m.matches d = true ↔ e.Holds d) := by
  obtain ⟨m, ms, hm, hp⟩ := spell_parses h
  have hst : ∀ o, Stop o b := by
    intro o p
    have : skipWs ⟨p, b⟩ = ⟨if b = [] then p else b.getLast?, []⟩ := by
      have := skipWsL_append p b [] hb
      rw [List.append_nil] at this
      unfold skipWs
      rw [this]; rfl
    unfold pLit
    rw [this]
    cases o <;> simp [opText, strip]
  have hcont : Cont b := by
    cases b with
    | nil => exact .inl rfl
    | cons c b => exact .inr ⟨c, b, rfl, .inl (hb c (by simp))⟩
  have hpo : PrevOk (if a = [] then none else a.getLast?) := by
    split
    · rfl
    · rename_i hne; exact prevOk_ws a ha hne
  obtain ⟨j, n, h1, h2⟩ := hp _ b hpo hcont (hst false)
  obtain ⟨n2, h3⟩ := h2 _ _ 1 (tail_stop true _ _ (hst true))
  rw [List.append_nil] at h3
  obtain ⟨n3, h4⟩ := chain_of true n n2 _ _ _ m ms (by simpa using h1) h3 (tail_k _ _ _ _ _ h3)
  rw [← skipWs_ws none a (s ++ b) ha (start_append _ (spell_start h)), pChain_skip] at h4
  refine ⟨_, by unfold matcher; rw [parse_eq _ _ _ _ h4], ?_⟩
  intro d hd
  have := hm d hd
  rw [chain_means]
  exact this

/-- the text of a nested expression, and what it selects -/
example : Spell 3 (.or (.and (.word "a".toList) (.not (.or (.tag "b".toList) (.word "nothing".toList)))) (.word "or.py".toList))
    "a and not(tag: b or nothing)  or or.py".toList := by
  have w1 : GoodWord "a".toList := ⟨by decide, by decide, by decide, fun r h => by simp at h⟩
  have w2 : GoodWord "nothing".toList := ⟨by decide, by decide, by decide, fun r h => ⟨'h', "ing".toList, by simpa using h.symm, by decide⟩⟩
  have w3 : GoodWord "or.py".toList := ⟨by decide, by decide, by decide, fun r h => by simp at h⟩
  have ws1 : Ws [' '] := by unfold Ws; decide
  have ws2 : Ws [' ', ' '] := by unfold Ws; decide
  have ws0 : Ws [] := by unfold Ws; decide
  have h1 := Spell.or ws1 (by decide) ws1 (by decide) (.up2 (.up1 (.base (.tag (w := ['b']) ws1 (by decide) (by decide)))))
    (.up1 (.base (.word w2)))
  have h2 := Spell.and ws1 (by decide) ws1 (by decide) (.up1 (.base (.word w1))) (.not ws0 (.inr rfl) (.base (.paren ws0 ws0 h1)))
  exact Spell.or ws2 (by decide) ws1 (by decide) (.up2 h2) (.up1 (.base (.word w3)))

/-- `a and not(tag: b or nothing)  or or.py` on three tests -/
example : (matcher "a and not(tag: b or nothing)  or or.py".toList).map (fun m =>
    [m.matches ⟨"x/a.py".toList, [("b".toList, none)]⟩, m.matches ⟨"x/a.py".toList, [("bb".toList, none)]⟩, m.matches ⟨"or.py".toList, []⟩]) =
    some [false, true, true] := by
  decide +kernel

/-- C24 fails for words that begin with `not` and a character which is not a letter, digit or underscore: `not-there` selects the
tests which do not contain `-there`: not a test in `not-there.py`, but one in `elsewhere.py`. -/
theorem C24_word_starting_with_not_violated :
    (matcher "not-there".toList).map (fun m => (m.matches ⟨"elsewhere.py".toList, []⟩, m.matches ⟨"not-there.py".toList, []⟩)) =
      some (true, false) := by
  decide +kernel

/-- C24 fails for texts which are not expressions: they are not rejected, and what comes after the longest expression at the start is
dropped. `a b` and `a and (b` are read as `a`. -/
theorem C24_rest_ignored_violated :
    (matcher "a b".toList).map (fun m => m.matches ⟨"a.py".toList, []⟩) = some true ∧
    (matcher "a and (b".toList).map (fun m => m.matches ⟨"a.py".toList, []⟩) = some true ∧
    (matcher "a and not".toList).map (fun m => (m.matches ⟨"a.py".toList, []⟩, m.matches ⟨"anot.py".toList, []⟩)) = some (false, true) := by
  decide +kernel

/-! ## C25 -/

/-- C25: a test passes the filters iff it satisfies every one of them. -/
theorem C25_conjunction (filters : List M) (d : Meta) : isExcluded filters d = false ↔ ∀ m ∈ filters, m.matches d = true := by
  simp [isExcluded]

/-- C25: so without filters every test passes, and another filter only takes away tests. -/
theorem C25_monotone (filters more : List M) (d : Meta) :
    isExcluded [] d = false ∧ (isExcluded (filters ++ more) d = false ↔ isExcluded filters d = false ∧ isExcluded more d = false) := by
  refine ⟨rfl, ?_⟩
  simp only [C25_conjunction, List.mem_append]
  exact ⟨fun h => ⟨fun m hm => h m (.inl hm), fun m hm => h m (.inr hm)⟩, fun h m hm => hm.elim (h.1 m) (h.2 m)⟩

/-- C25: the filter of a suite file which another suite file mentions, and of the line that mentions it, have to be satisfied both,
whichever of them there are; however deep the suite files are nested (`fs`: the filters on the way). -/
theorem C25_suite_files (fs : List (Option M)) (d : Meta) :
    sourceMatches (fs.foldr andMatchers none) d = true ↔ ∀ m, some m ∈ fs → m.matches d = true := by
  have h2 : ∀ a b : Option M, sourceMatches (andMatchers a b) d = (sourceMatches a d && sourceMatches b d) := by
    intro a b
    cases a <;> cases b <;> simp [andMatchers, sourceMatches, M.matches, M.allMatch]
  induction fs with
  | nil => simp [sourceMatches]
  | cons f fs ih =>
    rw [List.foldr_cons, h2, Bool.and_eq_true]
    constructor
    · rintro ⟨h1, h3⟩ m hm
      replace h3 := ih.1 h3
      rcases List.mem_cons.1 hm with rfl | hm
      · exact h1
      · exact h3 m hm
    · intro h
      refine ⟨?_, ih.2 (fun m hm => h m (List.mem_cons_of_mem _ hm))⟩
      cases f with
      | none => rfl
      | some m => exact h m (by simp)

/-- two filters, and a suite file within another one -/
example : [isExcluded [.inc false ['a'], .exc (.inc false ['b'])] ⟨['a'], []⟩, isExcluded [.inc false ['a'], .exc (.inc false ['b'])] ⟨['a', 'b'], []⟩,
    sourceMatches ([some (.inc false ['a']), none, some (.inc true ['t'])].foldr andMatchers none) ⟨['a'], []⟩,
    sourceMatches ([some (.inc false ['a']), none, some (.inc true ['t'])].foldr andMatchers none) ⟨['a'], [(['t'], none)]⟩] = [false, true, false, true] := by
  decide

end Slash.Pat
