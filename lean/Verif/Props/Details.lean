import Verif.Model.Details
import Verif.Props.Console
/-!
# C154: source lines, reasons and details shown with results; the number of collected tests
-/
namespace Slash.Console

/-! ## Source lines -/

theorem markLast_snd (l : List (List Char)) : (markLast l).map (·.2) = l := by
  induction l with
  | nil => rfl
  | cons a l ih =>
    cases l with
    | nil => rfl
    | cons b l => simp only [markLast, List.map_cons] at ih ⊢; rw [ih]

theorem markLast_append (l : List (List Char)) (a : List Char) : markLast (l ++ [a]) = l.map (false, ·) ++ [(true, a)] := by
  induction l with
  | nil => rfl
  | cons b l ih =>
    cases l with
    | nil => rfl
    | cons c l =>
      simp only [List.cons_append, markLast, List.map_cons] at ih ⊢
      rw [ih]

/-- The characters that end a line of a Python text, by their numbers. -/
def lineEnds : List Nat := [10, 11, 12, 13, 0x1c, 0x1d, 0x1e, 0x85, 0x2028, 0x2029]

theorem isBreak_iff (c : Char) : isBreak c = true ↔ c.toNat ∈ lineEnds := by
  have h1 : c = '\n' ↔ c.toNat = 10 := ⟨fun h => by rw [h]; rfl, fun h => Char.ext (UInt32.toNat_inj.1 h)⟩
  have h2 : c = '\r' ↔ c.toNat = 13 := ⟨fun h => by rw [h]; rfl, fun h => Char.ext (UInt32.toNat_inj.1 h)⟩
  unfold isBreak lineEnds
  simp only [Bool.or_eq_true, beq_iff_eq, Bool.and_eq_true, decide_eq_true_eq, List.mem_cons, List.not_mem_nil, or_false, h1, h2]
  omega

theorem not_break (c : Char) (h : c.toNat ∉ lineEnds) : isBreak c = false := by
  cases hb : isBreak c with
  | false => rfl
  | true => exact absurd ((isBreak_iff c).1 hb) h

theorem splitLines_plain (a rest cur : List Char) (h : ∀ c ∈ a, isBreak c = false) : splitLines cur (a ++ rest) = splitLines (cur ++ a) rest := by
  induction a generalizing cur with
  | nil => simp
  | cons c a ih =>
    simp only [List.cons_append, splitLines, h c List.mem_cons_self]
    rw [if_neg (by simp), ih _ (fun c' h' => h c' (List.mem_cons_of_mem _ h'))]
    simp

theorem splitLines_lines (ls : List (List Char)) (last : List Char) (hl : last ≠ []) (h : ∀ l ∈ ls ++ [last], ∀ c ∈ l, isBreak c = false) (nl : Bool) :
    splitLines [] ((ls.map (· ++ ['\n'])).flatten ++ last ++ (if nl then ['\n'] else [])) = ls ++ [last] := by
  induction ls with
  | nil =>
    simp only [List.map_nil, List.flatten_nil, List.nil_append]
    rw [splitLines_plain last _ [] (h last (by simp))]
    cases nl
    · simp [splitLines, hl]
    · simp [splitLines, isBreak]
  | cons a ls ih =>
    simp only [List.map_cons, List.flatten_cons, List.append_assoc, List.cons_append, List.nil_append] at ih ⊢
    rw [splitLines_plain a _ [] (h a (by simp))]
    simp only [List.nil_append, splitLines]
    rw [if_pos (by decide), ih (fun l hm => h l (by simp only [List.cons_append, List.mem_cons]; exact .inr hm))]

/-- The source file of lines without their ends; the last one may lack it. -/
def fileOf (ls : List (List Char)) (nl : Bool) : List (List Char) :=
  ls.dropLast.map (· ++ ['\n']) ++ (match ls.getLast? with | some l => [l ++ (if nl then ['\n'] else [])] | none => [])

theorem fileOf_get (ls : List (List Char)) (nl : Bool) (i : Nat) (hi : i < ls.length) :
    (fileOf ls nl)[i]? = some (ls[i] ++ (if i + 1 < ls.length ∨ nl = true then ['\n'] else [])) := by
  have hne : ls ≠ [] := by intro h; simp [h] at hi
  obtain ⟨init, last, rfl⟩ : ∃ init last, ls = init ++ [last] := ⟨ls.dropLast, ls.getLast hne, (List.dropLast_concat_getLast hne).symm⟩
  simp only [fileOf, List.dropLast_concat, List.getLast?_concat]
  simp only [List.length_append, List.length_singleton] at hi
  by_cases h : i < init.length
  · rw [List.getElem?_append_left (by simpa using h)]
    simp [h]
  · have : i = init.length := by omega
    subst this
    rw [List.getElem?_append_right (by simp)]
    simp

theorem range_flatten_concat (f : Nat → List Char) (n : Nat) :
    ((List.range (n + 1)).map f).flatten = ((List.range n).map f).flatten ++ f n := by
  rw [List.range_succ]; simp

/-- **C154** (source with context, partial): for an error in line `lineno` of a function that starts in line `first`, exactly those lines are
shown, each once and in order, and the one of the error is marked. The lines have no characters in them that end lines for Python
texts, and the one with the error is not empty. Missing: see `C154_form_feed_violated`. -/
theorem C154_context_partial (ls : List (List Char)) (nl : Bool) (first lineno : Nat) (hf : 1 ≤ first) (hl : first ≤ lineno) (hn : lineno ≤ ls.length)
    (hb : ∀ l ∈ ls, ∀ c ∈ l, c.toNat ∉ lineEnds) (he : (ls[lineno - 1]?).getD [] ≠ []) :
    frameCode (fileOf ls nl) first lineno true =
      ((ls.drop (first - 1)).take (lineno - first)).map (false, ·) ++ [(true, (ls[lineno - 1]?).getD [])] := by
  replace hb : ∀ l ∈ ls, ∀ c ∈ l, isBreak c = false := fun l hl c hc => not_break c (hb l hl c hc)
  have hlast : lineno - 1 < ls.length := by omega
  have hg : ∀ n, 1 ≤ n → n ≤ ls.length → ∃ h : n - 1 < ls.length, getLine (fileOf ls nl) n = ls[n - 1] ++ (if n < ls.length ∨ nl = true then ['\n'] else []) := by
    intro n h1 h2
    refine ⟨by omega, ?_⟩
    unfold getLine
    rw [if_neg (by omega), fileOf_get ls nl (n - 1) (by omega)]
    simp only [Option.getD_some]
    rw [show n - 1 + 1 = n by omega]
  have hmid : (ls.drop (first - 1)).take (lineno - first) = (List.range (lineno - first)).map fun i => (ls[first - 1 + i]?).getD [] := by
    apply List.ext_getElem?
    intro i
    by_cases hi : i < lineno - first
    · rw [List.getElem?_take_of_lt hi, List.getElem?_drop]
      have : first - 1 + i < ls.length := by omega
      simp [hi, this]
    · rw [List.getElem?_eq_none (by simp; omega), List.getElem?_eq_none (by simp; omega)]
  have hcs : codeString (fileOf ls nl) first lineno =
      (((ls.drop (first - 1)).take (lineno - first)).map (· ++ ['\n'])).flatten ++ (ls[lineno - 1]?).getD [] ++
        (if (decide (lineno < ls.length) || nl) = true then ['\n'] else []) := by
    unfold codeString
    rw [show lineno + 1 - first = (lineno - first) + 1 by omega, range_flatten_concat, hmid, List.map_map]
    have h1 : (List.range (lineno - first)).map (fun i => getLine (fileOf ls nl) (first + i)) =
        (List.range (lineno - first)).map ((· ++ ['\n']) ∘ fun i => (ls[first - 1 + i]?).getD []) := by
      apply List.map_congr_left
      intro i hi
      have hi := List.mem_range.1 hi
      obtain ⟨h2, h3⟩ := hg (first + i) (by omega) (by omega)
      rw [h3, if_pos (.inl (by omega))]
      simp only [Function.comp]
      rw [← show first + i - 1 = first - 1 + i by omega, List.getElem?_eq_getElem (by omega)]
      rfl
    rw [h1]
    obtain ⟨h2, h3⟩ := hg (first + (lineno - first)) (by omega) (by omega)
    rw [h3, List.append_assoc]
    congr 1
    simp only [show first + (lineno - first) = lineno by omega]
    rw [List.getElem?_eq_getElem (by omega)]
    simp
  have hmem : ∀ l ∈ (ls.drop (first - 1)).take (lineno - first) ++ [(ls[lineno - 1]?).getD []], l ∈ ls := by
    intro l hm
    rcases List.mem_append.1 hm with hm | hm
    · exact List.mem_of_mem_drop (List.mem_of_mem_take hm)
    · rw [List.getElem?_eq_getElem (by omega)] at hm
      simp only [Option.getD_some, List.mem_singleton] at hm
      rw [hm]
      exact List.getElem_mem _
  have hsp := splitLines_lines ((ls.drop (first - 1)).take (lineno - first)) ((ls[lineno - 1]?).getD []) he
    (fun l hm => hb l (hmem l hm)) (decide (lineno < ls.length) || nl)
  rw [← hcs] at hsp
  unfold frameCode
  rw [if_neg]
  · rw [if_pos rfl, hsp, markLast_append]
  · intro h
    rw [h] at hsp
    simp [splitLines] at hsp

theorem rstrip_spec (s : List Char) : ∃ t, s = rstrip s ++ t ∧ (∀ c ∈ t, isBlank c = true) ∧ ∀ c, (rstrip s).getLast? = some c → isBlank c = false := by
  refine ⟨(s.reverse.takeWhile isBlank).reverse, ?_, ?_, ?_⟩
  · unfold rstrip
    rw [← List.reverse_append, List.takeWhile_append_dropWhile, List.reverse_reverse]
  · intro c hc
    rw [List.mem_reverse] at hc
    exact List.all_eq_true.1 List.all_takeWhile c hc
  · intro c hc
    unfold rstrip at hc
    rw [List.getLast?_reverse] at hc
    have := List.head?_dropWhile_not isBlank s.reverse
    rw [hc] at this
    simpa using this

theorem frameCode_line (ls : List (List Char)) (nl : Bool) (first lineno : Nat) (hl : first ≤ lineno) (hf : 1 ≤ lineno) (hn : lineno ≤ ls.length)
    (he : (ls[lineno - 1]?).getD [] ≠ []) :
    frameCode (fileOf ls nl) first lineno false = [(true, rstrip ((ls[lineno - 1]?).getD [] ++ (if lineno < ls.length ∨ nl = true then ['\n'] else [])))] := by
  have hg : getLine (fileOf ls nl) lineno = (ls[lineno - 1]?).getD [] ++ (if lineno < ls.length ∨ nl = true then ['\n'] else []) := by
    unfold getLine
    rw [if_neg (by omega), fileOf_get ls nl (lineno - 1) (by omega), List.getElem?_eq_getElem (by omega)]
    simp only [Option.getD_some]
    rw [show lineno - 1 + 1 = lineno by omega]
  unfold frameCode
  rw [if_neg]
  · simp only [codeLine, hg]
    rfl
  · unfold codeString
    rw [show lineno + 1 - first = (lineno - first) + 1 by omega, range_flatten_concat, show first + (lineno - first) = lineno by omega, hg]
    intro h
    have := List.append_eq_nil_iff.1 h
    exact he (List.append_eq_nil_iff.1 this.2).1

/-- **C154** (source without context): only the line of the error is shown, without blanks and line end at its end, and marked. -/
theorem C154_line (ls : List (List Char)) (nl : Bool) (first lineno : Nat) (hl : first ≤ lineno) (hf : 1 ≤ lineno) (hn : lineno ≤ ls.length)
    (he : (ls[lineno - 1]?).getD [] ≠ []) :
    ∃ t blanks, frameCode (fileOf ls nl) first lineno false = [(true, t)] ∧
      (ls[lineno - 1]?).getD [] ++ (if lineno < ls.length ∨ nl = true then ['\n'] else []) = t ++ blanks ∧
      (∀ c ∈ blanks, c.isWhitespace = true ∨ c = Char.ofNat 11 ∨ c = Char.ofNat 12) ∧ ∀ c, t.getLast? = some c → c ≠ ' ' ∧ c ≠ '\t' ∧ c ≠ '\n' ∧ c ≠ '\r' := by
  obtain ⟨b, h1, h2, h3⟩ := rstrip_spec ((ls[lineno - 1]?).getD [] ++ (if lineno < ls.length ∨ nl = true then ['\n'] else []))
  refine ⟨_, b, frameCode_line ls nl first lineno hl hf hn he, h1, ?_, ?_⟩
  · intro c hc
    have := h2 c hc
    simp only [isBlank, Bool.or_eq_true, beq_iff_eq] at this
    rcases this with ((((rfl | rfl) | rfl) | rfl) | h) | h
    · exact .inl (by decide)
    · exact .inl (by decide)
    · exact .inl (by decide)
    · exact .inl (by decide)
    · exact .inr (.inl h)
    · exact .inr (.inr h)
  · intro c hc
    have := h3 c hc
    refine ⟨?_, ?_, ?_, ?_⟩ <;> rintro rfl <;> exact absurd this (by decide)

/-- A function with a form feed between its statements, as old editors put them. -/
def exFeed : List (List Char) := ["def f():".toList, "    x = '".toList ++ [Char.ofNat 12] ++ "'; g(x)".toList]

/-- The code takes other characters for ends of lines than the file: the line of the error is shown as two, and only the rest of it is
marked. -/
theorem C154_form_feed_violated :
    frameCode (fileOf exFeed true) 1 2 true = [(false, "def f():".toList), (false, "    x = '".toList), (true, "'; g(x)".toList)] := by
  decide +kernel

-- An error in the third line of a function that starts in the second line of a file.
example : frameCode (fileOf ["import a".toList, "def f():".toList, "    a.b()".toList, "    a.c()  ".toList, "f()".toList] true) 2 4 true =
      [(false, "def f():".toList), (false, "    a.b()".toList), (true, "    a.c()  ".toList)] ∧
    frameCode (fileOf ["import a".toList, "def f():".toList, "    a.b()".toList, "    a.c()  ".toList, "f()".toList] true) 2 4 false =
      [(true, "    a.c()".toList)] := by
  decide +kernel

/-- What cannot be read is not shown. -/
theorem C154_no_source (first lineno : Nat) (context : Bool) : frameCode [] first lineno context = [] := by
  have : codeString [] first lineno = [] := by
    unfold codeString
    generalize lineno + 1 - first = n
    have : ∀ i, getLine [] i = [] := by
      intro i
      unfold getLine
      split <;> rfl
    simp [this]
  unfold frameCode
  rw [if_pos this]

/-! ## Messages, reasons, details -/

theorem joinWith_lines (ls : List (List Char)) (last : List Char) :
    joinWith ['\n'] (ls ++ [last]) = (ls.map (· ++ ['\n'])).flatten ++ last := by
  induction ls with
  | nil => rfl
  | cons a ls ih =>
    have : joinWith ['\n'] (a :: ls ++ [last]) = a ++ ['\n'] ++ joinWith ['\n'] (ls ++ [last]) := by
      cases ls <;> rfl
    rw [this, ih]
    simp

/-- **C154** (messages): each line of a message is shown, behind `n` blanks. -/
theorem C154_indent (ls : List (List Char)) (last : List Char) (hl : last ≠ []) (h : ∀ l ∈ ls ++ [last], ∀ c ∈ l, c.toNat ∉ lineEnds) (n : Nat) :
    splitLines [] (indentWith ((ls.map (· ++ ['\n'])).flatten ++ last) n) = (ls ++ [last]).map (List.replicate n ' ' ++ ·) := by
  replace h : ∀ l ∈ ls ++ [last], ∀ c ∈ l, isBreak c = false := fun l hl c hc => not_break c (h l hl c hc)
  have h1 := splitLines_lines ls last hl h false
  simp only [Bool.false_eq_true, if_false, List.append_nil] at h1
  unfold indentWith
  rw [h1, List.map_append, List.map_singleton, joinWith_lines]
  have h2 := splitLines_lines (ls.map (List.replicate n ' ' ++ ·)) (List.replicate n ' ' ++ last) (by simp [hl]) (by
    intro l hm c hc
    rw [show ls.map (List.replicate n ' ' ++ ·) ++ [List.replicate n ' ' ++ last] = (ls ++ [last]).map (List.replicate n ' ' ++ ·) by simp] at hm
    obtain ⟨l', hl', rfl⟩ := List.mem_map.1 hm
    rcases List.mem_append.1 hc with hc | hc
    · rw [(List.mem_replicate.1 hc).2]; decide
    · exact h l' hl' c hc) false
  simpa only [Bool.false_eq_true, if_false, List.append_nil] using h2

example : indentWith "two\nlines".toList 4 = "    two\n    lines".toList := by decide +kernel

/-- **C154** (skips, partial): all reasons are listed in order. Missing: reasons that are no strings, see
`C154_reason_violated`. -/
theorem C154_skips_partial (skips : List (Option (List Char))) :
    skipSummary (skips.map (·.map Reason.str)) =
      some ("\tSkipped".toList ++ (if skips.filterMap id = [] then [] else " (".toList ++ joinWith ", ".toList (skips.filterMap id) ++ ")".toList) ++ "\n".toList) := by
  have h1 : (skips.map (·.map Reason.str)).filterMap id = (skips.filterMap id).map Reason.str := by
    induction skips with
    | nil => rfl
    | cons a l ih => cases a <;> simp [ih]
  have h2 : ∀ l : List (List Char), reasonTexts (l.map Reason.str) = some l := by
    intro l
    induction l with
    | nil => rfl
    | cons a l ih => simp [reasonTexts, ih]
  unfold skipSummary
  rw [h1]
  by_cases h : skips.filterMap id = []
  · simp [h]
  · rw [if_neg (by simpa using h), h2, if_neg h]
    simp

/-- `skip_test` may be given anything as its reason, but the summary fails for what is no string. -/
theorem C154_reason_violated : ∃ skips, skipSummary skips = none := ⟨[some .other], rfl⟩

example : skipSummary [some (.str "no disk".toList), none, some (.str "slow".toList)] = some "\tSkipped (no disk, slow)\n".toList := by decide +kernel

/-- **C154** (details): nothing is shown for a successful test. For others all details and the path of the log, if there is one, are shown
under a headline, each in a line, if there are any. -/
theorem C154_details (details : List (List Char × List Char)) (log : Option (List Char)) :
    additionalDetails true details log = [] ∧
    (details = [] → log = none → additionalDetails false details log = []) ∧
    (details ≠ [] ∨ log ≠ none → additionalDetails false details log =
      " - Additional Details:\n".toList :: ((details.map fun x => "    > ".toList ++ x.1 ++ ": ".toList ++ x.2 ++ "\n".toList) ++
        (log.toList.map fun p => "    > Log: ".toList ++ p ++ "\n".toList))) := by
  refine ⟨rfl, ?_, ?_⟩
  · rintro rfl rfl; rfl
  · intro h
    cases log with
    | none =>
      cases details with
      | nil => simp at h
      | cons x l => simp [additionalDetails]
    | some p =>
      cases details with
      | nil => simp [additionalDetails]
      | cons x l => simp [additionalDetails]

example : additionalDetails false [("disk".toList, "3".toList)] (some "'/l'".toList) =
    [" - Additional Details:\n".toList, "    > disk: 3\n".toList, "    > Log: '/l'\n".toList] := by decide +kernel

/-! ## The number of tests -/

theorem digits_mono (n : Nat) : (Nat.toDigits 10 n).length ≤ (Nat.toDigits 10 (n + 1)).length := by
  have hp : 0 < (Nat.toDigits 10 (n + 1)).length := Nat.length_toDigits_pos
  have h := (Nat.length_toDigits_le_iff (b := 10) (n := n + 1) (k := (Nat.toDigits 10 (n + 1)).length) (by omega) hp).1 (Nat.le_refl _)
  exact (Nat.length_toDigits_le_iff (b := 10) (n := n) (by omega) hp).2 (by omega)

theorem digits_plain (n : Nat) : plain (Nat.toDigits 10 n) := by
  intro c hc
  have := Nat.isDigit_of_mem_toDigits (by omega) (by omega) hc
  constructor <;> rintro rfl <;> exact absurd this (by decide)

/-- The text of the number, the other text behind it. -/
def counter (n : Nat) (tail : List Char) : List Char := Nat.toDigits 10 n ++ " tests collected".toList ++ tail

theorem counter_plain (n : Nat) (tail : List Char) (h : plain tail) : plain (counter n tail) := by
  intro c hc
  rcases List.mem_append.1 hc with hc | hc
  · rcases List.mem_append.1 hc with hc | hc
    · exact digits_plain n c hc
    · exact (show plain " tests collected".toList by unfold plain; decide) c hc
  · exact h c hc

theorem overwrite (w : Nat) (t : Term) (s : List Char) (hs : plain s) (hne : s ≠ []) (hw : s.length ≤ w) (hc : t.cur.length ≤ s.length) :
    tell w t ('\r' :: s) = { t with cur := s, col := s.length } := by
  have h1 : tell w t ('\r' :: s) = tell w { t with col := 0 } s := rfl
  rw [h1]
  rcases tell_over w s hs { t with col := 0 } (by simpa using hw) with h | h
  · rw [h]
    simp only [hne, if_false, List.take_zero, List.nil_append, Nat.zero_add]
    rw [List.drop_eq_nil_of_le hc, List.append_nil]
  · simp at h

/-- **C154** (collection): on a terminal wide enough, collecting `n` tests leaves one line with their number, and nothing of the
numbers before; what is not a terminal gets just that line. -/
theorem C154_collected (w n : Nat) (done : List (List Char)) (hw : (counter n "...".toList).length ≤ w) :
    tell w { done := done } (collection true n).flatten = { done := done ++ [counter n "   ".toList] } ∧
    (collection false n).flatten = counter n "   ".toList ++ ['\n'] := by
  constructor
  · have hlen : ∀ k, k ≤ n → (counter k "...".toList).length ≤ w := by
      intro k hk
      have hm : (counter k "...".toList).length ≤ (counter n "...".toList).length := by
        have : (Nat.toDigits 10 k).length ≤ (Nat.toDigits 10 n).length := by
          obtain ⟨d, rfl⟩ := Nat.exists_eq_add_of_le hk
          clear hk hw
          induction d with
          | zero => exact Nat.le_refl _
          | succ d ih => exact Nat.le_trans ih (digits_mono (k + d))
        simp only [counter, List.length_append]
        omega
      omega
    have hdots : plain "...".toList := by unfold plain; decide
    have hblanks : plain "   ".toList := by unfold plain; decide
    have hne : ∀ k (tl : List Char), tl ≠ [] → counter k tl ≠ [] := by
      intro k tl h h'
      exact h (List.append_eq_nil_iff.1 h').2
    have step : ∀ k, k ≤ n → tell w { done := done } ((List.range (k + 1)).map (fun k => numCollected true k true)).flatten =
        { done := done, cur := counter k "...".toList, col := (counter k "...".toList).length } := by
      intro k
      induction k with
      | zero =>
        intro hk
        have := overwrite w { done := done } (counter 0 "...".toList) (counter_plain 0 _ hdots) (hne _ _ (by decide)) (hlen 0 hk) (by simp)
        simpa [numCollected, collectedText, counter] using this
      | succ k ih =>
        intro hk
        rw [range_flatten_concat, tell_append, ih (by omega)]
        have := overwrite w { done := done, cur := counter k "...".toList, col := (counter k "...".toList).length } (counter (k + 1) "...".toList)
          (counter_plain _ _ hdots) (hne _ _ (by decide)) (hlen _ hk) (by
            have := digits_mono k
            simp only [counter, List.length_append]
            omega)
        simpa [numCollected, collectedText, counter] using this
    have hsplit : (collection true n).flatten = ((List.range (n + 1)).map (fun k => numCollected true k true)).flatten ++ (('\r' :: counter n "   ".toList) ++ ['\n']) := by
      simp [collection, numCollected, collectedText, counter]
    rw [hsplit, tell_append, step n (Nat.le_refl _), tell_append]
    rw [overwrite w _ (counter n "   ".toList) (counter_plain _ _ hblanks) (hne _ _ (by decide)) (by
      have : (counter n "   ".toList).length = (counter n "...".toList).length := by simp [counter]
      omega) (by simp [counter])]
    rfl
  · have : ∀ l : List Nat, (l.map (fun k => numCollected false k true)).flatten = [] := by
      intro l
      induction l with
      | nil => rfl
      | cons a l ih => simp [numCollected, ih]
    simp only [collection, List.flatten_append, this]
    simp [numCollected, collectedText, counter]

example : (tell 80 {} (collection true 12).flatten).done = ["12 tests collected   ".toList] := by decide +kernel

end Slash.Console
