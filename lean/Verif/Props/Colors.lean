import Verif.Model.Colors
/-!
# C150: colored output
-/
namespace Slash.Col

/-- What a terminal shows of a text: everything that does not belong to a code. -/
def shown : Bool → Str → Str
  | _, [] => []
  | false, c :: t => if c = esc then shown true t else c :: shown false t
  | true, c :: t => if c = 'm' then shown false t else shown true t

/-- A text made of codes of the terminal, and nothing else. -/
inductive Codes : Str → Prop
  | nil : Codes []
  | cons (body rest : Str) : 'm' ∉ body → Codes rest → Codes (code body ++ rest)

theorem shown_text (s t : Str) (h : esc ∉ s) : shown false (s ++ t) = s ++ shown false t := by
  induction s with
  | nil => rfl
  | cons c s ih =>
    have hc : c ≠ esc := fun e => h (by simp [e])
    simp only [List.cons_append, shown, if_neg hc, ih (fun hm => h (by simp [hm]))]

theorem shown_body (b t : Str) (h : 'm' ∉ b) : shown true (b ++ 'm' :: t) = shown false t := by
  induction b with
  | nil => rfl
  | cons c b ih =>
    have hc : c ≠ 'm' := fun e => h (by simp [e])
    simp only [List.cons_append, shown, if_neg hc, ih (fun hm => h (by simp [hm]))]

theorem shown_code (b t : Str) (h : 'm' ∉ b) : shown false (code b ++ t) = shown false t := by
  show shown false (esc :: ('[' :: b ++ ['m'] ++ t)) = _
  simp only [shown, if_true]
  have := shown_body ('[' :: b) t (by simp [h])
  simpa using this

theorem shown_codes {s : Str} (h : Codes s) (t : Str) : shown false (s ++ t) = shown false t := by
  induction h with
  | nil => rfl
  | cons b r hb _ ih => rw [List.append_assoc, shown_code b _ hb, ih]

theorem codes_reset : Codes colorReset := by
  have h : colorReset = code ['3', '9'] ++ (code ['4', '9'] ++ (code ['0'] ++ [])) := by
    simp [colorReset]
  rw [h]
  exact .cons _ _ (by decide) (.cons _ _ (by decide) (.cons _ _ (by decide) .nil))

/-- An argument whose text has no codes, and whose style consists of codes. -/
def Arg.Proper : Arg → Prop
  | .plain s => esc ∉ s
  | .styled s style => esc ∉ s ∧ Codes style

theorem Arg.Proper.str {a : Arg} (h : a.Proper) : esc ∉ a.str := by
  cases a with
  | plain s => exact h
  | styled s st => exact h.1

theorem shown_colorize {a : Arg} (h : a.Proper) (t : Str) : shown false (a.colorize ++ t) = a.str ++ shown false t := by
  cases a with
  | plain s => exact shown_text s t h
  | styled s style =>
    simp only [Arg.colorize, Arg.str]
    split
    · exact shown_text s t h.1
    · rw [List.append_assoc, List.append_assoc, shown_codes h.2, shown_text s _ h.1, shown_codes codes_reset]

theorem intercalate_cons (x : Str) (l : List Str) (hl : l ≠ []) :
    List.intercalate [' '] (x :: l) = x ++ ' ' :: List.intercalate [' '] l := by
  cases l with
  | nil => exact absurd rfl hl
  | cons y l => simp [List.intercalate, List.intersperse]

theorem shown_printed (args : List Arg) (h : ∀ a ∈ args, a.Proper) (f : Arg → Str)
    (hf : ∀ a ∈ args, ∀ t, shown false (f a ++ t) = a.str ++ shown false t) :
    shown false (printed (args.map f)) = printed (args.map Arg.str) := by
  have hnl : shown false ['\n'] = ['\n'] := rfl
  have key : ∀ (l : List Arg), (∀ a ∈ l, ∀ t, shown false (f a ++ t) = a.str ++ shown false t) → ∀ t,
      shown false (List.intercalate [' '] (l.map f) ++ t) = List.intercalate [' '] (l.map Arg.str) ++ shown false t := by
    intro l
    induction l with
    | nil => intro _ t; rfl
    | cons a l ih =>
      intro hl t
      cases l with
      | nil =>
        have := hl a (by simp) t
        simpa [List.intercalate] using this
      | cons b l =>
        have hne : (b :: l).map f ≠ [] := by simp
        have hne' : (b :: l).map Arg.str ≠ [] := by simp
        rw [List.map_cons, intercalate_cons _ _ hne, List.map_cons (f := Arg.str), intercalate_cons _ _ hne', List.append_assoc, hl a (by simp)]
        have hsp : ∀ u, shown false (' ' :: u) = ' ' :: shown false u := fun u => rfl
        rw [List.cons_append, hsp, ih (fun c hc => hl c (by simp [hc])) t]
        simp
  unfold printed
  rw [key args hf, hnl]

/-- C150: with colors and without, the same text is shown: the arguments with spaces between and a newline at the end. It is written at once, to the
stream for errors exactly if it is an error and there is one; nothing is written exactly if output is switched off. -/
theorem C150_text (p : Printer) (error : Bool) (args : List Arg) (h : ∀ a ∈ args, a.Proper) :
    (p.output = false → p.call error args = []) ∧
    (p.output = true → ∃ text, p.call error args = [(if error && p.hasErr then .err else .out, text)] ∧
      shown false text = List.intercalate [' '] (args.map Arg.str) ++ ['\n']) := by
  have hstream : (if error then p.errorStream else Stream.out) = (if error && p.hasErr then .err else .out) := by
    unfold Printer.errorStream
    cases error <;> simp
  unfold Printer.call Printer.write
  constructor
  · intro ho
    simp [ho]
  · intro ho
    rw [ho]
    simp only [if_true]
    split
    · exact ⟨_, by rw [hstream], shown_printed args h _ (fun a ha t => shown_colorize (h a ha) t)⟩
    · exact ⟨_, by rw [hstream], shown_printed args h _ (fun a ha t => shown_text _ t (h a ha).str)⟩

theorem mem_intercalate (c : Char) (l : List Str) (h : c ∈ List.intercalate [' '] l) : c = ' ' ∨ ∃ s ∈ l, c ∈ s := by
  induction l with
  | nil => simp [List.intercalate] at h
  | cons a l ih =>
    cases l with
    | nil => exact Or.inr ⟨a, by simp, by simpa [List.intercalate] using h⟩
    | cons b l =>
      rw [intercalate_cons _ _ (by simp)] at h
      rcases List.mem_append.1 h with h | h
      · exact Or.inr ⟨a, by simp, h⟩
      · rcases List.mem_cons.1 h with h | h
        · exact Or.inl h
        · rcases ih h with h | ⟨s, hs, hc⟩
          · exact Or.inl h
          · exact Or.inr ⟨s, by simp [hs], hc⟩

theorem mem_intercalate_of (c : Char) (l : List Str) (s : Str) (hs : s ∈ l) (hc : c ∈ s) : c ∈ List.intercalate [' '] l := by
  induction l with
  | nil => cases hs
  | cons a l ih =>
    cases l with
    | nil =>
      have : s = a := by simpa using hs
      subst this
      simpa [List.intercalate] using hc
    | cons b l =>
      rw [intercalate_cons _ _ (by simp)]
      rcases List.mem_cons.1 hs with rfl | hs
      · exact List.mem_append_left _ hc
      · exact List.mem_append_right _ (List.mem_cons_of_mem _ (ih hs))

/-- C150: what is no error contains codes exactly if an argument has a style and colors are forced, or they are enabled and the stream it is
written to is a terminal. -/
theorem C150_codes_partial (p : Printer) (args : List Arg) (h : ∀ a ∈ args, a.Proper) (hout : p.output = true) (s : Stream) (text : Str)
    (hw : (s, text) ∈ p.call false args) :
    esc ∈ text ↔ (∃ t style, Arg.styled t style ∈ args ∧ style ≠ []) ∧ (p.force = true ∨ (p.enable = true ∧ p.outTty = true)) := by
  unfold Printer.call Printer.write at hw
  rw [hout] at hw
  simp only [if_true, Bool.false_eq_true, if_false] at hw
  have hcond : (p.force || (p.enable && p.outTty)) = true ↔ (p.force = true ∨ (p.enable = true ∧ p.outTty = true)) := by simp
  by_cases hc : (p.force || (p.enable && p.outTty)) = true
  · rw [if_pos hc] at hw
    have ht : text = printed (args.map Arg.colorize) := by
      have := List.mem_singleton.1 hw
      injection this
    rw [ht]
    simp only [hcond.1 hc, and_true]
    constructor
    · intro he
      rcases List.mem_append.1 he with he | he
      · rcases mem_intercalate _ _ he with he | ⟨x, hx, he⟩
        · exact absurd he (by decide)
        · obtain ⟨a, ha, rfl⟩ := List.mem_map.1 hx
          cases a with
          | plain t => exact absurd he (h _ ha)
          | styled t style =>
            refine ⟨t, style, ha, fun hs => ?_⟩
            subst hs
            exact (h _ ha).1 (by simpa [Arg.colorize] using he)
      · exact absurd he (by decide)
    · rintro ⟨t, style, ha, hs⟩
      refine List.mem_append_left _ (mem_intercalate_of _ _ (Arg.styled t style).colorize (List.mem_map.2 ⟨_, ha, rfl⟩) ?_)
      have he : style.isEmpty = false := by
        cases style with
        | nil => exact absurd rfl hs
        | cons a l => rfl
      simp only [Arg.colorize, he, Bool.false_eq_true, if_false]
      exact List.mem_append_right _ (by decide)
  · rw [if_neg hc] at hw
    have ht : text = printed (args.map Arg.str) := by
      have := List.mem_singleton.1 hw
      injection this
    rw [ht]
    refine ⟨fun he => ?_, fun hh => absurd (hcond.2 hh.2) hc⟩
    exfalso
    rcases List.mem_append.1 he with he | he
    · rcases mem_intercalate _ _ he with he | ⟨x, hx, he⟩
      · exact absurd he (by decide)
      · obtain ⟨a, ha, rfl⟩ := List.mem_map.1 hx
        exact (h a ha).str he
    · exact absurd he (by decide)

/-! ## Colors as a terminal applies them -/

/-- A terminal: the codes in force, the code that is being read if any, and the characters shown with the codes they are shown with. -/
structure Term where
  style : List Str := []
  code : Option Str := none
  out : List (Char × List Str) := []
deriving DecidableEq, Repr

/-- A code for the color of the text. -/
def isFore (b : Str) : Bool := b.take 2 == ['[', '3'] || b.take 2 == ['[', '9']

/-- A code for the color of the background. -/
def isBack (b : Str) : Bool := b.take 2 == ['[', '4'] && b.length == 3

/-- Codes in force after a code: 0 ends all, 39 and 49 end the colors of the text and of the background. -/
def applyCode (st : List Str) (b : Str) : List Str :=
  if b = ['[', '0'] then [] else if b = ['[', '3', '9'] then st.filter (fun x => !(isFore x))
  else if b = ['[', '4', '9'] then st.filter (fun x => !(isBack x)) else st ++ [b]

/-- One character. -/
def Term.step (t : Term) (c : Char) : Term :=
  match t.code with
  | none => if c = esc then { t with code := some [] } else { t with out := t.out ++ [(c, t.style)] }
  | some b => if c = 'm' then { t with code := none, style := applyCode t.style b } else { t with code := some (b ++ [c]) }

/-- A text. -/
def Term.write (t : Term) (s : Str) : Term := s.foldl Term.step t

theorem Term.write_append (t : Term) (a b : Str) : t.write (a ++ b) = (t.write a).write b := List.foldl_append

theorem Term.write_text (t : Term) (ht : t.code = none) (s : Str) (hs : esc ∉ s) :
    t.write s = { t with out := t.out ++ s.map (fun c => (c, t.style)) } := by
  induction s generalizing t with
  | nil => simp [Term.write]
  | cons c s ih =>
    have hc : c ≠ esc := fun e => hs (by simp [e])
    have h1 : t.write (c :: s) = (t.step c).write s := rfl
    have h2 : t.step c = { t with out := t.out ++ [(c, t.style)] } := by
      unfold Term.step
      simp only [ht, if_neg hc]
    rw [h1, h2, ih { t with out := t.out ++ [(c, t.style)] } ht (fun h => hs (by simp [h]))]
    simp

theorem Term.write_body (st : List Str) (out : List (Char × List Str)) (pre b : Str) (hb : 'm' ∉ b) :
    Term.write ⟨st, some pre, out⟩ (b ++ ['m']) = ⟨applyCode st (pre ++ b), none, out⟩ := by
  induction b generalizing pre with
  | nil =>
    show Term.step ⟨st, some pre, out⟩ 'm' = _
    simp [Term.step]
  | cons c b ih =>
    have hc : c ≠ 'm' := fun e => hb (by simp [e])
    have h1 : Term.write ⟨st, some pre, out⟩ (c :: b ++ ['m']) = (Term.step ⟨st, some pre, out⟩ c).write (b ++ ['m']) := rfl
    have h2 : Term.step ⟨st, some pre, out⟩ c = ⟨st, some (pre ++ [c]), out⟩ := by
      unfold Term.step
      simp only [if_neg hc]
    rw [h1, h2, ih (pre ++ [c]) (fun h => hb (by simp [h]))]
    simp

theorem Term.write_code (t : Term) (ht : t.code = none) (b : Str) (hb : 'm' ∉ b) :
    t.write (Col.code b) = { t with style := applyCode t.style ('[' :: b) } := by
  obtain ⟨st, cd, out⟩ := t
  subst ht
  have h1 : Term.write ⟨st, none, out⟩ (Col.code b) = Term.write ⟨st, some [], out⟩ (('[' :: b) ++ ['m']) := by
    show Term.write (Term.step ⟨st, none, out⟩ esc) _ = _
    rfl
  rw [h1, Term.write_body st out [] ('[' :: b) (by simp [hb])]
  rfl

/-- The codes in force after some codes. -/
def codesAfter (st : List Str) (s : Str) : List Str := (Term.write ⟨st, none, []⟩ s).style

theorem Term.write_codes {s : Str} (h : Codes s) (t : Term) (ht : t.code = none) :
    t.write s = { t with style := codesAfter t.style s } := by
  obtain ⟨st, cd, out⟩ := t
  have ht : cd = none := ht
  subst ht
  induction h generalizing st with
  | nil => rfl
  | cons b r hb _ ih =>
    have h2 : codesAfter st (Col.code b ++ r) = codesAfter (applyCode st ('[' :: b)) r := by
      unfold codesAfter
      rw [Term.write_append, Term.write_code _ rfl b hb]
    rw [Term.write_append, Term.write_code _ rfl b hb, h2]
    exact ih (applyCode st ('[' :: b)) rfl

/-- What is to be seen of an argument: its text, in its style if colors are on. -/
def Arg.painted : Arg → List (Char × List Str)
  | .plain s => s.map (fun c => (c, []))
  | .styled s style => s.map (fun c => (c, codesAfter [] style))

theorem codesAfter_reset (st : List Str) : codesAfter st colorReset = [] := by
  unfold codesAfter colorReset
  rw [Term.write_append, Term.write_append, Term.write_code _ rfl _ (by decide), Term.write_code _ rfl _ (by decide),
    Term.write_code _ rfl _ (by decide)]
  rfl

theorem write_colorize {a : Arg} (h : a.Proper) (out : List (Char × List Str)) :
    Term.write ⟨[], none, out⟩ a.colorize = ⟨[], none, out ++ a.painted⟩ := by
  cases a with
  | plain s => exact Term.write_text _ rfl s h
  | styled s style =>
    simp only [Arg.colorize, Arg.painted]
    by_cases he : style.isEmpty = true
    · have : style = [] := List.isEmpty_iff.1 he
      subst this
      simp only [List.isEmpty_nil, if_true]
      exact Term.write_text _ rfl s h.1
    · rw [if_neg he, Term.write_append, Term.write_append, Term.write_codes h.2 _ rfl, Term.write_text _ rfl s h.1,
        Term.write_codes codes_reset _ rfl]
      simp only [codesAfter_reset]

/-- C150: if colors are on, a terminal shows each argument in its own style and everything else, also what comes later, without any. -/
theorem C150_styles (args : List Arg) (h : ∀ a ∈ args, a.Proper) :
    Term.write {} (printed (args.map Arg.colorize)) =
      ⟨[], none, List.intercalate [(' ', [])] (args.map Arg.painted) ++ [('\n', [])]⟩ := by
  have key : ∀ (l : List Arg), (∀ a ∈ l, a.Proper) → ∀ out,
      Term.write ⟨[], none, out⟩ (List.intercalate [' '] (l.map Arg.colorize)) =
        ⟨[], none, out ++ List.intercalate [(' ', [])] (l.map Arg.painted)⟩ := by
    intro l
    induction l with
    | nil =>
      intro _ out
      simp [List.intercalate, Term.write]
    | cons a l ih =>
      intro hl out
      cases l with
      | nil =>
        have := write_colorize (hl a (by simp)) out
        simpa [List.intercalate] using this
      | cons b l =>
        rw [List.map_cons, intercalate_cons _ _ (by simp), Term.write_append, write_colorize (hl a (by simp))]
        have hsp : Term.write ⟨[], none, out ++ a.painted⟩ (' ' :: List.intercalate [' '] ((b :: l).map Arg.colorize)) =
            Term.write ⟨[], none, out ++ a.painted ++ [(' ', [])]⟩ (List.intercalate [' '] ((b :: l).map Arg.colorize)) := rfl
        rw [hsp, ih (fun c hc => hl c (by simp [hc]))]
        simp [List.intercalate, List.intersperse]
  unfold printed
  rw [Term.write_append]
  have := key args h []
  rw [show ({} : Term) = ⟨[], none, []⟩ from rfl, this]
  rfl

example : Term.write {} (printed [(styler (code ['3', '1']) "ab".toList).colorize, (Arg.plain "c".toList).colorize]) =
    ⟨[], none, [('a', [['[', '3', '1']]), ('b', [['[', '3', '1']]), (' ', []), ('c', []), ('\n', [])]⟩ := by decide

/-- Red. -/
def red : Str := code ['3', '1']

example : (⟨true, false, true, true, false, true⟩ : Printer).call false [styler red "ab".toList, .plain "c".toList] =
      [(.out, red ++ "ab".toList ++ colorReset ++ " c\n".toList)] ∧
    (⟨false, false, true, true, false, true⟩ : Printer).call false [styler red "ab".toList, .plain "c".toList] = [(.out, "ab c\n".toList)] ∧
    (⟨false, false, true, true, true, false⟩ : Printer).call false [styler red "ab".toList] = [(.out, red ++ "ab".toList ++ colorReset ++ "\n".toList)] ∧
    (⟨true, true, true, false, true, true⟩ : Printer).call true [styler red "ab".toList] = [] := by decide

/-- C150 fails for errors: whether they are colored depends on the stream for reports. If this is a terminal, codes are written to a stream for
errors that is none, such as a file; and if it is none, errors on the terminal are not colored. -/
theorem C150_error_stream_violated :
    (⟨true, false, true, true, false, true⟩ : Printer).call true [styler red "ab".toList] = [(.err, red ++ "ab".toList ++ colorReset ++ "\n".toList)] ∧
    (⟨false, true, true, true, false, true⟩ : Printer).call true [styler red "ab".toList] = [(.err, "ab\n".toList)] := by decide

/-- C150 fails for the tests that `slash list` lists: their addresses are given a style that gets lost, so they are not colored even if colors
are forced. -/
theorem C150_title_violated (p : Printer) (error : Bool) (style address extra : Str) :
    p.call error [testLine style address extra] = p.call error [.plain (address ++ extra)] := rfl

/-! ## Colored strings -/

/-- A colored string whose texts have no codes, and whose colors are codes. -/
def CStr.Proper : CStr → Prop
  | .text s => esc ∉ s
  | .color s c => esc ∉ s ∧ Codes c
  | .add a b => a.Proper ∧ b.Proper

/-- C150: colored strings, however they are put together, show their text when they are colored, and have its length. -/
theorem C150_colored_strings (x : CStr) (h : x.Proper) : shown false x.colored = x.str ∧ x.len = x.str.length := by
  have key : ∀ (x : CStr), x.Proper → ∀ t, shown false (x.colored ++ t) = x.str ++ shown false t := by
    intro x
    induction x with
    | text s => exact fun h t => shown_text s t h
    | color s c =>
      intro h t
      have hr : Codes foreReset := by
        have : foreReset = code ['3', '9'] ++ [] := by simp [foreReset]
        rw [this]
        exact .cons _ _ (by decide) .nil
      simp only [CStr.colored, CStr.str]
      rw [List.append_assoc, List.append_assoc, shown_codes h.2, shown_text s _ h.1, shown_codes hr]
    | add a b iha ihb =>
      intro h t
      simp only [CStr.colored, CStr.str]
      rw [List.append_assoc, iha h.1, ihb h.2, List.append_assoc]
  constructor
  · have := key x h []
    simpa [shown] using this
  · clear h
    induction x with
    | text s => rfl
    | color s c => rfl
    | add a b iha ihb => simp only [CStr.len, CStr.str, List.length_append, iha, ihb]

/-- A colored string whose colors are colors of the text as in `colorama.Fore`. -/
def CStr.Fore : CStr → Prop
  | .text s => esc ∉ s
  | .color s c => esc ∉ s ∧ ∃ b, c = code b ∧ 'm' ∉ b ∧ isFore ('[' :: b) = true ∧ b ≠ ['3', '9']
  | .add a b => a.Fore ∧ b.Fore

/-- What is to be seen of a colored string. -/
def CStr.painted : CStr → List (Char × List Str)
  | .text s => s.map (fun c => (c, []))
  | .color s c => s.map (fun ch => (ch, codesAfter [] c))
  | .add a b => a.painted ++ b.painted

/-- C150: a terminal shows each part of a colored string in its own color, and what comes later without any. -/
theorem C150_colored_parts (x : CStr) (h : x.Fore) : Term.write {} x.colored = ⟨[], none, x.painted⟩ := by
  have key : ∀ (x : CStr), x.Fore → ∀ out, Term.write ⟨[], none, out⟩ x.colored = ⟨[], none, out ++ x.painted⟩ := by
    intro x
    induction x with
    | text s => exact fun h out => Term.write_text _ rfl s h
    | color s c =>
      rintro ⟨hs, b, rfl, hb, hf, hne⟩ out
      have h0 : b ≠ ['0'] := by
        intro e
        subst e
        exact absurd hf (by decide)
      have h49 : b ≠ ['4', '9'] := by
        intro e
        subst e
        exact absurd hf (by decide)
      have hcode : applyCode [] ('[' :: b) = [('[' :: b)] := by
        unfold applyCode
        simp [h0, hne, h49]
      have hafter : codesAfter [] (code b) = [('[' :: b)] := by
        unfold codesAfter
        rw [Term.write_code _ rfl b hb]
        exact hcode
      have hreset : applyCode [('[' :: b)] ['[', '3', '9'] = [] := by
        unfold applyCode
        simp [hf]
      simp only [CStr.colored, CStr.painted, hafter]
      rw [Term.write_append, Term.write_append, Term.write_code _ rfl b hb, Term.write_text _ rfl s hs]
      unfold foreReset
      rw [Term.write_code _ rfl _ (by decide)]
      simp only [hcode, hreset]
    | add a b iha ihb =>
      intro h out
      simp only [CStr.colored, CStr.painted]
      rw [Term.write_append, iha h.1, ihb h.2, List.append_assoc]
  exact key x h []

example : Term.write {} (CStr.add (.color "b".toList red) (.text "d".toList)).colored = ⟨[], none, [('b', [['[', '3', '1']]), ('d', [])]⟩ := by decide

/-- C150: filling up a colored string keeps its color, and gives it the width wanted. -/
theorem C150_ljust (s c : Str) (width : Nat) :
    ∃ s', (CStr.color s c).ljust width = some (.color s' c) ∧ s <+: s' ∧ (∀ x ∈ s'.drop s.length, x = ' ') ∧ s'.length = max width s.length := by
  refine ⟨_, rfl, List.prefix_append _ _, ?_, ?_⟩
  · rw [List.drop_left]
    intro x hx
    exact (List.mem_replicate.1 hx).2
  · simp only [List.length_append, List.length_replicate]
    omega

example : (CStr.add (.add (.text "a".toList) (.color "bc".toList red)) (.text "d".toList)).str = "abcd".toList ∧
    (CStr.add (.add (.text "a".toList) (.color "bc".toList red)) (.text "d".toList)).colored = "a".toList ++ red ++ "bc".toList ++ foreReset ++ "d".toList ∧
    (CStr.color "bc".toList red).ljust 4 = some (.color "bc  ".toList red) := by decide

end Slash.Col
