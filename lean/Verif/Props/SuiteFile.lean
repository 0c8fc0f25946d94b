import Verif.Model.SuiteFile
/-!
# Properties of suite files (C50, C53, C78)
-/
namespace Slash.Suite
open Slash.Pat (M matcher andMatchers isIn)

/-! ### Suite files as one writes them -/

/-- Only white space. -/
def Ws (s : Str) : Prop := ∀ c ∈ s, isWs c = true

/-- White space is what Python takes for it: spaces, tabs, line ends, vertical tabs and form feeds. -/
theorem C50_white_space (s : Str) : Ws s ↔ ∀ c ∈ s, c ∈ [' ', '\t', '\n', '\r', '\x0b', '\x0c'] := by
  unfold Ws isWs
  simp only [Bool.or_eq_true, decide_eq_true_eq, List.mem_cons, List.not_mem_nil, or_false, or_assoc]

/-- No white space at either end. -/
def Trim (s : Str) : Prop := (∀ c, s.head? = some c → isWs c = false) ∧ (∀ c, s.getLast? = some c → isWs c = false)

/-- A directive after the `#` of a line. -/
inductive Kind where
  | filter (t : Str)
  | rep (t : Str)
  | other (t : Str)

/-- How it is written. -/
def Kind.text : Kind → Str
  | .filter t => kwFilter ++ t
  | .rep t => kwRepeat ++ t
  | .other t => t

/-- A directive with white space around it. -/
structure Directive where
  pre : Str
  kind : Kind
  post : Str

/-- How it is written. -/
def Directive.text (d : Directive) : Str := d.pre ++ d.kind.text ++ d.post

/-- It has no comma, and what is not a filter or a repetition does not look like one. -/
structure Directive.Ok (d : Directive) : Prop where
  pre : Ws d.pre
  post : Ws d.post
  comma : ',' ∉ d.kind.text
  trim : Trim d.kind.text
  other : ∀ t, d.kind = .other t → ¬ kwFilter <+: t ∧ ¬ kwRepeat <+: t

/-- Directives separated by commas. -/
def joined : List Directive → Str
  | [] => []
  | [d] => d.text
  | d :: ds => d.text ++ ',' :: joined ds

/-- A line of a suite file: nothing, a comment, or a path with directives (none, or after a `#`). -/
inductive ALine where
  | empty
  | comment (t : Str)
  | entry (path gap : Str) (ds : List Directive)

/-- How a line is written, apart from white space around it. -/
def ALine.core : ALine → Str
  | .empty => []
  | .comment t => '#' :: t
  | .entry path _ [] => path
  | .entry path gap (d :: ds) => path ++ gap ++ '#' :: joined (d :: ds)

/-- The path is there, has no `#`, and directives are as described. -/
def ALine.Ok : ALine → Prop
  | .empty => True
  | .comment t => Trim ('#' :: t)
  | .entry path gap ds => path ≠ [] ∧ '#' ∉ path ∧ Trim path ∧ Ws gap ∧ (∀ d ∈ ds, d.Ok) ∧ Trim (ALine.entry path gap ds).core

/-- The text of a line is one for this description. -/
def Renders (l : ALine) (t : Str) : Prop := l.Ok ∧ ∃ a b, Ws a ∧ Ws b ∧ t = a ++ l.core ++ b

/-- The filters given by directives, in order. -/
def filters (ds : List Directive) : List Str := ds.filterMap (fun d => match d.kind with | .filter t => some t | _ => none)

/-- The repetitions given by directives, in order. -/
def reps (ds : List Directive) : List Str := ds.filterMap (fun d => match d.kind with | .rep t => some t | _ => none)

/-! ### White space and splitting -/

theorem dropWhile_ws (a s : Str) (ha : Ws a) (hs : ∀ c, s.head? = some c → isWs c = false) :
    (a ++ s).dropWhile isWs = s := by
  induction a with
  | nil =>
    cases s with
    | nil => rfl
    | cons c s => simp [List.dropWhile, hs c rfl]
  | cons c a ih =>
    have := ha c (by simp)
    simp only [List.cons_append, List.dropWhile, this]
    exact ih (fun x hx => ha x (by simp [hx]))

theorem dropWhile_all (a : Str) (ha : Ws a) : a.dropWhile isWs = [] := by
  have := dropWhile_ws a [] ha (by simp)
  simpa using this

theorem strip_padded (a s b : Str) (ha : Ws a) (hb : Ws b) (hs : Trim s) : strip (a ++ s ++ b) = s := by
  unfold strip
  cases s with
  | nil =>
    have : Ws (a ++ b) := fun c hc => (List.mem_append.1 hc).elim (ha c) (hb c)
    simp [dropWhile_all _ this]
  | cons c s =>
    rw [List.append_assoc, dropWhile_ws a _ ha (by simpa using hs.1)]
    rw [List.reverse_append, dropWhile_ws _ _ (fun x hx => hb x (by simpa using hx))]
    · simp
    · intro x hx
      exact hs.2 x (by rw [List.head?_reverse] at hx; exact hx)

theorem strip_trim (s : Str) (hs : Trim s) : strip s = s := by
  simpa using strip_padded [] s [] (by simp [Ws]) (by simp [Ws]) hs

theorem dropWhile_head (s : Str) (c : Char) (h : (s.dropWhile isWs).head? = some c) : isWs c = false := by
  induction s with
  | nil => simp at h
  | cons x s ih =>
    rw [List.dropWhile] at h
    split at h
    · exact ih h
    · next hx => simp only [List.head?_cons, Option.some.injEq] at h; subst h; simpa using hx

theorem dropWhile_split (s : Str) : ∃ a, Ws a ∧ s = a ++ s.dropWhile isWs :=
  ⟨s.takeWhile isWs, fun c hc => by simpa using (List.all_eq_true.1 List.all_takeWhile) c hc,
    (List.takeWhile_append_dropWhile).symm⟩

theorem strip_spec (s : Str) : ∃ a b, Ws a ∧ Ws b ∧ Trim (strip s) ∧ s = a ++ strip s ++ b := by
  obtain ⟨a, ha, h1⟩ := dropWhile_split s
  obtain ⟨b, hb, h2⟩ := dropWhile_split (s.dropWhile isWs).reverse
  have h3 : s.dropWhile isWs = strip s ++ b.reverse := by
    have := congrArg List.reverse h2
    simpa [strip] using this
  refine ⟨a, b.reverse, ha, fun c hc => hb c (by simpa using hc), ⟨?_, ?_⟩, ?_⟩
  · intro c hc
    refine dropWhile_head s c ?_
    rw [h3, List.head?_append, hc]; rfl
  · intro c hc
    refine dropWhile_head (s.dropWhile isWs).reverse c ?_
    simpa [strip] using hc
  · rw [List.append_assoc, ← h3, ← h1]

theorem splitOn_ne (c : Char) (s : Str) : splitOn c s ≠ [] := by
  cases s with
  | nil => simp [splitOn]
  | cons x xs => rw [splitOn]; split <;> (try split) <;> simp

theorem splitOn_nosep (c : Char) (s : Str) (h : c ∉ s) : splitOn c s = [s] := by
  induction s with
  | nil => rfl
  | cons x xs ih =>
    have h : c ≠ x ∧ c ∉ xs := by simpa using h
    rw [splitOn, ih h.2]
    simp [Ne.symm h.1]

theorem splitOn_sep (c : Char) (s t : Str) (h : c ∉ s) : splitOn c (s ++ c :: t) = s :: splitOn c t := by
  induction s with
  | nil =>
    rw [List.nil_append, splitOn]
    cases hs : splitOn c t with
    | nil => exact absurd hs (splitOn_ne c t)
    | cons y ys => simp
  | cons x xs ih =>
    have h : c ≠ x ∧ c ∉ xs := by simpa using h
    rw [List.cons_append, splitOn, ih h.2]
    simp [Ne.symm h.1]

theorem Ws.no (s : Str) (h : Ws s) (c : Char) (hc : isWs c = false) : c ∉ s := fun hm => by
  rw [h c hm] at hc; cases hc

theorem Directive.Ok.noComma {d : Directive} (h : d.Ok) : ',' ∉ d.text := by
  simp only [Directive.text, List.mem_append, not_or]
  exact ⟨⟨Ws.no _ h.pre _ (by decide), h.comma⟩, Ws.no _ h.post _ (by decide)⟩

theorem splitOn_joined (d : Directive) (ds : List Directive) (h : ∀ x ∈ d :: ds, x.Ok) :
    splitOn ',' (joined (d :: ds)) = (d :: ds).map Directive.text := by
  induction ds generalizing d with
  | nil => simpa [joined] using splitOn_nosep ',' d.text (h d (by simp)).noComma
  | cons e ds ih =>
    rw [joined, splitOn_sep _ _ _ (h d (by simp)).noComma, ih e (fun x hx => h x (List.mem_cons_of_mem _ hx))]
    · rfl
    · simp

theorem afterFirst_append (c : Char) (s t : Str) (h : c ∉ s) : afterFirst c (s ++ c :: t) = t := by
  unfold afterFirst
  induction s with
  | nil => simp
  | cons x xs ih =>
    have h : c ≠ x ∧ c ∉ xs := by simpa using h
    rw [List.cons_append, List.dropWhile]
    simpa [Ne.symm h.1] using ih h.2

theorem beforeFirst_append (c : Char) (s t : Str) (h : c ∉ s) : beforeFirst c (s ++ c :: t) = s := by
  unfold beforeFirst
  induction s with
  | nil => simp
  | cons x xs ih =>
    have h : c ≠ x ∧ c ∉ xs := by simpa using h
    rw [List.cons_append, List.takeWhile]
    simpa [Ne.symm h.1] using ih h.2

/-! ### Parsing a line -/

/-- All filters are well-formed and all repetitions are numbers. -/
def Valid (env : Env) (ds : List Directive) : Prop :=
  (∀ t ∈ filters ds, (matcher t).isSome = true) ∧ (∀ t ∈ reps ds, (env.int t).isSome = true)

/-- The filter of a line: that of the last filter directive, otherwise `m`. -/
def lastFilter (ds : List Directive) (m : Option M := none) : Option M :=
  match (filters ds).getLast? with | none => m | some t => matcher t

/-- How often a line is repeated: as the last repetition directive says, otherwise `k`. -/
def lastRep (env : Env) (ds : List Directive) (k : Int := 1) : Int :=
  match (reps ds).getLast? with | none => k | some t => (env.int t).getD k

theorem getLast?_cons' {α : Type} (a : α) (l : List α) : (a :: l).getLast? = some (l.getLast?.getD a) := by
  cases l with
  | nil => rfl
  | cons b l => rw [List.getLast?_cons_cons, List.getLast?_cons]; rfl

theorem startsWith_append (p t : Str) : startsWith (p ++ t) p = true := by
  simp [startsWith, List.isPrefixOf_iff_prefix]

theorem startsWith_false (p t : Str) (h : ¬ p <+: t) : startsWith t p = false := by
  rw [← Bool.not_eq_true, startsWith, List.isPrefixOf_iff_prefix]; exact h

theorem filter_not_repeat (t : Str) : startsWith (kwFilter ++ t) kwRepeat = false := by
  simp [startsWith, List.isPrefixOf, kwFilter, kwRepeat]

theorem repeat_not_filter (t : Str) : startsWith (kwRepeat ++ t) kwFilter = false := by
  simp [startsWith, List.isPrefixOf, kwFilter, kwRepeat]

theorem after_filter (t : Str) : afterFirst ':' (kwFilter ++ t) = t := by simp [afterFirst, List.dropWhile, kwFilter, kwRepeat]

theorem after_repeat (t : Str) : afterFirst ':' (kwRepeat ++ t) = t := by simp [afterFirst, List.dropWhile, kwFilter, kwRepeat]

theorem parseParts_cons (env : Env) (d : Directive) (hd : d.Ok) (rs : List Str) (m : Option M) (k : Int) :
    parseParts env (d.text :: rs) m k = match d.kind with
      | .filter t => (matcher t).bind (fun x => parseParts env rs (some x) k)
      | .rep t => (env.int t).bind (fun x => parseParts env rs m x)
      | .other _ => parseParts env rs m k := by
  have hs : strip d.text = d.kind.text := strip_padded _ _ _ hd.pre hd.post hd.trim
  rw [parseParts, hs]
  cases hk : d.kind with
  | filter t =>
    simp only [Kind.text, startsWith_append, filter_not_repeat, after_filter, if_true]
    cases matcher t <;> simp
  | rep t =>
    simp only [Kind.text, startsWith_append, repeat_not_filter, after_repeat, if_true]
    cases env.int t <;> simp
  | other t =>
    obtain ⟨h1, h2⟩ := hd.other t hk
    simp [Kind.text, startsWith_false _ _ h1, startsWith_false _ _ h2]

theorem parseParts_ok (env : Env) (ds : List Directive) (h : ∀ d ∈ ds, d.Ok) (hv : Valid env ds) (m : Option M) (k : Int) :
    parseParts env (ds.map Directive.text) m k = some (lastFilter ds m, lastRep env ds k) := by
  induction ds generalizing m k with
  | nil => rfl
  | cons d ds ih =>
    have ih := ih (fun x hx => h x (List.mem_cons_of_mem _ hx))
    rw [List.map_cons, parseParts_cons env d (h d (by simp))]
    unfold Valid filters reps at hv
    rw [List.filterMap_cons, List.filterMap_cons] at hv
    unfold lastFilter lastRep filters reps
    rw [List.filterMap_cons, List.filterMap_cons]
    cases hk : d.kind with
    | filter t =>
      simp only [hk] at hv ⊢
      obtain ⟨x, hx⟩ := Option.isSome_iff_exists.1 (hv.1 t (by simp))
      rw [hx, Option.bind_some, ih ⟨fun t ht => hv.1 t (List.mem_cons_of_mem _ ht), hv.2⟩, getLast?_cons']
      unfold lastFilter lastRep filters reps
      cases (List.filterMap _ ds).getLast? <;> simp [hx]
    | rep t =>
      simp only [hk] at hv ⊢
      obtain ⟨x, hx⟩ := Option.isSome_iff_exists.1 (hv.2 t (by simp))
      rw [hx, Option.bind_some, ih ⟨hv.1, fun t ht => hv.2 t (List.mem_cons_of_mem _ ht)⟩, getLast?_cons']
      unfold lastFilter lastRep filters reps
      cases hl : (List.filterMap (fun d : Directive => match d.kind with | .rep t => some t | _ => none) ds).getLast? with
      | none => simp [hx]
      | some u =>
        obtain ⟨y, hy⟩ := Option.isSome_iff_exists.1 (hv.2 u (List.mem_cons_of_mem _ (List.mem_of_getLast? hl)))
        simp [hy]
    | other t =>
      simp only [hk] at hv ⊢
      exact ih hv m k

theorem parseParts_invalid (env : Env) (ds : List Directive) (h : ∀ d ∈ ds, d.Ok) (hv : ¬ Valid env ds) (m : Option M) (k : Int) :
    parseParts env (ds.map Directive.text) m k = none := by
  induction ds generalizing m k with
  | nil => exact absurd ⟨by simp [filters], by simp [reps]⟩ hv
  | cons d ds ih =>
    have ih := ih (fun x hx => h x (List.mem_cons_of_mem _ hx))
    rw [List.map_cons, parseParts_cons env d (h d (by simp))]
    unfold Valid filters reps at hv
    rw [List.filterMap_cons, List.filterMap_cons] at hv
    cases hk : d.kind with
    | filter t =>
      simp only [hk] at hv ⊢
      cases hx : matcher t with
      | none => rfl
      | some x =>
        refine ih (fun hv' => hv ⟨fun u hu => ?_, hv'.2⟩) _ _
        rcases List.mem_cons.1 hu with rfl | hu
        · simp [hx]
        · exact hv'.1 u hu
    | rep t =>
      simp only [hk] at hv ⊢
      cases hx : env.int t with
      | none => rfl
      | some x =>
        refine ih (fun hv' => hv ⟨hv'.1, fun u hu => ?_⟩) _ _
        rcases List.mem_cons.1 hu with rfl | hu
        · simp [hx]
        · exact hv'.2 u hu
    | other t =>
      simp only [hk] at hv ⊢
      exact ih hv m k

theorem parseEntry_entry (env : Env) (path gap : Str) (ds : List Directive) (h : (ALine.entry path gap ds).Ok) :
    (Valid env ds → parseEntry env (ALine.entry path gap ds).core = some (path, lastFilter ds, lastRep env ds)) ∧
    (¬ Valid env ds → parseEntry env (ALine.entry path gap ds).core = none) := by
  obtain ⟨hp, hh, ht, hg, hd, -⟩ := h
  cases ds with
  | nil =>
    refine ⟨fun _ => ?_, fun hv => absurd ⟨by simp [filters], by simp [reps]⟩ hv⟩
    rw [parseEntry, ALine.core, if_pos hh]; rfl
  | cons d ds =>
    have hb : '#' ∉ path ++ gap := by
      simp only [List.mem_append, not_or]; exact ⟨hh, Ws.no _ hg _ (by decide)⟩
    have h1 : strip (path ++ gap) = path := by
      simpa using strip_padded [] path gap (by simp [Ws]) hg ht
    rw [parseEntry, ALine.core, if_neg (by simp), afterFirst_append _ _ _ hb, beforeFirst_append _ _ _ hb,
      splitOn_joined d ds hd, h1]
    exact ⟨fun hv => by rw [parseParts_ok env _ hd hv]; rfl, fun hv => by rw [parseParts_invalid env _ hd hv]; rfl⟩

theorem ALine.Ok.trim {l : ALine} (h : l.Ok) : Trim l.core := by
  cases l with
  | empty => exact ⟨by simp [core], by simp [core]⟩
  | comment t => exact h
  | entry p g ds => exact h.2.2.2.2.2

theorem Renders.strip {l : ALine} {t : Str} (h : Renders l t) : strip t = l.core := by
  obtain ⟨ho, a, b, ha, hb, rfl⟩ := h
  exact strip_padded _ _ _ ha hb ho.trim

/-- The text of an entry does not begin with `#` and is not empty. -/
theorem entry_head {path gap : Str} {ds : List Directive} (h : (ALine.entry path gap ds).Ok) :
    ((ALine.entry path gap ds).core.isEmpty || startsWith (ALine.entry path gap ds).core ['#']) = false := by
  obtain ⟨hp, hh, -⟩ := h
  cases path with
  | nil => exact absurd rfl hp
  | cons c path =>
    have : '#' ≠ c := by simp at hh; exact hh.1
    cases ds <;> simp [ALine.core, startsWith, List.isPrefixOf, this]

theorem takeWhile_none (c : Char) (s : Str) : c ∉ s.takeWhile (· ≠ c) := fun h => by
  have := (List.all_eq_true.1 (List.all_takeWhile (p := fun x => decide (x ≠ c)) (l := s))) c h
  simp at this

theorem split_first (c : Char) (s : Str) (h : c ∈ s) : s = beforeFirst c s ++ c :: afterFirst c s := by
  unfold beforeFirst afterFirst
  induction s with
  | nil => simp at h
  | cons x xs ih =>
    by_cases hx : x = c
    · subst hx; simp
    · have : c ∈ xs := by simpa [Ne.symm hx] using h
      simp only [List.takeWhile, List.dropWhile, hx, ne_eq, not_false_eq_true, decide_true]
      rw [List.cons_append, ← ih this]

/-- Every text without a comma is that of a directive. -/
theorem exists_directive (t : Str) (h : ',' ∉ t) : ∃ d : Directive, d.Ok ∧ d.text = t := by
  obtain ⟨a, b, ha, hb, ht, e⟩ := strip_spec t
  have hc : ',' ∉ strip t := fun hm => h (by rw [e]; simp [hm])
  by_cases h1 : kwFilter <+: strip t
  · obtain ⟨u, hu⟩ := h1
    exact ⟨⟨a, .filter u, b⟩, ⟨ha, hb, by rw [Kind.text, hu]; exact hc, by rw [Kind.text, hu]; exact ht, by simp⟩, by
      rw [Directive.text, Kind.text, hu, ← e]⟩
  · by_cases h2 : kwRepeat <+: strip t
    · obtain ⟨u, hu⟩ := h2
      exact ⟨⟨a, .rep u, b⟩, ⟨ha, hb, by rw [Kind.text, hu]; exact hc, by rw [Kind.text, hu]; exact ht, by simp⟩, by
        rw [Directive.text, Kind.text, hu, ← e]⟩
    · refine ⟨⟨a, .other (strip t), b⟩, ⟨ha, hb, hc, ht, ?_⟩, by rw [Directive.text, Kind.text, ← e]⟩
      rintro t' ⟨⟩
      exact ⟨h1, h2⟩

theorem exists_directives (n : Nat) (t : Str) (hn : t.length ≤ n) :
    ∃ (d : Directive) (ds : List Directive), (∀ x ∈ d :: ds, x.Ok) ∧ joined (d :: ds) = t := by
  induction n generalizing t with
  | zero =>
    have : t = [] := List.length_eq_zero_iff.1 (by omega)
    subst this
    obtain ⟨d, hd, e⟩ := exists_directive [] (by simp)
    exact ⟨d, [], by simpa using hd, by simpa [joined] using e⟩
  | succ n ih =>
    by_cases hc : ',' ∈ t
    · have hs := split_first ',' t hc
      have hl : (afterFirst ',' t).length ≤ n := by
        have := congrArg List.length hs
        simp at this; omega
      obtain ⟨d', ds', h1, h2⟩ := ih _ hl
      obtain ⟨d, hd, e⟩ := exists_directive (beforeFirst ',' t) (takeWhile_none _ _)
      refine ⟨d, d' :: ds', ?_, ?_⟩
      · intro x hx
        rcases List.mem_cons.1 hx with rfl | hx
        · exact hd
        · exact h1 x hx
      · rw [joined, h2, e, ← hs]; simp
    · obtain ⟨d, hd, e⟩ := exists_directive t hc
      exact ⟨d, [], by simpa using hd, by simpa [joined] using e⟩

/-- C50: the descriptions of lines used below cover every line of text. -/
theorem C50_every_line (t : Str) : ∃ l, Renders l t := by
  obtain ⟨a, b, ha, hb, ht, e⟩ := strip_spec t
  cases hs : strip t with
  | nil => exact ⟨.empty, trivial, a, b, ha, hb, by rw [hs] at e; exact e⟩
  | cons c u =>
    rw [hs] at ht e
    by_cases hc : c = '#'
    · subst hc
      exact ⟨.comment u, ht, a, b, ha, hb, e⟩
    · by_cases hh : '#' ∈ c :: u
      · have hsp := split_first '#' _ hh
        obtain ⟨d, ds, hd, hj⟩ := exists_directives _ (afterFirst '#' (c :: u)) (Nat.le_refl _)
        obtain ⟨a', b', ha', hb', ht', e'⟩ := strip_spec (beforeFirst '#' (c :: u))
        have hbf : beforeFirst '#' (c :: u) = c :: beforeFirst '#' u := by simp [beforeFirst, List.takeWhile, hc]
        have ha0 : a' = [] := by
          cases a' with
          | nil => rfl
          | cons x a' =>
            rw [hbf] at e'
            simp only [List.cons_append, List.cons.injEq] at e'
            have h1 := ha' x (by simp)
            have h2 := ht.1 c rfl
            rw [← e'.1, h2] at h1
            cases h1
        subst ha0
        rw [List.nil_append] at e'
        have hne : strip (beforeFirst '#' (c :: u)) ≠ [] := by
          intro h0
          rw [h0, List.nil_append, hbf] at e'
          have h1 := hb' c (by rw [← e']; simp)
          have h2 := ht.1 c rfl
          rw [h2] at h1
          cases h1
        have hcore : (ALine.entry (strip (beforeFirst '#' (c :: u))) b' (d :: ds)).core = c :: u := by
          rw [ALine.core, hj, ← e', ← hsp]
        refine ⟨.entry (strip (beforeFirst '#' (c :: u))) b' (d :: ds), ⟨hne, ?_, ht', hb', hd, by rw [hcore]; exact ht⟩,
          a, b, ha, hb, by rw [hcore]; exact e⟩
        intro hm
        have := takeWhile_none '#' (c :: u)
        exact this (by
          show '#' ∈ beforeFirst '#' (c :: u)
          rw [e']; simp [hm])
      · exact ⟨.entry (c :: u) [] [], ⟨by simp, hh, ht, by simp [Ws], by simp, ht⟩, a, b, ha, hb, e⟩

/-- A line with blanks, two filters of which the last one counts, a repetition and a remark. -/
example : Renders (.entry ['a', '.', 'p', 'y'] [' ']
      [⟨[' '], .filter ['x'], []⟩, ⟨[], .other ['o', 'h'], []⟩, ⟨[' '], .rep ['3'], []⟩, ⟨[], .filter ['y'], []⟩])
    "  a.py # filter:x,oh, repeat:3,filter:y \n".toList := by
  refine ⟨⟨by simp, by decide, ⟨by decide, by decide⟩, by simp [Ws, isWs], ?_, ⟨by decide, by decide⟩⟩,
    [' ', ' '], [' ', '\n'], by simp [Ws, isWs], by simp [Ws, isWs], by decide⟩
  intro d hd
  simp only [List.mem_cons, List.not_mem_nil, or_false] at hd
  rcases hd with rfl | rfl | rfl | rfl <;>
    exact ⟨by simp [Ws, isWs], by simp [Ws], by decide, ⟨by decide, by decide⟩, by simp [kwFilter, kwRepeat]⟩

/-! ### Expansion -/

/-- A path names another suite file: it does not end with `.py`, does not contain `.py:` and is not a directory. -/
structure NamesSuite (env : Env) (path : Str) : Prop where
  ext : ¬ ∃ p, path = p ++ ['.', 'p', 'y']
  colon : ¬ ∃ a b, path = a ++ ['.', 'p', 'y', ':'] ++ b
  dir : env.isDir path = false

theorem isIn_iff (w s : Str) : isIn w s = true ↔ ∃ a b, s = a ++ w ++ b := by
  induction s with
  | nil =>
    rw [isIn, List.isPrefixOf_iff_prefix]
    constructor
    · rintro ⟨t, ht⟩; exact ⟨[], t, by simpa using ht.symm⟩
    · rintro ⟨a, b, h⟩
      have := congrArg List.length h
      simp at this
      have : w = [] := List.length_eq_zero_iff.1 (by omega)
      subst this; exact List.nil_prefix
  | cons c s ih =>
    rw [isIn, Bool.or_eq_true, List.isPrefixOf_iff_prefix, ih]
    constructor
    · rintro (⟨t, ht⟩ | ⟨a, b, h⟩)
      · exact ⟨[], t, by simpa using ht.symm⟩
      · exact ⟨c :: a, b, by rw [h]; rfl⟩
    · rintro ⟨a, b, h⟩
      cases a with
      | nil => exact .inl ⟨b, by simpa using h.symm⟩
      | cons x a =>
        simp only [List.cons_append, List.cons.injEq] at h
        exact .inr ⟨a, b, h.2⟩

theorem isSuite_iff (env : Env) (path : Str) : isSuite env path = true ↔ NamesSuite env path := by
  unfold isSuite
  simp only [Bool.and_eq_true, Bool.not_eq_true', ← Bool.not_eq_true, isIn_iff, List.isSuffixOf_iff_suffix]
  constructor
  · rintro ⟨⟨h1, h2⟩, h3⟩
    exact ⟨fun ⟨p, hp⟩ => h1 ⟨p, hp.symm⟩, h2, by simpa using h3⟩
  · rintro ⟨h1, h2, h3⟩
    exact ⟨⟨fun ⟨p, hp⟩ => h1 ⟨p, hp.symm⟩, h2⟩, by simpa using h3⟩

/-- Where a path in a suite file leads: an absolute one by itself, another one from the directory of the suite file. -/
def located (env : Env) (file : Str) : Str → Str
  | '/' :: p => '/' :: p
  | p => env.rel file p

theorem resolve_eq (env : Env) (file path : Str) : resolve env file path = located env file path := by
  unfold resolve located
  split
  · rename_i h
    cases path with
    | nil => cases h
    | cons c p => cases h; rfl
  · rename_i h
    split
    · simp at h
    · rfl

mutual
/-- What a suite file expands to: the entries of its lines, in order. -/
inductive Expands (env : Env) : Str → List (Str × Option M) → Prop
  | file {file : Str} {ls : List Str} {out : List (Str × Option M)} :
      env.lines file = some ls → ExpandsLines env file ls out → Expands env file out
/-- What lines of a file expand to: blank lines and comments to nothing; a path of tests to that path, as often as the
line says, with the filter of the line; the path of another suite file to what that one expands to, with the filter of
the line in addition. -/
inductive ExpandsLines (env : Env) : Str → List Str → List (Str × Option M) → Prop
  | nil {file : Str} : ExpandsLines env file [] []
  | blank {file t : Str} {ls : List Str} {out : List (Str × Option M)} :
      Renders .empty t → ExpandsLines env file ls out → ExpandsLines env file (t :: ls) out
  | comment {file t u : Str} {ls : List Str} {out : List (Str × Option M)} :
      Renders (.comment u) t → ExpandsLines env file ls out → ExpandsLines env file (t :: ls) out
  | tests {file t path gap : Str} {ds : List Directive} {ls : List Str} {out : List (Str × Option M)} :
      Renders (.entry path gap ds) t → Valid env ds → ¬ NamesSuite env (located env file path) →
      ExpandsLines env file ls out →
      ExpandsLines env file (t :: ls)
        (List.replicate (lastRep env ds).toNat (located env file path, lastFilter ds) ++ out)
  | nested {file t path gap : Str} {ds : List Directive} {ls : List Str} {sub out : List (Str × Option M)} :
      Renders (.entry path gap ds) t → Valid env ds → NamesSuite env (located env file path) →
      Expands env (located env file path) sub → ExpandsLines env file ls out →
      ExpandsLines env file (t :: ls) (sub.map (fun p => (p.1, andMatchers (lastFilter ds) p.2)) ++ out)
end

theorem iterLine_blank (env : Env) (nested : Str → Option (List (Str × Option M))) (file t : Str) (h : Renders .empty t) :
    iterLine env nested file t = some [] := by
  rw [iterLine, h.strip]; rfl

theorem iterLine_comment (env : Env) (nested : Str → Option (List (Str × Option M))) (file t u : Str)
    (h : Renders (.comment u) t) : iterLine env nested file t = some [] := by
  rw [iterLine, h.strip]
  simp [ALine.core, startsWith, List.isPrefixOf]

theorem iterLine_entry (env : Env) (nested : Str → Option (List (Str × Option M))) (file t path gap : Str)
    (ds : List Directive) (h : Renders (.entry path gap ds) t) :
    (¬ Valid env ds → iterLine env nested file t = none) ∧
    (Valid env ds → iterLine env nested file t = if isSuite env (located env file path) = true then
      (nested (located env file path)).map (fun l => l.map (fun p => (p.1, andMatchers (lastFilter ds) p.2)))
      else some (List.replicate (lastRep env ds).toNat (located env file path, lastFilter ds))) := by
  obtain ⟨h1, h2⟩ := parseEntry_entry env path gap ds h.1
  rw [iterLine, h.strip, entry_head h.1, if_neg (by simp)]
  exact ⟨fun hv => by rw [h2 hv], fun hv => by rw [h1 hv]; simp only [resolve_eq]⟩

theorem iterLines_cons (env : Env) (nested : Str → Option (List (Str × Option M))) (file t : Str) (ls : List Str)
    (out : List (Str × Option M)) : iterLines env nested file (t :: ls) = some out ↔
      ∃ a b, iterLine env nested file t = some a ∧ iterLines env nested file ls = some b ∧ out = a ++ b := by
  rw [iterLines]
  cases iterLine env nested file t <;> cases iterLines env nested file ls <;> simp [eq_comm]

theorem iterLines_sound (env : Env) (nested : Str → Option (List (Str × Option M)))
    (hn : ∀ f out, nested f = some out → Expands env f out) (file : Str) (ls : List Str) :
    ∀ out, iterLines env nested file ls = some out → ExpandsLines env file ls out := by
  induction ls with
  | nil => intro out h; simp only [iterLines, Option.some.injEq] at h; subst h; exact .nil
  | cons t ls ih =>
    intro out h
    obtain ⟨a, b, h1, h2, rfl⟩ := (iterLines_cons ..).1 h
    have ih := ih b h2
    obtain ⟨l, hl⟩ := C50_every_line t
    cases l with
    | empty => rw [iterLine_blank _ _ _ _ hl] at h1; cases h1; exact .blank hl ih
    | comment u => rw [iterLine_comment _ _ _ _ _ hl] at h1; cases h1; exact .comment hl ih
    | entry path gap ds =>
      obtain ⟨e1, e2⟩ := iterLine_entry env nested file t path gap ds hl
      by_cases hv : Valid env ds
      · rw [e2 hv] at h1
        by_cases hs : isSuite env (located env file path) = true
        · rw [if_pos hs] at h1
          obtain ⟨sub, hsub, rfl⟩ := Option.map_eq_some_iff.1 h1
          exact .nested hl hv ((isSuite_iff ..).1 hs) (hn _ _ hsub) ih
        · rw [if_neg hs] at h1
          cases h1
          exact .tests hl hv (fun hc => hs ((isSuite_iff ..).2 hc)) ih
      · rw [e1 hv] at h1; cases h1

theorem iterFile_sound (env : Env) (n : Nat) : ∀ file out, iterFile env n file = some out → Expands env file out := by
  induction n with
  | zero => intro file out h; simp [iterFile] at h
  | succ n ih =>
    intro file out h
    rw [iterFile] at h
    cases hl : env.lines file with
    | none => rw [hl] at h; cases h
    | some ls => rw [hl] at h; exact .file hl (iterLines_sound env _ ih file ls out h)

theorem iterLines_mono (env : Env) (r1 r2 : Str → Option (List (Str × Option M)))
    (hr : ∀ f out, r1 f = some out → r2 f = some out) (file : Str) (ls : List Str) :
    ∀ out, iterLines env r1 file ls = some out → iterLines env r2 file ls = some out := by
  induction ls with
  | nil => intro out h; exact h
  | cons t ls ih =>
    intro out h
    obtain ⟨a, b, h1, h2, rfl⟩ := (iterLines_cons ..).1 h
    refine (iterLines_cons ..).2 ⟨a, b, ?_, ih b h2, rfl⟩
    obtain ⟨l, hl⟩ := C50_every_line t
    cases l with
    | empty => rw [iterLine_blank _ _ _ _ hl] at h1 ⊢; exact h1
    | comment u => rw [iterLine_comment _ _ _ _ _ hl] at h1 ⊢; exact h1
    | entry path gap ds =>
      obtain ⟨e1, e2⟩ := iterLine_entry env r1 file t path gap ds hl
      obtain ⟨f1, f2⟩ := iterLine_entry env r2 file t path gap ds hl
      by_cases hv : Valid env ds
      · rw [e2 hv] at h1
        rw [f2 hv]
        by_cases hs : isSuite env (located env file path) = true
        · rw [if_pos hs] at h1 ⊢
          obtain ⟨sub, hsub, rfl⟩ := Option.map_eq_some_iff.1 h1
          rw [hr _ _ hsub]; rfl
        · rw [if_neg hs] at h1 ⊢; exact h1
      · rw [e1 hv] at h1; cases h1

theorem iterFile_mono (env : Env) (n m : Nat) (h : n ≤ m) :
    ∀ file out, iterFile env n file = some out → iterFile env m file = some out := by
  induction n generalizing m with
  | zero => intro file out h; simp [iterFile] at h
  | succ n ih =>
    intro file out h'
    cases m with
    | zero => omega
    | succ m =>
      rw [iterFile] at h' ⊢
      cases hl : env.lines file with
      | none => rw [hl] at h'; cases h'
      | some ls =>
        rw [hl] at h'
        exact iterLines_mono env _ _ (ih m (by omega)) file ls out h'

mutual
theorem iterFile_complete (env : Env) : ∀ {file out}, Expands env file out → ∃ n, iterFile env n file = some out
  | _, _, .file hl h => by
    obtain ⟨n, hn⟩ := iterLines_complete env h
    exact ⟨n + 1, by rw [iterFile, hl]; exact hn⟩
theorem iterLines_complete (env : Env) : ∀ {file ls out}, ExpandsLines env file ls out →
    ∃ n, iterLines env (iterFile env n) file ls = some out
  | _, _, _, .nil => ⟨0, rfl⟩
  | _, _, _, .blank hl h => by
    obtain ⟨n, hn⟩ := iterLines_complete env h
    exact ⟨n, (iterLines_cons ..).2 ⟨[], _, iterLine_blank _ _ _ _ hl, hn, rfl⟩⟩
  | _, _, _, .comment hl h => by
    obtain ⟨n, hn⟩ := iterLines_complete env h
    exact ⟨n, (iterLines_cons ..).2 ⟨[], _, iterLine_comment _ _ _ _ _ hl, hn, rfl⟩⟩
  | _, _, _, .tests hl hv hs h => by
    obtain ⟨n, hn⟩ := iterLines_complete env h
    refine ⟨n, (iterLines_cons ..).2 ⟨_, _, ?_, hn, rfl⟩⟩
    rw [(iterLine_entry env _ _ _ _ _ _ hl).2 hv, if_neg (fun hc => hs ((isSuite_iff ..).1 hc))]
  | _, _, _, .nested hl hv hs hsub h => by
    obtain ⟨n, hn⟩ := iterFile_complete env hsub
    obtain ⟨m, hm⟩ := iterLines_complete env h
    refine ⟨max n m, (iterLines_cons ..).2 ⟨_, _, ?_,
      iterLines_mono env _ _ (iterFile_mono env m _ (by omega)) _ _ _ hm, rfl⟩⟩
    rw [(iterLine_entry env _ _ _ _ _ _ hl).2 hv, if_pos ((isSuite_iff ..).2 hs),
      iterFile_mono env n (max n m) (by omega) _ _ hn]
    rfl
end

/-- C50 (partial: filters with a comma are cut, see `C50_filter_with_comma_violated`): a suite file yields an expansion iff
that is what its lines say, whatever the lines are (`C50_every_line`). The number is the depth of nesting that is
possible, anything large enough gives the same (`C50_depth`). -/
theorem C50_expansion_partial (env : Env) (file : Str) (out : List (Str × Option M)) :
    (∃ n, iterFile env n file = some out) ↔ Expands env file out :=
  ⟨fun ⟨n, h⟩ => iterFile_sound env n file out h, iterFile_complete env⟩

theorem C50_depth (env : Env) (n m : Nat) (h : n ≤ m) (file : Str) (out : List (Str × Option M))
    (ho : iterFile env n file = some out) : iterFile env m file = some out := iterFile_mono env n m h file out ho

theorem Expands.unique {env : Env} {file : Str} {out out' : List (Str × Option M)} (h : Expands env file out)
    (h' : Expands env file out') : out = out' := by
  obtain ⟨n, hn⟩ := iterFile_complete env h
  obtain ⟨m, hm⟩ := iterFile_complete env h'
  have h1 := iterFile_mono env n (max n m) (by omega) _ _ hn
  have h2 := iterFile_mono env m (max n m) (by omega) _ _ hm
  rw [h1] at h2
  exact Option.some.inj h2

/-- C50: a test of a path that comes from a nested suite file is used iff both the filter of the including line and the
filter of the nested line accept it. -/
theorem C50_filters_conjoined (a b : Option M) (d : Pat.Meta) :
    Pat.sourceMatches (andMatchers a b) d = true ↔ Pat.sourceMatches a d = true ∧ Pat.sourceMatches b d = true := by
  cases a <;> cases b <;> simp [andMatchers, Pat.sourceMatches, M.matches, M.allMatch]

/-- An environment with two suite files for examples: `s` includes `t`. -/
def exEnv : Env where
  lines := fun f =>
    if f = ['s'] then some ["# tests".toList, "a.py # repeat: 2\n".toList, "t#filter:x".toList, "b.py".toList]
    else if f = ['t'] then some [" c.py:1 # filter:y".toList, [], "d.py".toList]
    else none
  isDir := fun _ => false
  rglob := fun _ => []
  rel := fun _ p => p
  int := fun t => if t = [' ', '2'] then some 2 else none

/-- What a matcher looks like, to compare it. -/
def names : Option M → List Str
  | none => []
  | some (.inc _ w) => [w]
  | some (.and [.inc _ w, .inc _ v]) => [w, v]
  | some _ => [[]]

example : (iterFile exEnv 2 ['s']).map (fun l => l.map (fun p => (String.ofList p.1, (names p.2).map String.ofList))) =
    some [("a.py", []), ("a.py", []), ("c.py:1", ["x", "y"]), ("d.py", ["x"]), ("b.py", [])] := by decide +kernel

/-- C50 is violated for filters with a comma, which is an ordinary character of filters elsewhere (in addresses, for
example): the filter ends at the comma. -/
theorem C50_filter_with_comma_violated :
    ∃ (env : Env) (t : Str), "a.py # filter:x,y".toList = t ∧
      (iterLine env (fun _ => none) [] t).map (fun l => l.map (fun p => names p.2)) = some [[['x']]] ∧
      names (matcher ['x', ',', 'y']) = [['x', ',', 'y']] :=
  ⟨exEnv, _, rfl, by decide +kernel, by decide +kernel⟩

/-- C53 is violated: a line naming another suite file gives what that file expands to once, though it says twice. -/
theorem C53_repeat_of_suite_violated :
    (iterLine exEnv (fun _ => some [(['a', '.', 'p', 'y'], none)]) [] "t # repeat: 2".toList).map List.length = some 1 ∧
      (parseEntry exEnv "t # repeat: 2".toList).map (·.2.2) = some 2 := by decide +kernel

/-- C53 (partial: for lines that say one repetition or nothing): a line naming another suite file yields the expansion of
that file as often as it says. -/
theorem C53_repeat_of_suite_partial (env : Env) (nested : Str → Option (List (Str × Option M))) (file t path gap : Str)
    (ds : List Directive) (h : Renders (.entry path gap ds) t) (hv : Valid env ds)
    (hs : NamesSuite env (located env file path)) (sub : List (Str × Option M))
    (hsub : nested (located env file path) = some sub) (h1 : lastRep env ds = 1) :
    iterLine env nested file t =
      some (List.replicate (lastRep env ds).toNat (sub.map (fun p => (p.1, andMatchers (lastFilter ds) p.2)))).flatten := by
  rw [(iterLine_entry env nested file t path gap ds h).2 hv, if_pos ((isSuite_iff ..).2 hs), hsub, h1]
  simp

example : NamesSuite exEnv ['t'] := by
  refine ⟨?_, ?_, rfl⟩
  · rintro ⟨p, hp⟩
    have := congrArg List.length hp
    simp at this
  · rintro ⟨a, b, hp⟩
    have := congrArg List.length hp
    simp at this
    omega

/-! ### Directories of suite files -/

/-- A file tree. -/
inductive Node where
  | file (name : Str)
  | dir (name : Str) (children : List Node)

/-- The name of what is in a tree. -/
def Node.name : Node → Str
  | .file n => n
  | .dir n _ => n

mutual
/-- Everything below, at any depth. -/
def Node.desc : Node → List Node
  | .file _ => []
  | .dir _ cs => Node.descAll cs
/-- The nodes of a list and everything below them. -/
def Node.descAll : List Node → List Node
  | [] => []
  | c :: cs => c :: (c.desc ++ Node.descAll cs)
end

mutual
/-- The files of a tree, each with the number of directories above it inside of the tree. -/
def Node.files : Node → List (Str × Nat)
  | .file n => [(n, 0)]
  | .dir _ cs => Node.filesAll cs
/-- The same for a list, whose nodes have one more directory above. -/
def Node.filesAll : List Node → List (Str × Nat)
  | [] => []
  | c :: cs => c.files.map (fun p => (p.1, p.2 + 1)) ++ Node.filesAll cs
end

mutual
/-- The depth of a tree. -/
def Node.depth : Node → Nat
  | .file _ => 0
  | .dir _ cs => Node.depthAll cs + 1
/-- The greatest depth of a list of trees. -/
def Node.depthAll : List Node → Nat
  | [] => 0
  | c :: cs => max c.depth (Node.depthAll cs)
end

/-- The environment has this tree: `isDir` tells directories and `rglob` lists what is below, in any order. -/
def Has (env : Env) (n : Node) : Prop :=
  ∀ m ∈ n :: n.desc, (env.isDir m.name = true ↔ ∃ x cs, m = .dir x cs) ∧ (env.rglob m.name).Perm (m.desc.map Node.name)

theorem extract_eq (env : Env) (n : Nat) (g : Str → List Str) (es : List Str)
    (h : ∀ e ∈ es, (if env.isDir e then extract env n (env.rglob e) else some [e]) = some (g e)) :
    extract env (n + 1) es = some (es.flatMap g) := by
  rw [extract]
  induction es with
  | nil => rfl
  | cons e es ih =>
    rw [concat, h e (by simp), ih (fun x hx => h x (List.mem_cons_of_mem _ hx))]
    rfl

/-- The files of a tree, those with `k + 1` directories above (inside of the tree) as often as `2 ^ k`. -/
def Node.weighted (n : Node) : List Str := n.files.flatMap (fun p => List.replicate (2 ^ (p.2 - 1)) p.1)

theorem filesAll_pos (cs : List Node) : ∀ p ∈ Node.filesAll cs, 1 ≤ p.2 := by
  induction cs with
  | nil => simp [Node.filesAll]
  | cons c cs ih =>
    intro p hp
    rw [Node.filesAll] at hp
    rcases List.mem_append.1 hp with hp | hp
    · obtain ⟨q, -, rfl⟩ := List.mem_map.1 hp
      simp
    · exact ih p hp

theorem count_double (x : Str) (L : List (Str × Nat)) (h : ∀ p ∈ L, 1 ≤ p.2) :
    ((L.map (fun p => (p.1, p.2 + 1))).flatMap (fun p => List.replicate (2 ^ (p.2 - 1)) p.1)).count x =
      2 * (L.flatMap (fun p => List.replicate (2 ^ (p.2 - 1)) p.1)).count x := by
  induction L with
  | nil => rfl
  | cons p L ih =>
    have ih := ih (fun q hq => h q (List.mem_cons_of_mem _ hq))
    obtain ⟨k, hk⟩ : ∃ k, p.2 = k + 1 := ⟨p.2 - 1, by have := h p (by simp); omega⟩
    rw [List.map_cons, List.flatMap_cons, List.flatMap_cons, List.count_append, List.count_append, ih, hk,
      List.count_replicate, List.count_replicate]
    simp only [Nat.add_sub_cancel]
    split
    · rw [Nat.pow_succ]; omega
    · omega

mutual
theorem count_desc (x : Str) : ∀ (n : Node), (∃ m cs, n = .dir m cs) →
    (n.desc.flatMap Node.weighted).count x = n.weighted.count x
  | .file _, h => by obtain ⟨m, cs, h⟩ := h; cases h
  | .dir m cs, _ => by
    have := count_descAll x cs
    rw [Node.desc, Node.weighted, Node.files]
    exact this
theorem count_descAll (x : Str) : ∀ (cs : List Node), ((Node.descAll cs).flatMap Node.weighted).count x =
    ((Node.filesAll cs).flatMap (fun p => List.replicate (2 ^ (p.2 - 1)) p.1)).count x
  | [] => by simp [Node.descAll, Node.filesAll]
  | c :: cs => by
    have ih := count_descAll x cs
    rw [Node.descAll, Node.filesAll, List.flatMap_cons, List.flatMap_append, List.flatMap_append, List.count_append,
      List.count_append, List.count_append, ih]
    have hc : c.weighted.count x + (c.desc.flatMap Node.weighted).count x =
        ((c.files.map (fun p => (p.1, p.2 + 1))).flatMap (fun p => List.replicate (2 ^ (p.2 - 1)) p.1)).count x := by
      cases c with
      | file n => simp [Node.weighted, Node.files, Node.desc]
      | dir m ds =>
        have h1 := count_desc x (.dir m ds) ⟨m, ds, rfl⟩
        have h2 := count_double x (Node.filesAll ds) (filesAll_pos ds)
        rw [h1]
        simp only [Node.weighted, Node.files] at h1 ⊢
        omega
    omega
end

mutual
theorem depth_desc : ∀ (n m : Node), m ∈ n.desc → m.depth < n.depth
  | .file _, m, h => by simp [Node.desc] at h
  | .dir _ cs, m, h => by
    have := depth_descAll cs m (by simpa [Node.desc] using h)
    rw [Node.depth]; omega
theorem depth_descAll : ∀ (cs : List Node) (m : Node), m ∈ Node.descAll cs → m.depth ≤ Node.depthAll cs
  | [], m, h => by simp [Node.descAll] at h
  | c :: cs, m, h => by
    rw [Node.descAll] at h
    rw [Node.depthAll]
    rcases List.mem_cons.1 h with rfl | h
    · omega
    · rcases List.mem_append.1 h with h | h
      · have := depth_desc c m h; omega
      · have := depth_descAll cs m h; omega
end

mutual
theorem desc_trans : ∀ (n m k : Node), m ∈ n.desc → k ∈ m.desc → k ∈ n.desc
  | .file _, m, k, h, _ => by simp [Node.desc] at h
  | .dir _ cs, m, k, h, hk => by
    rw [Node.desc] at h ⊢
    exact descAll_trans cs m k h hk
theorem descAll_trans : ∀ (cs : List Node) (m k : Node), m ∈ Node.descAll cs → k ∈ m.desc → k ∈ Node.descAll cs
  | [], m, k, h, _ => by simp [Node.descAll] at h
  | c :: cs, m, k, h, hk => by
    rw [Node.descAll] at h ⊢
    rcases List.mem_cons.1 h with rfl | h
    · exact List.mem_cons_of_mem _ (List.mem_append_left _ hk)
    · rcases List.mem_append.1 h with h | h
      · exact List.mem_cons_of_mem _ (List.mem_append_left _ (desc_trans c m k h hk))
      · exact List.mem_cons_of_mem _ (List.mem_append_right _ (descAll_trans cs m k h hk))
end

theorem Has.desc {env : Env} {n m : Node} (h : Has env n) (hm : m ∈ n.desc) : Has env m := by
  intro k hk
  rcases List.mem_cons.1 hk with rfl | hk
  · exact h _ (List.mem_cons_of_mem _ hm)
  · exact h _ (List.mem_cons_of_mem _ (desc_trans n m k hm hk))

theorem step_weighted (env : Env) (n : Nat) : ∀ (t : Node), Has env t → t.depth ≤ n →
    ∃ l, (if env.isDir t.name then extract env n (env.rglob t.name) else some [t.name]) = some l ∧ l.Perm t.weighted := by
  induction n with
  | zero =>
    intro t ht hd
    cases t with
    | file x =>
      have hf : env.isDir x = false := by
        have := (ht (.file x) (by simp)).1
        simp [Node.name] at this
        exact this
      exact ⟨[x], by simp [Node.name, hf], by simp [Node.weighted, Node.files]⟩
    | dir x cs => simp [Node.depth] at hd
  | succ n ih =>
    intro t ht hd
    cases t with
    | file x =>
      have hf : env.isDir x = false := by
        have := (ht (.file x) (by simp)).1
        simp [Node.name] at this
        exact this
      exact ⟨[x], by simp [Node.name, hf], by simp [Node.weighted, Node.files]⟩
    | dir x cs =>
      have hdir : env.isDir (Node.dir x cs).name = true := (ht _ (by simp)).1.2 ⟨x, cs, rfl⟩
      have hperm := (ht (Node.dir x cs) (by simp)).2
      let g : Str → List Str := fun e => ((if env.isDir e then extract env n (env.rglob e) else some [e]) : Option _).getD []
      have hg : ∀ m ∈ (Node.dir x cs).desc,
          (if env.isDir m.name then extract env n (env.rglob m.name) else some [m.name]) = some (g m.name) ∧
            (g m.name).Perm m.weighted := by
        intro m hm
        obtain ⟨l, h1, h2⟩ := ih m (ht.desc hm) (by have := depth_desc _ _ hm; omega)
        have : g m.name = l := by simp only [g, h1]; rfl
        rw [this]; exact ⟨h1, h2⟩
      refine ⟨(env.rglob (Node.dir x cs).name).flatMap g, ?_, ?_⟩
      · rw [if_pos hdir]
        refine extract_eq env n g _ (fun e he => ?_)
        obtain ⟨m, hm, rfl⟩ := List.mem_map.1 (hperm.subset he)
        exact (hg m hm).1
      · refine (hperm.flatMap_right g).trans ?_
        rw [List.flatMap_map]
        refine List.Perm.trans (l₂ := (Node.dir x cs).desc.flatMap Node.weighted) ?_ ?_
        · have : ∀ L : List Node, (∀ m ∈ L, (g m.name).Perm m.weighted) →
              (L.flatMap (fun m => g m.name)).Perm (L.flatMap Node.weighted) := by
            intro L hL
            induction L with
            | nil => exact .nil
            | cons m L ihL =>
              exact (hL m (by simp)).append (ihL (fun k hk => hL k (List.mem_cons_of_mem _ hk)))
          exact this _ (fun m hm => (hg m hm).2)
        · exact List.perm_iff_count.2 (fun y => count_desc y _ ⟨x, cs, rfl⟩)

/-- C78, what happens exactly: given a directory, every suite file with `k` directories above it below the given one is
used `2 ^ k` times. -/
theorem C78_exact_multiplicity (env : Env) (t : Node) (ht : Has env t) (n : Nat) (hn : t.depth ≤ n) :
    ∃ l, extract env (n + 1) [t.name] = some l ∧ l.Perm t.weighted := by
  obtain ⟨l, h1, h2⟩ := step_weighted env n t ht hn
  refine ⟨l, ?_, h2⟩
  rw [extract, concat, h1]
  simp [concat]

/-- C78 (partial: for directories without subdirectories): every suite file of a directory is used exactly once. -/
theorem C78_each_file_once_partial (env : Env) (x : Str) (fs : List Str) (ht : Has env (.dir x (fs.map .file))) (n : Nat)
    (hn : 1 ≤ n) : ∃ l, extract env (n + 1) [x] = some l ∧ l.Perm fs := by
  have hd : ∀ fs : List Str, Node.depthAll (fs.map .file) = 0 := fun fs => by
    induction fs with
    | nil => rfl
    | cons f fs ih => rw [List.map_cons, Node.depthAll, ih]; rfl
  have hf : ∀ fs : List Str, (Node.filesAll (fs.map .file)).flatMap (fun p => List.replicate (2 ^ (p.2 - 1)) p.1) = fs := fun fs => by
    induction fs with
    | nil => rfl
    | cons f fs ih => rw [List.map_cons, Node.filesAll, List.flatMap_append, ih]; rfl
  obtain ⟨l, h1, h2⟩ := C78_exact_multiplicity env _ ht n (by rw [Node.depth, hd]; exact hn)
  refine ⟨l, h1, ?_⟩
  rw [Node.weighted, Node.files, hf] at h2
  exact h2

/-- A directory `d` with a directory `e` that has the file `f`. -/
def exTree : Env := { exEnv with
  isDir := fun p => p = ['d'] || p = ['e'],
  rglob := fun p => if p = ['d'] then [['f'], ['e']] else if p = ['e'] then [['f']] else [] }

example : Has exTree (.dir ['d'] [.dir ['e'] [.file ['f']]]) := by
  intro m hm
  simp only [Node.desc, Node.descAll, List.append_nil, List.mem_cons, List.not_mem_nil, or_false] at hm
  rcases hm with rfl | rfl | rfl
  · exact ⟨by simp [Node.name, exTree], by simpa [Node.name, exTree, Node.desc, Node.descAll] using List.Perm.swap _ _ _⟩
  · exact ⟨by simp [Node.name, exTree], by simp [Node.name, exTree, Node.desc, Node.descAll]⟩
  · exact ⟨by simp [Node.name, exTree], by simp [Node.name, exTree, Node.desc]⟩

/-- C78 is violated: a suite file in a subdirectory of the given directory is used twice. -/
theorem C78_each_file_once_violated : extract exTree 3 [['d']] = some [['f'], ['f']] := by decide

/-- C50: several suite files (none of them a directory) give what each of them gives, in order. -/
theorem C50_several_files (env : Env) (n : Nat) (fs : List Str) (hd : ∀ f ∈ fs, env.isDir f = false)
    (outs : List (List (Str × Option M))) (h : fs.map (iterFile env (n + 1)) = outs.map some) :
    iterPaths env (n + 1) fs = some outs.flatten := by
  have he : extract env (n + 1) fs = some fs := by
    rw [extract_eq env n (fun e => [e]) fs (fun e he => by simp [hd e he])]
    simp
  rw [iterPaths, he]
  simp only
  clear he hd
  induction fs generalizing outs with
  | nil => cases outs with
    | nil => rfl
    | cons o os => simp at h
  | cons f fs ih =>
    cases outs with
    | nil => simp at h
    | cons o os =>
      simp only [List.map_cons, List.cons.injEq] at h
      rw [concat, h.1, ih os h.2]
      rfl

example : (iterPaths exEnv 2 [['t'], ['s']]).map (fun l => l.map (fun p => String.ofList p.1)) =
    some ["c.py:1", "d.py", "a.py", "a.py", "c.py:1", "d.py", "b.py"] := by decide +kernel

end Slash.Suite
