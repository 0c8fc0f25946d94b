import Verif.Model.Formatter
import Verif.Lemmas.Log
/-! Indented output, detailed tracebacks, details: C115, C116, C117. -/
namespace Slash.Fmt

/-! ## C115: indentation -/

theorem writeLines_ind (st : St) (ls : List (List Char)) : (writeLines st ls).ind = st.ind := by
  induction ls generalizing st with
  | nil => rfl
  | cons l ls ih =>
    cases ls with
    | nil => unfold writeLines; cases st.empty <;> rfl
    | cons m ms =>
      rw [writeLines, ih]
      · cases st.empty <;> rfl
      · simp

theorem write_ind (st : St) (t e : List Char) : (write st t e).ind = st.ind := writeLines_ind st _

/-- Whatever is written in indented blocks, even if they raise, the indentation is the same afterwards. -/
theorem C115_restored (istr : List Char) (p : Prog) (st : St) : (run istr p st).1.ind = st.ind := by
  induction p generalizing st with
  | done => rfl
  | raise => rfl
  | writeln t rest ih => rw [run, ih, write_ind]
  | write t rest ih => rw [run, ih, write_ind]
  | block n s body rest ihb ihr =>
    have hb := ihb (indent istr st n s)
    rw [run]
    have hd : ∀ st1 : St, st1.ind = (indent istr st n s).ind → (dedent st1 n).ind = st.ind := by
      intro st1 h
      unfold dedent
      simp only
      rw [h, indent]
      simp
    rcases h : run istr body (indent istr st n s) with ⟨st1, _ | _⟩
    · rw [h] at hb
      simp only
      rw [ihr, hd st1 hb]
    · rw [h] at hb
      exact hd st1 hb

/-- The lines a program should write at an indentation, and whether it raises. -/
def lines (istr : List Char) : Prog → List Char → List (List Char) × Bool
  | .done, _ => ([], false)
  | .raise, _ => ([], true)
  | .writeln t rest, ind =>
    ((if Log.splitLines [] t = [] then [[]] else (Log.splitLines [] t).map (ind ++ ·)) ++ (lines istr rest ind).1, (lines istr rest ind).2)
  | .write _ rest, ind => lines istr rest ind
  | .block n s body rest, ind =>
    let b := lines istr body (ind ++ (List.replicate n (s.getD istr)).flatten)
    if b.2 then b else (b.1 ++ (lines istr rest ind).1, (lines istr rest ind).2)

/-- Only whole lines are written. -/
def Prog.whole : Prog → Bool
  | .done | .raise => true
  | .writeln _ rest => rest.whole
  | .write _ _ => false
  | .block _ _ body rest => body.whole && rest.whole

theorem emit_newline (st : St) : emit st ['\n'] = { st with out := st.out ++ ['\n'], empty := true } := rfl

theorem writeLines_eq (st : St) (h : st.empty = true) (ls : List (List Char)) (hne : ls ≠ []) :
    emit (writeLines st ls) ['\n'] = { st with out := st.out ++ ls.flatMap (fun l => st.ind.flatten ++ l ++ ['\n']) } := by
  induction ls generalizing st with
  | nil => exact absurd rfl hne
  | cons l ls ih =>
    cases ls with
    | nil =>
      rw [writeLines, h, emit_newline]
      simp [emit, h]
    | cons m ms =>
      have e : writeLines st (l :: m :: ms) = writeLines (emit (emit (if st.empty then emit st st.ind.flatten else st) l) ['\n']) (m :: ms) := rfl
      rw [e, h, ih _ rfl (by simp)]
      simp [emit, h]

/-- Every line that is written is indented by exactly the blocks it is written in. -/
theorem C115_lines (istr : List Char) (p : Prog) (st : St) (hw : p.whole = true) (he : st.empty = true) :
    (run istr p st).1.out = st.out ++ (lines istr p st.ind.flatten).1.flatMap (· ++ ['\n']) ∧ (run istr p st).2 = (lines istr p st.ind.flatten).2 ∧
    (run istr p st).1.empty = true := by
  induction p generalizing st with
  | done => exact ⟨by simp [run, lines], rfl, he⟩
  | raise => exact ⟨by simp [run, lines], rfl, he⟩
  | writeln t rest ih =>
    rw [run, lines]
    have hwr : write st t ['\n'] = { st with out := st.out ++ (if Log.splitLines [] t = [] then [[]] else (Log.splitLines [] t).map (st.ind.flatten ++ ·)).flatMap (· ++ ['\n']) } := by
      unfold write
      by_cases h : Log.splitLines [] t = []
      · rw [h, if_pos rfl]
        show emit st ['\n'] = _
        rw [emit_newline]
        simp [he]
      · rw [if_neg h, writeLines_eq st he _ h, List.flatMap_map]
    rw [hwr]
    have := ih (st := { st with out := st.out ++ (if Log.splitLines [] t = [] then [[]] else (Log.splitLines [] t).map (st.ind.flatten ++ ·)).flatMap (· ++ ['\n']) }) hw he
    refine ⟨?_, this.2.1, this.2.2⟩
    rw [this.1]
    simp [List.flatMap_append, List.append_assoc]
  | write t rest ih => cases hw
  | block n s body rest ihb ihr =>
    simp only [Prog.whole, Bool.and_eq_true] at hw
    have hb := ihb (indent istr st n s) hw.1 he
    have hind := C115_restored istr body (indent istr st n s)
    have e1 : (indent istr st n s).ind.flatten = st.ind.flatten ++ (List.replicate n (s.getD istr)).flatten := by simp [indent]
    rw [e1] at hb
    rw [run, lines]
    rcases h : run istr body (indent istr st n s) with ⟨st1, _ | _⟩
    · rw [h] at hb hind
      have hd : dedent st1 n = { st1 with ind := st.ind } := by
        unfold dedent
        simp only at hind
        rw [hind, indent]
        simp
      simp only at hb ⊢
      rw [← hb.2.1]
      simp only [Bool.false_eq_true, if_false]
      have hr := ihr (dedent st1 n) hw.2 hb.2.2
      rw [hd] at hr ⊢
      simp only at hr
      refine ⟨?_, hr.2.1, hr.2.2⟩
      rw [hr.1, hb.1]
      simp [indent]
    · rw [h] at hb
      simp only at hb ⊢
      rw [← hb.2.1]
      exact ⟨hb.1, hb.2.1, hb.2.2⟩

example : (run "  ".toList (.writeln "a".toList (.block 1 none (.writeln "b\nc".toList (.block 2 (some ">".toList) (.writeln "d".toList .raise) .done)) (.writeln "e".toList .done))) {}).1 =
    { out := "a\n  b\n  c\n  >>d\n".toList } := by decide

/-- Writing pieces of a line. -/
def pieces (ts : List (List Char)) (rest : Prog) : Prog := ts.foldr Prog.write rest

theorem splitLines_plain (t acc : List Char) (h : '\n' ∉ t) : Log.splitLines acc t = if acc = [] ∧ t = [] then [] else [acc.reverse ++ t] := by
  induction t generalizing acc with
  | nil => cases acc <;> simp [Log.splitLines]
  | cons c t ih =>
    simp only [List.mem_cons, not_or] at h
    rw [Log.splitLines, if_neg (Ne.symm h.1), ih _ h.2]
    simp

theorem emit_plain (st : St) (s : List Char) (h : '\n' ∉ s) : emit st s = { st with out := st.out ++ s, empty := if s = [] then st.empty else false } := by
  unfold emit
  cases hl : s.getLast? with
  | none => rw [List.getLast?_eq_none_iff] at hl; simp [hl]
  | some c =>
    have hm : c ∈ s := List.mem_of_getLast? hl
    have hne : s ≠ [] := by rintro rfl; cases hl
    have : (c == '\n') = false := by simp only [beq_eq_false_iff_ne]; rintro rfl; exact h hm
    simp [hne, this]

theorem emit_emit (st : St) (a b : List Char) : emit (emit st a) b = emit st (a ++ b) := by
  unfold emit
  cases hb : b.getLast? with
  | none => rw [List.getLast?_eq_none_iff] at hb; simp [hb]
  | some c => simp [List.getLast?_append, hb]

theorem write_one (st : St) (t e : List Char) (h : '\n' ∉ t) (hne : t ≠ []) :
    write st t e = emit (if st.empty then emit st st.ind.flatten else st) (t ++ e) := by
  unfold write
  rw [splitLines_plain t [] h]
  simp only [hne, and_false, if_false, List.reverse_nil, List.nil_append, writeLines]
  rw [emit_emit]

theorem write_nil (st : St) : write st [] [] = st := by simp [write, Log.splitLines, writeLines, emit]

/-- A line may be written in pieces, some of them empty: the output is the same as that of writing it at once. -/
theorem C115_pieces (istr : List Char) (ts : List (List Char)) (t : List Char) (rest : Prog) (st : St) (h : ∀ x ∈ ts, '\n' ∉ x) (ht : '\n' ∉ t) (hne : t ≠ []) :
    run istr (pieces ts (.writeln t rest)) st = run istr (.writeln (ts.flatten ++ t) rest) st := by
  induction ts generalizing st with
  | nil => rfl
  | cons a ts ih =>
    have e : run istr (pieces (a :: ts) (.writeln t rest)) st = run istr (pieces ts (.writeln t rest)) (write st a []) := rfl
    rw [e, ih _ (fun x hx => h x (by simp [hx]))]
    by_cases ha : a = []
    · subst ha; rw [write_nil]; rfl
    · have han := h a (by simp)
      have hfn : '\n' ∉ ts.flatten ++ t := by
        intro hm
        rcases List.mem_append.1 hm with hm | hm
        · obtain ⟨x, hx, hc⟩ := List.mem_flatten.1 hm
          exact h x (by simp [hx]) hc
        · exact ht hm
      rw [run, run]
      congr 1
      rw [write_one _ _ _ hfn (by simp [hne]), write_one st ((a :: ts).flatten ++ t) _ (by
        simp only [List.flatten_cons, List.append_assoc, List.mem_append, not_or]
        exact ⟨han, by simpa using hfn⟩) (by simp [hne]), write_one st a [] han ha]
      generalize (if st.empty = true then emit st st.ind.flatten else st) = s2
      rw [List.append_nil, emit_plain s2 a han]
      simp only [ha, if_false, Bool.false_eq_true]
      have : ({ s2 with out := s2.out ++ a, empty := false } : St) = emit s2 a := by rw [emit_plain s2 a han]; simp [ha]
      rw [this, emit_emit]
      simp

example : (run "  ".toList (.block 1 none (pieces ["a".toList, [], "b".toList] (.writeln "c".toList .done)) .done) {}).1.out = "  abc\n".toList := by decide
example : (run "  ".toList (.block 1 none (pieces [[]] (.writeln "c".toList .done)) .done) {}).1.out = "  c\n".toList := by decide

/-! ## C116: detailed tracebacks -/

/-- If each frame has either global or local variables to show, but not both, all frames are shown at the same indentation. -/
theorem C116_frames_partial (fs : List Frame) (h : ∀ f ∈ fs, (f.globals = [] ∧ f.locals ≠ []) ∨ (f.globals ≠ [] ∧ f.locals = [])) (d i : Nat) :
    ((d, Line.file i) ∈ detailed fs → d = 1) ∧ ((d, Line.code i) ∈ detailed fs → d = 2) := by
  have hv : ∀ (j : Nat) (g : Bool) (a : Nat) (vars : List String) (x : Nat × Line), x ∈ (varLines j g a vars).1 → (∀ k, x.2 ≠ .file k) ∧ ∀ k, x.2 ≠ .code k := by
    intro j g a vars x hx
    unfold varLines at hx
    split at hx
    · cases hx
    · simp only [List.mem_cons, List.mem_map] at hx
      rcases hx with rfl | ⟨v, _, rfl⟩ <;> exact ⟨(by intro k e; cases e), (by intro k e; cases e)⟩
  have hn : ∀ (j : Nat) (f : Frame), ((f.globals = [] ∧ f.locals ≠ []) ∨ (f.globals ≠ [] ∧ f.locals = [])) → (frameLines j 1 f).2 = 1 := by
    intro j f hf
    unfold frameLines
    rcases hf with ⟨h1, h2⟩ | ⟨h1, h2⟩
    · rw [h1]
      cases hl : f.locals with
      | nil => exact absurd hl h2
      | cons a l => rfl
    · rw [h2]
      cases hl : f.globals with
      | nil => exact absurd hl h1
      | cons a l => rfl
  have hf : ∀ (j a : Nat) (f : Frame) (x : Nat × Line), x ∈ (frameLines j a f).1 → ((∃ k, x.2 = .file k) → x.1 = a) ∧ ((∃ k, x.2 = .code k) → x.1 = a + 1) := by
    intro j a f x hx
    unfold frameLines at hx
    simp only [List.cons_append, List.mem_cons, List.mem_append] at hx
    rcases hx with rfl | rfl | hx | hx
    · exact ⟨fun _ => rfl, (by rintro ⟨k, e⟩; cases e)⟩
    · exact ⟨(by rintro ⟨k, e⟩; cases e), fun _ => rfl⟩
    · have := hv _ _ _ _ _ hx
      exact ⟨fun ⟨k, e⟩ => absurd e (this.1 k), fun ⟨k, e⟩ => absurd e (this.2 k)⟩
    · have := hv _ _ _ _ _ hx
      exact ⟨fun ⟨k, e⟩ => absurd e (this.1 k), fun ⟨k, e⟩ => absurd e (this.2 k)⟩
  have hall : ∀ (fs : List Frame) (j : Nat), (∀ f ∈ fs, (f.globals = [] ∧ f.locals ≠ []) ∨ (f.globals ≠ [] ∧ f.locals = [])) →
      ∀ x ∈ framesLines j 1 fs, ((∃ k, x.2 = .file k) → x.1 = 1) ∧ ((∃ k, x.2 = .code k) → x.1 = 2) := by
    intro fs
    induction fs with
    | nil => intro j _ x hx; cases hx
    | cons f fs ih =>
      intro j h x hx
      rw [framesLines, hn j f (h f (by simp))] at hx
      rcases List.mem_append.1 hx with hx | hx
      · exact hf j 1 f x hx
      · exact ih (j + 1) (fun g hg => h g (by simp [hg])) x hx
  constructor
  · intro hm
    simp only [detailed, List.mem_cons, Prod.mk.injEq, reduceCtorEq, and_false, false_or] at hm
    exact (hall fs 0 h _ hm).1 ⟨i, rfl⟩
  · intro hm
    simp only [detailed, List.mem_cons, Prod.mk.injEq, reduceCtorEq, and_false, false_or] at hm
    exact (hall fs 0 h _ hm).2 ⟨i, rfl⟩

/-- With such frames the text is: the header; for each frame in order its file, one level below its code, and below that the kind of its variables with the variables. -/
theorem C116_layout_partial (fs : List Frame) (h : ∀ f ∈ fs, (f.globals = [] ∧ f.locals ≠ []) ∨ (f.globals ≠ [] ∧ f.locals = [])) :
    detailed fs = (0, Line.header) :: fs.zipIdx.flatMap (fun x => (1, .file x.2) :: (2, .code x.2) ::
      (3, .title x.2 (decide (x.1.locals = []))) :: (x.1.globals ++ x.1.locals).map (fun v => (4, .var x.2 (decide (x.1.locals = [])) v))) := by
  unfold detailed
  congr 1
  generalize 0 = j
  induction fs generalizing j with
  | nil => rfl
  | cons f fs ih =>
    rw [framesLines, List.zipIdx_cons, List.flatMap_cons]
    have hf : frameLines j 1 f = ((1, .file j) :: (2, .code j) :: (3, .title j (decide (f.locals = []))) ::
        (f.globals ++ f.locals).map (fun v => (4, .var j (decide (f.locals = [])) v)), 1) := by
      unfold frameLines
      rcases h f (by simp) with ⟨h1, h2⟩ | ⟨h1, h2⟩
      · rw [h1]
        cases hl : f.locals with
        | nil => exact absurd hl h2
        | cons a l => simp [varLines]
      · rw [h2]
        cases hl : f.globals with
        | nil => exact absurd hl h1
        | cons a l => simp [varLines]
    rw [hf, ih (fun g hg => h g (by simp [hg]))]

example : detailed [{ locals := ["x"] }, { globals := ["g"] }] =
    [(0, .header), (1, .file 0), (2, .code 0), (3, .title 0 false), (4, .var 0 false "x"), (1, .file 1), (2, .code 1), (3, .title 1 true), (4, .var 1 true "g")] := by decide

/-- The full claim, all frames are shown at the same indentation, is false: a frame with both kinds of variables moves the
following ones to the right, a frame without variables to the left. -/
theorem C116_frames_violated :
    (∃ fs, (1, Line.file 0) ∈ detailed fs ∧ (2, Line.file 1) ∈ detailed fs) ∧ ∃ fs, (1, Line.file 0) ∈ detailed fs ∧ (0, Line.file 1) ∈ detailed fs :=
  ⟨⟨[{ globals := ["g"], locals := ["x"] }, {}], by decide, by decide⟩, [{}, {}], by decide, by decide⟩

/-! ## C117: details and facts -/

theorem look_put (d : List (String × Val)) (k m : String) (v : Val) : look (put d k v) m = if m = k then some v else look d m := by
  have hmap : ∀ d : List (String × Val), look (d.map (fun x => if x.1 = k then (k, v) else x)) m =
      if m = k ∧ (d.any fun x => x.1 == k) = true then some v else look d m := by
    intro d
    induction d with
    | nil => simp [look]
    | cons a d ih =>
      unfold look at ih ⊢
      by_cases ha : a.1 = k
      · by_cases hm : m = k
        · simp [ha, hm]
        · simp only [List.map_cons, if_pos ha, List.find?_cons]
          have h1 : (k == m) = false := by simpa using Ne.symm hm
          have h2 : (a.1 == m) = false := by rw [ha]; exact h1
          simp only [h1, h2, hm, false_and, if_false] at ih ⊢
          exact ih
      · have h3 : (a.1 == k) = false := by simpa using ha
        simp only [List.map_cons, if_neg ha, List.find?_cons, List.any_cons, h3, Bool.false_or]
        by_cases hm : a.1 = m
        · have h4 : m ≠ k := fun e => ha (hm.trans e)
          simp [hm, h4]
        · have h4 : (a.1 == m) = false := by simpa using hm
          simp only [h4]
          exact ih
  unfold put
  by_cases h : (d.any fun x => x.1 == k) = true
  · rw [if_pos h, hmap, h]; simp
  · rw [if_neg h]
    unfold look
    rw [List.find?_append]
    have hn : d.find? (fun x => x.1 == k) = none := by
      rw [List.find?_eq_none]
      intro x hx hk
      exact h (List.any_eq_true.2 ⟨x, hx, hk⟩)
    by_cases hm : m = k
    · subst hm; rw [hn]; simp
    · rw [if_neg hm]
      cases hd : d.find? (fun x => x.1 == m) with
      | some a => simp
      | none => simp [Ne.symm hm]

/-- References are valid, and different keys have different lists. -/
structure Inv (st : DSt) : Prop where
  valid : ∀ k r, look st.dict k = some (.list r) → r < st.lists.length
  own : ∀ k m r, look st.dict k = some (.list r) → look st.dict m = some (.list r) → k = m

/-- What one sees under a key. -/
def view (st : DSt) (k : String) : Option (Nat ⊕ List Nat) := (look st.dict k).map st.see

theorem call_dict (st : DSt) (k v) : (st.call k v).dict = st.dict := by unfold DSt.call; split <;> rfl
theorem call_lists (st : DSt) (k v) : (st.call k v).lists = st.lists := by unfold DSt.call; split <;> rfl
theorem call_cb (st : DSt) (k v) : (st.call k v).cb = st.cb := by unfold DSt.call; split <;> rfl
theorem call_calls (st : DSt) (k v) : (st.call k v).calls = st.calls ++ if st.cb then [(k, v)] else [] := by
  unfold DSt.call; split <;> simp

theorem inv_congr {a b : DSt} (hd : a.dict = b.dict) (hl : a.lists.length = b.lists.length) (h : Inv b) : Inv a :=
  ⟨by rw [hd, hl]; exact h.valid, by rw [hd]; exact h.own⟩

theorem see_congr {a b : DSt} (h : a.lists = b.lists) (v : Val) : a.see v = b.see v := by
  cases v with
  | atom n => rfl
  | list r => simp [DSt.see, h]

theorem store_inv (st : DSt) (h : Inv st) (k : String) (v : Nat ⊕ List Nat) : Inv (store st k v) := by
  cases v with
  | inl n =>
    constructor
    · intro m r hm
      simp only [store, look_put] at hm
      split at hm
      · cases hm
      · exact h.valid m r hm
    · intro m m' r hm hm'
      simp only [store, look_put] at hm hm'
      split at hm
      · cases hm
      · split at hm'
        · cases hm'
        · exact h.own m m' r hm hm'
  | inr l =>
    constructor
    · intro m r hm
      simp only [store, look_put] at hm
      simp only [store, List.length_append, List.length_singleton]
      split at hm
      · injection hm with hm; injection hm with hm; omega
      · have := h.valid m r hm; omega
    · intro m m' r hm hm'
      simp only [store, look_put] at hm hm'
      split at hm
      · injection hm with hm; injection hm with hm
        split at hm'
        · simp [*]
        · have := h.valid m' r hm'; omega
      · split at hm'
        · injection hm' with hm'; injection hm' with hm'
          have := h.valid m r hm; omega
        · exact h.own m m' r hm hm'

theorem store_view (st : DSt) (h : Inv st) (k m : String) (v : Nat ⊕ List Nat) : view (store st k v) m = if m = k then some v else view st m := by
  unfold view
  cases v with
  | inl n =>
    simp only [store, look_put]
    split
    · rfl
    · cases hl : look st.dict m with
      | none => rfl
      | some w => cases w <;> rfl
  | inr l =>
    simp only [store, look_put]
    split
    · simp [DSt.see]
    · cases hl : look st.dict m with
      | none => rfl
      | some w =>
        cases w with
        | atom n => rfl
        | list r =>
          have := h.valid m r hl
          simp [DSt.see, List.getElem?_append_left this]

theorem push_see (st : DSt) (r : Nat) (value : Nat) (hr : r < st.lists.length) (r' : Nat) :
    (push st r value).see (.list r') = if r' = r then .inr (st.lists.getD r [] ++ [value]) else st.see (.list r') := by
  simp only [push, DSt.see, List.getD_eq_getElem?_getD, List.getElem?_modify]
  by_cases h : r' = r
  · subst h
    simp [List.getElem?_eq_getElem hr]
  · simp [h, Ne.symm h]

/-- Appending to the list under `k`. -/
theorem push_view (st : DSt) (h : Inv st) (k m : String) (r : Nat) (value : Nat) (hk : look st.dict k = some (.list r)) :
    view (push st r value) m = if m = k then some (.inr (st.lists.getD r [] ++ [value])) else view st m := by
  have hr := h.valid k r hk
  unfold view
  show (look st.dict m).map (push st r value).see = _
  by_cases hm : m = k
  · subst hm; rw [hk, if_pos rfl, Option.map_some, push_see st r value hr, if_pos rfl]
  · rw [if_neg hm]
    cases hl : look st.dict m with
    | none => rfl
    | some w =>
      cases w with
      | atom n => rfl
      | list r' =>
        have : r' ≠ r := by rintro rfl; exact hm (h.own m k _ hl hk)
        rw [Option.map_some, Option.map_some, push_see st r value hr, if_neg this]

/-- What details should be: values by key. A callback that raises keeps `set` from storing; appending makes a list
longer, makes one where there was nothing, and does nothing to a value which is no list. -/
def spec (cb : Bool) (m : String → Option (Nat ⊕ List Nat)) : DOp → String → Option (Nat ⊕ List Nat)
  | .set k v raises => fun x => if x = k ∧ ¬ (cb = true ∧ raises = true) then some v else m x
  | .append k v _ => fun x =>
    if x = k then
      match m k with
      | none => some (.inr [v])
      | some (.inr l) => some (.inr (l ++ [v]))
      | some (.inl n) => some (.inl n)
    else m x

/-- The values the callback should be called with. -/
def specCalls (cb : Bool) (m : String → Option (Nat ⊕ List Nat)) : DOp → List (String × (Nat ⊕ List Nat))
  | .set k v _ => if cb then [(k, v)] else []
  | .append k v _ =>
    match m k with
    | none => if cb then [(k, .inr [v])] else []
    | some (.inr l) => if cb then [(k, .inr (l ++ [v]))] else []
    | some (.inl _) => []

theorem appendTo_step (st : DSt) (h : Inv st) (k : String) (r v : Nat) (raises : Bool) (hk : look st.dict k = some (.list r)) :
    Inv (appendTo st k r v raises).1 ∧ (appendTo st k r v raises).1.cb = st.cb ∧
    (∀ m, view (appendTo st k r v raises).1 m = if m = k then some (.inr (st.lists.getD r [] ++ [v])) else view st m) ∧
    (appendTo st k r v raises).1.calls = st.calls ++ if st.cb then [(k, .inr (st.lists.getD r [] ++ [v]))] else [] := by
  unfold appendTo
  simp only
  refine ⟨inv_congr (b := st) (call_dict _ _ _) ?_ h, call_cb _ _ _, ?_, ?_⟩
  · rw [call_lists]; simp [push]
  · intro m
    rw [← push_view st h k m r v hk]
    unfold view
    rw [call_dict]
    cases look (push st r v).dict m with
    | none => rfl
    | some w => simp only [Option.map_some]; rw [see_congr (call_lists _ _ _)]
  · rw [call_calls, push_see st r v (h.valid k r hk), if_pos rfl]
    rfl

theorem dstep_ok (st : DSt) (h : Inv st) (op : DOp) :
    Inv (dstep st op) ∧ (dstep st op).cb = st.cb ∧ view (dstep st op) = spec st.cb (view st) op ∧
    (dstep st op).calls = st.calls ++ specCalls st.cb (view st) op := by
  cases op with
  | set k v raises =>
    have hc : Inv (st.call k v) := inv_congr (call_dict _ _ _) (by rw [call_lists]) h
    have hv : view (st.call k v) = view st := by
      funext m; unfold view; rw [call_dict]
      cases look st.dict m with
      | none => rfl
      | some w => simp only [Option.map_some]; rw [see_congr (call_lists _ _ _)]
    simp only [dstep, set, specCalls]
    by_cases hr : (st.cb && raises) = true
    · rw [if_pos hr]
      refine ⟨hc, call_cb _ _ _, ?_, call_calls _ _ _⟩
      funext x
      simp only [Bool.and_eq_true] at hr
      rw [hv]
      simp [spec, hr]
    · rw [if_neg hr]
      refine ⟨store_inv _ hc k v, ?_, ?_, ?_⟩
      · cases v <;> exact call_cb _ _ _
      · funext x
        rw [store_view _ hc, hv]
        simp only [Bool.and_eq_true] at hr
        simp only [spec, hr, not_false_eq_true, and_true]
      · cases v <;> exact call_calls _ _ _
  | append k v raises =>
    simp only [dstep, append, specCalls]
    cases hl : look st.dict k with
    | none =>
      have hs := store_inv st h k (.inr [])
      have hlk : look (store st k (.inr [])).dict k = some (.list st.lists.length) := by simp [store, look_put]
      have := appendTo_step (store st k (.inr [])) hs k st.lists.length v raises hlk
      have hvk : view st k = none := by simp [view, hl]
      have hg : (store st k (.inr [])).lists.getD st.lists.length [] = [] := by simp [store]
      rw [hg] at this
      refine ⟨this.1, this.2.1, ?_, ?_⟩
      · funext x
        refine (this.2.2.1 x).trans ?_
        rw [store_view st h]
        simp only [spec, hvk]
        split <;> rfl
      · rw [hvk]; exact this.2.2.2
    | some w =>
      cases w with
      | atom n =>
        have hvk : view st k = some (.inl n) := by simp [view, hl, DSt.see]
        refine ⟨h, rfl, ?_, ?_⟩
        · funext x
          simp only [spec, hvk]
          split
          · subst x; exact hvk
          · rfl
        · rw [hvk]; simp
      | list r =>
        have hvk : view st k = some (.inr (st.lists.getD r [])) := by simp [view, hl, DSt.see]
        have := appendTo_step st h k r v raises hl
        refine ⟨this.1, this.2.1, ?_, ?_⟩
        · funext x
          refine (this.2.2.1 x).trans ?_
          simp only [spec, hvk]
        · rw [hvk]; exact this.2.2.2

theorem drun_ok (ops : List DOp) (st : DSt) (h : Inv st) :
    Inv (drun st ops) ∧ (drun st ops).cb = st.cb ∧ view (drun st ops) = ops.foldl (spec st.cb) (view st) := by
  induction ops generalizing st with
  | nil => exact ⟨h, rfl, rfl⟩
  | cons op ops ih =>
    have h1 := dstep_ok st h op
    have h2 := ih (dstep st op) h1.1
    rw [h1.2.1, h1.2.2.1] at h2
    exact h2

theorem inv_empty (cb : Bool) : Inv { cb := cb } := ⟨fun _ _ h => (by cases h), fun _ _ _ h => (by cases h)⟩

/-- After any uses of details or facts, each key has the value set last, with what has been appended to it since. -/
theorem C117_values (cb : Bool) (ops : List DOp) : view (drun { cb := cb } ops) = ops.foldl (spec cb) (fun _ => none) :=
  (drun_ok ops { cb := cb } (inv_empty cb)).2.2

example : let st := drun {} [.set "a" (.inl 1) false, .append "b" 2 false, .append "b" 3 true, .append "a" 4 false, .set "a" (.inl 5) true]
    view st "a" = some (.inl 1) ∧ view st "b" = some (.inr [2, 3]) ∧ view st "c" = none := by decide

/-- The hook `fact_set` is triggered for each fact that is set or appended to, with the whole list in the latter case, and not
for an append that fails; there is none for details. -/
theorem C117_calls (cb : Bool) (ops : List DOp) (op : DOp) :
    (dstep (drun { cb := cb } ops) op).calls =
      (drun { cb := cb } ops).calls ++ specCalls cb (ops.foldl (spec cb) (fun _ => none)) op := by
  have h := drun_ok ops { cb := cb } (inv_empty cb)
  have := (dstep_ok _ h.1 op).2.2.2
  rw [h.2.1, h.2.2] at this
  exact this

example : (drun {} [.set "a" (.inl 1) false, .append "b" 2 false, .append "b" 3 true, .append "a" 4 false]).calls =
    [("a", .inl 1), ("b", .inr [2]), ("b", .inr [2, 3])] := by decide

/-- How the calls end: `append` fails with `TypeError` exactly for a value that is not a list. -/
theorem C117_type_error (st : DSt) (k : String) (v : Nat) (raises : Bool) :
    (append st k v raises).2 = .typeError ↔ ∃ n, view st k = some (.inl n) := by
  unfold append view
  cases hl : look st.dict k with
  | none => simp only [appendTo]; split <;> simp
  | some w =>
    cases w with
    | atom n => simp [DSt.see]
    | list r => simp only [appendTo]; split <;> simp [DSt.see]

example : (append (drun {} [.set "a" (.inl 1) false]) "a" 4 false).2 = .typeError := by decide

/-- The exception of a callback reaches the caller; nothing else fails: `set` ends with that exception or well, and so does `append` to a list or to a new key. -/
theorem C117_callback_error (st : DSt) (k : String) (v : Nat) (x : Nat ⊕ List Nat) (raises : Bool) :
    ((set st k x raises).2 = if st.cb = true ∧ raises = true then .callback else .ok) ∧
    ((∀ n, view st k ≠ some (.inl n)) → (append st k v raises).2 = if st.cb = true ∧ raises = true then .callback else .ok) := by
  refine ⟨?_, fun h => ?_⟩
  · unfold set
    cases st.cb <;> cases raises <;> rfl
  · unfold append
    unfold view at h
    cases hl : look st.dict k with
    | none => simp only [appendTo]; cases st.cb <;> cases raises <;> rfl
    | some w =>
      cases w with
      | atom n => rw [hl] at h; exact absurd rfl (h n)
      | list r => simp only [appendTo]; cases st.cb <;> cases raises <;> rfl

example : (append {} "a" 4 true).2 = .callback ∧ (append { cb := false } "a" 4 true).2 = .ok ∧ (append {} "a" 4 false).2 = .ok ∧ (set {} "a" (.inl 4) true).2 = .callback := by decide

/-- An operation appends to a key. -/
def appends (k : String) : DOp → Bool
  | .append k' _ _ => k' == k
  | .set _ _ _ => false

theorem dstep_see (st : DSt) (h : Inv st) (op : DOp) (r : Nat) (hr : r < st.lists.length)
    (ho : ∀ k, appends k op = true → look st.dict k ≠ some (.list r)) :
    r < (dstep st op).lists.length ∧ (dstep st op).see (.list r) = st.see (.list r) ∧
    ∀ k, look (dstep st op).dict k = some (.list r) → look st.dict k = some (.list r) := by
  cases op with
  | set k v raises =>
    simp only [dstep, set]
    split
    · rw [call_dict, call_lists]
      exact ⟨hr, see_congr (call_lists _ _ _) _, fun _ h => h⟩
    · cases v with
      | inl n =>
        refine ⟨by simpa [store, call_lists] using hr, see_congr (a := store (st.call k (.inl n)) k (.inl n)) (call_lists st k (.inl n)) _, ?_⟩
        intro m hm
        simp only [store, look_put, call_dict] at hm
        split at hm
        · cases hm
        · exact hm
      | inr l =>
        refine ⟨?_, ?_, ?_⟩
        · simp only [store, call_lists, List.length_append]; omega
        · simp [store, DSt.see, call_lists, List.getElem?_append_left hr]
        · intro m hm
          simp only [store, look_put, call_dict, call_lists] at hm
          split at hm
          · injection hm with hm; injection hm with hm; omega
          · exact hm
  | append k v raises =>
    have hk := ho k (by simp [appends])
    simp only [dstep, append]
    cases hl : look st.dict k with
    | none =>
      simp only [appendTo, call_dict, call_lists]
      refine ⟨?_, ?_, ?_⟩
      · simp [push]; omega
      · rw [see_congr (call_lists _ _ _), push_see _ _ _ (by simp), if_neg (by omega)]
        simp [DSt.see, List.getElem?_append_left hr]
      · intro m hm
        simp only [push, look_put] at hm
        split at hm
        · injection hm with hm; injection hm with hm; omega
        · exact hm
    | some w =>
      cases w with
      | atom n => exact ⟨hr, rfl, fun _ h => h⟩
      | list r' =>
        have hne : r ≠ r' := by rintro rfl; exact hk hl
        simp only [appendTo, call_dict, call_lists]
        refine ⟨by simpa [push] using hr, ?_, fun _ h => h⟩
        rw [see_congr (call_lists _ _ _), push_see _ _ _ (h.valid k r' hl), if_neg hne]

/-- A copy made by `all()` shows the same value for a key whatever is done later, unless something is appended to that key. -/
theorem C117_copy_partial (cb : Bool) (ops later : List DOp) (k : String) (v : Val) (hv : look (all (drun { cb := cb } ops)) k = some v)
    (hl : ∀ op ∈ later, appends k op = false) :
    (drun (drun { cb := cb } ops) later).see v = (drun { cb := cb } ops).see v := by
  have h := (drun_ok ops { cb := cb } (inv_empty cb)).1
  cases v with
  | atom n => rfl
  | list r =>
    have hr := h.valid k r hv
    have ho : ∀ m, look (drun { cb := cb } ops).dict m = some (.list r) → m = k := fun m hm => h.own m k r hm hv
    generalize drun { cb := cb } ops = st at h hr ho
    clear hv
    induction later generalizing st with
    | nil => rfl
    | cons op later ih =>
      have h1 := dstep_see st h op r hr (by
        intro m hm e
        rw [ho m e] at hm
        rw [hl op (by simp)] at hm
        cases hm)
      have h2 := ih (fun o hm => hl o (by simp [hm])) (dstep st op) (dstep_ok st h op).1 h1.1 (fun m hm => ho m (h1.2.2 m hm))
      exact h2.trans h1.2.1

example : look (all (drun {} [.append "b" 2 false])) "b" = some (.list 0) ∧
    (drun (drun {} [.append "b" 2 false]) [.set "b" (.inl 7) false, .append "c" 3 false]).see (.list 0) = .inr [2] := by decide

/-- The full claim, that a copy never changes, is false: appending to a list shows in copies made before. -/
theorem C117_copy_violated : ∃ (ops later : List DOp) (k : String) (v : Val), look (all (drun {} ops)) k = some v ∧
    (drun {} ops).see v = .inr [2] ∧ (drun (drun {} ops) later).see v = .inr [2, 3] :=
  ⟨[.append "b" 2 false], [.append "b" 3 false], "b", .list 0, by decide⟩

end Slash.Fmt
