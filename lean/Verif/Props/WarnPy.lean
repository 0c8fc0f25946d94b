import Verif.Model.WarnPy
import Verif.Props.Warnings
/-! Property theorems about Python's warnings in a session: C184. -/
namespace Slash.WarnPy
open Slash.Warn (Filter Pat catFails patFails lineFails)

/-! ## What is expected -/

/-- The warning as `slash.ignore_warnings` sees it (C48), if it has a text. -/
def PW.text (x : PW) (s : List Char) : Warn.W := { category := x.cat, filename := x.file, lineno := x.line, message := s }

/-- The warning is to be recorded: it is no ImportWarning, and no filter of `slash.ignore_warnings` covers it (`Filter.matches` is C48's). -/
def Noted (E : Env) (x : PW) (s : List Char) : Bool :=
  !E.sub x.cat E.importWarning && !E.ignored.any (fun f => f.matches E.sub (x.text s))

mutual
/-- What is expected of one action: whether it raises, and what happens. Each warning is recorded once and logged once - whether or not it was given before on the
same line, whatever Python's filters were -, and each record of level warning is recorded as a warning. -/
def expect (E : Env) : Act → Bool × List Ev
  | .warn x =>
    match x.msg with
    | .str s => (false, if Noted E x s then .recorded x :: (if E.sub x.cat E.logbook then [] else [.native x]) else [])
    | _ => (false, [])
  | .log b s f l => (false, .record s :: (if b && Noted E (ofRecord E s f l) s then [.recorded (ofRecord E s f l)] else []))
  | .filter _ => (false, [])
  | .setShow _ => (false, [])
  | .catching _ body => expectAll E body
  | .attempt body => (false, (expectAll E body).2)
  | .raise => (true, [])
def expectAll (E : Env) : List Act → Bool × List Ev
  | [] => (false, [])
  | a :: as => if (expect E a).1 then (true, (expect E a).2) else ((expectAll E as).1, (expect E a).2 ++ (expectAll E as).2)
end

mutual
/-- The code leaves Python's filters and `showwarning` alone, and its warnings have a text. -/
def Plain : Act → Prop
  | .warn x => ∃ s, x.msg = .str s
  | .log _ _ _ _ => True
  | .filter _ => False
  | .setShow _ => False
  | .catching record body => record = false ∧ PlainAll body
  | .attempt body => PlainAll body
  | .raise => True
def PlainAll : List Act → Prop
  | [] => True
  | a :: as => Plain a ∧ PlainAll as
end

/-- All classes of warnings derive from `Warning`, and `LogbookWarning` from itself. -/
structure Env.Ok (E : Env) : Prop where
  warning : ∀ c, E.sub c E.warning = true
  logbook : E.sub E.logbook E.logbook = true

/-! ## Lemmas -/

theorem matches_str (E : Env) (f : Filter) (x : PW) (s : List Char) (h : x.msg = .str s) : matches_ E.sub f x = some (f.matches E.sub (x.text s)) := by
  simp only [matches_, h, Warn.Filter.matches, PW.text]
  by_cases h1 : catFails E.sub f.category x.cat = true
  · simp only [h1, ↓reduceIte]
  · by_cases h2 : patFails f.filename x.file = true
    · simp only [h1, h2, ↓reduceIte, Bool.false_eq_true]
    · by_cases h3 : lineFails f.lineno x.line = true
      · simp only [h1, h2, h3, ↓reduceIte, Bool.false_eq_true]
      · by_cases h4 : patFails f.message s = true <;> simp [h1, h2, h3, h4]

theorem shouldFilter_str (E : Env) (x : PW) (s : List Char) (h : x.msg = .str s) (fs : List Filter) :
    shouldFilter E.sub fs x = some (fs.any (fun f => f.matches E.sub (x.text s))) := by
  induction fs with
  | nil => rfl
  | cons f fs ih =>
    simp only [shouldFilter, matches_str E f x s h, List.any_cons]
    cases f.matches E.sub (x.text s) with
    | true => rfl
    | false => simp only [Bool.false_or]; exact ih

theorem captureAll_filters (E : Env) (w : World) :
    (captureAll E w).filters =
      ⟨.ignore, E.importWarning, none⟩ :: ⟨.always, E.warning, none⟩ :: (w.filters.erase ⟨.always, E.warning, none⟩).erase ⟨.ignore, E.importWarning, none⟩ := by
  simp only [captureAll, addFilter]
  rw [List.erase_cons_tail]
  simp

/-- The session's filters are in front. -/
def Fronted (E : Env) (w : World) : Prop := ∃ r, w.filters = ⟨.ignore, E.importWarning, none⟩ :: ⟨.always, E.warning, none⟩ :: r

theorem action_fronted (E : Env) (hE : E.Ok) (w : World) (hw : Fronted E w) (x : PW) :
    action E w.filters x = if E.sub x.cat E.importWarning then .ignore else .always := by
  obtain ⟨r, h⟩ := hw
  simp only [action, h, List.find?_cons, PF.applies, Bool.and_true, hE.warning]
  cases E.sub x.cat E.importWarning <;> rfl

theorem show_session (E : Env) (hh : ∀ x, E.hookRaises x = false) (n : Nat) (x : PW) (s : List Char) (hx : x.msg = .str s) (w : World)
    (hs : w.show_ = .session) :
    show_ E (n + 2) x w =
      if E.ignored.any (fun f => f.matches E.sub (x.text s)) then (none, w)
      else (none, { w with trace := w.trace ++ .recorded x :: (if E.sub x.cat E.logbook then [] else [.native x]) }) := by
  have h1 : x.msg ≠ .none := by rw [hx]; exact fun h => nomatch h
  simp only [show_, hs, h1, ↓reduceIte, shouldFilter_str E x s hx, hh, Bool.false_eq_true]
  cases E.ignored.any (fun f => f.matches E.sub (x.text s)) with
  | true => rfl
  | false =>
    simp only [Bool.false_eq_true, ↓reduceIte]
    cases E.sub x.cat E.logbook with
    | true => simp [World.emit, hs]
    | false => simp [log, World.emit, hs]

theorem warn_session (E : Env) (hE : E.Ok) (hh : ∀ x, E.hookRaises x = false) (n : Nat) (x : PW) (s : List Char) (hx : x.msg = .str s) (w : World)
    (hs : w.show_ = .session) (hw : Fronted E w) :
    warn E (n + 3) x w =
      (none, { w with trace := w.trace ++ (if Noted E x s then .recorded x :: (if E.sub x.cat E.logbook then [] else [.native x]) else []) }) := by
  simp only [warn, action_fronted E hE w hw x, Noted]
  by_cases hi : E.sub x.cat E.importWarning = true
  · simp [hi]
  · have hi : E.sub x.cat E.importWarning = false := by simpa using hi
    simp only [hi, Bool.false_eq_true, ↓reduceIte, show_session E hh n x s hx w hs, Bool.not_false, Bool.true_and]
    by_cases ha : E.ignored.any (fun f => f.matches E.sub (x.text s)) = true
    · simp [ha]
    · have ha : E.ignored.any (fun f => f.matches E.sub (x.text s)) = false := by simpa using ha
      simp [ha]

/-- The part of the world that stays. -/
structure Kept (E : Env) (w w' : World) (evs : List Ev) : Prop where
  filters : w'.filters = w.filters
  show_ : w'.show_ = w.show_
  trace : w'.trace = w.trace ++ evs

/-! ## C184 -/

/-- C184. Recording and logging feed each other but never go round: however filters, `showwarning`, the hook and `slash.ignore_warnings` are, a warning or a
record causes at most one more record and one more warning, and fuel plays no role. -/
theorem C184_no_loop (E : Env) (hE : E.sub E.logbook E.logbook = true) (n : Nat) (x : PW) (r : Rec) (w : World) :
    warn E (n + 3) x w = warn E 3 x w ∧ log E (n + 3) r w = log E 3 r w ∧ (warn E 3 x w).1 ≠ some .recursion ∧
    (log E 3 r w).1 = none ∧ ((warn E 3 x w).2.trace.length ≤ w.trace.length + 2) ∧ ((log E 3 r w).2.trace.length ≤ w.trace.length + 2) := by
  have sh : ∀ (k : Nat) (x : PW) (w : World), show_ E (k + 2) x w = show_ E 2 x w ∧ (show_ E 2 x w).1 ≠ some .recursion ∧
      (show_ E 2 x w).2.trace.length ≤ w.trace.length + 2 := by
    intro k x w
    simp only [show_]
    cases w.show_ with
    | session =>
      dsimp only
      split
      · exact ⟨rfl, by simp, by simp⟩
      · cases shouldFilter E.sub E.ignored x with
        | none => exact ⟨rfl, by simp, by simp⟩
        | some b =>
          cases b with
          | true => exact ⟨rfl, by simp, by simp⟩
          | false =>
            dsimp only
            split
            · exact ⟨rfl, by simp, by simp⟩
            · split
              · exact ⟨rfl, by simp, by simp [World.emit]⟩
              · exact ⟨by simp [log], by simp [log], by simp [log, World.emit]⟩
    | python => exact ⟨rfl, by simp, by simp [World.emit]⟩
    | user n => exact ⟨rfl, by simp, by simp [World.emit]⟩
  have sl : ∀ (k : Nat) (x : PW) (w : World), x.cat = E.logbook → show_ E (k + 1) x w = show_ E 1 x w ∧ (show_ E 1 x w).2.trace.length ≤ w.trace.length + 1 ∧
      ((show_ E 1 x w).1 ≠ none → (show_ E 1 x w).2.trace.length = w.trace.length) := by
    intro k x w hx
    simp only [show_, hx, hE, ↓reduceIte]
    cases w.show_ with
    | session =>
      dsimp only
      split
      · exact ⟨by first | rfl | trivial, by simp, by simp⟩
      · cases shouldFilter E.sub E.ignored x with
        | none => exact ⟨by first | rfl | trivial, by simp, by simp⟩
        | some b =>
          cases b with
          | true => exact ⟨by first | rfl | trivial, by simp, by simp⟩
          | false =>
            dsimp only
            split
            · exact ⟨by first | rfl | trivial, by simp, by simp⟩
            · exact ⟨by first | rfl | trivial, by simp [World.emit], by simp⟩
    | python => exact ⟨by first | rfl | trivial, by simp [World.emit], by simp⟩
    | user n => exact ⟨by first | rfl | trivial, by simp [World.emit], by simp⟩
  have wl : ∀ (k : Nat) (x : PW) (w : World), x.cat = E.logbook → warn E (k + 2) x w = warn E 2 x w ∧ (warn E 2 x w).2.trace.length ≤ w.trace.length + 1 ∧
      ((warn E 2 x w).1 ≠ none → (warn E 2 x w).2.trace.length = w.trace.length) := by
    intro k x w hx
    simp only [warn]
    cases action E w.filters x with
    | error => exact ⟨rfl, by simp, by simp⟩
    | ignore => exact ⟨rfl, by simp, by simp⟩
    | always => exact sl k x w hx
    | once =>
      dsimp only
      split
      · exact ⟨rfl, by simp, by simp⟩
      · exact sl k x _ hx
  have hwarn : ∀ (x : PW) (w : World), warn E (n + 3) x w = warn E 3 x w ∧ (warn E 3 x w).1 ≠ some .recursion ∧
      (warn E 3 x w).2.trace.length ≤ w.trace.length + 2 := by
    intro x w
    simp only [warn]
    cases action E w.filters x with
    | error => exact ⟨rfl, by simp, by simp⟩
    | ignore => exact ⟨rfl, by simp, by simp⟩
    | always => exact sh n x w
    | once =>
      dsimp only
      split
      · exact ⟨rfl, by simp, by simp⟩
      · exact sh n x _
  have hlog : log E (n + 3) r w = log E 3 r w ∧ (log E 3 r w).1 = none ∧ (log E 3 r w).2.trace.length ≤ w.trace.length + 2 := by
    cases r with
    | native x => exact ⟨rfl, rfl, by simp [log, World.emit]⟩
    | other b s f l =>
      cases b with
      | false => exact ⟨rfl, rfl, by simp [log, World.emit]⟩
      | true =>
        obtain ⟨h1, h2, h3⟩ := wl n (ofRecord E s f l) (w.emit (.record s)) rfl
        simp only [log, ↓reduceIte, h1]
        have he : (w.emit (.record s)).trace.length = w.trace.length + 1 := by simp [World.emit]
        rw [he] at h2 h3
        revert h2 h3
        rcases warn E 2 (ofRecord E s f l) (w.emit (.record s)) with ⟨_ | e, w'⟩
        · intro h2 _
          exact ⟨trivial, rfl, by dsimp only at h2 ⊢; omega⟩
        · intro _ h3
          have := h3 (by simp)
          refine ⟨trivial, rfl, ?_⟩
          dsimp only at this ⊢
          simp only [World.emit, List.length_append, List.length_singleton]
          omega
  exact ⟨(hwarn x w).1, hlog.1, (hwarn x w).2.1, hlog.2.1, (hwarn x w).2.2, hlog.2.2⟩

mutual
theorem exec_plain (E : Env) (hE : E.Ok) (hh : ∀ x, E.hookRaises x = false) : ∀ (a : Act) (w : World), Plain a → w.show_ = .session → Fronted E w →
    (exec E a w).1.isSome = (expect E a).1 ∧ Kept E w (exec E a w).2 (expect E a).2
  | .warn x, w, hp, hs, hf => by
    obtain ⟨s, hx⟩ := hp
    simp only [exec, fuel, expect, hx]
    rw [warn_session E hE hh 0 x s hx w hs hf]
    exact ⟨rfl, rfl, rfl, rfl⟩
  | .log b s f l, w, _, hs, hf => by
    simp only [exec, fuel, expect, log]
    cases b with
    | false => exact ⟨rfl, rfl, rfl, rfl⟩
    | true =>
      simp only [↓reduceIte, Bool.true_and]
      have hw := warn_session E hE hh 0 (ofRecord E s f l) s rfl (w.emit (.record s)) hs hf
      have h3 := (C184_no_loop E hE.logbook 0 (ofRecord E s f l) (.native (ofRecord E s f l)) (w.emit (.record s))).1
      have h2 : warn E 2 (ofRecord E s f l) (w.emit (.record s)) = warn E (0 + 3) (ofRecord E s f l) (w.emit (.record s)) := by
        have hb : (ofRecord E s f l).cat = E.logbook := rfl
        simp only [warn, show_, hb, hE.logbook, ↓reduceIte]
      rw [h2, hw]
      have hb : (ofRecord E s f l).cat = E.logbook := rfl
      simp only [hb, hE.logbook, ↓reduceIte]
      refine ⟨rfl, rfl, rfl, ?_⟩
      simp [World.emit]
  | .filter _, _, hp, _, _ => hp.elim
  | .setShow _, _, hp, _, _ => hp.elim
  | .catching record body, w, hp, hs, hf => by
    obtain ⟨hr, hb⟩ := hp
    subst hr
    obtain ⟨h1, h2⟩ := execAll_plain E hE hh body { w with seen := [], show_ := w.show_ } hb hs hf
    exact ⟨h1, rfl, rfl, h2.trace⟩
  | .attempt body, w, hp, hs, hf => by
    obtain ⟨_, h2⟩ := execAll_plain E hE hh body w hp hs hf
    exact ⟨rfl, h2⟩
  | .raise, w, _, _, _ => ⟨rfl, rfl, rfl, by simp [exec, expect]⟩
theorem execAll_plain (E : Env) (hE : E.Ok) (hh : ∀ x, E.hookRaises x = false) : ∀ (as : List Act) (w : World), PlainAll as → w.show_ = .session → Fronted E w →
    (execAll E as w).1.isSome = (expectAll E as).1 ∧ Kept E w (execAll E as w).2 (expectAll E as).2
  | [], w, _, _, _ => ⟨rfl, rfl, rfl, by simp [execAll, expectAll]⟩
  | a :: as, w, hp, hs, hf => by
    obtain ⟨h1, h2⟩ := exec_plain E hE hh a w hp.1 hs hf
    simp only [execAll, expectAll]
    revert h1 h2
    rcases exec E a w with ⟨_ | e, w'⟩
    · intro h1 h2
      have hs' : w'.show_ = .session := h2.show_.trans hs
      have hf' : Fronted E w' := by obtain ⟨r, hr⟩ := hf; exact ⟨r, h2.filters.trans hr⟩
      obtain ⟨h3, h4⟩ := execAll_plain E hE hh as w' hp.2 hs' hf'
      have h1' : (expect E a).1 = false := h1.symm
      simp only [h1', Bool.false_eq_true, ↓reduceIte]
      have h2' := h2.trace
      dsimp only at h2' h4
      exact ⟨h3, h4.filters.trans h2.filters, h4.show_.trans h2.show_, by rw [h4.trace, h2', List.append_assoc]⟩
    · intro h1 h2
      have h1' : (expect E a).1 = true := h1.symm
      simp only [h1', ↓reduceIte]
      exact ⟨rfl, h2⟩
end

/-- C184. In a session whose code leaves Python's filters and `showwarning` alone, and if the hook does not raise: warnings never raise; each warning with a text
that is no ImportWarning and is not ignored by `slash.ignore_warnings` is recorded once and logged once, in order, whatever Python's filters were before and
however often it was given; each record of level warning is recorded as one warning and not logged again; and nothing else happens. In the end
`showwarning` is what it was. -/
theorem C184_recorded_partial (E : Env) (hE : E.Ok) (hh : ∀ x, E.hookRaises x = false) (body : List Act) (hp : PlainAll body) (w : World) :
    (session E body w).1.isSome = (expectAll E body).1 ∧ (session E body w).2.trace = w.trace ++ (expectAll E body).2 ∧
    (session E body w).2.show_ = w.show_ := by
  obtain ⟨h1, h2⟩ := execAll_plain E hE hh body { captureAll E w with show_ := .session } hp rfl ⟨_, captureAll_filters E w⟩
  exact ⟨h1, h2.trace, rfl⟩

/-- C184. Python's filters after a session whose code leaves them alone: those of the session, then those of before; another session changes nothing more. -/
theorem C184_filters (E : Env) (hE : E.Ok) (hh : ∀ x, E.hookRaises x = false) (body body' : List Act) (hp : PlainAll body) (hp' : PlainAll body') (w : World) :
    (session E body w).2.filters =
      ⟨.ignore, E.importWarning, none⟩ :: ⟨.always, E.warning, none⟩ :: (w.filters.erase ⟨.always, E.warning, none⟩).erase ⟨.ignore, E.importWarning, none⟩ ∧
    (session E body' (session E body w).2).2.filters = (session E body w).2.filters := by
  have h : ∀ (body : List Act) (w : World), PlainAll body → (session E body w).2.filters = (captureAll E w).filters := by
    intro body w hp
    exact (execAll_plain E hE hh body { captureAll E w with show_ := .session } hp rfl ⟨_, captureAll_filters E w⟩).2.filters
  refine ⟨(h body w hp).trans (captureAll_filters E w), ?_⟩
  rw [h body' _ hp', captureAll_filters, h body w hp, captureAll_filters]
  rw [List.erase_cons_tail (by simp), List.erase_cons_head, List.erase_cons_head]

/-- The warning is what a filter of Python's is about. -/
def Covered (E : Env) (c : Nat) (more : Option Nat) (x : PW) : Bool := E.sub x.cat c && more.all (fun n => E.more n x)

theorem action_ignore (E : Env) (hE : E.Ok) (c : Nat) (more : Option Nat) (w : World) (hw : Fronted E w) (x : PW) :
    action E (addFilter ⟨.ignore, c, more⟩ w).filters x = if Covered E c more x || E.sub x.cat E.importWarning then .ignore else .always := by
  obtain ⟨r, h⟩ := hw
  have hm : PF.applies E ⟨.ignore, c, more⟩ x = Covered E c more x := by cases more <;> rfl
  have h1 : PF.applies E ⟨.ignore, E.importWarning, none⟩ x = E.sub x.cat E.importWarning := by simp [PF.applies]
  have h2 : PF.applies E ⟨.always, E.warning, none⟩ x = true := by simp [PF.applies, hE.warning]
  simp only [addFilter, h]
  by_cases he : (⟨.ignore, E.importWarning, none⟩ : PF) = ⟨.ignore, c, more⟩
  · rw [he, List.erase_cons_head]
    rw [he] at h1
    simp only [action, List.find?_cons, h1, h2]
    have : Covered E c more x = E.sub x.cat E.importWarning := by rw [← hm, h1]
    rw [this]
    cases E.sub x.cat E.importWarning <;> rfl
  · rw [List.erase_cons_tail (by simpa using he), List.erase_cons_tail (by simp)]
    simp only [action, List.find?_cons, hm, h1, h2]
    cases Covered E c more x <;> cases E.sub x.cat E.importWarning <;> rfl

theorem warns_ignore (E : Env) (hE : E.Ok) (hh : ∀ x, E.hookRaises x = false) (c : Nat) (more : Option Nat) (w0 : World) (hw0 : Fronted E w0) (xs : List PW)
    (w : World) (hx : ∀ x ∈ xs, ∃ s, x.msg = .str s) (hs : w.show_ = .session) (hf : w.filters = (addFilter ⟨.ignore, c, more⟩ w0).filters) :
    (execAll E (xs.map .warn) w).1 = none ∧
    (execAll E (xs.map .warn) w).2.trace = w.trace ++ (expectAll E ((xs.filter (fun x => !Covered E c more x)).map .warn)).2 := by
  induction xs generalizing w with
  | nil => exact ⟨rfl, by simp [execAll, expectAll]⟩
  | cons x xs ih =>
    obtain ⟨s, hm⟩ := hx x (by simp)
    have ha := action_ignore E hE c more w0 hw0 x
    rw [← hf] at ha
    simp only [List.map_cons, execAll, exec, fuel]
    have hstep : warn E 3 x w = (none, { w with trace := w.trace ++ (if Covered E c more x then [] else (expect E (.warn x)).2) }) := by
      simp only [warn, ha, expect, hm, Noted]
      cases hc : Covered E c more x with
      | true => simp
      | false =>
        by_cases hi : E.sub x.cat E.importWarning = true
        · simp [hi]
        · have hi : E.sub x.cat E.importWarning = false := by simpa using hi
          simp only [hi, Bool.or_false, Bool.false_eq_true, ↓reduceIte, show_session E hh 0 x s hm w hs, Bool.not_false, Bool.true_and]
          by_cases hg : E.ignored.any (fun f => f.matches E.sub (x.text s)) = true
          · simp [hg]
          · have hg : E.ignored.any (fun f => f.matches E.sub (x.text s)) = false := by simpa using hg
            simp [hg]
    rw [hstep]
    obtain ⟨h1, h2⟩ := ih { w with trace := w.trace ++ (if Covered E c more x then [] else (expect E (.warn x)).2) } (fun y hy => hx y (by simp [hy])) hs hf
    refine ⟨h1, ?_⟩
    rw [h2]
    have hr : (expect E (.warn x)).1 = false := by simp [expect, hm]
    cases hc : Covered E c more x with
    | true => simp [hc]
    | false => simp [hc, expectAll, hr]

/-- C184. A filter with which code ignores warnings inside `catch_warnings` concerns just the warnings it covers (by class, and what else it tests), and just
those of the block: the others in the block, and all that follow, are recorded as ever. -/
theorem C184_block (E : Env) (hE : E.Ok) (hh : ∀ x, E.hookRaises x = false) (c : Nat) (more : Option Nat) (xs : List PW)
    (hx : ∀ x ∈ xs, ∃ s, x.msg = .str s) (body : List Act) (hp : PlainAll body) (w : World) :
    (session E (.catching false (.filter ⟨.ignore, c, more⟩ :: xs.map .warn) :: body) w).2.trace =
      w.trace ++ (expectAll E ((xs.filter (fun x => !Covered E c more x)).map .warn)).2 ++ (expectAll E body).2 := by
  have hf : Fronted E { captureAll E w with show_ := .session } := ⟨_, captureAll_filters E w⟩
  simp only [session, execAll, exec]
  obtain ⟨h1, h2⟩ := warns_ignore E hE hh c more { captureAll E w with show_ := .session } hf xs
    (addFilter ⟨.ignore, c, more⟩ { captureAll E w with seen := [], show_ := .session }) hx rfl rfl
  simp only [Bool.false_eq_true, ↓reduceIte]
  revert h1 h2
  rcases execAll E (xs.map .warn) (addFilter ⟨.ignore, c, more⟩ { captureAll E w with seen := [], show_ := .session }) with ⟨r, w'⟩
  intro h1 h2
  dsimp only at h1 h2
  subst h1
  dsimp only
  obtain ⟨-, h4⟩ := execAll_plain E hE hh body { w' with filters := (captureAll E w).filters, show_ := .session, seen := [] } hp rfl ⟨_, captureAll_filters E w⟩
  rw [h4.trace, h2]
  rfl

/-- Of the warnings `p` is about just the first of equal ones. -/
def firsts (p : PW → Bool) : List PW → List PW → List PW
  | _, [] => []
  | seen, x :: xs => if p x && seen.contains x then firsts p seen xs else x :: firsts p (x :: seen) xs

theorem action_once (E : Env) (hE : E.Ok) (c : Nat) (more : Option Nat) (w : World) (hw : Fronted E w) (x : PW) :
    action E (addFilter ⟨.once, c, more⟩ w).filters x =
      if Covered E c more x then .once else if E.sub x.cat E.importWarning then .ignore else .always := by
  obtain ⟨r, h⟩ := hw
  have hm : PF.applies E ⟨.once, c, more⟩ x = Covered E c more x := by cases more <;> rfl
  have h1 : PF.applies E ⟨.ignore, E.importWarning, none⟩ x = E.sub x.cat E.importWarning := by simp [PF.applies]
  have h2 : PF.applies E ⟨.always, E.warning, none⟩ x = true := by simp [PF.applies, hE.warning]
  simp only [addFilter, h]
  rw [List.erase_cons_tail (by simp), List.erase_cons_tail (by simp)]
  simp only [action, List.find?_cons, hm, h1, h2]
  cases Covered E c more x <;> cases E.sub x.cat E.importWarning <;> rfl

theorem warns_once (E : Env) (hE : E.Ok) (hh : ∀ x, E.hookRaises x = false) (c : Nat) (more : Option Nat) (w0 : World) (hw0 : Fronted E w0) (xs : List PW)
    (w : World) (seen : List PW) (hx : ∀ x ∈ xs, (∃ s, x.msg = .str s) ∧ E.sub x.cat E.importWarning = false) (hs : w.show_ = .session)
    (hf : w.filters = (addFilter ⟨.once, c, more⟩ w0).filters) (hseen : ∀ x, Covered E c more x = true → (w.seen.contains x = seen.contains x)) :
    (execAll E (xs.map .warn) w).1 = none ∧
    (execAll E (xs.map .warn) w).2.trace = w.trace ++ (expectAll E ((firsts (Covered E c more) seen xs).map .warn)).2 := by
  induction xs generalizing w seen with
  | nil => exact ⟨rfl, by simp [execAll, expectAll, firsts]⟩
  | cons x xs ih =>
    obtain ⟨⟨s, hm⟩, hi⟩ := hx x (by simp)
    have ha := action_once E hE c more w0 hw0 x
    rw [← hf] at ha
    have hr : (expect E (.warn x)).1 = false := by simp [expect, hm]
    have hshow : ∀ w : World, w.show_ = .session → show_ E 2 x w = (none, { w with trace := w.trace ++ (expect E (.warn x)).2 }) := by
      intro w hs
      rw [show_session E hh 0 x s hm w hs]
      simp only [expect, hm, Noted, hi, Bool.not_false, Bool.true_and]
      by_cases hg : E.ignored.any (fun f => f.matches E.sub (x.text s)) = true
      · simp [hg]
      · have hg : E.ignored.any (fun f => f.matches E.sub (x.text s)) = false := by simpa using hg
        simp [hg]
    simp only [List.map_cons, execAll, exec, fuel, warn, ha, firsts]
    cases hc : Covered E c more x with
    | true =>
      simp only [↓reduceIte, Bool.true_and, hseen x hc]
      cases hb : seen.contains x with
      | true =>
        simp only [↓reduceIte]
        exact ih w seen (fun y hy => hx y (by simp [hy])) hs hf hseen
      | false =>
        simp only [Bool.false_eq_true, ↓reduceIte]
        rw [hshow { w with seen := x :: w.seen } hs]
        obtain ⟨h1, h2⟩ := ih { w with seen := x :: w.seen, trace := w.trace ++ (expect E (.warn x)).2 } (x :: seen) (fun y hy => hx y (by simp [hy])) hs hf (by
          intro y hy
          simp only [List.contains_cons, hseen y hy])
        refine ⟨h1, ?_⟩
        rw [h2]
        simp [expectAll, hr]
    | false =>
      simp only [Bool.false_eq_true, ↓reduceIte, hi, Bool.false_and]
      rw [hshow w hs]
      obtain ⟨h1, h2⟩ := ih { w with trace := w.trace ++ (expect E (.warn x)).2 } (x :: seen) (fun y hy => hx y (by simp [hy])) hs hf (by
        intro y hy
        have hne : (y == x) = false := by
          cases hb : y == x with
          | false => rfl
          | true => rw [eq_of_beq hb, hc] at hy; exact absurd hy (by simp)
        simp only [List.contains_cons, hne, Bool.false_or, hseen y hy])
      refine ⟨h1, ?_⟩
      rw [h2]
      simp [expectAll, hr]

/-- C184. Code that adds a filter of Python's by which warnings are shown once loses the repeated ones it covers, and no other: of equal warnings the first is
recorded and logged, warnings it does not cover are recorded each time. -/
theorem C184_once (E : Env) (hE : E.Ok) (hh : ∀ x, E.hookRaises x = false) (c : Nat) (more : Option Nat) (xs : List PW)
    (hx : ∀ x ∈ xs, (∃ s, x.msg = .str s) ∧ E.sub x.cat E.importWarning = false) (w : World) :
    (session E (.filter ⟨.once, c, more⟩ :: xs.map .warn) w).1 = none ∧
    (session E (.filter ⟨.once, c, more⟩ :: xs.map .warn) w).2.trace =
      w.trace ++ (expectAll E ((firsts (Covered E c more) [] xs).map .warn)).2 := by
  have hf : Fronted E { captureAll E w with show_ := .session } := ⟨_, captureAll_filters E w⟩
  simp only [session, execAll, exec]
  obtain ⟨h1, h2⟩ := warns_once E hE hh c more { captureAll E w with show_ := .session } hf xs
    (addFilter ⟨.once, c, more⟩ { captureAll E w with show_ := .session }) [] hx rfl rfl (fun _ _ => rfl)
  exact ⟨h1, h2⟩

theorem warns_replaced (E : Env) (hE : E.Ok) (n : Nat) (xs : List PW) (w : World) (hs : w.show_ = .user n) (hf : Fronted E w) :
    (execAll E (xs.map .warn) w).1 = none ∧
    (execAll E (xs.map .warn) w).2.trace = w.trace ++ (xs.filter (fun x => !E.sub x.cat E.importWarning)).map (.shown (.user n)) := by
  induction xs generalizing w with
  | nil => exact ⟨rfl, by simp [execAll]⟩
  | cons x xs ih =>
    simp only [List.map_cons, execAll, exec, fuel, warn, action_fronted E hE w hf x]
    cases hi : E.sub x.cat E.importWarning with
    | true =>
      simp only [↓reduceIte]
      obtain ⟨h1, h2⟩ := ih w hs hf
      exact ⟨h1, by simp [h2, hi]⟩
    | false =>
      simp only [Bool.false_eq_true, ↓reduceIte, show_, hs]
      obtain ⟨h1, h2⟩ := ih (w.emit (.shown (.user n) x)) hs hf
      exact ⟨h1, by rw [h2]; simp [World.emit, hi]⟩

/-- C184, violated. Code that replaces `warnings.showwarning` takes all warnings to come from the session: they go to its function and are neither recorded nor logged
(but ImportWarnings, which go nowhere). When the session is over, `showwarning` is what it was before the session. -/
theorem C184_replaced_violated (E : Env) (hE : E.Ok) (n : Nat) (xs : List PW) (w : World) :
    (session E (.setShow n :: xs.map .warn) w).1 = none ∧
    (session E (.setShow n :: xs.map .warn) w).2.trace = w.trace ++ (xs.filter (fun x => !E.sub x.cat E.importWarning)).map (.shown (.user n)) ∧
    (session E (.setShow n :: xs.map .warn) w).2.show_ = w.show_ := by
  simp only [session, execAll, exec]
  obtain ⟨h1, h2⟩ := warns_replaced E hE n xs { captureAll E w with show_ := .user n } rfl ⟨_, captureAll_filters E w⟩
  exact ⟨h1, h2, rfl⟩

/-- The filter of `slash.ignore_warnings` has a text to compare with. -/
def Compares (f : Filter) : Bool :=
  match f.message with
  | some (.str p) => !p.isEmpty
  | _ => false

theorem matches_other (E : Env) (f : Filter) (x : PW) (h : x.msg = .other) (hr : ∀ p, f.message ≠ some (.regex p)) :
    matches_ E.sub f x = some (!Compares f && f.matches E.sub (x.text [])) := by
  obtain ⟨c, n, l, m⟩ := f
  simp only [matches_, h, Warn.Filter.matches, PW.text, Compares]
  by_cases h1 : catFails E.sub c x.cat = true
  · simp only [h1, ↓reduceIte, Bool.and_false]
  · by_cases h2 : patFails n x.file = true
    · simp only [h1, h2, ↓reduceIte, Bool.false_eq_true, Bool.and_false]
    · by_cases h3 : lineFails l x.line = true
      · simp only [h1, h2, h3, ↓reduceIte, Bool.false_eq_true, Bool.and_false]
      · cases m with
        | none =>
          have h4 : patFails none ([] : List Char) = false := rfl
          simp [h1, h2, h3, h4]
        | some p =>
          cases p with
          | regex p => exact absurd rfl (hr p)
          | str p =>
            cases p with
            | nil =>
              have h4 : patFails (some (.str [])) ([] : List Char) = false := rfl
              simp [h1, h2, h3, h4]
            | cons _ _ => simp [h1, h2, h3]

/-- C184. A warning whose first argument is no string is recorded and logged as well, unless a filter of `slash.ignore_warnings` without a text covers it (if no
filter has a regular expression for the text, see `C184_not_string_violated`). -/
theorem C184_other (E : Env) (hE : E.Ok) (hh : ∀ x, E.hookRaises x = false) (x : PW) (hx : x.msg = .other)
    (hr : ∀ f ∈ E.ignored, ∀ p, f.message ≠ some (.regex p)) (w : World) :
    (session E [.warn x] w).1 = none ∧
    (session E [.warn x] w).2.trace = w.trace ++
      (if !E.sub x.cat E.importWarning && !E.ignored.any (fun f => !Compares f && f.matches E.sub (x.text [])) then
        .recorded x :: (if E.sub x.cat E.logbook then [] else [.native x]) else []) := by
  have hsf : ∀ fs : List Filter, (∀ f ∈ fs, ∀ p, f.message ≠ some (.regex p)) →
      shouldFilter E.sub fs x = some (fs.any (fun f => !Compares f && f.matches E.sub (x.text []))) := by
    intro fs
    induction fs with
    | nil => intro _; rfl
    | cons f fs ih =>
      intro h
      simp only [shouldFilter, matches_other E f x hx (h f (by simp)), List.any_cons]
      cases (!Compares f && f.matches E.sub (x.text [])) with
      | true => rfl
      | false => simp only [Bool.false_or]; exact ih (fun g hg => h g (by simp [hg]))
  have h1 : x.msg ≠ .none := by rw [hx]; exact fun h => nomatch h
  have ha := action_fronted E hE { captureAll E w with show_ := .session } ⟨_, captureAll_filters E w⟩ x
  have ht : (captureAll E w).trace = w.trace := rfl
  simp only [session, execAll, exec, fuel, warn, ha]
  by_cases hi : E.sub x.cat E.importWarning = true
  · simp [hi, ht]
  · have hi : E.sub x.cat E.importWarning = false := by simpa using hi
    simp only [hi, Bool.false_eq_true, ↓reduceIte, show_, h1, hsf E.ignored hr, hh, Bool.not_false, Bool.true_and]
    by_cases hg : E.ignored.any (fun f => !Compares f && f.matches E.sub (x.text [])) = true
    · simp [hg, ht]
    · have hg : E.ignored.any (fun f => !Compares f && f.matches E.sub (x.text [])) = false := by simpa using hg
      simp only [hg]
      by_cases hl : E.sub x.cat E.logbook = true
      · simp [hl, World.emit, ht]
      · simp [hl, World.emit, ht, log]

/-! ## Examples and what is violated -/

/-- 0 Warning, 1 ImportWarning, 2 LogbookWarning, 3 UserWarning -/
def exSub (c d : Nat) : Bool := c == d || d == 0 || (d == 3 && c == 2)

def exEnv : Env :=
  { sub := exSub, warning := 0, importWarning := 1, logbook := 2, more := fun _ _ => true, ignored := [{ message := some (.str ['n']) }],
    hookRaises := fun _ => false }

def exW (c : Nat) (s : List Char) : PW := { cat := c, msg := .str s, file := ['f'], line := 1 }

example : exEnv.Ok := ⟨fun c => by simp [exEnv, exSub], rfl⟩

/-- a warning given twice on the same line, one that is ignored, a record of level warning, another one; Python ignores everything before -/
def exBody : List Act :=
  [.warn (exW 3 ['a']), .catching false [.warn (exW 3 ['a'])], .warn (exW 3 ['n']), .log true ['r'] ['g'] 2, .log false ['q'] ['g'] 3,
   .attempt [.raise, .warn (exW 3 ['b'])]]

example : PlainAll exBody := by
  simp only [exBody, PlainAll, Plain, exW]
  exact ⟨⟨_, rfl⟩, ⟨trivial, ⟨_, rfl⟩, trivial⟩, ⟨_, rfl⟩, trivial, trivial, ⟨trivial, ⟨_, rfl⟩, trivial⟩, trivial⟩

example : (session exEnv exBody { filters := [⟨.ignore, 0, none⟩] }).2.trace =
    [.recorded (exW 3 ['a']), .native (exW 3 ['a']), .recorded (exW 3 ['a']), .native (exW 3 ['a']), .record ['r'],
     .recorded { cat := 2, msg := .str ['r'], file := ['g'], line := 2 }, .record ['q']] := by decide

example : (session exEnv [.catching false [.filter ⟨.ignore, 3, none⟩, .warn (exW 3 ['a']), .warn (exW 0 ['b'])], .warn (exW 3 ['a'])] { filters := [] }).2.trace =
    [.recorded (exW 0 ['b']), .native (exW 0 ['b']), .recorded (exW 3 ['a']), .native (exW 3 ['a'])] := by decide

example : (session exEnv [.warn { cat := 3, msg := .other, file := ['f'], line := 1 }] { filters := [] }).2.trace =
    [.recorded { cat := 3, msg := .other, file := ['f'], line := 1 }, .native { cat := 3, msg := .other, file := ['f'], line := 1 }] := by decide

example : (session exEnv [.filter ⟨.once, 3, none⟩, .warn (exW 3 ['a']), .warn (exW 0 ['b']), .warn (exW 3 ['a']), .warn (exW 0 ['b'])] { filters := [] }).2.trace =
    [.recorded (exW 3 ['a']), .native (exW 3 ['a']), .recorded (exW 0 ['b']), .native (exW 0 ['b']), .recorded (exW 0 ['b']), .native (exW 0 ['b'])] := by
  decide

example : (session exEnv [.warn (exW 3 ['a']), .setShow 4, .warn (exW 3 ['a'])] { filters := [] }).2.trace =
    [.recorded (exW 3 ['a']), .native (exW 3 ['a']), .shown (.user 4) (exW 3 ['a'])] := by decide

/-- C184, violated. A warning object without arguments raises IndexError in the code that warns, and is not recorded. -/
theorem C184_no_text_violated :
    (session exEnv [.warn { cat := 3, msg := .none, file := ['f'], line := 1 }] { filters := [] }).1 = some .index ∧
    (session exEnv [.warn { cat := 3, msg := .none, file := ['f'], line := 1 }] { filters := [] }).2.trace = [] := by decide

/-- C184, violated. If a regular expression is given to `slash.ignore_warnings`, a warning whose first argument is no string raises TypeError in the code that
warns. -/
theorem C184_not_string_violated : ∃ E : Env, E.ignored = [{ message := some (.regex (fun _ => false)) }] ∧
    (session E [.warn { cat := 3, msg := .other, file := ['f'], line := 1 }] { filters := [] }).1 = some .type :=
  ⟨{ exEnv with ignored := [{ message := some (.regex (fun _ => false)) }] }, rfl, rfl⟩

/-- C184, violated. An ImportWarning is not recorded, although nothing ignores it. -/
theorem C184_import_violated : (session exEnv [.warn (exW 1 ['a'])] { filters := [] }).2.trace = [] := by decide

/-- C184, violated. If the hook `warning_added` raises, so does the code that warns, and the warning is not recorded. -/
theorem C184_hook_violated : ∃ E : Env, (∀ x, E.hookRaises x = true) ∧ (session E [.warn (exW 3 ['a'])] { filters := [] }).1 = some .hook ∧
    (session E [.warn (exW 3 ['a'])] { filters := [] }).2.trace = [] :=
  ⟨{ exEnv with hookRaises := fun _ => true }, fun _ => rfl, rfl, rfl⟩

/-- C184, violated. When the session is over, Python's filters are not what they were: where warnings were errors before (`python -W error`), they are not any more;
they were not during the session either. -/
theorem C184_filters_violated :
    let w : World := { filters := [⟨.error, 0, none⟩] }
    (warn exEnv fuel (exW 3 ['a']) w).1 = some .warning ∧ (session exEnv [.warn (exW 3 ['a'])] w).1 = none ∧
    (warn exEnv fuel (exW 3 ['a']) (session exEnv [] w).2).1 = none := by decide

/-- C184, violated. A filter that code of the session adds stays in force for everything that follows: later tests' warnings are lost. -/
theorem C184_lost_violated :
    (session exEnv [.attempt [.filter ⟨.ignore, 3, none⟩], .warn (exW 3 ['a'])] { filters := [] }).2.trace = [] ∧
    (session exEnv [.catching false [.filter ⟨.ignore, 3, none⟩], .warn (exW 3 ['a'])] { filters := [] }).2.trace =
      [.recorded (exW 3 ['a']), .native (exW 3 ['a'])] := by decide

/-- C184, violated. A record of level warning is lost as a warning if a filter of Python's makes it an error: `logbook` prints the exception. -/
theorem C184_record_violated :
    (session exEnv [.filter ⟨.error, 3, none⟩, .log true ['r'] ['g'] 2] { filters := [] }).2.trace = [.record ['r'], .printed .warning] := by decide

end Slash.WarnPy
