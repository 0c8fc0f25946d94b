import Verif.Model.Interactive
/-!
# C157: the interactive shell
-/
namespace Slash.Shell
open Slash.Exc

variable {T : Type}

/-- The names a shell has: the keyword arguments, and in a session the attributes of `slash.g` unless configured otherwise. Keyword arguments are
missing only if `slash.g` has an attribute of that name. -/
theorem C157_names_partial (kw : Names) (g : Option Names) (expose : Bool) (n : String) :
    ((g = none ∨ expose = false) → names kw g expose id n = kw n) ∧
    (∀ a, g = some a → expose = true → (∀ v, a n = some v → names kw g expose id n = some v) ∧ (a n = none → names kw g expose id n = kw n)) := by
  unfold names
  constructor
  · rintro (h | h)
    · subst h; rfl
    · subst h
      cases g <;> rfl
  · rintro a rfl rfl
    constructor
    · intro v hv; simp [hv]
    · intro hv; simp [hv]

/-- What hooks do to the names comes last. -/
theorem C157_hook_names (kw : Names) (g : Option Names) (expose : Bool) (hook : Names → Names) :
    names kw g expose hook = hook (names kw g expose id) := by
  unfold names
  cases g <;> cases expose <;> rfl

/-- A keyword argument is replaced by an attribute of `slash.g`. -/
theorem C157_names_violated : ∃ kw g, kw "x" = some 1 ∧ names kw (some g) true id "x" = some 2 :=
  ⟨fun _ => some 1, fun _ => some 2, rfl, rfl⟩

/-- An exception is one of the line typed itself exactly if the innermost frame is in a file whose name starts with `<ipython`. -/
theorem C157_typed (frames : List (List Char)) :
    isEval frames = true ↔ ∃ outer f rest, frames = outer ++ [f] ∧ f.map Char.toLower = ['<', 'i', 'p', 'y', 't', 'h', 'o', 'n'] ++ rest := by
  unfold isEval
  rcases List.eq_nil_or_concat frames with rfl | ⟨outer, f, rfl⟩
  · simp
  · simp only [List.concat_eq_append, List.getLast?_append, List.getLast?_singleton, Option.some_or, List.isPrefixOf_iff_prefix]
    constructor
    · rintro ⟨rest, h⟩
      exact ⟨outer, f, rest, rfl, h.symm⟩
    · rintro ⟨o, f', rest, h, h'⟩
      obtain ⟨_, hf⟩ := List.append_inj' h rfl
      simp only [List.cons.injEq, and_true] at hf
      subst hf
      exact ⟨rest, h'.symm⟩

/-- What was added to results, in order. -/
def entries (t : List Ev) : List (Nat × Entry) := t.filterMap fun | .entry i k => some (i, k) | _ => none

/-- Hooks for exceptions do not raise. -/
def Quiet (E : Env T) : Prop := ∀ e, E.beforeRaises e = none ∧ E.afterRaises e = none

/-- The exception of a line. -/
def Line.exc : Line T → Option (Exc T)
  | .fine => none
  | .raises r => some r.exc

/-- The line ends with a request to terminate. -/
def Line.isTerm (E : Env T) (term : T) (l : Line T) : Bool := l.exc.any fun e => E.H.inst e [term]

/-- The lines up to the first request to terminate. -/
def ran (E : Env T) (term : T) (ls : List (Line T)) : List (Line T) :=
  ls.takeWhile (fun l => !l.isTerm E term) ++ (ls.dropWhile (fun l => !l.isTerm E term)).take 1

/-- What a line should add to the result: the exception of code it calls, as what it is. -/
def expected (E : Env T) (term : T) : Line T → Option (Nat × Entry)
  | .fine => none
  | .raises r =>
    if E.H.inst r.exc [E.H.exception, term] = true ∧ isEval r.frames = false then (classify E.H r.exc).map (r.exc.id, ·) else none

theorem entries_append (a b : List Ev) : entries (a ++ b) = entries a ++ entries b := List.filterMap_append ..

/-- Handling an exception that was not handled before. -/
theorem handle_fresh (E : Env T) (hs : E.hasSession = true) (hq : Quiet E) (e : Exc T) (st : St T)
    (h : (st.marks e.id).handled = false ∧ (st.marks e.id).added = false) :
    (handleException E e st).1 = none ∧
    entries (handleException E e st).2.trace = entries st.trace ++ ((classify E.H e).map (e.id, ·)).toList ∧
    ∀ i, i ≠ e.id → (handleException E e st).2.marks i = st.marks i := by
  unfold handleException
  rw [if_neg (by rw [h.1]; decide)]
  simp only [(hq e).1, (hq e).2, updateCurrentResult, hs, if_true]
  unfold addException
  rw [if_neg (by simp [St.setMarks, h.2])]
  rcases hc : classify E.H e with _ | k
  · refine ⟨trivial, ?_, ?_⟩
    · simp [St.emit, St.setMarks, entries]
    · intro i hi
      simp [St.emit, St.setMarks, hi]
  · refine ⟨trivial, ?_, ?_⟩
    · simp [St.emit, St.setMarks, entries]
    · intro i hi
      simp [St.emit, St.setMarks, hi]

/-- No line has an exception marked before. -/
def Fresh (ls : List (Line T)) (s : S T) : Prop :=
  ∀ l ∈ ls, ∀ e, l.exc = some e → (s.ex.marks e.id).handled = false ∧ (s.ex.marks e.id).added = false

/-- One line. -/
theorem line_spec (E : Env T) (hs : E.hasSession = true) (hq : Quiet E) (term : T) (l : Line T) (s : S T) (hf : Fresh [l] s)
    (hd : s.dropped = false) (hx : s.exit = false) :
    entries (line E term l s).ex.trace = entries s.ex.trace ++ (expected E term l).toList ∧
    (line E term l s).dropped = false ∧ (line E term l s).exit = l.isTerm E term ∧
    (line E term l s).terminated = s.terminated + (if l.isTerm E term then 1 else 0) ∧
    ∀ i, (∀ e, l.exc = some e → i ≠ e.id) → (line E term l s).ex.marks i = s.ex.marks i := by
  cases l with
  | fine => simp [line, expected, Line.isTerm, Line.exc, hd, hx]
  | raises r =>
    have hf' := hf (.raises r) (List.mem_singleton.2 rfl) r.exc rfl
    have hterm : E.H.inst r.exc [term] = true → E.H.inst r.exc [E.H.exception, term] = true := by
      intro h
      simp only [Hier.inst, List.any_cons, List.any_nil, Bool.or_false] at h ⊢
      rw [h, Bool.or_true]
    by_cases hc : E.H.inst r.exc [E.H.exception, term] = true
    · have hl : line E term (.raises r) s = onException E term r s := by simp [line, hd, hc]
      rw [hl]
      unfold onException
      by_cases he : isEval r.frames = true
      · rw [if_pos he]
        have hex : expected E term (.raises r) = none := by simp [expected, he]
        rw [hex]
        by_cases ht : E.H.inst r.exc [term] = true
        · simp [ht, hs, Line.isTerm, Line.exc, hd]
        · simp [ht, Line.isTerm, Line.exc, hd, hx]
      · rw [if_neg he]
        obtain ⟨h1, h2, h3⟩ := handle_fresh E hs hq r.exc s.ex hf'
        have hex : expected E term (.raises r) = (classify E.H r.exc).map (r.exc.id, ·) := by simp [expected, hc, he]
        rw [hex]
        rcases hh : handleException E r.exc s.ex with ⟨x, ex⟩
        rw [hh] at h1 h2 h3
        dsimp only at h1 h2 h3
        subst h1
        have h4 : ∀ i, (∀ e, (Line.raises r).exc = some e → i ≠ e.id) → ex.marks i = s.ex.marks i := fun i hi => h3 i (hi _ rfl)
        by_cases ht : E.H.inst r.exc [term] = true
        · simp only [ht, hs, if_true, Line.isTerm, Line.exc, Option.any_some]
          exact ⟨h2, hd, trivial, trivial, h4⟩
        · have ht' : E.H.inst r.exc [term] = false := by simpa using ht
          simp only [ht', Line.isTerm, Line.exc, Option.any_some]
          exact ⟨h2, hd, hx, rfl, h4⟩
    · have hl : line E term (.raises r) s = s := by simp [line, hc]
      have ht : E.H.inst r.exc [term] = false := by
        rcases h : E.H.inst r.exc [term] with _ | _
        · rfl
        · exact absurd (hterm h) hc
      rw [hl]
      simp [expected, hc, Line.isTerm, Line.exc, ht, hd, hx]

theorem run_spec (E : Env T) (hs : E.hasSession = true) (hq : Quiet E) (term : T) (ls : List (Line T)) (s : S T) (hf : Fresh ls s)
    (hn : (ls.filterMap fun l => l.exc.map (·.id)).Nodup) (hd : s.dropped = false) (hx : s.exit = false) :
    entries (run E term ls s).1.ex.trace = entries s.ex.trace ++ (ran E term ls).filterMap (expected E term) ∧
    (run E term ls s).1.exit = ls.any (·.isTerm E term) ∧
    (run E term ls s).1.terminated = s.terminated + (if ls.any (·.isTerm E term) then 1 else 0) ∧
    ran E term ls ++ (run E term ls s).2 = ls := by
  induction ls generalizing s with
  | nil => simp [run, ran, hx]
  | cons l ls ih =>
    obtain ⟨h1, h2, h3, h4, h5⟩ := line_spec E hs hq term l s (fun l' hl' => hf l' (by simp at hl'; simp [hl'])) hd hx
    unfold run
    by_cases ht : l.isTerm E term = true
    · rw [if_pos (by rw [h3]; exact ht)]
      have hr : ran E term (l :: ls) = [l] := by simp [ran, ht]
      rw [hr]
      refine ⟨?_, ?_, ?_, rfl⟩
      · rw [h1]
        rcases hx' : expected E term l with _ | v <;> simp [hx']
      · rw [h3]; simp [ht]
      · rw [h4]; simp [ht]
    · have ht' : l.isTerm E term = false := by simpa using ht
      rw [if_neg (by rw [h3]; exact ht)]
      have hr : ran E term (l :: ls) = l :: ran E term ls := by simp [ran, ht']
      have hf' : Fresh ls (line E term l s) := by
        intro l' hl' e he
        have hne : ∀ e', l.exc = some e' → e.id ≠ e'.id := by
          intro e' he' heq
          simp only [List.filterMap_cons, he', Option.map_some, List.nodup_cons] at hn
          exact hn.1 (List.mem_filterMap.2 ⟨l', hl', by simp [he, heq]⟩)
        rw [h5 e.id hne]
        exact hf l' (by simp [hl']) e he
      have hn' : (ls.filterMap fun l => l.exc.map (·.id)).Nodup := by
        simp only [List.filterMap_cons] at hn
        cases hl : l.exc with
        | none => simpa [hl] using hn
        | some e => simp only [hl, Option.map_some, List.nodup_cons] at hn; exact hn.2
      obtain ⟨g1, g2, g3, g4⟩ := ih (line E term l s) hf' hn' h2 (by rw [h3]; exact ht')
      rw [hr]
      refine ⟨?_, ?_, ?_, ?_⟩
      · rw [g1, h1]
        rcases hx' : expected E term l with _ | v <;> simp [hx']
      · rw [g2]; simp [ht']
      · rw [g3, h4]; simp [ht']
      · rw [List.cons_append, g4]

/-- In a session whose hooks for exceptions do not raise, the exceptions of code called from the shell are recorded as what they are, each once and
in order; those of the lines typed are not, and nothing is read after a request to terminate. -/
theorem C157_recorded_partial (E : Env T) (hs : E.hasSession = true) (hq : Quiet E) (term : T) (ls : List (Line T)) (s : S T) (hf : Fresh ls s)
    (hn : (ls.filterMap fun l => l.exc.map (·.id)).Nodup) (hd : s.dropped = false) (hx : s.exit = false) :
    entries (run E term ls s).1.ex.trace = entries s.ex.trace ++ (ran E term ls).filterMap (expected E term) ∧
    ran E term ls ++ (run E term ls s).2 = ls :=
  ⟨(run_spec E hs hq term ls s hf hn hd hx).1, (run_spec E hs hq term ls s hf hn hd hx).2.2.2⟩

/-- There, the shell is ended by slash exactly on a request to terminate, and then there is one error for it. -/
theorem C157_terminated_partial (E : Env T) (hs : E.hasSession = true) (hq : Quiet E) (term : T) (ls : List (Line T)) (s : S T) (hf : Fresh ls s)
    (hn : (ls.filterMap fun l => l.exc.map (·.id)).Nodup) (hd : s.dropped = false) (hx : s.exit = false) :
    ((run E term ls s).1.exit = true ↔ ∃ r, .raises r ∈ ls ∧ E.H.isa r.exc.cls term = true) ∧
    (run E term ls s).1.terminated = s.terminated + (if (run E term ls s).1.exit then 1 else 0) := by
  obtain ⟨_, h2, h3, _⟩ := run_spec E hs hq term ls s hf hn hd hx
  refine ⟨?_, by rw [h3, h2]⟩
  rw [h2, List.any_eq_true]
  constructor
  · rintro ⟨l, hl, ht⟩
    cases l with
    | fine => simp [Line.isTerm, Line.exc] at ht
    | raises r => exact ⟨r, hl, by simpa [Line.isTerm, Line.exc, Hier.inst] using ht⟩
  · rintro ⟨r, hr, ht⟩
    exact ⟨_, hr, by simpa [Line.isTerm, Line.exc, Hier.inst] using ht⟩

/-- Classes by number: 0 errors, 1 `TerminatedException`, 2 skips. -/
def exEnv (session hookRaises : Bool) : Env Nat :=
  { H := { isa := fun a b => a == b || (a == 2 && b == 0), exception := 0, genExit := 9, failureTypes := [], skipTypes := [2], interruptTypes := [1],
           notCaught := 8 }
    hasSession := session
    beforeRaises := fun e => if hookRaises && e.cls == 0 then some ⟨100, 0⟩ else none
    afterRaises := fun _ => none }

/-- A shell that was just started. -/
def exStart : S Nat := { ex := { marks := fun _ => {}, ignored := [], trace := [] } }

/-- A line that calls code in a file. -/
def exCall (id cls : Nat) : Line Nat := .raises ⟨⟨id, cls⟩, ["<ipython-input-1>".toList, "/lib/a.py".toList]⟩

/-- A line that raises by itself. -/
def exTyped (id cls : Nat) : Line Nat := .raises ⟨⟨id, cls⟩, ["/lib/IPython/x.py".toList, "<IPython-input-1>".toList]⟩

/-- Once a hook for exceptions raised, nothing is recorded any more. -/
theorem C157_hook_violated : entries (run (exEnv true true) 1 [exCall 1 0, exCall 2 2, exCall 3 0] exStart).1.ex.trace = [(1, .error)] := by
  decide

/-- Without a session a request to terminate is ignored. -/
theorem C157_no_session_violated : (run (exEnv false false) 1 [exCall 1 1, .fine] exStart).1.exit = false := by decide

/-- Without a session a request to terminate is the last exception the shell passes on: all lines after it are read, and no exception of theirs is
handled. -/
theorem C157_no_session_deaf (E : Env T) (hs : E.hasSession = false) (term : T) (r : Raised T) (ls : List (Line T)) (s : S T)
    (hx : s.exit = false) (ht : E.H.isa r.exc.cls term = true) :
    run E term (.raises r :: ls) s = (line E term (.raises r) s, []) ∧ (line E term (.raises r) s).exit = false := by
  have hrun : ∀ (ls : List (Line T)) (s : S T), s.dropped = true → s.exit = false → run E term ls s = (s, []) := by
    intro ls
    induction ls with
    | nil => intro s _ _; rfl
    | cons l ls ih =>
      intro s hd hx
      have hl : line E term l s = s := by cases l <;> simp [line, hd]
      unfold run
      rw [hl, if_neg (by simp [hx])]
      exact ih s hd hx
  have hl : (line E term (.raises r) s).dropped = true ∧ (line E term (.raises r) s).exit = false := by
    cases hd : s.dropped with
    | true => simp [line, hd, hx]
    | false =>
      have hi : E.H.inst r.exc [E.H.exception, term] = true := by simp [Hier.inst, ht]
      have hi' : E.H.inst r.exc [term] = true := by simp [Hier.inst, ht]
      have : line E term (.raises r) s = onException E term r s := by simp [line, hd, hi]
      rw [this]
      unfold onException
      rcases (if isEval r.frames = true then (none, s.ex) else handleException E r.exc s.ex) with ⟨_ | e, ex⟩
      · simp [hi', hs, hx]
      · simp [hx]
  refine ⟨?_, hl.2⟩
  conv => lhs; unfold run
  rw [if_neg (by simp [hl.2]), hrun ls _ hl.1 hl.2]

example : (run (exEnv false false) 1 [exCall 1 0, exCall 2 1, exCall 3 0] exStart).1.ex.trace = (run (exEnv false false) 1 [exCall 1 0, exCall 2 1] exStart).1.ex.trace ∧
    (run (exEnv false false) 1 [exCall 1 0, exCall 2 1] exStart).1.ex.trace ≠ [] := by decide

/-- What events do to the result of the test that is running. -/
def onCurrent (r : Result) (evs : List Runner.UEv) : Result :=
  evs.foldl (fun r e => match e with | .cur e => r.apply e | _ => r) r

theorem onCurrent_trace (tr : List Ev) (r : Result) :
    let r' := onCurrent r (tr.flatMap evEv)
    r'.errors = r.errors ++ List.replicate ((entries tr).countP (·.2 == .error)) ⟨false⟩ ∧
    r'.failures = r.failures ++ List.replicate ((entries tr).countP (·.2 == .failure)) ⟨false⟩ ∧
    r'.skips.length = r.skips.length + (entries tr).countP (·.2 == .skip) ∧
    r'.interrupted = (r.interrupted || (entries tr).any (·.2 == .interruption)) := by
  induction tr generalizing r with
  | nil => simp [onCurrent, entries]
  | cons e tr ih =>
    have happ : onCurrent r ((e :: tr).flatMap evEv) = onCurrent (onCurrent r (evEv e)) (tr.flatMap evEv) := by
      simp only [onCurrent, List.flatMap_cons, List.foldl_append]
    simp only [happ]
    obtain ⟨h1, h2, h3, h4⟩ := ih (onCurrent r (evEv e))
    cases e with
    | entry i k =>
      have he : entries (Ev.entry i k :: tr) = (i, k) :: entries tr := rfl
      rw [h1, h2, h3, h4, he]
      cases k <;>
        simp [onCurrent, evEv, entryEv, Result.apply, Result.addError, Result.addFailure, Result.addSkip, Result.markInterrupted,
          List.replicate_succ, (by decide : (Entry.failure == Entry.interruption) = false),
          (by decide : (Entry.skip == Entry.interruption) = false), (by decide : (Entry.error == Entry.interruption) = false)] <;> omega
    | _ => exact ⟨h1, h2, h3, h4⟩

/-- The interactive test itself never fails with an exception, and has one error for each error that was recorded and for each request to
terminate, none of them fatal, one failure and one skip for each that was recorded, and counts as interrupted if an interruption was. -/
theorem C157_result (s : S T) :
    let r := onCurrent {} (testBody s).evs
    (testBody s).raises = none ∧
    r.errors = List.replicate ((entries s.ex.trace).countP (·.2 == .error) + s.terminated) ⟨false⟩ ∧
    r.failures = List.replicate ((entries s.ex.trace).countP (·.2 == .failure)) ⟨false⟩ ∧
    r.skips.length = (entries s.ex.trace).countP (·.2 == .skip) ∧
    r.interrupted = (entries s.ex.trace).any (·.2 == .interruption) := by
  have hrep : ∀ (n : Nat) (r : Result), onCurrent r (List.replicate n (.cur (.err false))) = { r with errors := r.errors ++ List.replicate n ⟨false⟩ } := by
    intro n
    induction n with
    | zero => intro r; simp [onCurrent]
    | succ n ih =>
      intro r
      have : onCurrent r (List.replicate (n + 1) (.cur (.err false))) = onCurrent (r.addError ⟨false⟩) (List.replicate n (.cur (.err false))) := by
        simp only [onCurrent, List.replicate_succ, List.foldl_cons, Result.apply]
      rw [this, ih]
      simp [Result.addError, List.replicate_succ]
  have happ : onCurrent {} (testBody s).evs = onCurrent (onCurrent {} (s.ex.trace.flatMap evEv)) (List.replicate s.terminated (.cur (.err false))) := by
    simp only [onCurrent, testBody, List.foldl_append]
  obtain ⟨h1, h2, h3, h4⟩ := onCurrent_trace s.ex.trace {}
  simp only [happ, hrep]
  refine ⟨rfl, ?_, ?_, ?_, ?_⟩
  · rw [h1]; simp [List.replicate_append_replicate]
  · rw [h2]; rfl
  · rw [h3]; simp
  · rw [h4]; rfl

example : (onCurrent {} (testBody (run (exEnv true false) 1 [exCall 1 0, exCall 3 2, exCall 4 1] exStart).1).evs) =
    { errors := [⟨false⟩, ⟨false⟩], skips := [""], interrupted := true } := by decide +kernel

/-- A session with the shell, in which there is a request to terminate, and a test after it. -/
def exSession : Runner.St :=
  (Runner.runTests {} [{ id := 1, file := 0, module := 0, body := testBody (run (exEnv true false) 1 [exCall 1 1] exStart).1 },
    { id := 2, file := 1, module := 1 }]).2

/-- A request to terminate ends the shell, and both the test and the session count as interrupted, but the tests after it are run. -/
theorem C157_goes_on_violated : exSession.trace.contains (.body 2) = true ∧
    (exSession.res.lookup 1).any (fun r => r.isInterrupted && r.errors.length == 1) = true ∧ exSession.res.global.isInterrupted = true := by
  decide +kernel

-- An error and a skip of called code are recorded, an error of the line typed is not; nothing is read after the request to terminate.
example : entries (run (exEnv true false) 1 [exCall 1 0, .fine, exTyped 2 0, exCall 3 2, exCall 4 1, exCall 5 0] exStart).1.ex.trace =
      [(1, .error), (3, .skip), (4, .interruption)] ∧
    (run (exEnv true false) 1 [exCall 1 0, .fine, exTyped 2 0, exCall 3 2, exCall 4 1, exCall 5 0] exStart).2.length = 1 ∧
    (run (exEnv true false) 1 [exCall 1 0, exCall 4 1] exStart).1.exit = true ∧
    (run (exEnv true false) 1 [exCall 1 0, exCall 4 1] exStart).1.terminated = 1 ∧
    (run (exEnv true false) 1 [exTyped 4 1] exStart).1.terminated = 1 := by decide

-- The hypotheses can be met.
example : Quiet (exEnv true false) ∧ Fresh [exCall 1 0, exCall 2 1] exStart ∧
    ([exCall 1 0, exCall 2 1].filterMap fun l => l.exc.map (·.id)).Nodup :=
  ⟨fun _ => ⟨rfl, rfl⟩, fun _ _ _ _ => ⟨rfl, rfl⟩, by decide⟩

example : names (fun n => if n = "y" then some 3 else none) (some fun n => if n = "x" then some 2 else none) true
    (fun m n => if n = "z" then some 4 else m n) "x" = some 2 := by decide

end Slash.Shell
