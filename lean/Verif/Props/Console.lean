import Verif.Model.Console
/-! The console: C118 - C122. -/
namespace Slash.Console

/-! ## C118: how the end of a test is reported -/

/-- Success is reported exactly for successful tests. -/
theorem C118_success (r : Result) : reportEnd r = some .success ↔ r.isSuccess = true := by
  unfold reportEnd
  by_cases h : r.isSuccess = true
  · simp [h]
  · simp only [h, Bool.false_eq_true, if_false, iff_false]
    repeat' split
    all_goals simp

/-- A test that was started is always reported, in one way; there is no internal error. -/
theorem C118_total (r : Result) (h : r.isStarted = true ∨ r.isSkip = true ∨ r.hasErrorsOrFailures = true ∨ r.isInterrupted = true) : ∃ e, reportEnd r = some e := by
  unfold reportEnd
  simp only [Result.isSuccess, Result.isStarted, Result.isSkip, Result.hasErrorsOrFailures, Result.isInterrupted, Result.isError, Result.isFailure] at h ⊢
  rcases r with ⟨e, f, s, a, b, i⟩
  cases e <;> cases f <;> cases s <;> cases i <;> cases a <;> simp_all

/-- An error is reported as an error, a failure as a failure, an interruption as an interruption, if the test has no skip as well. -/
theorem C118_worst_partial (r : Result) (h : r.isSkip = false) :
    (r.isError = true → reportEnd r = some .error) ∧
    (r.isError = false → r.isInterrupted = true → reportEnd r = some .interrupted) ∧
    (r.isError = false → r.isInterrupted = false → r.isFailure = true → reportEnd r = some .failure) := by
  unfold reportEnd
  simp only [Result.isSuccess, Result.isStarted, Result.isSkip, Result.isInterrupted, Result.isError, Result.isFailure] at h ⊢
  rcases r with ⟨e, f, s, a, b, i⟩
  cases e <;> cases f <;> cases s <;> cases i <;> cases a <;> simp_all

/-- A test is reported as a skipped one exactly if it has a skip. -/
theorem C118_skip (r : Result) : reportEnd r = some .skip ↔ r.isSkip = true := by
  unfold reportEnd
  simp only [Result.isSuccess, Result.isStarted, Result.isSkip, Result.isInterrupted, Result.isError, Result.isFailure]
  rcases r with ⟨e, f, s, a, b, i⟩
  cases e <;> cases f <;> cases s <;> cases i <;> cases a <;> simp_all

/-- The full claim, that an erroneous test is reported as an error, is false: with a skip as well it is reported as a skipped one. -/
theorem C118_worst_violated : ∃ r : Result, r.isError = true ∧ reportEnd r = some .skip :=
  ⟨{ errors := [{}], skips := ["reason"], started := true }, by decide⟩

example : reportEnd { failures := [{}], started := true, interrupted := true } = some .interrupted ∧
    reportEnd { failures := [{}], errors := [{}], started := true } = some .error ∧ reportEnd { started := true } = some .success := by decide

/-! ## C119: progress on the console -/

/-- The reports about the tests of one file. -/
def inFile : Ev → Bool
  | .fileStart _ | .fileEnd _ => false
  | _ => true

/-- The end of a test that was run is reported. -/
def fine : Ev → Bool
  | .testEnd _ r => (reportEnd r).isSome
  | _ => true

/-- An error or a failure of a test. -/
def bad : Ev → Bool
  | .errorAdded (some _) _ _ => true
  | _ => false

/-- The mark of an event: a dot for a successful test, a letter for each error, failure and skip, and for an interruption. -/
def markOf : Ev → List Tok
  | .errorAdded none _ abort => if abort then [] else [.sessionError]
  | .errorAdded (some _) failure _ => [.mark (if failure then 'F' else 'E')]
  | .skipAdded _ => [.mark 's']
  | .testEnd _ r => if r.isSuccess then [.mark '.'] else if reportEnd r = some .interrupted then [.mark 'I'] else []
  | _ => []

/-- The same with full lines. -/
def lineOf : Ev → List Tok
  | .errorAdded none _ abort => if abort then [] else [.sessionError]
  | .errorAdded (some t) failure _ => [.line (if failure then 'F' else 'E') t]
  | .skipAdded t => [.line 's' t]
  | .testEnd t r => if reportEnd r = some .interrupted then [.line 'I' t] else []
  | _ => []

theorem step_out (level : Nat) (st : St) (e : Ev) (hf : fine e = true) (hi : inFile e = true) :
    ∃ st', step level st e = some st' ∧ st'.out = st.out ++ (if allows level NOTICE then lineOf e else markOf e) ∧
      st'.failed = (if bad e then some true else st.failed) ∧ (st.skips ≠ none → st'.skips ≠ none) := by
  cases e with
  | fileStart n => cases hi
  | fileEnd n => cases hi
  | errorAdded t f a =>
    cases t with
    | none => exact ⟨_, rfl, by simp [lineOf, markOf], by simp [bad], fun h => h⟩
    | some t => exact ⟨_, rfl, by cases allows level NOTICE <;> simp [lineOf, markOf, letter], by simp [bad], fun h => h⟩
  | skipAdded t => exact ⟨_, rfl, by cases allows level NOTICE <;> simp [lineOf, markOf], by simp [bad], fun _ => by simp⟩
  | testEnd t r =>
    simp only [fine, Option.isSome_iff_exists] at hf
    obtain ⟨x, hx⟩ := hf
    have hs := C118_success r
    unfold step
    simp only [hx, lineOf, markOf]
    cases x with
    | success =>
      have := hs.1 hx
      refine ⟨_, rfl, ?_, by simp [bad], fun h => h⟩
      cases allows level NOTICE <;> simp [this]
    | interrupted =>
      have h2 : r.isSuccess = false := by
        cases h : r.isSuccess with
        | false => rfl
        | true => rw [hs.2 h] at hx; cases hx
      refine ⟨_, rfl, ?_, by simp [bad], fun h => h⟩
      cases allows level NOTICE <;> simp [h2]
    | skip =>
      have h2 : r.isSuccess = false := by
        cases h : r.isSuccess with
        | false => rfl
        | true => rw [hs.2 h] at hx; cases hx
      exact ⟨_, rfl, by simp [h2], by simp [bad], fun h => h⟩
    | error =>
      have h2 : r.isSuccess = false := by
        cases h : r.isSuccess with
        | false => rfl
        | true => rw [hs.2 h] at hx; cases hx
      exact ⟨_, rfl, by simp [h2], by simp [bad], fun h => h⟩
    | failure =>
      have h2 : r.isSuccess = false := by
        cases h : r.isSuccess with
        | false => rfl
        | true => rw [hs.2 h] at hx; cases hx
      exact ⟨_, rfl, by simp [h2], by simp [bad], fun h => h⟩

theorem run_out (level : Nat) (es : List Ev) (st : St) (hf : ∀ e ∈ es, fine e = true) (hi : ∀ e ∈ es, inFile e = true) :
    ∃ st', run level st es = some st' ∧ st'.out = st.out ++ es.flatMap (fun e => if allows level NOTICE then lineOf e else markOf e) ∧
      st'.failed = (if es.any bad then some true else st.failed) ∧ (st.skips ≠ none → st'.skips ≠ none) := by
  induction es generalizing st with
  | nil => exact ⟨st, rfl, by simp, by simp, fun h => h⟩
  | cons e es ih =>
    obtain ⟨s1, h1, h2, h3, h4⟩ := step_out level st e (hf e (by simp)) (hi e (by simp))
    obtain ⟨s2, g1, g2, g3, g4⟩ := ih s1 (fun x hx => hf x (by simp [hx])) (fun x hx => hi x (by simp [hx]))
    refine ⟨s2, by simp [run, h1, g1], by rw [g2, h2]; simp, ?_, fun h => g4 (h4 h)⟩
    rw [g3, h3, List.any_cons]
    cases bad e <;> cases es.any bad <;> rfl

theorem run_append (level : Nat) (st : St) (a b : List Ev) : run level st (a ++ b) = (run level st a).bind (fun st => run level st b) := by
  induction a generalizing st with
  | nil => rfl
  | cons e a ih =>
    simp only [List.cons_append, run]
    cases step level st e with
    | none => rfl
    | some s => simp [ih]

/-- At the usual verbosity each file has one line: its name, the marks of its tests in order, and `FAIL` exactly if an error or a failure
was added for one of its tests, else `PASS`; whatever was reported before. -/
theorem C119_file_line (st : St) (name : String) (es : List Ev) (hf : ∀ e ∈ es, fine e = true) (hi : ∀ e ∈ es, inFile e = true) :
    ∃ st', run WARNING st (.fileStart name :: es ++ [.fileEnd name]) = some st' ∧
      st'.out = st.out ++ (.file name :: es.flatMap markOf ++ [if es.any bad then .fail else .pass]) := by
  obtain ⟨s2, g1, g2, g3, g4⟩ := run_out WARNING es { st with failed := some false, skips := some false, out := st.out ++ [.file name] } hf hi
  have e1 : run WARNING st (.fileStart name :: es ++ [.fileEnd name]) = (run WARNING st (.fileStart name :: es)).bind (fun s => run WARNING s [.fileEnd name]) :=
    run_append WARNING st (.fileStart name :: es) [.fileEnd name]
  have e2 : run WARNING st (.fileStart name :: es) = some s2 := g1
  have hs := g4 (by simp)
  rw [e1, e2]
  simp only [Option.bind_some, run, step]
  have ha : (!allows WARNING WARNING || allows WARNING NOTICE) = false := by decide
  rw [ha]
  simp only [Bool.false_eq_true, if_false]
  have hn : allows WARNING NOTICE = false := by decide
  simp only [hn, Bool.false_eq_true, if_false] at g2
  rw [g3]
  cases hb : es.any bad with
  | true => exact ⟨_, rfl, by simp [g2]⟩
  | false =>
    obtain ⟨b, hb⟩ := Option.ne_none_iff_exists'.1 hs
    simp only [Bool.false_eq_true, if_false, hb]
    exact ⟨_, rfl, by simp [g2]⟩

example : (run WARNING {} [.fileStart "a.py", .testEnd 0 { started := true }, .skipAdded 1, .testEnd 1 { started := true, skips := ["s"] }, .fileEnd "a.py",
    .fileStart "b.py", .errorAdded (some 2) true false, .testEnd 2 { started := true, failures := [{}] }, .fileEnd "b.py"]).map (·.out) =
    some [.file "a.py", .mark '.', .mark 's', .pass, .file "b.py", .mark 'F', .fail] := by decide

/-- With more verbosity each error, failure, skip and interruption has a line of its own that names the test; with less there are only marks, without files. -/
theorem C119_other_levels (level : Nat) (hl : level ≠ WARNING) (st : St) (es : List Ev) (hf : ∀ e ∈ es, fine e = true) :
    ∃ st', run level st es = some st' ∧ st'.out = st.out ++ es.flatMap (fun e => if level < WARNING then lineOf e else markOf e) := by
  have ha : ∀ e : List Tok × List Tok, (if allows level NOTICE then e.1 else e.2) = if level < WARNING then e.1 else e.2 := by
    intro e
    by_cases h : level < WARNING
    · have : allows level NOTICE = true := by have hW : WARNING = 13 := rfl; have hN : NOTICE = 12 := rfl; simp only [allows, decide_eq_true_eq, decide_eq_false_iff_not]; omega
      simp [h, this]
    · have : allows level NOTICE = false := by have hW : WARNING = 13 := rfl; have hN : NOTICE = 12 := rfl; simp only [allows, decide_eq_true_eq, decide_eq_false_iff_not]; omega
      simp [h, this]
  induction es generalizing st with
  | nil => exact ⟨st, rfl, by simp⟩
  | cons e es ih =>
    have hs : ∃ s1, step level st e = some s1 ∧ s1.out = st.out ++ (if level < WARNING then lineOf e else markOf e) := by
      by_cases hi : inFile e = true
      · obtain ⟨s1, h1, h2, -, -⟩ := step_out level st e (hf e (by simp)) hi
        exact ⟨s1, h1, by rw [h2, ← ha (lineOf e, markOf e)]⟩
      · by_cases hn : allows level NOTICE = true
        · have hw : allows level WARNING = true := by have hW : WARNING = 13 := rfl; have hN : NOTICE = 12 := rfl; simp only [allows, decide_eq_true_eq] at hn ⊢; omega
          cases e <;> first | exact absurd rfl hi | (simp only [step, hn, hw, lineOf, markOf]; exact ⟨_, rfl, by simp⟩)
        · have hw : allows level WARNING = false := by have hW : WARNING = 13 := rfl; have hN : NOTICE = 12 := rfl; simp only [allows, decide_eq_true_eq, decide_eq_false_iff_not] at hn ⊢; omega
          cases e <;> first | exact absurd rfl hi | (simp only [step, hn, hw, lineOf, markOf]; exact ⟨_, rfl, by simp⟩)
    obtain ⟨s1, h1, h2⟩ := hs
    obtain ⟨s2, g1, g2⟩ := ih s1 (fun x hx => hf x (by simp [hx]))
    exact ⟨s2, by simp [run, h1, g1], by rw [g2, h2]; simp⟩

example : (run NOTICE {} [.fileStart "b.py", .errorAdded (some 2) true false, .testEnd 2 { started := true, failures := [{}] }, .fileEnd "b.py"]).map (·.out) =
    some [.line 'F' 2] ∧ (run ERROR {} [.fileStart "b.py", .errorAdded (some 2) true false, .testEnd 3 { started := true }, .fileEnd "b.py"]).map (·.out) =
    some [.mark 'F', .mark '.'] := by decide

/-- `PASS` means that no test of the file had an error or a failure, not that its tests succeeded: an interrupted test and errors of the session
do not count. -/
theorem C119_pass_violated : ∃ (es : List Ev) (st' : St), (∃ t r, Ev.testEnd t r ∈ es ∧ r.isSuccess true = false) ∧
    run WARNING {} (.fileStart "a.py" :: es ++ [.fileEnd "a.py"]) = some st' ∧ st'.out = [.file "a.py", .mark 'I', .pass] :=
  ⟨[.testEnd 0 { started := true, interrupted := true }], _, ⟨0, _, List.mem_singleton.2 rfl, by decide⟩, rfl, by decide⟩

/-! ## C120: the summary of a session -/

theorem errorsLoop_some (manualTb : Bool) (tbLevel n : Nat) (l : List (Char × SErr)) (i : Nat) (ps : List Piece) (h : errorsLoop manualTb tbLevel n i l = some ps)
    (x : Char × SErr) (hx : x ∈ l) : ∃ j p, errorPieces manualTb tbLevel j n x.1 x.2 = some p ∧ ∀ y ∈ p, y ∈ ps := by
  induction l generalizing i ps with
  | nil => cases hx
  | cons a l ih =>
    obtain ⟨c, e⟩ := a
    simp only [errorsLoop, Option.bind_eq_some_iff, Option.map_eq_some_iff] at h
    obtain ⟨p, hp, q, hq, rfl⟩ := h
    rcases List.mem_cons.1 hx with rfl | hx
    · exact ⟨i, p, hp, fun y hy => List.mem_append_left _ hy⟩
    · obtain ⟨j, p', h1, h2⟩ := ih (i + 1) q hq hx
      exact ⟨j, p', h1, fun y hy => List.mem_append_right _ (h2 y hy)⟩

theorem errorsLoop_total (manualTb : Bool) (tbLevel n : Nat) (l : List (Char × SErr)) (i : Nat) (h : tbLevel ≠ 1 ∨ ∀ x ∈ l, x.2.frames ≠ []) :
    ∃ ps, errorsLoop manualTb tbLevel n i l = some ps := by
  induction l generalizing i with
  | nil => exact ⟨[], rfl⟩
  | cons a l ih =>
    obtain ⟨c, e⟩ := a
    obtain ⟨q, hq⟩ := ih (i + 1) (h.imp_right (fun h x hx => h x (by simp [hx])))
    have ht : ∃ t, traceback tbLevel e = some t := by
      unfold traceback
      by_cases h0 : tbLevel = 0
      · simp [h0]
      · by_cases h1 : tbLevel = 1
        · have hne := (h.resolve_left (fun g => g h1)) (c, e) (by simp)
          obtain ⟨f, hf⟩ := Option.isSome_iff_exists.1 (List.getLast?_isSome.2 hne)
          simp only at hf
          simp [h1, hf]
        · simp only [h0, h1, if_false]
          split <;> simp
    obtain ⟨t, ht⟩ := ht
    have hp : ∃ p, errorPieces manualTb tbLevel i n c e = some p := by
      unfold errorPieces
      split
      · exact ⟨_, rfl⟩
      · rw [ht]; exact ⟨_, rfl⟩
    obtain ⟨p, hp⟩ := hp
    exact ⟨p ++ q, by simp [errorsLoop, hp, hq]⟩

theorem summary_spec (level : Nat) (manualTb : Bool) (tbLevel : Nat) (rs : List SRes) (h : tbLevel ≠ 1 ∨ ∀ r ∈ rs, ∀ e ∈ r.errors ++ r.failures, e.frames ≠ [])
    (i : Nat) : ∃ es, summary level manualTb tbLevel i rs = some es ∧
      ∀ n : Nat, (∃ x ∈ es, x.number = n + i + 1) ↔ ∃ r, rs[n]? = some r ∧ infos level r ≠ (false, false) := by
  induction rs generalizing i with
  | nil => exact ⟨[], rfl, by simp⟩
  | cons r rs ih =>
    obtain ⟨es, h1, h2⟩ := ih (h.imp_right (fun h r hr => h r (by simp [hr]))) (i + 1)
    have hge : ∀ (rs : List SRes) (i : Nat) es, summary level manualTb tbLevel i rs = some es → ∀ x ∈ es, x.number ≥ i + 1 := by
      intro rs
      induction rs with
      | nil => intro i es h x hx; cases h; cases hx
      | cons r rs ih =>
        intro i es h x hx
        unfold summary at h
        split at h
        · have := ih _ _ h x hx; omega
        · simp only [Option.bind_eq_some_iff, Option.map_eq_some_iff] at h
          obtain ⟨p, -, q, hq, rfl⟩ := h
          rcases List.mem_cons.1 hx with rfl | hx
          · simp
          · have := ih _ _ hq x hx; omega
    have hge := hge rs (i + 1) es h1
    have hp : ∃ p, (if (infos level r).1 then errorsFailures manualTb tbLevel r else some []) = some p := by
      split
      · unfold errorsFailures
        refine errorsLoop_total _ _ _ _ _ (h.imp_right (fun h x hx => ?_))
        refine h r (by simp) x.2 ?_
        simp only [List.mem_append, List.mem_map] at hx ⊢
        rcases hx with ⟨a, ha, rfl⟩ | ⟨a, ha, rfl⟩
        · exact Or.inl ha
        · exact Or.inr ha
      · exact ⟨_, rfl⟩
    obtain ⟨p, hp⟩ := hp
    by_cases hi : infos level r = (false, false)
    · refine ⟨es, by rw [summary, hi]; exact h1, ?_⟩
      intro n
      cases n with
      | zero =>
        simp only [List.getElem?_cons_zero, Option.some.injEq, Nat.zero_add]
        constructor
        · rintro ⟨x, hx, hn⟩
          have := hge x hx; omega
        · rintro ⟨r', rfl, hr⟩
          exact absurd hi hr
      | succ n =>
        rw [List.getElem?_cons_succ, ← h2 n]
        simp only [Nat.add_assoc, Nat.add_comm, Nat.add_left_comm]
    · refine ⟨⟨i + 1, r.address, p, if (infos level r).2 then some r.skips else none⟩ :: es, ?_, ?_⟩
      · rw [summary]
        split
        · rename_i hc; exact absurd hc hi
        · rename_i e s hc hne
          rw [hne] at hp ⊢
          simp only at hp ⊢
          rw [hp, h1]
          rfl
      · intro n
        cases n with
        | zero => simp only [List.getElem?_cons_zero, Option.some.injEq, Nat.zero_add]; exact ⟨fun _ => ⟨r, rfl, hi⟩, fun _ => ⟨_, List.mem_cons_self .., rfl⟩⟩
        | succ n =>
          rw [List.getElem?_cons_succ, ← h2 n]
          constructor
          · rintro ⟨x, hx, hn⟩
            rcases List.mem_cons.1 hx with rfl | hx
            · simp only at hn; omega
            · exact ⟨x, hx, by omega⟩
          · rintro ⟨x, hx, hn⟩
            exact ⟨x, List.mem_cons_of_mem _ hx, by omega⟩

/-- A test is in the summary, under its number, exactly if it has errors or failures (unless the verbosity is below that of errors), or skips with
enough verbosity (14 and 11 are the levels of errors and of information); provided that no error without frames is shown with single frames. -/
theorem C120_listed_partial (level : Nat) (manualTb : Bool) (tbLevel : Nat) (rs : List SRes)
    (h : tbLevel ≠ 1 ∨ ∀ r ∈ rs, ∀ e ∈ r.errors ++ r.failures, e.frames ≠ []) :
    ∃ es, summary level manualTb tbLevel 0 rs = some es ∧
      ∀ n : Nat, (∃ x ∈ es, x.number = n + 1) ↔
        ∃ r, rs[n]? = some r ∧ ((level ≤ 14 ∧ (r.errors ≠ [] ∨ r.failures ≠ [])) ∨ (level ≤ 11 ∧ r.skips ≠ [])) := by
  obtain ⟨es, h1, h2⟩ := summary_spec level manualTb tbLevel rs h 0
  refine ⟨es, h1, fun n => (h2 n).trans ?_⟩
  have hi : ∀ r : SRes, infos level r ≠ (false, false) ↔ ((level ≤ 14 ∧ (r.errors ≠ [] ∨ r.failures ≠ [])) ∨ (level ≤ 11 ∧ r.skips ≠ [])) := by
    intro r
    simp only [infos, allows, ERROR, INFO, ne_eq, Prod.mk.injEq, Bool.and_eq_false_iff, decide_eq_false_iff_not, Bool.or_eq_false_iff, Bool.not_eq_false', List.isEmpty_iff]
    grind
  constructor
  · rintro ⟨r, hr, h⟩; exact ⟨r, hr, (hi r).1 h⟩
  · rintro ⟨r, hr, h⟩; exact ⟨r, hr, (hi r).2 h⟩

example : (summary WARNING true 2 0 [{ address := "a" }, { address := "b", errors := [{ message := "m", frames := [7, 8] }] }, { address := "c", skips := ["s"] }]) =
    some [⟨2, "b", [.header 1 1 'E', .frame 7, .frame 8, .message "m"], none⟩] := by decide

/-- Every error and failure of a test in the summary is shown there with its message, if tracebacks are shown and it has frames, or if
it is one the user added with a message. -/
theorem C120_messages_partial (manualTb : Bool) (tbLevel : Nat) (r : SRes) (ps : List Piece) (h : errorsFailures manualTb tbLevel r = some ps) (e : SErr)
    (he : e ∈ r.errors ++ r.failures) (hs : (tbLevel ≠ 0 ∧ e.frames ≠ []) ∨ e.custom = true ∨ (e.exc = false ∧ manualTb = false)) :
    .message e.message ∈ ps := by
  have hx : ∃ c, (c, e) ∈ r.errors.map (fun e => ('E', e)) ++ r.failures.map (fun e => ('F', e)) := by
    rcases List.mem_append.1 he with he | he
    · exact ⟨'E', List.mem_append_left _ (List.mem_map.2 ⟨e, he, rfl⟩)⟩
    · exact ⟨'F', List.mem_append_right _ (List.mem_map.2 ⟨e, he, rfl⟩)⟩
  obtain ⟨c, hc⟩ := hx
  obtain ⟨j, p, hp, hsub⟩ := errorsLoop_some _ _ _ _ _ _ h _ hc
  refine hsub _ ?_
  unfold errorPieces at hp
  simp only at hp
  by_cases hm : (!e.exc && !manualTb) = true
  · rw [if_pos hm] at hp
    cases hp
    simp
  · rw [if_neg hm] at hp
    simp only [Option.map_eq_some_iff] at hp
    obtain ⟨t, ht, rfl⟩ := hp
    rcases hs with ⟨h0, hf⟩ | hcu | ⟨h1, h2⟩
    · unfold traceback at ht
      rw [if_neg h0] at ht
      by_cases h1 : tbLevel = 1
      · rw [if_pos h1] at ht
        obtain ⟨f, hf'⟩ := Option.isSome_iff_exists.1 (List.getLast?_isSome.2 hf)
        rw [hf'] at ht
        cases ht
        simp
      · rw [if_neg h1, if_neg (by simpa using hf)] at ht
        cases ht
        simp
    · simp [hcu]
    · simp [h1, h2] at hm

/-- Each entry of the summary is about the test with its number: it has its address, what is shown about its errors and failures, and its skips if they are wanted. -/
theorem C120_entries (level : Nat) (manualTb : Bool) (tbLevel : Nat) (rs : List SRes) (es : List Entry) (h : summary level manualTb tbLevel 0 rs = some es) (x : Entry)
    (hx : x ∈ es) : ∃ n r, x.number = n + 1 ∧ rs[n]? = some r ∧ x.address = r.address ∧ (level ≤ 14 → errorsFailures manualTb tbLevel r = some x.pieces) ∧
      (level ≤ 11 → r.skips ≠ [] → x.skips = some r.skips) ∧ (¬ level ≤ 11 → x.skips = none) := by
  have key : ∀ (rs : List SRes) (i : Nat) (es : List Entry), summary level manualTb tbLevel i rs = some es → x ∈ es →
      ∃ n r, x.number = n + i + 1 ∧ rs[n]? = some r ∧ x.address = r.address ∧ (level ≤ ERROR → errorsFailures manualTb tbLevel r = some x.pieces) ∧
      (level ≤ INFO → r.skips ≠ [] → x.skips = some r.skips) ∧ (¬ level ≤ INFO → x.skips = none) := by
    intro rs
    induction rs with
    | nil => intro i es h hx; cases h; cases hx
    | cons r rs ih =>
      intro i es h hx
      unfold summary at h
      split at h
      · obtain ⟨n, r', h1, h2, h3⟩ := ih _ _ h hx
        exact ⟨n + 1, r', by omega, by simpa using h2, h3⟩
      · rename_i e sk hne hi
        simp only [Option.bind_eq_some_iff, Option.map_eq_some_iff] at h
        obtain ⟨p, hp, q, hq, rfl⟩ := h
        rcases List.mem_cons.1 hx with rfl | hx
        · refine ⟨0, r, by simp, rfl, rfl, ?_, ?_, ?_⟩
          · intro hl
            simp only [infos, Prod.mk.injEq] at hi
            by_cases hb : e = true
            · simpa [hb] using hp
            · have he : e = false := by simpa using hb
              have := hi.1
              rw [he] at this
              simp only [allows, hl, decide_true, Bool.true_and, Bool.or_eq_false_iff, Bool.not_eq_false', List.isEmpty_iff] at this
              simp only [he, Bool.false_eq_true, if_false, Option.some.injEq] at hp
              subst hp
              simp [errorsFailures, this, errorsLoop]
          · intro hl hs
            simp only [infos, Prod.mk.injEq] at hi
            have : sk = true := by rw [← hi.2]; simp [allows, hl, hs]
            simp [this]
          · intro hl
            simp only [infos, Prod.mk.injEq] at hi
            have : sk = false := by rw [← hi.2]; simp [allows, hl]
            simp [this]
        · obtain ⟨n, r', h1, h2, h3⟩ := ih _ _ hq hx
          exact ⟨n + 1, r', by omega, by simpa using h2, h3⟩
  exact key rs 0 es h hx

/-- What is shown about the exceptions of a test, with tracebacks: for each error and then each failure its number, the number of all of them and its letter, its
frames (or the innermost one), its message. -/
theorem C120_layout (manualTb : Bool) (tbLevel : Nat) (r : SRes) (ht : tbLevel ≠ 0)
    (h : ∀ e ∈ r.errors ++ r.failures, e.exc = true ∧ e.custom = false ∧ e.frames ≠ []) :
    errorsFailures manualTb tbLevel r = some ((r.errors.map (fun e => ('E', e)) ++ r.failures.map (fun e => ('F', e))).zipIdx.flatMap (fun x =>
      .header (x.2 + 1) (r.errors ++ r.failures).length x.1.1 ::
        ((if tbLevel = 1 then x.1.2.frames.drop (x.1.2.frames.length - 1) else x.1.2.frames).map .frame ++ [.message x.1.2.message]))) := by
  unfold errorsFailures
  rw [← List.length_append]
  generalize (r.errors ++ r.failures).length = n
  have h' : ∀ x ∈ r.errors.map (fun e => ('E', e)) ++ r.failures.map (fun e => ('F', e)), x.2.exc = true ∧ x.2.custom = false ∧ x.2.frames ≠ [] := by
    intro x hx
    refine h x.2 ?_
    simp only [List.mem_append, List.mem_map] at hx ⊢
    rcases hx with ⟨a, ha, rfl⟩ | ⟨a, ha, rfl⟩
    · exact Or.inl ha
    · exact Or.inr ha
  generalize r.errors.map (fun e => ('E', e)) ++ r.failures.map (fun e => ('F', e)) = l at h'
  have key : ∀ (l : List (Char × SErr)) (i : Nat), (∀ x ∈ l, x.2.exc = true ∧ x.2.custom = false ∧ x.2.frames ≠ []) →
      errorsLoop manualTb tbLevel n i l = some ((l.zipIdx i).flatMap (fun x =>
      .header (x.2 + 1) n x.1.1 :: ((if tbLevel = 1 then x.1.2.frames.drop (x.1.2.frames.length - 1) else x.1.2.frames).map .frame ++ [.message x.1.2.message]))) := by
    intro l
    induction l with
    | nil => intro i _; rfl
    | cons a l ih =>
      intro i h
      obtain ⟨c, e⟩ := a
      obtain ⟨h1, h2, h3⟩ := h (c, e) (by simp)
      simp only at h1 h2 h3
      have hp : errorPieces manualTb tbLevel i n c e =
          some (.header (i + 1) n c :: ((if tbLevel = 1 then e.frames.drop (e.frames.length - 1) else e.frames).map .frame ++ [.message e.message])) := by
        unfold errorPieces traceback
        simp only [h1, h2, ht, Bool.not_true, Bool.false_and, Bool.false_eq_true, if_false]
        by_cases ht1 : tbLevel = 1
        · simp only [ht1, if_true]
          have hd : e.frames.drop (e.frames.length - 1) = [e.frames.getLast h3] := by
            generalize e.frames = l at h3
            induction l with
            | nil => exact absurd rfl h3
            | cons a l ih =>
              cases l with
              | nil => rfl
              | cons b l => simpa using ih (by simp)
          rw [hd, List.getLast?_eq_some_getLast h3]
          simp
        · simp [ht1, h3]
      rw [errorsLoop, hp, ih (i + 1) (fun x hx => h x (by simp [hx])), List.zipIdx_cons, List.flatMap_cons]
      rfl
  exact key l 0 h'

example : errorsFailures true 1 { address := "a", errors := [{ message := "m", frames := [1, 2] }], failures := [{ message := "n", frames := [3] }] } =
    some [.header 1 2 'E', .frame 2, .message "m", .header 2 2 'F', .frame 3, .message "n"] := by decide

/-- The full claim is false: without tracebacks (`--tb=0`) nothing says what an exception was; and with single frames an error without frames makes the
summary fail. -/
theorem C120_messages_violated :
    (∃ r ps e, errorsFailures true 0 r = some ps ∧ e ∈ r.errors ∧ e.frames ≠ [] ∧ ∀ m, .message m ∉ ps) ∧
    ∃ rs, summary WARNING true 1 0 rs = none :=
  ⟨⟨{ address := "a", errors := [{ message := "m", frames := [1] }] }, [.header 1 1 'E'], { message := "m", frames := [1] }, by decide, by decide, by decide, by simp⟩,
   [{ address := "a", errors := [{ message := "m" }] }], by decide⟩

/-- The total duration is shown in hours, minutes and seconds, each in its range. -/
theorem C120_duration (n q : Nat) (hq : 0 < q) :
    (duration n q).1 * 3600 + (duration n q).2.1 * 60 + (duration n q).2.2 = n / q ∧ (duration n q).2.1 < 60 ∧ (duration n q).2.2 < 60 := by
  have e1 : n / (60 * 60 * q) = n / q / 3600 := by rw [Nat.div_div_eq_div_mul, Nat.mul_comm]
  have e2 : (n % (60 * 60 * q)) / (60 * q) = n / q / 60 % 60 := by
    rw [Nat.div_div_eq_div_mul, Nat.mul_comm q 60, show 60 * 60 * q = (60 * q) * 60 by rw [Nat.mul_assoc, Nat.mul_comm], Nat.mod_mul_right_div_self]
  have e3 : (n % (60 * q)) / q = n / q % 60 := by rw [Nat.mul_comm 60 q, Nat.mod_mul_right_div_self]
  simp only [duration, e1, e2, e3]
  omega

example : duration 100000 10 = (2, 46, 40) := by decide

theorem group_sum (ws : List Warn) (gs : List ((String × Nat) × List Warn)) :
    ((ws.foldl group gs).map (fun g => g.2.length)).sum = (gs.map (fun g => g.2.length)).sum + ws.length := by
  have h1 : ∀ (gs : List ((String × Nat) × List Warn)) w, ((group gs w).map (fun g => g.2.length)).sum = (gs.map (fun g => g.2.length)).sum + 1 := by
    intro gs w
    induction gs with
    | nil => simp [group]
    | cons a gs ih =>
      obtain ⟨k, l⟩ := a
      unfold group
      split
      · simp; omega
      · simp [ih]; omega
  induction ws generalizing gs with
  | nil => simp
  | cons w ws ih => rw [List.foldl_cons, ih, h1]; simp; omega

/-- The warnings with a key, in order. -/
def withKey (k : String × Nat) (ws : List Warn) : List Warn := ws.filter (fun w => w.key == k)

theorem group_keys (gs : List ((String × Nat) × List Warn)) (w : Warn) (h : (gs.map (·.1)).Nodup) :
    ((group gs w).map (·.1)).Nodup ∧ (∀ k, k ∈ (group gs w).map (·.1) ↔ k = w.key ∨ k ∈ gs.map (·.1)) ∧
    ∀ g ∈ group gs w, (g.1 = w.key ∧ ((∃ l, (w.key, l) ∈ gs ∧ g.2 = l ++ [w]) ∨ (w.key ∉ gs.map (·.1) ∧ g.2 = [w]))) ∨ (g.1 ≠ w.key ∧ g ∈ gs) := by
  induction gs with
  | nil => simp [group]
  | cons a gs ih =>
    obtain ⟨k, l⟩ := a
    simp only [List.map_cons, List.nodup_cons] at h
    obtain ⟨i1, i2, i3⟩ := ih h.2
    unfold group
    by_cases hk : k = w.key
    · rw [if_pos hk]
      subst hk
      refine ⟨by simpa using h, by simp, ?_⟩
      intro g hg
      rcases List.mem_cons.1 hg with rfl | hg
      · exact Or.inl ⟨rfl, Or.inl ⟨l, by simp, rfl⟩⟩
      · exact Or.inr ⟨fun e => h.1 (e ▸ List.mem_map.2 ⟨g, hg, rfl⟩), List.mem_cons_of_mem _ hg⟩
    · rw [if_neg hk]
      refine ⟨?_, ?_, ?_⟩
      · simp only [List.map_cons, List.nodup_cons]
        refine ⟨fun hm => ?_, i1⟩
        rcases (i2 k).1 hm with e | e
        · exact hk e
        · exact h.1 e
      · intro x
        simp only [List.map_cons, List.mem_cons, i2 x]
        grind
      · intro g hg
        rcases List.mem_cons.1 hg with rfl | hg
        · exact Or.inr ⟨hk, by simp⟩
        · rcases i3 g hg with ⟨e, ⟨l', hl, e2⟩ | ⟨hn, e2⟩⟩ | ⟨e, hm⟩
          · exact Or.inl ⟨e, Or.inl ⟨l', List.mem_cons_of_mem _ hl, e2⟩⟩
          · exact Or.inl ⟨e, Or.inr ⟨by simp only [List.map_cons, List.mem_cons, not_or]; exact ⟨Ne.symm hk, hn⟩, e2⟩⟩
          · exact Or.inr ⟨e, List.mem_cons_of_mem _ hm⟩

theorem groups_eq (ws : List Warn) : ((ws.foldl group []).map (·.1)).Nodup ∧ (∀ k, k ∈ (ws.foldl group []).map (·.1) ↔ ∃ w ∈ ws, w.key = k) ∧
    ∀ g ∈ ws.foldl group [], g.2 = withKey g.1 ws := by
  have main : ∀ (ws pre : List Warn) (gs : List ((String × Nat) × List Warn)), (gs.map (·.1)).Nodup → (∀ k, k ∈ gs.map (·.1) ↔ ∃ w ∈ pre, w.key = k) →
      (∀ g ∈ gs, g.2 = withKey g.1 pre) →
      ((ws.foldl group gs).map (·.1)).Nodup ∧ (∀ k, k ∈ (ws.foldl group gs).map (·.1) ↔ ∃ w ∈ pre ++ ws, w.key = k) ∧
      ∀ g ∈ ws.foldl group gs, g.2 = withKey g.1 (pre ++ ws) := by
    intro ws
    induction ws with
    | nil => intro pre gs h1 h2 h3; simpa using ⟨h1, by simpa using h2, by simpa using h3⟩
    | cons w ws ih =>
      intro pre gs h1 h2 h3
      obtain ⟨i1, i2, i3⟩ := group_keys gs w h1
      have := ih (pre ++ [w]) (group gs w) i1 (by
        intro k
        rw [i2, h2]
        simp only [List.mem_append, List.mem_singleton]
        constructor
        · rintro (rfl | ⟨x, hx, e⟩)
          · exact ⟨w, Or.inr rfl, rfl⟩
          · exact ⟨x, Or.inl hx, e⟩
        · rintro ⟨x, hx | rfl, e⟩
          · exact Or.inr ⟨x, hx, e⟩
          · exact Or.inl e.symm) (by
        intro g hg
        unfold withKey at h3 ⊢
        rw [List.filter_append]
        rcases i3 g hg with ⟨e, ⟨l', hl, e2⟩ | ⟨hn, e2⟩⟩ | ⟨e, hm⟩
        · have := h3 _ hl
          simp only at this
          rw [e2, this, e]
          simp
        · have : pre.filter (fun x => x.key == g.1) = [] := by
            rw [List.filter_eq_nil_iff]
            intro x hx hk
            exact hn ((h2 _).2 ⟨x, hx, by rw [← e]; simpa using hk⟩)
          rw [this, e2, e]
          simp
        · rw [h3 g hm]
          simp [Ne.symm e])
      simpa using this
  simpa using main ws [] [] (by simp) (by simp) (by simp)

/-- The summary of warnings has one line for each place that warned, with the number of warnings from there; the numbers sum up to the total. -/
theorem C120_warnings (ws : List Warn) :
    ((warningSummary ws).2.map (·.key)).Nodup ∧ (∀ k, k ∈ (warningSummary ws).2.map (·.key) ↔ ∃ w ∈ ws, w.key = k) ∧
    (∀ l ∈ (warningSummary ws).2, l.times = (withKey l.key ws).length ∧ l.message = (withKey l.key ws).head?.map (·.message)) ∧
    ((warningSummary ws).2.map (·.times)).sum = ws.length ∧ (ws ≠ [] → (warningSummary ws).1 = some ws.length) := by
  obtain ⟨h1, h2, h3⟩ := groups_eq ws
  have e1 : (warningSummary ws).2.map (·.key) = (ws.foldl group []).map (·.1) := by simp [warningSummary, List.map_map, Function.comp_def]
  have e2 : (warningSummary ws).2.map (·.times) = (ws.foldl group []).map (fun g => g.2.length) := by simp [warningSummary, List.map_map, Function.comp_def]
  refine ⟨by rw [e1]; exact h1, by rw [e1]; exact h2, ?_, by rw [e2, group_sum]; simp, ?_⟩
  · intro l hl
    simp only [warningSummary, List.mem_map] at hl
    obtain ⟨g, hg, rfl⟩ := hl
    simp only
    rw [h3 g hg]
    exact ⟨rfl, rfl⟩
  · intro hne
    simp [warningSummary, hne]

example : warningSummary [⟨("a.py", 1), "x"⟩, ⟨("b.py", 2), "y"⟩, ⟨("a.py", 1), "x"⟩] = (some 3, [⟨("a.py", 1), some "x", 2⟩, ⟨("b.py", 2), some "y", 1⟩]) := by decide

/-- Different warnings from the same place are not all shown. -/
theorem C120_warnings_violated : ∃ ws : List Warn, ∃ w ∈ ws, ∀ l ∈ (warningSummary ws).2, l.message ≠ some w.message :=
  ⟨[⟨("a.py", 1), "x"⟩, ⟨("a.py", 1), "y"⟩], ⟨("a.py", 1), "y"⟩, by simp, by decide⟩

/-! ## C121: boxes -/

/-- All lines of a box have its width, and the text is inside, if the headline fits; `textwrap.wrap` makes lines that are not too long. -/
theorem C121_box_partial (wrap : List Char → Nat → List (List Char)) (fullwidth : Nat) (h : List Char) (lines : List (List Char)) (hw : 7 ≤ fullwidth)
    (hwrap : ∀ l n, ∀ x ∈ wrap l n, x.length ≤ n) (hh : h.length ≤ min fullwidth 60 - 6) :
    (∀ l ∈ box wrap fullwidth h lines, l.length = min fullwidth 60) ∧
    ((box wrap fullwidth h lines).head? = some (['*', '*', ' '] ++ h ++ [' '] ++ List.replicate (min fullwidth 60 - (h.length + 4)) '*')) ∧
    ∀ l ∈ lines, ∀ x ∈ (if l.isEmpty then [[]] else wrap l (min fullwidth 60 - 4)), ∃ n, ['*', ' '] ++ x ++ List.replicate n ' ' ++ ['*'] ∈ box wrap fullwidth h lines := by
  have hl : headline (min fullwidth 60) h = h := by unfold headline; rw [if_neg (by omega)]
  have hb : ∀ x : List Char, x.length ≤ min fullwidth 60 - 4 → (boxLine (min fullwidth 60) x).length = min fullwidth 60 := by
    intro x hx
    simp only [boxLine, List.length_append, List.length_cons, List.length_nil, List.length_replicate]
    omega
  unfold box
  simp only [hl]
  refine ⟨?_, by simp, ?_⟩
  · intro l hm
    simp only [List.cons_append, List.mem_cons, List.mem_append, List.mem_flatMap, List.mem_singleton] at hm
    rcases hm with rfl | ⟨x, hx, hm⟩ | hm
    · simp only [List.length_append, List.length_cons, List.length_nil, List.length_replicate]; omega
    · split at hm
      · simp only [List.mem_singleton] at hm; subst hm; exact hb [] (by simp)
      · simp only [List.mem_map] at hm
        obtain ⟨y, hy, rfl⟩ := hm
        exact hb y (hwrap _ _ y hy)
    · rcases hm with rfl | hm
      · simp
      · cases hm
  · intro l hm x hx
    refine ⟨min fullwidth 60 - (x.length + 3), ?_⟩
    simp only [List.cons_append, List.mem_cons, List.mem_append, List.mem_flatMap, List.mem_singleton]
    refine Or.inr (Or.inl ⟨l, hm, ?_⟩)
    split at hx
    · rename_i he
      simp only [List.mem_singleton] at hx
      subst hx
      rw [if_pos he]
      simp [boxLine]
    · rename_i he
      rw [if_neg he]
      exact List.mem_map.2 ⟨x, hx, by simp [boxLine]⟩

example : box (fun l _ => [l]) 12 "hi".toList ["a".toList, []] =
    ["** hi ******".toList, "* a        *".toList, "*          *".toList, "************".toList] := by decide

/-- A box is closed by a line of stars; between it and the headline there are the lines of the text, in order. -/
theorem C121_closed (wrap : List Char → Nat → List (List Char)) (fullwidth : Nat) (h : List Char) (lines : List (List Char)) :
    ∃ top, box wrap fullwidth h lines = top :: lines.flatMap (fun l => (if l.isEmpty then [[]] else wrap l (min fullwidth 60 - 4)).map
      (fun x => ['*', ' '] ++ x ++ List.replicate (min fullwidth 60 - (x.length + 3)) ' ' ++ ['*'])) ++ [List.replicate (min fullwidth 60) '*'] := by
  have e : (fun l : List Char => (if l.isEmpty then [[]] else wrap l (min fullwidth 60 - 4)).map
      (fun x => ['*', ' '] ++ x ++ List.replicate (min fullwidth 60 - (x.length + 3)) ' ' ++ ['*'])) =
      (fun l => if l.isEmpty then [boxLine (min fullwidth 60) []] else (wrap l (min fullwidth 60 - 4)).map (boxLine (min fullwidth 60))) := by
    funext l
    cases l <;> rfl
  rw [e]
  exact ⟨_, rfl⟩

/-- The full claim is false for headlines that do not fit: their beginning is dropped, not their end, and the line may still be too long. -/
theorem C121_box_violated :
    (∃ h, (box (fun l _ => [l]) 10 h []).head? = some "** 5 *****".toList ∧ h = "12345".toList) ∧
    ∃ h, ∀ l ∈ (box (fun l _ => [l]) 10 h []).head?, l.length > 10 :=
  ⟨⟨"12345".toList, by decide, rfl⟩, "123456789012".toList, by decide⟩

/-! ## C122: the line in progress -/

/-- Text without line breaks and carriage returns. -/
def plain (s : List Char) : Prop := ∀ c ∈ s, c ≠ '\n' ∧ c ≠ '\r'

/-- The rows of a text on a terminal of `w` columns. -/
structure Shown (w : Nat) (t : Term) (text : List Char) : Prop where
  col : t.col = t.cur.length
  fits : t.cur.length ≤ w
  last : t.cur.length % w = text.length % w
  suffix : t.cur <:+ text
  empty : text ≠ [] → t.cur ≠ []

theorem afterLast_eq (c : Char) (l : List Char) (h : ∀ x ∈ l, x ≠ c) : afterLast c l = l := by
  have key : ∀ l : List Char, (∀ x ∈ l, x ≠ c) → l.takeWhile (· != c) = l := by
    intro l
    induction l with
    | nil => intro _; rfl
    | cons a l ih =>
      intro h
      rw [List.takeWhile_cons_of_pos (by simpa using h a (by simp)), ih (fun x hx => h x (by simp [hx]))]
  unfold afterLast
  rw [key _ (fun x hx => h x (by simpa using hx)), List.reverse_reverse]

theorem shown_put (w : Nat) (hw : 0 < w) (t : Term) (text : List Char) (h : Shown w t text) (c : Char) (hc : c ≠ '\n' ∧ c ≠ '\r') :
    Shown w (put w t c) (text ++ [c]) := by
  unfold put
  rw [if_neg hc.1, if_neg hc.2]
  by_cases hf : t.col ≥ w
  · rw [if_pos hf]
    have e : t.cur.length = w := by have := h.fits; have := h.col; omega
    have hl := h.last
    rw [e, Nat.mod_self] at hl
    refine ⟨rfl, by simp; omega, ?_, ⟨text, rfl⟩, by simp⟩
    simp only [List.length_singleton, List.length_append]
    rw [Nat.add_mod, ← hl]
    simp
  · rw [if_neg hf, h.col]
    simp only [List.take_length, List.drop_eq_nil_of_le (Nat.le_succ _)]
    refine ⟨by simp, ?_, ?_, ?_, by simp⟩
    · have := h.col; simp; omega
    · simp only [List.length_append, List.length_singleton, List.length_cons, List.length_nil]
      rw [Nat.add_mod, h.last, ← Nat.add_mod]
    · obtain ⟨p, hp⟩ := h.suffix
      exact ⟨p, by rw [← hp]; simp⟩

theorem shown_tell (w : Nat) (hw : 0 < w) (s : List Char) (hs : plain s) (t : Term) (text : List Char) (h : Shown w t text) : Shown w (tell w t s) (text ++ s) := by
  induction s generalizing t text with
  | nil => simpa [tell] using h
  | cons c s ih =>
    have := ih (fun x hx => hs x (by simp [hx])) (put w t c) (text ++ [c]) (shown_put w hw t text h c (hs c (by simp)))
    simpa [tell] using this

theorem tell_append (w : Nat) (t : Term) (a b : List Char) : tell w t (a ++ b) = tell w (tell w t a) b := List.foldl_append ..

/-- Writing over a row from its first column. -/
theorem tell_over (w : Nat) (s : List Char) (hs : plain s) (t : Term) (h : t.col + s.length ≤ w) :
    tell w t s = { t with cur := (if s = [] then t.cur else t.cur.take t.col ++ s ++ t.cur.drop (t.col + s.length)), col := t.col + s.length } ∨ t.col > t.cur.length := by
  by_cases hc : t.col > t.cur.length
  · exact Or.inr hc
  · left
    induction s generalizing t with
    | nil => simp [tell]
    | cons c s ih =>
      have hp : put w t c = { t with cur := t.cur.take t.col ++ c :: t.cur.drop (t.col + 1), col := t.col + 1 } := by
        unfold put
        rw [if_neg (hs c (by simp)).1, if_neg (hs c (by simp)).2, if_neg (by simp at h; omega)]
      have e : tell w t (c :: s) = tell w (put w t c) s := rfl
      rw [e, hp, ih (fun x hx => hs x (by simp [hx])) _ (by simp at h ⊢; omega) (by simp; omega)]
      have hl : (t.cur.take t.col).length = t.col := by simp; omega
      by_cases h0 : s = []
      · simp [h0]
      · simp only [h0, if_false, reduceCtorEq, List.length_cons, Term.mk.injEq, true_and]
        refine ⟨?_, by omega⟩
        rw [List.take_append, hl, List.drop_append, hl]
        simp only [List.take_of_length_le (show (t.cur.take t.col).length ≤ t.col + 1 by omega), Nat.add_sub_cancel_left, List.take_succ_cons, List.take_zero]
        rw [List.drop_eq_nil_of_le (show (t.cur.take t.col).length ≤ t.col + 1 + s.length by omega)]
        rw [show t.col + 1 + s.length - t.col = s.length + 1 by omega, List.drop_succ_cons, List.drop_drop]
        simp [Nat.add_comm, Nat.add_left_comm]

theorem write_plain (w : Nat) (x : Wr) (s : List Char) (hl : plain x.line) (hs : plain s) : (x.write w s).line = x.line ++ s := by
  have hp : ∀ c ∈ x.line ++ s, c ≠ '\n' ∧ c ≠ '\r' := by
    intro c hc
    rcases List.mem_append.1 hc with h | h
    · exact hl c h
    · exact hs c h
  unfold Wr.write
  simp only
  rw [afterLast_eq '\r' _ (fun c hc => (hp c hc).2), afterLast_eq '\n' _ (fun c hc => (hp c hc).1)]

/-- Writing pieces of a line. -/
def writes (w : Nat) (x : Wr) (ss : List (List Char)) : Wr := ss.foldl (Wr.write w) x

theorem writes_shown (w : Nat) (hw : 0 < w) (ss : List (List Char)) (hs : ∀ s ∈ ss, plain s) (x : Wr) (hl : plain x.line) (h : Shown w x.term x.line) :
    plain (writes w x ss).line ∧ Shown w (writes w x ss).term (writes w x ss).line ∧ (writes w x ss).line = x.line ++ ss.flatten := by
  induction ss generalizing x with
  | nil => exact ⟨hl, h, by simp [writes]⟩
  | cons s ss ih =>
    have e := write_plain w x s hl (hs s (by simp))
    have hp : plain (x.write w s).line := by
      rw [e]
      intro c hc
      rcases List.mem_append.1 hc with h | h
      · exact hl c h
      · exact hs s (by simp) c h
    have := ih (fun y hy => hs y (by simp [hy])) (x.write w s) hp (by
      rw [e]; exact shown_tell w hw s (hs s (by simp)) x.term x.line h)
    refine ⟨this.1, this.2.1, ?_⟩
    show (writes w (x.write w s) ss).line = _
    rw [this.2.2, e]
    simp

/-- A record of the log that comes while a line is in progress is shown on a row of its own, and the line in progress is shown again as it was, if
the line does not end exactly at the right edge of the terminal. -/
theorem C122_record_partial (w : Nat) (hw : 0 < w) (before : List (List Char)) (ss : List (List Char)) (hs : ∀ s ∈ ss, plain s) (m : List Char) (hm : plain m)
    (hmw : m.length ≤ w) (hedge : ss.flatten.length % w ≠ 0) :
    let x := writes w { term := { done := before } } ss
    let y := x.record w m
    y.line = x.line ∧ y.term.cur = x.term.cur ∧ y.term.col = x.term.col ∧
      ∃ n, y.term.done = x.term.done ++ [m ++ List.replicate n ' '] := by
  intro x y
  obtain ⟨hp, hsh, hline⟩ := writes_shown w hw ss hs { term := { done := before } } (fun c hc => by cases hc)
    ⟨rfl, by simp, by simp, List.suffix_refl _, fun h => absurd rfl h⟩
  change plain x.line at hp
  change Shown w x.term x.line at hsh
  change x.line = [] ++ ss.flatten at hline
  rw [List.nil_append] at hline
  have hlen : x.line.length % w ≠ 0 := by rw [hline]; exact hedge
  have hne : x.line ≠ [] := by intro e; rw [e] at hlen; simp at hlen
  -- the row of the cursor
  have hk : x.term.cur.length = x.line.length % w := by
    have h1 := hsh.last
    have h2 := hsh.fits
    rcases Nat.lt_or_eq_of_le h2 with h3 | h3
    · rw [← h1, Nat.mod_eq_of_lt h3]
    · rw [h3, Nat.mod_self] at h1; exact absurd h1.symm hlen
  generalize hkk : x.line.length % w = k at hk hlen
  have hkw : k ≤ w := by rw [← hk]; exact hsh.fits
  have hcr : ∀ t : Term, put w t '\r' = { t with col := 0 } := fun t => rfl
  -- clearing
  have hclear : (x.clear w).term = { x.term with cur := List.replicate k ' ', col := 0 } := by
    unfold Wr.clear
    rw [if_neg (by simpa using hne), hkk]
    simp only
    rw [tell_append, tell_append]
    have e1 : tell w x.term ['\r'] = { x.term with col := 0 } := rfl
    rw [e1]
    have h2 := (tell_over w (List.replicate k ' ') (by
      intro c hc; rw [List.mem_replicate] at hc; rw [hc.2]; decide) { x.term with col := 0 } (by simpa using hkw)).resolve_right (by simp)
    rw [h2]
    have : List.replicate k ' ' ≠ [] := by simpa using hlen
    simp only [this, if_false, List.take_zero, List.nil_append, List.length_replicate, Nat.zero_add]
    rw [List.drop_eq_nil_of_le (by omega), List.append_nil]
    rfl
  have hline2 : (x.clear w).line = x.line := by unfold Wr.clear; split <;> rfl
  -- the record
  have hrec : tell w (x.clear w).term (m ++ ['\n']) = { done := x.term.done ++ [m ++ List.replicate (k - m.length) ' '] } := by
    rw [tell_append, hclear]
    have h2 := (tell_over w m hm { x.term with cur := List.replicate k ' ', col := 0 } (by simpa using hmw)).resolve_right (by simp)
    rw [h2]
    show put w _ '\n' = _
    unfold put
    rw [if_pos rfl]
    by_cases h0 : m = []
    · simp [h0]
    · simp [h0]
  -- the line again
  have hdrop : x.line.drop (x.line.length - k) = x.term.cur := by
    obtain ⟨p, hp'⟩ := hsh.suffix
    have : x.line.length = p.length + k := by rw [← hp', List.length_append, hk]
    rw [this, Nat.add_sub_cancel, ← hp']
    simp
  have hy : y.term = tell w { done := x.term.done ++ [m ++ List.replicate (k - m.length) ' '] } x.term.cur := by
    show (Wr.restore w { x.clear w with term := tell w (x.clear w).term (m ++ ['\n']) }).term = _
    unfold Wr.restore
    simp only [hline2, hrec]
    rw [hkk, hdrop]
  have hpc : plain x.term.cur := fun c hc => hp c (hsh.suffix.subset hc)
  have h3 := (tell_over w x.term.cur hpc { done := x.term.done ++ [m ++ List.replicate (k - m.length) ' '] } (by simp; omega)).resolve_right (by simp)
  have hcne : x.term.cur ≠ [] := hsh.empty hne
  rw [h3] at hy
  simp only [hcne, if_false, List.take_nil, List.drop_nil, List.nil_append, List.append_nil, Nat.zero_add] at hy
  refine ⟨hline2, by rw [hy], by rw [hy]; exact hsh.col.symm, k - m.length, by rw [hy]⟩

/-- **C122**: all of the line in progress is on the terminal: in full rows and the last one, in order, below what was there. -/
theorem C122_shown (w : Nat) (hw : 0 < w) (before : List (List Char)) (ss : List (List Char)) (hs : ∀ s ∈ ss, plain s) :
    let x := writes w { term := { done := before } } ss
    x.line = ss.flatten ∧ x.term.col = x.term.cur.length ∧
      ∃ rows, x.term.done = before ++ rows ∧ (∀ r ∈ rows, r.length = w) ∧ rows.flatten ++ x.term.cur = ss.flatten := by
  intro x
  have hl := (writes_shown w hw ss hs { term := { done := before } } (fun c hc => by cases hc)
    ⟨rfl, by simp, by simp, List.suffix_refl _, fun h => absurd rfl h⟩).2.2
  have key : ∀ (l : List Char) (t : Term) (text : List Char), plain l → t.col = t.cur.length → t.cur.length ≤ w →
      (∃ rows, t.done = before ++ rows ∧ (∀ r ∈ rows, r.length = w) ∧ rows.flatten ++ t.cur = text) →
      (tell w t l).col = (tell w t l).cur.length ∧ (tell w t l).cur.length ≤ w ∧
      ∃ rows, (tell w t l).done = before ++ rows ∧ (∀ r ∈ rows, r.length = w) ∧ rows.flatten ++ (tell w t l).cur = text ++ l := by
    intro l
    induction l with
    | nil => intro t text _ h1 h2 h3; simpa [tell] using ⟨h1, h2, h3⟩
    | cons c l ih =>
      intro t text hp h1 h2 ⟨rows, h3, h4, h5⟩
      obtain ⟨hc1, hc2⟩ := hp c (by simp)
      have hput : tell w t (c :: l) = tell w (put w t c) l := rfl
      rw [hput]
      by_cases hfull : t.col ≥ w
      · have hp' : put w t c = { done := t.done ++ [t.cur], cur := [c], col := 1 } := by
          unfold put; rw [if_neg hc1, if_neg hc2, if_pos hfull]
        rw [hp']
        have := ih { done := t.done ++ [t.cur], cur := [c], col := 1 } (text ++ [c]) (fun d hd => hp d (by simp [hd])) rfl (by simp; omega)
          ⟨rows ++ [t.cur], by simp [h3], by
            intro r hr
            rcases List.mem_append.1 hr with hr | hr
            · exact h4 r hr
            · obtain rfl : r = t.cur := by simpa using hr
              omega, by simp [← h5]⟩
        simpa using this
      · have hp' : put w t c = { t with cur := t.cur ++ [c], col := t.col + 1 } := by
          unfold put; rw [if_neg hc1, if_neg hc2, if_neg hfull]
          rw [h1, List.take_length, List.drop_eq_nil_of_le (by omega)]
        rw [hp']
        have := ih { t with cur := t.cur ++ [c], col := t.col + 1 } (text ++ [c]) (fun d hd => hp d (by simp [hd])) (by simp [h1]) (by simp; omega)
          ⟨rows, h3, h4, by simp [← h5]⟩
        simpa using this
  have htell : ∀ (ss : List (List Char)) (y : Wr), (writes w y ss).term = tell w y.term ss.flatten := by
    intro ss
    induction ss with
    | nil => intro y; rfl
    | cons s ss ih =>
      intro y
      show (writes w (y.write w s) ss).term = _
      rw [ih]
      simp [Wr.write, tell, List.foldl_append]
  have hfl : plain ss.flatten := by
    intro c hc
    obtain ⟨s, h1, h2⟩ := List.mem_flatten.1 hc
    exact hs s h1 c h2
  have := key ss.flatten { done := before } [] hfl rfl (by simp) ⟨[], by simp, by simp, rfl⟩
  have hx : x.term = tell w { done := before } ss.flatten := htell ss { term := { done := before } }
  rw [← hx] at this
  exact ⟨hl, this.1, this.2.2⟩

example : let x := writes 5 {} ["....".toList, "...".toList]
    x.term = { done := [".....".toList], cur := "..".toList, col := 2 } ∧
    (x.record 5 "log".toList).term = { done := [".....".toList, "log".toList], cur := "..".toList, col := 2 } := by decide

/-- The full claim is false: at the right edge of the terminal the record is written over the line in progress; and a message of the session's reporter
erases the line in progress for good. -/
theorem C122_restored_violated :
    (let x := writes 4 {} ["....".toList]
     x.term = { cur := "....".toList, col := 4 } ∧ (x.record 4 "log".toList).term = { done := ["log.".toList] }) ∧
    (let x := writes 9 {} ["....".toList]
     x.term = { cur := "....".toList, col := 4 } ∧ (x.message 9 "hello".toList).term = { done := ["hello".toList] }) := by decide

end Slash.Console
