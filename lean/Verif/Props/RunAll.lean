import Verif.Model.RunAll
import Verif.Lemmas.WholeDone
import Verif.Props.WholeSession
import Verif.Props.WholeFx
import Verif.Props.Whole
import Verif.Props.ExitCode
import Verif.Props.Collect
/-!
# C165: what exit status zero means
-/
namespace Slash.RunAll

open Slash.Whole (Snap T X W Wrongs Touched raises)
open Slash.Cleanup (RKey)

/-- Nothing outside of the session raises SystemExit with a code that means success. -/
structure Loud (r : Run) : Prop where
  other : ¬ r.other.Quiet
  enter : ∀ e, r.enter = some e → ¬ e.Quiet
  callback : ∀ e, r.callback = some e → ¬ e.Quiet
  prepare : ∀ e, r.prepare = some e → ¬ e.Quiet
  save : ∀ e, r.save = some e → ¬ e.Quiet
  exit : ∀ o e, r.exit o = some e → ¬ e.Quiet

theorem range_isEmpty (l : List α) : (List.range l.length).isEmpty = l.isEmpty := by cases l <;> simp [List.range_succ]

theorem collected_ne (r : Run) (l : List (Option Meta.Test)) (h : r.collected = .ok l) : l ≠ [] ∧ Load.collectTests r.files r.conf = .ok l := by
  unfold Run.collected at h
  cases hc : Load.collectTests r.files r.conf with
  | ok l' =>
    rw [hc] at h
    cases h
    refine ⟨?_, rfl⟩
    unfold Load.collectTests at hc
    split at hc
    · cases hc
    · split at hc
      · cases hc
      · split at hc
        · cases hc
        · split at hc
          · cases hc
          · rename_i hne
            cases hc
            simpa using hne
  | _ => rw [hc] at h; cases h

theorem collect_or (i : Exit.Inp) (s : List Nat) (hs : i.suites = .ok s) : Exit.collectTests i = .error .exception ∨
    ∃ P, Exit.collectTests i = (match i.load P i.interactive with
      | .error e => .error e
      | .ok l => if l.isEmpty then .error .exception else .ok l) := by
  unfold Exit.collectTests
  rw [hs]
  simp only
  exact (Decidable.em _).elim (fun hh => .inl (if_pos hh)) (fun hh => .inr ⟨_, if_neg hh⟩)

theorem exit_collect (r : Run) : Exit.collectTests r.input = .error .exception ∨ ∃ l, r.collected = .ok l ∧ Exit.collectTests r.input = .ok (List.range l.length) := by
  rcases collect_or r.input _ rfl with h | ⟨P, h⟩
  · exact .inl h
  · rw [h]
    simp only [Run.input]
    cases hc : r.collected with
    | error e =>
      left
      simp only [Except.map]
      unfold Run.collected at hc
      split at hc <;> cases hc
      rfl
    | ok l =>
      right
      refine ⟨l, rfl, ?_⟩
      have := (collected_ne r l hc).1
      simp only [Except.map, range_isEmpty]
      rw [if_neg (by simpa using this)]

theorem exit_collect_ok (r : Run) (l : List (Option Meta.Test)) (h : r.collected = .ok l) : Exit.collectTests r.input = .ok (List.range l.length) := by
  obtain ⟨hne, hc⟩ := collected_ne r l h
  rcases exit_collect r with he | ⟨l', h', e⟩
  · exfalso
    unfold Exit.collectTests at he
    simp only [Run.input, h, Except.map, range_isEmpty] at he
    split at he
    · rename_i hemp
      unfold Load.collectTests at hc
      rw [if_pos] at hc
      · cases hc
      · unfold Load.CConf.sources
        cases hi : r.conf.interactive <;> cases ha : r.conf.args <;> cases hs : r.conf.suite <;> cases hd : r.conf.defaults <;> simp_all
    · rw [if_neg (by simpa using hne)] at he
      cases he
  · rw [h] at h'; cases h'; exact e

/-- The part of `slash run` between `try` and `finally`: something is raised before the tests, or the session is run. -/
theorem attempt_cases (r : Run) : (∃ e, Exit.attempt r.input = (some e, {}) ∧ (r.prepare = some e ∨ e = .exception)) ∨
    (r.prepare = none ∧ ∃ l, r.collected = .ok l ∧ Exit.attempt r.input = r.run l) := by
  unfold Exit.attempt
  cases hp : r.prepare with
  | some e => exact .inl ⟨e, by simp [Run.input, hp], .inl rfl⟩
  | none =>
    simp only [Run.input, hp, Exit.collect]
    rcases exit_collect r with he | ⟨l, hl, he⟩ <;> simp only [Run.input, hp] at he
    · exact .inl ⟨.exception, by rw [he], .inr rfl⟩
    · exact .inr ⟨trivial, l, hl, by rw [he]; simp only [hl]⟩

theorem exc_loud (r : Run) (h : Loud r) (x : X) : ¬ (r.exc x).Quiet := by
  unfold Run.exc
  split
  · rintro ⟨c, hc, -⟩; cases hc
  · exact h.other
  · rintro ⟨c, hc, -⟩; cases hc

theorem noQuiet (r : Run) (h : Loud r) : Exit.NoQuiet r.input := by
  refine ⟨h.enter, h.callback, fun e he => ?_, h.save, h.exit⟩
  rcases attempt_cases r with ⟨e', h', hor⟩ | ⟨-, l, -, h'⟩
  · rw [h'] at he
    cases he
    rcases hor with hp | rfl
    · exact h.prepare _ hp
    · rintro ⟨c, hc, -⟩; cases hc
  · rw [h'] at he
    unfold Run.run at he
    simp only at he
    rw [Option.map_eq_some_iff] at he
    obtain ⟨x, -, rfl⟩ := he
    exact exc_loud r h x

/-- Nothing went wrong, and either it was skipped or it was started (`core/result.py:182-187`). -/
def Fine (x : Result) : Prop := ¬ Wrongs x ∧ (x.skips ≠ [] ∨ x.started = true)

theorem fine_iff (x : Result) : x.isSuccess true = true ↔ Fine x := by
  unfold Fine Wrongs Result.isSuccess Result.isStarted
  cases x.errors <;> cases x.failures <;> cases x.interrupted <;> cases x.skips <;> simp

theorem tests_ids (r : Run) (l : List (Option Meta.Test)) : (r.tests l).map (·.id) = List.range l.length := by
  unfold Run.tests
  rw [List.map_map]
  apply List.ext_getElem
  · simp
  · intro i h1 h2; simp

theorem tests_nodup (r : Run) (l : List (Option Meta.Test)) : ((r.tests l).map (·.id)).Nodup := by
  rw [tests_ids]; exact List.nodup_range

/-- **C165.** The status of the process is zero exactly if nothing is raised outside of the tests, tests were collected, the session running them raises
nothing, nothing went wrong in the session outside of tests, and no test went wrong - each was started or skipped. -/
theorem C165_zero_iff (r : Run) (h : Loud r) : r.status = 0 ↔
    (r.enter = none ∧ r.callback = none ∧ r.prepare = none ∧ r.save = none ∧ r.exit none = none) ∧
    ∃ l, Load.collectTests r.files r.conf = .ok l ∧ (Whole.session r.session (r.tests l)).1 = none ∧
      Fine ((Whole.session r.session (r.tests l)).2.cl.results .global) ∧
      ∀ k < l.length, Fine ((Whole.session r.session (r.tests l)).2.cl.results (.test k)) := by
  unfold Run.status
  rw [Exit.C47_zero_iff_partial r.input (noQuiet r h)]
  have hsucc : ∀ l, (Whole.session r.session (r.tests l)).1 = none →
      ((results (Whole.session r.session (r.tests l)).2).isSuccess true = true ↔
        Fine ((Whole.session r.session (r.tests l)).2.cl.results .global) ∧ ∀ k < l.length, Fine ((Whole.session r.session (r.tests l)).2.cl.results (.test k))) := by
    intro l hn
    have ht := (Whole.C102_in_order r.session (r.tests l) (tests_nodup r l))
    obtain ⟨_, -, -, -, -, -, -, ht⟩ := ht
    have ht := ht hn
    rw [tests_ids] at ht
    unfold SessionResults.isSuccess SessionResults.testResults
    simp only [results, ht]
    rw [← fine_iff]
    cases ((Whole.session r.session (r.tests l)).2.cl.results .global).isSuccess true with
    | false => simp
    | true => simp [fine_iff]
  constructor
  · rintro ⟨⟨h1, h2, h3, h4, h5⟩, hs⟩
    rcases attempt_cases r with ⟨e, h', -⟩ | ⟨hp, l, hl, h'⟩
    · rw [h'] at h3; cases h3
    · rw [h'] at h3 hs
      have hn : (Whole.session r.session (r.tests l)).1 = none := by
        unfold Run.run at h3
        simpa using h3
      exact ⟨⟨h1, h2, hp, h4.resolve_left (by simp [Run.input]), h5⟩, l, (collected_ne r l hl).2, hn, (hsucc l hn).1 hs⟩
  · rintro ⟨⟨h1, h2, hp, h4, h5⟩, l, hl, hn, hf⟩
    have hc : r.collected = .ok l := by unfold Run.collected; rw [hl]
    have ha : Exit.attempt r.input = r.run l := by
      unfold Exit.attempt
      have := exit_collect_ok r l hc
      simp only [Run.input, hp, Exit.collect] at this ⊢
      rw [this]
      simp only [hc]
    refine ⟨⟨h1, h2, ?_, .inr h4, h5⟩, ?_⟩
    · rw [ha]; unfold Run.run; simp [hn]
    · rw [ha]; exact (hsucc l hn).2 hf

theorem raises_none (c : Whole.Code) (cl : Cleanup.St) (h1 : (Cleanup.runActs c.acts cl).1 = none) (h2 : c.out = none) : raises c cl = none := by
  unfold raises
  split
  · rename_i heq; rw [heq] at h1; cases h1
  · exact h2

/-- What is known of a test that was not skipped, in a session in which nothing went wrong: its function was called and returned. -/
theorem body_ran (env : Whole.Env) (ts : List T) (hn : (ts.map (·.id)).Nodup) (hr : (Whole.session env ts).1 = none)
    (hb : ∀ k, ¬ Wrongs ((Whole.session env ts).2.cl.results k))
    (hc : ∀ b ∈ (Whole.session env ts).2.trace, ∀ t, b.ev ≠ .beginRaised t .skip)
    (t : T) (ht : t ∈ ts) (hs : ((Whole.session env ts).2.cl.results (.test t.id)).skips = []) :
    ∃ b ∈ (Whole.session env ts).2.trace, b.ev = .body t.id ∧ raises t.body b.cl = none := by
  rcases Whole.session_seen env ts hn hr (fun ⟨k, hk⟩ => hb k hk) t ht with h | h | ⟨s, hsm, hst, h, he⟩
  · obtain ⟨k, hk⟩ := h; exact absurd hk (hb k)
  · exact absurd hs h
  · have hg := (Whole.snap_reach env ts s hsm).2.1.grow
    have hw := hb (.test t.id)
    have z : ∀ {α : Type} {l l' : List α}, l.length ≤ l'.length → l' = [] → l = [] := fun hl h' => by rw [h'] at hl; exact List.length_eq_zero_iff.1 (Nat.le_zero.1 hl)
    have hsucc : h = .success := by
      refine (Whole.C88_announced env ts s hsm t.id h he).1.2 ⟨?_, ?_, ?_, ?_, ?_⟩
      · exact z (hg.errs _) (Classical.byContradiction (fun hne => hw (.inl hne)))
      · exact z (hg.fails _) (Classical.byContradiction (fun hne => hw (.inr (.inl hne))))
      · exact z (hg.skips _) hs
      · cases hi : (s.cl.results (.test t.id)).interrupted with
        | false => rfl
        | true => exact absurd (.inr (.inr (hg.ints _ hi))) hw
      · exact hst
    subst hsucc
    obtain ⟨pre, post, hp⟩ := List.append_of_mem hsm
    obtain ⟨tt, htt, hid, -, -, b, hb1, hb2, hb3, hb4⟩ := Whole.C92_success_means_run_partial env ts pre post s t.id hp he
      (fun b hb => hc b (by rw [hp]; exact List.mem_append_left _ hb))
    obtain rfl : tt = t := inj_on_of_nodup_map hn htt ht hid
    exact ⟨b, by rw [hp]; exact List.mem_append_left _ hb1, hb2, raises_none _ _ hb3 hb4⟩

theorem wrong_addKind (x : Result) (k : Kind) (hk : k ≠ .skip) : Wrongs (x.addKind k) := by
  unfold Wrongs
  cases k <;> simp_all [Result.addKind, Result.addError, Result.addFailure, Result.markInterrupted]

theorem fine_all (r : Run) (l : List (Option Meta.Test)) (hg : Fine ((Whole.session r.session (r.tests l)).2.cl.results .global))
    (ht : ∀ k < l.length, Fine ((Whole.session r.session (r.tests l)).2.cl.results (.test k))) (k : RKey) :
    ¬ Wrongs ((Whole.session r.session (r.tests l)).2.cl.results k) := by
  cases k with
  | global => exact hg.1
  | test k =>
    by_cases hk : k < l.length
    · exact (ht k hk).1
    · obtain ⟨ps, R, -⟩ := Whole.session_facts r.session (r.tests l) (tests_nodup r l)
      rw [R.new k]
      · rintro (h | h | h)
        · exact h rfl
        · exact h rfl
        · cases h
      · rw [R.ids, List.map_take, tests_ids]
        intro hm
        exact hk (List.mem_range.1 (List.mem_of_mem_take hm))

theorem tests_get (r : Run) (l : List (Option Meta.Test)) (k : Nat) (hk : k < l.length) : { r.make k l[k] with id := k } ∈ r.tests l := by
  unfold Run.tests
  rw [List.mem_map]
  exact ⟨(l[k], k), by rw [List.mem_zipIdx_iff_getElem?]; simp [hk], rfl⟩

/-- **C165.** If the status is zero then tests were collected, and each one that is not shown as skipped had its function called, and it returned -
unless a skip raised by the cleanups of a module prevented a test from beginning. -/
theorem C165_zero_means_run_partial (r : Run) (h : Loud r) (hz : r.status = 0)
    (hc : ∀ l, Load.collectTests r.files r.conf = .ok l → ∀ b ∈ (Whole.session r.session (r.tests l)).2.trace, ∀ t, b.ev ≠ .beginRaised t .skip) :
    ∃ l, Load.collectTests r.files r.conf = .ok l ∧ l ≠ [] ∧ ∀ k (hk : k < l.length),
      ((Whole.session r.session (r.tests l)).2.cl.results (.test k)).skips ≠ [] ∨
      ∃ b ∈ (Whole.session r.session (r.tests l)).2.trace, b.ev = .body k ∧ raises (r.make k l[k]).body b.cl = none := by
  obtain ⟨-, l, hl, hn, hg, ht⟩ := (C165_zero_iff r h).1 hz
  have hcol : r.collected = .ok l := by unfold Run.collected; rw [hl]
  refine ⟨l, hl, (collected_ne r l hcol).1, fun k hk => ?_⟩
  by_cases hs : ((Whole.session r.session (r.tests l)).2.cl.results (.test k)).skips = []
  · exact .inr (body_ran r.session (r.tests l) (tests_nodup r l) hn (fine_all r l hg ht) (hc l hl) _ (tests_get r l k hk) hs)
  · exact .inl hs

/-- **C165.** If the status is zero then no function of a test that was called raised anything but a skip, and no cleanup did. -/
theorem C165_zero_nothing_raised (r : Run) (h : Loud r) (hz : r.status = 0) (l : List (Option Meta.Test)) (hl : Load.collectTests r.files r.conf = .ok l) :
    (∀ k (hk : k < l.length), ∀ b ∈ (Whole.session r.session (r.tests l)).2.trace, b.ev = .body k →
      ∀ x, raises (r.make k l[k]).body b.cl = some x → x = .skip) ∧
    (∀ c x, .ended c (some x) ∈ (Whole.session r.session (r.tests l)).2.cl.log → x = .skip) := by
  obtain ⟨-, l', hl', hn, hg, ht⟩ := (C165_zero_iff r h).1 hz
  rw [hl] at hl'
  cases hl'
  constructor
  · intro k hk b hb he x hx
    refine Classical.byContradiction (fun hne => ?_)
    obtain ⟨pre, post, hp⟩ := List.append_of_mem hb
    obtain ⟨tt, htt, hid, s', post', hpost, -, -, hres⟩ := Whole.C99_body r.session (r.tests l) pre post b k hp he
    obtain rfl : tt = { r.make k l[k] with id := k } := inj_on_of_nodup_map (tests_nodup r l) htt (tests_get r l k hk) hid
    have hs' : s' ∈ (Whole.session r.session (r.tests l)).2.trace := by rw [hp, hpost]; simp
    have hor : ((Cleanup.runActs (r.make k l[k]).body.acts b.cl).1.map (·.kind)).or (r.make k l[k]).body.out = some x := by
      rw [← hx]
      unfold raises
      split <;> rename_i heq <;> rw [heq] <;> rfl
    simp only [hor] at hres
    have hw : Wrongs (s'.cl.results (.test k)) := by rw [hres]; exact wrong_addKind _ _ hne
    exact fine_all r l hg ht (.test k) (Whole.Bad.mono (Whole.snap_reach _ _ s' hs').2.1.grow hw)
  · intro c x hx
    obtain ⟨_, -, -, -, -, -, -, htests⟩ := Whole.C102_in_order r.session (r.tests l) (tests_nodup r l)
    refine Whole.C91_no_error_lost r.session (r.tests l) ((fine_iff _).2 hg) (fun t htm => (fine_iff _).2 ?_) c x hx
    rw [htests hn, tests_ids] at htm
    exact ht t (List.mem_range.1 htm)

/-- Four tests of a module: the second one is skipped, the third has two cleanups, one of which skips (`frontend/slash_run.py:33`). -/
def quiet : Run :=
  { files := Load.cenv, conf := { args := [['d', ':', 'z'], ['d', ':', 'C']] }
    make := fun k _ => if k = 1 then { id := 0, body := { out := some .skip } }
      else if k = 2 then { id := 0, body := { acts := [.add .implicit (Whole.demoCb (some .skip)), .add .implicit (Whole.demoCb)] } } else { id := 0 } }

theorem loud_default (f : Load.CEnv) (c : Load.CConf) (m : Nat → Option Meta.Test → T) (e : Whole.Env) : Loud { files := f, conf := c, make := m, session := e } :=
  ⟨(by rintro ⟨c, hc, h⟩; cases hc; exact absurd h (by decide)), nofun, nofun, nofun, nofun, nofun⟩

example : Loud quiet ∧ quiet.status = 0 ∧
    (match Load.collectTests quiet.files quiet.conf with
      | .ok l => l.length == 4 && (Whole.session quiet.session (quiet.tests l)).2.trace.all (fun b => match b.ev with | .beginRaised _ .skip => false | _ => true)
      | _ => false) = true ∧
    { quiet with conf := { args := [['m']] } }.status = 1 ∧
    { quiet with make := fun k _ => { id := 0, body := { acts := [.add .implicit (Whole.demoCb (if k = 3 then some .error else none))] } } }.status = 1 ∧
    { quiet with make := fun k _ => { id := 0, body := { out := if k = 3 then some .failure else none } } }.status = 1 ∧
    { quiet with session := { sessionEnd := { out := some .error } } }.status = 1 ∧ { quiet with save := some .exception }.status = 1 :=
  ⟨loud_default _ _ _ _, by decide +kernel, by decide +kernel, by decide +kernel, by decide +kernel, by decide +kernel, by decide +kernel, by decide +kernel⟩

/-- The same tests, of three modules; a cleanup of the first module raises a skip (`frontend/slash_run.py:33`). -/
def lost : Run :=
  { files := Load.cenv, conf := { args := [['d', ':', 'z'], ['d', ':', 'C']] }
    make := fun k _ => if k = 0 then { id := 0, body := { acts := [.add (.named "module") (Whole.demoCb (some .skip))] } }
      else if k = 1 then { id := 0, module := 1 } else { id := 0 } }

/-- **C165 is violated** by a cleanup of a module that raises a skip: the status is zero, a test is not shown as skipped, and its function was never called. -/
theorem C165_zero_means_run_violated : ∃ r, Loud r ∧ r.status = 0 ∧ ∃ l, Load.collectTests r.files r.conf = .ok l ∧ 1 < l.length ∧
    ((Whole.session r.session (r.tests l)).2.cl.results (.test 1)).skips = [] ∧
    .body 1 ∉ (Whole.session r.session (r.tests l)).2.trace.map (·.ev) := by
  refine ⟨lost, loud_default _ _ _ _, by decide +kernel, ?_⟩
  have h : (match Load.collectTests lost.files lost.conf with
      | .ok l => decide (1 < l.length) && ((Whole.session lost.session (lost.tests l)).2.cl.results (.test 1)).skips.isEmpty &&
          decide (.body 1 ∉ (Whole.session lost.session (lost.tests l)).2.trace.map (·.ev))
      | _ => false) = true := by decide +kernel
  cases hl : Load.collectTests lost.files lost.conf with
  | ok l =>
    rw [hl] at h
    simp only [Bool.and_eq_true, decide_eq_true_eq, List.isEmpty_iff] at h
    exact ⟨l, rfl, h.1.1, h.1.2, h.2⟩
  | _ => rw [hl] at h; cases h

end Slash.RunAll
