import Verif.Model.Resume
import Verif.Lemmas.Result
import Verif.Lemmas.Util
/-!
# Saving and resuming sessions: properties C34, C35, C36, C72
-/
namespace Slash.Resume

/-- What is known of a test after it was saved: its file, its address in the file and its variation. -/
def Meta.key (m : Meta) : Nat × Nat × Option Nat := (m.file, m.addr, if m.hasVar then some m.var else none)

/-- The test an entry is for. -/
def Row.key (r : Row) : Nat × Nat × Option Nat := (r.file, r.addr, r.var)

@[simp] theorem key_rowOf (m : Meta) (s : Status) : (rowOf m s).key = m.key := rfl

theorem mem_foldl_addMeta (l s : List Meta) :
    (∀ m ∈ l.foldl addMeta s, m ∈ s ∨ m ∈ l) ∧ (∀ m ∈ s, m ∈ l.foldl addMeta s) ∧
    ∀ m ∈ l, ∃ m' ∈ l.foldl addMeta s, m'.address = m.address := by
  induction l generalizing s with
  | nil => simp
  | cons x l ih =>
    obtain ⟨h1, h2, h3⟩ := ih (addMeta s x)
    simp only [List.foldl_cons]
    have hsub : ∀ m ∈ addMeta s x, m ∈ s ∨ m = x := by
      intro m hm
      unfold addMeta at hm
      split at hm
      · exact .inl hm
      · simpa using hm
    have hsup : ∀ m ∈ s, m ∈ addMeta s x := by
      intro m hm
      unfold addMeta
      split
      · exact hm
      · simp [hm]
    refine ⟨?_, fun m hm => h2 m (hsup m hm), ?_⟩
    · intro m hm
      rcases h1 m hm with h | h
      · rcases hsub m h with h | h
        · exact .inl h
        · exact .inr (by simp [h])
      · exact .inr (by simp [h])
    · intro m hm
      rcases List.mem_cons.1 hm with rfl | hm
      · by_cases hk : s.any (·.address == m.address) = true
        · obtain ⟨m', hm', e⟩ := List.any_eq_true.1 hk
          exact ⟨m', h2 m' (hsup m' hm'), by simpa using e⟩
        · exact ⟨m, h2 m (by unfold addMeta; rw [if_neg hk]; simp), rfl⟩
      · exact h3 m hm

theorem mem_withoutResults (results : List (Meta × Result)) (collected : List Meta) :
    (∀ m ∈ withoutResults results collected, m ∈ collected ∧ ∀ x ∈ results, x.1.id ≠ m.id) ∧
    ∀ m ∈ collected, (∀ x ∈ results, x.1.id ≠ m.id) → ∃ m' ∈ withoutResults results collected, m'.address = m.address := by
  obtain ⟨h1, -, h3⟩ := mem_foldl_addMeta (collected.filter (fun t => !(results.any (·.1.id == t.id)))) []
  have hf : ∀ m, m ∈ collected.filter (fun t => !(results.any (·.1.id == t.id))) ↔ m ∈ collected ∧ ∀ x ∈ results, x.1.id ≠ m.id := by
    intro m
    simp [List.mem_filter]
  refine ⟨fun m hm => ?_, fun m hm hx => h3 m ((hf m).2 ⟨hm, hx⟩)⟩
  rcases h1 m hm with h | h
  · cases h
  · exact (hf m).1 h

theorem success_iff (r : Result) : statusOf r = .success ↔ r.isSuccessFinished = true := by
  unfold statusOf
  constructor
  · intro h
    split at h
    · cases h
    · split at h
      · assumption
      · split at h <;> cases h
  · intro h
    have hs : r.isSkip = false := by
      have h1 : r.isSuccess = true := (Bool.and_eq_true_iff.1 h).1
      unfold Result.isSuccess at h1
      unfold Result.isSkip
      split at h1
      · cases h1
      · split at h1
        · cases h1
        · rename_i h2; exact Bool.not_eq_true _ ▸ h2
    rw [hs, h]; rfl

/-- C34 for the options: they are rejected if and only if they contradict each other, and otherwise exactly the entries with the statuses
asked for are selected, in the order in which they were saved. -/
theorem C34_flags (fl : Flags) (g : Bool) (rows : List Row) :
    filterTests fl g rows =
      if fl.failedOnly && (fl.unstartedOnly || fl.noSkipped) then none
      else some (rows.filter (fun t =>
        match t.status with
        | .success => g
        | .failed => !fl.unstartedOnly
        | .planned => !fl.failedOnly
        | .skipped => !fl.failedOnly && !fl.noSkipped)) := by
  unfold filterTests
  have hw : ∀ t : Row, !(fl.failedOnly && (fl.unstartedOnly || fl.noSkipped)) → (wantedStatuses fl g).contains t.status =
      (match t.status with
        | .success => g
        | .failed => !fl.unstartedOnly
        | .planned => !fl.failedOnly
        | .skipped => !fl.failedOnly && !fl.noSkipped) := by
    intro t
    obtain ⟨a, b, c, d, e⟩ := fl
    generalize t.status = s
    cases a <;> cases b <;> cases c <;> cases d <;> cases e <;> cases g <;> cases s <;> decide
  have hg : ∀ b : Bool, (!b) = true → (if b then (none : Option (List Row)) else some (rows.filter (fun t =>
      (wantedStatuses fl g).contains t.status))) = some (rows.filter (fun t => (wantedStatuses fl g).contains t.status)) := by
    intro b hb; cases b <;> simp_all
  by_cases hc : (fl.failedOnly && (fl.unstartedOnly || fl.noSkipped)) = true
  · rw [if_pos hc]
    obtain ⟨a, b, c, d, e⟩ := fl
    cases a <;> cases b <;> cases c <;> simp_all
  · rw [if_neg hc]
    have : rows.filter (fun t => (wantedStatuses fl g).contains t.status) = rows.filter (fun t =>
        match t.status with
        | .success => g
        | .failed => !fl.unstartedOnly
        | .planned => !fl.failedOnly
        | .skipped => !fl.failedOnly && !fl.noSkipped) := by
      apply List.filter_congr
      intro t _
      exact hw t (by simp only [Bool.not_eq_true] at hc; rw [hc]; rfl)
    rw [← this]
    obtain ⟨a, b, c, d, e⟩ := fl
    cases a <;> cases b <;> cases c <;> simp_all

example : filterTests { noSkipped := true } false [⟨1, 1, none, .skipped⟩, ⟨1, 2, none, .planned⟩, ⟨1, 3, none, .success⟩] =
    some [⟨1, 2, none, .planned⟩] := by decide

/-- C34, the part that holds (tests with the same address are the same test): without options, what is offered to be resumed is exactly the
tests with a result which did not finish successfully, and the tests without any result. -/
theorem C34_resume_partial (order : List Meta → List Meta) (horder : ∀ l, (order l).Perm l) (results : List (Meta × Result))
    (collected : List Meta) (hkey : ∀ t ∈ collected, ∀ u ∈ collected, t.address = u.address → t.key = u.key) :
    ∃ l, filterTests {} false (entries order results collected) = some l ∧
      ∀ k, k ∈ l.map Row.key ↔
        (∃ x ∈ results, x.1.key = k ∧ x.2.isSuccessFinished = false) ∨
        ∃ t ∈ collected, t.key = k ∧ ∀ x ∈ results, x.1.id ≠ t.id := by
  rw [C34_flags]
  refine ⟨_, rfl, fun k => ?_⟩
  obtain ⟨h1, h2⟩ := mem_withoutResults results collected
  constructor
  · intro hk
    obtain ⟨r, hr, rfl⟩ := List.mem_map.1 hk
    obtain ⟨hr, hs⟩ := List.mem_filter.1 hr
    unfold entries at hr
    rcases List.mem_append.1 hr with hr | hr
    · obtain ⟨x, hx, rfl⟩ := List.mem_map.1 hr
      refine .inl ⟨x, hx, rfl, ?_⟩
      rw [Bool.eq_false_iff]
      intro h
      rw [← success_iff] at h
      simp only [rowOf, h] at hs
      cases hs
    · obtain ⟨m, hm, rfl⟩ := List.mem_map.1 hr
      have := h1 m ((horder _).mem_iff.1 hm)
      exact .inr ⟨m, this.1, rfl, this.2⟩
  · rintro (⟨x, hx, rfl, hs⟩ | ⟨t, ht, rfl, hno⟩)
    · refine List.mem_map.2 ⟨rowOf x.1 (statusOf x.2), List.mem_filter.2 ⟨?_, ?_⟩, rfl⟩
      · exact List.mem_append.2 (.inl (List.mem_map.2 ⟨x, hx, rfl⟩))
      · have : statusOf x.2 ≠ .success := by rw [Ne, success_iff, hs]; simp
        simp only [rowOf]
        cases h : statusOf x.2 <;> simp_all
    · obtain ⟨m, hm, e⟩ := h2 t ht hno
      refine List.mem_map.2 ⟨rowOf m .planned, List.mem_filter.2 ⟨?_, rfl⟩, ?_⟩
      · exact List.mem_append.2 (.inr (List.mem_map.2 ⟨m, (horder _).mem_iff.2 hm, rfl⟩))
      · exact hkey m (h1 m hm).1 t ht e

/-- one test successful, one failed, one without a result -/
example : filterTests {} false (entries id [(⟨1, 1, 1, false, 0, 1⟩, Result.after [.start, .finish]), (⟨2, 1, 2, false, 0, 2⟩, Result.after
    [.start, .fail false])] [⟨1, 1, 1, false, 0, 1⟩, ⟨2, 1, 2, false, 0, 2⟩, ⟨3, 1, 3, true, 5, 3⟩]) =
    some [⟨1, 2, none, .failed⟩, ⟨1, 3, some 5, .planned⟩] := by decide

/-- **C34.** Which tests with results the options ask for: `--failed-only` those that were started, not skipped, and either went wrong or were not finished;
`--unstarted-only` with `--no-skipped` those that were never started and not skipped (and, without `--no-skipped`, the skipped ones too). -/
theorem C34_only (m : Meta) (r : Result) :
    (filterTests { failedOnly := true } false [rowOf m (statusOf r)] = some [rowOf m (statusOf r)] ↔
      r.started = true ∧ r.skips = [] ∧ (r.errors ≠ [] ∨ r.failures ≠ [] ∨ r.interrupted = true ∨ r.finished = false)) ∧
    (filterTests { unstartedOnly := true, noSkipped := true } false [rowOf m (statusOf r)] = some [rowOf m (statusOf r)] ↔ r.started = false ∧ r.skips = []) ∧
    (filterTests { unstartedOnly := true } false [rowOf m (statusOf r)] = some [rowOf m (statusOf r)] ↔ r.started = false ∨ r.skips ≠ []) := by
  rw [C34_flags, C34_flags, C34_flags]
  obtain ⟨es, fs, ss, st, fi, it⟩ := r
  cases es <;> cases fs <;> cases ss <;> cases st <;> cases fi <;> cases it <;>
    simp [statusOf, rowOf, Result.isSkip, Result.isSuccessFinished, Result.isSuccess, Result.isStarted, Result.isFinished]

example : filterTests { failedOnly := true } false [rowOf ⟨1, 1, 1, true, 5, 1⟩ (statusOf { started := true, failures := [{}] })] = some [⟨1, 1, some 5, .failed⟩] ∧
    filterTests { unstartedOnly := true } false [rowOf ⟨1, 1, 1, true, 5, 1⟩ (statusOf { started := true, failures := [{}] })] = some [] := by decide

/-- C34 for the other command: rerunning offers all the entries. -/
theorem C34_rerun (rows : List Row) : filterTests {} true rows = some rows := by
  rw [C34_flags]
  simp only [Bool.false_and, Bool.false_eq_true, if_false, Option.some.injEq]
  rw [List.filter_eq_self]
  intro r _
  cases r.status <;> rfl

example : filterTests {} true [⟨1, 1, none, .skipped⟩, ⟨1, 3, none, .success⟩] = some [⟨1, 1, none, .skipped⟩, ⟨1, 3, none, .success⟩] := by
  decide

/-- C34 fails for two tests with one address (two variations which are written the same way, see `C69_same_text_violated`) neither of which
was run: only one of them is saved, and the other one is not offered. -/
theorem C34_same_address_violated :
    filterTests {} false (entries id [] [⟨1, 1, 1, true, 5, 1⟩, ⟨2, 1, 1, true, 6, 1⟩]) = some [⟨1, 1, some 5, .planned⟩] := by decide

/-- C34 fails for a test that both failed and was skipped (for example in its teardown): `--failed-only` does not offer it. -/
theorem C34_failed_and_skipped_violated :
    let r := Result.after [.start, .fail false, .skip "x", .finish]
    r.isFailure = true ∧ filterTests { failedOnly := true } false (entries id [(⟨1, 1, 1, false, 0, 1⟩, r)] []) = some [] := by decide

/-! ## C35 -/

/-- The tests that come first. -/
def first (fl : Flags) (t : Row) : Bool := if fl.unstartedFirst then t.status == .planned else fl.failedFirst && t.status == .failed

/-- C35: the ordering options are rejected only if both are given, and otherwise put the tests asked for first, and keep the order among these
and among the others; no test is lost or repeated. -/
theorem C35_only_reorders (fl : Flags) (tests : List Row) :
    (sortTests fl tests = none ↔ fl.unstartedFirst = true ∧ fl.failedFirst = true) ∧
    ∀ l, sortTests fl tests = some l → l = tests.filter (first fl) ++ tests.filter (fun t => !(first fl t)) ∧ l.Perm tests := by
  have hp : (tests.filter (first fl) ++ tests.filter (fun t => !(first fl t))).Perm tests := List.filter_append_perm _ _
  have hfp : ∀ t : Row, Pat.isIn t.status.text Status.planned.text = (t.status == .planned) := by
    intro t; cases t.status <;> decide
  have hff : ∀ t : Row, Pat.isIn t.status.text Status.failed.text = (t.status == .failed) := by
    intro t; cases t.status <;> decide
  unfold sortTests
  cases h1 : fl.unstartedFirst with
  | true =>
    cases h2 : fl.failedFirst with
    | true => simp
    | false =>
      refine ⟨by simp, ?_⟩
      intro l hl
      have : first fl = fun t => t.status == .planned := by funext t; simp [first, h1]
      simp only [Bool.and_false, Bool.false_eq_true, if_false, Bool.or_true, if_true, Option.some.injEq, hfp] at hl
      rw [this] at hp ⊢
      exact ⟨hl.symm, hl ▸ hp⟩
  | false =>
    cases h2 : fl.failedFirst with
    | true =>
      refine ⟨by simp, ?_⟩
      intro l hl
      have : first fl = fun t => t.status == .failed := by funext t; simp [first, h1, h2]
      simp only [Bool.false_and, Bool.false_eq_true, if_false, Bool.or_false, if_true, Option.some.injEq, hff] at hl
      rw [this] at hp ⊢
      exact ⟨hl.symm, hl ▸ hp⟩
    | false =>
      refine ⟨by simp, ?_⟩
      intro l hl
      have : first fl = fun _ => false := by funext t; simp [first, h1, h2]
      simp only [Bool.and_self, Bool.or_self, Bool.false_eq_true, if_false, Option.some.injEq] at hl
      subst hl
      rw [this]
      have e : tests = tests.filter (fun _ => false) ++ tests.filter (fun _ => !false) := by
        rw [List.filter_eq_nil_iff.2 (by simp), List.filter_eq_self.2 (by simp)]; rfl
      exact ⟨e, .refl _⟩

example : sortTests { failedFirst := true } [⟨1, 1, none, .planned⟩, ⟨1, 2, none, .failed⟩, ⟨1, 3, none, .skipped⟩, ⟨1, 4, none, .failed⟩] =
    some [⟨1, 2, none, .failed⟩, ⟨1, 4, none, .failed⟩, ⟨1, 1, none, .planned⟩, ⟨1, 3, none, .skipped⟩] := by decide

/-! ## C36 -/

theorem Db.run_append (db : Db) (a b : List Op) : db.run (a ++ b) = (db.run a).run b := by simp [Db.run]

theorem Db.run_cons (db : Db) (o : Op) (b : List Op) : db.run (o :: b) = (db.step o).run b := rfl

/-- each entry belongs to a session -/
def Db.Wf (db : Db) : Prop := ∀ r ∈ db.rows, ∃ s ∈ db.sessions, s.id = r.1

/-- session ids are different -/
def Db.Keys (db : Db) : Prop := (db.sessions.map (·.id)).Nodup

theorem clean_rows (db : Db) (c : Nat) :
    (db.clean c).rows = db.rows.filter (fun r => !(((db.sessions.filter (fun s => decide (s.created < c))).map (·.id)).contains r.1)) := by
  unfold Db.clean
  simp only
  split
  · rename_i h
    rw [List.isEmpty_iff] at h
    rw [h, List.filter_eq_self.2]
    simp
  · rfl

theorem Db.step_inv (db : Db) (o : Op) (h1 : db.Wf) (h2 : db.Keys) : (db.step o).Wf ∧ (db.step o).Keys := by
  cases o with
  | save s rows =>
    simp only [Db.step, Db.save]
    split
    · exact ⟨h1, h2⟩
    · rename_i hn
      constructor
      · intro r hr
        rcases List.mem_append.1 hr with hr | hr
        · obtain ⟨s', hs', e⟩ := h1 r hr
          exact ⟨s', by simp [hs'], e⟩
        · obtain ⟨x, -, rfl⟩ := List.mem_map.1 hr
          exact ⟨s, by simp, rfl⟩
      · unfold Db.Keys
        simp only [List.map_append, List.map_cons, List.map_nil]
        rw [List.nodup_append]
        refine ⟨h2, by simp, ?_⟩
        intro a ha b hb e
        simp only [List.mem_singleton] at hb
        obtain ⟨s', hs', e'⟩ := List.mem_map.1 ha
        exact hn (List.any_eq_true.2 ⟨s', hs', by simp [e', e, hb]⟩)
  | clean c =>
    constructor
    · intro r hr
      rw [Db.step, clean_rows] at hr
      obtain ⟨hr, hc⟩ := List.mem_filter.1 hr
      obtain ⟨s, hs, e⟩ := h1 r hr
      refine ⟨s, List.mem_filter.2 ⟨hs, ?_⟩, e⟩
      by_cases hlt : s.created < c
      · exfalso
        simp only [Bool.not_eq_true', List.contains_eq_mem, decide_eq_false_iff_not] at hc
        exact hc (List.mem_map.2 ⟨s, List.mem_filter.2 ⟨hs, by simpa using hlt⟩, e⟩)
      · simpa using hlt
    · exact List.Nodup.sublist (List.Sublist.map _ List.filter_sublist) h2

theorem Db.run_inv (db : Db) (ops : List Op) (h1 : db.Wf) (h2 : db.Keys) : (db.run ops).Wf ∧ (db.run ops).Keys := by
  induction ops generalizing db with
  | nil => exact ⟨h1, h2⟩
  | cons o ops ih =>
    obtain ⟨a, b⟩ := db.step_inv o h1 h2
    exact ih _ a b

/-- The session is in the database with these entries. -/
def Db.Has (db : Db) (s : Session) (rows : List Row) : Prop := s ∈ db.sessions ∧ (db.rows.filter (·.1 == s.id)).map (·.2) = rows

theorem Has.read (db : Db) (s : Session) (rows : List Row) (h : db.Has s rows) : db.read s.id = rows := by
  unfold Db.read
  rw [if_pos (List.any_eq_true.2 ⟨s, h.1, by simp⟩)]
  exact h.2

theorem Has.step (db : Db) (s : Session) (rows : List Row) (o : Op) (h : db.Has s rows) (hk : db.Keys)
    (ho : ∀ c, o = .clean c → c ≤ s.created) : (db.step o).Has s rows := by
  cases o with
  | save s' rows' =>
    simp only [Db.step, Db.save]
    split
    · exact h
    · rename_i hn
      refine ⟨by simp [h.1], ?_⟩
      have hne : s'.id ≠ s.id := by
        intro e
        exact hn (List.any_eq_true.2 ⟨s, h.1, by simp [e]⟩)
      have : (rows'.map (fun r => (s'.id, r))).filter (·.1 == s.id) = [] := by
        rw [List.filter_eq_nil_iff]
        intro x hx
        obtain ⟨r, -, rfl⟩ := List.mem_map.1 hx
        simpa using hne
      rw [List.filter_append, this, List.append_nil]
      exact h.2
  | clean c =>
    have hc := ho c rfl
    refine ⟨List.mem_filter.2 ⟨h.1, by simpa using hc⟩, ?_⟩
    rw [Db.step, clean_rows, List.filter_filter, ← h.2]
    congr 1
    apply List.filter_congr
    intro r _
    by_cases e : r.1 = s.id
    · have : ((db.sessions.filter (fun s => decide (s.created < c))).map (·.id)).contains s.id = false := by
        rw [Bool.eq_false_iff]
        simp only [List.contains_eq_mem, ne_eq, decide_eq_true_eq]
        intro hm
        obtain ⟨u, hu, e'⟩ := List.mem_map.1 hm
        obtain ⟨hu, hlt⟩ := List.mem_filter.1 hu
        have := inj_on_of_nodup_map hk hu h.1 e'
        subst this
        simp only [decide_eq_true_eq] at hlt
        omega
      rw [e, this]
      simp
    · have : (r.1 == s.id) = false := by simpa using e
      rw [this]; rfl

/-- C36 for surviving: after a session was saved, what is read back for it is what was saved, whatever other sessions are saved before and
after, as long as no clean-up with a later time limit was done. -/
theorem C36_survives (before after : List Op) (s : Session) (rows : List Row) (hfresh : ∀ u r, Op.save u r ∈ before → u.id ≠ s.id)
    (hclean : ∀ c, Op.clean c ∈ after → c ≤ s.created) :
    ((({} : Db).run (before ++ .save s rows :: after)).read s.id) = rows := by
  rw [Db.run_append, Db.run_cons]
  have hi : ∀ ops : List Op, (({} : Db).run ops).Wf ∧ (({} : Db).run ops).Keys := fun ops =>
    Db.run_inv _ ops (fun _ h => by cases h) (by simp [Db.Keys])
  have hno : ∀ (ops : List Op) (db : Db), (∀ u ∈ db.sessions, u.id ≠ s.id) → (∀ u r, Op.save u r ∈ ops → u.id ≠ s.id) →
      ∀ u ∈ (db.run ops).sessions, u.id ≠ s.id := by
    intro ops
    induction ops with
    | nil => intro db h _; exact h
    | cons o ops ih =>
      intro db h ho
      refine ih _ ?_ (fun u r hm => ho u r (List.mem_cons.2 (.inr hm)))
      cases o with
      | save u r =>
        simp only [Db.step, Db.save]
        split
        · exact h
        · intro v hv
          rcases List.mem_append.1 hv with hv | hv
          · exact h v hv
          · simp only [List.mem_singleton] at hv
            exact hv ▸ ho u r (by simp)
      | clean c => exact fun v hv => h v (List.mem_filter.1 hv).1
  have hnos := hno before {} (fun _ h => by cases h) hfresh
  obtain ⟨hw, hk⟩ := hi before
  generalize ({} : Db).run before = db at *
  have hhas : (db.step (.save s rows)).Has s rows := by
    simp only [Db.step, Db.save]
    rw [if_neg (by
      intro h
      obtain ⟨u, hu, e⟩ := List.any_eq_true.1 h
      exact hnos u hu (by simpa using e))]
    refine ⟨by simp, ?_⟩
    have h1 : db.rows.filter (·.1 == s.id) = [] := by
      rw [List.filter_eq_nil_iff]
      intro r hr e
      obtain ⟨u, hu, e'⟩ := hw r hr
      exact hnos u hu (by rw [e']; simpa using e)
    have h2 : (rows.map (fun r => (s.id, r))).filter (·.1 == s.id) = rows.map (fun r => (s.id, r)) := by
      rw [List.filter_eq_self]
      intro x hx
      obtain ⟨r, -, rfl⟩ := List.mem_map.1 hx
      simp
    rw [List.filter_append, h1, h2, List.nil_append, List.map_map]
    exact List.map_id' _
  have hk' := (db.step_inv (.save s rows) hw hk)
  generalize db.step (.save s rows) = db' at *
  have : (db'.run after).Has s rows := by
    clear hno hfresh hi
    induction after generalizing db' with
    | nil => exact hhas
    | cons o after ih =>
      have hstep := Has.step db' s rows o hhas hk'.2 (fun c e => hclean c (by simp [e]))
      exact ih (fun c hm => hclean c (List.mem_cons.2 (.inr hm))) _ hstep (db'.step_inv o hk'.1 hk'.2)
  exact Has.read _ _ _ this

example : (({} : Db).run [.save ⟨1, 7, 10⟩ [⟨1, 1, none, .failed⟩], .clean 5, .save ⟨2, 7, 20⟩ [⟨2, 2, none, .planned⟩], .clean 10]).read 1 =
    [⟨1, 1, none, .failed⟩] := by decide

/-- C36 for expiry: a clean-up removes exactly the sessions created before its time limit, with all their entries, and keeps the others and
their entries. -/
theorem C36_expires (ops : List Op) (c : Nat) :
    let db := ({} : Db).run ops
    let db' := db.step (.clean c)
    (∀ s, s ∈ db'.sessions ↔ s ∈ db.sessions ∧ c ≤ s.created) ∧
    (∀ r, r ∈ db'.rows ↔ r ∈ db.rows ∧ ∃ s ∈ db.sessions, s.id = r.1 ∧ c ≤ s.created) ∧
    (∀ s ∈ db.sessions, db'.read s.id = if c ≤ s.created then db.read s.id else []) := by
  obtain ⟨hw, hk⟩ := Db.run_inv {} ops (fun _ h => by cases h) (by simp [Db.Keys])
  generalize ({} : Db).run ops = db at *
  have hs : ∀ s, s ∈ (db.step (.clean c)).sessions ↔ s ∈ db.sessions ∧ c ≤ s.created := by
    intro s
    simp [Db.step, Db.clean, List.mem_filter]
  refine ⟨hs, ?_, ?_⟩
  · intro r
    rw [Db.step, clean_rows, List.mem_filter]
    simp only [Bool.not_eq_true', List.contains_eq_mem, decide_eq_false_iff_not]
    constructor
    · rintro ⟨hr, hn⟩
      obtain ⟨s, hs, e⟩ := hw r hr
      refine ⟨hr, s, hs, e, ?_⟩
      by_cases hlt : s.created < c
      · exact absurd (List.mem_map.2 ⟨s, List.mem_filter.2 ⟨hs, by simpa using hlt⟩, e⟩) hn
      · omega
    · rintro ⟨hr, s, hs, e, hc⟩
      refine ⟨hr, fun hm => ?_⟩
      obtain ⟨u, hu, e'⟩ := List.mem_map.1 hm
      obtain ⟨hu, hlt⟩ := List.mem_filter.1 hu
      have := inj_on_of_nodup_map hk hu hs (e'.trans e.symm)
      subst this
      simp only [decide_eq_true_eq] at hlt
      omega
  · intro s hsm
    split
    · rename_i hc
      have hh : db.Has s (db.read s.id) := ⟨hsm, by unfold Db.read; rw [if_pos (List.any_eq_true.2 ⟨s, hsm, by simp⟩)]⟩
      exact Has.read _ _ _ (Has.step db s _ (.clean c) hh hk (fun c' e => by cases e; exact hc))
    · rename_i hc
      unfold Db.read
      rw [if_neg]
      intro h
      obtain ⟨u, hu, e⟩ := List.any_eq_true.1 h
      obtain ⟨hu, hc'⟩ := (hs u).1 hu
      have := inj_on_of_nodup_map hk hu hsm (by simpa using e)
      subst this
      exact hc hc'

example : (({} : Db).run [.save ⟨1, 7, 10⟩ [⟨1, 1, none, .failed⟩], .save ⟨2, 7, 20⟩ [⟨2, 2, none, .planned⟩], .clean 11]) =
    ⟨[⟨2, 7, 20⟩], [(2, ⟨2, 2, none, .planned⟩)]⟩ := by decide

theorem latest_spec (l : List Session) :
    (latest l = none ↔ l = []) ∧ ∀ s, latest l = some s → s ∈ l ∧ ∀ u ∈ l, u.created ≤ s.created := by
  induction l with
  | nil => simp [latest]
  | cons x l ih =>
    simp only [latest]
    cases hl : latest l with
    | none =>
      have := ih.1.1 hl
      subst this
      simp
    | some u =>
      obtain ⟨hu, hmax⟩ := ih.2 u hl
      simp only
      split
      · rename_i hgt
        refine ⟨by simp, ?_⟩
        intro s hs
        simp only [Option.some.injEq] at hs
        subst hs
        refine ⟨by simp [hu], ?_⟩
        intro v hv
        rcases List.mem_cons.1 hv with rfl | hv
        · omega
        · exact hmax v hv
      · rename_i hgt
        refine ⟨by simp, ?_⟩
        intro s hs
        simp only [Option.some.injEq] at hs
        subst hs
        refine ⟨by simp, ?_⟩
        intro v hv
        rcases List.mem_cons.1 hv with rfl | hv
        · omega
        · have := hmax v hv; omega

/-- C36 for the last session: it is a session of the folder such that no other session of the folder was created later; and resuming is refused
if and only if there is no session of the folder. -/
theorem C36_last (db : Db) (folder : Nat) :
    (db.last folder = none ↔ ∀ s ∈ db.sessions, s.folder ≠ folder) ∧
    ∀ id, db.last folder = some id →
      ∃ s ∈ db.sessions, s.id = id ∧ s.folder = folder ∧ ∀ u ∈ db.sessions, u.folder = folder → u.created ≤ s.created := by
  obtain ⟨h1, h2⟩ := latest_spec (db.sessions.filter (·.folder == folder))
  unfold Db.last
  constructor
  · rw [Option.map_eq_none_iff, h1, List.filter_eq_nil_iff]
    simp
  · intro id h
    obtain ⟨s, hs, rfl⟩ := Option.map_eq_some_iff.1 h
    obtain ⟨hm, hmax⟩ := h2 s hs
    obtain ⟨hm, hf⟩ := List.mem_filter.1 hm
    refine ⟨s, hm, rfl, by simpa using hf, ?_⟩
    intro u hu hfu
    exact hmax u (List.mem_filter.2 ⟨hu, by simpa using hfu⟩)

example : (⟨[⟨1, 7, 10⟩, ⟨2, 7, 20⟩, ⟨3, 8, 30⟩], []⟩ : Db).last 7 = some 2 := by decide

/-- The tests offered for resuming, in their order: those the flags select, the ones that come first before the others. -/
def offered (fl : Flags) (g : Bool) (rows : List Row) : List Row :=
  let sel := rows.filter (fun t =>
    match t.status with
    | .success => g
    | .failed => !fl.unstartedOnly
    | .planned => !fl.failedOnly
    | .skipped => !fl.failedOnly && !fl.noSkipped)
  sel.filter (first fl) ++ sel.filter (fun t => !(first fl t))

theorem filter_sort (fl : Flags) (g : Bool) (rows : List Row) :
    (match filterTests fl g rows with | none => none | some l => sortTests fl l) =
      if (fl.failedOnly && (fl.unstartedOnly || fl.noSkipped)) || (fl.unstartedFirst && fl.failedFirst) then none
      else some (offered fl g rows) := by
  rw [C34_flags]
  cases h : (fl.failedOnly && (fl.unstartedOnly || fl.noSkipped)) with
  | true => simp
  | false =>
    simp only [Bool.false_eq_true, if_false, Bool.false_or]
    generalize hsel : rows.filter _ = sel
    obtain ⟨h1, h2⟩ := C35_only_reorders fl sel
    cases hs : sortTests fl sel with
    | none =>
      obtain ⟨h3, h4⟩ := h1.1 hs
      simp [h3, h4]
    | some l =>
      have h3 : (fl.unstartedFirst && fl.failedFirst) = false := by
        cases hb : (fl.unstartedFirst && fl.failedFirst) with
        | false => rfl
        | true =>
          rw [Bool.and_eq_true] at hb
          rw [h1.2 hb] at hs; cases hs
      rw [h3]
      simp only [Bool.false_eq_true, if_false, Option.some.injEq]
      rw [(h2 l hs).1]
      unfold offered
      simp only
      rw [← hsel]

/-- C36: resuming a session of at least one test, any number of sessions and cleanings later, offers what was saved for it, selected and ordered
by the flags, wherever it could also be found; contradicting flags are refused. -/
theorem C36_previous_local (before after : List Op) (s : Session) (rows : List Row) (hfresh : ∀ u r, Op.save u r ∈ before → u.id ≠ s.id)
    (hclean : ∀ c, Op.clean c ∈ after → c ≤ s.created) (hne : rows ≠ []) (remote : Nat → Bool → Option (List Row)) (fl : Flags) (g : Bool) :
    (({} : Db).run (before ++ .save s rows :: after)).previous remote fl g s.id =
      if (fl.failedOnly && (fl.unstartedOnly || fl.noSkipped)) || (fl.unstartedFirst && fl.failedFirst) then none
      else some (offered fl g rows) := by
  unfold Db.previous
  simp only
  rw [C36_survives before after s rows hfresh hclean]
  have : rows.isEmpty = false := by cases rows with | nil => exact absurd rfl hne | cons => rfl
  rw [this]
  exact filter_sort fl g rows

/-- C36: a session that was not saved here, or has expired, is looked up elsewhere, and resumed in the same way if it is found. -/
theorem C36_previous_remote (db : Db) (id : Nat) (hno : ∀ u ∈ db.sessions, u.id ≠ id) (remote : Nat → Bool → Option (List Row)) (fl : Flags)
    (g : Bool) :
    (remote id g = none → db.previous remote fl g id = none) ∧
    ∀ rows, remote id g = some rows → db.previous remote fl g id =
      if (fl.failedOnly && (fl.unstartedOnly || fl.noSkipped)) || (fl.unstartedFirst && fl.failedFirst) then none
      else some (offered fl g rows) := by
  have hr : db.read id = [] := by
    unfold Db.read
    rw [if_neg]
    rw [List.any_eq_true]
    rintro ⟨u, hu, he⟩
    exact hno u hu (by simpa using he)
  unfold Db.previous
  simp only [hr, List.isEmpty_nil, if_true]
  constructor
  · intro h; rw [h]
  · intro rows h
    rw [h]
    exact filter_sort fl g rows

example : (({} : Db).run [.save ⟨1, 7, 10⟩ [⟨1, 1, none, .success⟩, ⟨1, 2, none, .planned⟩, ⟨1, 3, none, .failed⟩], .clean 5]).previous
      (fun _ _ => none) { failedFirst := true } false 1 = some [⟨1, 3, none, .failed⟩, ⟨1, 2, none, .planned⟩] ∧
    (({} : Db).previous (fun _ _ => some [⟨1, 1, none, .success⟩, ⟨1, 2, none, .planned⟩]) {} false 1) = some [⟨1, 2, none, .planned⟩] := by
  decide

/-! ## C72 -/

/-- C72 for one entry, the part that holds (a variation is not empty): resuming a saved test loads that test and nothing else, if it is not
excluded by a filter. -/
theorem C72_entry_partial (testsOf : Nat → List Meta) (excluded : Meta → Bool) (m t : Meta) (s : Status) (ht : t ∈ testsOf m.file)
    (hnd : (testsOf m.file).Nodup) (hsame : t.addr = m.addr ∧ t.hasVar = m.hasVar ∧ (m.hasVar = true → t.var = m.var))
    (huniq : ∀ u ∈ testsOf m.file, u.addr = t.addr → u.hasVar = t.hasVar ∧ (u.hasVar = true → u.var = t.var → u = t) ∧ (u.hasVar = false → u = t))
    (hvar : m.hasVar = true → m.var ≠ 0) :
    iterResume testsOf excluded (rowOf m s) = if excluded t then [] else [t] := by
  unfold iterResume
  have hpred : ∀ u ∈ testsOf m.file, ((!(excluded u) && ((rowOf m s).addr == u.addr) &&
      varMatches (rowOf m s).var u.var) = (!(excluded u) && (u == t))) := by
    intro u hu
    cases excluded u with
    | true => rfl
    | false =>
      simp only [Bool.not_false, Bool.true_and, rowOf]
      by_cases e : u = t
      · subst e
        rw [hsame.1]
        cases hv : m.hasVar with
        | false => simp [varMatches]
        | true =>
          have := hvar hv
          have := hsame.2.2 hv
          simp only [beq_self_eq_true, if_true, Bool.true_and]
          cases hm : m.var <;> simp_all [varMatches]
      · have : (u == t) = false := by simpa using e
        rw [this]
        by_cases ha : u.addr = t.addr
        · obtain ⟨h1, h2, h3⟩ := huniq u hu ha
          cases hv : u.hasVar with
          | false => exact absurd (h3 hv) e
          | true =>
            have hne : u.var ≠ t.var := fun e' => e (h2 hv e')
            have hm : m.hasVar = true := by rw [← hsame.2.1, ← h1, hv]
            have h0 := hvar hm
            have h4 := hsame.2.2 hm
            rw [hm]
            simp only [if_true]
            rw [Bool.and_eq_false_iff]
            refine .inr ?_
            cases hv' : m.var with
            | zero => exact absurd hv' h0
            | succ v =>
              simp only [varMatches, beq_eq_false_iff_ne]
              intro e'; exact hne (by rw [h4, hv', e'])
        · have : (m.addr == u.addr) = false := by simp only [beq_eq_false_iff_ne]; intro e'; exact ha (by rw [← e', hsame.1])
          rw [this]; rfl
  rw [show (rowOf m s).file = m.file from rfl, List.filter_congr hpred]
  generalize testsOf m.file = l at ht hnd
  clear hpred huniq
  induction l with
  | nil => cases ht
  | cons x l ih =>
    simp only [List.nodup_cons] at hnd
    rcases List.mem_cons.1 ht with rfl | ht
    · have : l.filter (fun u => !(excluded u) && (u == t)) = [] := by
        rw [List.filter_eq_nil_iff]
        intro u hu e
        simp only [Bool.and_eq_true, beq_iff_eq] at e
        exact hnd.1 (e.2 ▸ hu)
      rw [List.filter_cons, this]
      cases excluded t <;> simp
    · have hne : (x == t) = false := by
        simp only [beq_eq_false_iff_ne]; rintro rfl; exact hnd.1 ht
      rw [List.filter_cons, hne, Bool.and_false]
      exact ih ht hnd.2

/-- two variations of one test -/
example : iterResume (fun _ => [⟨0, 1, 1, true, 5, 0⟩, ⟨0, 1, 1, true, 6, 0⟩]) (fun _ => false) (rowOf ⟨9, 1, 1, true, 6, 0⟩ .failed) =
    [⟨0, 1, 1, true, 6, 0⟩] := by decide

/-- C72 for a session, the part that holds (as above, for files that have not changed: `now m` is the test that `m` is in the file now): the
tests that are loaded are those that were saved, in the same order, without those excluded by a filter. -/
theorem C72_session_partial (testsOf : Nat → List Meta) (excluded : Meta → Bool) (now : Meta → Meta) (saved : List (Meta × Status))
    (hnow : ∀ x ∈ saved, now x.1 ∈ testsOf x.1.file ∧ (now x.1).addr = x.1.addr ∧ (now x.1).hasVar = x.1.hasVar ∧
      (x.1.hasVar = true → (now x.1).var = x.1.var) ∧ (x.1.hasVar = true → x.1.var ≠ 0))
    (hnd : ∀ f, (testsOf f).Nodup)
    (huniq : ∀ f, ∀ t ∈ testsOf f, ∀ u ∈ testsOf f, u.addr = t.addr →
      u.hasVar = t.hasVar ∧ (u.hasVar = true → u.var = t.var → u = t) ∧ (u.hasVar = false → u = t)) :
    resumed testsOf excluded (saved.map (fun x => rowOf x.1 x.2)) = (saved.map (fun x => now x.1)).filter (fun t => !(excluded t)) := by
  induction saved with
  | nil => rfl
  | cons x saved ih =>
    have hx := hnow x (by simp)
    have ih := ih (fun y hy => hnow y (by simp [hy]))
    unfold resumed at ih ⊢
    rw [List.map_cons, List.flatMap_cons, ih, C72_entry_partial testsOf excluded x.1 (now x.1) x.2 hx.1 (hnd _) ⟨hx.2.1, hx.2.2.1, hx.2.2.2.1⟩
      (fun u hu e => huniq _ _ hx.1 u hu e) hx.2.2.2.2, List.map_cons, List.filter_cons]
    cases excluded (now x.1) <;> simp

example : resumed (fun _ => [⟨0, 1, 1, true, 5, 0⟩, ⟨0, 1, 1, true, 6, 0⟩, ⟨0, 1, 2, false, 0, 0⟩]) (fun _ => false)
    ([(⟨9, 1, 2, false, 0, 0⟩, Status.planned), (⟨9, 1, 1, true, 5, 0⟩, .failed)].map (fun x => rowOf x.1 x.2)) =
    [⟨0, 1, 2, false, 0, 0⟩, ⟨0, 1, 1, true, 5, 0⟩] := by decide

/-- C72 fails for variations by parameters that no name is bound to (their `id` is empty): for one entry all variations of the test are
loaded. -/
theorem C72_unnamed_parameters_violated :
    iterResume (fun _ => [⟨0, 1, 1, true, 0, 0⟩, ⟨1, 1, 1, true, 0, 1⟩]) (fun _ => false) (rowOf ⟨9, 1, 1, true, 0, 0⟩ .failed) =
      [⟨0, 1, 1, true, 0, 0⟩, ⟨1, 1, 1, true, 0, 1⟩] := by decide

end Slash.Resume
