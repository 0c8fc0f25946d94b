import Verif.Model.ResumeMany
import Verif.Props.ResumeChain
import Mathlib.Data.List.Forall2
/-!
# C172: `slash resume` and `slash rerun` with ids of sessions
-/
namespace Slash.Resume

/-- Whether the options ask for a test with this result (`none`: it was not run). A test that was skipped counts as skipped even if it failed. -/
def wants (a : Ask) : Option Result → Bool
  | none => !a.fl.failedOnly
  | some r =>
    if r.isSkip then !a.fl.failedOnly && !a.fl.noSkipped
    else if r.isSuccessFinished then a.rerun
    else if r.isStarted then !a.fl.unstartedOnly
    else !a.fl.failedOnly

/-- Whether the options ask for a test with this result before the others. -/
def early (a : Ask) : Option Result → Bool
  | none => a.fl.unstartedFirst
  | some r =>
    if r.isSkip || r.isSuccessFinished then false
    else if r.isStarted then !a.fl.unstartedFirst && a.fl.failedFirst
    else a.fl.unstartedFirst

/-- Options that exclude each other are given. -/
def Ask.contradictory (a : Ask) : Bool :=
  (a.fl.failedOnly && (a.fl.unstartedOnly || a.fl.noSkipped)) || (a.fl.unstartedFirst && a.fl.failedFirst)

/-- A session that was run: the tests collected for it, and their results. -/
structure Past where
  run : Run
  tests : List Meta

/-- The history has the end of this session, no session before has its id, and its data is not too old for any cleaning later. -/
def Past.In (order : List Meta → List Meta) (x : Past) (ops : List Op) : Prop :=
  ∃ before after, ops = before ++ .save x.run.s (entries order (x.run.results x.tests) x.tests) :: after ∧
    (∀ u r, Op.save u r ∈ before → u.id ≠ x.run.s.id) ∧ ∀ c, Op.clean c ∈ after → c ≤ x.run.s.created

/-- The tests of the session have different ids and addresses, and each is still found in its file. -/
def Past.Fine (w : World) (adr : Key → Nat) (x : Past) : Prop :=
  x.tests ≠ [] ∧ (x.tests.map (·.id)).Nodup ∧ (x.tests.map (·.address)).Nodup ∧ ∀ t ∈ x.tests, Found w adr t.key

/-- The status of a test. -/
def statusIn : Option Result → Status
  | none => .planned
  | some r => statusOf r

theorem rows_perm (order : List Meta → List Meta) (horder : ∀ l, (order l).Perm l) (r : Run) (tests : List Meta)
    (hid : (tests.map (·.id)).Nodup) (ha : (tests.map (·.address)).Nodup) :
    (entries order (r.results tests) tests).Perm (tests.map (fun t => rowOf t (statusIn (r.out t)))) := by
  have hwo : withoutResults (r.results tests) tests = tests.filter (fun t => (r.out t).isNone) := by
    unfold withoutResults
    have hf : tests.filter (fun t => !((r.results tests).any (·.1.id == t.id))) = tests.filter (fun t => (r.out t).isNone) := by
      apply List.filter_congr
      intro t ht
      cases hr : r.out t with
      | none =>
        have : (r.results tests).any (·.1.id == t.id) = false := by
          rw [Bool.eq_false_iff]
          intro hc
          obtain ⟨x, hx, e⟩ := List.any_eq_true.1 hc
          obtain ⟨u, hu, hx⟩ := List.mem_filterMap.1 hx
          cases hu' : r.out u with
          | none => rw [hu'] at hx; cases hx
          | some y =>
            rw [hu'] at hx
            simp only [Option.map_some, Option.some.injEq] at hx
            have : u = t := inj_on_of_nodup_map hid hu ht (by rw [← hx] at e; simpa using e)
            rw [this, hr] at hu'
            cases hu'
        rw [this]; rfl
      | some y =>
        have : (r.results tests).any (·.1.id == t.id) = true :=
          List.any_eq_true.2 ⟨(t, y), List.mem_filterMap.2 ⟨t, ht, by rw [hr]; rfl⟩, by simp⟩
        rw [this]; rfl
    rw [hf, foldl_addMeta_nodup _ [] (by
      rw [List.nil_append]
      exact ha.sublist (List.filter_sublist.map _))]
    rfl
  unfold entries
  rw [hwo]
  refine (List.Perm.append_left _ ((horder _).map _)).trans ?_
  clear hwo hid ha
  unfold Run.results
  induction tests with
  | nil => exact List.Perm.refl _
  | cons t tests ih =>
    rw [List.filterMap_cons, List.filter_cons, List.map_cons]
    cases hr : r.out t with
    | none =>
      simp only [Option.map_none, Option.isNone_none, if_true, List.map_cons]
      exact List.perm_middle.trans (ih.cons _)
    | some y =>
      simp only [Option.map_some, Option.isNone_some, Bool.false_eq_true, if_false, List.map_cons]
      exact ih.cons _

theorem wants_status (a : Ask) (t : Meta) (o : Option Result) :
    (match (rowOf t (statusIn o)).status with
      | .success => a.rerun
      | .failed => !a.fl.unstartedOnly
      | .planned => !a.fl.failedOnly
      | .skipped => !a.fl.failedOnly && !a.fl.noSkipped) = wants a o := by
  cases o with
  | none => rfl
  | some r =>
    show (match statusOf r with
      | .success => a.rerun
      | .failed => !a.fl.unstartedOnly
      | .planned => !a.fl.failedOnly
      | .skipped => !a.fl.failedOnly && !a.fl.noSkipped) = wants a (some r)
    simp only [statusOf, wants]
    generalize r.isSkip = a1, r.isSuccessFinished = a2, r.isStarted = a3
    cases a1 <;> cases a2 <;> cases a3 <;> rfl

theorem early_status (a : Ask) (t : Meta) (o : Option Result) : first a.fl (rowOf t (statusIn o)) = early a o := by
  cases o with
  | none =>
    show (if a.fl.unstartedFirst then true else a.fl.failedFirst && false) = a.fl.unstartedFirst
    cases a.fl.unstartedFirst <;> cases a.fl.failedFirst <;> rfl
  | some r =>
    show (if a.fl.unstartedFirst then statusOf r == .planned else a.fl.failedFirst && statusOf r == .failed) = early a (some r)
    simp only [statusOf, early]
    generalize r.isSkip = a1, r.isSuccessFinished = a2, r.isStarted = a3, a.fl.unstartedFirst = a4, a.fl.failedFirst = a5
    revert a1 a2 a3 a4 a5
    decide

theorem keys_filter (p : Row → Bool) (q : Meta → Bool) (f : Meta → Row) (hk : ∀ t, (f t).key = t.key) (hpq : ∀ t, p (f t) = q t)
    (rows : List Row) (tests : List Meta) (h : rows.Perm (tests.map f)) :
    ((rows.filter p).map Row.key).Perm ((tests.filter q).map Meta.key) := by
  refine ((h.filter p).map Row.key).trans ?_
  rw [List.filter_map, List.map_map]
  have h1 : (p ∘ f) = q := funext hpq
  have h2 : (Row.key ∘ f) = Meta.key := funext hk
  rw [h1, h2]

/-- what is read for one session -/
theorem one_session (order : List Meta → List Meta) (horder : ∀ l, (order l).Perm l) (a : Ask) (hc : a.contradictory = false)
    (remote : Nat → Bool → Option (List Row)) (ops : List Op) (w : World) (adr : Key → Nat) (x : Past) (hx : x.In order ops)
    (hf : x.Fine w adr) :
    ∃ rows p q, (({} : Db).run ops).previous remote a.fl a.rerun x.run.s.id = some rows ∧ rows.map Row.key = p ++ q ∧
      p.Perm ((x.tests.filter (fun t => wants a (x.run.out t) && early a (x.run.out t))).map Meta.key) ∧
      q.Perm ((x.tests.filter (fun t => wants a (x.run.out t) && !(early a (x.run.out t)))).map Meta.key) := by
  obtain ⟨before, after, rfl, hfresh, hclean⟩ := hx
  obtain ⟨hne, hid, ha, -⟩ := hf
  have hperm := rows_perm order horder x.run x.tests hid ha
  have hrows : entries order (x.run.results x.tests) x.tests ≠ [] := by
    intro e
    rw [e] at hperm
    exact hne (List.map_eq_nil_iff.1 hperm.nil_eq.symm)
  have hprev := C36_previous_local before after x.run.s _ hfresh hclean hrows remote a.fl a.rerun
  unfold Ask.contradictory at hc
  rw [hc, if_neg (by decide)] at hprev
  unfold offered at hprev
  simp only [List.filter_filter] at hprev
  refine ⟨_, _, _, hprev, List.map_append, ?_, ?_⟩
  · refine keys_filter _ _ (fun t => rowOf t (statusIn (x.run.out t))) (fun t => rfl) (fun t => ?_) _ _ hperm
    rw [early_status, Bool.and_comm]
    exact congrArg (fun b => b && early a (x.run.out t)) (wants_status a t _)
  · refine keys_filter _ _ (fun t => rowOf t (statusIn (x.run.out t))) (fun t => rfl) (fun t => ?_) _ _ hperm
    rw [early_status, Bool.and_comm]
    exact congrArg (fun b => b && !(early a (x.run.out t))) (wants_status a t _)

/-- The keys of the tests of a session that are asked for, as they are run: `part` is made of those that come early and then the others. -/
def Selected (a : Ask) (part : List Key) (x : Past) : Prop :=
  ∃ p q, part = p ++ q ∧
    p.Perm ((x.tests.filter (fun t => wants a (x.run.out t) && early a (x.run.out t))).map Meta.key) ∧
    q.Perm ((x.tests.filter (fun t => wants a (x.run.out t) && !(early a (x.run.out t)))).map Meta.key)

theorem Selected.perm (a : Ask) (part : List Key) (x : Past) (h : Selected a part x) :
    part.Perm ((x.tests.filter (fun t => wants a (x.run.out t))).map Meta.key) := by
  obtain ⟨p, q, rfl, hp, hq⟩ := h
  refine (hp.append hq).trans ?_
  rw [← List.map_append]
  refine List.Perm.map _ ?_
  have h1 : ∀ f : Meta → Bool, x.tests.filter (fun t => wants a (x.run.out t) && f t) = (x.tests.filter (fun t => wants a (x.run.out t))).filter f := by
    intro f
    rw [List.filter_filter]
    exact List.filter_congr (fun t _ => Bool.and_comm _ _)
  rw [h1, h1]
  exact List.filter_append_perm _ _

theorem all_sessions (order : List Meta → List Meta) (horder : ∀ l, (order l).Perm l) (a : Ask) (hc : a.contradictory = false)
    (remote : Nat → Bool → Option (List Row)) (ops : List Op) (w : World) (adr : Key → Nat) (past : List Past)
    (hin : ∀ x ∈ past, x.In order ops) (hf : ∀ x ∈ past, x.Fine w adr) :
    ∃ rows parts, (({} : Db).run ops).previousAll remote a.fl a.rerun (past.map (·.run.s.id)) = some rows ∧
      rows.map Row.key = parts.flatten ∧ List.Forall₂ (Selected a) parts past := by
  induction past with
  | nil => exact ⟨[], [], rfl, rfl, .nil⟩
  | cons x past ih =>
    obtain ⟨rows, parts, h1, h2, h3⟩ := ih (fun y hy => hin y (List.mem_cons_of_mem _ hy)) (fun y hy => hf y (List.mem_cons_of_mem _ hy))
    obtain ⟨rs, p, q, g1, g2, g3, g4⟩ := one_session order horder a hc remote ops w adr x (hin x List.mem_cons_self) (hf x List.mem_cons_self)
    refine ⟨rs ++ rows, (p ++ q) :: parts, ?_, ?_, .cons ⟨p, q, rfl, g3, g4⟩ h3⟩
    · rw [List.map_cons, Db.previousAll, g1]
      simp only
      rw [h1]
    · rw [List.map_append, g2, h2, List.flatten_cons]

/-! ## C172 -/

/-- C172: `slash resume` and `slash rerun` with the ids of sessions run the tests of these sessions that are asked for, one session after the other in
the order of the ids, and for each session those that come first before the others; none is lost or added. -/
theorem C172_selected_partial (order : List Meta → List Meta) (horder : ∀ l, (order l).Perm l) (a : Ask) (hc : a.contradictory = false)
    (remote : Nat → Bool → Option (List Row)) (ops : List Op) (w : World) (adr : Key → Nat) (past : List Past) (hne : past ≠ [])
    (hids : a.ids = past.map (·.run.s.id)) (hin : ∀ x ∈ past, x.In order ops) (hf : ∀ x ∈ past, x.Fine w adr) :
    ∃ l parts, a.load w remote (({} : Db).run ops) = some l ∧ l.map Meta.key = parts.flatten ∧ List.Forall₂ (Selected a) parts past := by
  obtain ⟨rows, parts, h1, h2, h3⟩ := all_sessions order horder a hc remote ops w adr past hin hf
  have hsub : ∀ k ∈ parts.flatten, Found w adr k := by
    clear h1 h2 hin hids hne
    induction h3 with
    | nil => intro k hk; cases hk
    | cons hs _ ih =>
      rename_i part x parts past _
      intro k hk
      rw [List.flatten_cons, List.mem_append] at hk
      rcases hk with hk | hk
      · have := (Selected.perm a part x hs).subset hk
        obtain ⟨t, ht, rfl⟩ := List.mem_map.1 this
        exact (hf x List.mem_cons_self).2.2.2 t (List.mem_filter.1 ht).1
      · exact ih (fun y hy => hf y (List.mem_cons_of_mem _ hy)) k hk
  obtain ⟨l, g1, g2, -⟩ := loadRows_found w adr rows (fun r hr => hsub _ (h2 ▸ List.mem_map_of_mem hr))
  refine ⟨numbered l, parts, ?_, ?_, h3⟩
  · unfold Ask.load Ask.sessions
    rw [hids, if_neg (by simpa using hne)]
    simp only
    rw [h1]
    simp only
    rw [g1]
    rfl
  · rw [numbered_keys, g2, h2]

theorem count_flatten (a : Ask) (k : Key) (parts : List (List Key)) (past : List Past) (h : List.Forall₂ (Selected a) parts past)
    (hk : ∀ x ∈ past, (x.tests.map Meta.key).Nodup) :
    parts.flatten.count k = past.countP (fun x => x.tests.any (fun t => t.key == k && wants a (x.run.out t))) := by
  induction h with
  | nil => rfl
  | cons hs _ ih =>
    rename_i part x parts past _
    rw [List.flatten_cons, List.count_append, List.countP_cons, ih (fun y hy => hk y (List.mem_cons_of_mem _ hy)), Nat.add_comm]
    congr 1
    rw [(Selected.perm a part x hs).count_eq]
    have hnd : ((x.tests.filter (fun t => wants a (x.run.out t))).map Meta.key).Nodup :=
      (hk x List.mem_cons_self).sublist (List.filter_sublist.map _)
    by_cases hm : k ∈ (x.tests.filter (fun t => wants a (x.run.out t))).map Meta.key
    · rw [count_eq_one_of_mem hnd hm, if_pos]
      obtain ⟨t, ht, e⟩ := List.mem_map.1 hm
      obtain ⟨h1, h2⟩ := List.mem_filter.1 ht
      exact List.any_eq_true.2 ⟨t, h1, by rw [h2, e]; simp⟩
    · rw [List.count_eq_zero_of_not_mem hm, if_neg]
      intro hc
      obtain ⟨t, ht, e⟩ := List.any_eq_true.1 hc
      rw [Bool.and_eq_true, beq_iff_eq] at e
      exact hm (List.mem_map.2 ⟨t, List.mem_filter.2 ⟨ht, e.2⟩, e.1⟩)

/-- C172: a test is run exactly as often as there are ids of sessions in which its result is one that is asked for. -/
theorem C172_times_partial (order : List Meta → List Meta) (horder : ∀ l, (order l).Perm l) (a : Ask) (hc : a.contradictory = false)
    (remote : Nat → Bool → Option (List Row)) (ops : List Op) (w : World) (adr : Key → Nat) (past : List Past) (hne : past ≠ [])
    (hids : a.ids = past.map (·.run.s.id)) (hin : ∀ x ∈ past, x.In order ops) (hf : ∀ x ∈ past, x.Fine w adr)
    (hk : ∀ x ∈ past, (x.tests.map Meta.key).Nodup) :
    ∃ l, a.load w remote (({} : Db).run ops) = some l ∧ ∀ k : Key,
      (l.map Meta.key).count k = past.countP (fun x => x.tests.any (fun t => t.key == k && wants a (x.run.out t))) := by
  obtain ⟨l, parts, h1, h2, h3⟩ := C172_selected_partial order horder a hc remote ops w adr past hne hids hin hf
  exact ⟨l, h1, fun k => by rw [h2, count_flatten a k parts past h3 hk]⟩

/-- C172: `slash rerun` without options runs all tests of the sessions again, whatever their results. -/
theorem C172_rerun_partial (order : List Meta → List Meta) (horder : ∀ l, (order l).Perm l) (ids : List Nat) (folder : Nat)
    (remote : Nat → Bool → Option (List Row)) (ops : List Op) (w : World) (adr : Key → Nat) (past : List Past) (hne : past ≠ [])
    (hids : ids = past.map (·.run.s.id)) (hin : ∀ x ∈ past, x.In order ops) (hf : ∀ x ∈ past, x.Fine w adr) :
    ∃ l, Ask.load { rerun := true, ids := ids, folder := folder } w remote (({} : Db).run ops) = some l ∧
      (l.map Meta.key).Perm (past.flatMap (fun x => x.tests.map Meta.key)) := by
  obtain ⟨l, parts, h1, h2, h3⟩ := C172_selected_partial order horder { rerun := true, ids := ids, folder := folder } rfl remote ops w adr past
    hne hids hin hf
  refine ⟨l, h1, ?_⟩
  rw [h2]
  clear h1 h2 hin hf hids hne
  induction h3 with
  | nil => exact List.Perm.refl _
  | cons hs _ ih =>
    rename_i part x parts past _
    rw [List.flatten_cons, List.flatMap_cons]
    refine ((Selected.perm _ part x hs).trans ?_).append ih
    rw [List.filter_eq_self.2]
    intro t _
    cases x.run.out t with
    | none => rfl
    | some r =>
      simp only [wants]
      generalize r.isSkip = a1, r.isSuccessFinished = a2, r.isStarted = a3
      revert a1 a2 a3
      decide

/-- C172: without ids the last session of the working directory is taken; if there is none, nothing is run. -/
theorem C172_last (a : Ask) (w : World) (remote : Nat → Bool → Option (List Row)) (db : Db) (h : a.ids = []) :
    (∀ id, db.last a.folder = some id → a.load w remote db = { a with ids := [id] }.load w remote db) ∧
    (db.last a.folder = none → a.load w remote db = none) := by
  constructor
  · intro id hl
    unfold Ask.load Ask.sessions
    rw [h, hl]
    rfl
  · intro hl
    unfold Ask.load Ask.sessions
    rw [h, hl]
    rfl

theorem previousAll_none (db : Db) (remote : Nat → Bool → Option (List Row)) (fl : Flags) (g : Bool) (ids : List Nat) (id : Nat) (h : id ∈ ids)
    (hn : db.previous remote fl g id = none) : db.previousAll remote fl g ids = none := by
  induction ids with
  | nil => cases h
  | cons i ids ih =>
    rw [Db.previousAll]
    rcases List.mem_cons.1 h with rfl | h
    · rw [hn]
    · rw [ih h]
      cases db.previous remote fl g i <;> rfl

/-- C172: if one of the ids is known neither here nor elsewhere, or if the options exclude each other, then nothing is run at all. -/
theorem C172_refused (a : Ask) (w : World) (remote : Nat → Bool → Option (List Row)) (db : Db) (id : Nat) (h : id ∈ a.ids)
    (hn : ((∀ u ∈ db.sessions, u.id ≠ id) ∧ remote id a.rerun = none) ∨ a.contradictory = true) : a.load w remote db = none := by
  have hp : db.previous remote a.fl a.rerun id = none := by
    rcases hn with ⟨h1, h2⟩ | hc
    · exact (C36_previous_remote db id h1 remote a.fl a.rerun).1 h2
    · unfold Db.previous
      simp only
      generalize (if (db.read id).isEmpty = true then remote id a.rerun else some (db.read id)) = o
      cases o with
      | none => rfl
      | some l =>
        simp only
        refine (filter_sort a.fl a.rerun l).trans ?_
        unfold Ask.contradictory at hc
        rw [hc]
        rfl
  unfold Ask.load Ask.sessions
  have : a.ids.isEmpty = false := by
    cases he : a.ids with
    | nil => rw [he] at h; cases h
    | cons => rfl
  rw [this, if_neg (by decide)]
  simp only
  rw [previousAll_none db remote a.fl a.rerun a.ids id h hp]

/-! ## An example: two sessions -/

/-- The tests: three functions of one file. -/
def t1 (id : Nat) : Meta := ⟨id, 1, 1, false, 0, 11⟩
/-- The second. -/
def t2 (id : Nat) : Meta := ⟨id, 1, 2, false, 0, 12⟩
/-- The third. -/
def t3 (id : Nat) : Meta := ⟨id, 1, 3, false, 0, 13⟩

/-- In the first session the first test succeeds, the second fails and the third is not run. -/
def pastA : Past where
  run := { s := ⟨7, 0, 100⟩, out := fun t =>
    if t.addr = 1 then some (Result.after [.start, .finish]) else if t.addr = 2 then some (Result.after [.start, .fail false, .finish]) else none }
  tests := [t1 0, t2 1, t3 2]

/-- In the second session the second test fails again, and the third is skipped. -/
def pastB : Past where
  run := { s := ⟨8, 0, 200⟩, out := fun t =>
    if t.addr = 2 then some (Result.after [.start, .fail false, .finish]) else some (Result.after [.start, .skip "x", .finish]) }
  tests := [t2 0, t3 1]

/-- The file. -/
def fileABC : World where
  tests := fun f => if f = 1 then some [t1 0, t2 0, t3 0] else none

/-- The history. -/
def twoSessions : List Op :=
  [.save pastA.run.s (entries id (pastA.run.results pastA.tests) pastA.tests), .clean 50,
   .save pastB.run.s (entries id (pastB.run.results pastB.tests) pastB.tests)]

example : pastA.In id twoSessions ∧ pastB.In id twoSessions :=
  ⟨⟨[], _, rfl, by simp, by simp [pastA]⟩, ⟨[_, _], [], rfl, by simp [pastA, pastB], by simp⟩⟩

example : pastA.Fine fileABC (fun k => 10 + k.2.1) ∧ pastB.Fine fileABC (fun k => 10 + k.2.1) := by
  have h : ∀ u ∈ [t1 0, t2 0, t3 0], Found fileABC (fun k => 10 + k.2.1) u.key := by
    intro u hu
    refine ⟨[t1 0, t2 0, t3 0], u, ?_, by decide, hu, rfl, ?_, rfl, ?_, ?_⟩
    all_goals (revert u; decide)
  refine ⟨⟨by decide, by decide, by decide, ?_⟩, ⟨by decide, by decide, by decide, ?_⟩⟩
  · intro t ht
    obtain ⟨u, hu, e⟩ : ∃ u ∈ [t1 0, t2 0, t3 0], u.key = t.key := by revert t; decide
    exact e ▸ h u hu
  · intro t ht
    obtain ⟨u, hu, e⟩ : ∃ u ∈ [t1 0, t2 0, t3 0], u.key = t.key := by revert t; decide
    exact e ▸ h u hu

/-- the first session is resumed: the test that failed and the one that was not run -/
example : ({ ids := [7] : Ask }.load fileABC (fun _ _ => none) (({} : Db).run twoSessions)).map (·.map Meta.key) =
    some [(1, 2, none), (1, 3, none)] := by decide +kernel

/-- what was not run comes first, and the last session is taken without ids -/
example : ({ ids := [7], fl := { unstartedFirst := true } : Ask }.load fileABC (fun _ _ => none) (({} : Db).run twoSessions)).map (·.map Meta.key) =
    some [(1, 3, none), (1, 2, none)] ∧
    ({ fl := { noSkipped := true } : Ask }.load fileABC (fun _ _ => none) (({} : Db).run twoSessions)).map (·.map Meta.key) =
    some [(1, 2, none)] := by decide +kernel

/-- all are run again -/
example : ({ ids := [8, 7], rerun := true : Ask }.load fileABC (fun _ _ => none) (({} : Db).run twoSessions)).map (·.map Meta.key) =
    some [(1, 2, none), (1, 3, none), (1, 1, none), (1, 2, none), (1, 3, none)] := by decide +kernel

/-- one id is not known -/
example : ({ ids := [7, 9] : Ask }.load fileABC (fun _ _ => none) (({} : Db).run twoSessions)).isNone = true := by decide +kernel

/-- In a third session everything succeeds. -/
def pastC : Past where
  run := { s := ⟨9, 0, 300⟩, out := fun _ => some (Result.after [.start, .finish]) }
  tests := [t2 0, t3 1]

/-- C172 does not hold as one would wish: a test that failed in two of the sessions is run twice, and one that failed in the first and succeeded in
the second is run again. -/
theorem C172_twice_violated :
    ({ ids := [7, 8], fl := { failedOnly := true } : Ask }.load fileABC (fun _ _ => none) (({} : Db).run twoSessions)).map (·.map Meta.key) =
      some [(1, 2, none), (1, 2, none)] ∧
    ({ ids := [7, 9] : Ask }.load fileABC (fun _ _ => none) (({} : Db).run (twoSessions ++
      [.save pastC.run.s (entries id (pastC.run.results pastC.tests) pastC.tests)]))).map (·.map Meta.key) =
      some [(1, 2, none), (1, 3, none)] := by decide +kernel

end Slash.Resume
