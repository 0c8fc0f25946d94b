import Verif.Model.RunResume
import Verif.Props.RunAll
import Verif.Props.ResumeChain
/-!
# C166: a resumption that ends with status zero

What `slash resume` tells by its exit status about the tests of the session that is resumed, however often it was resumed before.
-/
namespace Slash.RunAll
open Resume (Meta Row Db Op World Key Found Last)

/-- What is raised outside of tests by this session is not the request to leave with success. -/
structure Once.Loud (x : Once) : Prop where
  other : ¬ x.other.Quiet
  enter : ∀ e, x.enter = some e → ¬ e.Quiet
  callback : ∀ e, x.callback = some e → ¬ e.Quiet
  prepare : ∀ e, x.prepare = some e → ¬ e.Quiet
  save : ∀ e, x.save = some e → ¬ e.Quiet
  exit : ∀ o e, x.exit o = some e → ¬ e.Quiet

theorem once_tests_ids (x : Once) (l : List Meta) : (x.tests l).map (·.id) = List.range l.length := by
  unfold Once.tests
  rw [List.map_map]
  apply List.ext_getElem
  · simp
  · intro i h1 h2; simp

theorem once_nodup (x : Once) (l : List Meta) : ((x.tests l).map (·.id)).Nodup := by
  rw [once_tests_ids]; exact List.nodup_range

theorem once_exc_loud (x : Once) (h : x.Loud) (e : Whole.X) : ¬ (x.exc e).Quiet := by
  unfold Once.exc
  split
  · rintro ⟨c, hc, -⟩; cases hc
  · exact h.other
  · rintro ⟨c, hc, -⟩; cases hc

theorem once_attempt (x : Once) (db : Db) : (∃ e, Exit.attempt (x.input db) = (some e, {}) ∧ (x.prepare = some e ∨ e = .exception)) ∨
    (x.prepare = none ∧ ∃ l, x.load db = some l ∧ Exit.attempt (x.input db) = x.run l) := by
  unfold Exit.attempt
  cases hp : x.prepare with
  | some e => exact .inl ⟨e, by simp [Once.input, hp], .inl rfl⟩
  | none =>
    simp only [Once.input, hp, Exit.collect]
    cases hr : x.rows db with
    | none => exact .inl ⟨_, rfl, .inr rfl⟩
    | some rows =>
      cases hl : x.load db with
      | none => exact .inl ⟨_, rfl, .inr rfl⟩
      | some l => exact .inr ⟨trivial, l, rfl, rfl⟩

theorem once_noQuiet (x : Once) (h : x.Loud) (db : Db) : Exit.NoQuiet (x.input db) := by
  refine ⟨h.enter, h.callback, ?_, h.save, h.exit⟩
  intro e he
  rcases once_attempt x db with ⟨e', h', h'' | h''⟩ | ⟨-, l, -, h'⟩
  · rw [h'] at he
    cases he
    exact h.prepare e h''
  · rw [h'] at he
    cases he
    subst h''
    rintro ⟨c, hc, -⟩; cases hc
  · rw [h'] at he
    unfold Once.run at he
    cases hs : (Whole.session x.session (x.tests l)).1 with
    | none => rw [hs] at he; cases he
    | some y => rw [hs] at he; cases he; exact once_exc_loud x h y

/-- **C166.** The status of a resumption is zero exactly if nothing is raised, the tests can be loaded, and nothing goes wrong in the session and in
each of its tests. -/
theorem C166_zero_iff (x : Once) (h : x.Loud) (db : Db) : x.status db = 0 ↔
    (x.enter = none ∧ x.callback = none ∧ x.prepare = none ∧ x.save = none ∧ x.exit none = none) ∧
    ∃ l, x.load db = some l ∧ (Whole.session x.session (x.tests l)).1 = none ∧
      Fine ((Whole.session x.session (x.tests l)).2.cl.results .global) ∧
      ∀ k < l.length, Fine ((Whole.session x.session (x.tests l)).2.cl.results (.test k)) := by
  unfold Once.status
  rw [Exit.C47_zero_iff_partial _ (once_noQuiet x h db)]
  have hsucc : ∀ l, (Whole.session x.session (x.tests l)).1 = none →
      ((results (Whole.session x.session (x.tests l)).2).isSuccess true = true ↔
        Fine ((Whole.session x.session (x.tests l)).2.cl.results .global) ∧ ∀ k < l.length, Fine ((Whole.session x.session (x.tests l)).2.cl.results (.test k))) := by
    intro l hn
    have ht := (Whole.C102_in_order x.session (x.tests l) (once_nodup x l))
    obtain ⟨_, -, -, -, -, -, -, ht⟩ := ht
    have ht := ht hn
    rw [once_tests_ids] at ht
    unfold SessionResults.isSuccess SessionResults.testResults
    simp only [results, ht]
    rw [← fine_iff]
    cases ((Whole.session x.session (x.tests l)).2.cl.results .global).isSuccess true with
    | false => simp
    | true => simp [fine_iff]
  constructor
  · rintro ⟨⟨h1, h2, h3, h4, h5⟩, hs⟩
    rcases once_attempt x db with ⟨e, h', -⟩ | ⟨hp, l, hl, h'⟩
    · rw [h'] at h3; cases h3
    · rw [h'] at h3 hs
      have hn : (Whole.session x.session (x.tests l)).1 = none := by
        unfold Once.run at h3
        simpa using h3
      exact ⟨⟨h1, h2, hp, h4.resolve_left (by simp [Once.input]), h5⟩, l, hl, hn, (hsucc l hn).1 hs⟩
  · rintro ⟨⟨h1, h2, hp, h4, h5⟩, l, hl, hn, hf⟩
    rcases once_attempt x db with ⟨e, h', h'' | h''⟩ | ⟨-, l', hl', ha⟩
    · rw [hp] at h''; cases h''
    · exfalso
      unfold Exit.attempt at h'
      simp only [Once.input, hp, Exit.collect] at h'
      cases hr : x.rows db with
      | none => unfold Once.load at hl; rw [hr] at hl; cases hl
      | some rows =>
        rw [hr, hl] at h'
        simp only [Once.run, hn, Option.map_none] at h'
        cases h'
    · rw [hl] at hl'
      cases hl'
      refine ⟨⟨h1, h2, ?_, .inr h4, h5⟩, ?_⟩
      · rw [ha]; unfold Once.run; simp [hn]
      · rw [ha]; exact (hsucc l hn).2 hf

/-! ## The results of a session, test by test -/

/-- Each test has its place as its number. -/
def Placed (l : List Meta) : Prop := ∀ (i : Nat) (t : Meta), l[i]? = some t → t.id = i

theorem placed_numbered (l : List Meta) : Placed (Resume.numbered l) := by
  intro i t h
  unfold Resume.numbered at h
  rw [List.getElem?_map, List.getElem?_zipIdx] at h
  cases hl : l[i]? with
  | none => rw [hl] at h; cases h
  | some a => rw [hl] at h; simp at h; rw [← h]

theorem Placed.nodup {l : List Meta} (h : Placed l) : (l.map (·.id)).Nodup := by
  have : l.map (·.id) = List.range l.length := by
    apply List.ext_getElem
    · simp
    · intro i h1 h2
      simp only [List.length_map] at h1
      simp only [List.getElem_map, List.getElem_range]
      exact h i _ (List.getElem?_eq_getElem h1)
  rw [this]; exact List.nodup_range

/-- What this session gives for the test. -/
def Once.out (x : Once) (l : List Meta) (t : Meta) : Option Result :=
  if t.id ∈ (Whole.session x.session (x.tests l)).2.tests then some (x.result l t.id) else none

theorem filterMap_take (l : List Meta) (f : Meta → α) (m b : Nat) (h : ∀ (i : Nat) (t : Meta), l[i]? = some t → t.id = b + i) :
    l.filterMap (fun t => if t.id < m then some (f t) else none) = (l.take (m - b)).map f := by
  induction l generalizing b with
  | nil => simp
  | cons t l ih =>
    have h0 : t.id = b := h 0 t rfl
    have ih' := ih (b + 1) (fun i u hu => by have := h (i + 1) u hu; omega)
    rw [List.filterMap_cons]
    by_cases hm : t.id < m
    · rw [if_pos hm]
      simp only
      obtain ⟨k, hk⟩ : ∃ k, m - b = k + 1 := ⟨m - b - 1, by omega⟩
      rw [hk, List.take_succ_cons, List.map_cons, ih', show m - (b + 1) = k by omega]
    · rw [if_neg hm]
      simp only
      rw [ih', show m - (b + 1) = 0 by omega, show m - b = 0 by omega]
      rfl

theorem filterMap_range (l : List Meta) (R : Nat → Result) (h : Placed l) (m : Nat) :
    (List.range m).filterMap (fun k => l[k]?.map (fun t => (t, R k))) = (l.take m).map (fun t => (t, R t.id)) := by
  induction m with
  | zero => rfl
  | succ m ih =>
    rw [List.range_succ, List.filterMap_append, ih, List.take_add_one, List.map_append]
    cases hm : l[m]? with
    | none => simp [hm]
    | some t => simp [hm, h m t hm]

theorem once_tests_take (x : Once) (l : List Meta) : ∃ m, m ≤ l.length ∧ (Whole.session x.session (x.tests l)).2.tests = List.range m ∧
    ((Whole.session x.session (x.tests l)).1 = none → m = l.length) := by
  obtain ⟨ps, R, -⟩ := Whole.session_facts x.session (x.tests l) (once_nodup x l)
  obtain ⟨n, hn⟩ := R.sub
  rw [List.map_take, once_tests_ids, List.take_range] at hn
  refine ⟨min n l.length, Nat.min_le_right _ _, hn, fun h => ?_⟩
  have := R.tests h
  rw [hn, once_tests_ids] at this
  have := congrArg List.length this
  simpa using this

theorem out_results (x : Once) (l : List Meta) (h : Placed l) : (⟨x.s, x.out l⟩ : Resume.Run).results l = x.results l := by
  obtain ⟨m, -, hm, -⟩ := once_tests_take x l
  unfold Resume.Run.results Once.results Once.out
  rw [hm, filterMap_range l (x.result l) h m]
  have := filterMap_take l (fun t => (t, x.result l t.id)) m 0 (fun i t ht => by rw [h i t ht]; omega)
  rw [Nat.sub_zero] at this
  rw [← this]
  congr 1
  funext t
  simp only [List.mem_range]
  split <;> rfl

theorem mem_results (x : Once) (l : List Meta) (h : Placed l) (t : Meta) (r : Result) :
    (t, r) ∈ x.results l ↔ t ∈ l ∧ x.out l t = some r := by
  rw [← out_results x l h]
  unfold Resume.Run.results
  rw [List.mem_filterMap]
  constructor
  · rintro ⟨u, hu, e⟩
    cases ho : x.out l u with
    | none => simp [ho] at e
    | some y =>
      simp only [ho, Option.map_some, Option.some.injEq, Prod.mk.injEq] at e
      obtain ⟨rfl, rfl⟩ := e
      exact ⟨hu, ho⟩
  · rintro ⟨hu, ho⟩
    exact ⟨t, hu, by simp [ho]⟩

/-- The same by key. -/
def Once.outKey (x : Once) (l : List Meta) (k : Key) : Option Result := (l.find? (·.key == k)).bind (x.out l)

theorem outKey_eq (x : Once) (l : List Meta) (hk : (l.map Meta.key).Nodup) (t : Meta) (ht : t ∈ l) : x.out l t = x.outKey l t.key := by
  unfold Once.outKey
  cases hf : l.find? (·.key == t.key) with
  | none =>
    rw [List.find?_eq_none] at hf
    exact absurd (by simp) (hf t ht)
  | some u =>
    have h1 := List.mem_of_find?_eq_some hf
    have h2 := List.find?_some hf
    obtain rfl : u = t := inj_on_of_nodup_map hk h1 ht (by simpa using h2)
    rfl

/-! ## What is loaded -/

/-- The file of the test cannot be loaded, or the test is found in it, as `Found` says. -/
def Kept (w : World) (adr : Key → Nat) (k : Key) : Prop := w.tests k.1 = none ∨ Found w adr k

theorem loadRows_files (w : World) (rows : List Row) (l : List Meta) (h : Resume.loadRows w rows = some l) : ∀ r ∈ rows, w.tests r.file ≠ none := by
  induction rows generalizing l with
  | nil => intro r hr; cases hr
  | cons r rs ih =>
    intro r' hr'
    unfold Resume.loadRows at h
    cases hf : w.tests r.file with
    | none => rw [hf] at h; cases h
    | some u =>
      rw [hf] at h
      simp only at h
      cases hl : Resume.loadRows w rs with
      | none => rw [hl] at h; cases h
      | some l' =>
        rcases List.mem_cons.1 hr' with rfl | hr''
        · rw [hf]; simp
        · exact ih l' hl r' hr''

/-- What a resumption after session `x0` loads. -/
theorem once_load (order : List Meta → List Meta) (horder : ∀ l, (order l).Perm l) (adr : Key → Nat) (x0 x : Once) (l0 : List Meta) (db : Db)
    (hl : Last db x0.s (Resume.entries order (x0.results l0) l0)) (hf : x.s.folder = x0.s.folder) (hpl : Placed l0)
    (hkeys : (l0.map Meta.key).Nodup) (hadr : ∀ t ∈ l0, t.address = adr t.key)
    (hinj : ∀ k ∈ l0.map Meta.key, ∀ k' ∈ l0.map Meta.key, adr k = adr k' → k = k')
    (hkept : ∀ k ∈ l0.map Meta.key, Kept x.world adr k) (hne : l0 ≠ []) (l : List Meta) (hload : x.load db = some l) :
    Placed l ∧ (l.map Meta.key).Perm ((l0.map Meta.key).filter (fun k => !(Resume.succeeded (x0.outKey l0 k)))) ∧ ∀ t ∈ l, t.address = adr t.key := by
  obtain ⟨rows, hprev, hp⟩ := Resume.resume_rows order horder adr ⟨x0.s, x0.out l0⟩ (x0.outKey l0) l0 db (by rw [out_results x0 l0 hpl]; exact hl)
    (fun t ht => outKey_eq x0 l0 hkeys t ht) hpl.nodup hkeys hadr hinj hne
  unfold Once.load Once.rows at hload
  rw [hf, hl.last] at hload
  simp only at hload hprev
  rw [hprev] at hload
  simp only at hload
  cases hr : Resume.loadRows x.world rows with
  | none => rw [hr] at hload; cases hload
  | some l' =>
    rw [hr] at hload
    cases hload
    obtain ⟨l'', h1, h2, h3⟩ := Resume.loadRows_found x.world adr rows (fun r hr' => by
      have hm : r.key ∈ (l0.map Meta.key).filter (fun k => !(Resume.succeeded (x0.outKey l0 k))) := hp.subset (List.mem_map_of_mem hr')
      exact (hkept _ (List.mem_filter.1 hm).1).resolve_left (loadRows_files x.world rows l' hr r hr'))
    rw [hr] at h1
    cases h1
    refine ⟨placed_numbered _, ?_, Resume.numbered_address adr l' h3⟩
    rw [Resume.numbered_keys, h2]
    exact hp

/-! ## The history -/

/-- The resumptions are made in directory `f`, each later than the session before; in between other sessions are made elsewhere, and nothing is
cleaned that was made after time `t0`. -/
def Later (f t0 : Nat) : Nat → List Once → Prop
  | _, [] => True
  | prev, x :: xs =>
    x.s.folder = f ∧ prev < x.s.created ∧ (∀ u r, Op.save u r ∈ x.others → u.folder ≠ f) ∧ (∀ c, Op.clean c ∈ x.others → c ≤ t0) ∧
    Later f t0 x.s.created xs

/-- The ids of the sessions. -/
def onceIds : List Once → List Nat
  | [] => []
  | x :: xs => x.others.filterMap (fun o => match o with | .save u _ => some u.id | .clean _ => none) ++ x.s.id :: onceIds xs

theorem results_nil (x : Once) : x.results [] = [] := by
  unfold Once.results
  simp

theorem entries_nil (order : List Meta → List Meta) (horder : ∀ l, (order l).Perm l) : Resume.entries order [] [] = [] := by
  unfold Resume.entries
  have : order (Resume.withoutResults [] []) = [] := (horder _).eq_nil
  rw [this]; rfl

theorem ids_tail {a : List Nat} {b : Nat} {c : List Nat} (h : (a ++ b :: c).Nodup) : (a ++ c).Nodup :=
  h.sublist (List.Sublist.append_left (List.sublist_cons_self b c) a)

theorem rows_empty (x : Once) (db : Db) (s : Resume.Session) (h : Last db s []) (hf : x.s.folder = s.folder) : x.load db = none := by
  unfold Once.load Once.rows
  rw [hf, h.last]
  simp only
  have : db.previous (fun _ _ => none) {} false s.id = none := by
    unfold Db.previous
    simp only
    rw [Resume.Has.read db s _ h.2.2.1]
    rfl
  rw [this]

theorem not_zero_of_load (x : Once) (hx : x.Loud) (db : Db) (h : x.load db = none) : x.status db ≠ 0 := by
  intro e
  obtain ⟨-, l, hl, -⟩ := (C166_zero_iff x hx db).1 e
  rw [h] at hl; cases hl

/-- How the session that is saved becomes the last one of its directory. -/
theorem saved_last (db : Db) (x : Once) (s : Resume.Session) (rows rows' : List Row) (hl : Last db s rows) (hf : x.s.folder = s.folder)
    (ht : s.created < x.s.created) (hid : (db.sessions.map (·.id) ++ x.s.id :: rest).Nodup) :
    Last (db.save x.s rows') x.s rows' ∧ ((db.save x.s rows').sessions.map (·.id) ++ rest).Nodup := by
  refine ⟨Last.save _ _ _ hl.1 hl.2.1 ?_ ?_, Resume.ids_run [Op.save x.s rows'] db rest hid⟩
  · intro hm
    rw [List.nodup_append] at hid
    exact hid.2.2 _ hm _ List.mem_cons_self rfl
  · intro u hu hfu
    by_cases e : u = s
    · rw [e]; exact ht
    · have := hl.2.2.2 u hu (by rw [hfu, hf]) e
      omega

/-- After a session without tests no resumption ends with status zero. -/
theorem dead (order : List Meta → List Meta) (horder : ∀ l, (order l).Perm l) (f t0 : Nat) (xs : List Once) :
    ∀ (s : Resume.Session) (db : Db) (prev : Nat), Last db s [] → s.folder = f → s.created ≤ prev → t0 ≤ s.created → Later f t0 prev xs →
    (db.sessions.map (·.id) ++ onceIds xs).Nodup → (∀ x ∈ xs, x.Loud) →
    ∀ y ∈ resumptions order xs db, y.status ≠ 0 := by
  induction xs with
  | nil => intro _ _ _ _ _ _ _ _ _ _ y hy; cases hy
  | cons x xs ih =>
    intro s db prev hl hf hp h0 ht hids hloud y hy
    obtain ⟨ht1, ht2, ht3, ht4, ht5⟩ := ht
    have hl' : Last (db.run x.others) s [] := hl.run x.others db s _ (by rw [hf]; exact ht3) (fun c hc => Nat.le_trans (ht4 c hc) h0)
    have hload := rows_empty x _ s hl' (by rw [ht1, hf])
    have hids' := Resume.ids_run x.others db (x.s.id :: onceIds xs) hids
    unfold resumptions at hy
    rcases List.mem_cons.1 hy with rfl | hy
    · exact not_zero_of_load x (hloud x List.mem_cons_self) _ hload
    · have hsame : x.after order (db.run x.others) = db.run x.others → y.status ≠ 0 := fun e => by
        rw [e] at hy
        exact ih s _ x.s.created hl' hf (by omega) h0 ht5 (ids_tail hids') (fun z hz => hloud z (List.mem_cons_of_mem _ hz)) y hy
      by_cases hb : (x.enter.isSome || x.callback.isSome) = true
      · exact hsame (by unfold Once.after; rw [if_pos hb])
      · by_cases hs : x.save.isSome = true
        · exact hsame (by unfold Once.after Once.keep; rw [if_neg hb, if_pos hs])
        · have hc : x.collected (db.run x.others) = [] := by
            unfold Once.collected
            rw [hload]
            simp
          have ha : x.after order (db.run x.others) = (db.run x.others).save x.s [] := by
            unfold Once.after Once.keep
            rw [if_neg hb, if_neg hs, hc, results_nil, entries_nil order horder]
          rw [ha] at hy
          obtain ⟨a, b⟩ := saved_last (db.run x.others) x s [] [] hl' (by rw [ht1, hf]) (by omega) hids'
          exact ih x.s _ x.s.created a ht1 (Nat.le_refl _) (by omega) ht5 b (fun z hz => hloud z (List.mem_cons_of_mem _ hz)) y hy

/-- The test with this key has succeeded, among these results. -/
def Done (k : Key) (l : List (Meta × Result)) : Prop := ∃ p ∈ l, p.1.key = k ∧ p.2.isSuccessFinished = true

/-- **C166**, what it means that a test has succeeded in a session: the test was run there, it was started, nothing went wrong in it or in anything it
called, it was not skipped, and the hooks for its end were called and returned. -/
theorem C166_done_means (x : Once) (l : List Meta) (h : Placed l) (k : Key) (hd : Done k (x.results l)) :
    ∃ t ∈ l, t.key = k ∧ t.id ∈ (Whole.session x.session (x.tests l)).2.tests ∧
      (let r := (Whole.session x.session (x.tests l)).2.cl.results (.test t.id)
       ¬ Whole.Wrongs r ∧ r.skips = [] ∧ r.started = true) ∧
      ∃ b ∈ (Whole.session x.session (x.tests l)).2.trace, b.ev = .fin t.id ∧
        (Cleanup.runActs (x.make t.id t).endHook.acts b.cl).1 = none ∧ (x.make t.id t).endHook.out = none := by
  obtain ⟨⟨t, r⟩, hp, hk, hs⟩ := hd
  obtain ⟨ht, ho⟩ := (mem_results x l h t r).1 hp
  unfold Once.out at ho
  split at ho
  · rename_i hm
    cases ho
    refine ⟨t, ht, hk, hm, ?_, ?_⟩
    · simp only [Result.isSuccessFinished, Bool.and_eq_true] at hs
      have h1 := hs.1
      unfold Once.result at h1
      unfold Whole.Wrongs
      generalize (Whole.session x.session (x.tests l)).2.cl.results (.test t.id) = q at h1
      simp only [Result.isSuccess, Result.isStarted] at h1
      cases he : q.errors <;> cases hf : q.failures <;> cases hi : q.interrupted <;> cases hsk : q.skips <;> simp_all
    · simp only [Result.isSuccessFinished, Bool.and_eq_true, Result.isFinished] at hs
      have h1 := hs.2
      simp only [Once.result, List.any_eq_true, Bool.and_eq_true, decide_eq_true_eq] at h1
      obtain ⟨b, hb, he, hr⟩ := h1
      refine ⟨b, hb, he, ?_⟩
      obtain ⟨j, hj⟩ := List.getElem?_of_mem ht
      have : l[t.id]? = some t := by rw [h j t hj]; exact hj
      rw [this] at hr
      simp only [Option.any_some, returns] at hr
      split at hr
      · cases hr
      · rename_i hc
        rw [hc]
        exact ⟨rfl, by simpa using hr⟩
  · cases ho

theorem done_of (x : Once) (l : List Meta) (h : Placed l) (hk : (l.map Meta.key).Nodup) (t : Meta) (ht : t ∈ l)
    (hs : Resume.succeeded (x.outKey l t.key) = true) : Done t.key (x.results l) := by
  rw [← outKey_eq x l hk t ht] at hs
  cases ho : x.out l t with
  | none => rw [ho] at hs; cases hs
  | some r => rw [ho] at hs; exact ⟨(t, r), (mem_results x l h t r).2 ⟨ht, ho⟩, rfl, hs⟩

theorem resumptions_done (order : List Meta → List Meta) (horder : ∀ l, (order l).Perm l) (adr : Key → Nat) (f t0 : Nat) (xs : List Once) :
    ∀ (x0 : Once) (l0 : List Meta) (db : Db) (prev : Nat), Last db x0.s (Resume.entries order (x0.results l0) l0) → x0.s.folder = f →
    x0.s.created ≤ prev → t0 ≤ x0.s.created → Placed l0 → (l0.map Meta.key).Nodup → (∀ t ∈ l0, t.address = adr t.key) →
    (∀ k ∈ l0.map Meta.key, ∀ k' ∈ l0.map Meta.key, adr k = adr k' → k = k') → (∀ x ∈ xs, ∀ k ∈ l0.map Meta.key, Kept x.world adr k) →
    Later f t0 prev xs → (db.sessions.map (·.id) ++ onceIds xs).Nodup → (∀ x ∈ xs, x.Loud) →
    ∀ (i : Nat) (y : Seen), (resumptions order xs db)[i]? = some y → y.status = 0 → ∀ t ∈ l0,
      Done t.key (x0.results l0) ∨ (∃ (j : Nat) (z : Seen), j < i ∧ (resumptions order xs db)[j]? = some z ∧ Done t.key z.results) ∨
      ∃ p ∈ y.results, p.1.key = t.key ∧ Fine p.2 := by
  induction xs with
  | nil => intro _ _ _ _ _ _ _ _ _ _ _ _ _ _ _ _ i y hy; cases hy
  | cons x xs ih =>
    intro x0 l0 db prev hl hf hp h0 hpl hkeys hadr hinj hkept ht hids hloud i y hy hz t ht0
    obtain ⟨ht1, ht2, ht3, ht4, ht5⟩ := ht
    have hl' : Last (db.run x.others) x0.s _ := hl.run x.others db x0.s _ (by rw [hf]; exact ht3) (fun c hc => Nat.le_trans (ht4 c hc) h0)
    have hids' := Resume.ids_run x.others db (x.s.id :: onceIds xs) hids
    have hne : l0 ≠ [] := fun e => by rw [e] at ht0; cases ht0
    have hloud' : ∀ z ∈ xs, z.Loud := fun z hz => hloud z (List.mem_cons_of_mem _ hz)
    have hkept' : ∀ z ∈ xs, ∀ k ∈ l0.map Meta.key, Kept z.world adr k := fun z hz => hkept z (List.mem_cons_of_mem _ hz)
    have hL := once_load order horder adr x0 x l0 _ hl' (by rw [ht1, hf]) hpl hkeys hadr hinj (hkept x List.mem_cons_self) hne
    unfold resumptions at hy ⊢
    by_cases hs : Resume.succeeded (x0.outKey l0 t.key) = true
    · exact .inl (done_of x0 l0 hpl hkeys t ht0 hs)
    have hin : t.key ∈ (l0.map Meta.key).filter (fun k => !(Resume.succeeded (x0.outKey l0 k))) :=
      List.mem_filter.2 ⟨List.mem_map_of_mem ht0, by simpa using hs⟩
    cases i with
    | zero =>
      simp only [List.getElem?_cons_zero, Option.some.injEq] at hy
      subst hy
      obtain ⟨⟨h1, h2, h3, -, -⟩, l, hload, hn, -, hfine⟩ := (C166_zero_iff x (hloud x List.mem_cons_self) _).1 hz
      obtain ⟨hpl', hperm, -⟩ := hL l hload
      have hc : x.collected (db.run x.others) = l := by
        unfold Once.collected
        rw [h1, h2, h3, hload]
        rfl
      obtain ⟨u, hu, hku⟩ := List.mem_map.1 (hperm.symm.subset hin)
      refine .inr (.inr ?_)
      show ∃ p ∈ x.results (x.collected (db.run x.others)), _
      rw [hc]
      obtain ⟨m, -, hm, hm'⟩ := once_tests_take x l
      obtain ⟨k, hk, hget⟩ := List.getElem_of_mem hu
      have hid : u.id = k := hpl' k u (by rw [List.getElem?_eq_getElem hk, hget])
      refine ⟨(u, x.result l u.id), (mem_results x l hpl' u _).2 ⟨hu, ?_⟩, hku, ?_⟩
      · unfold Once.out
        rw [if_pos (by rw [hm, hm' hn, hid]; exact List.mem_range.2 hk)]
      · show Fine (x.result l u.id)
        rw [hid]; exact hfine k hk
    | succ i =>
      simp only [List.getElem?_cons_succ] at hy
      have hsame : x.after order (db.run x.others) = db.run x.others → _ := fun e => by
        rw [e] at hy
        exact ih x0 l0 _ x.s.created hl' hf (by omega) h0 hpl hkeys hadr hinj hkept' ht5 (ids_tail hids') hloud' i y hy hz t ht0
      by_cases hb : (x.enter.isSome || x.callback.isSome) = true
      · have e : x.after order (db.run x.others) = db.run x.others := by unfold Once.after; rw [if_pos hb]
        rcases hsame e with h | ⟨j, z, hj, hzj, hd⟩ | h
        · exact .inl h
        · exact .inr (.inl ⟨j + 1, z, by omega, by rw [List.getElem?_cons_succ, e]; exact hzj, hd⟩)
        · exact .inr (.inr h)
      · by_cases hsv : x.save.isSome = true
        · have e : x.after order (db.run x.others) = db.run x.others := by unfold Once.after Once.keep; rw [if_neg hb, if_pos hsv]
          rcases hsame e with h | ⟨j, z, hj, hzj, hd⟩ | h
          · exact .inl h
          · exact .inr (.inl ⟨j + 1, z, by omega, by rw [List.getElem?_cons_succ, e]; exact hzj, hd⟩)
          · exact .inr (.inr h)
        · have ha : x.after order (db.run x.others) =
              (db.run x.others).save x.s (Resume.entries order (x.results (x.collected (db.run x.others))) (x.collected (db.run x.others))) := by
            unfold Once.after Once.keep
            rw [if_neg hb, if_neg hsv]
          obtain ⟨a, b⟩ := saved_last (db.run x.others) x x0.s _ (Resume.entries order (x.results (x.collected (db.run x.others))) (x.collected (db.run x.others)))
            hl' (by rw [ht1, hf]) (by omega) hids'
          by_cases hc : x.collected (db.run x.others) = []
          · exfalso
            rw [ha, hc, results_nil, entries_nil order horder] at hy
            rw [hc, results_nil, entries_nil order horder] at a b
            exact dead order horder f t0 xs x.s _ x.s.created a ht1 (Nat.le_refl _) (by omega) ht5 b hloud' y (List.mem_of_getElem? hy) hz
          · have hload : ∃ l, x.load (db.run x.others) = some l ∧ x.collected (db.run x.others) = l := by
              unfold Once.collected at hc ⊢
              by_cases hq : (x.enter.isSome || x.callback.isSome || x.prepare.isSome) = true
              · rw [if_pos hq] at hc; exact absurd rfl hc
              · rw [if_neg hq] at hc ⊢
                cases hl : x.load (db.run x.others) with
                | none => rw [hl] at hc; exact absurd rfl hc
                | some l => exact ⟨l, rfl, rfl⟩
            obtain ⟨l, hload, hcl⟩ := hload
            rw [hcl] at ha a b
            obtain ⟨hpl', hperm, hadr'⟩ := hL l hload
            have hsub : ∀ k ∈ l.map Meta.key, k ∈ l0.map Meta.key := fun k hk => (List.mem_filter.1 (hperm.subset hk)).1
            obtain ⟨u, hu, hku⟩ := List.mem_map.1 (hperm.symm.subset hin)
            rw [ha] at hy
            have := ih x l _ x.s.created a ht1 (Nat.le_refl _) (by omega) hpl' (hperm.nodup_iff.2 (hkeys.filter _)) hadr'
              (fun k hk k' hk' => hinj k (hsub k hk) k' (hsub k' hk')) (fun z hz k hk => hkept' z hz k (hsub k hk)) ht5 b hloud' i y hy hz u hu
            rw [hku] at this
            rcases this with h | ⟨j, z, hj, hzj, hd⟩ | h
            · refine .inr (.inl ⟨0, _, by omega, rfl, ?_⟩)
              show Done t.key (x.results (x.collected (db.run x.others)))
              rw [hcl]; exact h
            · exact .inr (.inl ⟨j + 1, z, by omega, by rw [List.getElem?_cons_succ, ha]; exact hzj, hd⟩)
            · exact .inr (.inr h)

/-- **C166**, the part that holds (the tests of the first session can be told from each other; the files either cannot be loaded or have the tests in
them; none of them has a `repeat` marker): a session, then any number of resumptions in the same directory, whatever is raised in them, and whatever
other sessions are made elsewhere in between. If one of the resumptions ends with status zero, then each test of the first session has succeeded in one
of the sessions before it, or it is run in this one and nothing goes wrong in it (it may be skipped). -/
theorem C166_all_done_partial (order : List Meta → List Meta) (horder : ∀ l, (order l).Perm l) (adr : Key → Nat) (first : Once) (xs : List Once)
    (tests : List Meta) (before : List Op) (hsave : first.save = none) (hplaced : Placed tests) (hkeys : (tests.map Meta.key).Nodup)
    (hadr : ∀ t ∈ tests, t.address = adr t.key) (hinj : ∀ t ∈ tests, ∀ u ∈ tests, adr t.key = adr u.key → t.key = u.key)
    (hkept : ∀ x ∈ xs, ∀ t ∈ tests, Kept x.world adr t.key)
    (hbefore : ∀ u ∈ (({} : Db).run before).sessions, u.folder = first.s.folder → u.created < first.s.created)
    (hlater : Later first.s.folder first.s.created first.s.created xs)
    (hids : ((({} : Db).run before).sessions.map (·.id) ++ first.s.id :: onceIds xs).Nodup) (hloud : ∀ x ∈ xs, x.Loud)
    (i : Nat) (y : Seen) (hy : (resumptions order xs (first.keep order tests (({} : Db).run before)))[i]? = some y) (hz : y.status = 0)
    (t : Meta) (ht : t ∈ tests) :
    Done t.key (first.results tests) ∨
      (∃ (j : Nat) (z : Seen), j < i ∧ (resumptions order xs (first.keep order tests (({} : Db).run before)))[j]? = some z ∧ Done t.key z.results) ∨
      ∃ p ∈ y.results, p.1.key = t.key ∧ Fine p.2 := by
  obtain ⟨hw, hk⟩ := Db.run_inv {} before (fun _ h => by cases h) (by simp [Db.Keys])
  have hkeep : first.keep order tests (({} : Db).run before) = (({} : Db).run before).save first.s (Resume.entries order (first.results tests) tests) := by
    unfold Once.keep
    rw [hsave]
    rfl
  rw [hkeep] at hy ⊢
  refine resumptions_done order horder adr first.s.folder first.s.created xs first tests _ first.s.created ?_ rfl (Nat.le_refl _) (Nat.le_refl _) hplaced hkeys
    hadr ?_ ?_ hlater ?_ hloud i y hy hz t ht
  · refine Last.save _ _ _ hw hk ?_ hbefore
    intro hm
    rw [List.nodup_append] at hids
    exact hids.2.2 _ hm _ List.mem_cons_self rfl
  · intro k hk' k' hk'' e
    obtain ⟨t, ht, rfl⟩ := List.mem_map.1 hk'
    obtain ⟨u, hu, rfl⟩ := List.mem_map.1 hk''
    exact hinj t ht u hu e
  · intro x hx k hk'
    obtain ⟨t, ht, rfl⟩ := List.mem_map.1 hk'
    exact hkept x hx t ht
  · exact Resume.ids_run [Op.save first.s (Resume.entries order (first.results tests) tests)] (({} : Db).run before) (onceIds xs) hids

/-- Tests of which those with these keys fail. -/
def demoMake (bad : List Key) (_ : Nat) (m : Meta) : Whole.T := { id := 0, body := { out := if m.key ∈ bad then some .failure else none } }

/-- The resumptions of the example: a test fails again in the first one, and entering the application fails in the second. -/
def demoAgain : List Once :=
  [{ s := ⟨11, 1, 20⟩, world := Resume.demoWorld, make := demoMake [(1, 2, some 1)] },
   { s := ⟨12, 1, 30⟩, world := Resume.demoWorld, enter := some .exception },
   { s := ⟨13, 1, 40⟩, world := Resume.demoWorld, others := [.save ⟨50, 2, 25⟩ []] },
   { s := ⟨14, 1, 50⟩, world := Resume.demoWorld }]

/-- The first session of the example: the last two tests fail. -/
def demoFirst : Once := { s := ⟨10, 1, 10⟩, world := Resume.demoWorld, make := demoMake [(1, 2, some 1), (1, 2, some 2)] }

/-- What is run in the resumptions, and their statuses. -/
def shown (xs : List Once) (db : Db) : List (List Key × Int) := (resumptions id xs db).map (fun y => (y.results.map (fun p => p.1.key), y.status))

example : shown demoAgain (demoFirst.keep id Resume.demoTests {}) =
    [([(1, 2, some 1), (1, 2, some 2)], 1), ([], 1), ([(1, 2, some 1)], 0), ([], 0)] := by decide +kernel

/-- a hook for the end of the second test raises: the test has not succeeded -/
example : (({ s := ⟨10, 1, 10⟩, world := Resume.demoWorld, make := fun k _ => { id := 0, endHook := { out := if k = 1 then some .error else none } } } : Once).results
    Resume.demoTests).map (fun p => p.2.isSuccessFinished) = [true, false, true] := by decide +kernel

theorem once_loud_default (s : Resume.Session) (o : List Op) (w : World) (m : Nat → Meta → Whole.T) (e : Whole.Env) :
    Once.Loud { s := s, others := o, world := w, make := m, session := e } :=
  ⟨(by rintro ⟨c, hc, h⟩; cases hc; exact absurd h (by decide)), nofun, nofun, nofun, nofun, nofun⟩

theorem demo_loud : ∀ x ∈ demoAgain, x.Loud := by
  intro x hx
  simp only [demoAgain, List.mem_cons, List.not_mem_nil, or_false] at hx
  rcases hx with rfl | rfl | rfl | rfl
  · exact once_loud_default _ _ _ _ _
  · refine ⟨(by rintro ⟨c, hc, h⟩; cases hc; exact absurd h (by decide)), ?_, nofun, nofun, nofun, nofun⟩
    intro e he
    cases he
    rintro ⟨c, hc, -⟩; cases hc
  · exact once_loud_default _ _ _ _ _
  · exact once_loud_default _ _ _ _ _

example (i : Nat) (y : Seen) (hy : (resumptions id demoAgain (demoFirst.keep id Resume.demoTests {}))[i]? = some y) (hz : y.status = 0)
    (t : Meta) (ht : t ∈ Resume.demoTests) :
    Done t.key (demoFirst.results Resume.demoTests) ∨
      (∃ (j : Nat) (z : Seen), j < i ∧ (resumptions id demoAgain (demoFirst.keep id Resume.demoTests {}))[j]? = some z ∧ Done t.key z.results) ∨
      ∃ p ∈ y.results, p.1.key = t.key ∧ Fine p.2 :=
  C166_all_done_partial id (fun _ => List.Perm.refl _) Resume.demoAdr demoFirst demoAgain Resume.demoTests [] rfl
    (by
      intro i t h
      match i, h with
      | 0, h => cases h; rfl
      | 1, h => cases h; rfl
      | 2, h => cases h; rfl)
    (by decide) (by decide) (by decide)
    (by
      intro x hx t ht
      have hw : x.world = Resume.demoWorld := by
        simp only [demoAgain, List.mem_cons, List.not_mem_nil, or_false] at hx
        rcases hx with rfl | rfl | rfl | rfl <;> rfl
      rw [hw]
      exact .inr (Resume.demo_found t ht))
    (by intro u hu; cases hu)
    (by
      refine ⟨rfl, by decide, (by intro u r h; cases h), (by intro c h; cases h), rfl, by decide, (by intro u r h; cases h), (by intro c h; cases h),
        rfl, by decide, ?_, ?_, rfl, by decide, (by intro u r h; cases h), (by intro c h; cases h), trivial⟩
      · intro u r h
        simp only [List.mem_cons, Op.save.injEq, List.not_mem_nil, or_false] at h
        rw [h.1]; decide
      · intro c h
        simp only [List.mem_cons, reduceCtorEq, List.not_mem_nil, or_false] at h)
    (by decide) demo_loud i y hy hz t ht

/-- A resumption that could not load the tests is the last of which anything is known: nothing is resumed after it, and the statuses say so. -/
example : shown [{ s := ⟨11, 1, 20⟩, world := { tests := fun _ => none } }, { s := ⟨12, 1, 30⟩, world := Resume.demoWorld }]
    (demoFirst.keep id Resume.demoTests {}) = [([], 1), ([], 1)] := by decide +kernel

/-- Two tests of one function, with parameters that are written alike. -/
def twins : List Meta := [⟨0, 1, 1, true, 1, 7⟩, ⟨1, 1, 1, true, 2, 7⟩]

/-- **C166 is violated** for tests which differ only in parameters that are written alike: if neither of them was begun in the first session (here a hook
at its start raises), only one of them is stored. `slash resume` runs it and ends with status zero, although the other one was never run. -/
theorem C166_all_done_violated :
    (twins.map Meta.key).Nodup ∧
    (let first : Once := { s := ⟨10, 1, 10⟩, world := { tests := fun _ => some twins }, session := { sessionStart := { out := some .error } } }
     (first.results twins).map (fun p => p.1.key) = [] ∧
     shown [{ s := ⟨11, 1, 20⟩, world := { tests := fun _ => some twins } }] (first.keep id twins {}) = [([(1, 1, some 1)], 0)]) := by
  decide +kernel

end Slash.RunAll
