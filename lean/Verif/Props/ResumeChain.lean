import Verif.Model.ResumeChain
import Verif.Props.Resume
import Verif.Lemmas.Util
/-!
# C162: resuming again and again
-/
namespace Slash.Resume

/-- What a test is found by: its file, its address in it and its parameters. -/
abbrev Key := Nat × Nat × Option Nat

/-- The test is in its file, and no other test there has its address and its parameters; it has no `repeat` marker. -/
def Found (w : World) (adr : Key → Nat) (k : Key) : Prop :=
  ∃ l u, w.tests k.1 = some l ∧ l.Nodup ∧ u ∈ l ∧ u.key = k ∧ u.address = adr k ∧ w.rep u = 1 ∧ (u.hasVar = true → u.var ≠ 0) ∧
    ∀ t ∈ l, t.addr = u.addr → (u.hasVar = true → t.var = u.var) → t = u

/-- The result is one of a test that finished successfully. -/
def succeeded : Option Result → Bool
  | some r => r.isSuccessFinished
  | none => false

/-- The tests that did not succeed in any of the first `n` sessions; `o j k`: the result of the test `k` in session `j`. -/
def left (o : Nat → Key → Option Result) (keys : List Key) (n : Nat) : List Key :=
  keys.filter (fun k => (List.range n).all (fun j => !(succeeded (o j k))))

/-- The resumptions are made in the same directory, each later than the session before; in between other sessions are made elsewhere, and nothing
as new as the session before is removed. -/
def Timely (f : Nat) : Session → List Step → Prop
  | _, [] => True
  | prev, x :: xs =>
    x.run.s.folder = f ∧ prev.created < x.run.s.created ∧ (∀ u r, Op.save u r ∈ x.others → u.folder ≠ f) ∧
      (∀ c, Op.clean c ∈ x.others → c ≤ prev.created) ∧ Timely f x.run.s xs

/-- The ids of the sessions made. -/
def ids : List Step → List Nat
  | [] => []
  | x :: xs => x.others.filterMap (fun o => match o with | .save u _ => some u.id | .clean _ => none) ++ x.run.s.id :: ids xs

/-! ## The store -/

/-- The session is the last one of its directory. -/
def Last (db : Db) (s : Session) (rows : List Row) : Prop :=
  db.Wf ∧ db.Keys ∧ db.Has s rows ∧ ∀ u ∈ db.sessions, u.folder = s.folder → u ≠ s → u.created < s.created

theorem Last.last (db : Db) (s : Session) (rows : List Row) (h : Last db s rows) : db.last s.folder = some s.id := by
  obtain ⟨-, -, hh, hl⟩ := h
  obtain ⟨h1, h2⟩ := C36_last db s.folder
  cases hd : db.last s.folder with
  | none => exact absurd rfl (h1.1 hd s hh.1)
  | some id =>
    obtain ⟨u, hu, rfl, hf, hm⟩ := h2 id hd
    by_cases e : u = s
    · rw [e]
    · exact absurd (hm s hh.1 rfl) (by have := hl u hu hf e; omega)

theorem Last.step (db : Db) (s : Session) (rows : List Row) (o : Op) (h : Last db s rows) (h1 : ∀ u r, o = .save u r → u.folder ≠ s.folder)
    (h2 : ∀ c, o = .clean c → c ≤ s.created) : Last (db.step o) s rows := by
  obtain ⟨hw, hk, hh, hl⟩ := h
  obtain ⟨a, b⟩ := db.step_inv o hw hk
  refine ⟨a, b, Has.step db s rows o hh hk h2, fun u hu hf hne => ?_⟩
  cases o with
  | save s' r =>
    simp only [Db.step, Db.save] at hu
    split at hu
    · exact hl u hu hf hne
    · rcases List.mem_append.1 hu with hu | hu
      · exact hl u hu hf hne
      · obtain rfl := List.mem_singleton.1 hu
        exact absurd hf (h1 _ _ rfl)
  | clean c =>
    exact hl u (List.mem_filter.1 hu).1 hf hne

theorem Last.run (ops : List Op) (db : Db) (s : Session) (rows : List Row) (h : Last db s rows)
    (h1 : ∀ u r, Op.save u r ∈ ops → u.folder ≠ s.folder) (h2 : ∀ c, Op.clean c ∈ ops → c ≤ s.created) : Last (db.run ops) s rows := by
  induction ops generalizing db with
  | nil => exact h
  | cons o ops ih =>
    refine ih _ (h.step db s rows o (fun u r e => h1 u r (e ▸ List.mem_cons_self)) (fun c e => h2 c (e ▸ List.mem_cons_self)))
      (fun u r hm => h1 u r (List.mem_cons_of_mem _ hm)) (fun c hm => h2 c (List.mem_cons_of_mem _ hm))

/-- a new session is the last one -/
theorem Last.save (db : Db) (s : Session) (rows : List Row) (hw : db.Wf) (hk : db.Keys) (hid : s.id ∉ db.sessions.map (·.id))
    (ht : ∀ u ∈ db.sessions, u.folder = s.folder → u.created < s.created) : Last (db.save s rows) s rows := by
  obtain ⟨a, b⟩ := db.step_inv (.save s rows) hw hk
  have hany : ¬ db.sessions.any (·.id == s.id) = true := by
    intro h
    obtain ⟨u, hu, e⟩ := List.any_eq_true.1 h
    exact hid (List.mem_map.2 ⟨u, hu, by simpa using e⟩)
  have hs : db.save s rows = ⟨db.sessions ++ [s], db.rows ++ rows.map (fun r => (s.id, r))⟩ := by
    unfold Db.save; rw [if_neg hany]
  refine ⟨a, b, ?_, ?_⟩
  · rw [hs]
    refine ⟨by simp, ?_⟩
    have h1 : db.rows.filter (·.1 == s.id) = [] := by
      rw [List.filter_eq_nil_iff]
      intro x hx he
      obtain ⟨u, hu, e⟩ := hw x hx
      exact hid (List.mem_map.2 ⟨u, hu, by rw [e]; simpa using he⟩)
    have h2 : (rows.map (fun r => (s.id, r))).filter (·.1 == s.id) = rows.map (fun r => (s.id, r)) := by
      rw [List.filter_eq_self]
      intro x hx
      obtain ⟨r, -, rfl⟩ := List.mem_map.1 hx
      simp
    simp only [List.filter_append, h1, h2, List.nil_append, List.map_map]
    exact List.map_id _
  · rw [hs]
    intro u hu hf hne
    rcases List.mem_append.1 hu with hu | hu
    · exact ht u hu hf
    · exact absurd (List.mem_singleton.1 hu) hne

/-- the ids that are in the store, and those still to come -/
theorem ids_run (ops : List Op) (db : Db) (rest : List Nat)
    (h : (db.sessions.map (·.id) ++ (ops.filterMap (fun o => match o with | .save u _ => some u.id | .clean _ => none) ++ rest)).Nodup) :
    ((db.run ops).sessions.map (·.id) ++ rest).Nodup := by
  induction ops generalizing db with
  | nil => exact h
  | cons o ops ih =>
    refine ih (db.step o) ?_
    cases o with
    | save u r =>
      simp only [List.filterMap_cons, Db.step, Db.save] at h ⊢
      split
      · exact h.sublist (List.Sublist.append (List.Sublist.refl _) (List.sublist_cons_self _ _))
      · simpa using h
    | clean c =>
      simp only [List.filterMap_cons] at h
      exact h.sublist (List.Sublist.append (List.filter_sublist.map _) (List.Sublist.refl _))

/-! ## What is saved -/

theorem foldl_addMeta_nodup (l s : List Meta) (h : ((s ++ l).map (·.address)).Nodup) : l.foldl addMeta s = s ++ l := by
  induction l generalizing s with
  | nil => simp
  | cons x l ih =>
    have hx : addMeta s x = s ++ [x] := by
      unfold addMeta
      rw [if_neg]
      intro hc
      obtain ⟨u, hu, e⟩ := List.any_eq_true.1 hc
      rw [List.map_append, List.nodup_append] at h
      exact h.2.2 _ (List.mem_map_of_mem hu) _ (List.mem_map_of_mem List.mem_cons_self) (by simpa using e)
    rw [List.foldl_cons, hx, ih _ (by simpa using h)]
    simp

/-- what is in the store about the tests that did not succeed -/
theorem saved_keys (order : List Meta → List Meta) (horder : ∀ l, (order l).Perm l) (r : Run) (o : Key → Option Result) (tests : List Meta)
    (ho : ∀ t ∈ tests, r.out t = o t.key) (hid : (tests.map (·.id)).Nodup) (ha : (tests.map (·.address)).Nodup) :
    ((offered {} false (entries order (r.results tests) tests)).map Row.key).Perm
      ((tests.map Meta.key).filter (fun k => !(succeeded (o k)))) := by
  have hwo : withoutResults (r.results tests) tests = tests.filter (fun t => (r.out t).isNone) := by
    unfold withoutResults
    have hf : tests.filter (fun t => !((r.results tests).any (·.1.id == t.id))) = tests.filter (fun t => (r.out t).isNone) := by
      apply List.filter_congr
      intro t ht
      cases hr : r.out t with
      | none =>
        have : (r.results tests).any (·.1.id == t.id) = false := by
          rw [Bool.eq_false_iff]
          intro hc
          obtain ⟨x, hx, e⟩ := List.any_eq_true.1 hc
          obtain ⟨u, hu, hx⟩ := List.mem_filterMap.1 hx
          cases hu' : r.out u with
          | none => rw [hu'] at hx; cases hx
          | some y =>
            rw [hu'] at hx
            simp only [Option.map_some, Option.some.injEq] at hx
            have : u = t := inj_on_of_nodup_map hid hu ht (by rw [← hx] at e; simpa using e)
            rw [this, hr] at hu'
            cases hu'
        rw [this]; rfl
      | some y =>
        have : (r.results tests).any (·.1.id == t.id) = true :=
          List.any_eq_true.2 ⟨(t, y), List.mem_filterMap.2 ⟨t, ht, by rw [hr]; rfl⟩, by simp⟩
        rw [this]; rfl
    rw [hf, foldl_addMeta_nodup _ [] (by
      rw [List.nil_append]
      exact ha.sublist (List.filter_sublist.map _))]
    rfl
  have hoff : ∀ rows : List Row, offered {} false rows = rows.filter (fun t => t.status != .success) := by
    intro rows
    unfold offered
    simp only
    have h1 : ∀ l : List Row, l.filter (first {}) = [] := by
      intro l; rw [List.filter_eq_nil_iff]; intro t _; simp [first]
    have h2 : ∀ l : List Row, l.filter (fun t => !(first {} t)) = l := by
      intro l; rw [List.filter_eq_self]; intro t _; simp [first]
    rw [h1, h2, List.nil_append]
    apply List.filter_congr
    intro t _
    cases t.status <;> rfl
  rw [hoff]
  unfold entries
  rw [hwo, List.filter_append, List.map_append]
  have hp2 : (((order (tests.filter (fun t => (r.out t).isNone))).map (fun m => rowOf m .planned)).filter
      (fun t => t.status != .success)).map Row.key = (order (tests.filter (fun t => (r.out t).isNone))).map Meta.key := by
    rw [List.filter_eq_self.2 (by
      intro x hx
      obtain ⟨m, -, rfl⟩ := List.mem_map.1 hx
      rfl), List.map_map]
    rfl
  rw [hp2]
  refine (List.Perm.append_left _ ((horder _).map Meta.key)).trans ?_
  clear hwo hoff hp2 hid ha
  unfold Run.results
  induction tests with
  | nil => exact List.Perm.refl _
  | cons t tests ih =>
    have ih := ih (fun u hu => ho u (List.mem_cons_of_mem _ hu))
    have ht := ho t List.mem_cons_self
    rw [List.filterMap_cons, List.filter_cons, List.map_cons, List.filter_cons, ← ht]
    cases hr : r.out t with
    | none =>
      have hs : succeeded none = false := rfl
      simp only [Option.map_none, Option.isNone_none, if_true, List.map_cons, hs, Bool.not_false]
      exact List.perm_middle.trans (ih.cons _)
    | some y =>
      simp only [Option.map_some, Option.isNone_some, Bool.false_eq_true, if_false, List.map_cons, List.filter_cons]
      have hst : ((rowOf t (statusOf y)).status != .success) = !y.isSuccessFinished := by
        show (statusOf y != .success) = _
        have := success_iff y
        cases hy : y.isSuccessFinished with
        | true => rw [this.2 hy]; rfl
        | false =>
          have hne : statusOf y ≠ .success := fun e => by rw [this.1 e] at hy; cases hy
          simpa using hne
      have hs : succeeded (some y) = y.isSuccessFinished := rfl
      rw [hst, hs]
      cases y.isSuccessFinished with
      | true => simpa using ih
      | false => simpa using ih

/-! ## What is loaded -/

theorem iterResume_found (w : World) (adr : Key → Nat) (r : Row) (h : Found w adr r.key) :
    ∃ u, iterResume (fun f => (w.tests f).getD []) (fun _ => false) r = [u] ∧ u.key = r.key ∧ u.address = adr r.key ∧ w.rep u = 1 := by
  obtain ⟨l, u, hl, hnd, hu, hk, ha, hrep, hv, huniq⟩ := h
  refine ⟨u, ?_, hk, ha, hrep⟩
  unfold iterResume
  have hfile : w.tests r.file = some l := hl
  have hgd : (fun f => (w.tests f).getD []) r.file = l := by
    show (w.tests r.file).getD [] = l
    rw [hfile, Option.getD_some]
  rw [hgd]
  have hka : u.addr = r.addr := congrArg (fun k => k.2.1) hk
  have hkv : (if u.hasVar then some u.var else none) = r.var := congrArg (fun k => k.2.2) hk
  have hpred : ∀ t ∈ l, (!false && (r.addr == t.addr) && varMatches r.var t.var) = (t == u) := by
    intro t ht
    rw [← hka, ← hkv]
    cases hh : u.hasVar with
    | false =>
      by_cases e : t.addr = u.addr
      · have := huniq t ht e (fun h => by rw [hh] at h; cases h)
        subst this
        simp [varMatches]
      · have hne : t ≠ u := fun h => e (by rw [h])
        have h1 : (u.addr == t.addr) = false := by
          rw [beq_eq_false_iff_ne]
          exact fun h => e h.symm
        have h2 : (t == u) = false := by simpa using hne
        rw [h1, h2]
        rfl
    | true =>
      have h0 := hv hh
      have hvm : varMatches (some u.var) t.var = (u.var == t.var) := by
        cases hc : u.var with
        | zero => exact absurd hc h0
        | succ n => rfl
      rw [if_pos rfl, hvm]
      by_cases e : t.addr = u.addr ∧ t.var = u.var
      · have := huniq t ht e.1 (fun _ => e.2)
        subst this
        simp
      · have hne : t ≠ u := fun h => e (by rw [h]; exact ⟨rfl, rfl⟩)
        have h1 : ¬ (u.addr = t.addr ∧ u.var = t.var) := fun h => e ⟨h.1.symm, h.2.symm⟩
        have h2 : (t == u) = false := by simpa using hne
        rw [h2, Bool.eq_false_iff]
        intro hc
        simp only [Bool.not_false, Bool.true_and, Bool.and_eq_true, beq_iff_eq] at hc
        exact h1 hc
  rw [List.filter_congr hpred]
  clear hpred huniq hl hgd hfile hk hka hkv
  induction l with
  | nil => cases hu
  | cons x l ih =>
    rw [List.filter_cons]
    rw [List.nodup_cons] at hnd
    by_cases e : x = u
    · subst e
      rw [if_pos (by simp)]
      rw [List.filter_eq_nil_iff.2]
      intro y hy he
      have : y = x := by simpa using he
      exact hnd.1 (this ▸ hy)
    · rw [if_neg (by simpa using e)]
      rcases List.mem_cons.1 hu with h | h
      · exact absurd h.symm e
      · exact ih hnd.2 h

theorem loadRows_found (w : World) (adr : Key → Nat) (rows : List Row) (h : ∀ r ∈ rows, Found w adr r.key) :
    ∃ l, loadRows w rows = some l ∧ l.map Meta.key = rows.map Row.key ∧ ∀ t ∈ l, t.address = adr t.key := by
  induction rows with
  | nil => exact ⟨[], rfl, rfl, fun _ h => by cases h⟩
  | cons r rows ih =>
    obtain ⟨l, h1, h2, h3⟩ := ih (fun r hr => h r (List.mem_cons_of_mem _ hr))
    obtain ⟨u, hu, hk, ha, hrep⟩ := iterResume_found w adr r (h r List.mem_cons_self)
    obtain ⟨l', _, hl', -⟩ := h r List.mem_cons_self
    have hl' : w.tests r.file = some l' := hl'
    refine ⟨u :: l, ?_, ?_, ?_⟩
    · unfold loadRows
      rw [hl', h1, hu]
      simp [hrep]
    · rw [List.map_cons, List.map_cons, hk, h2]
    · intro t ht
      rcases List.mem_cons.1 ht with rfl | ht
      · rw [ha, hk]
      · exact h3 t ht

theorem numbered_keys (l : List Meta) : (numbered l).map Meta.key = l.map Meta.key := by
  unfold numbered
  rw [List.map_map]
  have : (Meta.key ∘ fun x : Meta × Nat => { x.1 with id := x.2 }) = Meta.key ∘ Prod.fst := rfl
  rw [this, ← List.map_map, List.zipIdx_map_fst]

theorem numbered_ids (l : List Meta) : ((numbered l).map (·.id)).Nodup := by
  unfold numbered
  rw [List.map_map]
  have : ((fun m : Meta => m.id) ∘ fun x : Meta × Nat => { x.1 with id := x.2 }) = Prod.snd := rfl
  rw [this, List.zipIdx_map_snd]
  exact List.nodup_range'

theorem numbered_address (adr : Key → Nat) (l : List Meta) (h : ∀ t ∈ l, t.address = adr t.key) : ∀ t ∈ numbered l, t.address = adr t.key := by
  intro t ht
  unfold numbered at ht
  obtain ⟨x, hx, rfl⟩ := List.mem_map.1 ht
  have : x.1 ∈ l := by
    have := List.mem_map_of_mem (f := Prod.fst) hx
    rwa [List.zipIdx_map_fst] at this
  exact h x.1 this

theorem address_nodup (adr : Key → Nat) (l : List Meta) (h : ∀ t ∈ l, t.address = adr t.key) (hk : (l.map Meta.key).Nodup)
    (hinj : ∀ k ∈ l.map Meta.key, ∀ k' ∈ l.map Meta.key, adr k = adr k' → k = k') : (l.map (·.address)).Nodup := by
  have : l.map (·.address) = (l.map Meta.key).map adr := by
    rw [List.map_map]
    exact List.map_congr_left h
  rw [this]
  clear this h
  generalize l.map Meta.key = ks at *
  induction ks with
  | nil => exact List.nodup_nil
  | cons k ks ih =>
    rw [List.nodup_cons] at hk
    rw [List.map_cons, List.nodup_cons]
    refine ⟨fun hm => ?_, ih hk.2 (fun a ha b hb => hinj a (List.mem_cons_of_mem _ ha) b (List.mem_cons_of_mem _ hb))⟩
    obtain ⟨b, hb, e⟩ := List.mem_map.1 hm
    have := hinj b (List.mem_cons_of_mem _ hb) k List.mem_cons_self e
    exact hk.1 (this ▸ hb)

/-! ## C162 -/

theorem left_zero (o : Nat → Key → Option Result) (keys : List Key) : left o keys 0 = keys := by
  unfold left
  rw [List.filter_eq_self]
  intro k _
  rfl

theorem left_succ (o : Nat → Key → Option Result) (keys : List Key) (i : Nat) :
    left (fun j => o (j + 1)) (keys.filter (fun k => !(succeeded (o 0 k)))) i = left o keys (i + 1) := by
  unfold left
  rw [List.filter_filter]
  apply List.filter_congr
  intro k _
  rw [List.range_succ_eq_map, List.all_cons, List.all_map, Bool.and_comm]
  rfl

theorem left_mono (o : Nat → Key → Option Result) (keys : List Key) (i : Nat) (h : left o keys i ≠ []) : keys ≠ [] := by
  intro e
  rw [e] at h
  exact h rfl

/-- what a resumption reads -/
theorem resume_rows (order : List Meta → List Meta) (horder : ∀ l, (order l).Perm l) (adr : Key → Nat) (r : Run)
    (o : Key → Option Result) (tests : List Meta) (db : Db) (hl : Last db r.s (entries order (r.results tests) tests))
    (ho : ∀ t ∈ tests, r.out t = o t.key) (hid : (tests.map (·.id)).Nodup)
    (hkeys : (tests.map Meta.key).Nodup) (hadr : ∀ t ∈ tests, t.address = adr t.key)
    (hinj : ∀ k ∈ tests.map Meta.key, ∀ k' ∈ tests.map Meta.key, adr k = adr k' → k = k') (hne : tests ≠ []) :
    ∃ rows, db.previous (fun _ _ => none) {} false r.s.id = some rows ∧
      (rows.map Row.key).Perm ((tests.map Meta.key).filter (fun k => !(succeeded (o k)))) := by
  have ha := address_nodup adr tests hadr hkeys hinj
  have hp := saved_keys order horder r o tests ho hid ha
  have hrows : entries order (r.results tests) tests ≠ [] := by
    intro e
    obtain ⟨t, ts, rfl⟩ := List.exists_cons_of_ne_nil hne
    unfold entries at e
    rw [List.append_eq_nil_iff] at e
    cases hr : r.out t with
    | some y =>
      have := e.1
      rw [List.map_eq_nil_iff] at this
      unfold Run.results at this
      rw [List.filterMap_cons, hr] at this
      cases this
    | none =>
      have h2 := e.2
      rw [List.map_eq_nil_iff] at h2
      have h3 : withoutResults (r.results (t :: ts)) (t :: ts) = [] := by
        have := horder (withoutResults (r.results (t :: ts)) (t :: ts))
        rw [h2] at this
        exact this.symm.eq_nil
      obtain ⟨-, h4⟩ := mem_withoutResults (r.results (t :: ts)) (t :: ts)
      obtain ⟨m, hm, -⟩ := h4 t List.mem_cons_self (fun x hx e => by
        obtain ⟨u, hu, hx⟩ := List.mem_filterMap.1 hx
        cases hu' : r.out u with
        | none => rw [hu'] at hx; cases hx
        | some y =>
          rw [hu'] at hx
          simp only [Option.map_some, Option.some.injEq] at hx
          have : u = t := inj_on_of_nodup_map hid hu List.mem_cons_self (by rw [← hx] at e; exact e)
          rw [this, hr] at hu'
          cases hu')
      rw [h3] at hm
      cases hm
  have hprev : db.previous (fun _ _ => none) {} false r.s.id = some (offered {} false (entries order (r.results tests) tests)) := by
    unfold Db.previous
    simp only
    rw [Has.read db r.s _ hl.2.2.1, if_neg (by simpa using hrows)]
    exact filter_sort {} false _
  exact ⟨_, hprev, hp⟩

/-- one resumption -/
theorem resume_once (w : World) (order : List Meta → List Meta) (horder : ∀ l, (order l).Perm l) (adr : Key → Nat) (r r' : Run)
    (o : Key → Option Result) (tests : List Meta) (db : Db) (hl : Last db r.s (entries order (r.results tests) tests))
    (hf : r'.s.folder = r.s.folder) (ho : ∀ t ∈ tests, r.out t = o t.key) (hid : (tests.map (·.id)).Nodup)
    (hkeys : (tests.map Meta.key).Nodup) (hadr : ∀ t ∈ tests, t.address = adr t.key)
    (hinj : ∀ k ∈ tests.map Meta.key, ∀ k' ∈ tests.map Meta.key, adr k = adr k' → k = k')
    (hfound : ∀ k ∈ tests.map Meta.key, Found w adr k) (hne : tests ≠ []) :
    ∃ l, resumeLast w order r' db = (some l, finish order r' l db) ∧
      (l.map Meta.key).Perm ((tests.map Meta.key).filter (fun k => !(succeeded (o k)))) ∧ (l.map (·.id)).Nodup ∧
      ∀ t ∈ l, t.address = adr t.key := by
  obtain ⟨rows, hprev, hp⟩ := resume_rows order horder adr r o tests db hl ho hid hkeys hadr hinj hne
  obtain ⟨l, h1, h2, h3⟩ := loadRows_found w adr rows (fun x hx => by
    have : x.key ∈ (tests.map Meta.key).filter (fun k => !(succeeded (o k))) := hp.subset (List.mem_map_of_mem hx)
    exact hfound _ (List.mem_filter.1 this).1)
  refine ⟨numbered l, ?_, ?_, numbered_ids l, numbered_address adr l h3⟩
  · unfold resumeLast
    rw [hf, hl.last]
    simp only
    rw [hprev]
    simp only
    rw [h1]
  · rw [numbered_keys, h2]
    exact hp

theorem chain_left (w : World) (order : List Meta → List Meta) (horder : ∀ l, (order l).Perm l) (adr : Key → Nat) (f : Nat)
    (xs : List Step) : ∀ (r : Run) (o : Nat → Key → Option Result) (tests : List Meta) (db : Db),
    Last db r.s (entries order (r.results tests) tests) → r.s.folder = f → (∀ t ∈ tests, r.out t = o 0 t.key) →
    (tests.map (·.id)).Nodup → (tests.map Meta.key).Nodup → (∀ t ∈ tests, t.address = adr t.key) →
    (∀ k ∈ tests.map Meta.key, ∀ k' ∈ tests.map Meta.key, adr k = adr k' → k = k') → (∀ k ∈ tests.map Meta.key, Found w adr k) →
    Timely f r.s xs → (db.sessions.map (·.id) ++ ids xs).Nodup → (∀ i x, xs[i]? = some x → ∀ t, x.run.out t = o (i + 1) t.key) →
    ∀ i, i < xs.length → left o (tests.map Meta.key) i ≠ [] →
      ∃ l, (chain w order xs db)[i]? = some (some l) ∧ (l.map Meta.key).Perm (left o (tests.map Meta.key) (i + 1)) := by
  induction xs with
  | nil => intro _ _ _ _ _ _ _ _ _ _ _ _ _ _ _ i hi; exact absurd hi (Nat.not_lt_zero i)
  | cons x xs ih =>
    intro r o tests db hl hf ho hid hkeys hadr hinj hfound ht hids hxo i hi hne
    obtain ⟨ht1, ht2, ht3, ht4, ht5⟩ := ht
    have hl' : Last (db.run x.others) r.s _ := hl.run x.others db r.s _ (by rw [hf]; exact ht3) ht4
    have htne : tests ≠ [] := fun e => left_mono o _ i hne (by rw [e]; rfl)
    obtain ⟨l, h1, h2, h3, h4⟩ := resume_once w order horder adr r x.run (o 0) tests _ hl' (by rw [ht1, hf]) ho hid hkeys hadr hinj hfound htne
    have hch : chain w order (x :: xs) db = some l :: chain w order xs (finish order x.run l (db.run x.others)) := by
      show (resumeLast w order x.run (db.run x.others)).1 :: chain w order xs (resumeLast w order x.run (db.run x.others)).2 = _
      rw [h1]
    rw [hch]
    cases i with
    | zero =>
      refine ⟨l, rfl, ?_⟩
      rw [← left_succ o (tests.map Meta.key) 0, left_zero]
      exact h2
    | succ i =>
      have hids' := ids_run x.others db (x.run.s.id :: ids xs) hids
      have hsub : ∀ k, k ∈ l.map Meta.key → k ∈ tests.map Meta.key := fun k hk => (List.mem_filter.1 (h2.subset hk)).1
      have hlast : Last (finish order x.run l (db.run x.others)) x.run.s (entries order (x.run.results l) l) := by
        refine Last.save _ _ _ hl'.1 hl'.2.1 ?_ ?_
        · intro hm
          rw [List.nodup_append] at hids'
          exact hids'.2.2 _ hm _ List.mem_cons_self rfl
        · intro u hu hfu
          by_cases e : u = r.s
          · rw [e]; exact ht2
          · have := hl'.2.2.2 u hu (by rw [hfu, ht1, hf]) e
            omega
      have hids'' : ((finish order x.run l (db.run x.others)).sessions.map (·.id) ++ ids xs).Nodup := by
        refine ids_run [Op.save x.run.s (entries order (x.run.results l) l)] (db.run x.others) (ids xs) ?_
        exact hids'
      obtain ⟨l', h5, h6⟩ := ih x.run (fun j => o (j + 1)) l (finish order x.run l (db.run x.others)) hlast ht1
        (fun t _ => hxo 0 x rfl t) h3 (h2.nodup_iff.2 (hkeys.filter _)) h4
        (fun k hk k' hk' => hinj k (hsub k hk) k' (hsub k' hk')) (fun k hk => hfound k (hsub k hk)) ht5 hids''
        (fun j y hy => hxo (j + 1) y hy) i (Nat.lt_of_succ_lt_succ hi) (by
          intro e
          apply hne
          rw [← left_succ o (tests.map Meta.key) i]
          have hp : (left (fun j => o (j + 1)) (l.map Meta.key) i).Perm (left (fun j => o (j + 1)) ((tests.map Meta.key).filter (fun k => !(succeeded (o 0 k)))) i) :=
            h2.filter _
          rw [e] at hp
          exact hp.symm.eq_nil)
      refine ⟨l', h5, h6.trans ?_⟩
      rw [← left_succ o (tests.map Meta.key) (i + 1)]
      exact h2.filter _

/-- C162, the part that holds (the files still load, with the tests that were run; each of them can be told from the others there; none has a
`repeat` marker; something was left to be done by the session before): after a session, any number of resumptions in the same directory, whatever
other sessions are made elsewhere in between. Each of them runs exactly the tests of the first session which did not succeed in any of the
sessions before it, each once. -/
theorem C162_chain_partial (w : World) (order : List Meta → List Meta) (horder : ∀ l, (order l).Perm l) (adr : Key → Nat) (first : Run)
    (xs : List Step) (o : Nat → Key → Option Result) (tests : List Meta) (before : List Op)
    (hout : ∀ t ∈ tests, first.out t = o 0 t.key) (houts : ∀ i x, xs[i]? = some x → ∀ t, x.run.out t = o (i + 1) t.key)
    (hid : (tests.map (·.id)).Nodup) (hkeys : (tests.map Meta.key).Nodup) (hadr : ∀ t ∈ tests, t.address = adr t.key)
    (hinj : ∀ t ∈ tests, ∀ u ∈ tests, adr t.key = adr u.key → t.key = u.key) (hfound : ∀ t ∈ tests, Found w adr t.key)
    (hbefore : ∀ u ∈ (({} : Db).run before).sessions, u.folder = first.s.folder → u.created < first.s.created)
    (htimely : Timely first.s.folder first.s xs)
    (hids : ((({} : Db).run before).sessions.map (·.id) ++ first.s.id :: ids xs).Nodup)
    (i : Nat) (hi : i < xs.length) (hleft : left o (tests.map Meta.key) i ≠ []) :
    ∃ l, (chain w order xs (finish order first tests (({} : Db).run before)))[i]? = some (some l) ∧
      (l.map Meta.key).Perm (left o (tests.map Meta.key) (i + 1)) := by
  obtain ⟨hw, hk⟩ := Db.run_inv {} before (fun _ h => by cases h) (by simp [Db.Keys])
  have hlast : Last (finish order first tests (({} : Db).run before)) first.s (entries order (first.results tests) tests) := by
    refine Last.save _ _ _ hw hk ?_ hbefore
    intro hm
    rw [List.nodup_append] at hids
    exact hids.2.2 _ hm _ List.mem_cons_self rfl
  refine chain_left w order horder adr first.s.folder xs first o tests _ hlast rfl hout hid hkeys hadr ?_ ?_ htimely ?_ houts i hi hleft
  · intro k hk' k' hk'' e
    obtain ⟨t, ht, rfl⟩ := List.mem_map.1 hk'
    obtain ⟨u, hu, rfl⟩ := List.mem_map.1 hk''
    exact hinj t ht u hu e
  · intro k hk'
    obtain ⟨t, ht, rfl⟩ := List.mem_map.1 hk'
    exact hfound t ht
  · exact ids_run [Op.save first.s (entries order (first.results tests) tests)] (({} : Db).run before) (ids xs) hids

/-- Three tests of one file, the last two with parameters. -/
def demoTests : List Meta := [⟨0, 1, 1, false, 0, 1⟩, ⟨1, 1, 2, true, 1, 2⟩, ⟨2, 1, 2, true, 2, 3⟩]

/-- The file they are in. -/
def demoWorld : World := { tests := fun f => if f = 1 then some demoTests else none }

/-- The result of a test that succeeded. -/
def good : Result := Result.after [.start, .finish]

/-- The result of a test that failed. -/
def bad : Result := Result.after [.start, .fail false, .finish]

/-- The first test succeeds in session 1, the second in session 0; the third never. -/
def demoOut (j : Nat) (k : Key) : Option Result :=
  if (j = 0 ∧ k = (1, 2, some 1)) ∨ (j = 1 ∧ k = (1, 1, none)) then some good else if j = 0 then none else some bad

/-- The sessions of the example: three resumptions, with a session elsewhere before the second one. -/
def demoSteps : List Step :=
  [⟨[], ⟨11, 1, 20⟩, fun t => demoOut 1 t.key⟩, ⟨[.save ⟨50, 2, 25⟩ [], .clean 5], ⟨12, 1, 30⟩, fun t => demoOut 2 t.key⟩,
   ⟨[], ⟨13, 1, 40⟩, fun t => demoOut 3 t.key⟩]

/-- The address of a test. -/
def demoAdr (k : Key) : Nat := if k = (1, 1, none) then 1 else if k = (1, 2, some 1) then 2 else 3

theorem demo_found : ∀ t ∈ demoTests, Found demoWorld demoAdr t.key := by
  intro t ht
  refine ⟨demoTests, t, ?_, by decide, ht, rfl, ?_, rfl, ?_, ?_⟩ <;>
    (revert t; decide)

example (i : Nat) (hi : i < 3) : ∃ l, (chain demoWorld id demoSteps (finish id ⟨⟨10, 1, 10⟩, fun t => demoOut 0 t.key⟩ demoTests {}))[i]? =
    some (some l) ∧ (l.map Meta.key).Perm (left demoOut (demoTests.map Meta.key) (i + 1)) :=
  C162_chain_partial demoWorld id (fun _ => List.Perm.refl _) demoAdr ⟨⟨10, 1, 10⟩, fun t => demoOut 0 t.key⟩ demoSteps demoOut demoTests []
    (fun _ _ => rfl)
    (by
      intro j x hx t
      match j, hx with
      | 0, hx => cases hx; rfl
      | 1, hx => cases hx; rfl
      | 2, hx => cases hx; rfl)
    (by decide) (by decide) (by decide) (by decide) demo_found (by intro u hu; cases hu)
    (by
      refine ⟨rfl, by decide, (by intro u r h; cases h), (by intro c h; cases h), rfl, by decide, ?_, ?_, rfl, by decide,
        (by intro u r h; cases h), (by intro c h; cases h), trivial⟩
      · intro u r h
        simp only [List.mem_cons, Op.save.injEq, reduceCtorEq, List.not_mem_nil, or_false] at h
        rw [h.1]; decide
      · intro c h
        simp only [List.mem_cons, Op.clean.injEq, reduceCtorEq, List.not_mem_nil, or_false, false_or] at h
        rw [h]; decide)
    (by decide) i hi (by
      intro e
      have : (1, 2, some 2) ∈ left demoOut (demoTests.map Meta.key) i := by
        match i, hi with
        | 0, _ => decide
        | 1, _ => decide
        | 2, _ => decide
      rw [e] at this
      cases this)

example : (List.range 4).map (left demoOut (demoTests.map Meta.key)) =
    [[(1, 1, none), (1, 2, some 1), (1, 2, some 2)], [(1, 1, none), (1, 2, some 2)], [(1, 2, some 2)], [(1, 2, some 2)]] := by decide

/-- C162: a session in which no test was run or collected is in the way: while it is the last one of the directory, resuming fails. -/
theorem C162_empty (w : World) (order : List Meta → List Meta) (r : Run) (db : Db) (s : Session) (h : Last db s [])
    (hf : r.s.folder = s.folder) : (resumeLast w order r db).1 = none := by
  unfold resumeLast
  rw [hf, h.last]
  simp only
  have : db.previous (fun _ _ => none) {} false s.id = none := by
    unfold Db.previous
    simp only
    rw [Has.read db s _ h.2.2.1]
    rfl
  rw [this]

example : Last ⟨[⟨1, 1, 5⟩, ⟨2, 1, 6⟩], [(1, ⟨1, 1, none, .failed⟩)]⟩ ⟨2, 1, 6⟩ [] := by
  refine ⟨?_, (by unfold Db.Keys; decide), ⟨by decide, rfl⟩, by decide⟩
  unfold Db.Wf
  decide

/-- C162 fails when nothing is left: the first resumption after all tests succeeded runs nothing and is fine, the next one fails. -/
theorem C162_nothing_left_violated :
    chain demoWorld id [⟨[], ⟨11, 1, 20⟩, fun _ => none⟩, ⟨[], ⟨12, 1, 30⟩, fun _ => none⟩]
      (finish id ⟨⟨10, 1, 10⟩, fun _ => some good⟩ demoTests {}) = [some [], none] := by decide +kernel

/-- C162 fails after a resumption that could not load the tests (here: their file was missing for a while): it is stored as a session without
tests, and the next resumption fails although the file is there again and no test has succeeded. -/
theorem C162_failed_load_violated :
    let db := finish id ⟨⟨10, 1, 10⟩, fun _ => some bad⟩ demoTests {}
    let y := resumeLast { tests := fun _ => none } id ⟨⟨11, 1, 20⟩, fun _ => some bad⟩ db
    y.1 = none ∧ (resumeLast demoWorld id ⟨⟨12, 1, 30⟩, fun _ => some bad⟩ y.2).1 = none ∧
      ((resumeLast demoWorld id ⟨⟨12, 1, 30⟩, fun _ => some bad⟩ db).1.map List.length) = some 3 := by decide +kernel

/-- C162 fails for sessions with the interactive test: it is stored under a file that does not exist (number 0 here), and unless it succeeded the
session cannot be resumed at all. -/
theorem C162_interactive_violated :
    chain demoWorld id [⟨[], ⟨11, 1, 20⟩, fun _ => none⟩]
      (finish id ⟨⟨10, 1, 10⟩, fun _ => some bad⟩ (⟨9, 0, 0, false, 0, 9⟩ :: demoTests) {}) = [none] := by decide +kernel

/-- C162 fails for tests with a `repeat` marker: each of the two runs of the test is stored, and each is repeated when it is resumed: four runs,
then eight. -/
theorem C162_repeat_violated :
    let w : World := { tests := fun _ => some [⟨0, 1, 1, false, 0, 1⟩], rep := fun _ => 2 }
    (chain w id [⟨[], ⟨11, 1, 20⟩, fun _ => some bad⟩, ⟨[], ⟨12, 1, 30⟩, fun _ => some bad⟩]
      (finish id ⟨⟨10, 1, 10⟩, fun _ => some bad⟩ [⟨0, 1, 1, false, 0, 1⟩, ⟨1, 1, 1, false, 0, 1⟩] {})).map (·.map List.length) =
        [some 4, some 8] := by decide +kernel

end Slash.Resume
