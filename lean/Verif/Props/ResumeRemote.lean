import Verif.Model.ResumeRemote
import Verif.Props.Resume
/-!
# C146: resuming a session that is stored remotely. C147: saving is all or nothing
-/
namespace Slash.Resume

/-! ## C146 -/

/-- Whether the remote store is asked. -/
def Asked (store : Option Store) (version : Option (List (Option Nat))) (id : Nat) (p : Store) (v : List Nat) : Prop :=
  store = some p ∧ p.hasExists = true ∧ p.hasGet = true ∧ p.knows id = true ∧ clientVersion version = .ok v

/-- C146: what is stored locally is preferred: if there is anything about the session, no query is made and the plugin is not needed. -/
theorem C146_local_first (db : Db) (store : Option Store) (version : Option (List (Option Nat))) (fl : Flags) (g : Bool) (id : Nat)
    (h : db.read id ≠ []) : db.search store version fl g id = ([], filterSort fl g (db.read id)) := by
  have hne : (db.read id).isEmpty = false := by
    cases hr : db.read id with
    | nil => exact absurd hr h
    | cons a l => rfl
  unfold Db.search Db.lookup
  simp only [hne, Bool.false_eq_true, if_false]

example : (Db.search ⟨[⟨1, 1, 1⟩], [(1, ⟨1, 2, none, .failed⟩)]⟩ none none {} false 1) = ([], .ok [⟨1, 2, none, .failed⟩]) := rfl

/-- A version from 2.38 on. -/
def Recent (v : List Nat) : Prop := ∃ a l, v = a :: l ∧ (2 < a ∨ (a = 2 ∧ ∃ b m, l = b :: m ∧ 38 ≤ b))

theorem tupleGe_iff (v : List Nat) : tupleGe v [2, 38] = true ↔ Recent v := by
  constructor
  · intro h
    match v with
    | [] => simp [tupleGe] at h
    | a :: l =>
      refine ⟨a, l, rfl, ?_⟩
      by_cases ha : a = 2
      · right
        refine ⟨ha, ?_⟩
        subst ha
        match l with
        | [] => simp [tupleGe] at h
        | b :: m =>
          refine ⟨b, m, rfl, ?_⟩
          by_cases hb : b = 38
          · omega
          · simp [tupleGe, hb] at h
            omega
      · left
        simp [tupleGe, ha] at h
        exact h
  · rintro ⟨a, l, rfl, h | ⟨rfl, b, m, rfl, h⟩⟩
    · have : a ≠ 2 := by omega
      simp [tupleGe, this]
      exact h
    · by_cases hb : b = 38
      · simp [tupleGe, hb]
      · simp [tupleGe, hb]
        omega

theorem fromRemote_asked {store : Option Store} {version : Option (List (Option Nat))} {id : Nat} {p : Store} {v : List Nat}
    (h : Asked store version id p v) (g : Bool) :
    fromRemote store version id g = ([queryFor v id g], .ok ((p.give (queryFor v id g)).map RemoteTest.row)) := by
  obtain ⟨rfl, h1, h2, h3, h4⟩ := h
  unfold fromRemote
  simp only [h1, h2, h3, h4, Bool.not_true, Bool.or_self, Bool.false_eq_true, if_false]

theorem fromRemote_not_asked {store : Option Store} {version : Option (List (Option Nat))} {id : Nat}
    (h : ¬ ∃ p v, Asked store version id p v) (g : Bool) : ∃ f, fromRemote store version id g = ([], .error f) := by
  unfold fromRemote
  cases store with
  | none => exact ⟨_, rfl⟩
  | some p =>
    simp only
    by_cases h1 : p.hasExists = true
    · by_cases h2 : p.hasGet = true
      · by_cases h3 : p.knows id = true
        · cases hv : clientVersion version with
          | error f => exact ⟨f, by simp [h1, h2, h3]⟩
          | ok v => exact absurd ⟨p, v, rfl, h1, h2, h3, hv⟩ h
        · exact ⟨.unknownSession, by simp [h1, h2, h3]⟩
      · exact ⟨.unsupported, by simp [h2]⟩
    · exact ⟨.unsupported, by simp [h1]⟩

/-- C146: the remote store is asked at most once, and only if nothing is stored locally, the plugin is active, can resume and knows the
session; it is asked about this session, for successful tests if and only if they are wanted, in the form that its version understands. -/
theorem C146_query (db : Db) (store : Option Store) (version : Option (List (Option Nat))) (fl : Flags) (g : Bool) (id : Nat) (q : Query) :
    q ∈ (db.search store version fl g id).1 ↔
      db.read id = [] ∧ ∃ p v, Asked store version id p v ∧ (Recent v ∧ q = .filters id g ∨ ¬ Recent v ∧ q = .plain id g) := by
  have hfst : (db.search store version fl g id).1 = (db.lookup store version id g).1 := by
    unfold Db.search
    split <;> rename_i h <;> rw [h]
  rw [hfst]
  unfold Db.lookup
  by_cases hr : db.read id = []
  · rw [hr]
    simp only [List.isEmpty_nil, if_true, true_and]
    by_cases ha : ∃ p v, Asked store version id p v
    · obtain ⟨p, v, ha⟩ := ha
      rw [fromRemote_asked ha]
      have hu : ∀ p' v', Asked store version id p' v' → v' = v := by
        intro p' v' h'
        have := h'.2.2.2.2.symm.trans ha.2.2.2.2
        injection this
      simp only [List.mem_singleton]
      unfold queryFor
      by_cases hv : Recent v
      · rw [if_pos ((tupleGe_iff v).2 hv)]
        constructor
        · intro h
          exact ⟨p, v, ha, Or.inl ⟨hv, h⟩⟩
        · rintro ⟨p', v', h', ⟨_, h⟩ | ⟨h, _⟩⟩
          · exact h
          · rw [hu p' v' h'] at h
            exact absurd hv h
      · rw [if_neg (fun h => hv ((tupleGe_iff v).1 h))]
        constructor
        · intro h
          exact ⟨p, v, ha, Or.inr ⟨hv, h⟩⟩
        · rintro ⟨p', v', h', ⟨h, _⟩ | ⟨_, h⟩⟩
          · rw [hu p' v' h'] at h
            exact absurd h hv
          · exact h
    · obtain ⟨f, hf⟩ := fromRemote_not_asked ha g
      rw [hf]
      simp only [List.not_mem_nil, false_iff]
      rintro ⟨p, v, h, _⟩
      exact ha ⟨p, v, h⟩
  · have hne : (db.read id).isEmpty = false := by
      cases hr' : db.read id with
      | nil => exact absurd hr' hr
      | cons a l => rfl
    simp [hne, hr]

/-- C146: there is at most one query. -/
theorem C146_one_query (db : Db) (store : Option Store) (version : Option (List (Option Nat))) (fl : Flags) (g : Bool) (id : Nat) :
    (db.search store version fl g id).1.length ≤ 1 := by
  have hfst : (db.search store version fl g id).1 = (db.lookup store version id g).1 := by
    unfold Db.search
    split <;> rename_i h <;> rw [h]
  rw [hfst]
  unfold Db.lookup
  split
  · by_cases ha : ∃ p v, Asked store version id p v
    · obtain ⟨p, v, ha⟩ := ha
      rw [fromRemote_asked ha]
      exact Nat.le_refl 1
    · obtain ⟨f, hf⟩ := fromRemote_not_asked ha g
      rw [hf]
      exact Nat.zero_le 1
  · exact Nat.zero_le 1

/-- A store for the examples. -/
def exampleStore : Store :=
  ⟨true, true, fun i => i == 7, fun _ => [⟨1, 1, none, "SUCCESS"⟩, ⟨1, 2, none, "ERROR"⟩, ⟨1, 3, some 4, "INTERRUPTED"⟩,
    ⟨2, 1, none, "SKIPPED"⟩, ⟨2, 2, none, "RUNNING"⟩]⟩

example : (Db.search {} (some exampleStore) (some [some 2, some 38, none]) {} false 7).1 = [.filters 7 false] ∧
    (Db.search {} (some exampleStore) (some [some 2, some 9]) {} true 7).1 = [.plain 7 true] ∧
    (Db.search {} (some exampleStore) (some [some 3]) {} true 7).1 = [.filters 7 true] ∧
    (Db.search {} (some exampleStore) (some [some 2]) {} true 8).1 = [] := by decide

/-- C146: which tests are offered. A test of the remote store is offered, as the file, name and parameters that the store has for it, if
and only if the options ask for its outcome: failed, erroneous and interrupted tests unless only unstarted ones are wanted, skipped tests
unless they are excluded or only failed ones are wanted, successful tests only for a rerun, and all others count as unstarted. -/
theorem C146_offered (db : Db) (store : Option Store) (version : Option (List (Option Nat))) (fl : Flags) (g : Bool) (id : Nat)
    (p : Store) (v : List Nat) (hr : db.read id = []) (ha : Asked store version id p v)
    (hfl : (fl.failedOnly && (fl.unstartedOnly || fl.noSkipped)) = false) (hso : (fl.unstartedFirst && fl.failedFirst) = false) :
    ∃ l, (db.search store version fl g id).2 = .ok l ∧
      l.Perm (((p.give (if tupleGe v [2, 38] then .filters id g else .plain id g)).filter (fun t =>
        if t.status = "FAILURE" ∨ t.status = "ERROR" ∨ t.status = "INTERRUPTED" then !fl.unstartedOnly
        else if t.status = "SUCCESS" then g
        else if t.status = "SKIPPED" then !fl.failedOnly && !fl.noSkipped
        else !fl.failedOnly)).map (fun t => ⟨t.file, t.name, t.var, remoteStatus t.status⟩)) := by
  unfold Db.search Db.lookup
  rw [hr]
  simp only [List.isEmpty_nil, if_true]
  rw [fromRemote_asked ha]
  simp only
  unfold filterSort
  rw [C34_flags, hfl]
  simp only [Bool.false_eq_true, if_false]
  have hperm : ∀ l : List Row, ∃ l', (match sortTests fl l with
      | none => Except.error Fail.orderConflict
      | some l => Except.ok l) = Except.ok l' ∧ l'.Perm l := by
    intro l
    unfold sortTests
    rw [hso]
    simp only [Bool.false_eq_true, if_false]
    by_cases h : (fl.failedFirst || fl.unstartedFirst) = true
    · simp only [h, if_true]
      exact ⟨_, rfl, List.filter_append_perm _ _⟩
    · simp only [h, Bool.false_eq_true, if_false]
      exact ⟨_, rfl, List.Perm.refl _⟩
  refine (hperm _).imp fun l' h => ⟨h.1, h.2.trans ?_⟩
  rw [List.filter_map]
  refine List.Perm.of_eq ?_
  show _ = List.map RemoteTest.row _
  congr 1
  unfold queryFor
  apply List.filter_congr
  intro t _
  simp only [Function.comp, RemoteTest.row, remoteStatus, List.mem_cons, List.not_mem_nil, or_false]
  by_cases h1 : t.status = "FAILURE" ∨ t.status = "ERROR" ∨ t.status = "INTERRUPTED"
  · simp only [if_pos h1]
  · simp only [if_neg h1]
    by_cases h2 : t.status = "SUCCESS"
    · simp only [if_pos h2]
    · simp only [if_neg h2]
      by_cases h3 : t.status = "SKIPPED"
      · simp only [if_pos h3]
      · simp only [if_neg h3]

example : ∃ l, (Db.search {} (some exampleStore) (some [some 2, some 40]) {} false 7).2 = .ok l ∧
    l = [⟨1, 2, none, .failed⟩, ⟨1, 3, some 4, .failed⟩, ⟨2, 1, none, .skipped⟩, ⟨2, 2, none, .planned⟩] := ⟨_, rfl, by decide⟩

example : ∃ l, (Db.search {} (some exampleStore) (some [some 2, some 40]) { failedOnly := true } false 7).2 = .ok l ∧
    l = [⟨1, 2, none, .failed⟩, ⟨1, 3, some 4, .failed⟩] := ⟨_, rfl, by decide⟩

/-- C146: if the client has a version whose first two parts are numbers, then resuming fails exactly with `CannotResume`, and exactly if
the plugin is not active, it cannot resume, it does not know the session, or the options contradict each other. -/
theorem C146_refused_partial (db : Db) (store : Option Store) (parts : List (Option Nat)) (fl : Flags) (g : Bool) (id : Nat)
    (hr : db.read id = []) (hv : (parts.take 2).all Option.isSome = true) :
    ((∃ f, (db.search store (some parts) fl g id).2 = .error f) ↔
      (∀ p, store = some p → p.hasExists = false ∨ p.hasGet = false ∨ p.knows id = false) ∨
      (fl.failedOnly && (fl.unstartedOnly || fl.noSkipped)) = true ∨ (fl.unstartedFirst && fl.failedFirst) = true) ∧
    (∀ f, (db.search store (some parts) fl g id).2 = .error f → f.isCannotResume = true) := by
  have hcv : clientVersion (some parts) = .ok ((parts.take 2).filterMap (fun x => x)) := by
    show (if _ then _ else _) = _
    rw [if_pos hv]
    rfl
  have hfs : ∀ rows, ((∃ f, filterSort fl g rows = .error f) ↔
      (fl.failedOnly && (fl.unstartedOnly || fl.noSkipped)) = true ∨ (fl.unstartedFirst && fl.failedFirst) = true) ∧
      (∀ f, filterSort fl g rows = .error f → f.isCannotResume = true) := by
    intro rows
    unfold filterSort
    rw [C34_flags]
    by_cases h1 : (fl.failedOnly && (fl.unstartedOnly || fl.noSkipped)) = true
    · simp only [h1, if_true, true_or, iff_true]
      exact ⟨⟨_, rfl⟩, fun f h => by cases h; rfl⟩
    · simp only [h1, Bool.false_eq_true, if_false, false_or]
      unfold sortTests
      by_cases h2 : (fl.unstartedFirst && fl.failedFirst) = true
      · simp only [h2, if_true, iff_true]
        exact ⟨⟨_, rfl⟩, fun f h => by cases h; rfl⟩
      · simp only [h2, Bool.false_eq_true, if_false, iff_false]
        split
        · rename_i h
          split at h <;> cases h
        · exact ⟨fun ⟨f, h⟩ => (by cases h), fun f h => by cases h⟩
  unfold Db.search Db.lookup
  rw [hr]
  simp only [List.isEmpty_nil, if_true]
  by_cases ha : ∃ p, store = some p ∧ p.hasExists = true ∧ p.hasGet = true ∧ p.knows id = true
  · obtain ⟨p, hs, h1, h2, h3⟩ := ha
    rw [fromRemote_asked ⟨hs, h1, h2, h3, hcv⟩]
    simp only
    refine ⟨(hfs _).1.trans ⟨Or.inr, ?_⟩, (hfs _).2⟩
    rintro (h | h)
    · rcases h p hs with h | h | h
      · rw [h1] at h; cases h
      · rw [h2] at h; cases h
      · rw [h3] at h; cases h
    · exact h
  · have hall : ∀ p, store = some p → p.hasExists = false ∨ p.hasGet = false ∨ p.knows id = false := by
      intro p hs
      by_cases h1 : p.hasExists = true
      · by_cases h2 : p.hasGet = true
        · by_cases h3 : p.knows id = true
          · exact absurd ⟨p, hs, h1, h2, h3⟩ ha
          · exact Or.inr (Or.inr (by simpa using h3))
        · exact Or.inr (Or.inl (by simpa using h2))
      · exact Or.inl (by simpa using h1)
    have hf : ∃ f, fromRemote store (some parts) id g = ([], .error f) ∧ f.isCannotResume = true := by
      unfold fromRemote
      cases store with
      | none => exact ⟨_, rfl, rfl⟩
      | some p =>
        rcases hall p rfl with h | h | h
        · exact ⟨.unsupported, by simp [h], rfl⟩
        · exact ⟨.unsupported, by simp [h], rfl⟩
        · by_cases h1 : p.hasExists = true ∧ p.hasGet = true
          · exact ⟨.unknownSession, by simp [h, h1], rfl⟩
          · refine ⟨.unsupported, ?_, rfl⟩
            have : (!p.hasExists || !p.hasGet) = true := by
              cases h2 : p.hasExists <;> cases h3 : p.hasGet <;> simp_all
            simp only [this, if_true]
    obtain ⟨f, hf, hc⟩ := hf
    rw [hf]
    exact ⟨⟨fun _ => Or.inl hall, fun _ => ⟨f, rfl⟩⟩, fun f' h => by cases h; exact hc⟩

example : (Db.search {} none (some [some 2, some 40]) {} false 7).2 = .error .noPlugin ∧
    (Db.search {} (some exampleStore) (some [some 2, some 40]) {} false 8).2 = .error .unknownSession ∧
    (Db.search {} (some { exampleStore with hasGet := false }) (some [some 2, some 40]) {} false 7).2 = .error .unsupported ∧
    (Db.search {} (some exampleStore) (some [some 2, some 40]) { failedFirst := true, unstartedFirst := true } false 7).2 =
      .error .orderConflict := ⟨rfl, rfl, rfl, rfl⟩

/-- C146 fails for a plugin named `backslash` that can resume and knows the session, if the client library is not installed as a
distribution, or has a version such as `2.dev1`: an `AttributeError` or a `ValueError` is raised and no query is made. -/
theorem C146_version_violated :
    Db.search {} (some exampleStore) none {} false 7 = ([], .error .noVersion) ∧ Fail.isCannotResume .noVersion = false ∧
    Db.search {} (some exampleStore) (some [some 2, none]) {} false 7 = ([], .error .badVersion) ∧
    Fail.isCannotResume .badVersion = false := ⟨rfl, rfl, rfl, rfl⟩

/-! ## C147 -/

/-- C147: the connection is closed however the block and the commits end; if the block raises, nothing is stored and what it raised is
what is raised. -/
theorem C147_closed (commit : Nat → Commit) (raises : Bool) :
    (connecting commit raises).closed = true ∧
    ((connecting commit raises).ending = .bodyRaised ↔ raises = true) ∧
    (raises = true → (connecting commit raises).saved = false) := by
  unfold connecting
  cases raises
  · simp only [Bool.false_eq_true, if_false, iff_false, false_implies, and_true, true_and]
    unfold commits commits commits commits
    repeat' split
    all_goals simp
  · exact ⟨rfl, ⟨fun _ => rfl, fun _ => rfl⟩, fun _ => rfl⟩

/-- C147: a block that does not raise is stored if and only if one of three attempts succeeds and none before it fails for another reason
than the database being busy. -/
theorem C147_saved (commit : Nat → Commit) :
    (connecting commit false).saved = true ↔ ∃ i, i < 3 ∧ commit i = .ok ∧ ∀ j, j < i → commit j = .operational := by
  constructor
  · intro h
    by_cases h0 : commit 0 = .ok
    · exact ⟨0, by omega, h0, fun j hj => by omega⟩
    · by_cases h1 : commit 0 = .operational ∧ commit 1 = .ok
      · exact ⟨1, by omega, h1.2, fun j hj => by
          have : j = 0 := by omega
          rw [this]; exact h1.1⟩
      · by_cases h2 : commit 0 = .operational ∧ commit 1 = .operational ∧ commit 2 = .ok
        · refine ⟨2, by omega, h2.2.2, fun j hj => ?_⟩
          have : j = 0 ∨ j = 1 := by omega
          rcases this with h | h <;> rw [h]
          · exact h2.1
          · exact h2.2.1
        · exfalso
          unfold connecting at h
          simp only [Bool.false_eq_true, if_false] at h
          unfold commits commits commits commits at h
          cases h3 : commit 0 <;> cases h4 : commit 1 <;> cases h5 : commit 2 <;> simp_all
  · rintro ⟨i, hi, hok, hb⟩
    unfold connecting
    simp only [Bool.false_eq_true, if_false]
    have : i = 0 ∨ i = 1 ∨ i = 2 := by omega
    unfold commits commits commits commits
    rcases this with rfl | rfl | rfl
    · simp only [hok]
      repeat' split
      all_goals simp_all
    · have h0 := hb 0 (by omega)
      simp only [hok, h0]
      repeat' split
      all_goals simp_all
    · have h0 := hb 0 (by omega)
      have h1 := hb 1 (by omega)
      simp [hok, h0, h1]

example : (connecting (fun i => if i = 2 then .ok else .operational) false) = ⟨true, .fine, true⟩ ∧
    (connecting (fun i => if i = 3 then .ok else .operational) false) = ⟨false, .operational, true⟩ ∧
    (connecting (fun _ => .ok) true) = ⟨false, .bodyRaised, true⟩ := by decide

/-- C147: whatever the commits do, if nothing is raised then the block is stored; and if it is not stored then the error of a commit is
raised. -/
theorem C147_no_silent_loss (commit : Nat → Commit) (raises : Bool) (h : (connecting commit raises).ending = .fine) :
    (connecting commit raises).saved = true := by
  unfold connecting at *
  cases raises
  · simp only [Bool.false_eq_true, if_false] at *
    unfold commits commits commits commits at *
    cases h3 : commit 0 <;> cases h4 : commit 1 <;> cases h5 : commit 2 <;> simp_all
  · cases h

/-- C147: if every commit after a successful one succeeds too, then an error means that nothing is stored. -/
theorem C147_error_partial (commit : Nat → Commit) (hmono : ∀ i j, i ≤ j → commit i = .ok → commit j = .ok) (raises : Bool)
    (h : (connecting commit raises).ending ≠ .fine) : (connecting commit raises).saved = false := by
  cases raises
  · cases hs : (connecting commit false).saved with
    | false => rfl
    | true =>
      exfalso
      apply h
      obtain ⟨i, hi, hok, hb⟩ := (C147_saved commit).1 hs
      have h2 : commit 2 = .ok := hmono i 2 (by omega) hok
      have h01 : ∀ j, j < 3 → commit j = .ok ∨ commit j = .operational := by
        intro j _
        by_cases hj : i ≤ j
        · exact Or.inl (hmono i j hj hok)
        · exact Or.inr (hb j (by omega))
      have h0 := h01 0 (by omega)
      have h1 := h01 1 (by omega)
      unfold connecting
      simp only [Bool.false_eq_true, if_false]
      unfold commits commits commits commits
      rcases h0 with h0 | h0 <;> rcases h1 with h1 | h1 <;> simp [h0, h1, h2]
  · rfl

example : (connecting (fun i => if i = 0 then .operational else if i = 1 then .other else .ok) false) = ⟨false, .other, true⟩ := by decide

/-- C147 fails for a commit that succeeds at once: committing goes on, and if the database is busy at the third commit then an error is
raised although everything is stored. -/
theorem C147_error_after_success_violated :
    connecting (fun i => if i < 2 then .ok else .operational) false = ⟨true, .operational, true⟩ := by decide

end Slash.Resume
