import Verif.Lemmas.Log
/-! Properties of log files and handlers: C106 to C111. -/
namespace Slash.Log

/-- The records logged by test `i`, in order. -/
def ofTest (i : Nat) (items : List Item) : List Rec :=
  items.flatMap (fun | .log _ => [] | .test t => if t.id = i then t.recs else [])

/-- The records logged outside of tests, in order. -/
def outside (items : List Item) : List Rec := items.flatMap (fun | .log r => [r] | .test _ => [])

/-- All records, in order. -/
def logged (items : List Item) : List Rec := items.flatMap (fun | .log r => [r] | .test t => t.recs)

/-- A record of slash itself below `core_log_level`, without `filter_bypass`. -/
def low (cfg : Cfg) (r : Rec) : Bool :=
  ["slash.runner", "slash.loader", "slash.core.cleanup_manager", "slash.core.scope_manager", "slash.exception_handling",
    "slash.core.fixtures.fixture_store"].contains r.channel && decide (r.level < cfg.coreLevel) && !r.bypass

theorem passes_eq (cfg : Cfg) (r : Rec) : passes cfg r = !low cfg r := by
  unfold passes low coreChannels
  have : decide (cfg.coreLevel ≤ r.level) = !decide (r.level < cfg.coreLevel) := by
    by_cases h : r.level < cfg.coreLevel
    · simp [h]
    · simp [h]; omega
  rw [this]
  generalize List.contains _ r.channel = a
  cases r.bypass <;> cases decide (r.level < cfg.coreLevel) <;> cases a <;> rfl

/-- A record that belongs into log files: not of a silenced logger, and if it is of slash itself, of a high enough level. -/
def expected (cfg : Cfg) (r : Rec) : Bool := !low cfg r && !cfg.silenced.contains r.channel

/-- The files of `cfg` in the examples: a session log, a log for each test, one file of highlights. -/
def sampleCfg : Cfg where
  main := fun | none => some "session.log" | some 0 => some "0.log" | some 1 => some "1.log" | some _ => none
  highlights := fun _ => some "highlights.log"
  silenced := ["noisy"]
  extra := [{ level := 10 }]
  captureErrors := true
  cleanup := true

def r0 : Rec := { id := 0 }
def r1 : Rec := { id := 1, level := 14, highlight := true }
def r2 : Rec := { id := 2, channel := "slash.runner", level := 12 }
def r3 : Rec := { id := 3, channel := "noisy", level := 14 }
def r4 : Rec := { id := 4, channel := "slash.runner", level := 13 }

/-- A session with two tests, the second one fails. -/
def sampleItems : List Item := [.log r0, .test { id := 0, recs := [r0, r2, r3, r1] }, .log r4, .test { id := 1, recs := [r4, r0], ok := false }, .log r2]

theorem sample_separate : Separate sampleCfg where
  main := by
    intro i j p h1 h2
    unfold sampleCfg at h1 h2
    rcases i with _ | _ | _ | i <;> rcases j with _ | _ | _ | j <;> simp at h1 h2 <;> first | rfl | (rw [← h2] at h1; simp at h1)
  raw := by intro i j p _ h; cases h
  highlights := by
    intro i j p h1 h2
    unfold sampleCfg at h1 h2
    rcases i with _ | _ | _ | i <;> simp at h1 h2 <;> (rw [← h2] at h1; simp at h1)

theorem sample_bubble : ExtrasBubble sampleCfg := by
  intro e he
  simp only [sampleCfg, List.mem_singleton] at he
  rw [he]

/-! ## C106: content of log files -/

/-- The log of a test is exactly what the test logged, in order, without silenced loggers and without low levels of slash itself. -/
theorem C106_test_partial {cfg : Cfg} (hs : Separate cfg) (hb : ExtrasBubble cfg) (hroot : cfg.root = true) {i : Nat} {p : Path}
    (hp : cfg.main (some i) = some p) (items : List Item) (g : Bool) :
    got (.file p) (session cfg items g).trace = (ofTest i items).filter (expected cfg) := by
  rw [got_session, ofTest]
  induction items with
  | nil => rfl
  | cons it items ih =>
    rw [List.flatMap_cons, List.flatMap_cons, List.filter_append, ih]
    congr 1
    cases it with
    | log r => simp [outside_file hs hb hp]
    | test t =>
      simp only
      by_cases h : t.id = i
      · rw [if_pos h]
        apply replicate_if
        intro r _
        rw [inside_file hs hb hp, expected, h, passes_eq]
        cases low cfg r <;> cases hc : silent cfg r <;> simp [silent] at hc <;> simp [hroot, hc]
      · rw [if_neg h, List.filter_nil, List.flatMap_eq_nil_iff]
        intro r _
        rw [inside_file hs hb hp]
        have : ¬ (some i = some t.id) := by simp; omega
        simp [this]

example : got (.file "0.log") (session sampleCfg sampleItems true).trace = [r0, r1] :=
  C106_test_partial sample_separate sample_bubble rfl (i := 0) rfl sampleItems true
example : got (.file "1.log") (session sampleCfg sampleItems true).trace = [r4, r0] := by decide

/-- The log of the session is exactly what is logged outside of tests (unless `unified_session_log`). -/
theorem C106_session_partial {cfg : Cfg} (hs : Separate cfg) (hb : ExtrasBubble cfg) (hroot : cfg.root = true) (hu : cfg.unified = false) {p : Path}
    (hp : cfg.main none = some p) (items : List Item) (g : Bool) :
    got (.file p) (session cfg items g).trace = (outside items).filter (expected cfg) := by
  rw [got_session, outside]
  induction items with
  | nil => rfl
  | cons it items ih =>
    rw [List.flatMap_cons, List.flatMap_cons, List.filter_append, ih]
    congr 1
    cases it with
    | log r =>
      simp only [outside_file hs hb hp]
      rw [passes_eq]
      by_cases h1 : low cfg r = true <;> cases hc : silent cfg r <;> simp [silent] at hc <;> simp [hroot, hc, h1, expected]
    | test t => simp [inside_file hs hb hp, hu]

example : got (.file "session.log") (session sampleCfg sampleItems true).trace = [r0, r4] :=
  C106_session_partial sample_separate sample_bubble rfl rfl rfl sampleItems true

/-- With `unified_session_log` everything that tests log gets into the log of the session, once and in order. -/
theorem C106_unified {cfg : Cfg} (hs : Separate cfg) (hb : ExtrasBubble cfg) (hroot : cfg.root = true) (hu : cfg.unified = true) {p : Path}
    (hp : cfg.main none = some p) (items : List Item) (g : Bool) :
    got (.file p) (session cfg items g).trace = items.flatMap (fun | .log r => if expected cfg r then [r] else [] | .test t => t.recs) := by
  rw [got_session]
  congr 1
  funext it
  cases it with
  | log r =>
    simp only [outside_file hs hb hp]
    rw [passes_eq]
    by_cases h1 : low cfg r = true <;> cases hc : silent cfg r <;> simp [silent] at hc <;> simp [hroot, hc, h1, expected]
  | test t =>
    simp only [inside_file hs hb hp, hroot, hu]
    have := replicate_if (q := fun _ => true) t.recs (fun _ => 1) (by simp)
    simpa using this

example : got (.file "session.log") (session { sampleCfg with unified := true } sampleItems true).trace = [r0, r0, r2, r3, r1, r4, r4, r0] := by decide

/-- The full claim, that silenced loggers and low levels of slash itself get into no log file, is false for the unified session log. -/
theorem C106_filter_violated : ∃ cfg items g, Separate cfg ∧ ExtrasBubble cfg ∧ cfg.root = true ∧
    (∃ p r, r ∈ got (.file p) (session cfg items g).trace ∧ low cfg r = true) ∧
    ∃ p r, r ∈ got (.file p) (session cfg items g).trace ∧ cfg.silenced.contains r.channel = true :=
  ⟨{ sampleCfg with unified := true }, sampleItems, true, ⟨sample_separate.main, sample_separate.raw, sample_separate.highlights⟩, sample_bubble, rfl,
    ⟨"session.log", r2, by decide, by decide⟩, "session.log", r3, by decide, by decide⟩

/-- An extra handler that does not bubble (the default of `logbook`) keeps everything out of the log files. -/
theorem C106_extra_violated : ∃ cfg items g p, Separate cfg ∧ cfg.root = true ∧ cfg.main (some 0) = some p ∧
    (ofTest 0 items).filter (expected cfg) ≠ [] ∧ got (.file p) (session cfg items g).trace = [] :=
  ⟨{ sampleCfg with extra := [{ bubble := false }] }, sampleItems, true, "0.log", ⟨sample_separate.main, sample_separate.raw, sample_separate.highlights⟩,
    rfl, rfl, by decide, by decide⟩

/-- If the log of a test is also the unified log of the session, its records are written twice. -/
theorem C106_shared_violated : ∃ cfg items g p, ExtrasBubble cfg ∧ cfg.root = true ∧ cfg.main (some 0) = some p ∧
    (ofTest 0 items).filter (expected cfg) = [r0] ∧ got (.file p) (session cfg items g).trace = [r0, r0] :=
  ⟨{ main := fun _ => some "log", unified := true }, [.test { id := 0, recs := [r0] }], true, "log",
    by simp [ExtrasBubble], rfl, rfl, by decide, by decide⟩

/-! ## C107: life of log files -/

/-- Every file, whatever the paths are: it is opened, written only while open, closed, announced once to `log_file_closed` and then
perhaps removed; then it may be opened again. In the end no file is open. -/
theorem C107_life (cfg : Cfg) (items : List Item) (g : Bool) (p : Path) :
    (∃ ph, life p .idle (session cfg items g).trace = some ph ∧ (ph = .idle ∨ ph = .fired)) ∧ (session cfg items g).active = [] ∧
    (session cfg items g).stack = [] := by
  refine ⟨life_session cfg items g p, ?_, ?_⟩ <;> rw [session_eq]

example : life "0.log" .idle (session sampleCfg sampleItems true).trace = some .idle ∧
    life "1.log" .idle (session sampleCfg sampleItems true).trace = some .fired := by decide
example : life "p" .idle [.opened "p", .sent (.file "p") r0, .closed "p"] = some .closed ∧ life "p" .idle [.sent (.file "p") r0] = none ∧
    life "p" .open [.closed "p", .sent (.file "p") r0] = none ∧ life "p" .open [.removed "p"] = none := by decide

theorem count_life {p : Path} {ph ph' : Phase} {tr : List Ev} (h : life p ph tr = some ph') :
    tr.count (.opened p) + (if ph = .open then 1 else 0) = tr.count (.closed p) + if ph' = .open then 1 else 0 := by
  induction tr generalizing ph with
  | nil => cases h; rfl
  | cons e tr ih =>
    rw [life] at h
    cases hs : step p ph e with
    | none => rw [hs] at h; cases h
    | some x =>
      rw [hs] at h
      have := ih h
      rw [List.count_cons, List.count_cons]
      cases e with
      | opened q =>
        by_cases hq : q = p
        · subst hq
          simp only [step, if_true] at hs
          split at hs
          · rename_i hr
            cases hs
            rcases hr with rfl | rfl <;> simp at this ⊢ <;> omega
          · cases hs
        · simp [step, hq] at hs; subst hs; simp [hq]; omega
      | closed q =>
        by_cases hq : q = p
        · subst hq
          simp only [step, if_true] at hs
          split at hs
          · rename_i hr
            cases hs
            subst hr
            simp at this ⊢; omega
          · cases hs
        · simp [step, hq] at hs; subst hs; simp [hq]; omega
      | sent d r =>
        have e1 : ph = x := by
          simp only [step] at hs
          split at hs
          · split at hs
            · rename_i h'; rw [h']; exact Option.some.inj hs
            · cases hs
          · exact Option.some.inj hs
        subst e1; simp; omega
      | hook q r =>
        by_cases hq : q = p
        · subst hq
          simp only [step, if_true] at hs
          split at hs
          · rename_i hr
            cases hs
            subst hr
            simp at this ⊢; omega
          · cases hs
        · simp [step, hq] at hs; subst hs; simp; omega
      | removed q =>
        by_cases hq : q = p
        · subst hq
          simp only [step, if_true] at hs
          split at hs
          · rename_i hr
            cases hs
            subst hr
            simp at this ⊢; omega
          · cases hs
        · simp [step, hq] at hs; subst hs; simp; omega

/-- Every file is closed as often as it is opened. -/
theorem C107_closed (cfg : Cfg) (items : List Item) (g : Bool) (p : Path) :
    (session cfg items g).trace.count (.opened p) = (session cfg items g).trace.count (.closed p) := by
  obtain ⟨ph, h1, h2⟩ := life_session cfg items g p
  have := count_life h1
  rcases h2 with rfl | rfl <;> simpa using this

example : (session sampleCfg sampleItems true).trace.count (.opened "highlights.log") = 1 := by decide

/-- `log_file_closed` is fired with the result of the test (or of the session) whose file it is. -/
theorem C107_result (cfg : Cfg) (items : List Item) (g : Bool) (p : Path) (res : Option Nat) (h : .hook p res ∈ (session cfg items g).trace) :
    (cfg.main res = some p ∨ cfg.raw res = some p ∨ cfg.highlights res = some p) ∧
    ∀ i, res = some i → ∃ t, .test t ∈ items ∧ t.id = i := by
  have own : ∀ {who : Option Nat} {sh : Option H} {A : List (Path × H)}, p ∈ (entry cfg who sh A).2.1 →
      cfg.main who = some p ∨ cfg.raw who = some p ∨ cfg.highlights who = some p := by
    intro who sh A hm
    obtain ⟨_, _, e⟩ := enter_entered cfg who sh ⟨A, [], []⟩
    obtain ⟨new, n1, n2, n3⟩ := e.act
    rw [entry, ← n2] at hm
    obtain ⟨a, ha, rfl⟩ := List.mem_map.1 hm
    rcases (n3 a ha).2.2.2 with ⟨h, _⟩ | ⟨h, _⟩
    · exact .inl h
    · exact .inr h
  have cl : ∀ {who : Option Nat} {ok : Bool} {os : List Path}, .hook p res ∈ closings cfg who ok os → p ∈ os ∧ res = who := by
    intro who ok os hm
    unfold closings at hm
    obtain ⟨q, hq, hm⟩ := List.mem_flatMap.1 hm
    simp only [List.mem_append, List.mem_cons, List.not_mem_nil, or_false] at hm
    rcases hm with (hm | hm) | hm
    · cases hm
    · cases hm; exact ⟨hq, rfl⟩
    · split at hm <;> simp at hm
  rw [session_eq] at h
  simp only [List.mem_append] at h
  rcases h with (h | h) | h
  · simp at h
  · obtain ⟨it, hi, h⟩ := List.mem_flatMap.1 h
    cases it with
    | log r => simp [itemTrace] at h
    | test t =>
      simp only [itemTrace, List.mem_append] at h
      rcases h with (h | h) | h
      · simp at h
      · simp at h
      · obtain ⟨h1, h2⟩ := cl h
        subst h2
        exact ⟨own h1, fun i e => ⟨t, hi, by cases e; rfl⟩⟩
  · obtain ⟨h1, h2⟩ := cl h
    subst h2
    exact ⟨own h1, by intro i e; cases e⟩

example : .hook "0.log" (some 0) ∈ (session sampleCfg sampleItems true).trace ∧ .hook "highlights.log" none ∈ (session sampleCfg sampleItems true).trace := by decide

/-! ## C108: removed log files -/

/-- Without `log.cleanup.enabled` no log file is removed. -/
theorem C108_disabled {cfg : Cfg} (h : cfg.cleanup = false) (items : List Item) (g : Bool) (p : Path) : .removed p ∉ (session cfg items g).trace := by
  rw [removed_session]
  simp [h]

/-- The log of a test is removed exactly if cleanup is enabled and the test was a success, or failed tests' logs need not be kept. -/
theorem C108_test_partial {cfg : Cfg} (hs : Separate cfg) (hroot : cfg.root = true) {i : Nat} {p : Path} (hp : cfg.main (some i) = some p) (items : List Item) (g : Bool) :
    .removed p ∈ (session cfg items g).trace ↔ cfg.cleanup = true ∧ ∃ t, .test t ∈ items ∧ t.id = i ∧ (t.ok = true ∨ cfg.keepFailed = false) := by
  rw [removed_session]
  constructor
  · rintro (⟨t, ht, h1, h2, h3⟩ | ⟨h, _⟩)
    · have := ((entry_opens hs (.inr ⟨t.id, rfl, known_base cfg⟩) hp).1 h1).2
      cases this
      refine ⟨h2, t, ht, rfl, ?_⟩
      simp only [shouldDelete, Bool.or_eq_true, Bool.not_eq_true'] at h3
      exact h3.symm
    · have := ((entry_opens hs (.inl rfl) hp).1 h).2
      cases this
  · rintro ⟨h1, t, ht, rfl, h2⟩
    refine .inl ⟨t, ht, (entry_opens hs (.inr ⟨t.id, rfl, known_base cfg⟩) hp).2 ⟨hroot, rfl⟩, h1, ?_⟩
    simp only [shouldDelete, Bool.or_eq_true, Bool.not_eq_true']
    exact h2.symm

example : .removed "0.log" ∈ (session sampleCfg sampleItems true).trace ∧ .removed "1.log" ∉ (session sampleCfg sampleItems true).trace := by decide

/-- The log of the session is removed exactly if cleanup is enabled and the whole session was a success, or failed logs need not be kept. -/
theorem C108_session_partial {cfg : Cfg} (hs : Separate cfg) (hroot : cfg.root = true) {p : Path} (hp : cfg.main none = some p) (items : List Item) (g : Bool) :
    .removed p ∈ (session cfg items g).trace ↔
      cfg.cleanup = true ∧ ((g = true ∧ ∀ t, .test t ∈ items → t.ok = true) ∨ cfg.keepFailed = false) := by
  have hsu : success g items = true ↔ g = true ∧ ∀ t, .test t ∈ items → t.ok = true := by
    unfold success
    rw [Bool.and_eq_true, List.all_eq_true]
    constructor
    · rintro ⟨h1, h2⟩; exact ⟨h1, fun t ht => h2 _ ht⟩
    · rintro ⟨h1, h2⟩
      refine ⟨h1, fun it hi => ?_⟩
      cases it with
      | log r => rfl
      | test t => exact h2 t hi
  rw [removed_session]
  simp only [shouldDelete, Bool.or_eq_true, Bool.not_eq_true', hsu]
  constructor
  · rintro (⟨t, ht, h1, _⟩ | ⟨h, h1, h2⟩)
    · have := ((entry_opens hs (.inr ⟨t.id, rfl, known_base cfg⟩) hp).1 h1).2
      cases this
    · exact ⟨h1, h2.symm⟩
  · rintro ⟨h1, h2⟩
    exact .inr ⟨(entry_opens hs (.inl rfl) hp).2 ⟨hroot, rfl⟩, h1, h2.symm⟩

example : .removed "session.log" ∉ (session sampleCfg sampleItems true).trace ∧ .removed "session.log" ∈ (session sampleCfg [.log r0] true).trace := by decide

/-- The full claim, `keep_failed` keeps the logs of all failed tests, is false: if a later test has the same path and succeeds, the
file is removed. -/
theorem C108_kept_violated : ∃ cfg items g p t, cfg.keepFailed = true ∧ .test t ∈ items ∧ t.ok = false ∧ cfg.main (some t.id) = some p ∧
    .removed p ∈ (session cfg items g).trace :=
  ⟨{ main := fun | none => none | some _ => some "test.log", cleanup := true },
    [.test { id := 0, recs := [r0], ok := false }, .test { id := 1 }], true, "test.log", { id := 0, recs := [r0], ok := false }, rfl, by simp, rfl, rfl, by decide⟩

/-! ## C109: records are delivered once -/

/-- How often a record is delivered: twice if a test logs it, the filter for slash itself drops it and its logger is not silenced. -/
def times (cfg : Cfg) (inTest : Bool) (r : Rec) : Nat :=
  if inTest && low cfg r && !cfg.silenced.contains r.channel then 2 else 1

/-- Every record, and whether a test logged it. -/
def tagged (items : List Item) : List (Bool × Rec) := items.flatMap (fun | .log r => [(false, r)] | .test t => t.recs.map (fun r => (true, r)))

theorem shown_session {cfg : Cfg} (hs : Separate cfg) (hb : ExtrasBubble cfg) {d : Dest} (hd : d.shown = true) {q : Rec → Bool}
    (hq : ∀ r, once cfg d r = if q r = true then 1 else 0) (items : List Item) (g : Bool) :
    got d (session cfg items g).trace = (tagged items).flatMap (fun x => if q x.2 then List.replicate (times cfg x.1 x.2) x.2 else []) := by
  rw [got_session, tagged, List.flatMap_assoc]
  congr 1
  funext it
  cases it with
  | log r =>
    simp only [outside_shown hs hb hd, hq]
    by_cases h : q r = true <;> simp [times, h]
  | test t =>
    simp only [inside_shown hs hb hd, hq, List.flatMap_map]
    congr 1
    funext r
    rw [passes_eq]
    cases q r <;> cases h1 : low cfg r <;> cases h2 : silent cfg r <;> simp [silent] at h2 <;> simp [times, h1, h2]

/-- A handler added by `add_log_handler`, exactly. -/
theorem C109_extra {cfg : Cfg} (hs : Separate cfg) (hb : ExtrasBubble cfg) (n : Nat) {e : Extra} (he : cfg.extra[n]? = some e) (items : List Item) (g : Bool) :
    got (.extra n) (session cfg items g).trace =
      (tagged items).flatMap (fun x => if e.level ≤ x.2.level then List.replicate (times cfg x.1 x.2) x.2 else []) := by
  rw [shown_session hs hb rfl (q := fun r => decide (e.level ≤ r.level))]
  · simp
  · intro r; rw [once_extra hb, extraWants, he]

/-- Errors captured from logs, exactly: 14 is the level of errors. -/
theorem C109_errors {cfg : Cfg} (hs : Separate cfg) (hb : ExtrasBubble cfg) (hc : cfg.captureErrors = true) (items : List Item) (g : Bool) :
    got .errors (session cfg items g).trace =
      (tagged items).flatMap (fun x => if 14 ≤ x.2.level ∧ x.2.capture = true then List.replicate (times cfg x.1 x.2) x.2 else []) := by
  rw [shown_session hs hb rfl (q := fun r => decide (14 ≤ r.level ∧ r.capture = true))]
  · simp
  · intro r; rw [once_errors]; simp [hc, errorLevel]

theorem untagged (items : List Item) : (tagged items).map (·.2) = logged items := by
  unfold tagged logged
  rw [List.map_flatMap]
  congr 1
  funext it
  cases it with
  | log r => rfl
  | test t =>
    simp only [List.map_map]
    exact List.map_id _

theorem once_each {cfg : Cfg} {items : List Item} {q : Rec → Bool} (hp : ∀ r ∈ logged items, low cfg r = false) :
    (tagged items).flatMap (fun x => if q x.2 = true then List.replicate (times cfg x.1 x.2) x.2 else []) = (logged items).filter q := by
  rw [← untagged] at hp ⊢
  generalize tagged items = l at hp ⊢
  induction l with
  | nil => rfl
  | cons a l ih =>
    rw [List.flatMap_cons, List.map_cons, List.filter_cons, ih (fun r hr => hp r (by simp [hr]))]
    have := hp a.2 (by simp)
    cases q a.2 <;> simp [times, this]

/-- If the filter for slash itself drops nothing, extra handlers and captured errors get every record once, in order. -/
theorem C109_once_partial {cfg : Cfg} (hs : Separate cfg) (hb : ExtrasBubble cfg) (items : List Item) (g : Bool) (hp : ∀ r ∈ logged items, low cfg r = false) :
    (∀ n e, cfg.extra[n]? = some e → got (.extra n) (session cfg items g).trace = (logged items).filter (fun r => decide (e.level ≤ r.level))) ∧
    (cfg.captureErrors = true → got .errors (session cfg items g).trace = (logged items).filter (fun r => decide (14 ≤ r.level ∧ r.capture = true))) := by
  constructor
  · intro n e he
    rw [C109_extra hs hb n he, ← once_each hp]
    simp
  · intro hc
    rw [C109_errors hs hb hc, ← once_each hp]
    simp

example : got (.extra 0) (session sampleCfg [.log r0, .test { id := 0, recs := [r0, r3] }] true).trace = [r0, r0, r3] ∧
    got .errors (session sampleCfg [.log r0, .test { id := 0, recs := [r0, r3] }] true).trace = [r3] := by decide

/-- The console shows every record at most once, whatever the filter does: those of the level of the console or above, not of a
silenced logger, not of low levels of slash itself. -/
theorem C109_console {cfg : Cfg} (hs : Separate cfg) (hb : ExtrasBubble cfg) (items : List Item) (g : Bool) :
    got .console (session cfg items g).trace =
      (logged items).filter (fun r => decide (cfg.consoleLevel ≤ r.level) && !low cfg r && !cfg.silenced.contains r.channel) := by
  rw [shown_session hs hb rfl (q := fun r => decide (cfg.consoleLevel ≤ r.level) && !low cfg r && !cfg.silenced.contains r.channel)]
  · rw [← untagged]
    induction tagged items with
    | nil => rfl
    | cons a l ih =>
      rw [List.flatMap_cons, List.map_cons, List.filter_cons, ih]
      cases h : low cfg a.2 <;> cases decide (cfg.consoleLevel ≤ a.2.level) <;> cases cfg.silenced.contains a.2.channel <;> simp [times, h]
  · intro r
    rw [once_console, passes_eq]
    by_cases h1 : cfg.consoleLevel ≤ r.level <;> cases h2 : low cfg r <;> cases hc : silent cfg r <;> simp [silent] at hc <;> simp [h1, hc]

example : got .console (session sampleCfg sampleItems true).trace = [r1, r4, r4] := by decide

/-- The list of warnings, exactly: records of level warning that do not come from Python's own warnings, not of silenced loggers. -/
theorem C109_warnings {cfg : Cfg} (hs : Separate cfg) (hb : ExtrasBubble cfg) (items : List Item) (g : Bool) :
    got .warnings (session cfg items g).trace =
      (tagged items).flatMap (fun x => if x.2.level = 13 ∧ x.2.channel ≠ "slash.native_warnings" ∧ ¬ x.2.channel ∈ cfg.silenced then
        List.replicate (times cfg x.1 x.2) x.2 else []) := by
  rw [shown_session hs hb rfl (q := fun r => decide (r.level = 13 ∧ r.channel ≠ "slash.native_warnings" ∧ ¬ r.channel ∈ cfg.silenced))]
  · simp
  · intro r
    rw [once_warnings]
    by_cases h1 : r.level = 13 <;> by_cases h2 : r.channel = "slash.native_warnings" <;> cases hc : silent cfg r <;> simp [silent] at hc <;>
      simp [Wants.ok, warningLevel, h1, h2, hc]

example : got .warnings (session sampleCfg sampleItems true).trace = [r4, r4] := by decide

/-- The full claim, each record is delivered once, is false: with the default configuration an extra handler gets a record that slash's own
runner logs in a test twice, and an error of slash itself may be captured as two errors. -/
theorem C109_twice_violated :
    (∃ items g, got (.extra 0) (session { extra := [{}] } items g).trace ≠ logged items ∧ logged items = [r2] ∧
      got (.extra 0) (session { extra := [{}] } items g).trace = [r2, r2]) ∧
    ∃ cfg items g r, ExtrasBubble cfg ∧ Separate cfg ∧ logged items = [r] ∧ got .errors (session cfg items g).trace = [r, r] :=
  ⟨⟨[.test { id := 0, recs := [r2] }], true, by decide, rfl, by decide⟩,
    { captureErrors := true, coreLevel := 15 }, [.test { id := 0, recs := [{ r2 with level := 14 }] }], true, { r2 with level := 14 },
    by simp [ExtrasBubble], ⟨(by intro i j p h; cases h), (by intro i j p h; cases h), (by intro i j p h; cases h)⟩, rfl, by decide⟩

/-! ## C110: lines on the console -/

/-- With `truncate_console_lines`, lines of a long message on the console are at most 160 characters long, unless it is an error. -/
theorem C110_short (te : Bool) (level : Nat) (msg : List Char) (hl : te = true ∨ level < 14) (hlong : 160 < msg.length) :
    ∀ l ∈ splitLines [] (consoleMessage true te level msg), l.length ≤ 160 := by
  have hc : (true && decide (msg.length > maxLine) && (te || decide (level < errorLevel))) = true := by
    simp [maxLine, hlong]; exact hl
  rw [consoleMessage, if_pos hc]
  intro l hm
  have hn : ∀ l ∈ (splitLines [] msg).map truncate, '\n' ∉ l := by
    intro l hl
    obtain ⟨k, hk, rfl⟩ := List.mem_map.1 hl
    exact truncate_no_newline (splitLines_no_newline [] msg (by simp) k hk)
  have : l ∈ (splitLines [] msg).map truncate := by
    rcases splitLines_join hn with h | h
    · rw [← h]; exact hm
    · rw [← h]; exact List.mem_append_left _ hm
  obtain ⟨k, _, rfl⟩ := List.mem_map.1 this
  exact truncate_length k

/-- All other messages are shown as they are: short ones, errors (unless `truncate_console_errors`), and everything if truncation is off. -/
theorem C110_unchanged (tl te : Bool) (level : Nat) (msg : List Char) (h : tl = false ∨ msg.length ≤ 160 ∨ (te = false ∧ errorLevel ≤ level)) :
    consoleMessage tl te level msg = msg := by
  rw [consoleMessage, if_neg]
  simp [maxLine]
  intro h1 h2
  rcases h with h | h | h
  · rw [h] at h1; cases h1
  · omega
  · exact ⟨h.1, h.2⟩

/-- In both cases a line is shown up to its end or up to character 157, followed by three dots; no line is dropped or added but empty last ones. -/
theorem C110_lines (te : Bool) (level : Nat) (msg : List Char) (hl : te = true ∨ level < 14) (hlong : 160 < msg.length) :
    splitLines [] (consoleMessage true te level msg) = (splitLines [] msg).map (fun l => if l.length ≤ 160 then l else l.take 157 ++ "...".toList) ∨
    splitLines [] (consoleMessage true te level msg) ++ [[]] = (splitLines [] msg).map (fun l => if l.length ≤ 160 then l else l.take 157 ++ "...".toList) := by
  have hc : (true && decide (msg.length > maxLine) && (te || decide (level < errorLevel))) = true := by
    simp [maxLine, hlong]; exact hl
  have ht : (fun l : List Char => if l.length ≤ 160 then l else l.take 157 ++ "...".toList) = truncate := by
    funext l
    unfold truncate
    by_cases h : l.length ≤ 160
    · rw [if_pos h, if_neg (by simp only [maxLine]; omega)]
    · rw [if_neg h, if_pos (by simp only [maxLine]; omega)]; rfl
  rw [consoleMessage, if_pos hc, ht]
  exact splitLines_join (fun l hl => by
    obtain ⟨k, hk, rfl⟩ := List.mem_map.1 hl
    exact truncate_no_newline (splitLines_no_newline [] msg (by simp) k hk))

example : consoleMessage true false 11 (List.replicate 161 'a') = List.replicate 157 'a' ++ ['.', '.', '.'] ∧
    consoleMessage true false 11 (List.replicate 160 'a') = List.replicate 160 'a' ∧ consoleMessage true false 14 (List.replicate 161 'a') = List.replicate 161 'a' := by decide +kernel
example : splitLines [] "ab\n\ncd\n".toList = ["ab".toList, [], "cd".toList] := by decide

/-! ## C111: names in paths -/

/-- The directories of a path. -/
def separators (s : List Char) : Nat := s.countP (fun c => c = '/' ∨ c = '\\')

/-- Names of tests, sessions and so on in the template of a path neither add directories nor remove any: the separators of the
path are those of the template, and nothing else than separators changes in names. -/
theorem C111_directories (t : List Piece) :
    separators (formatPath t) = (t.map (fun | .text s => separators s | .field _ => 0)).sum ∧
    ∀ v, (escape v).length = v.length ∧ ∀ (i : Nat) (c : Char), v[i]? = some c → (escape v)[i]? = some (if c = '/' ∨ c = '\\' then '_' else c) := by
  have he : ∀ v, separators (escape v) = 0 := by
    intro v
    unfold separators escape
    rw [List.countP_eq_zero]
    intro c hc
    obtain ⟨d, _, rfl⟩ := List.mem_map.1 hc
    by_cases h : d = '\\' ∨ d = '/'
    · simp [h]
    · rw [if_neg h]; simpa [Or.comm] using h
  constructor
  · induction t with
    | nil => rfl
    | cons a t ih =>
      rw [List.map_cons, List.sum_cons, ← ih]
      have e1 : formatPath (a :: t) = (match a with | .text s => s | .field v => escape v) ++ formatPath t := by
        cases a <;> rfl
      rw [e1]
      unfold separators at *
      rw [List.countP_append]
      cases a with
      | text s => rfl
      | field v => simp only [he]
  · intro v
    refine ⟨by simp [escape], fun i c h => ?_⟩
    rw [escape, List.getElem?_map, h]
    simp [Or.comm]

example : formatPath [.text "logs/".toList, .field "a/b:c\\..".toList, .text ".log".toList] = "logs/a_b:c_...log".toList := by decide

end Slash.Log
