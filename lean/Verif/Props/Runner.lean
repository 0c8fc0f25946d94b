import Verif.Lemmas.Runner
import Verif.Lemmas.RunnerStop
import Verif.Lemmas.Util
import Verif.Props.Scope
/-!
# C12, C13, C14, C28 (runner part), C60-C64: the sequential runner

All theorems are about `runTests env ts st`: running the tests `ts`, where the behaviour of every piece of user code
(requirements, hooks, body, teardown) of every test is arbitrary data of the test, and `env` says whether to stop on
errors and how session cleanups behave. `Fresh ts st`: the tests are different tests, not run before in this session.
-/
namespace Slash.Runner

/-! ## Helper: a whole run -/

/-- what is known about a whole run -/
structure RunOk (env : Env) (ts : List T) (st : St) (r : Option X × St) (segs : List (T × List Ev)) (rest : List T)
    (crashed complete : Bool) : Prop where
  split : ts = segs.map (·.1) ++ rest
  trace : ∃ cl fe, r.2.trace = st.trace ++ render crashed none segs rest ++ cl ++ fe ∧ (cl = [] ∨ cl = [.cleanup]) ∧
    ((fe = [] ∧ (r.1 ≠ none ∨ complete = true)) ∨
     (r.1 = none ∧ complete = false ∧ ∃ p, segs.getLast? = some p ∧ fe = [.fileEnd p.1.file]))
  crash : crashed = true → r.1 ≠ none ∧ complete = false
  noCrash : r.1 = none → crashed = false
  allRun : complete = true → rest = []
  flag : r.2.complete = (st.complete || (complete && r.1.isNone))
  curOk : r.2.cur = st.cur
  testOk : r.2.test = st.test
  tests : r.1 = none → ∃ tests, r.2.res.tests = tests ++ rest.map (fun t => (t.id, ({} : Result))) ∧
    tests.map (·.1) = ids st ++ segs.map (·.1.id)
  resIds : ids r.2 = ids st ++ segs.map (·.1.id) ++ (if r.1 = none then rest.map (·.id) else [])
  eachSeg : ∀ p ∈ segs, ∃ y, SegOk p.1 p.2 r.2 y ∧ (y ≠ none → segs.getLast? = some p ∧ r.1 ≠ none)
  lastSeg : ∀ p, segs.getLast? = some p → ∃ y, SegOk p.1 p.2 r.2 y ∧ (r.1 = none → y = none)
  escapes : ∀ y, r.1 = some y → y.kind.escapes = true
  stop : r.1 = none → complete = false → ∃ p res, segs.getLast? = some p ∧ r.2.res.get p.1.id = some res ∧
    (res.hasFatal = true ∨ (env.stop = true ∧ (loop env ts { st with lastFile := none }).2.2.2.res.isSuccess true = false))

theorem initiateCleanup_fst (env : Env) (st : St) (x : X) (h : (initiateCleanup env st).1 = some x) :
    x.kind.escapes = true := by
  unfold initiateCleanup at h
  split at h
  · cases h
  · simp only at h
    rw [Option.or_eq_some_iff] at h
    rcases h with h | ⟨-, h⟩
    · obtain ⟨y, -, rfl, hy⟩ := handle_some h; exact hy rfl
    · obtain ⟨y, -, rfl, hy⟩ := handle_some h; exact hy rfl

theorem find_append_of_mem (l m : List (Nat × Result)) (id : Nat) (h : id ∈ l.map (·.1)) :
    ((l ++ m).find? (·.1 == id)) = l.find? (·.1 == id) := by
  rw [List.find?_append]
  obtain ⟨p, hp, rfl⟩ := List.mem_map.1 h
  cases hf : l.find? (fun q => q.1 == p.1) with
  | some v => rfl
  | none => exact absurd (List.find?_eq_none.1 hf p hp) (by simp)

theorem runTests_ok (env : Env) (ts : List T) (st : St) (hf : Fresh ts st) :
    ∃ segs rest crashed complete, RunOk env ts st (runTests env ts st) segs rest crashed complete := by
  obtain ⟨segs, ok⟩ := loop_ok env ts { st with lastFile := none } ⟨hf.nodup, hf.ids, hf.indexed⟩
  rcases hl : loop env ts { st with lastFile := none } with ⟨x, complete, rest, s1⟩
  have ht1 := loop_test env ts { st with lastFile := none }
  rw [hl] at ok ht1
  simp only at ht1
  obtain ⟨⟨cl, hcl, hE⟩, hC2, hC3, hC4, -⟩ := initiateCleanup_ext env s1
  have hesc := initiateCleanup_fst env s1
  have hrestnd : (rest.map (·.id)).Nodup := by
    have := hf.nodup; rw [ok.split] at this; simp only [List.map_append] at this
    exact (List.nodup_append.1 this).2.1
  have hids1 : ids s1 = ids st ++ segs.map (·.1.id) := ok.ids
  have hrestids : ∀ t ∈ rest, t.id ∉ ids (initiateCleanup env s1).2 := by
    intro t ht
    rw [hE.ids, hids1]
    simp only [List.mem_append, not_or]
    refine ⟨hf.ids t (by rw [ok.split]; simp [ht]), ?_⟩
    intro hm
    have := hf.nodup
    rw [ok.split] at this
    simp only [List.map_append, List.map_map] at this
    exact (List.nodup_append.1 this).2.2 t.id hm t.id (List.mem_map_of_mem ht) rfl
  obtain ⟨hu1, hu2⟩ := markUnrun_ok rest (initiateCleanup env s1).2 hrestnd hrestids
  have hcr : ∀ x', x = some x' → x'.kind.escapes = true := by
    intro x' hx'
    have hne := (ok.crash (by simp [hx'])).1
    cases hg : segs.getLast? with
    | none => exact absurd (List.getLast?_eq_none_iff.1 hg) hne
    | some p => exact (ok.lastSeg p hg).escapes x' hx'
  refine ⟨segs, rest, x.isSome, complete, ?_⟩
  unfold runTests
  rw [hl]
  simp only
  cases hx : ((initiateCleanup env s1).1.or x) with
  | some y =>
    simp only
    refine ⟨ok.split, ⟨cl, [], ?_, hcl, .inl ⟨rfl, .inl (by simp)⟩⟩, ?_, by simp, fun h => (ok.complete h).1, ?_, ?_, ?_, by simp, ?_, ?_, ?_, ?_, by simp⟩
    · rw [hE.trace, ok.trace]; simp
    · intro h; exact ⟨by simp, (ok.crash (by intro h'; simp only at h'; rw [h'] at h; cases h)).2⟩
    · simp only [Option.isNone_some, Bool.and_false, Bool.or_false]; exact hE.complete.trans ok.flag
    · exact hC3.trans ok.cur
    · exact hE.test.trans ht1
    · simp [hE.ids, hids1]
    · intro p hp
      obtain ⟨z, hz, hz2⟩ := ok.eachSeg p hp
      exact ⟨z, hz.mono hE.has, fun h => ⟨(hz2 h).1, by simp⟩⟩
    · intro p hp; exact ⟨x, (ok.lastSeg p hp).mono hE.has, by simp⟩
    · intro z hz
      simp only [Option.some.injEq] at hz
      subst hz
      rw [Option.or_eq_some_iff] at hx
      rcases hx with h | ⟨-, h⟩
      · exact hesc _ h
      · exact hcr _ h
  | none =>
    rw [Option.or_eq_none_iff] at hx
    obtain ⟨hx1, hx2⟩ := hx
    subst hx2
    rcases hm : markUnrun rest (initiateCleanup env s1).2 with ⟨mx, s3⟩
    rw [hm] at hu1 hu2
    simp only at hu1 hu2
    subst hu1
    simp only
    have htests : s3.res.tests = (initiateCleanup env s1).2.res.tests ++ rest.map (fun t => (t.id, ({} : Result))) := by rw [hu2]
    have hhas : ∀ k id, Has s1 k id → Has s3 k id := by
      intro k id h
      obtain ⟨p, hp, hh⟩ := hE.has k id h
      exact ⟨p, by rw [htests]; simp [hp], hh⟩
    have htr : s3.trace = st.trace ++ render false none segs rest ++ cl := by
      rw [hu2]; simp only; rw [hE.trace, ok.trace]; rfl
    have key : ∀ (r : Option X × St) (fe : List Ev), r.1 = none → r.2.trace = s3.trace ++ fe → r.2.res = s3.res →
        r.2.cur = s3.cur → r.2.test = s3.test → r.2.complete = (st.complete || complete) →
        ((fe = [] ∧ complete = true) ∨ (complete = false ∧ ∃ p, segs.getLast? = some p ∧ fe = [.fileEnd p.1.file])) →
        RunOk env ts st r segs rest false complete := by
      intro r fe h1 h2 h3 h4 h4' h5 h6
      have hhas' : ∀ k id, Has s1 k id → Has r.2 k id := by
        intro k id h
        obtain ⟨p, hp, hh⟩ := hhas k id h
        exact ⟨p, by rw [h3]; exact hp, hh⟩
      refine ⟨ok.split, ⟨cl, fe, by rw [h2, htr], hcl, ?_⟩, by simp, by simp, fun h => (ok.complete h).1, ?_, ?_, ?_, ?_, ?_, ?_, ?_, ?_, ?_⟩
      · rcases h6 with h | h
        · exact .inl ⟨h.1, .inr h.2⟩
        · exact .inr ⟨h1, h.1, h.2⟩
      · simp [h5, h1]
      · rw [h4, hu2]; exact hC3.trans ok.cur
      · rw [h4', hu2]; exact hE.test.trans ht1
      · intro _
        refine ⟨(initiateCleanup env s1).2.res.tests, by rw [h3, htests], ?_⟩
        rw [← hids1]; exact hE.ids
      · have e1 : Runner.ids (initiateCleanup env s1).2 = Runner.ids st ++ segs.map (·.1.id) := hE.ids.trans hids1
        rw [if_pos h1, ← e1]
        show List.map (·.1) r.2.res.tests = _
        rw [h3, htests, List.map_append, List.map_map]
        rfl
      · intro p hp
        obtain ⟨z, hz, hz2⟩ := ok.eachSeg p hp
        exact ⟨z, hz.mono hhas', fun h => absurd (hz2 h).2 h⟩
      · intro p hp; exact ⟨none, (ok.lastSeg p hp).mono hhas', by simp⟩
      · intro y hy; rw [h1] at hy; cases hy
      · intro _ hcf
        obtain ⟨p, res, hp, hg, hs⟩ := ok.stop rfl hcf
        obtain ⟨res', hg', hfat⟩ := hC4 _ _ hg
        refine ⟨p, res', hp, ?_, ?_⟩
        · have hmem : p.1.id ∈ (initiateCleanup env s1).2.res.tests.map (·.1) := by
            have : p.1.id ∈ Runner.ids (initiateCleanup env s1).2 := by
              rw [hE.ids, hids1]
              exact List.mem_append_right _ (List.mem_map.2 ⟨p, List.mem_of_getLast? hp, rfl⟩)
            exact this
          simp only [SessionResults.get, SessionResults.lookup] at hg' ⊢
          rw [h3, htests, find_append_of_mem _ _ _ hmem]
          exact hg'
        · rw [hl]; exact hs.imp hfat id
    cases hc : complete with
    | true =>
      rw [← hc]
      exact key _ [] (by simp [hc]) (by simp [hc]) (by simp [hc]) (by simp [hc]) (by simp [hc]) (by simp [hc]) (.inl ⟨rfl, hc⟩)
    | false =>
      rw [← hc]
      simp only [hc, Bool.false_eq_true, if_false]
      obtain ⟨p, res, hp, hg, hs⟩ := ok.stop rfl hc
      have hlf : s3.lastFile = some p.1.file := by
        rw [hu2]; simp only; rw [hE.lastFile, ok.lastFile, hp]; rfl
      rw [hlf]
      simp only
      have hcomp : s3.complete = st.complete := by rw [hu2]; exact hE.complete.trans ok.flag
      have := key (none, s3.emit (.fileEnd p.1.file)) [.fileEnd p.1.file] rfl rfl rfl rfl rfl
        (by simp [St.emit, hcomp, hc]) (.inr ⟨hc, p, hp, rfl⟩)
      rw [hc] at this
      exact this

/-! ## Projections of the trace -/

/-- tests whose run was begun, in order -/
def startedTests (tr : List Ev) : List Nat := tr.filterMap (fun e => match e with | .reportStart i => some i | _ => none)
/-- tests whose run was ended, in order -/
def endedTests (tr : List Ev) : List Nat := tr.filterMap (fun e => match e with | .reportEnd i => some i | _ => none)
/-- tests whose body was run, in order -/
def bodies (tr : List Ev) : List Nat := tr.filterMap (fun e => match e with | .body i => some i | _ => none)
/-- start hooks, bodies, end hooks -/
def hookTrace (tr : List Ev) : List Ev :=
  tr.filter (fun e => match e with | .hookStart _ | .body _ | .hookEnd _ => true | _ => false)
/-- summary hooks, with the test -/
def summaries (tr : List Ev) : List (Nat × SummaryHook) :=
  tr.filterMap (fun e => match e with | .summary i h => some (i, h) | _ => none)

theorem filterMap_render {β : Type} (f : Ev → Option β) (hS : ∀ i, f (.fileStart i) = none) (hE : ∀ i, f (.fileEnd i) = none)
    (hRe : ∀ i, f (.reportEnd i) = none) (crashed : Bool) (last : Option Nat) (segs : List (T × List Ev)) (rest : List T) :
    (render crashed last segs rest).filterMap f =
      segs.flatMap (fun p => (f (.reportStart p.1.id)).toList ++ p.2.filterMap f) := by
  induction segs generalizing last with
  | nil => rfl
  | cons p segs ih =>
    obtain ⟨t, seg⟩ := p
    simp only [render, List.filterMap_append, List.flatMap_cons, ih]
    have h1 : (if last = some t.file then ([] : List Ev) else [.fileStart t.file]).filterMap f = [] := by
      split <;> simp [hS]
    have h2 : ∀ b : Bool, (if b = true then ([] : List Ev) else [.reportEnd t.id] ++
        (if (segs.map (·.1) ++ rest).head?.map (·.file) = some t.file then [] else [.fileEnd t.file])).filterMap f = [] := by
      intro b
      split
      · rfl
      · split <;> simp [hE, hRe]
    rw [h1, h2]
    cases h : f (.reportStart t.id) <;> simp [h]

theorem filterMap_tail {β : Type} (f : Ev → Option β) (hE : ∀ i, f (.fileEnd i) = none) (hC : f .cleanup = none)
    {cl fe : List Ev} (h1 : cl = [] ∨ cl = [.cleanup]) (h2 : fe = [] ∨ ∃ i, fe = [.fileEnd i]) :
    (cl ++ fe).filterMap f = [] := by
  rcases h1 with rfl | rfl <;> rcases h2 with rfl | ⟨i, rfl⟩ <;> simp [hE, hC]

theorem RunOk.filterMap {env : Env} {ts : List T} {st : St} {r : Option X × St} {segs : List (T × List Ev)} {rest : List T}
    {crashed complete : Bool} (ok : RunOk env ts st r segs rest crashed complete) {β : Type} (f : Ev → Option β)
    (hS : ∀ i, f (.fileStart i) = none) (hE : ∀ i, f (.fileEnd i) = none)
    (hRe : ∀ i, f (.reportEnd i) = none) (hC : f .cleanup = none) :
    r.2.trace.filterMap f = st.trace.filterMap f ++
      segs.flatMap (fun p => (f (.reportStart p.1.id)).toList ++ p.2.filterMap f) := by
  obtain ⟨cl, fe, h1, h2, h3⟩ := ok.trace
  rw [h1, List.append_assoc, List.filterMap_append, List.filterMap_append, filterMap_tail f hE hC h2,
    filterMap_render f hS hE hRe, List.append_nil]
  rcases h3 with h | h
  · exact .inl h.1
  · obtain ⟨p, -, hp⟩ := h.2.2; exact .inr ⟨_, hp⟩

theorem filter_eq_filterMap' {α : Type} (p : α → Bool) (l : List α) :
    l.filter p = l.filterMap (fun x => if p x then some x else none) := by
  induction l with
  | nil => rfl
  | cons a l ih => simp only [List.filter_cons, List.filterMap_cons]; cases p a <;> simp [ih]

/-- the shape of the part of the trace of one test, by cases -/
theorem Protocol.flat {i : Nat} {seg : List Ev} (h : Protocol i seg) : seg = [.avoided i] ∨
    ∃ core su cl : List Ev, seg = core ++ su ++ (if core = [] then [] else [.hookEnd i]) ++ cl ∧
      (core = [] ∨ core = [.hookStart i] ∨ core = [.hookStart i, .body i]) ∧
      (su = [] ∨ ∃ h, su = [.summary i h]) ∧ (cl = [] ∨ cl = [.cleanup]) := by
  obtain ⟨av, core, su, cl, rfl, hav, hcore, hsu, hcl⟩ := h
  rcases hav with h | ⟨h1, h2, h3, h4⟩
  · exact .inr ⟨core, su, cl, by simp [h], hcore, hsu, hcl⟩
  · exact .inl (by simp [h1, h2, h3, h4])

/-- ... after a projection -/
theorem Protocol.filterMap {i : Nat} {seg : List Ev} (h : Protocol i seg) {β : Type} (f : Ev → Option β)
    (h1 : ∀ i, f (.avoided i) = none) (h5 : f .cleanup = none) :
    ∃ core su : List Ev, (core = [] ∨ core = [.hookStart i] ∨ core = [.hookStart i, .body i]) ∧
      (su = [] ∨ ∃ h, su = [.summary i h]) ∧ (.body i ∈ seg ↔ core = [.hookStart i, .body i]) ∧
      (.hookStart i ∈ seg ↔ core ≠ []) ∧ (∀ h, .summary i h ∈ seg ↔ su = [.summary i h]) ∧
      seg.filterMap f = (core ++ su ++ (if core = [] then [] else [Ev.hookEnd i])).filterMap f := by
  rcases h.flat with rfl | ⟨core, su, cl, rfl, hcore, hsu, hcl⟩
  · exact ⟨[], [], by simp, by simp, by simp, by simp, by simp, by simp [h1]⟩
  refine ⟨core, su, hcore, hsu, ?_, ?_, ?_, ?_⟩
  · rcases hcore with rfl | rfl | rfl <;> rcases hsu with rfl | ⟨h, rfl⟩ <;> rcases hcl with rfl | rfl <;> simp
  · rcases hcore with rfl | rfl | rfl <;> rcases hsu with rfl | ⟨h, rfl⟩ <;> rcases hcl with rfl | rfl <;> simp
  · intro h'
    rcases hcore with rfl | rfl | rfl <;> rcases hsu with rfl | ⟨h, rfl⟩ <;> rcases hcl with rfl | rfl <;> simp <;>
      exact eq_comm
  · rcases hcl with rfl | rfl <;> simp [h5]

theorem Protocol.noReports {i : Nat} {seg : List Ev} (h : Protocol i seg) :
    startedTests seg = [] ∧ endedTests seg = [] := by
  rcases h.flat with rfl | ⟨core, su, cl, rfl, hcore, hsu, hcl⟩
  · simp [startedTests, endedTests]
  rcases hcore with rfl | rfl | rfl <;> rcases hsu with rfl | ⟨h, rfl⟩ <;> rcases hcl with rfl | rfl <;>
    simp [startedTests, endedTests]

/-- the tests whose run was ended, in a rendered run that does not crash -/
theorem ended_render (last : Option Nat) (segs : List (T × List Ev)) (rest : List T)
    (hproto : ∀ p ∈ segs, Protocol p.1.id p.2) : endedTests (render false last segs rest) = segs.map (·.1.id) := by
  induction segs generalizing last with
  | nil => rfl
  | cons p segs ih =>
    obtain ⟨t, seg⟩ := p
    have h1 := (hproto (t, seg) (by simp)).noReports.2
    have ih' := ih (some t.file) (fun q hq => hproto q (by simp [hq]))
    unfold endedTests at h1 ih' ⊢
    simp only at h1
    simp only [render, List.filterMap_append, h1, ih', Bool.and_false, Bool.false_eq_true, if_false, List.map_cons]
    split <;> split <;> simp

theorem RunOk.started {env : Env} {ts : List T} {st : St} {r : Option X × St} {segs : List (T × List Ev)} {rest : List T}
    {crashed complete : Bool} (ok : RunOk env ts st r segs rest crashed complete) (ht : st.trace = []) :
    startedTests r.2.trace = segs.map (·.1.id) := by
  have hproto : ∀ p ∈ segs, Protocol p.1.id p.2 := by
    intro p hp; obtain ⟨y, hy, -⟩ := ok.eachSeg p hp; exact hy.proto
  unfold startedTests
  rw [ok.filterMap _ (by simp) (by simp) (by simp) rfl, ht]
  simp only [List.filterMap_nil, List.nil_append]
  clear ok ht
  induction segs with
  | nil => rfl
  | cons p segs ih =>
    have h1 := (hproto p (by simp)).noReports.1
    unfold startedTests at h1
    simp only [List.flatMap_cons, List.map_cons, h1]
    rw [ih (fun q hq => hproto q (by simp [hq]))]
    rfl

/-! ## C12 -/

/-- **C12.** In every run of distinct tests - whatever they and all hooks and teardowns do - the tests whose run is
begun are a prefix of the list, in order; the bodies that are run are those of a subsequence of that prefix, each once;
if `run_tests` returns normally every begun test is also ended. -/
theorem C12_prefix (env : Env) (ts : List T) (st : St) (hf : Fresh ts st) (ht : st.trace = []) :
    ∃ n ≤ ts.length, startedTests (runTests env ts st).2.trace = (ts.take n).map (·.id) ∧
      (bodies (runTests env ts st).2.trace).Sublist ((ts.take n).map (·.id)) ∧
      ((runTests env ts st).1 = none → endedTests (runTests env ts st).2.trace = (ts.take n).map (·.id)) ∧
      ((runTests env ts st).1 = none → n < ts.length → n ≠ 0) := by
  obtain ⟨segs, rest, crashed, complete, ok⟩ := runTests_ok env ts st hf
  have htake : ts.take segs.length = segs.map (·.1) := by rw [ok.split]; simp
  have hproto : ∀ p ∈ segs, Protocol p.1.id p.2 := by
    intro p hp; obtain ⟨y, hy, -⟩ := ok.eachSeg p hp; exact hy.proto
  refine ⟨segs.length, by rw [ok.split]; simp, ?_, ?_, ?_, ?_⟩
  · rw [ok.started ht, htake, List.map_map]; rfl
  · unfold bodies
    rw [ok.filterMap _ (by simp) (by simp) (by simp) rfl, ht, htake]
    simp only [List.filterMap_nil, List.nil_append]
    clear htake ok ht
    induction segs with
    | nil => exact List.Sublist.refl _
    | cons p segs ih =>
      simp only [List.flatMap_cons, List.map_cons]
      have ih' := ih (fun q hq => hproto q (by simp [hq]))
      obtain ⟨core, su, hcore, hsu, -, -, -, heq⟩ := (hproto p (by simp)).filterMap
        (fun e => match e with | .body i => some i | _ => none) (by simp) rfl
      rw [heq]
      rcases hcore with rfl | rfl | rfl <;> rcases hsu with rfl | ⟨h, rfl⟩ <;> simp
      all_goals first
        | exact List.Sublist.cons _ (by simpa using ih')
        | (simpa using ih')
  · intro hn
    have hcf := ok.noCrash hn
    subst hcf
    obtain ⟨cl, fe, h1, h2, h3⟩ := ok.trace
    have h3' : fe = [] ∨ ∃ i, fe = [.fileEnd i] := by
      rcases h3 with h | h
      · exact .inl h.1
      · obtain ⟨p, -, hp⟩ := h.2.2; exact .inr ⟨_, hp⟩
    unfold endedTests
    rw [h1, List.append_assoc, List.filterMap_append, filterMap_tail _ (by simp) rfl h2 h3', ht, htake]
    simp only [List.nil_append, List.append_nil]
    exact (ended_render none segs rest hproto).trans (by simp)
  · intro hn hlt h0
    have hs : segs = [] := List.eq_nil_of_length_eq_zero h0
    cases hc : complete with
    | true => have := ok.allRun hc; rw [ok.split, hs, this] at hlt; simp at hlt
    | false =>
      obtain ⟨cl, fe, h1, h2, h3⟩ := ok.trace
      rcases h3 with h | h
      · rcases h.2 with h' | h'
        · exact h' hn
        · rw [hc] at h'; cases h'
      · obtain ⟨p, hp, -⟩ := h.2.2; rw [hs] at hp; cases hp

/-- **C12.** If `run_tests` returns normally, every test of the list has a result, and those that were not begun have a
fresh one (marked not-run). -/
theorem C12_all_have_results (env : Env) (ts : List T) (st : St) (hf : Fresh ts st) (ht : st.trace = [])
    (hn : (runTests env ts st).1 = none) :
    ∀ t ∈ ts, ∃ r, (runTests env ts st).2.res.get t.id = some r ∧
      (t.id ∉ startedTests (runTests env ts st).2.trace → r = {} ∧ r.isNotRun = true) := by
  obtain ⟨segs, rest, crashed, complete, ok⟩ := runTests_ok env ts st hf
  obtain ⟨tests, h1, h2⟩ := ok.tests hn
  have hst := ok.started ht
  intro t htm
  rw [ok.split, List.mem_append] at htm
  rcases htm with hm | hm
  · obtain ⟨p, hp, rfl⟩ := List.mem_map.1 hm
    have hmem : p.1.id ∈ (runTests env ts st).2.res.tests.map (·.1) := by
      rw [h1, List.map_append, h2]
      exact List.mem_append_left _ (List.mem_append_right _ (List.mem_map.2 ⟨p, hp, rfl⟩))
    obtain ⟨r, hr⟩ := Option.isSome_iff_exists.1 ((get_isSome _ _).2 hmem)
    refine ⟨r, hr, fun hns => ?_⟩
    exact absurd (by rw [hst]; exact List.mem_map.2 ⟨p, hp, rfl⟩) hns
  · have hnot : t.id ∉ tests.map (·.1) := by
      rw [h2, List.mem_append, not_or]
      refine ⟨hf.ids t (by rw [ok.split]; simp [hm]), ?_⟩
      intro h
      have := hf.nodup
      rw [ok.split] at this
      simp only [List.map_append, List.map_map] at this
      exact (List.nodup_append.1 this).2.2 t.id h t.id (List.mem_map_of_mem hm) rfl
    refine ⟨{}, ?_, fun _ => ⟨rfl, rfl⟩⟩
    simp only [SessionResults.get, SessionResults.lookup, h1, List.find?_append]
    have hnone : tests.find? (·.1 == t.id) = none := by
      rw [List.find?_eq_none]
      intro p hp hpe
      exact hnot (List.mem_map.2 ⟨p, hp, by simpa using hpe⟩)
    rw [hnone]
    simp only [Option.none_or]
    clear hst hf ok h1 h2 hn ht
    induction rest with
    | nil => cases hm
    | cons u us ih =>
      simp only [List.map_cons, List.find?_cons]
      by_cases h : u.id = t.id
      · simp [h]
      · have : (u.id == t.id) = false := by simpa using h
        rw [this]
        rcases List.mem_cons.1 hm with rfl | hm'
        · exact absurd rfl h
        · exact ih hm'

/-- **C12.** Why a run that returns normally stops before the end of the list: the last test that was run recorded a
fatal exception, or stop-on-error is set and the session was not successful at that point. -/
theorem C12_stop_reason (env : Env) (ts : List T) (st : St) (hf : Fresh ts st) (ht : st.trace = [])
    (hn : (runTests env ts st).1 = none) (hs : startedTests (runTests env ts st).2.trace ≠ ts.map (·.id)) :
    ∃ id r, (startedTests (runTests env ts st).2.trace).getLast? = some id ∧
      (runTests env ts st).2.res.get id = some r ∧
      (r.hasFatal = true ∨ (env.stop = true ∧ (loop env ts { st with lastFile := none }).2.2.2.res.isSuccess true = false)) := by
  obtain ⟨segs, rest, crashed, complete, ok⟩ := runTests_ok env ts st hf
  have hst := ok.started ht
  cases hc : complete with
  | true =>
    exfalso
    apply hs
    rw [hst, ok.split, ok.allRun hc]
    simp
  | false =>
    obtain ⟨p, res, hp, hget, h⟩ := ok.stop hn hc
    refine ⟨p.1.id, res, ?_, hget, h⟩
    rw [hst, List.getLast?_map, hp]; rfl

theorem initiateCleanup_started (env : Env) (st : St) :
    startedTests (initiateCleanup env st).2.trace = startedTests st.trace ∧
    ∀ i, .body i ∈ (initiateCleanup env st).2.trace → .body i ∈ st.trace := by
  obtain ⟨⟨cl, hcl, hE⟩, -, -, -, -⟩ := initiateCleanup_ext env st
  rw [hE.trace]
  rcases hcl with rfl | rfl <;> simp [startedTests]

/-- what follows the loop begins no test and runs no body -/
theorem runTests_after (env : Env) (ts : List T) (st : St) :
    startedTests (runTests env ts st).2.trace = startedTests (loop env ts { st with lastFile := none }).2.2.2.trace ∧
    ∀ i, .body i ∈ (runTests env ts st).2.trace → .body i ∈ (loop env ts { st with lastFile := none }).2.2.2.trace := by
  unfold runTests
  rcases hl : loop env ts { st with lastFile := none } with ⟨x, complete, rest, s1⟩
  simp only
  have h1 := initiateCleanup_started env s1
  rcases hc : initiateCleanup env s1 with ⟨x2, s2⟩
  rw [hc] at h1
  simp only at h1 ⊢
  have hm : ∀ (l : List T) (s : St), (markUnrun l s).2.trace = s.trace := by
    intro l
    induction l with
    | nil => intro s; rfl
    | cons t l ih =>
      intro s
      unfold markUnrun
      split
      · rfl
      · rw [ih]
  split
  · exact h1
  · have hm' := hm rest s2
    rcases hk : markUnrun rest s2 with ⟨_ | y, s3⟩ <;> rw [hk] at hm' <;> simp only at hm' ⊢
    · split
      · simp only [hm']; exact h1
      · split
        · simp only [St.emit, startedTests, List.filterMap_append, List.mem_append, hm'] at h1 ⊢
          exact ⟨by simpa using h1.1, fun i hi => h1.2 i (by simpa using hi)⟩
        · simp only [hm']; exact h1
    · rw [hm']; exact h1

/-- **C12.** Conversely, when a run has to stop: if the body of a test raised an exception that is added to its result,
and either stop-on-error is set (and the exception is not a skip) or the exception is fatal, that test is the last one
begun - whatever else happens in the run. -/
theorem C12_stops (env : Env) (ts : List T) (st : St) (hf : Fresh ts st) (ht : st.trace = []) (t : T) (htm : t ∈ ts)
    (hb : t.id ∈ bodies (runTests env ts st).2.trace) (x : X) (hx : t.body.raises = some x) (hel : x.elsewhere = false)
    (hs : (env.stop = true ∧ x.kind ≠ .skip) ∨
      ((x.kind = .error ∨ x.kind = .failure ∨ x.kind = .other) ∧ x.fatal = true)) :
    (startedTests (runTests env ts st).2.trace).getLast? = some t.id := by
  obtain ⟨h1, h2⟩ := runTests_after env ts st
  obtain ⟨d, hd, -, hl⟩ := loop_stops env ts { st with lastFile := none } ⟨hf.nodup, hf.ids, hf.indexed⟩ (by simp [ht])
  have hd : (loop env ts { st with lastFile := none }).2.2.2.trace = d :=
    hd.trans (by show st.trace ++ d = d; rw [ht, List.nil_append])
  have hb' : .body t.id ∈ d := by
    rw [← hd]
    apply h2
    unfold bodies at hb
    obtain ⟨e, he, hee⟩ := List.mem_filterMap.1 hb
    cases e <;> simp at hee
    subst hee
    exact he
  obtain ⟨a, b, rfl, hab⟩ := hl t htm hb' ⟨x, hx, hel, hs⟩
  rw [h1, hd]
  have hbn : startedTests b = [] := by
    unfold startedTests
    rw [List.filterMap_eq_nil_iff]
    intro e he
    cases e <;> first | rfl | exact absurd he (hab _)
  unfold startedTests at hbn ⊢
  simp only [List.filterMap_append, List.filterMap_cons, hbn, List.getLast?_append, List.getLast?_singleton, Option.some_or]

/-- The second of three tests fails: with stop-on-error it is the last; without, only if the failure is fatal. -/
example : (startedTests (runTests { stop := true } [{ id := 1, file := 0, module := 1 },
      { id := 2, file := 0, module := 1, body := { raises := some { kind := .failure } } }, { id := 3, file := 0, module := 1 }]).2.trace,
    startedTests (runTests {} [{ id := 1, file := 0, module := 1 },
      { id := 2, file := 0, module := 1, body := { raises := some { kind := .failure } } }, { id := 3, file := 0, module := 1 }]).2.trace,
    startedTests (runTests {} [{ id := 1, file := 0, module := 1 },
      { id := 2, file := 0, module := 1, body := { raises := some { kind := .failure, fatal := true } } },
      { id := 3, file := 0, module := 1 }]).2.trace) = ([1, 2], [1, 2, 3], [1, 2]) := by decide

/-- **C12.** What ends `run_tests` by an exception is never an ordinary error or failure: it is an interruption, a
skip, or another non-ordinary exception. -/
theorem C12_only_special_exceptions_escape (env : Env) (ts : List T) (st : St) (hf : Fresh ts st) (x : X)
    (hx : (runTests env ts st).1 = some x) : x.kind ≠ .error ∧ x.kind ≠ .failure := by
  obtain ⟨segs, rest, crashed, complete, ok⟩ := runTests_ok env ts st hf
  have := ok.escapes x hx
  constructor <;> intro h <;> rw [h] at this <;> cases this

/-- **C12.** The session is marked complete only if all tests were run and `run_tests` returned normally (for a session
not marked before). -/
theorem C12_complete_only_if_all (env : Env) (ts : List T) (st : St) (hf : Fresh ts st) (ht : st.trace = [])
    (hc : st.complete = false) (h : (runTests env ts st).2.complete = true) :
    startedTests (runTests env ts st).2.trace = ts.map (·.id) ∧ (runTests env ts st).1 = none := by
  obtain ⟨segs, rest, crashed, complete, ok⟩ := runTests_ok env ts st hf
  have hfl := ok.flag
  rw [h, hc] at hfl
  simp only [Bool.false_or] at hfl
  have := (Bool.and_eq_true _ _).mp hfl.symm
  have hr := ok.allRun this.1
  refine ⟨?_, by simpa using this.2⟩
  rw [ok.started ht, ok.split, hr]; simp

/-- **C12 is violated**: a skip raised while checking the requirements of a test (or by the `test_avoided` or `test_end`
hooks) is not absorbed: it ends the whole run, and the remaining tests get no result. -/
theorem C12_skip_ends_run_violated :
    ∃ (env : Env) (ts : List T), Fresh ts started ∧ (∀ t ∈ ts, ∀ x, t.reqStep.raises = some x → x.kind = .skip) ∧
      ts.length = 2 ∧ startedTests (runTests env ts).2.trace = [1] ∧ (runTests env ts).2.res.get 2 = none ∧
      (runTests env ts).1.map (·.kind) = some .skip :=
  ⟨{}, [{ id := 1, file := 0, module := 1, reqStep := { raises := some { kind := .skip } } }, { id := 2, file := 0, module := 1 }],
   ⟨by decide, by simp [ids, started], by simp [started]⟩, by simp, by decide, by decide, by decide, by decide⟩

/-- **C12 is violated**: when the user interrupts the run, the tests not begun get no result (instead of one marked
not-run). -/
theorem C12_interrupted_violated :
    ∃ (env : Env) (ts : List T), Fresh ts started ∧ ts.length = 2 ∧
      startedTests (runTests env ts).2.trace = [1] ∧ (runTests env ts).2.res.get 2 = none ∧
      (runTests env ts).1.map (·.kind) = some .interrupt :=
  ⟨{}, [{ id := 1, file := 0, module := 1, body := { raises := some { kind := .interrupt } } }, { id := 2, file := 0, module := 1 }],
   ⟨by decide, by simp [ids, started], by simp [started]⟩, by decide, by decide, by decide, by decide⟩

/-- **C12 is violated**: all tests ran, yet the session is not marked complete (the last test failed, with
stop-on-error set). -/
theorem C12_complete_violated :
    ∃ (env : Env) (ts : List T), Fresh ts started ∧ startedTests (runTests env ts).2.trace = ts.map (·.id) ∧
      (runTests env ts).1 = none ∧ (runTests env ts).2.complete = false :=
  ⟨{ stop := true }, [{ id := 1, file := 0, module := 1, body := { raises := some { kind := .error } } }],
   ⟨by decide, by simp [ids, started], by simp [started]⟩, by decide, by decide, by decide⟩

/-- A run of three tests: an error, a skip, and a success; nothing stops. -/
example : (runTests {} [{ id := 1, file := 0, module := 1, body := { raises := some { kind := .error } } },
      { id := 2, file := 0, module := 1, avoid := ["no"] }, { id := 3, file := 1, module := 2 }]).2.trace =
    [.fileStart 0, .reportStart 1, .hookStart 1, .body 1, .summary 1 .error, .hookEnd 1, .reportEnd 1,
     .reportStart 2, .avoided 2, .reportEnd 2, .fileEnd 0,
     .fileStart 1, .reportStart 3, .hookStart 3, .body 3, .summary 3 .success, .hookEnd 3, .cleanup, .reportEnd 3,
     .fileEnd 1] := by decide

example : Fresh [{ id := 1, file := 0, module := 1 }, { id := 2, file := 0, module := 1 }] started :=
  ⟨by decide, by simp [ids, started], by simp [started]⟩

/-! ## C13 -/

/-- **C13.** In every run the start hooks, bodies and end hooks come, test by test for the tests that were begun, as one
of: nothing; start and end; start, body and end. In particular the end hook of a test fires iff its start hook fired,
once, after the body, and before anything of the next test - even if the run ends by an exception. -/
theorem C13_start_end_paired (env : Env) (ts : List T) (st : St) (hf : Fresh ts st) (ht : st.trace = []) :
    ∃ pieces : List (T × List Ev), pieces.map (·.1.id) = startedTests (runTests env ts st).2.trace ∧
      pieces.map (·.1) = ts.take pieces.length ∧
      hookTrace (runTests env ts st).2.trace = pieces.flatMap (·.2) ∧
      ∀ p ∈ pieces, p.2 = [] ∨ p.2 = [.hookStart p.1.id, .hookEnd p.1.id] ∨
        p.2 = [.hookStart p.1.id, .body p.1.id, .hookEnd p.1.id] := by
  obtain ⟨segs, rest, crashed, complete, ok⟩ := runTests_ok env ts st hf
  refine ⟨segs.map (fun p => (p.1, hookTrace p.2)), ?_, ?_, ?_, ?_⟩
  · rw [ok.started ht, List.map_map]; rfl
  · rw [ok.split, List.map_map]; simp
  · unfold hookTrace
    rw [filter_eq_filterMap', ok.filterMap _ (by simp) (by simp) (by simp) (by simp), ht]
    simp only [List.filterMap_nil, List.nil_append, List.flatMap_map, Bool.false_eq_true, if_false, Option.toList_none]
    congr 1
    funext p
    rw [filter_eq_filterMap']
  · intro q hq
    obtain ⟨p, hp, rfl⟩ := List.mem_map.1 hq
    obtain ⟨y, hy, -⟩ := ok.eachSeg p hp
    simp only
    rcases hy.proto.flat with h | ⟨core, su, cl, h, hcore, hsu, hcl⟩
    · left; rw [h]; rfl
    · rw [h]
      rcases hcore with rfl | rfl | rfl <;> rcases hsu with rfl | ⟨h, rfl⟩ <;> rcases hcl with rfl | rfl <;> simp [hookTrace]

/-- a run in which one test is interrupted: the end hook still fires -/
example : hookTrace (runTests {} [{ id := 1, file := 0, module := 1, startHook := { raises := some { kind := .error } } },
    { id := 2, file := 0, module := 1, body := { raises := some { kind := .interrupt } } },
    { id := 3, file := 0, module := 1 }]).2.trace =
    [.hookStart 1, .hookEnd 1, .hookStart 2, .body 2, .hookEnd 2] := by decide

/-! ## C14 -/

/-- maximal runs of consecutive tests of one file: the file and the tests -/
def byFile : List T → List (Nat × List Nat)
  | [] => []
  | t :: ts =>
    match byFile ts with
    | [] => [(t.file, [t.id])]
    | (f, g) :: gs => if f = t.file then (f, t.id :: g) :: gs else (t.file, [t.id]) :: (f, g) :: gs

/-- what the reporter should see: each group bracketed by a file start and a file end -/
def fileSpec (ts : List T) : List Ev :=
  (byFile ts).flatMap (fun p => [.fileStart p.1] ++ p.2.map .reportStart ++ [.fileEnd p.1])

/-- file starts and ends, and test starts -/
def fileTrace (tr : List Ev) : List Ev :=
  tr.filter (fun e => match e with | .fileStart _ | .fileEnd _ | .reportStart _ => true | _ => false)

theorem byFile_cons (t : T) (ts : List T) : ∃ g gs, byFile (t :: ts) = (t.file, t.id :: g) :: gs := by
  simp only [byFile]
  split
  · exact ⟨_, _, rfl⟩
  · split
    · rename_i h; exact ⟨_, _, by rw [h]⟩
    · exact ⟨_, _, rfl⟩

theorem fileSpec_cons (t : T) (ts : List T) : fileSpec (t :: ts) = [.fileStart t.file, .reportStart t.id] ++
    (if ts.head?.map (·.file) = some t.file then (fileSpec ts).tail else [.fileEnd t.file] ++ fileSpec ts) := by
  cases ts with
  | nil => simp [fileSpec, byFile]
  | cons u us =>
    obtain ⟨g, gs, hg⟩ := byFile_cons u us
    have : byFile (t :: u :: us) = if u.file = t.file then (u.file, t.id :: u.id :: g) :: gs else (t.file, [t.id]) :: (u.file, u.id :: g) :: gs := by
      rw [byFile, hg]
    simp only [fileSpec, this, hg, List.head?_cons, Option.map_some, Option.some.injEq]
    by_cases h : u.file = t.file <;> simp [h]

theorem fileSpec_ne (t : T) (ts : List T) : ∃ l, fileSpec (t :: ts) = .fileStart t.file :: l := by
  rw [fileSpec_cons]; exact ⟨_, rfl⟩

theorem Protocol.fileTrace {i : Nat} {seg : List Ev} (h : Protocol i seg) : Runner.fileTrace seg = [] := by
  rcases h.flat with rfl | ⟨core, su, cl, rfl, hcore, hsu, hcl⟩
  · simp [Runner.fileTrace]
  rcases hcore with rfl | rfl | rfl <;> rcases hsu with rfl | ⟨h, rfl⟩ <;> rcases hcl with rfl | rfl <;>
    simp [Runner.fileTrace]

theorem fileTrace_append (a b : List Ev) : fileTrace (a ++ b) = fileTrace a ++ fileTrace b := by
  simp [fileTrace]

theorem fileTrace_render (crashed : Bool) (segs : List (T × List Ev)) (rest : List T)
    (hproto : ∀ p ∈ segs, Protocol p.1.id p.2) (last : Option Nat) (p : T × List Ev) (hp : segs.getLast? = some p) :
    fileTrace (render crashed last segs rest) ++
        (if crashed = true ∨ rest.head?.map (·.file) = some p.1.file then [.fileEnd p.1.file] else []) =
      (if last = segs.head?.map (·.1.file) then (fileSpec (segs.map (·.1))).tail else fileSpec (segs.map (·.1))) := by
  induction segs generalizing last with
  | nil => cases hp
  | cons q segs ih =>
    obtain ⟨t, seg⟩ := q
    have h1 := (hproto (t, seg) (by simp)).fileTrace
    simp only at h1
    simp only [render, fileTrace_append, h1, List.head?_cons, Option.map_some, List.map_cons]
    rw [fileSpec_cons]
    have hs : fileTrace (if last = some t.file then [] else [.fileStart t.file]) =
        if last = some t.file then [] else [.fileStart t.file] := by split <;> rfl
    rw [hs]
    cases segs with
    | nil =>
      simp only [List.getLast?_singleton, Option.some.injEq] at hp
      subst hp
      simp only [List.map_nil, List.nil_append, List.isEmpty_nil, Bool.true_and, render, List.head?_nil, Option.map_none]
      cases crashed
      · simp only [Bool.false_eq_true, if_false, false_or]
        by_cases hl : last = some t.file <;> by_cases hr : rest.head?.map (·.file) = some t.file <;>
          simp [hl, hr, fileTrace, fileSpec, byFile]
      · by_cases hl : last = some t.file <;> simp [hl, fileTrace, fileSpec, byFile]
    | cons q' segs =>
      have ih' := ih (fun r hr => hproto r (by simp [hr])) (some t.file) (by simpa using hp)
      obtain ⟨u, useg⟩ := q'
      simp only [List.isEmpty_cons, Bool.false_and, Bool.false_eq_true, if_false, List.map_cons, List.cons_append,
        List.head?_cons, Option.map_some, Option.some.injEq, fileTrace_append] at ih' ⊢
      have hre : fileTrace [Ev.reportEnd t.id] = [] := rfl
      have hrs : fileTrace [Ev.reportStart t.id] = [.reportStart t.id] := rfl
      have hfe : fileTrace [Ev.reportEnd t.id, Ev.fileEnd t.file] = [.fileEnd t.file] := rfl
      have hnil : fileTrace [] = [] := rfl
      generalize (if crashed = true ∨ rest.head?.map (·.file) = some p.1.file then [Ev.fileEnd p.1.file] else []) = e at ih' ⊢
      generalize fileTrace (render crashed (some t.file) ((u, useg) :: segs) rest) = R at ih' ⊢
      by_cases hu : u.file = t.file
      · simp only [hu, if_true] at ih' ⊢
        by_cases hl : last = some t.file <;> simp [hl, hre, hrs, hnil, ih', hu]
      · have hu' : ¬ t.file = u.file := fun h => hu h.symm
        simp only [hu, hu', if_false] at ih' ⊢
        by_cases hl : last = some t.file <;> simp [hl, hrs, hfe, ih']

/-- **C14 (partial).** For every run, what the reporter sees of files and test starts, compared to the proper bracketing
`fileSpec` of the tests that were begun: it is exactly that if the run completes, or stops in the middle of a file; if it
stops normally at a boundary of files there is an extra file end; if it ends by an exception the last file end may be
missing. Full statement: always exactly `fileSpec`; see the two violations below. -/
theorem C14_files_partial (env : Env) (ts : List T) (st : St) (hf : Fresh ts st) (ht : st.trace = []) :
    ∃ n ≤ ts.length, startedTests (runTests env ts st).2.trace = (ts.take n).map (·.id) ∧
      let seen := fileTrace (runTests env ts st).2.trace
      ((runTests env ts st).1 = none → (st.complete = false ∧ (runTests env ts st).2.complete = true) ∨
          (∃ t u, ts[n - 1]? = some t ∧ ts[n]? = some u ∧ t.file = u.file) → seen = fileSpec (ts.take n)) ∧
      ((runTests env ts st).1 = none → seen = fileSpec (ts.take n) ∨
          ∃ t, ts[n - 1]? = some t ∧ seen = fileSpec (ts.take n) ++ [.fileEnd t.file]) ∧
      (seen = fileSpec (ts.take n) ∨ (∃ t, ts[n - 1]? = some t ∧ (seen = fileSpec (ts.take n) ++ [.fileEnd t.file] ∨
          seen ++ [.fileEnd t.file] = fileSpec (ts.take n)))) := by
  obtain ⟨segs, rest, crashed, complete, ok⟩ := runTests_ok env ts st hf
  have htake : ts.take segs.length = segs.map (·.1) := by rw [ok.split]; simp
  have hproto : ∀ p ∈ segs, Protocol p.1.id p.2 := by
    intro p hp; obtain ⟨y, hy, -⟩ := ok.eachSeg p hp; exact hy.proto
  obtain ⟨cl, fe, h1, h2, h3⟩ := ok.trace
  have hcl : fileTrace cl = [] := by rcases h2 with rfl | rfl <;> rfl
  have hseen : fileTrace (runTests env ts st).2.trace = fileTrace (render crashed none segs rest) ++ fileTrace fe := by
    rw [h1, ht]; simp [fileTrace_append, hcl]
  refine ⟨segs.length, by rw [ok.split]; simp, by rw [ok.started ht, htake, List.map_map]; rfl, ?_⟩
  simp only
  rw [hseen, htake]
  cases hg : segs.getLast? with
  | none =>
    have hs : segs = [] := List.getLast?_eq_none_iff.1 hg
    subst hs
    have hfe : fe = [] := by
      rcases h3 with h | h
      · exact h.1
      · obtain ⟨p, hp, -⟩ := h.2.2; cases hp
    subst hfe
    simp [render, fileTrace, fileSpec, byFile]
  | some p =>
    have hr := fileTrace_render crashed segs rest hproto none p hg
    have hne : ∃ q qs, segs = q :: qs := by
      cases segs with
      | nil => cases hg
      | cons q qs => exact ⟨q, qs, rfl⟩
    have hn0 : (none : Option Nat) ≠ segs.head?.map (·.1.file) := by
      obtain ⟨q, qs, rfl⟩ := hne; simp
    rw [if_neg hn0] at hr
    have hlast : ts[segs.length - 1]? = some p.1 := by
      rw [ok.split]
      have hlen : segs.length - 1 < segs.length := by obtain ⟨q, qs, rfl⟩ := hne; simp
      rw [List.getElem?_append_left (by simpa using hlen), List.getElem?_map]
      rw [List.getLast?_eq_getElem?] at hg
      rw [hg]; rfl
    have hnext : ts[segs.length]? = rest.head? := by
      rw [ok.split, List.getElem?_append_right (by simp)]
      simp [List.head?_eq_getElem?]
    rcases h3 with ⟨rfl, h3⟩ | ⟨h3, h4, q, hq, rfl⟩
    · have hfe : fileTrace [] = [] := rfl
      rw [hfe, List.append_nil]
      have hdone : (runTests env ts st).1 = none → fileTrace (render crashed none segs rest) = fileSpec (segs.map (·.1)) := by
        intro hn
        have hc := ok.noCrash hn
        have hco : complete = true := by
          rcases h3 with h | h
          · exact absurd hn h
          · exact h
        have hrest := ok.allRun hco
        subst hrest
        simpa [hc] using hr
      refine ⟨fun hn _ => hdone hn, fun hn => .inl (hdone hn), ?_⟩
      by_cases hc : crashed = true ∨ rest.head?.map (·.file) = some p.1.file
      · rw [if_pos hc] at hr
        exact .inr ⟨p.1, hlast, .inr hr⟩
      · rw [if_neg hc, List.append_nil] at hr
        exact .inl hr
    · have hpq : q = p := by rw [hg] at hq; simpa using hq.symm
      subst hpq
      have hc := ok.noCrash h3
      have hfe : fileTrace [.fileEnd q.1.file] = [.fileEnd q.1.file] := rfl
      rw [hfe]
      by_cases hb : rest.head?.map (·.file) = some q.1.file
      · rw [if_pos (.inr hb)] at hr
        rw [hr]
        exact ⟨fun _ _ => rfl, fun _ => .inl rfl, .inl rfl⟩
      · rw [if_neg (by simp [hc, hb]), List.append_nil] at hr
        rw [hr]
        refine ⟨fun _ h => ?_, fun _ => .inr ⟨q.1, hlast, rfl⟩, .inr ⟨q.1, hlast, .inl rfl⟩⟩
        exfalso
        rcases h with ⟨h5, h6⟩ | ⟨t, u, h5, h6, h7⟩
        · have := ok.flag
          rw [h5, h6, h4] at this
          cases this
        · rw [hlast] at h5
          rw [hnext] at h6
          simp only [Option.some.injEq] at h5
          apply hb
          rw [h6, h5]
          simp [h7]

/-- three tests in two files, stopping in the middle of the second -/
example : fileTrace (runTests { stop := true } [{ id := 1, file := 0, module := 1 },
      { id := 2, file := 1, module := 2, body := { raises := some { kind := .failure } } },
      { id := 3, file := 1, module := 2 }]).2.trace =
    [.fileStart 0, .reportStart 1, .fileEnd 0, .fileStart 1, .reportStart 2, .fileEnd 1] := by decide

/-- **C14 is violated**: a run that stops at the last test of a file reports the end of that file twice. -/
theorem C14_double_file_end_violated :
    ∃ (env : Env) (ts : List T), Fresh ts started ∧ (runTests env ts).1 = none ∧
      fileTrace (runTests env ts).2.trace = [.fileStart 7, .reportStart 1, .fileEnd 7, .fileEnd 7] :=
  ⟨{ stop := true }, [{ id := 1, file := 7, module := 1, body := { raises := some { kind := .failure } } },
    { id := 2, file := 8, module := 2 }], ⟨by decide, by simp [ids, started], by simp [started]⟩, by decide, by decide⟩

/-- **C14 is violated**: when the run is interrupted the end of the current file is never reported. -/
theorem C14_missing_file_end_violated :
    ∃ (env : Env) (ts : List T), Fresh ts started ∧
      fileTrace (runTests env ts).2.trace = [.fileStart 7, .reportStart 1] :=
  ⟨{}, [{ id := 1, file := 7, module := 1, body := { raises := some { kind := .interrupt } } }],
    ⟨by decide, by simp [ids, started], by simp [started]⟩, by decide⟩

/-! ## C07: summary hooks during a run -/

/-- **C07.** During any run at most one summary hook fires per test, and only for begun tests; for a test whose start
hook fired, and in which nothing raises an interruption, exactly one fires. -/
theorem C07_one_summary_per_test_partial (env : Env) (ts : List T) (st : St) (hf : Fresh ts st) (ht : st.trace = []) :
    ((summaries (runTests env ts st).2.trace).map (·.1)).Sublist (startedTests (runTests env ts st).2.trace) ∧
    ∀ t ∈ ts, t.calm → .hookStart t.id ∈ (runTests env ts st).2.trace →
      ((summaries (runTests env ts st).2.trace).filter (·.1 == t.id)).length = 1 := by
  obtain ⟨segs, rest, crashed, complete, ok⟩ := runTests_ok env ts st hf
  have hsum : summaries (runTests env ts st).2.trace = segs.flatMap (fun p => summaries p.2) := by
    unfold summaries
    rw [ok.filterMap _ (by simp) (by simp) (by simp) rfl, ht]
    simp
  have hone : ∀ p ∈ segs, summaries p.2 = [] ∨ ∃ h, summaries p.2 = [(p.1.id, h)] := by
    intro p hp
    obtain ⟨y, hy, -⟩ := ok.eachSeg p hp
    rcases hy.proto.flat with h | ⟨core, su, cl, h, hcore, hsu, hcl⟩
    · left; rw [h]; rfl
    · rw [h]
      rcases hcore with rfl | rfl | rfl <;> rcases hsu with rfl | ⟨h, rfl⟩ <;> rcases hcl with rfl | rfl <;> simp [summaries]
  have hsub : ((summaries (runTests env ts st).2.trace).map (·.1)).Sublist (segs.map (·.1.id)) := by
    rw [hsum]
    clear hsum ok ht
    induction segs with
    | nil => exact List.Sublist.refl _
    | cons p segs ih =>
      have ih' := ih (fun q hq => hone q (by simp [hq]))
      simp only [List.flatMap_cons, List.map_append, List.map_cons]
      rcases hone p (by simp) with h | ⟨h, h'⟩
      · rw [h]; exact List.Sublist.cons _ ih'
      · rw [h']; exact List.Sublist.cons_cons _ ih'
  rw [ok.started ht]
  refine ⟨hsub, ?_⟩
  intro t htm hcalm hstart
  have hnd : (segs.map (·.1.id)).Nodup := by
    have := hf.nodup
    rw [ok.split] at this
    simp only [List.map_append, List.map_map] at this
    exact (List.nodup_append.1 this).1
  -- the segment of the test
  have hmem : ∃ p ∈ segs, .hookStart t.id ∈ p.2 := by
    have : t.id ∈ (runTests env ts st).2.trace.filterMap (fun e => match e with | .hookStart i => some i | _ => none) :=
      List.mem_filterMap.2 ⟨_, hstart, rfl⟩
    rw [ok.filterMap _ (by simp) (by simp) (by simp) rfl, ht] at this
    simp only [List.filterMap_nil, List.nil_append, Option.toList_none] at this
    obtain ⟨p, hp, h⟩ := List.mem_flatMap.1 this
    obtain ⟨e, he, h⟩ := List.mem_filterMap.1 h
    refine ⟨p, hp, ?_⟩
    cases e <;> simp at h
    subst h
    exact he
  obtain ⟨p, hp, hs⟩ := hmem
  obtain ⟨y, hy, -⟩ := ok.eachSeg p hp
  have hid : p.1.id = t.id := by
    rcases hy.proto.flat with h | ⟨core, su, cl, h, hcore, hsu, hcl⟩
    · rw [h] at hs; simp at hs
    · rw [h] at hs
      rcases hcore with rfl | rfl | rfl <;> rcases hsu with rfl | ⟨h, rfl⟩ <;> rcases hcl with rfl | rfl <;>
        simp at hs <;> exact hs.symm
  have hpt : p.1 = t := by
    have h1 : p.1 ∈ ts := by rw [ok.split]; exact List.mem_append_left _ (List.mem_map.2 ⟨p, hp, rfl⟩)
    exact inj_on_of_nodup_map hf.nodup h1 htm hid
  subst hpt
  obtain ⟨h, hh⟩ := hy.calmSummary hcalm hs
  have hin : p.1.id ∈ (summaries (runTests env ts st).2.trace).map (·.1) := by
    rw [hsum]
    refine List.mem_map.2 ⟨(p.1.id, h), ?_, rfl⟩
    refine List.mem_flatMap.2 ⟨p, hp, ?_⟩
    exact List.mem_filterMap.2 ⟨_, hh, rfl⟩
  have hnd' := hsub.nodup hnd
  generalize summaries (runTests env ts st).2.trace = l at hin hnd'
  clear hsum hsub
  have hcount : (l.map (·.1)).count p.1.id = 1 := count_eq_one_of_mem hnd' hin
  rw [← hcount, List.count, List.countP_map, List.countP_eq_length_filter]
  rfl

/-- **C07 is violated**: a test that is interrupted gets no summary hook although it was started. -/
theorem C07_interrupted_no_summary_violated :
    ∃ (env : Env) (ts : List T), Fresh ts started ∧ .hookStart 1 ∈ (runTests env ts).2.trace ∧
      summaries (runTests env ts).2.trace = [] :=
  ⟨{}, [{ id := 1, file := 7, module := 1, body := { raises := some { kind := .interrupt } } }],
    ⟨by decide, by simp [ids, started], by simp [started]⟩, by decide, by decide⟩

example : T.calm { id := 1, file := 7, module := 1, body := { raises := some { kind := .failure } } } := by
  simp [T.calm, Kind.isException]

/-! ## C28: avoided tests -/

/-- **C28 (the runner).** A test with an unmet requirement (or that is excluded) is not run: neither its start hook nor
its body, and (fixtures being created by the body) no fixtures. If its requirement check itself raises, the same. -/
theorem C28_avoided_not_run (env : Env) (ts : List T) (st : St) (hf : Fresh ts st) (ht : st.trace = []) (t : T)
    (htm : t ∈ ts) (ha : t.avoid ≠ [] ∨ t.reqStep.raises ≠ none) : .body t.id ∉ (runTests env ts st).2.trace := by
  obtain ⟨segs, rest, crashed, complete, ok⟩ := runTests_ok env ts st hf
  intro hb
  have : t.id ∈ (runTests env ts st).2.trace.filterMap (fun e => match e with | .body i => some i | _ => none) :=
    List.mem_filterMap.2 ⟨_, hb, rfl⟩
  rw [ok.filterMap _ (by simp) (by simp) (by simp) rfl, ht] at this
  simp only [List.filterMap_nil, List.nil_append, Option.toList_none] at this
  obtain ⟨p, hp, h⟩ := List.mem_flatMap.1 this
  obtain ⟨e, he, h⟩ := List.mem_filterMap.1 h
  cases e <;> simp at h
  subst h
  obtain ⟨y, hy, -⟩ := ok.eachSeg p hp
  have hid : p.1.id = t.id := by
    rcases hy.proto.flat with h | ⟨core, su, cl, h, hcore, hsu, hcl⟩
    · rw [h] at he; simp at he
    · rw [h] at he
      rcases hcore with rfl | rfl | rfl <;> rcases hsu with rfl | ⟨h, rfl⟩ <;> rcases hcl with rfl | rfl <;>
        simp at he <;> exact he.symm
  have hpt : p.1 = t := by
    have h1 : p.1 ∈ ts := by rw [ok.split]; exact List.mem_append_left _ (List.mem_map.2 ⟨p, hp, rfl⟩)
    exact inj_on_of_nodup_map hf.nodup h1 htm hid
  subst hpt
  have hbody := hy.body he
  rcases ha with h | h
  · exact h hbody.2.1
  · exact h hbody.1

example : bodies (runTests {} [{ id := 1, file := 0, module := 1, avoid := ["x"] }, { id := 2, file := 0, module := 1 }]).2.trace
    = [2] := by decide

/-! ## C61: interruptions end the run -/

/-- **C61 (partial).** If the body of a test that runs is interrupted (or raises another non-ordinary exception), and
neither its teardown nor its end hook raises an ordinary exception (they may well be interrupted too), then no further
test is begun, and `run_tests` raises. Full statement: without the condition on teardown and end hook. -/
theorem C61_interruption_ends_run_partial (env : Env) (ts : List T) (st : St) (hf : Fresh ts st) (ht : st.trace = [])
    (t : T) (htm : t ∈ ts) (hb : .body t.id ∈ (runTests env ts st).2.trace) (x : X) (hx : t.body.raises = some x)
    (hk : x.kind.isException = false)
    (ho : ∀ k, t.testOut.cleanups = some k ∨ t.testOut.fixtures = some k → k.isException = false)
    (he : ∀ y, t.endHook.raises = some y → y.kind.isException = false) :
    (runTests env ts st).1 ≠ none ∧ (startedTests (runTests env ts st).2.trace).getLast? = some t.id := by
  obtain ⟨segs, rest, crashed, complete, ok⟩ := runTests_ok env ts st hf
  have : t.id ∈ (runTests env ts st).2.trace.filterMap (fun e => match e with | .body i => some i | _ => none) :=
    List.mem_filterMap.2 ⟨_, hb, rfl⟩
  rw [ok.filterMap _ (by simp) (by simp) (by simp) rfl, ht] at this
  simp only [List.filterMap_nil, List.nil_append, Option.toList_none] at this
  obtain ⟨p, hp, h⟩ := List.mem_flatMap.1 this
  obtain ⟨e, he', h⟩ := List.mem_filterMap.1 h
  cases e <;> simp at h
  subst h
  obtain ⟨y, hy, hy2⟩ := ok.eachSeg p hp
  have hid : p.1.id = t.id := by
    rcases hy.proto.flat with h | ⟨core, su, cl, h, hcore, hsu, hcl⟩
    · rw [h] at he'; simp at he'
    · rw [h] at he'
      rcases hcore with rfl | rfl | rfl <;> rcases hsu with rfl | ⟨h, rfl⟩ <;> rcases hcl with rfl | rfl <;>
        simp at he' <;> exact he'.symm
  have hpt : p.1 = t := by
    have h1 : p.1 ∈ ts := by rw [ok.split]; exact List.mem_append_left _ (List.mem_map.2 ⟨p, hp, rfl⟩)
    exact inj_on_of_nodup_map hf.nodup h1 htm hid
  subst hpt
  obtain ⟨z, hz, -⟩ := hy.interrupt he' ⟨ho, he⟩ x hx hk
  obtain ⟨h1, h2⟩ := hy2 (by rw [hz]; simp)
  refine ⟨h2, ?_⟩
  rw [ok.started ht, List.getLast?_map, h1]; rfl

/-- **C61 is violated**: an ordinary error in the end hook of an interrupted test hides the interruption; the run goes
on with the next test and returns normally. -/
theorem C61_interruption_ends_run_violated :
    ∃ (env : Env) (ts : List T), Fresh ts started ∧ (∃ t ∈ ts, t.body.raises.map (·.kind) = some .interrupt ∧ t.id = 1) ∧
      bodies (runTests env ts).2.trace = [1, 2] ∧ (runTests env ts).1 = none :=
  ⟨{}, [{ id := 1, file := 7, module := 1, body := { raises := some { kind := .interrupt } },
          endHook := { raises := some { kind := .error } } },
        { id := 2, file := 7, module := 1 }],
    ⟨by decide, by simp [ids, started], by simp [started]⟩, ⟨_, List.mem_cons_self, by decide, by decide⟩, by decide, by decide⟩

/-- **C61 is violated** by teardown, too: a cleanup of the interrupted test that skips hides the interruption. -/
theorem C61_skip_in_cleanup_violated :
    ∃ (env : Env) (ts : List T), Fresh ts started ∧ (∃ t ∈ ts, t.body.raises.map (·.kind) = some .interrupt ∧ t.id = 1) ∧
      bodies (runTests env ts).2.trace = [1, 2] ∧ (runTests env ts).1 = none :=
  ⟨{}, [{ id := 1, file := 7, module := 1, body := { raises := some { kind := .interrupt } },
          testOut := { cleanups := some .skip } },
        { id := 2, file := 7, module := 1 }],
    ⟨by decide, by simp [ids, started], by simp [started]⟩, ⟨_, List.mem_cons_self, by decide, by decide⟩, by decide, by decide⟩

/-- teardown and end hook are interrupted as well: the run ends all the same -/
example : (startedTests (runTests {} [
    { id := 2, file := 0, module := 1, body := { raises := some { kind := .interrupt } },
      testOut := { fixtures := some .interrupt }, endHook := { raises := some { kind := .other } } },
    { id := 3, file := 0, module := 1 }]).2.trace) = [2] := by decide

example : (startedTests (runTests {} [{ id := 1, file := 0, module := 1 },
    { id := 2, file := 0, module := 1, body := { raises := some { kind := .interrupt } } },
    { id := 3, file := 0, module := 1 }]).2.trace) = [1, 2] := by decide

/-! ## C62: the current result is restored -/

/-- **C62.** After a run, however it ended, the current result and the current test are again those that were current
before it. -/
theorem C62_current_result_restored (env : Env) (ts : List T) (st : St) (hf : Fresh ts st) :
    (runTests env ts st).2.cur = st.cur ∧ (runTests env ts st).2.test = st.test := by
  obtain ⟨segs, rest, crashed, complete, ok⟩ := runTests_ok env ts st hf
  exact ⟨ok.curOk, ok.testOk⟩

/-- also after an exception (the end hook of the last test raises) -/
example : (runTests {} [{ id := 2, file := 0, module := 1, body := { raises := some { kind := .interrupt } }, endHook := { raises := some { kind := .other } } }]).2.cur = .global := by decide

/-! ## C63: what a result says really happened -/

theorem RunOk.unique {env : Env} {ts : List T} {st : St} {r : Option X × St} {segs : List (T × List Ev)} {rest : List T}
    {crashed complete : Bool} (ok : RunOk env ts st r segs rest crashed complete) (hf : Fresh ts st) (t : T)
    (htm : t ∈ ts) (res : Result) (hr : r.2.res.get t.id = some res) :
    t.id ∈ segs.map (·.1.id) ++ (if r.1 = none then rest.map (·.id) else []) ∧
    ∀ p ∈ r.2.res.tests, p.1 = t.id → p.2 = res := by
  have hmem : t.id ∈ ids r.2 := (get_isSome _ _).1 (by rw [hr]; rfl)
  rw [ok.resIds, List.append_assoc, List.mem_append] at hmem
  have hin := hmem.resolve_left (hf.ids t htm)
  refine ⟨hin, ?_⟩
  have hnd : (segs.map (·.1.id) ++ (if r.1 = none then rest.map (·.id) else [])).Nodup := by
    have := hf.nodup
    rw [ok.split] at this
    simp only [List.map_append, List.map_map] at this
    split
    · exact this
    · rw [List.append_nil]; exact (List.nodup_append.1 this).1
  have hcount : (ids r.2).count t.id = 1 := by
    rw [ok.resIds, List.append_assoc, List.count_append, List.count_eq_zero_of_not_mem (hf.ids t htm),
      count_eq_one_of_mem hnd hin]
  intro p hp hpid
  have hc : (r.2.res.tests.filter (fun p => p.1 == t.id)).length = 1 := by
    rw [← hcount, ids, List.count, List.countP_map, List.countP_eq_length_filter]; rfl
  simp only [SessionResults.get, SessionResults.lookup, Option.map_eq_some_iff] at hr
  obtain ⟨q, hq, rfl⟩ := hr
  have hq1 : q.1 = t.id := by simpa using List.find?_some hq
  have hq2 := List.mem_of_find?_eq_some hq
  have h1 : p ∈ r.2.res.tests.filter (fun p => p.1 == t.id) := List.mem_filter.2 ⟨hp, by simp [hpid]⟩
  have h2 : q ∈ r.2.res.tests.filter (fun p => p.1 == t.id) := List.mem_filter.2 ⟨hq2, by simp [hq1]⟩
  obtain ⟨z, hz⟩ := List.length_eq_one_iff.1 hc
  rw [hz] at h1 h2
  simp only [List.mem_singleton] at h1 h2
  rw [h1, h2]

/-- **C63 (partial).** If after any run the result of a test is successful then the test really ran: its requirements
were met, its start hook and its body were executed and raised nothing, its teardown raised nothing, and its end hook
raised nothing but maybe a skip (see C85). Missing (and false of the code, see below): the same for tests in which
something is raised that was added to another result. -/
theorem C63_success_means_it_ran_partial (env : Env) (ts : List T) (st : St) (hf : Fresh ts st) (ht : st.trace = []) (t : T)
    (htm : t ∈ ts) (res : Result) (hr : (runTests env ts st).2.res.get t.id = some res) (hs : res.isSuccess = true) (ho : t.own) :
    .body t.id ∈ (runTests env ts st).2.trace ∧ t.reqStep.raises = none ∧ t.avoid = [] ∧ t.startHook.raises = none ∧
      t.body.raises = none ∧ t.testOut = {} ∧
      (∀ x, t.endHook.raises = some x → x.elsewhere = false → x.kind = .skip) := by
  obtain ⟨segs, rest, crashed, complete, ok⟩ := runTests_ok env ts st hf
  obtain ⟨hin, huniq⟩ := ok.unique hf t htm res hr
  have hnoHas : ∀ k, ¬ Has (runTests env ts st).2 k t.id := by
    rintro k ⟨p, hp, hpid, hsh⟩
    rw [huniq p hp hpid] at hsh
    simp only [Result.isSuccess] at hs
    cases k <;> simp only [Shows] at hsh <;> simp [hsh] at hs
  have hmem : t.id ∈ segs.map (·.1.id) := by
    rw [List.mem_append] at hin
    rcases hin with h | h
    · exact h
    · exfalso
      split at h
      · rename_i hn
        obtain ⟨tests, h1, h2⟩ := ok.tests hn
        have : res = {} := by
          obtain ⟨u, hu, hu2⟩ := List.mem_map.1 h
          have := huniq (t.id, {}) (by rw [h1]; exact List.mem_append_right _ (List.mem_map.2 ⟨u, hu, by rw [hu2]⟩)) rfl
          exact this.symm
        rw [this] at hs; cases hs
      · cases h
  obtain ⟨p, hp, hpid⟩ := List.mem_map.1 hmem
  have hpt : p.1 = t := by
    have h1 : p.1 ∈ ts := by rw [ok.split]; exact List.mem_append_left _ (List.mem_map.2 ⟨p, hp, rfl⟩)
    exact inj_on_of_nodup_map hf.nodup h1 htm hpid
  subst hpt
  obtain ⟨y, hy, -⟩ := ok.eachSeg p hp
  obtain ⟨hb, ho'⟩ := hy.clean ho hnoHas
  obtain ⟨h1, h2, h3, h4⟩ := hy.body hb
  have hend : .hookEnd p.1.id ∈ p.2 := by
    rcases hy.proto.flat with h | ⟨core, su, cl, h, hcore, hsu, hcl⟩
    · rw [h] at hb; simp at hb
    · have hne : core ≠ [] := by
        rintro rfl
        rw [h] at hb
        rcases hsu with rfl | ⟨h, rfl⟩ <;> rcases hcl with rfl | rfl <;> simp at hb
      rw [h, if_neg hne]; simp
  refine ⟨?_, h1, h2, h3, ?_, ho', fun x hx hel => Decidable.byContradiction fun hns =>
    hnoHas _ (hy.endHook hend x hx hns hel)⟩
  · have : p.1.id ∈ (runTests env ts st).2.trace.filterMap (fun e => match e with | .body i => some i | _ => none) := by
      rw [ok.filterMap _ (by simp) (by simp) (by simp) rfl, ht]
      simp only [List.filterMap_nil, List.nil_append, Option.toList_none]
      exact List.mem_flatMap.2 ⟨p, hp, List.mem_filterMap.2 ⟨_, hb, rfl⟩⟩
    obtain ⟨e, he, h⟩ := List.mem_filterMap.1 this
    cases e <;> simp at h
    subst h
    exact he
  · cases hbr : p.1.body.raises with
    | none => rfl
    | some x => exact absurd (h4 x hbr (ho.2.2 x (.inr (.inr hbr)))) (hnoHas _)

/-- **C63 (partial).** An exception raised by the body of a test shows up in the result of that test as what it is: an
error, a failure, a skip, an interruption. Missing (and false of the code, see below): exceptions that were added to
another result before. -/
theorem C63_body_exception_in_result_partial (env : Env) (ts : List T) (st : St) (hf : Fresh ts st) (ht : st.trace = []) (t : T)
    (htm : t ∈ ts) (hb : .body t.id ∈ (runTests env ts st).2.trace) (x : X) (hx : t.body.raises = some x)
    (hel : x.elsewhere = false) :
    ∃ res, (runTests env ts st).2.res.get t.id = some res ∧
      match x.kind with
      | .error | .other => res.isError = true
      | .failure => res.isFailure = true
      | .skip => res.isSkip = true
      | .interrupt => res.interrupted = true := by
  obtain ⟨segs, rest, crashed, complete, ok⟩ := runTests_ok env ts st hf
  have : t.id ∈ (runTests env ts st).2.trace.filterMap (fun e => match e with | .body i => some i | _ => none) :=
    List.mem_filterMap.2 ⟨_, hb, rfl⟩
  rw [ok.filterMap _ (by simp) (by simp) (by simp) rfl, ht] at this
  simp only [List.filterMap_nil, List.nil_append, Option.toList_none] at this
  obtain ⟨p, hp, h⟩ := List.mem_flatMap.1 this
  obtain ⟨e, he', h⟩ := List.mem_filterMap.1 h
  cases e <;> simp at h
  subst h
  obtain ⟨y, hy, hy2⟩ := ok.eachSeg p hp
  have hid : p.1.id = t.id := by
    rcases hy.proto.flat with h | ⟨core, su, cl, h, hcore, hsu, hcl⟩
    · rw [h] at he'; simp at he'
    · rw [h] at he'
      rcases hcore with rfl | rfl | rfl <;> rcases hsu with rfl | ⟨h, rfl⟩ <;> rcases hcl with rfl | rfl <;>
        simp at he' <;> exact he'.symm
  have hpt : p.1 = t := by
    have h1 : p.1 ∈ ts := by rw [ok.split]; exact List.mem_append_left _ (List.mem_map.2 ⟨p, hp, rfl⟩)
    exact inj_on_of_nodup_map hf.nodup h1 htm hid
  subst hpt
  obtain ⟨q, hq, hqid, hsh⟩ := (hy.body he').2.2.2 x hx hel
  have hmem : p.1.id ∈ (runTests env ts st).2.res.tests.map (·.1) := List.mem_map.2 ⟨q, hq, hqid⟩
  obtain ⟨res, hres⟩ := Option.isSome_iff_exists.1 ((get_isSome _ _).2 hmem)
  refine ⟨res, hres, ?_⟩
  have := (ok.unique hf p.1 htm res hres).2 q hq hqid
  rw [this] at hsh
  cases hk : x.kind <;> rw [hk] at hsh <;> simp only [Shows] at hsh <;>
    simp [Result.isError, Result.isFailure, Result.isSkip, hsh]

example : ((runTests {} [{ id := 1, file := 0, module := 1, body := { raises := some { kind := .failure } } },
    { id := 2, file := 0, module := 1 }]).2.res.get 2).map (·.isSuccess) = some true := by decide

/-- two tests of different modules; a cleanup that the first test registered for its module raises a skip. It is run when
the scope of the module is closed, at the begin of the second test, and added to the result of the first -/
def lateSkip : List T :=
  [{ id := 1, file := 0, module := 1 },
   { id := 2, file := 1, module := 2, moduleOut := { cleanups := some .skip }, beginHandled := true, beginElsewhere := true,
     beginEvs := [.of 1 (.skip "skip")] }]

/-- **C63 is violated**: a test whose body was never run has a successful result, and the hook for successful tests fires
for it. (A module-scope cleanup of an earlier test skips: the skip is added to the earlier test's result, and to no other
any more, but ends the later test.) -/
theorem C63_success_without_running_violated :
    ((runTests {} lateSkip).2.res.get 2).map (·.isSuccess) = some true ∧
    Ev.body 2 ∉ (runTests {} lateSkip).2.trace ∧ Ev.summary 2 .success ∈ (runTests {} lateSkip).2.trace := by decide

/-- **C63 is violated**: a test whose body raises an exception that an earlier test raised before (an exception object kept
somewhere, for instance by a future) has a successful result. -/
theorem C63_exception_raised_again_violated :
    ((runTests {} [{ id := 1, file := 0, module := 1, body := { raises := some { kind := .error } } },
      { id := 2, file := 0, module := 1, body := { raises := some { kind := .error, elsewhere := true } } }]).2.res.get 2).map
        (·.isSuccess) = some true := by decide

/-! ## C85: exceptions of hooks -/

/-- an event that belongs to a test is in the part of the trace of that test -/
theorem RunOk.seg_of {env : Env} {ts : List T} {st : St} {r : Option X × St} {segs : List (T × List Ev)} {rest : List T}
    {crashed complete : Bool} (ok : RunOk env ts st r segs rest crashed complete) (hf : Fresh ts st) (ht : st.trace = [])
    (t : T) (htm : t ∈ ts) (e : Ev) (he : e ∈ r.2.trace) (hev : e = .hookEnd t.id ∨ (∃ h, e = .summary t.id h) ∨ e = .hookStart t.id) :
    ∃ seg y, (t, seg) ∈ segs ∧ e ∈ seg ∧ SegOk t seg r.2 y := by
  have : e ∈ r.2.trace.filterMap (fun a => if a = e then some a else none) := List.mem_filterMap.2 ⟨e, he, by simp⟩
  rw [ok.filterMap _ (by rcases hev with rfl | ⟨h, rfl⟩ | rfl <;> simp) (by rcases hev with rfl | ⟨h, rfl⟩ | rfl <;> simp)
    (by rcases hev with rfl | ⟨h, rfl⟩ | rfl <;> simp) (by rcases hev with rfl | ⟨h, rfl⟩ | rfl <;> simp), ht] at this
  have hrs : ∀ i, ((if Ev.reportStart i = e then some (Ev.reportStart i) else none) : Option Ev) = none := by
    intro i; rcases hev with rfl | ⟨h, rfl⟩ | rfl <;> simp
  simp only [List.filterMap_nil, List.nil_append, hrs, Option.toList_none] at this
  obtain ⟨p, hp, h⟩ := List.mem_flatMap.1 this
  obtain ⟨e', he', h⟩ := List.mem_filterMap.1 h
  have hee : e' = e := by
    split at h
    · assumption
    · cases h
  subst hee
  obtain ⟨y, hy, -⟩ := ok.eachSeg p hp
  have hid : p.1.id = t.id := by
    rcases hy.proto.flat with h | ⟨core, su, cl, h, hcore, hsu, hcl⟩
    · rw [h] at he'; rcases hev with rfl | ⟨h, rfl⟩ | rfl <;> simp at he'
    · rw [h] at he'
      rcases hev with rfl | ⟨h, rfl⟩ | rfl <;> rcases hcore with rfl | rfl | rfl <;> rcases hsu with rfl | ⟨h, rfl⟩ <;>
        rcases hcl with rfl | rfl <;> simp at he'
      all_goals first | exact he'.symm | exact he'.1.symm
  have hpt : p.1 = t := by
    have h1 : p.1 ∈ ts := by rw [ok.split]; exact List.mem_append_left _ (List.mem_map.2 ⟨p, hp, rfl⟩)
    exact inj_on_of_nodup_map hf.nodup h1 htm hid
  subst hpt
  exact ⟨p.2, y, hp, he', hy⟩

/-- the exception is in the result, as what it is -/
def Recorded' (k : Kind) (res : Result) : Prop :=
  match k with
  | .error | .other => res.isError = true
  | .failure => res.isFailure = true
  | .skip => res.isSkip = true
  | .interrupt => res.interrupted = true

theorem RunOk.recorded {env : Env} {ts : List T} {st : St} {r : Option X × St} {segs : List (T × List Ev)} {rest : List T}
    {crashed complete : Bool} (ok : RunOk env ts st r segs rest crashed complete) (hf : Fresh ts st) (t : T)
    (htm : t ∈ ts) (k : Kind) (h : Has r.2 k t.id) : ∃ res, r.2.res.get t.id = some res ∧ Recorded' k res := by
  obtain ⟨q, hq, hqid, hsh⟩ := h
  have hmem : t.id ∈ r.2.res.tests.map (·.1) := List.mem_map.2 ⟨q, hq, hqid⟩
  obtain ⟨res, hres⟩ := Option.isSome_iff_exists.1 ((get_isSome _ _).2 hmem)
  refine ⟨res, hres, ?_⟩
  rw [(ok.unique hf t htm res hres).2 q hq hqid] at hsh
  cases k <;> simp only [Shows] at hsh <;> simp [Recorded', Result.isError, Result.isFailure, Result.isSkip, hsh]

/-- **C85 (partial).** If a `test_end` hook raises, the exception is recorded in the result of the test that ended (not in
that of another test or in the global result), also if the run is ended by it. Missing (and false of the code, see below):
skips; and exceptions that were added to another result before. -/
theorem C85_end_hook_exception_in_result_partial (env : Env) (ts : List T) (st : St) (hf : Fresh ts st) (ht : st.trace = [])
    (t : T) (htm : t ∈ ts) (hb : .hookEnd t.id ∈ (runTests env ts st).2.trace) (x : X) (hx : t.endHook.raises = some x)
    (hns : x.kind ≠ .skip) (hel : x.elsewhere = false) :
    ∃ res, (runTests env ts st).2.res.get t.id = some res ∧ Recorded' x.kind res := by
  obtain ⟨segs, rest, crashed, complete, ok⟩ := runTests_ok env ts st hf
  obtain ⟨seg, y, -, he, hseg⟩ := ok.seg_of hf ht t htm _ hb (.inl rfl)
  exact ok.recorded hf t htm _ (hseg.endHook he x hx hns hel)

/-- **C85 (partial).** If a hook announcing the outcome of a test raises, the exception is recorded in the result of this
test. Missing: exceptions that were added to another result before. -/
theorem C85_summary_exception_in_result_partial (env : Env) (ts : List T) (st : St) (hf : Fresh ts st) (ht : st.trace = [])
    (t : T) (htm : t ∈ ts) (h : SummaryHook) (hb : .summary t.id h ∈ (runTests env ts st).2.trace) (x : X)
    (hx : t.summary.raises = some x) (hel : x.elsewhere = false) :
    ∃ res, (runTests env ts st).2.res.get t.id = some res ∧ Recorded' x.kind res := by
  obtain ⟨segs, rest, crashed, complete, ok⟩ := runTests_ok env ts st hf
  obtain ⟨seg, y, -, he, hseg⟩ := ok.seg_of hf ht t htm _ hb (.inr (.inl ⟨h, rfl⟩))
  exact ok.recorded hf t htm _ (hseg.summary h he x hx hel)

/-- **C85 (partial).** If a `test_start` hook raises and the teardown of the test raises nothing, the exception is recorded in
the result of this test (and the test does not run, C63). Missing (and false of the code, see below): tests whose
teardown raises as well; and exceptions that were added to another result before. -/
theorem C85_start_hook_exception_in_result_partial (env : Env) (ts : List T) (st : St) (hf : Fresh ts st) (ht : st.trace = [])
    (t : T) (htm : t ∈ ts) (hb : .hookStart t.id ∈ (runTests env ts st).2.trace) (x : X) (hx : t.startHook.raises = some x)
    (ho : t.testOut = {}) (hel : x.elsewhere = false) :
    ∃ res, (runTests env ts st).2.res.get t.id = some res ∧ Recorded' x.kind res := by
  obtain ⟨segs, rest, crashed, complete, ok⟩ := runTests_ok env ts st hf
  obtain ⟨seg, y, -, he, hseg⟩ := ok.seg_of hf ht t htm _ hb (.inr (.inr rfl))
  exact ok.recorded hf t htm _ (hseg.startHook he ho x hx hel)

/-- the start hook of the first of two tests raises -/
example : let r := (runTests {} [{ id := 1, file := 0, module := 1, startHook := { raises := some { kind := .failure } } },
      { id := 2, file := 0, module := 1 }]).2
    (r.res.get 1).map (·.isFailure) = some true ∧ (r.res.get 2).map (·.isSuccess) = some true ∧ Ev.body 1 ∉ r.trace := by decide

/-- the end hook of the first of two tests raises: an error of the first test -/
example : let r := (runTests {} [{ id := 1, file := 0, module := 1, endHook := { raises := some { kind := .error } } },
      { id := 2, file := 0, module := 1 }]).2
    (r.res.get 1).map (·.isError) = some true ∧ (r.res.get 2).map (·.isSuccess) = some true ∧
      r.res.global.isError = false ∧ Ev.hookEnd 1 ∈ r.trace := by decide

/-- the summary hook raises -/
example : let r := (runTests {} [{ id := 1, file := 0, module := 1, summary := { raises := some { kind := .failure } } }]).2
    (r.res.get 1).map (·.isFailure) = some true ∧ Ev.summary 1 .success ∈ r.trace := by decide

/-- **C85 is violated** by skips: a skip raised by the `test_end` hook of the last test vanishes, while the same skip of an
earlier test is recorded. -/
theorem C85_end_hook_skip_lost_violated :
    let t : T := { id := 1, file := 0, module := 1, endHook := { raises := some { kind := .skip } } }
    Ev.hookEnd 1 ∈ (runTests {} [t]).2.trace ∧ ((runTests {} [t]).2.res.get 1).map (·.isSkip) = some false ∧
    ((runTests {} [t, { id := 2, file := 0, module := 1 }]).2.res.get 1).map (·.isSkip) = some true := by decide

/-- **C85 is violated**: if the start hook of a test raises and then a cleanup of the test is interrupted by a skip, the
error of the hook vanishes: the test is announced as skipped. -/
theorem C85_start_hook_error_lost_violated :
    let t : T := { id := 1, file := 0, module := 1, startHook := { raises := some { kind := .error } }, testOut := { cleanups := some .skip } }
    let r := (runTests {} [t]).2
    Ev.hookStart 1 ∈ r.trace ∧ (r.res.get 1).map (·.isError) = some false ∧ Ev.summary 1 .skip ∈ r.trace := by decide

/-! ## C60: nothing stays open -/

/-- every exception raised by closing the scope is an ordinary one (not an interruption) -/
def Ordinary (o : Scope.Out) : Prop := ∀ k, o.cleanups = some k ∨ o.fixtures = some k → k.isException = true

theorem popScope_ordinary (s : Scope.Sc) (rest : List Scope.Sc) (o : Scope.Out) (ho : Ordinary o) (st : Scope.St)
    (h : st.scopes = s :: rest) : 
    ∃ e, Scope.popScope s o st =
        (e, { st with scopes := rest, trace := st.trace ++ [.popCleanups s, .popFixtures s] }) ∧ ∀ x, e = some x → x.isException = true := by
  unfold Scope.popScope
  rw [h]
  simp only [ne_eq, not_true_eq_false, if_false, Scope.teardown, Scope.callAll]
  cases h1 : o.cleanups with
  | none =>
    cases h2 : o.fixtures with
    | none => exact ⟨none, by simp, by simp⟩
    | some k2 =>
      have := ho k2 (.inr h2)
      exact ⟨some (.user k2), by simp [Scope.Exn.isException, this], by simp [Scope.Exn.isException, this]⟩
  | some k1 =>
    have hk1 := ho k1 (.inl h1)
    cases h2 : o.fixtures with
    | none => exact ⟨some (.user k1), by simp [Scope.Exn.isException, hk1], by simp [Scope.Exn.isException, hk1]⟩
    | some k2 =>
      have := ho k2 (.inr h2)
      exact ⟨some (.user k2), by simp [Scope.Exn.isException, this, hk1], by simp [Scope.Exn.isException, this]⟩

/-- **C60.** Flushing closes all open scopes, innermost first, running both teardown mechanisms of each, whatever
ordinary exceptions they raise. -/
theorem C60_flush_closes_all (os : Nat → Scope.Out) (ho : ∀ i, Ordinary (os i)) (st : Scope.St) :
    (Scope.flush os st).2.scopes = [] ∧
    (Scope.flush os st).2.trace = st.trace ++ st.scopes.flatMap (fun s => [.popCleanups s, .popFixtures s]) ∧
    ∀ x, (Scope.flush os st).1 = some x → x.isException = true := by
  unfold Scope.flush
  have key : ∀ (l : List Scope.Sc) (k : Nat) (p : Option Scope.Exn) (st : Scope.St), st.scopes = l →
      (∀ x, p = some x → x.isException = true) →
      (Scope.callAll ((l.zipIdx k).map (fun q => Scope.popScope q.1 (os q.2))) p st).2.scopes = [] ∧
      (Scope.callAll ((l.zipIdx k).map (fun q => Scope.popScope q.1 (os q.2))) p st).2.trace =
        st.trace ++ l.flatMap (fun s => [.popCleanups s, .popFixtures s]) ∧
      ∀ x, (Scope.callAll ((l.zipIdx k).map (fun q => Scope.popScope q.1 (os q.2))) p st).1 = some x →
        x.isException = true := by
    intro l
    induction l with
    | nil => intro k p st h hp; simp [Scope.callAll, h]; exact hp
    | cons s l ih =>
      intro k p st h hp
      obtain ⟨e, he, hx⟩ := popScope_ordinary s l (os k) (ho k) st h
      simp only [List.zipIdx_cons, List.map_cons, Scope.callAll, he]
      cases e with
      | none =>
        simp only
        have := ih (k + 1) p { st with scopes := l, trace := st.trace ++ [.popCleanups s, .popFixtures s] } rfl hp
        refine ⟨this.1, ?_, this.2.2⟩
        rw [this.2.1]; simp
      | some x =>
        simp only [hx x rfl, if_true]
        have := ih (k + 1) (some x) { st with scopes := l, trace := st.trace ++ [.popCleanups s, .popFixtures s] } rfl
          (fun y hy => by simp only [Option.some.injEq] at hy; subst hy; exact hx _ rfl)
        refine ⟨this.1, ?_, this.2.2⟩
        rw [this.2.1]; simp
  exact key st.scopes 0 none st rfl (by simp)

theorem initiateCleanup_scopes (env : Env) (st : St) (ho : ∀ n i, Ordinary ((env.cleanup n).outs i)) :
    (initiateCleanup env st).2.scope.scopes = [] := by
  unfold initiateCleanup
  split
  · assumption
  · simp only
    rw [(pure_handle _ _).scope]
    unfold scopeOp
    simp only
    have hf : ∀ s, (Scope.flush (env.cleanup st.cleanups).outs s).2.scopes = [] :=
      fun s => (C60_flush_closes_all _ (ho _) s).1
    split
    · exact hf _
    · simp only
      split
      · rw [(pure_record _ _).scope]; exact hf _
      · exact hf _

theorem markUnrun_scope (ts : List T) (st : St) : (markUnrun ts st).2.scope = st.scope := by
  induction ts generalizing st with
  | nil => rfl
  | cons t ts ih =>
    simp only [markUnrun]
    split
    · rfl
    · rw [ih]

/-- **C60.** However a run ends - normally, stopping early, or by an exception raised at any point - no scope is open
after it, provided only that the final teardown itself is not interrupted. (No assumption on the tests.) -/
theorem C60_no_scope_left_open_partial (env : Env) (ts : List T) (st : St)
    (ho : ∀ n i, Ordinary ((env.cleanup n).outs i)) : (runTests env ts st).2.scope.scopes = [] := by
  unfold runTests
  rcases loop env ts { st with lastFile := none } with ⟨x, complete, rest, s1⟩
  simp only
  have h := initiateCleanup_scopes env s1 ho
  rcases hic : initiateCleanup env s1 with ⟨x2, s2⟩
  rw [hic] at h
  simp only at h ⊢
  cases x2.or x with
  | some y => exact h
  | none =>
    simp only
    have hm := markUnrun_scope rest s2
    rcases hmu : markUnrun rest s2 with ⟨_ | y, s3⟩ <;> rw [hmu] at hm
    · simp only at hm ⊢
      split
      · exact (congrArg Scope.St.scopes hm).trans h
      · split
        · exact (congrArg Scope.St.scopes hm).trans h
        · exact (congrArg Scope.St.scopes hm).trans h
    · exact (congrArg Scope.St.scopes hm).trans h

/-- **C60 without the condition is violated**: if the user interrupts the teardown of the module scope, the session scope
stays open and its cleanups do not run. -/
theorem C60_no_scope_left_open_violated :
    ∃ (env : Env) (ts : List T), Fresh ts started ∧ (runTests env ts).2.scope.scopes = [.session] ∧
      .popCleanups .session ∉ (runTests env ts).2.scope.trace :=
  ⟨{ cleanup := fun n => if n = 0 then { outs := fun _ => { cleanups := some .interrupt } } else {} },
   [{ id := 1, file := 0, module := 1, body := { raises := some { kind := .interrupt } } }],
   ⟨by decide, by simp [ids, started], by simp [started]⟩, by decide, by decide⟩

example : (runTests {} [{ id := 1, file := 0, module := 1, body := { raises := some { kind := .interrupt } } }]).2.scope.trace =
    [.push .session, .push .module, .push .test, .popCleanups .test, .popFixtures .test,
     .popCleanups .module, .popFixtures .module, .popCleanups .session, .popFixtures .session] := by decide

end Slash.Runner
