import Verif.Lemmas.Runner
/-!
# Lemmas: when the loop of the runner stops
-/
namespace Slash.Runner

/-- the result of the test has a fatal exception -/
def FatalIn (st : St) (id : Nat) : Prop := ∃ r, st.res.get id = some r ∧ r.hasFatal = true

theorem FatalIn.grow {a b : St} {id : Nat} (h : FatalIn a id) (hg : Grow a.res b.res) : FatalIn b id := by
  obtain ⟨r, hr, hf⟩ := h
  obtain ⟨r', hr', hf'⟩ := hg id r hr
  exact ⟨r', hr', hf' hf⟩

/-- going from one state to another, the body of the test is not run, and fatal exceptions stay -/
structure Later (i : Nat) (a b : St) : Prop where
  grow : Grow a.res b.res
  trace : .body i ∈ b.trace → .body i ∈ a.trace

theorem Later.refl (i : Nat) (a : St) : Later i a a := ⟨Grow.refl _, id⟩

theorem Later.trans {i : Nat} {a b c : St} (h1 : Later i a b) (h2 : Later i b c) : Later i a c :=
  ⟨h1.grow.trans h2.grow, fun h => h1.trace (h2.trace h)⟩

theorem Pure.later {a b : St} (h : Pure a b) (i : Nat) : Later i a b :=
  ⟨h.grow, fun hb => by rw [h.ext.trace, List.append_nil] at hb; exact hb⟩

theorem later_emit (i : Nat) (st : St) (e : Ev) (he : e ≠ .body i) : Later i st (st.emit e) := by
  refine ⟨Grow.refl _, fun h => ?_⟩
  simp only [St.emit, List.mem_append, List.mem_singleton] at h
  rcases h with h | h
  · exact h
  · exact absurd h.symm he

theorem later_scopeOp (i : Nat) (evs : List UEv) (hd el : Bool) (f : Scope.St → Option Scope.Exn × Scope.St) (st : St) :
    Later i st (scopeOp evs hd el f st).2 := by
  have h := scopeOp_ext evs hd el f st
  exact ⟨h.2.2.2.2.2.1, fun hb => by rw [h.1.trace, List.append_nil] at hb; exact hb⟩

theorem later_ctrlStart (t : T) (st : St) : Later t.id st (ctrlStart t st).2 := by
  unfold ctrlStart
  split
  · exact Later.refl _ _
  · refine Later.trans ?_ ((pure_runStep _ _).later _)
    refine Later.trans ?_ (later_emit _ _ _ (by simp))
    exact Later.trans (b := { st with started := true }) ⟨Grow.refl _, id⟩ ((pure_ev _ _).later _)

theorem later_ctrlEnd (t : T) (prev : Cur) (st : St) : Later t.id st (ctrlEnd t prev st).2 := by
  unfold ctrlEnd
  split
  · exact Later.refl _ _
  · simp only
    have h1 : Later t.id st ({ st with started := false }.emit (.hookEnd t.id)) :=
      Later.trans (b := { st with started := false }) ⟨Grow.refl _, id⟩ (later_emit _ _ _ (by simp))
    refine (h1.trans ((pure_runStep t.endHook _).later _)).trans ?_
    split
    · exact ⟨grow_ev _ _ _, id⟩
    · exact ⟨Grow.refl _, id⟩

theorem later_initiateCleanup (i : Nat) (env : Env) (st : St) : Later i st (initiateCleanup env st).2 := by
  obtain ⟨⟨cl, hcl, hE⟩, -, -, hg, -⟩ := initiateCleanup_ext env st
  refine ⟨hg, fun h => ?_⟩
  rw [hE.trace, List.mem_append] at h
  rcases h with h | h
  · exact h
  · rcases hcl with rfl | rfl <;> simp at h

theorem later_fireSummary (t : T) (st : St) : Later t.id st (fireSummary t st).2 := by
  unfold fireSummary
  exact ((later_emit _ _ _ (by simp)).trans ((pure_runStep _ _).later _)).trans ((pure_handle _ _).later _)

theorem later_processReqs (t : T) (st : St) : Later t.id st (processReqs t st).2.2 := by
  unfold processReqs
  have h1 := (pure_runStep t.reqStep st).later t.id
  rcases hr : runStep t.reqStep st with ⟨_ | x, s1⟩ <;> rw [hr] at h1 <;> simp only
  · split
    · exact h1
    · exact ((h1.trans ((pure_foldl (fun (st : St) (r : String) => st.ev (.skip r)) (fun st r => pure_ev st _) t.avoid s1).later _)).trans
        (later_emit _ _ _ (by simp))).trans ((pure_runStep _ _).later _)
  · exact h1

/-- exceptions that are recorded as errors or failures -/
def Kind.recordsError (k : Kind) : Prop := k = .error ∨ k = .failure ∨ k = .other

theorem get_evAt (st : St) (id : Nat) (e : Result.REv) (hi : id ∈ ids st) :
    ∃ r : Result, (st.evAt (.test id) e).res.get id = some (r.apply e) := by
  obtain ⟨r, hr⟩ := Option.isSome_iff_exists.1 ((get_isSome st.res id).2 hi)
  refine ⟨r, ?_⟩
  have hl : (st.res.step (.ev id e)).get id = _ := SessionResults.lookup_ev st.res id e id
  unfold SessionResults.get at hr
  simp only [St.evAt]
  rw [hl, hr]
  simp

theorem fatal_record (x : X) (st : St) (id : Nat) (hc : st.test = some id) (hi : id ∈ ids st)
    (hk : Kind.recordsError x.kind) (hf : x.fatal = true) : FatalIn (record x st) id := by
  have hh : st.here = .test id := by rw [St.here, hc]
  unfold record
  rw [hh]
  rcases hk with h | h | h <;> rw [h] <;> simp only
  · obtain ⟨r, hr⟩ := get_evAt st id (.err x.fatal) hi
    exact ⟨_, hr, by simp [Result.apply, Result.addError, Result.hasFatal, hf]⟩
  · obtain ⟨r, hr⟩ := get_evAt st id (.fail x.fatal) hi
    exact ⟨_, hr, by simp [Result.apply, Result.addFailure, Result.hasFatal, hf]⟩
  · obtain ⟨r, hr⟩ := get_evAt st id (.err x.fatal) hi
    exact ⟨_, hr, by simp [Result.apply, Result.addError, Result.hasFatal, hf]⟩

/-- a fatal exception raised by a piece of user code under a handling context is in the result of the test -/
theorem fatal_handle (b : Bool) (s : Step) (st : St) (id : Nat) (hc : st.test = some id) (hi : id ∈ ids st) (x : X)
    (hx : s.raises = some x) (hel : x.elsewhere = false) (hk : Kind.recordsError x.kind) (hf : x.fatal = true) :
    FatalIn (handle b (runStep s st)).2 id := by
  have h := pure_foldl _ pure_uev s.evs st
  have hc' := h.ext.test.trans hc
  have hi' : id ∈ ids (s.evs.foldl St.uev st) := by rw [h.ext.ids]; exact hi
  have hr := fatal_record x _ id hc' hi' hk hf
  unfold runStep
  simp only [hx, hel, Bool.not_false, Bool.and_true]
  cases hh : x.handled
  · simp only [Bool.false_eq_true, if_false, handle, hh, hel, Bool.or_self]
    split <;> exact hr
  · simp only [if_true, handle, hh, hel, Bool.true_or]
    split <;> exact hr

/-- the body was not run, or its fatal exception is in the result -/
def BodyOk (t : T) (a b : St) : Prop := .body t.id ∈ b.trace → .body t.id ∈ a.trace ∨ FatalIn b t.id

theorem BodyOk.later {t : T} {a b c : St} (h : BodyOk t a b) (h2 : Later t.id b c) : BodyOk t a c := by
  intro hb
  rcases h (h2.trace hb) with h | h
  · exact .inl h
  · exact .inr (h.grow h2.grow)

theorem Later.bodyOk {t : T} {a b c : St} (h : Later t.id a b) (h2 : BodyOk t b c) : BodyOk t a c := by
  intro hb
  rcases h2 hb with h' | h'
  · exact .inl (h.trace h')
  · exact .inr h'

theorem Later.toBodyOk {t : T} {a b : St} (h : Later t.id a b) : BodyOk t a b := fun hb => .inl (h.trace hb)

variable {t : T} {x : X} (hx : t.body.raises = some x) (hel : x.elsewhere = false) (hk : Kind.recordsError x.kind)
  (hf : x.fatal = true)
include hx hel hk hf

theorem bodyOk_beginRunEnd (st : St) (hc : st.test = some t.id) (hi : t.id ∈ ids st) :
    BodyOk t st (beginRunEnd t st).2 := by
  unfold beginRunEnd
  have h1 : Later t.id st (doBegin t st).2 := later_scopeOp _ _ _ _ _ _
  have h1e := (doBegin_ext t st).1
  rcases hb : doBegin t st with ⟨_ | y, s1⟩ <;> rw [hb] at h1 h1e <;> simp only
  · have h2 := later_ctrlStart t s1
    have h2t : (ctrlStart t s1).2.test = s1.test ∧ ids (ctrlStart t s1).2 = ids s1 := by
      unfold ctrlStart
      split
      · exact ⟨rfl, rfl⟩
      · have e1 := (pure_ev { s1 with started := true } .start).ext
        have e2 := (pure_runStep t.startHook (({ s1 with started := true }.ev .start).emit (.hookStart t.id))).ext
        exact ⟨e2.test.trans e1.test, e2.ids.trans e1.ids⟩
    rcases hs : ctrlStart t s1 with ⟨_ | y, s2⟩ <;> rw [hs] at h2 h2t <;> simp only at h2 h2t ⊢
    · have hc2 : (s2.emit (.body t.id)).test = some t.id := h2t.1.trans (h1e.test.trans hc)
      have hi2 : t.id ∈ ids (s2.emit (.body t.id)) := by
        have : ids (s2.emit (.body t.id)) = ids st := h2t.2.trans h1e.ids
        rw [this]; exact hi
      have h3 := fatal_handle true t.body _ t.id hc2 hi2 x hx hel hk hf
      have h4 : BodyOk t st (handle true (runStep t.body (s2.emit (.body t.id)))).2 := fun _ => .inr h3
      exact h4.later (later_scopeOp _ _ _ _ _ _)
    · exact (h1.trans h2).toBodyOk.later (later_scopeOp _ _ _ _ _ _)
  · exact h1.toBodyOk

theorem bodyOk_block (env : Env) (isLast : Bool) (prev : Cur) (st : St) (hc : st.test = some t.id) (hi : t.id ∈ ids st) :
    BodyOk t st (block env t isLast prev st).2 := by
  unfold block
  rw [exceptSkip_snd]
  have h1 := (bodyOk_beginRunEnd hx hel hk hf st hc hi).later ((pure_handle true _).later t.id)
  rw [← exceptSkip_snd] at h1
  rcases hb : exceptSkip (handle true (beginRunEnd t st)) with ⟨_ | y, s1⟩ <;> rw [hb] at h1 <;> simp only
  · have h2 := h1.later (later_fireSummary t s1)
    rcases hs : fireSummary t s1 with ⟨_ | y, s2⟩ <;> rw [hs] at h2 <;> simp only
    · split
      · have h3 := h2.later (later_ctrlEnd t prev s2)
        rcases hs : ctrlEnd t prev s2 with ⟨_ | y, s3⟩ <;> rw [hs] at h3 <;> simp only
        · exact (h3.later (later_initiateCleanup _ _ _)).later ((pure_handle true _).later t.id)
        · exact h3
      · exact h2
    · exact h2
  · exact h1

theorem bodyOk_inner (env : Env) (isLast : Bool) (prev : Cur) (st : St) (hc : st.test = some t.id) (hi : t.id ∈ ids st) :
    BodyOk t st (inner env t isLast prev st).2 := by
  unfold inner
  have h1 := later_processReqs t st
  obtain ⟨⟨av, -, -, hE⟩, -, -⟩ := processReqs_ext t st
  rcases hb : processReqs t st with ⟨_ | y, b, s1⟩ <;> rw [hb] at h1 hE
  · cases b
    · exact h1.toBodyOk
    · have h2 : Later t.id s1 { s1.ev .start with started := false } :=
        ((pure_ev s1 .start).later t.id).trans ⟨Grow.refl _, id⟩
      have e2 := (pure_ev s1 .start).ext
      have h3 := bodyOk_block hx hel hk hf env isLast prev { s1.ev .start with started := false }
        (e2.test.trans (hE.test.trans hc)) (by
          have : ids { s1.ev .start with started := false } = ids st := e2.ids.trans hE.ids
          rw [this]; exact hi)
      exact ((h1.trans h2).bodyOk h3).later (later_ctrlEnd _ _ _)
  · exact h1.toBodyOk

theorem bodyOk_runSingle (env : Env) (isLast : Bool) (st : St) : BodyOk t st (runSingle env t isLast st).2 := by
  unfold runSingle
  cases hc : st.res.create t.id with
  | none => exact (Later.refl _ _).toBodyOk
  | some res =>
    simp only
    obtain ⟨h1, -, -, -⟩ := create_some hc
    have h2 := (bodyOk_inner hx hel hk hf env isLast st.cur { st with res := res, cur := .test t.id, test := some t.id } rfl
      (by simp [ids, h1])).later ((pure_handle true _).later t.id)
    exact h2

omit hx hel hk hf

/-- an unsuccessful test makes the session unsuccessful -/
theorem notSuccess_of_has {st : St} {k : Kind} {id : Nat} (h : Has st k id) (hk : k ≠ .skip) :
    st.res.isSuccess true = false := by
  obtain ⟨p, hp, -, hs⟩ := h
  have hp2 : p.2.isSuccess true = false := by
    unfold Result.isSuccess
    cases k <;> simp [Shows] at hs hk ⊢ <;> simp [hs]
  unfold SessionResults.isSuccess
  split
  · rfl
  · split
    · rfl
    · rw [List.all_eq_false]
      exact ⟨p.2, by simpa [SessionResults.testResults] using ⟨p.1, hp⟩, by simp [hp2]⟩

/-- what makes the loop stop after a test whose body raised -/
def Stops (env : Env) (t : T) : Prop :=
  ∃ x, t.body.raises = some x ∧ x.elsewhere = false ∧
    ((env.stop = true ∧ x.kind ≠ .skip) ∨ (Kind.recordsError x.kind ∧ x.fatal = true))

/-- in the new part of the trace, the last test begun is this one -/
def LastBegun (i : Nat) (d : List Ev) : Prop := ∃ a b, d = a ++ .reportStart i :: b ∧ ∀ j, .reportStart j ∉ b

theorem Protocol.mem {i : Nat} {seg : List Ev} (h : Protocol i seg) :
    (∀ j, .body j ∈ seg → j = i) ∧ ∀ j, .reportStart j ∉ seg := by
  obtain ⟨av, core, su, cl, rfl, hav, hcore, hsu, hcl⟩ := h
  have h1 : av = [] ∨ av = [.avoided i] := by rcases hav with h | h; exact .inl h; exact .inr h.1
  clear hav
  constructor <;> intro j <;> rcases h1 with rfl | rfl <;> rcases hcore with rfl | rfl | rfl <;>
    rcases hsu with rfl | ⟨h, rfl⟩ <;> rcases hcl with rfl | rfl <;> simp

theorem loop_stops (env : Env) (ts : List T) (st : St) (hf : Fresh ts st) (hst : ∀ u ∈ ts, .body u.id ∉ st.trace) :
    ∃ d, (loop env ts st).2.2.2.trace = st.trace ++ d ∧ (∀ i, .body i ∈ d → ∃ u ∈ ts, u.id = i) ∧
      ∀ t ∈ ts, .body t.id ∈ d → Stops env t → LastBegun t.id d := by
  induction ts generalizing st with
  | nil => exact ⟨[], by simp [loop], by simp, by simp⟩
  | cons t ts ih =>
    unfold loop
    have hidx : t.id ∉ st.indexed := hf.indexed t (by simp)
    rw [if_neg hidx]
    simp only
    obtain ⟨s0, hs0⟩ : ∃ s0, s0 = (if st.lastFile ≠ some t.file then
      { ({ st with indexed := t.id :: st.indexed } : St).emit (.fileStart t.file) with lastFile := some t.file }
      else { st with indexed := t.id :: st.indexed }) := ⟨_, rfl⟩
    have e0 : s0.trace = st.trace ++ (if st.lastFile = some t.file then [] else [.fileStart t.file]) ∧
        s0.indexed = t.id :: st.indexed ∧ s0.res = st.res := by
      rw [hs0]
      by_cases h : st.lastFile = some t.file
      · simp [h]
      · simp [h, St.emit]
    rw [← hs0]
    have hid : t.id ∉ ids (s0.emit (.reportStart t.id)) := by
      have : ids (s0.emit (.reportStart t.id)) = ids st := by simp [ids, St.emit, e0.2.2]
      rw [this]; exact hf.ids t (by simp)
    obtain ⟨seg, hseg, h1, -, h3, -, h5, -, -⟩ := runSingle_ok env t ts.isEmpty (s0.emit (.reportStart t.id)) hid
    obtain ⟨pre, hpre⟩ : ∃ pre, pre = (if st.lastFile = some t.file then [] else [Ev.fileStart t.file]) := ⟨_, rfl⟩
    rw [← hpre] at e0
    have hpreb : ∀ j, .body j ∉ pre := by intro j; rw [hpre]; split <;> simp
    have h1' : (runSingle env t ts.isEmpty (s0.emit (.reportStart t.id))).2.trace =
        st.trace ++ (pre ++ .reportStart t.id :: seg) := by
      rw [h1]; simp [St.emit, e0.1]
    have h5' : ids (runSingle env t ts.isEmpty (s0.emit (.reportStart t.id))).2 = ids st ++ [t.id] := by
      rw [h5]; simp [ids, St.emit, e0.2.2]
    have hfat : ∀ x, t.body.raises = some x → x.elsewhere = false → Kind.recordsError x.kind → x.fatal = true →
        .body t.id ∈ seg → FatalIn (runSingle env t ts.isEmpty (s0.emit (.reportStart t.id))).2 t.id := by
      intro x hx hel hk hft hb
      rcases bodyOk_runSingle hx hel hk hft env ts.isEmpty (s0.emit (.reportStart t.id)) (by rw [h1']; simp [hb]) with h | h
      · refine absurd h ?_
        simp only [St.emit, e0.1, List.mem_append, List.mem_singleton, not_or]
        exact ⟨⟨hst t (by simp), hpreb _⟩, by simp⟩
      · exact h
    have hm := hseg.proto.mem
    -- the new part of the trace if the loop stops after this test
    have here : ∀ post : List Ev, (∀ j, .body j ∉ post ∧ .reportStart j ∉ post) →
        (∀ i, .body i ∈ pre ++ .reportStart t.id :: seg ++ post → ∃ u ∈ t :: ts, u.id = i) ∧
        ∀ u ∈ t :: ts, .body u.id ∈ pre ++ .reportStart t.id :: seg ++ post → Stops env u →
          LastBegun u.id (pre ++ .reportStart t.id :: seg ++ post) := by
      intro post hpost
      have hb : ∀ i, .body i ∈ pre ++ .reportStart t.id :: seg ++ post → i = t.id := by
        intro i hi
        simp only [List.mem_append, List.mem_cons] at hi
        rcases hi with (hi | hi | hi) | hi
        · exact absurd hi (hpreb _)
        · cases hi
        · exact hm.1 i hi
        · exact absurd hi (hpost _).1
      refine ⟨fun i hi => ⟨t, by simp, (hb i hi).symm⟩, fun u hu hbu _ => ?_⟩
      rw [hb _ hbu]
      refine ⟨pre, seg ++ post, by simp, ?_⟩
      intro j hj
      rcases List.mem_append.1 hj with hj | hj
      · exact hm.2 j hj
      · exact (hpost j).2 hj
    rcases hr : runSingle env t ts.isEmpty (s0.emit (.reportStart t.id)) with ⟨_ | x, s1⟩ <;>
      rw [hr] at hseg h1' h3 h5' hfat <;> simp only at hseg h1' h3 h5' hfat ⊢
    · cases hres : s1.res.get t.id with
      | none => exact ⟨_, by rw [h1', List.append_nil], here [] (by simp)⟩
      | some res =>
        simp only
        obtain ⟨post, hpost⟩ : ∃ post, post = Ev.reportEnd t.id :: (if ts.head?.map (·.file) = some t.file then [] else [.fileEnd t.file]) := ⟨_, rfl⟩
        obtain ⟨s2, hs2⟩ : ∃ s2, s2 = (if ts.head?.map (·.file) ≠ some t.file then
          (s1.emit (.reportEnd t.id)).emit (.fileEnd t.file) else s1.emit (.reportEnd t.id)) := ⟨_, rfl⟩
        have e2 : s2.trace = s1.trace ++ post ∧ s2.indexed = s1.indexed ∧ s2.res = s1.res := by
          rw [hs2, hpost]
          by_cases h : ts.head?.map (·.file) = some t.file
          · simp [h, St.emit]
          · simp [h, St.emit]
        have hpp : ∀ j, .body j ∉ post ∧ .reportStart j ∉ post := by
          intro j; rw [hpost]; split <;> simp
        have tr2 : s2.trace = st.trace ++ (pre ++ .reportStart t.id :: seg ++ post) := by
          rw [e2.1, h1']; simp
        rw [← hs2]
        split
        · exact ⟨_, tr2, here post hpp⟩
        · next hnf =>
          split
          · exact ⟨_, tr2, here post hpp⟩
          · next hns =>
            have hn := hf.nodup
            simp only [List.map_cons, List.nodup_cons, List.mem_map, not_exists, not_and] at hn
            have hfr : Fresh ts s2 := by
              refine ⟨hn.2, ?_, ?_⟩
              · intro u hu
                have : ids s2 = ids st ++ [t.id] := by
                  have : ids s2 = ids s1 := by simp [ids, e2.2.2]
                  rw [this, h5']
                rw [this]
                simp only [List.mem_append, List.mem_singleton, not_or]
                exact ⟨hf.ids u (by simp [hu]), fun h => hn.1 u hu h⟩
              · intro u hu
                have : s2.indexed = t.id :: st.indexed := e2.2.1.trans (h3.trans e0.2.1)
                rw [this]
                simp only [List.mem_cons, not_or]
                exact ⟨fun h => hn.1 u hu h, hf.indexed u (by simp [hu])⟩
            have hb : ∀ i, .body i ∈ pre ++ .reportStart t.id :: seg ++ post → i = t.id := by
              intro i hi
              simp only [List.mem_append, List.mem_cons] at hi
              rcases hi with (hi | hi | hi) | hi
              · exact absurd hi (hpreb _)
              · cases hi
              · exact hm.1 i hi
              · exact absurd hi (hpp _).1
            obtain ⟨d, hd, hdb, hds⟩ := ih s2 hfr (by
              intro u hu hbu
              rw [tr2, List.mem_append] at hbu
              rcases hbu with hbu | hbu
              · exact hst u (by simp [hu]) hbu
              · exact hn.1 u hu (hb _ hbu))
            refine ⟨pre ++ .reportStart t.id :: seg ++ post ++ d, by rw [hd, tr2, List.append_assoc], ?_, ?_⟩
            · intro i hi
              rcases List.mem_append.1 hi with hi | hi
              · exact ⟨t, by simp, (hb i hi).symm⟩
              · obtain ⟨u, hu, rfl⟩ := hdb i hi
                exact ⟨u, by simp [hu], rfl⟩
            · intro u hu hbu hstop
              rcases List.mem_cons.1 hu with rfl | hu
              · exfalso
                have hseg' : .body u.id ∈ seg := by
                  rcases List.mem_append.1 hbu with h | h
                  · simp only [List.mem_append, List.mem_cons] at h
                    rcases h with (h | h | h) | h
                    · exact absurd h (hpreb _)
                    · cases h
                    · exact h
                    · exact absurd h (hpp _).1
                  · obtain ⟨v, hv, hve⟩ := hdb _ h
                    exact absurd hve (hn.1 v hv)
                obtain ⟨x, hx, hel, ⟨hse, hk⟩ | ⟨hk, hft⟩⟩ := hstop
                · have hh := (hseg.body hseg').2.2.2 x hx hel
                  have hns' := notSuccess_of_has hh hk
                  apply hns
                  rw [e2.2.2, hse, hns']; rfl
                · obtain ⟨r, hr1, hr2⟩ := hfat x hx hel hk hft hseg'
                  rw [hres] at hr1
                  cases hr1
                  exact hnf hr2
              · have hud : .body u.id ∈ d := by
                  rcases List.mem_append.1 hbu with h | h
                  · exact absurd (hb _ h) (hn.1 u hu)
                  · exact h
                obtain ⟨a, b, rfl, hab⟩ := hds u hu hud hstop
                exact ⟨pre ++ .reportStart t.id :: seg ++ post ++ a, b, by simp, hab⟩
    · exact ⟨_, by rw [h1', List.append_nil], here [] (by simp)⟩

end Slash.Runner
