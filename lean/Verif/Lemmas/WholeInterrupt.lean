import Verif.Lemmas.WholeParts
import Verif.Lemmas.WholeFx
/-! Whole sessions: an exception of a test function that is not an `Exception` ends the session. -/
namespace Slash.Whole

open Slash.Scope (Sc)
open Slash.Cleanup (RKey Reg St Exn)

/-- The function of the test is called and raises something that is not an `Exception`. -/
def Hit (t : T) (s : Snap) : Prop := s.ev = .body t.id ∧ ∃ k, (outcome t.body s.cl).1 = some k ∧ k.isException = false

/-- Nothing replaces an exception on its way out of the test. -/
structure Clear (t : T) (l : List Snap) : Prop where
  close : ∀ s ∈ l, ∀ k, s.ev = .closeRaised .test k → k.isException = false
  fin : ∀ s ∈ l, s.ev = .fin t.id → ∀ k, (outcome t.endHook s.cl).1 = some k → k.isException = false

theorem Clear.sub {t : T} {l l' : List Snap} (h : Clear t l) (hs : ∀ s ∈ l', s ∈ l) : Clear t l' :=
  ⟨fun s hm => h.close s (hs s hm), fun s hm => h.fin s (hs s hm)⟩

def Big (r : Option X) : Prop := ∃ x, r = some x ∧ x.kind.isException = false

def IntM (P : W → Prop) (t : T) (m : M) : Prop := ∀ w, P w → ∃ d, (m w).2.trace = w.trace ++ d ∧
  ∀ pre s post, d = pre ++ s :: post → Hit t s → Clear t post → Big (m w).1

def NoBody (m : M) : Prop := ∀ w, ∃ d, (m w).2.trace = w.trace ++ d ∧ ∀ s ∈ d, ∀ j, s.ev ≠ .body j

def Fz (P : W → Prop) (t : T) (f : M) : Prop := ∀ w, P w → ∃ d, (f w).2.trace = w.trace ++ d ∧ (∀ s ∈ d, ∀ j, s.ev ≠ .body j) ∧
  (Clear t d → (f w).1 = none ∨ Big (f w).1)

def okNo (e : Ev) : Prop := ∀ j, e ≠ .body j

theorem noBody_of {m : M} (h : ∀ o tr c, OnlyM okNo o tr c m) : NoBody m := by
  intro w
  obtain ⟨d, h1, h2⟩ := (h w.cl.curTest w.trace w.startCalled w ⟨rfl, rfl, [], by simp, by simp⟩).since
  exact ⟨d, h1, fun s hs => (h2 s hs).2⟩

theorem quiet_no : Quiet okNo := ⟨fun _ h => (by cases h), fun _ _ h => (by cases h), fun _ _ h => (by cases h), fun _ _ _ h => (by cases h)⟩

theorem int_noBody {P : W → Prop} {t : T} {m : M} (h : NoBody m) : IntM P t m := by
  intro w _
  obtain ⟨d, h1, h2⟩ := h w
  refine ⟨d, h1, ?_⟩
  rintro pre s post rfl hs -
  exact absurd hs.1 (h2 s (by simp) _)

theorem split_two {α : Type} {d1 d2 pre post : List α} {s : α} (h : d1 ++ d2 = pre ++ s :: post) :
    (∃ p, d1 = pre ++ s :: p ∧ post = p ++ d2) ∨ ∃ p, pre = d1 ++ p ∧ d2 = p ++ s :: post := by
  rw [List.append_eq_append_iff] at h
  rcases h with ⟨e, rfl, h⟩ | ⟨e, rfl, h⟩
  · exact .inr ⟨e, rfl, h⟩
  · rcases e with _ | ⟨x, e⟩
    · exact .inr ⟨[], by simp, by simpa using h.symm⟩
    · rw [List.cons_append, List.cons.injEq] at h
      obtain ⟨rfl, rfl⟩ := h
      exact .inl ⟨e, rfl, rfl⟩

theorem int_seq {P Q : W → Prop} {t : T} {m k : M} (hm : IntM P t m) (hq : ∀ w, P w → (m w).1 = none → Q (m w).2) (hk : IntM Q t k) : IntM P t (seq m k) := by
  intro w hw
  obtain ⟨d, h1, h2⟩ := hm w hw
  have hq := hq w hw
  rcases heq : m w with ⟨_ | x, w1⟩ <;> rw [heq] at h1 h2 hq
  · rw [seq_none heq]
    obtain ⟨d2, g1, g2⟩ := hk w1 (hq rfl)
    refine ⟨d ++ d2, by rw [g1, h1, List.append_assoc], fun pre s post he hs hp => ?_⟩
    rcases split_two he with ⟨p, rfl, rfl⟩ | ⟨p, rfl, rfl⟩
    · obtain ⟨x, hx, -⟩ := h2 pre s p rfl hs (hp.sub (by simp; exact fun _ h => .inl h))
      cases hx
    · exact g2 p s post rfl hs hp
  · rw [seq_some heq]; exact ⟨d, h1, h2⟩

theorem int_fin {P Q : W → Prop} {t : T} {m f : M} (hm : IntM P t m) (hq : ∀ w, P w → Q (m w).2) (hf : Fz Q t f) : IntM P t (fin m f) := by
  intro w hw
  obtain ⟨d, h1, h2⟩ := hm w hw
  obtain ⟨d2, g1, g2, g3⟩ := hf _ (hq w hw)
  refine ⟨d ++ d2, by show (f (m w).2).2.trace = _; rw [g1, h1, List.append_assoc], fun pre s post he hs hp => ?_⟩
  show Big ((f (m w).2).1.or (m w).1)
  rcases split_two he with ⟨p, rfl, rfl⟩ | ⟨p, rfl, rfl⟩
  · obtain ⟨x, hx, hb⟩ := h2 pre s p rfl hs (hp.sub (by simp; exact fun _ h => .inl h))
    rcases g3 (hp.sub (by simp; exact fun _ h => .inr h)) with h | ⟨y, hy, hyb⟩
    · rw [h, hx]; exact ⟨x, rfl, hb⟩
    · rw [hy]; exact ⟨y, rfl, hyb⟩
  · exact absurd hs.1 (g2 s (by simp) _)

theorem big_handle {b : Bool} {m : M} {w : W} (h : Big (m w).1) : Big (handle b m w).1 := by
  obtain ⟨x, hx, hb⟩ := h
  unfold handle
  split <;> rename_i heq <;> rw [heq] at hx <;> cases hx
  simp only [notExc_escapes hb, Bool.not_true, Bool.and_false, Bool.false_eq_true, if_false]
  exact ⟨_, rfl, hb⟩

theorem int_handle {P : W → Prop} {t : T} {m : M} {b : Bool} (hm : IntM P t m) : IntM P t (handle b m) := by
  intro w hw
  obtain ⟨d, h1, h2⟩ := hm w hw
  exact ⟨d, by rw [(handle_trace b m w).1, h1], fun pre s post he hs hp => big_handle (h2 pre s post he hs hp)⟩

theorem int_exceptSkip {P : W → Prop} {t : T} {m : M} (hm : IntM P t m) : IntM P t (exceptSkip m) := by
  intro w hw
  obtain ⟨d, h1, h2⟩ := hm w hw
  refine ⟨d, by rw [exceptSkip_snd, h1], fun pre s post he hs hp => ?_⟩
  obtain ⟨x, hx, hb⟩ := h2 pre s post he hs hp
  unfold exceptSkip
  split
  · rename_i y w1 heq
    rw [heq] at hx; cases hx
    rw [if_neg (by intro h; rw [h] at hb; cases hb)]
    exact ⟨x, rfl, hb⟩
  · exact ⟨x, hx, hb⟩

theorem int_testRun (env : Env) (t : T) : IntM (fun _ => True) t (testRun env t) := by
  refine int_seq (Q := fun _ => True) (int_noBody (noBody_of fun _ _ _ => only_setUp env t)) (fun _ _ _ => trivial) ?_
  intro w _
  obtain ⟨h1, h2⟩ := user_outcome t.body (emit (.body t.id) w)
  refine ⟨[⟨.body t.id, w.cl, w.fx⟩], ?_, ?_⟩
  · show (user t.body (emit (.body t.id) w)).2.trace = _
    rw [h2]; rfl
  · intro pre s post he hs _
    show Big (user t.body (emit (.body t.id) w)).1
    have : s = ⟨.body t.id, w.cl, w.fx⟩ := by
      have hm : s ∈ pre ++ s :: post := by simp
      rw [← he] at hm; simpa using hm
    subst this
    obtain ⟨-, k, hk, hb⟩ := hs
    rw [h1]
    show Big ((outcome t.body w.cl).1.map _)
    rw [show (outcome t.body w.cl).1 = some k from hk]
    exact ⟨_, rfl, hb⟩

/-- The scope of the test is the innermost one. -/
def Ins (t : T) (w : W) : Prop := w.lastTest = some t.id ∧ ∃ tl, w.scopes = .test :: tl

theorem Ins.side {t : T} {w w' : W} (h : Ins t w) (hs : Side w w') : Ins t w' := ⟨hs.lastTest.trans h.1, by rw [hs.scopes]; exact h.2⟩
theorem Ins.move {t : T} {w w' : W} (h : Ins t w) (h1 : w'.lastTest = w.lastTest) (h2 : w'.scopes = w.scopes) : Ins t w' := ⟨h1.trans h.1, by rw [h2]; exact h.2⟩

theorem ins_ctrlStart (t : T) : Stays (Ins t) (ctrlStart t) := by
  intro w hw
  unfold ctrlStart
  split
  · exact hw
  · exact Ins.side (w := emit (.start t.id t.module) (mark t true w)) (hw.move rfl rfl) (side_user t.startHook _)

theorem ins_testRun (env : Env) (t : T) : Stays (Ins t) (testRun env t) := by
  refine stays_seq (fun w hw => hw.side (side_setUp env t w)) ?_
  intro w hw
  exact Ins.side (w := emit (.body t.id) w) (hw.move rfl rfl) (side_user t.body _)

theorem ins_handle {t : T} {m : M} {b : Bool} (hm : Stays (Ins t) m) : Stays (Ins t) (handle b m) := fun w hw => (hm w hw).side side_handle

theorem beginTest_ins (env : Env) (t : T) (w : W) (h : (beginTest env t w).1 = none) : Ins t (beginTest env t w).2 := by
  unfold beginTest at h ⊢
  split <;> rename_i heq <;> rw [heq] at h
  · cases h
  · exact ⟨rfl, _, rfl⟩

theorem fz_endTest (env : Env) (t : T) : Fz (Ins t) t (endTest env t) := by
  rintro w ⟨h1, tl, h2⟩
  obtain ⟨d, hd, hn⟩ := noBody_of (fun o tr c => only_endTest (o := o) (tr := tr) (c := c) quiet_no env t) w
  refine ⟨d, hd, hn, fun hs => ?_⟩
  unfold endTest at hd ⊢
  rw [if_neg (by simp [h1])] at hd ⊢
  have hcb := only_callBoth (only_clPop (ok := okNo) (o := w.cl.curTest) (tr := w.trace) (c := w.startCalled) (scName .test) t.beforeCleanups)
    (only_fxPop quiet_no env .test) (emit (.closing .test) { w with scopes := tl })
    (Only.emit (w := { w with scopes := tl }) ⟨rfl, rfl, [], by simp, by simp⟩ (quiet_no.closing _))
  unfold pop at hd ⊢
  rw [h2] at hd ⊢
  simp only [ne_eq, not_true_eq_false, if_false] at hd ⊢
  split <;> rename_i heq <;> rw [heq] at hd hcb
  · rename_i x w1
    right
    refine ⟨x, rfl, ?_⟩
    obtain ⟨d', hd', -⟩ := hcb.since
    have : d = d' ++ [⟨.closeRaised .test x.kind, w1.cl, w1.fx⟩] := by
      have e : (emit (.closeRaised .test x.kind) w1).trace = w1.trace ++ [⟨.closeRaised .test x.kind, w1.cl, w1.fx⟩] := rfl
      simp only [e] at hd
      rw [show w1.trace = _ from hd', List.append_assoc] at hd
      exact (List.append_cancel_left hd).symm
    exact hs.close ⟨.closeRaised .test x.kind, w1.cl, w1.fx⟩ (by rw [this]; simp) _ rfl
  · exact .inl rfl

theorem fz_act {P : W → Prop} {t : T} {f : W → W} (h : ∀ w, (f w).trace = w.trace) : Fz P t (act f) :=
  fun w _ => ⟨[], by simpa [act] using h w, by simp, fun _ => .inl rfl⟩

theorem fz_ctrlEnd {P : W → Prop} (t : T) (prev : Option RKey) : Fz P t (ctrlEnd t prev) := by
  intro w _
  unfold ctrlEnd
  split
  · exact ⟨[], by simp, by simp, fun _ => .inl rfl⟩
  · obtain ⟨h1, h2⟩ := user_outcome t.endHook (emit (.fin t.id) (forbid w))
    have e1 : (fin (fin (seq (act forbid) (hook (.fin t.id) t.endHook)) (act (permit w.cl.allowImplicit))) (act (setResult prev)) w).2.trace =
        (user t.endHook (emit (.fin t.id) (forbid w))).2.trace := rfl
    have e2 : (fin (fin (seq (act forbid) (hook (.fin t.id) t.endHook)) (act (permit w.cl.allowImplicit))) (act (setResult prev)) w).1 =
        (user t.endHook (emit (.fin t.id) (forbid w))).1 := rfl
    refine ⟨[⟨.fin t.id, (forbid w).cl, w.fx⟩], ?_, by simp, fun hs => ?_⟩
    · rw [e1, h2]; rfl
    · rw [e2, h1]
      cases hk : (outcome t.endHook (emit (.fin t.id) (forbid w)).cl).1 with
      | none => exact .inl rfl
      | some k =>
        have := hs.fin ⟨.fin t.id, (forbid w).cl, w.fx⟩ (by simp) rfl k hk
        exact .inr ⟨_, rfl, this⟩

theorem int_beginRunEnd (env : Env) (t : T) : IntM (fun _ => True) t (beginRunEnd env t) := by
  refine int_seq (Q := Ins t) (int_noBody (noBody_of fun _ _ _ => only_beginTest quiet_no env t (fun _ _ h => by cases h)))
    (fun w _ h => beginTest_ins env t w h) (int_fin (Q := Ins t) ?_ ?_ (fz_endTest env t))
  · exact int_seq (Q := fun _ => True) (int_noBody (noBody_of fun _ _ _ => only_ctrlStart t (fun _ h => by cases h))) (fun _ _ _ => trivial)
      (int_handle (int_testRun env t))
  · exact fun w hw => stays_seq (ins_ctrlStart t) (ins_handle (ins_testRun env t)) w hw

theorem int_inner (env : Env) (t : T) (l : Bool) (prev : Option RKey) : IntM (fun _ => True) t (inner env t l prev) := by
  refine int_seq (Q := fun _ => True) (int_noBody (noBody_of fun _ _ _ => only_user _)) (fun _ _ _ => trivial) ?_
  split
  · refine int_seq (Q := fun _ => True) (int_noBody (noBody_of fun _ _ _ => only_act (fun _ => rfl) (fun _ => rfl))) (fun _ _ _ => trivial) ?_
    refine int_fin (Q := fun _ => True) (int_exceptSkip (int_seq (Q := fun _ => True) (int_exceptSkip (int_handle (int_beginRunEnd env t))) (fun _ _ _ => trivial) ?_))
      (fun _ _ => trivial) (fz_ctrlEnd t prev)
    refine int_noBody (noBody_of fun o tr c => stays_seq (only_fireSummary t (fun _ _ h => by cases h)) ?_)
    split
    · exact stays_seq (only_ctrlEnd t prev (fun _ h => by cases h)) (only_handle (only_initiateCleanup quiet_no env))
    · exact fun _ h => h
  · exact int_noBody (noBody_of fun _ _ _ => stays_seq (only_addSkips _) (only_hook _ (fun _ h => by cases h)))

theorem int_runSingle (env : Env) (t : T) (l : Bool) : IntM (fun _ => True) t (runSingle env t l) := by
  intro w _
  by_cases h : t.id ∈ w.tests
  · refine ⟨[], ?_, ?_⟩
    · unfold runSingle; rw [if_pos h]; simp
    · intro pre s post he; simp at he
  · rw [runSingle_new env t l h]
    obtain ⟨d, h1, h2⟩ := int_handle (b := true) (int_inner env t l w.cl.curResult) (entered t w) trivial
    exact ⟨d, h1, h2⟩

/-- The loop ends with the exception, and no event of another test follows. -/
theorem loop_hit (env : Env) (ts : List T) (w : W) : ∃ d, (loop env ts w).2.2.trace = w.trace ++ d ∧
    ∀ pre s post, d = pre ++ s :: post → (∀ t ∈ ts, s.ev = .body t.id → Hit t s ∧ Clear t post) → (∃ i, s.ev = .body i) →
      Big (loop env ts w).1 ∧ ∀ s' ∈ post, evId s'.ev = none ∨ evId s'.ev = evId s.ev := by
  induction ts generalizing w with
  | nil => exact ⟨[], by simp [loop], fun pre s post h => by simp at h⟩
  | cons t ts ih =>
    obtain ⟨-, -, d, hd, hE⟩ := runSingle_only env t ts.isEmpty w
    obtain ⟨d', hd', hI⟩ := int_runSingle env t ts.isEmpty w trivial
    have hdd : d' = d := by rw [hd] at hd'; exact (List.append_cancel_left hd').symm
    subst hdd
    have same : ∀ s ∈ d', ∀ i, s.ev = .body i → i = t.id := by
      intro s hs i hi
      rcases (hE s hs).2.1 with h | h <;> rw [hi] at h <;> simpa [evId] using h
    have one : ∀ pre s p post, d' = pre ++ s :: p → (∀ x ∈ p, x ∈ post) → (∀ u ∈ t :: ts, s.ev = .body u.id → Hit u s ∧ Clear u post) → (∃ i, s.ev = .body i) →
        Big (runSingle env t ts.isEmpty w).1 ∧ ∀ s' ∈ p, evId s'.ev = none ∨ evId s'.ev = evId s.ev := by
      rintro pre s p post rfl hsub hu ⟨i, hi⟩
      have := same s (by simp) i hi
      subst this
      obtain ⟨g1, g2⟩ := hu t (by simp) hi
      refine ⟨hI pre s p rfl g1 (g2.sub hsub), fun s' hs' => ?_⟩
      rw [hi]
      exact (hE s' (by simp [hs'])).2.1
    simp only [loop]
    rcases heq : runSingle env t ts.isEmpty w with ⟨_ | x, w1⟩ <;> rw [heq] at hd one
    rotate_left
    · exact ⟨d', hd, fun pre s post he h1 h2 => one pre s post post he (fun _ h => h) h1 h2⟩
    · simp only
      split
      · refine ⟨d', hd, fun pre s post he h1 h2 => one pre s post post he (fun _ h => h) h1 h2⟩
      · obtain ⟨d2, g1, g2⟩ := ih w1
        refine ⟨d' ++ d2, by rw [g1, show w1.trace = _ from hd, List.append_assoc], fun pre s post he h1 h2 => ?_⟩
        rcases split_two he with ⟨p, hp, rfl⟩ | ⟨p, rfl, rfl⟩
        · obtain ⟨⟨x, hx, -⟩, -⟩ := one pre s p _ hp (fun _ h => by simp [h]) h1 h2
          cases hx
        · exact g2 p s post rfl (fun u hu => h1 u (List.mem_cons_of_mem _ hu)) h2

/-- So does the session. -/
theorem session_hit (env : Env) (ts : List T) (pre post : List Snap) (s : Snap) (h : (session env ts).2.trace = pre ++ s :: post)
    (hb : ∃ i, s.ev = .body i) (ht : ∀ t ∈ ts, s.ev = .body t.id → Hit t s ∧ Clear t post) :
    (session env ts).1 ≠ none ∧ ∀ s' ∈ post, evId s'.ev = none ∨ evId s'.ev = evId s.ev := by
  have S := start_facts env
  obtain ⟨st, hsim, -, -⟩ := sim_start env
  have hI := onInterrupt_trace env (seq (startHooks env) (runTests env ts)) initial
  obtain ⟨c, c1, c2, -⟩ := end_trace env (onInterrupt env (seq (startHooks env) (runTests env ts)) initial).2
  have htr : (session env ts).2.trace = (seq (startHooks env) (runTests env ts) initial).2.trace ++ c := by rw [← hI.1]; exact c1
  have hraise : (seq (startHooks env) (runTests env ts) initial).1 ≠ none → (session env ts).1 ≠ none :=
    fun hne => fin_some (fun hn => hne (hI.2.2.1 hn))
  have hc : ∀ s' ∈ c, evId s'.ev = none := by
    intro s' hs'
    rcases c2 with rfl | ⟨x, hx, rfl⟩
    · cases hs'
    · rw [List.mem_singleton.1 hs', hx]; rfl
  have hstart : ∀ s' ∈ (startHooks env initial).2.trace, evId s'.ev = none := by
    intro s' hs'
    rw [S.trace] at hs'
    split at hs'
    · rw [List.mem_singleton.1 hs']; rfl
    · cases hs'
  obtain ⟨i, hi⟩ := hb
  have hsid : evId s.ev = some i := by rw [hi]; rfl
  have nots : ∀ {l : List Snap}, (∀ s' ∈ l, evId s'.ev = none) → s ∉ l := fun hl hm => by rw [hl s hm] at hsid; cases hsid
  rw [h] at htr
  rcases hs : startHooks env initial with ⟨_ | x, w0⟩ <;> rw [hs] at hsim hstart
  rotate_left
  · rw [seq_some hs] at htr
    rcases split_two htr.symm with ⟨p, hp, -⟩ | ⟨p, -, hp⟩
    · exact absurd (by rw [hp]; simp) (nots hstart)
    · exact absurd (by rw [hp]; simp) (nots hc)
  · rw [seq_none hs] at htr hraise
    obtain ⟨d1, h1, hL⟩ := loop_hit env ts w0
    obtain ⟨-, -, -, h3, h4⟩ := loop_inRun env ts w0
    rcases hl : loop env ts w0 with ⟨x, rest, v⟩
    rw [hl] at h1 h3 h4 hL
    simp only at h1 h3 h4 hL
    have h5 := only_initiateCleanup (quiet_ok none) env v (⟨h3.trans hsim.test, h4, [], by simp, by simp⟩ : Only (Ok none) none v.trace w0.startCalled v)
    obtain ⟨d2, h6, h7⟩ := h5.since
    rcases hic : initiateCleanup env v with ⟨y, v2⟩
    rw [hic] at h6
    have hd2 : ∀ s' ∈ d2, evId s'.ev = none := fun s' hs' => by rcases (h7 s' hs').2.1 with h | h <;> exact h
    have key : (runTests env ts w0).2.trace = v2.trace ∧ (x ≠ none → (runTests env ts w0).1 ≠ none) := by
      unfold runTests
      rw [hl]; simp only; rw [hic]; simp only
      split
      · exact ⟨rfl, fun _ => by simp⟩
      · rename_i hyx
        refine ⟨(markUnrun_spec rest v2).2.1, fun hx => ?_⟩
        rw [Option.or_eq_none_iff] at hyx
        exact absurd hyx.2 hx
    rw [key.1, show v2.trace = _ from h6, h1] at htr
    rw [List.append_assoc, List.append_assoc] at htr
    rcases split_two htr.symm with ⟨p, hp, -⟩ | ⟨p, -, hp⟩
    · exact absurd (by rw [hp]; simp) (nots hstart)
    · rcases split_two hp with ⟨q, hq, rfl⟩ | ⟨q, -, hq⟩
      · obtain ⟨⟨z, hz, -⟩, hE⟩ := hL p s q hq (fun t hm he => ⟨(ht t hm he).1, (ht t hm he).2.sub (by simp; exact fun _ h => .inl h)⟩) ⟨i, hi⟩
        refine ⟨hraise (key.2 (by rw [hz]; simp)), fun s' hs' => ?_⟩
        rcases List.mem_append.1 hs' with hs' | hs'
        · exact hE s' hs'
        · rcases List.mem_append.1 hs' with hs' | hs'
          · exact .inl (hd2 s' hs')
          · exact .inl (hc s' hs')
      · have : s ∈ d2 ++ c := by rw [hq]; simp
        rcases List.mem_append.1 this with h | h
        · exact absurd h (nots hd2)
        · exact absurd h (nots hc)

end Slash.Whole
