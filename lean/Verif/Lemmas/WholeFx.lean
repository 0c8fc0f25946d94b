import Verif.Lemmas.WholeRun
/-! Whole sessions: what happens to the fixtures, and to the result of the test, between one event and the next. -/
namespace Slash.Whole

open Slash.Scope (Sc)
open Slash.Cleanup (Op RKey)

/-- What user code raises, and the state it leaves. -/
def outcome (c : Code) (cl : Cleanup.St) : Option Kind × Cleanup.St :=
  match Cleanup.runActs c.acts cl with
  | (some e, cl) => (some e.kind, cl)
  | (none, cl) => (c.out, cl)

/-- The state after an exception, if any, was recorded. -/
def noted : Option Kind × Cleanup.St → Cleanup.St
  | (none, cl) => cl
  | (some k, cl) => cl.record cl.currentForUpdate k

theorem user_outcome (c : Code) (w : W) :
    (user c w).1 = (outcome c w.cl).1.map (fun k => { kind := k }) ∧ (user c w).2 = { w with cl := (outcome c w.cl).2 } := by
  unfold user outcome
  split <;> rename_i heq <;> rw [heq] <;> exact ⟨rfl, rfl⟩

theorem handle_user (b : Bool) (c : Code) (w : W) : (handle b (user c) w).2 = { w with cl := noted (outcome c w.cl) } := by
  obtain ⟨h1, h2⟩ := user_outcome c w
  unfold handle
  split
  · rename_i w1 heq
    rw [heq] at h1 h2
    simp only at h1 h2 ⊢
    generalize outcome c w.cl = o at h1 h2 ⊢
    rcases o with ⟨_ | _, _⟩
    · rw [h2]; rfl
    · cases h1
  · rename_i x w1 heq
    rw [heq] at h1 h2
    simp only at h1 h2 ⊢
    generalize outcome c w.cl = o at h1 h2 ⊢
    rcases o with ⟨_ | k, cl⟩
    · cases h1
    · simp only [Option.map_some, Option.some.injEq] at h1
      subst h1
      simp only [Bool.false_eq_true, if_false]
      subst h2
      split <;> rfl

/-- All open scopes, but possibly the outermost one, stay open. -/
def Sub (a b : Cleanup.St) : Prop := ∀ n ∈ names a, n ∈ names b ∨ n = "session-global"

theorem Sub.refl (a : Cleanup.St) : Sub a a := fun _ h => .inl h
theorem Sub.trans {a b c : Cleanup.St} (h : Sub a b) (h' : Sub b c) : Sub a c := fun n hn => (h n hn).elim (h' n) .inr
theorem sub_of_eq {a b : Cleanup.St} (h1 : b.stack = a.stack) (h2 : b.scopeName = a.scopeName) : Sub a b := by
  unfold Sub names; rw [h1, h2]; exact fun _ h => .inl h

theorem sub_outcome (c : Code) (a : Cleanup.St) : Sub a (outcome c a).2 := by
  have h := Cleanup.frame_runActs c.acts a
  unfold outcome
  split <;> rename_i heq <;> rw [heq] at h <;> exact sub_of_eq h.stack h.scopeName

theorem reach_outcome (c : Code) (a : Cleanup.St) : Reach a (outcome c a).2 := by
  have h := reach_runActs c.acts a
  unfold outcome
  split <;> rename_i heq <;> rw [heq] at h <;> exact h

theorem reach_noted (o : Option Kind × Cleanup.St) : Reach o.2 (noted o) := by
  rcases o with ⟨_ | k, cl⟩
  · exact Reach.refl _
  · exact reach_record ..

theorem sub_noted (o : Option Kind × Cleanup.St) : Sub o.2 (noted o) := by
  rcases o with ⟨_ | k, cl⟩
  · exact Sub.refl _
  · have h := Cleanup.frame_record cl cl.currentForUpdate k
    exact sub_of_eq h.stack h.scopeName

section
variable (env : Env) (ts : List T)

/-- What follows right after an event. -/
def Next (b s : Snap) : Prop :=
  match b.ev with
  | .fixturesDown sc => s.fx = (Fix.popScope env.defs (scNum sc) (interrupted b.cl) b.fx).2 ∧
      ((Fix.popScope env.defs (scNum sc) (interrupted b.cl) b.fx).1 ≠ none → ∃ k, s.ev = .closeRaised sc k) ∧
      Sub b.cl s.cl
  | .closing sc => s.fx = b.fx ∧ ((s.ev = .fixturesDown sc ∧ ∀ n ∈ names b.cl, n ∈ names s.cl ∨ n = scName sc) ∨
      ∃ k, k.isException = false ∧ s.ev = .closeRaised sc k)
  | .start t m => ∃ tt ∈ ts, tt.id = t ∧ tt.module = m ∧ tt.avoid = 0 ∧
      ((∃ k, (outcome tt.startHook b.cl).1 = some k ∧ s = ⟨.closing .test, (outcome tt.startHook b.cl).2, b.fx⟩) ∨
       ((outcome tt.startHook b.cl).1 = none ∧ ∃ e, (Fix.setup (fixEnv env tt) env.fuel tt.fixtures b.fx).1 = .error e ∧
         s = ⟨.closing .test, noted (some (fixKind e), (outcome tt.startHook b.cl).2), (Fix.setup (fixEnv env tt) env.fuel tt.fixtures b.fx).2⟩) ∨
       ((outcome tt.startHook b.cl).1 = none ∧ ∃ vs, (Fix.setup (fixEnv env tt) env.fuel tt.fixtures b.fx).1 = .ok vs ∧
         s = ⟨.body t, (outcome tt.startHook b.cl).2, (Fix.setup (fixEnv env tt) env.fuel tt.fixtures b.fx).2⟩))
  | .body t => ∃ tt ∈ ts, tt.id = t ∧ s = ⟨.closing .test, noted (outcome tt.body b.cl), b.fx⟩
  | _ => s.fx = b.fx ∧ Sub b.cl s.cl

/-- Right before a call of a test function its start was announced; tests are started only if nothing speaks against it. -/
def Prev (pre : List Snap) (s : Snap) : Prop :=
  (pre = [] → s.fx.active = []) ∧
  match s.ev with
  | .body t => ∃ b m, pre.getLast? = some b ∧ b.ev = .start t m
  | .start t m => ∃ tt ∈ ts, tt.id = t ∧ tt.module = m ∧ tt.avoid = 0
  | .avoided t => ∃ tt ∈ ts, tt.id = t ∧ tt.avoid ≠ 0
  | _ => True

def Chain (tr : List Snap) : Prop := ∀ pre s post, tr = pre ++ s :: post → Prev ts pre s ∧ ∀ b, pre.getLast? = some b → Next env ts b s

/-- The last event was neither the start of a test nor the call of its function; nothing happened to fixtures since, but that
they were torn down. -/
def Still (w : W) : Prop := ∀ b, w.trace.getLast? = some b →
  match b.ev with
  | .fixturesDown sc => Fix.popScope env.defs (scNum sc) (interrupted b.cl) b.fx = (none, w.fx) ∧ Sub b.cl w.cl
  | .start _ _ | .body _ | .closing _ => False
  | _ => w.fx = b.fx ∧ Sub b.cl w.cl

def J (w : W) : Prop := Chain env ts w.trace ∧ Still env w ∧ Reach {} w.cl ∧ (w.trace = [] → w.fx.active = [])

end

section
variable {env : Env} {ts : List T}

theorem Chain.snoc {tr : List Snap} {s : Snap} (h : Chain env ts tr) (hp : Prev ts tr s) (hn : ∀ b, tr.getLast? = some b → Next env ts b s) :
    Chain env ts (tr ++ [s]) := by
  intro pre x post he
  rcases List.eq_nil_or_concat post with rfl | ⟨l, y, rfl⟩
  · obtain ⟨rfl, h2⟩ := List.append_inj' he rfl
    cases h2
    exact ⟨hp, hn⟩
  · have : tr ++ [s] = (pre ++ x :: l) ++ [y] := by rw [he]; simp
    exact h pre x l (List.append_inj' this rfl).1

theorem J.move {w w' : W} (h : J env ts w) (hr : Reach w.cl w'.cl) (hf : w'.fx = w.fx) (ht : w'.trace = w.trace) (hs : Sub w.cl w'.cl) : J env ts w' := by
  refine ⟨ht ▸ h.1, fun b hb => ?_, h.2.2.1.trans hr, by rw [ht, hf]; exact h.2.2.2⟩
  have := h.2.1 b (ht ▸ hb)
  rw [hf]
  cases hb : b.ev <;> simp only [hb] at this ⊢ <;> first | exact ⟨this.1, this.2.trans hs⟩ | exact this

theorem J.keep {w w' : W} (h : J env ts w) (k : Keep w w') : J env ts w' := h.move k.reach k.fx k.trace (sub_of_eq k.stack k.scopeName)

theorem J.push {w : W} (h : J env ts w) (s : Sc) : J env ts (push s w) :=
  h.move (reach_push ..) rfl rfl (fun n hn => by
    show n ∈ names (Cleanup.pushScope (scName s) w.cl) ∨ _
    rw [names_push h.2.2.1]; exact .inl (List.mem_cons_of_mem _ hn))

theorem Still.next {w : W} (h : Still env w) {b : Snap} (hb : w.trace.getLast? = some b) (e : Ev) :
    Next env ts b ⟨e, w.cl, w.fx⟩ := by
  have := h b hb
  unfold Next
  cases hb : b.ev <;> simp only [hb] at this ⊢ <;> first
    | exact this
    | (rw [this.1]; exact ⟨rfl, fun h => absurd rfl h, this.2⟩)

theorem still_emit {w : W} {e : Ev} (h1 : ∀ t m, e ≠ .start t m) (h2 : ∀ t, e ≠ .body t) (h3 : ∀ s, e ≠ .fixturesDown s) (h4 : ∀ s, e ≠ .closing s) :
    Still env (emit e w) := by
  intro b hb
  simp only [Whole.emit, List.getLast?_append, List.getLast?_singleton, Option.some_or, Option.some.injEq] at hb
  subst hb
  cases e <;> first | exact ⟨rfl, Sub.refl _⟩ | exact absurd rfl (h1 _ _) | exact absurd rfl (h2 _) | exact absurd rfl (h3 _) | exact absurd rfl (h4 _)

theorem J.emit {w : W} (h : J env ts w) {e : Ev} (h1 : ∀ t m, e ≠ .start t m) (h2 : ∀ t, e ≠ .body t) (h3 : ∀ s, e ≠ .fixturesDown s)
    (h4 : ∀ s, e ≠ .closing s) (h5 : ∀ t, e = .avoided t → ∃ tt ∈ ts, tt.id = t ∧ tt.avoid ≠ 0 := by simp) : J env ts (emit e w) := by
  refine ⟨h.1.snoc ⟨h.2.2.2, ?_⟩ (fun b hb => h.2.1.next hb e), still_emit h1 h2 h3 h4, h.2.2.1, by simp [Whole.emit]⟩
  cases e <;> first | trivial | exact absurd rfl (h1 _ _) | exact absurd rfl (h2 _) | exact h5 _ rfl

/-- Closing a scope takes away at most one open scope, of this name. -/
theorem names_popScope {a : Cleanup.St} (n : String) (hk : Option Kind) (tl : List Nat) :
    ∀ m ∈ names a, m ∈ names (Cleanup.popScope n hk tl a).2 ∨ m = n := by
  intro m hm
  rcases Cleanup.popScope_cases n hk tl a with ⟨_, h1⟩ | ⟨_, _, _, _, h1⟩ | ⟨u, tl', h1, h2, _⟩
  · rw [h1]; exact .inl hm
  · rw [h1]; exact .inl hm
  · obtain ⟨p1, p2, -⟩ := popScope_match (a := a) (n := n) (hk := hk) (ts := tl) (u := u) (tl := tl') h1 h2
    unfold names at hm ⊢
    rw [p1, p2]
    rw [h1, List.map_cons, List.mem_cons, h2] at hm
    exact hm.symm

/-- Closing a scope, once its beginning is on record. -/
theorem pop_J {s : Sc} {hk : Option Kind} {w : W} {rest : List Sc} (hs : w.scopes = s :: rest) (hr : Reach {} w.cl)
    (h : Chain env ts (w.trace ++ [⟨.closing s, w.cl, w.fx⟩])) : J env ts (pop env s hk w).2 := by
  unfold pop
  rw [hs]
  simp only [ne_eq, not_true_eq_false, if_false]
  have hw1 : ∃ w1, w1 = Whole.emit (.closing s) { w with scopes := rest } := ⟨_, rfl⟩
  obtain ⟨w1, hw1⟩ := hw1
  rw [← hw1]
  have h1 : Chain env ts w1.trace := by rw [hw1]; exact h
  have hl1 : w1.trace.getLast? = some ⟨.closing s, w1.cl, w1.fx⟩ := by rw [hw1]; simp [Whole.emit]
  have hr1 : Reach {} w1.cl := by rw [hw1]; exact hr
  have hf := (clPop_fields (scName s) hk w1).1
  unfold callBoth
  generalize clPop (scName s) hk w1 = p at hf ⊢
  rcases p with ⟨x1, w2⟩
  simp only at hf
  have hr2 : Reach {} w2.cl := by rw [hf]; exact hr1.trans (reach_pop ..)
  have ht2 : w2.trace = w1.trace := by rw [hf]
  have hx2 : w2.fx = w1.fx := by rw [hf]
  have hn2 : ∀ n ∈ names w1.cl, n ∈ names w2.cl ∨ n = scName s := by rw [hf]; exact names_popScope _ _ _
  -- the fixtures
  obtain ⟨f1, f2, f3⟩ := fxPop_spec env s w2
  have hq : ∃ y w3, fxPop env s w2 = (y, w3) := ⟨_, _, rfl⟩
  obtain ⟨y, w3, hq⟩ := hq
  rw [hq] at f1 f2 f3
  simp only at f1 f2 f3
  have h3 : Chain env ts w3.trace := by
    rw [f1.trace]
    show Chain env ts (w2.trace ++ [⟨.fixturesDown s, w2.cl, w2.fx⟩])
    rw [ht2]
    refine h1.snoc ⟨fun h0 => (by rw [h0] at hl1; cases hl1), trivial⟩ (fun b hb => ?_)
    rw [hl1] at hb; cases hb
    exact ⟨hx2, .inl ⟨rfl, hn2⟩⟩
  have hr3 : Reach {} w3.cl := hr2.trans f1.reach
  have hsub : Sub w2.cl w3.cl := sub_of_eq (a := w2.cl) f1.frame.stack f1.frame.scopeName
  have hlast : w3.trace.getLast? = some ⟨.fixturesDown s, w2.cl, w2.fx⟩ := by rw [f1.trace]; simp [Whole.emit]
  have both : ∀ o : Option X, (o = none → y = none) → J env ts (match (o, w3) with
      | (some x, w) => (some x, Whole.emit (.closeRaised s x.kind) w)
      | (none, w) => (none, w)).2 := by
    intro o ho
    cases o with
    | none =>
      refine ⟨h3, fun b hb => ?_, hr3, fun h0 => (by rw [h0] at hlast; cases hlast)⟩
      simp only at hb ⊢
      rw [hlast] at hb
      cases hb
      rw [ho rfl] at f3
      simp only
      rw [f2]
      exact ⟨Prod.ext f3.symm rfl, hsub⟩
    | some x =>
      refine ⟨h3.snoc ⟨fun h0 => (by rw [h0] at hlast; cases hlast), trivial⟩ (fun b hb => ?_), still_emit (by simp) (by simp) (by simp) (by simp), hr3, by simp [Whole.emit]⟩
      rw [hlast] at hb
      cases hb
      exact ⟨f2, fun _ => ⟨_, rfl⟩, hsub⟩
  cases x1 with
  | none => simp only; rw [hq]; exact both y id
  | some x =>
    simp only
    by_cases hx : x.kind.isException = true
    · rw [if_pos hx, hq]
      exact both (y.or (some x)) (by cases y <;> simp)
    · rw [if_neg hx]
      refine ⟨?_, still_emit (by simp) (by simp) (by simp) (by simp), hr2, by simp [Whole.emit]⟩
      show Chain env ts (w2.trace ++ [⟨.closeRaised s x.kind, w2.cl, w2.fx⟩])
      rw [ht2]
      refine h1.snoc ⟨fun h0 => (by rw [h0] at hl1; cases hl1), trivial⟩ (fun b hb => ?_)
      rw [hl1] at hb; cases hb
      exact ⟨hx2, .inr ⟨_, by simpa using hx, rfl⟩⟩

theorem stays_pop (s : Sc) (hk : Option Kind) : Stays (J env ts) (pop env s hk) := by
  intro w h
  cases hs : w.scopes with
  | nil => unfold pop; rw [hs]; exact h
  | cons p rest =>
    by_cases hp : p = s
    · subst hp
      exact pop_J hs h.2.2.1 (h.1.snoc ⟨h.2.2.2, trivial⟩ (fun b hb => h.2.1.next hb _))
    · unfold pop; rw [hs]; simp only; rw [if_pos hp]; exact h

theorem stays_changeModule (t : T) : Stays (J env ts) (changeModule env t) := by
  intro w h
  unfold changeModule
  split
  · have h1 : J env ts (if w.lastModule ≠ none then pop env .module none w else (none, w)).2 := by
      split
      · exact stays_pop _ _ w h
      · exact h
    split <;> rename_i heq <;> rw [heq] at h1
    · exact h1
    · split
      · exact h1
      · exact h1.push _
  · exact h

theorem beginTest_J (t : T) {w : W} (h : J env ts w) : J env ts (beginTest env t w).2 := by
  unfold beginTest
  have h0 : J env ts (if w.lastModule = none then push .session w else w) := by
    split
    · exact h.push _
    · exact h
  generalize (if w.lastModule = none then push .session w else w) = w0 at h0 ⊢
  have h1 := stays_changeModule t w0 h0
  split <;> rename_i heq <;> rw [heq] at h1
  · exact h1.emit (by simp) (by simp) (by simp) (by simp)
  · exact J.push (w := { ‹W› with lastModule := some t.module }) h1 .test

theorem beginTest_none (t : T) {w : W} (h : (beginTest env t w).1 = none) :
    (beginTest env t w).2.lastTest = some t.id ∧ ∃ rest, (beginTest env t w).2.scopes = .test :: rest := by
  unfold beginTest at h ⊢
  split <;> rename_i heq
  · rw [heq] at h; cases h
  · exact ⟨rfl, _, rfl⟩

theorem stays_flushLoop (ss : List Sc) (p : Option X) : Stays (J env ts) (flushLoop env ss p) := by
  induction ss generalizing p with
  | nil => intro w h; exact h
  | cons s ss ih =>
    intro w h
    have h1 := stays_pop (ts := ts) s none w h
    simp only [flushLoop]
    split <;> rename_i heq <;> rw [heq] at h1
    · exact ih _ _ h1
    · split
      · exact ih _ _ h1
      · exact h1

theorem j_keeps {w w' : W} (h : J env ts w) (k : Keep w w') : J env ts w' := h.keep k

theorem stays_initiateCleanup : Stays (J env ts) (initiateCleanup env) := by
  intro w h
  unfold initiateCleanup
  split
  · exact h
  · exact stays_fin (stays_handle (stays_hook _ (fun _ _ h => h.keep) (fun _ h => h.emit (by simp) (by simp) (by simp) (by simp))) (fun _ _ h => h.keep))
      (stays_handle (fun w h => stays_flushLoop w.scopes none w h) (fun _ _ h => h.keep)) { w with cleanups := w.cleanups + 1 } h

theorem stays_ctrlEnd (t : T) (prev : Option RKey) : Stays (J env ts) (ctrlEnd t prev) := by
  intro w h
  unfold ctrlEnd
  split
  · exact h
  · exact stays_fin (stays_fin (stays_seq (m := act forbid) (fun _ h => h.keep (keep_forbid _))
      (stays_hook _ (fun _ _ h => h.keep) (fun _ h => h.emit (by simp) (by simp) (by simp) (by simp)))) (k := act (permit _)) (fun _ h => h.keep (keep_permit _ _)))
      (k := act (setResult prev)) (fun w h => h.move (w' := setResult prev w) (reach_result ..) rfl rfl (Sub.refl _)) w h

theorem stays_exceptSkip {P : W → Prop} {m : M} (hm : Stays P m) : Stays P (exceptSkip m) := by
  intro w hw
  have h := hm w hw
  unfold exceptSkip
  split
  · rename_i heq; rw [heq] at h; split <;> exact h
  · exact h

theorem stays_fireSummary (t : T) : Stays (J env ts) (fireSummary t) :=
  stays_handle (fun w h => stays_hook (P := J env ts) _ (fun _ _ h => h.keep) (fun _ h => h.emit (by simp) (by simp) (by simp) (by simp)) w h) (fun _ _ h => h.keep)

/-- The announcement of the start of the test, its function, and the closing of its scope. -/
theorem runEnd_J (t : T) (hm : t ∈ ts) (ha : t.avoid = 0) {w : W} (h : J env ts w) (hst : w.started = false) (hlt : w.lastTest = some t.id)
    {rest : List Sc} (hs : w.scopes = .test :: rest) :
    J env ts (fin (seq (ctrlStart t) (handle true (testRun env t))) (endTest env t) w).2 := by
  have hend : ∀ w' : W, Reach {} w'.cl → w'.lastTest = some t.id → w'.scopes = .test :: rest → Chain env ts (w'.trace ++ [⟨.closing .test, w'.cl, w'.fx⟩]) →
      J env ts (endTest env t w').2 := by
    intro w' hr h1 h2 h3
    unfold endTest
    rw [if_neg (by rw [h1]; simp)]
    exact pop_J h2 hr h3
  show J env ts (endTest env t (seq (ctrlStart t) (handle true (testRun env t)) w).2).2
  -- the start
  have hc1 : Chain env ts (w.trace ++ [⟨.start t.id t.module, (mark t true w).cl, w.fx⟩]) :=
    h.1.snoc ⟨h.2.2.2, t, hm, rfl, rfl, ha⟩ (fun b hb => (h.keep (keep_mark t true w)).2.1.next hb _)
  have e1 : (ctrlStart t w).1 = (outcome t.startHook (mark t true w).cl).1.map (fun k => { kind := k }) ∧
      (ctrlStart t w).2 = { emit (.start t.id t.module) (mark t true w) with cl := (outcome t.startHook (mark t true w).cl).2 } := by
    unfold ctrlStart
    rw [if_neg (by simp [hst])]
    exact user_outcome t.startHook (emit (.start t.id t.module) (mark t true w))
  unfold seq
  generalize ctrlStart t w = r1 at e1 ⊢
  rcases r1 with ⟨x1, w1⟩
  obtain ⟨e1, e2⟩ := e1
  simp only at e1 e2
  have l1 : w1.lastTest = some t.id := by rw [e2]; exact hlt
  have s1 : w1.scopes = .test :: rest := by rw [e2]; exact hs
  have t1 : w1.trace = w.trace ++ [⟨.start t.id t.module, (mark t true w).cl, w.fx⟩] := by rw [e2]; rfl
  have f1 : w1.fx = w.fx := by rw [e2]; rfl
  have c1 : w1.cl = (outcome t.startHook (mark t true w).cl).2 := by rw [e2]
  have last1 : w1.trace.getLast? = some ⟨.start t.id t.module, (mark t true w).cl, w.fx⟩ := by rw [t1]; simp
  rw [← t1] at hc1
  have r1 : Reach {} w1.cl := by rw [c1]; exact (h.2.2.1.trans (reach_start ..)).trans (reach_outcome ..)
  cases x1 with
  | some x =>
    simp only
    refine hend w1 r1 l1 s1 (hc1.snoc ⟨fun h0 => (by rw [h0] at last1; cases last1), trivial⟩ (fun b hb => ?_))
    rw [last1] at hb; cases hb
    refine ⟨t, hm, rfl, rfl, ha, .inl ?_⟩
    cases ho : (outcome t.startHook (mark t true w).cl).1 with
    | none => rw [ho] at e1; cases e1
    | some k => exact ⟨k, rfl, by rw [c1, f1]⟩
  | none =>
    simp only
    have ho : (outcome t.startHook (mark t true w).cl).1 = none := by
      cases ho : (outcome t.startHook (mark t true w).cl).1 with
      | none => rfl
      | some k => rw [ho] at e1; cases e1
    -- the fixtures
    unfold handle testRun seq setUp
    rw [f1]
    generalize hsu : Fix.setup (fixEnv env t) env.fuel t.fixtures w.fx = su
    rcases su with ⟨e | vs, fx⟩
    · simp only [Bool.false_eq_true, if_false]
      have := hend (record (fixKind e) { w1 with fx := fx }) (r1.trans (reach_record ..)) l1 s1 (hc1.snoc ⟨fun h0 => (by rw [h0] at last1; cases last1), trivial⟩ (fun b hb => ?_))
      · split <;> exact this
      · rw [last1] at hb; cases hb
        refine ⟨t, hm, rfl, rfl, ha, .inr (.inl ⟨ho, e, ?_, ?_⟩)⟩
        · simp only; rw [hsu]
        · simp only [noted, record]; rw [hsu, c1]
    · simp only
      have hc2 : Chain env ts (w1.trace ++ [⟨.body t.id, w1.cl, fx⟩]) := by
        refine hc1.snoc ⟨fun h0 => (by rw [h0] at last1; cases last1), _, _, last1, rfl⟩ (fun b hb => ?_)
        rw [last1] at hb; cases hb
        refine ⟨t, hm, rfl, rfl, ha, .inr (.inr ⟨ho, vs, ?_, ?_⟩)⟩
        · simp only; rw [hsu]
        · simp only; rw [hsu, c1]
      have hu := handle_user true t.body (emit (.body t.id) { w1 with fx := fx })
      have e3 : (handle true (fun w => hook (.body t.id) t.body w) { w1 with fx := fx }).2 =
          { emit (.body t.id) { w1 with fx := fx } with cl := noted (outcome t.body w1.cl) } := hu
      unfold handle at e3
      rw [e3]
      refine hend _ ((r1.trans (reach_outcome ..)).trans (reach_noted _)) l1 s1 (hc2.snoc ⟨fun h0 => (by simp at h0), trivial⟩ (fun b hb => ?_))
      simp only [List.getLast?_append, List.getLast?_singleton, Option.some_or, Option.some.injEq] at hb
      subst hb
      exact ⟨t, hm, rfl, rfl⟩

theorem popped_started (s : Sc) (hk : Option Kind) (w : W) : (pop env s hk w).2.started = w.started := by
  unfold pop
  split
  · rfl
  · rename_i p rest _
    split
    · rfl
    · have h1 : (callBoth (clPop (scName s) hk) (fxPop env s) (Whole.emit (.closing s) { w with scopes := rest })).2.started = w.started := by
        unfold callBoth
        have hf := (clPop_fields (scName s) hk (Whole.emit (.closing s) { w with scopes := rest })).1
        generalize clPop (scName s) hk (Whole.emit (.closing s) { w with scopes := rest }) = q at hf
        rcases q with ⟨_ | x, w2⟩ <;> simp only at hf ⊢
        · rw [(fxPop_spec env s w2).1.started, hf]; rfl
        · split
          · show (fxPop env s w2).2.started = _
            rw [(fxPop_spec env s w2).1.started, hf]; rfl
          · rw [hf]; rfl
      split <;> rename_i heq <;> rw [heq] at h1 <;> exact h1

theorem beginTest_started (t : T) (w : W) : (beginTest env t w).2.started = w.started := by
  have h0 : (if w.lastModule = none then push .session w else w).started = w.started := by split <;> rfl
  unfold beginTest
  generalize (if w.lastModule = none then push .session w else w) = w0 at h0 ⊢
  have h1 : (changeModule env t w0).2.started = w0.started := by
    unfold changeModule
    split
    · have h1 : (if w0.lastModule ≠ none then pop env .module none w0 else (none, w0)).2.started = w0.started := by
        split
        · exact popped_started _ _ w0
        · rfl
      split <;> rename_i heq <;> rw [heq] at h1
      · exact h1
      · split <;> exact h1
    · rfl
  split <;> rename_i heq <;> rw [heq] at h1
  · exact h1.trans h0
  · exact h1.trans h0

theorem beginRunEnd_J (t : T) (hm : t ∈ ts) (ha : t.avoid = 0) {w : W} (h : J env ts w) (hst : w.started = false) :
    J env ts (beginRunEnd env t w).2 := by
  have h1 := beginTest_J t h
  have h2 := beginTest_started (env := env) t w
  have h3 := beginTest_none (env := env) t (w := w)
  show J env ts (match beginTest env t w with
    | (some x, w) => (some x, w)
    | (none, w) => fin (seq (ctrlStart t) (handle true (testRun env t))) (endTest env t) w).2
  generalize beginTest env t w = r at h1 h2 h3
  rcases r with ⟨_ | x, w'⟩
  · obtain ⟨h4, rest, h5⟩ := h3 rfl
    exact runEnd_J t hm ha h1 (h2.trans hst) h4 h5
  · exact h1

theorem block_J (t : T) (hm : t ∈ ts) (ha : t.avoid = 0) (l : Bool) (prev : Option RKey) {w : W} (h : J env ts w) (hst : w.started = false) :
    J env ts (block env t l prev w).2 := by
  unfold block
  rw [exceptSkip_snd]
  have h1 : J env ts (exceptSkip (handle true (beginRunEnd env t)) w).2 := by
    rw [exceptSkip_snd]
    rcases handle_or true (beginRunEnd env t) w with h1 | ⟨k, -, h1⟩ <;> rw [h1]
    · exact beginRunEnd_J t hm ha h hst
    · exact (beginRunEnd_J t hm ha h hst).keep (keep_record _ _)
  have h2 : Stays (J env ts) (seq (fireSummary t) (if l then seq (ctrlEnd t prev) (handle true (initiateCleanup env)) else act id)) := by
    refine stays_seq (stays_fireSummary t) ?_
    split
    · exact stays_seq (stays_ctrlEnd t prev) (stays_handle stays_initiateCleanup (fun _ _ h => h.keep))
    · exact fun w h => h
  show J env ts (match exceptSkip (handle true (beginRunEnd env t)) w with
    | (some x, w) => (some x, w)
    | (none, w) => seq (fireSummary t) (if l then seq (ctrlEnd t prev) (handle true (initiateCleanup env)) else act id) w).2
  generalize exceptSkip (handle true (beginRunEnd env t)) w = r at h1
  rcases r with ⟨_ | x, w'⟩
  · exact h2 w' h1
  · exact h1

theorem stays_inner (t : T) (hm : t ∈ ts) (l : Bool) (prev : Option RKey) : Stays (J env ts) (inner env t l prev) := by
  refine stays_seq (stays_user _ (fun _ _ h => h.keep)) ?_
  split
  · rename_i ha
    intro w h
    exact stays_ctrlEnd t prev _ (block_J t hm ha l prev (h.keep (keep_mark t false w)) rfl)
  · rename_i ha
    exact stays_seq (m := act (addSkips t.avoid)) (fun w h => h.keep (keep_addSkips _ w))
      (stays_hook _ (fun _ _ h => h.keep) (fun _ h => h.emit (by simp) (by simp) (by simp) (by simp)
        (fun u hu => ⟨t, hm, by cases hu; rfl, ha⟩)))

theorem stays_runSingle (t : T) (hm : t ∈ ts) (l : Bool) : Stays (J env ts) (runSingle env t l) := by
  intro w h
  unfold runSingle
  split
  · exact h
  · exact stays_fin (stays_handle (stays_inner t hm l _) (fun _ _ h => h.keep)) (k := act (setContext w.cl.curResult w.cl.curTest))
      (fun w' h => h.move (w' := setContext _ _ w') (reach_ctx ..) rfl rfl (Sub.refl _))
      (setContext (some (.test t.id)) (some t.id) (addTest t w)) (h.move (reach_ctx ..) rfl rfl (Sub.refl _))

theorem loop_J (l : List T) (hl : ∀ t ∈ l, t ∈ ts) {w : W} (h : J env ts w) : J env ts (loop env l w).2.2 := by
  induction l generalizing w with
  | nil => exact h
  | cons t l ih =>
    have h1 := stays_runSingle t (hl t (by simp)) l.isEmpty w h
    simp only [loop]
    split <;> rename_i heq <;> rw [heq] at h1
    · exact h1
    · split
      · exact h1
      · exact ih (fun t ht => hl t (List.mem_cons_of_mem _ ht)) h1

theorem stays_markUnrun (l : List T) : Stays (J env ts) (markUnrun l) := by
  induction l with
  | nil => exact fun w h => h
  | cons t l ih =>
    intro w h
    simp only [markUnrun]
    split
    · exact h
    · exact ih (addTest t w) h

theorem stays_runTests : Stays (J env ts) (runTests env ts) := by
  intro w h
  unfold runTests
  have h1 := loop_J ts (fun _ h => h) h
  generalize loop env ts w = r at h1
  rcases r with ⟨x, rest, w1⟩
  simp only at h1 ⊢
  have h2 := stays_initiateCleanup w1 h1
  generalize initiateCleanup env w1 = r at h2
  rcases r with ⟨y, w2⟩
  simp only at h2 ⊢
  cases y.or x with
  | some x => exact h2
  | none => exact stays_markUnrun rest w2 h2

theorem session_J : J env ts (session env ts).2 := by
  have h0 : J env ts initial := ⟨fun pre s post h => by simp [initial] at h, fun b hb => by simp [initial] at hb, ⟨_, rfl⟩, fun _ => rfl⟩
  have hs : Stays (J env ts) (startHooks env) :=
    stays_handle (stays_seq (stays_user _ (fun _ _ h => h.keep)) (stays_seq
      (stays_hook _ (fun _ _ h => h.keep) (fun _ h => h.emit (by simp) (by simp) (by simp) (by simp)))
      (stays_seq (m := act _) (fun _ h => h) (stays_user _ (fun _ _ h => h.keep))))) (fun _ _ h => h.keep)
  have hm := stays_seq hs (stays_runTests (env := env) (ts := ts))
  have hi : Stays (J env ts) (onInterrupt env (seq (startHooks env) (runTests env ts))) := by
    intro w h
    have h1 := hm w h
    unfold onInterrupt
    split
    · rename_i x w1 heq
      rw [heq] at h1
      split
      · have h2 := stays_user (P := J env ts) env.interrupt (fun _ _ h => h.keep) w1 h1
        split <;> rename_i heq2 <;> rw [heq2] at h2 <;> exact h2
      · exact h1
    · exact h1
  have he : Stays (J env ts) (endSession env) := by
    refine stays_seq (stays_handle (fun w h => ?_) (fun _ _ h => h.keep)) ?_
    · exact h.move (clPop_fields .. |>.1 ▸ reach_pop ..) (clPop_fields .. |>.1 ▸ rfl) (clPop_fields .. |>.1 ▸ rfl)
        (fun n hn => by rw [(clPop_fields ..).1]; exact names_popScope "session-global" none w.tests n hn)
    · intro w h
      simp only
      split
      · exact stays_seq (stays_handle (stays_hook _ (fun _ _ h => h.keep) (fun _ h => h.emit (by simp) (by simp) (by simp) (by simp))) (fun _ _ h => h.keep))
          (stays_handle (stays_user _ (fun _ _ h => h.keep)) (fun _ _ h => h.keep)) w h
      · exact h
  exact stays_fin hi he initial h0

end
end Slash.Whole
