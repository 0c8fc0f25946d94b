import Verif.Lemmas.WholeResults
import Verif.Lemmas.Runner
/-! Whole sessions are runs of the runner model: what user code, cleanups and fixtures do in a whole session is one of the arbitrary
scripts of `Verif.Model.Runner`. -/
namespace Slash.Whole

open Slash.Scope (Sc)
open Slash.Cleanup (RKey Reg St Exn)
open Slash.Result (REv)

/-! ## Changes of results as lists of events -/

/-- One event on one result. -/
def upd (f : RKey → Result) (p : RKey × REv) : RKey → Result := fun k => if k = p.1 then (f k).apply p.2 else f k

/-- The events of whole sessions: no fatal marks, and results are not marked finished. -/
def Plain : REv → Prop
  | .finish => False
  | .err f | .fail f => f = false
  | _ => True

/-- Results changed by events on results of the session. -/
def Changed (F : List Nat) (f f' : RKey → Result) : Prop :=
  ∃ es : List (RKey × REv), (∀ p ∈ es, OkR F (some p.1) ∧ Plain p.2) ∧ es.foldl upd f = f'

variable {F : List Nat}

theorem Changed.refl (f : RKey → Result) : Changed F f f := ⟨[], by simp, rfl⟩
theorem Changed.trans {a b c : RKey → Result} (h : Changed F a b) (h' : Changed F b c) : Changed F a c := by
  obtain ⟨l, h1, rfl⟩ := h
  obtain ⟨m, h2, rfl⟩ := h'
  exact ⟨l ++ m, by intro p hp; rcases List.mem_append.1 hp with hp | hp; exact h1 p hp; exact h2 p hp, List.foldl_append⟩
theorem Changed.one {f : RKey → Result} {k : RKey} (hk : OkR F (some k)) {e : REv} (he : Plain e) : Changed F f (upd f (k, e)) :=
  ⟨[(k, e)], by simp only [List.mem_singleton]; rintro p rfl; exact ⟨hk, he⟩, rfl⟩
theorem Changed.of_eq {f f' : RKey → Result} (h : f' = f) : Changed F f f' := by rw [h]; exact Changed.refl f
theorem OkR.mono {G : List Nat} (h : ∀ x ∈ F, x ∈ G) {x : Option RKey} (hx : OkR F x) : OkR G x := by
  rcases hx with hx | ⟨t, h1, h2⟩
  · exact .inl hx
  · exact .inr ⟨t, h t h1, h2⟩
theorem Good.mono {G : List Nat} (h : ∀ x ∈ F, x ∈ G) {a : St} (ha : Good F a) : Good G a :=
  ⟨ha.cur.mono h, fun t ht => h t (ha.curT t ht), fun c hc => (ha.pend c hc).mono h, fun u c hc => (ha.regs u c hc).mono h,
   fun r k hr => by obtain ⟨x, h1, h2⟩ := ha.ended r k hr; exact ⟨x, h1.mono h, h2⟩⟩

/-- The event of an exception of this kind. -/
def kindEv : Kind → REv
  | .failure => .fail false
  | .skip => .skip "skip"
  | .interrupt => .interrupt
  | .error | .other => .err false

theorem kindEv_plain (k : Kind) : Plain (kindEv k) := by cases k <;> simp [kindEv, Plain]
theorem addKind_eq (r : Result) (k : Kind) : r.addKind k = r.apply (kindEv k) := by cases k <;> rfl

theorem record_results (a : St) (r : RKey) (k : Kind) : (a.record r k).results =
    if k = .interrupt then upd (upd a.results (r, kindEv k)) (.global, .interrupt) else upd a.results (r, kindEv k) := by
  unfold St.record
  simp only
  split
  · simp only [St.updResult]
    funext k'
    simp only [addKind_eq, upd]
    split <;> rfl
  · simp only [St.updResult]
    funext k'
    simp only [addKind_eq, upd]

theorem chg_record {a : St} {r : RKey} (k : Kind) (hr : OkR F (some r)) : Changed F a.results (a.record r k).results := by
  rw [record_results]
  split
  · exact (Changed.one hr (kindEv_plain k)).trans (Changed.one (.inl rfl) (e := .interrupt) trivial)
  · exact Changed.one hr (kindEv_plain k)

theorem addCleanup_results (sc : Cleanup.ScopeArg) (cb : Cleanup.Cb) (a : St) : (Cleanup.addCleanup sc cb a).2.results = a.results := by
  unfold Cleanup.addCleanup
  split
  · rfl
  · split
    · rfl
    · unfold Cleanup.place
      simp only
      split <;> rfl

theorem chg_runActs (acts : List Cleanup.Act) {a : St} (h : Good F a) : Changed F a.results (Cleanup.runActs acts a).2.results := by
  induction acts generalizing a with
  | nil => exact Changed.refl _
  | cons x rest ih =>
    cases x with
    | add sc cb =>
      have h1 := good_addCleanup h sc cb
      have h2 := addCleanup_results sc cb a
      simp only [Cleanup.runActs]
      split <;> rename_i heq <;> rw [heq] at h1 h2
      · exact Changed.of_eq h2
      · exact (Changed.of_eq h2).trans (ih h1)
    | note k =>
      simp only [Cleanup.runActs]
      split
      · rename_i r hr
        exact (chg_record k (hr ▸ h.cur)).trans (ih (good_record h _ _))
      · exact Changed.refl _

theorem chg_guardedCall {a : St} (c : Reg) (h : Good F a) (hc : OkR F c.result) : Changed F a.results (Cleanup.guardedCall c a).2.results := by
  have h1 := good_runActs c.cb.acts h
  have h2 := chg_runActs c.cb.acts h
  unfold Cleanup.guardedCall Cleanup.callCleanup
  cases hra : Cleanup.runActs c.cb.acts a with
  | mk o1 a1 =>
    rw [hra] at h1 h2
    simp only at h1 h2 ⊢
    cases Cleanup.endOf o1 c.cb with
    | none => exact h2
    | some e =>
      simp only [Option.map_some]
      by_cases hex : e.kind.isException = true
      · simp only [hex, if_true]
        obtain ⟨x, hx⟩ : ∃ x, c.result = some x := by rcases hc with hc | ⟨t, -, hc⟩ <;> exact ⟨_, hc⟩
        rw [hx] at hc
        simp only [hx, Bool.true_or, if_true]
        have h3 : Changed F a.results (((a1.emit (.ended c.reg (some e.kind))).record x e.kind).emit (.recorded c.reg x e.kind)).results :=
          h2.trans (chg_record (a := a1.emit (.ended c.reg (some e.kind))) e.kind hc)
        split <;> exact h3
      · simp only [hex, Bool.false_eq_true, if_false, Bool.false_or]
        have h3 : Changed F a.results (((a1.emit (.ended c.reg (some e.kind))).record (a1.emit (.ended c.reg (some e.kind))).currentForUpdate e.kind).emit
            (.recorded c.reg (a1.emit (.ended c.reg (some e.kind))).currentForUpdate e.kind)).results :=
          h2.trans (chg_record (a := a1.emit (.ended c.reg (some e.kind))) e.kind h1.updForUpdate)
        split <;> split <;> first | exact h2 | exact h3

theorem chg_callLoop {u : Nat} {f i : Bool} {a : St} (h : Good F a) : Changed F a.results (Cleanup.callLoop u f i a).2.results := by
  revert h
  apply Cleanup.callLoop_ind (P := fun a _ a' => Good F a → Changed F a.results a'.results)
  · intro a _ h; exact Changed.refl _
  · intro a c rest o a' hc hp ih h; exact ih (good_taken h hc _ (by simp))
  · intro a c rest e a' hc hp hg h
    have h1 := chg_guardedCall c (good_taken h hc (.ran c.reg u) (by simp)) (h.regs u c (by rw [hc]; simp))
    rw [hg] at h1; exact h1
  · intro a c rest a1 o a' hc hp hg ih h
    have h1 := chg_guardedCall c (good_taken h hc (.ran c.reg u) (by simp)) (h.regs u c (by rw [hc]; simp))
    have h2 := good_guardedCall c (good_taken h hc (.ran c.reg u) (by simp)) (h.regs u c (by rw [hc]; simp))
    rw [hg] at h1 h2; exact Changed.trans h1 (ih h2)

theorem chg_popScope {a : St} (h : Good F a) (n : String) (hk : Option Kind) (ts : List Nat) :
    Changed F a.results (Cleanup.popScope n hk ts a).2.results := by
  rcases Cleanup.popScope_cases n hk ts a with ⟨_, heq⟩ | ⟨_, _, _, _, heq⟩ | ⟨u, tl, _, _, heq⟩ <;> rw [heq]
  · exact Changed.refl _
  · exact Changed.refl _
  · have h1 : Good F (a.emit (.closing u (Cleanup.popFlags a ts).1 (Cleanup.popFlags a ts).2)) :=
      h.same rfl rfl rfl rfl [.closing u (Cleanup.popFlags a ts).1 (Cleanup.popFlags a ts).2] rfl (by simp)
    show Changed F a.results (Cleanup.callCleanups u (Cleanup.popFlags a ts).1 (Cleanup.popFlags a ts).2 hk
        (a.emit (.closing u (Cleanup.popFlags a ts).1 (Cleanup.popFlags a ts).2))).2.results
    unfold Cleanup.callCleanups
    split
    · simp only; split
      · exact Changed.refl _
      · exact chg_record (a := a.emit _) _ h1.updForUpdate
    · exact chg_callLoop h1

theorem popScope_context (n : String) (hk : Option Kind) (ts : List Nat) (a : St) :
    (Cleanup.popScope n hk ts a).2.curResult = a.curResult ∧ (Cleanup.popScope n hk ts a).2.curTest = a.curTest := by
  rcases Cleanup.popScope_cases n hk ts a with ⟨_, heq⟩ | ⟨_, _, _, _, heq⟩ | ⟨u, tl, _, _, heq⟩ <;> rw [heq]
  · exact ⟨rfl, rfl⟩
  · exact ⟨rfl, rfl⟩
  · have := Cleanup.frame_callCleanups u (Cleanup.popFlags a ts).1 (Cleanup.popFlags a ts).2 hk
        (a.emit (.closing u (Cleanup.popFlags a ts).1 (Cleanup.popFlags a ts).2))
    exact ⟨this.curResult, this.curTest⟩

/-- What a piece of user or teardown code does to the cleanup manager. -/
structure Moved (F : List Nat) (a b : St) : Prop where
  good : Good F b
  res : Changed F a.results b.results
  cur : b.curResult = a.curResult
  test : b.curTest = a.curTest

theorem Moved.refl {a : St} (h : Good F a) : Moved F a a := ⟨h, Changed.refl _, rfl, rfl⟩
theorem Moved.trans {a b c : St} (h : Moved F a b) (h' : Moved F b c) : Moved F a c :=
  ⟨h'.good, h.res.trans h'.res, h'.cur.trans h.cur, h'.test.trans h.test⟩
theorem moved_record {a : St} (h : Good F a) {r : RKey} (hr : OkR F (some r)) (k : Kind) : Moved F a (a.record r k) :=
  ⟨good_record h r k, chg_record k hr, (record_fields a r k).1, (record_fields a r k).2.1⟩
theorem moved_runActs {a : St} (h : Good F a) (acts : List Cleanup.Act) : Moved F a (Cleanup.runActs acts a).2 :=
  ⟨good_runActs acts h, chg_runActs acts h, (Cleanup.frame_runActs acts a).curResult, (Cleanup.frame_runActs acts a).curTest⟩
theorem moved_popScope {a : St} (h : Good F a) (n : String) (hk : Option Kind) (ts : List Nat) : Moved F a (Cleanup.popScope n hk ts a).2 :=
  ⟨good_popScope h n hk ts, chg_popScope h n hk ts, (popScope_context n hk ts a).1, (popScope_context n hk ts a).2⟩
theorem moved_push {a : St} (h : Good F a) (n : String) : Moved F a (Cleanup.pushScope n a) :=
  ⟨good_push h n, Changed.refl _, rfl, rfl⟩

/-! ## The relation between a whole session and a run -/

/-- The result that is current. -/
def key : Runner.Cur → RKey
  | .global => .global
  | .test id => .test id

/-- An event of a whole session as an event of the runner. -/
def evR : Ev → List Runner.Ev
  | .avoided id => [.avoided id]
  | .start id _ => [.hookStart id]
  | .body id => [.body id]
  | .summary id h => [.summary id h]
  | .fin id => [.hookEnd id]
  | .sessionCleanup => [.cleanup]
  | _ => []

/-- Events of the runner that whole sessions do not show: the reporter and files. -/
def vis : Runner.Ev → Bool
  | .fileStart _ | .fileEnd _ | .reportStart _ | .reportEnd _ => false
  | _ => true

/-- In the runner model `body` covers the computation of the fixtures too. -/
def notBody : Runner.Ev → Bool
  | .body _ => false
  | _ => true

def wTrace (w : W) : List Runner.Ev := w.trace.flatMap (fun s => evR s.ev)
def rTrace (st : Runner.St) : List Runner.Ev := st.trace.filter vis

/-- The results agree, but for the end time. -/
structure ResSim (F : List Nat) (f : RKey → Result) (res : SessionResults) : Prop where
  tests : res.tests.map (·.1) = F
  nodup : F.Nodup
  each : ∀ p ∈ res.tests, { p.2 with finished := false } = f (.test p.1)
  global : { res.global with finished := false } = f .global
  worker : res.workerError = false
  new : ∀ id, id ∉ F → f (.test id) = {}
  fatal : ∀ p ∈ res.tests, p.2.hasFatal = false

/-- What is fixed: current result, current test, tests that got an index. -/
structure RCtx where
  cur : Runner.Cur
  test : Option Nat
  indexed : List Nat

/-- The scope managers agree. -/
structure ScSim (w : W) (sc : Scope.St) : Prop where
  scopes : sc.scopes = w.scopes
  lastModule : sc.lastModule = w.lastModule
  lastTest : sc.lastTest = w.lastTest

/-- A state of a whole session and one of the runner. -/
structure Sim (x : RCtx) (w : W) (st : Runner.St) : Prop where
  cur : w.cl.curResult = some (key x.cur)
  stCur : st.cur = x.cur
  test : w.cl.curTest = x.test
  stTest : st.test = x.test
  indexed : st.indexed = x.indexed
  good : Good w.tests w.cl
  res : ResSim w.tests w.cl.results st.res
  scope : ScSim w st.scope
  started : st.started = w.started
  cleanups : st.cleanups = w.cleanups
  trace : (wTrace w).filter notBody = (rTrace st).filter notBody
  bodies : (wTrace w).Sublist (rTrace st)

/-- The same as something user code of the runner does. -/
def toU : RKey × REv → Runner.UEv
  | (.global, e) => .glob e
  | (.test id, e) => .of id e

/-- The same as an operation on the results. -/
def toOp : RKey × REv → SessionResults.Op
  | (.global, e) => .gev e
  | (.test id, e) => .ev id e

theorem foldl_uev (es : List (RKey × REv)) (st : Runner.St) :
    (es.map toU).foldl Runner.St.uev st = { st with res := (es.map toOp).foldl SessionResults.step st.res } := by
  induction es generalizing st with
  | nil => rfl
  | cons p es ih =>
    rcases p with ⟨_ | id, e⟩ <;> simp only [List.map_cons, List.foldl_cons, ih] <;> rfl

theorem apply_unfinished (r : Result) (e : REv) (h : Plain e) :
    { r.apply e with finished := false } = ({ r with finished := false } : Result).apply e := by
  cases e <;> first | exact h.elim | rfl

theorem apply_fatal (r : Result) (e : REv) (h : Plain e) (hr : r.hasFatal = false) : (r.apply e).hasFatal = false := by
  cases e with
  | err f => cases h; simpa [Result.hasFatal, Result.apply, Result.addError] using hr
  | fail f => cases h; simpa [Result.hasFatal, Result.apply, Result.addFailure] using hr
  | finish => exact h.elim
  | _ => exact hr

theorem ResSim.step {f : RKey → Result} {res : SessionResults} (h : ResSim F f res) (p : RKey × REv) (hp : OkR F (some p.1)) (he : Plain p.2) :
    ResSim F (upd f p) (res.step (toOp p)) := by
  rcases p with ⟨_ | id, e⟩
  · refine ⟨h.tests, h.nodup, ?_, ?_, h.worker, ?_, h.fatal⟩
    · intro p hp; exact h.each p hp
    · show { res.global.apply e with finished := false } = _
      rw [apply_unfinished _ _ he, h.global]; rfl
    · intro id hid; exact h.new id hid
  · have hid : id ∈ F := by
      rcases hp with hp | ⟨t, ht, hp⟩
      · cases hp
      · cases hp; exact ht
    refine ⟨?_, h.nodup, ?_, h.global, h.worker, ?_, ?_⟩
    · rw [← h.tests]
      show (res.tests.map _).map _ = _
      rw [List.map_map]
      apply List.map_congr_left
      intro p _
      simp only [Function.comp]
      split <;> rfl
    · intro p hp
      obtain ⟨q, hq, rfl⟩ := List.mem_map.1 hp
      have := h.each q hq
      simp only [beq_iff_eq, upd]
      split
      · rename_i hqi
        simp only [hqi, if_true]
        rw [apply_unfinished _ _ he, this, hqi]
      · rename_i hqi
        rw [if_neg (by simpa using hqi)]
        exact this
    · intro id' hid'
      show (if RKey.test id' = RKey.test id then _ else _) = _
      rw [if_neg (by intro h; cases h; exact hid' hid)]
      exact h.new id' hid'
    · intro p hp
      obtain ⟨q, hq, rfl⟩ := List.mem_map.1 hp
      have := h.fatal q hq
      split
      · exact apply_fatal _ _ he this
      · exact this

theorem ResSim.steps {f : RKey → Result} {res : SessionResults} (h : ResSim F f res) (es : List (RKey × REv))
    (hes : ∀ p ∈ es, OkR F (some p.1) ∧ Plain p.2) : ResSim F (es.foldl upd f) ((es.map toOp).foldl SessionResults.step res) := by
  induction es generalizing f res with
  | nil => exact h
  | cons p es ih =>
    exact ih (h.step p (hes p (by simp)).1 (hes p (by simp)).2) (fun q hq => hes q (by simp [hq]))

/-- The exceptions agree. -/
def XR : Option X → Option Runner.X → Prop
  | none, none => True
  | some x, some y => y.kind = x.kind ∧ y.handled = x.handled ∧ y.fatal = false ∧ (y.elsewhere = true → y.handled = true)
  | _, _ => False

/-- The ends of two pieces of program agree. -/
def RR (x : RCtx) (r : Option X × W) (q : Option Runner.X × Runner.St) : Prop := XR r.1 q.1 ∧ Sim x r.2 q.2

/-- A piece of program without events of the runner. -/
structure Tame (w w' : W) : Prop where
  tests : w'.tests = w.tests
  started : w'.started = w.started
  cleanups : w'.cleanups = w.cleanups
  trace : wTrace w' = wTrace w
  moved : Moved w.tests w.cl w'.cl

theorem Tame.refl {w : W} (h : Good w.tests w.cl) : Tame w w := ⟨rfl, rfl, rfl, rfl, Moved.refl h⟩
theorem Tame.trans {a b c : W} (h : Tame a b) (h' : Tame b c) : Tame a c :=
  ⟨h'.tests.trans h.tests, h'.started.trans h.started, h'.cleanups.trans h.cleanups, h'.trace.trans h.trace,
   h.moved.trans (h.tests ▸ h'.moved)⟩
theorem Tame.good {w w' : W} (h : Tame w w') : Good w'.tests w'.cl := h.tests ▸ h.moved.good

/-- Such a piece is a list of events on results. -/
theorem Tame.sim {w w' : W} (h : Tame w w') : ∃ es : List Runner.UEv, ∀ x st sc, Sim x w st → ScSim w' sc →
    Sim x w' { es.foldl Runner.St.uev st with scope := sc } := by
  obtain ⟨es, h1, h2⟩ := h.moved.res
  refine ⟨es.map toU, fun x st sc hs hsc => ?_⟩
  rw [foldl_uev]
  exact ⟨h.moved.cur.trans hs.cur, hs.stCur, h.moved.test.trans hs.test, hs.stTest, hs.indexed, h.good,
    by rw [h.tests, ← h2]; exact hs.res.steps es h1, hsc, hs.started.trans h.started.symm, hs.cleanups.trans h.cleanups.symm,
    by rw [h.trace]; exact hs.trace, by rw [h.trace]; exact hs.bodies⟩

/-- The same if scopes are not touched. -/
theorem Tame.sim' {w w' : W} (h : Tame w w') (h1 : w'.scopes = w.scopes) (h2 : w'.lastModule = w.lastModule) (h3 : w'.lastTest = w.lastTest) :
    ∃ es : List Runner.UEv, ∀ x st, Sim x w st → Sim x w' (es.foldl Runner.St.uev st) := by
  obtain ⟨es, h4, h5⟩ := h.moved.res
  refine ⟨es.map toU, fun x st hs => ?_⟩
  rw [foldl_uev]
  exact ⟨h.moved.cur.trans hs.cur, hs.stCur, h.moved.test.trans hs.test, hs.stTest, hs.indexed, h.good,
    by rw [h.tests, ← h5]; exact hs.res.steps es h4, ⟨hs.scope.scopes.trans h1.symm, hs.scope.lastModule.trans h2.symm, hs.scope.lastTest.trans h3.symm⟩,
    hs.started.trans h.started.symm, hs.cleanups.trans h.cleanups.symm,
    by rw [h.trace]; exact hs.trace, by rw [h.trace]; exact hs.bodies⟩

/-- Events that the runner model does not have. -/
theorem tame_emit {w : W} (h : Good w.tests w.cl) {e : Ev} (he : evR e = []) : Tame w (emit e w) :=
  ⟨rfl, rfl, rfl, by simp [wTrace, emit, he], Moved.refl h⟩
theorem tame_user {w : W} (h : Good w.tests w.cl) (c : Code) : Tame w (user c w).2 := by
  have h1 := moved_runActs h c.acts
  unfold user
  split <;> rename_i heq <;> rw [heq] at h1 <;> exact ⟨rfl, rfl, rfl, rfl, h1⟩
theorem tame_record {w : W} (h : Good w.tests w.cl) (k : Kind) : Tame w (record k w) :=
  ⟨rfl, rfl, rfl, rfl, moved_record h h.updForUpdate k⟩
theorem tame_push {w : W} (h : Good w.tests w.cl) (s : Sc) : Tame w (push s w) := ⟨rfl, rfl, rfl, rfl, moved_push h _⟩
theorem tame_clPop {w : W} (h : Good w.tests w.cl) (n : String) (hk : Option Kind) : Tame w (clPop n hk w).2 := by
  rw [(clPop_fields n hk w).1]
  exact ⟨rfl, rfl, rfl, rfl, moved_popScope h n hk w.tests⟩
theorem tame_fx {w : W} (h : Good w.tests w.cl) (fx : Fix.St) : Tame w { w with fx := fx } := ⟨rfl, rfl, rfl, rfl, Moved.refl h⟩
theorem tame_fxLoop (fs : List Nat) {w : W} (h : Good w.tests w.cl) : Tame w (fxLoop fs w).2 := by
  induction fs generalizing w with
  | nil => exact Tame.refl h
  | cons f fs ih =>
    simp only [fxLoop]
    split
    · exact (tame_fx h _).trans (ih (w := { w with fx := _ }) h)
    · rename_i k fx _
      have h1 := (tame_fx h fx).trans (tame_record (w := { w with fx := fx }) h k)
      split
      · exact h1
      · exact h1.trans (ih h1.good)
theorem tame_fxLoops (env : Env) (s : Nat) (ks : List Nat) {w : W} (h : Good w.tests w.cl) : Tame w (fxLoops env s ks w).2 := by
  induction ks generalizing w with
  | nil => exact Tame.refl h
  | cons k ks ih =>
    simp only [fxLoops]
    split
    · have h1 := tame_fxLoop ((w.fx.active.filter (fun a => (env.defs a.id).scope == k)).map (·.id)).reverse h
      split <;> rename_i heq <;> rw [heq] at h1
      · exact h1
      · exact h1.trans (ih h1.good)
    · exact ih h
theorem tame_fxPop (env : Env) (s : Sc) {w : W} (h : Good w.tests w.cl) : Tame w (fxPop env s w).2 := by
  have h1 := tame_emit h (e := .fixturesDown s) rfl
  unfold fxPop
  simp only
  split
  · exact h1
  · exact h1.trans (tame_fxLoops env _ _ h1.good)

/-! ## Exceptions, handlers -/

theorem XR.none_iff {x : Option X} {y : Option Runner.X} (h : XR x y) : x = none ↔ y = none := by
  cases x <;> cases y <;> simp_all [XR]

theorem sim_record {x : RCtx} {w : W} {st : Runner.St} (h : Sim x w st) {y : Runner.X} (hf : y.fatal = false) : Sim x (record y.kind w) (Runner.record y st) := by
  have h1 := tame_record h.good y.kind
  have hres : Runner.record y st = { st with res := (if y.kind = .interrupt then [(w.cl.currentForUpdate, kindEv y.kind), (.global, .interrupt)]
      else [(w.cl.currentForUpdate, kindEv y.kind)] : List (RKey × REv)).foldl (fun r p => r.step (toOp p)) st.res } ∨
      (y.kind = .interrupt ∧ w.cl.currentForUpdate = .global ∧ Runner.record y st = { st with res := st.res.step (.gev .interrupt) }) := by
    unfold Runner.record Runner.St.here St.currentForUpdate
    rw [h.test, hf]
    cases hx : x.test <;> cases hk : y.kind <;> have hst := h.stTest <;> rw [hx] at hst <;>
      simp [Runner.St.evAt, Runner.St.gev, kindEv, toOp, hst]
  have hok := h.good.updForUpdate
  have hrs : ResSim w.tests (record y.kind w).cl.results (Runner.record y st).res := by
    show ResSim w.tests (w.cl.record w.cl.currentForUpdate y.kind).results _
    rw [record_results]
    rcases hres with hres | ⟨h2, h3, hres⟩ <;> rw [hres]
    · by_cases hk : y.kind = .interrupt
      · rw [if_pos hk, if_pos hk]
        exact (h.res.step _ hok (kindEv_plain _)).step _ (.inl rfl) trivial
      · rw [if_neg hk, if_neg hk]
        exact h.res.step _ hok (kindEv_plain _)
    · rw [if_pos h2, h2, h3]
      have := h.res.step (.global, .interrupt) (.inl rfl) trivial
      have e : upd (upd w.cl.results (.global, kindEv .interrupt)) (.global, .interrupt) = upd w.cl.results (.global, .interrupt) := by
        funext k; simp only [upd, kindEv]; split <;> rfl
      rw [e]; exact this
  have hst : Runner.record y st = { st with res := (Runner.record y st).res } := by
    rcases hres with hres | ⟨-, -, hres⟩ <;> rw [hres]
  rw [hst]
  exact ⟨h1.moved.cur.trans h.cur, h.stCur, h1.moved.test.trans h.test, h.stTest, h.indexed, h1.good, hrs, ⟨h.scope.1, h.scope.2, h.scope.3⟩,
    h.started, h.cleanups, h.trace, h.bodies⟩

theorem rr_handle {x : RCtx} {b : Bool} {m : M} {w : W} {q : Option Runner.X × Runner.St} (h : RR x (m w) q) :
    RR x (handle b m w) (Runner.handle b q) := by
  rcases q with ⟨y, st⟩
  obtain ⟨h1, h2⟩ := h
  unfold handle
  split <;> rename_i heq <;> rw [heq] at h1 h2
  · cases y with
    | none => exact ⟨trivial, h2⟩
    | some y => exact h1.elim
  · rename_i z w1
    cases y with
    | none => exact h1.elim
    | some y =>
      obtain ⟨hk, hh, hf, he⟩ := h1
      simp only [Runner.handle]
      have hor : (y.handled || y.elsewhere) = z.handled := by
        rw [← hh]; cases hq : y.elsewhere <;> simp_all
      rw [hor, hk]
      have h3 : Sim x (if z.handled = true then w1 else record z.kind w1) (if z.handled = true then st else Runner.record y st) := by
        split
        · exact h2
        · rw [← hk]; exact sim_record h2 hf
      split
      · exact ⟨trivial, h3⟩
      · exact ⟨⟨rfl, rfl, hf, fun _ => rfl⟩, h3⟩

theorem rr_exceptSkip {x : RCtx} {m : M} {w : W} {q : Option Runner.X × Runner.St} (h : RR x (m w) q) :
    RR x (exceptSkip m w) (Runner.exceptSkip q) := by
  rcases q with ⟨y, st⟩
  obtain ⟨h1, h2⟩ := h
  unfold exceptSkip
  cases hm : m w with
  | mk o w1 =>
    rw [hm] at h1 h2
    cases o with
    | none =>
      cases y with
      | none => exact ⟨trivial, h2⟩
      | some y => exact h1.elim
    | some z =>
      cases y with
      | none => exact h1.elim
      | some y =>
        simp only [Runner.exceptSkip]
        rw [h1.1]
        split
        · exact ⟨trivial, h2⟩
        · exact ⟨h1, h2⟩

/-- User code is a step. -/
theorem step_user (c : Code) {w : W} (hg : Good w.tests w.cl) : ∃ s : Runner.Step, (s.raises = (user c w).1.map (fun x => ({ kind := x.kind } : Runner.X))) ∧
    ∀ x st, Sim x w st → RR x (user c w) (Runner.runStep s st) := by
  have h1 : (user c w).2.scopes = w.scopes ∧ (user c w).2.lastModule = w.lastModule ∧ (user c w).2.lastTest = w.lastTest := by
    unfold user; split <;> exact ⟨rfl, rfl, rfl⟩
  have h2 : ∀ y, (user c w).1 = some y → y.handled = false := (user_returns c w).2
  obtain ⟨es, hes⟩ := (tame_user hg c).sim' h1.1 h1.2.1 h1.2.2
  refine ⟨{ evs := es, raises := (user c w).1.map (fun x => ({ kind := x.kind } : Runner.X)) }, rfl, fun x st hs => ?_⟩
  have := hes x st hs
  unfold Runner.runStep
  cases hu : (user c w).1 with
  | none => exact ⟨by rw [hu]; trivial, this⟩
  | some y => exact ⟨by rw [hu]; exact ⟨rfl, (h2 y hu).symm, rfl, fun h => by cases h⟩, this⟩

end Slash.Whole
