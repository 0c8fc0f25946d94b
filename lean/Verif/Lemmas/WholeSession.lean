import Verif.Lemmas.WholeRefine4
import Verif.Props.Runner
/-! Whole sessions: what the refinement says about their traces; sessions as a start, a run and an end. -/
namespace Slash.Whole

open Slash.Scope (Sc)
open Slash.Cleanup (RKey Reg St Exn)
open Slash.Result (REv)

/-! ## Lists -/

theorem sublist_filter_split {α : Type} (p : α → Bool) {L a b : List α} (h : L.Sublist (a ++ b)) (hf : L.filter p = (a ++ b).filter p) :
    ∃ l m, L = l ++ m ∧ l.Sublist a ∧ m.Sublist b ∧ l.filter p = a.filter p ∧ m.filter p = b.filter p := by
  obtain ⟨l, m, rfl, h1, h2⟩ := List.sublist_append_iff.1 h
  rw [List.filter_append, List.filter_append] at hf
  have s1 := (h1.filter p).length_le
  have s2 := (h2.filter p).length_le
  have hl := congrArg List.length hf
  rw [List.length_append, List.length_append] at hl
  have := List.append_inj hf (by omega)
  exact ⟨l, m, rfl, h1, h2, this.1, this.2⟩

theorem sublist_filter_all {α : Type} {p : α → Bool} {l a : List α} (h : l.Sublist a) (hf : l.filter p = a.filter p) (ha : ∀ x ∈ a, p x = true) :
    l = a := by
  have e : a.filter p = a := List.filter_eq_self.2 ha
  refine h.eq_of_length_le ?_
  rw [e] at hf
  rw [← hf]
  exact List.length_filter_le p l

/-! ## The part of the trace of one test -/

def notCleanup : Runner.Ev → Bool
  | .cleanup => false
  | _ => true

/-- The events of one test: avoided, or started, perhaps with its function, a summary, the end. -/
def Piece (id : Nat) (seg : List Runner.Ev) : Prop :=
  seg = [.avoided id] ∨ ∃ core su : List Runner.Ev, seg = core ++ su ++ (if core = [] then [] else [.hookEnd id]) ∧
    (core = [] ∨ core = [.hookStart id] ∨ core = [.hookStart id, .body id]) ∧ (su = [] ∨ ∃ h, su = [.summary id h])

theorem piece_of {id : Nat} {seg l : List Runner.Ev} (hp : Runner.Protocol id seg) (hs : l.Sublist (seg.filter notCleanup))
    (hf : l.filter notBody = (seg.filter notCleanup).filter notBody) : Piece id l := by
  rcases hp.flat with rfl | ⟨core, su, cl, rfl, hcore, hsu, hcl⟩
  · exact .inl (sublist_filter_all hs hf (by simp [notBody, notCleanup]))
  · right
    have e : (core ++ su ++ (if core = [] then [] else [Runner.Ev.hookEnd id]) ++ cl).filter notCleanup =
        core ++ (su ++ (if core = [] then [] else [Runner.Ev.hookEnd id])) := by
      rcases hcore with rfl | rfl | rfl <;> rcases hsu with rfl | ⟨h, rfl⟩ <;> rcases hcl with rfl | rfl <;> simp [notCleanup, List.filter]
    rw [e] at hs hf
    obtain ⟨c', r, rfl, h1, h2, h3, h4⟩ := sublist_filter_split notBody hs hf
    have hr : r = su ++ (if core = [] then [] else [Runner.Ev.hookEnd id]) := by
      refine sublist_filter_all h2 h4 ?_
      rcases hsu with rfl | ⟨h, rfl⟩ <;> split <;> simp [notBody]
    subst hr
    rcases hcore with rfl | rfl | rfl
    · have : c' = [] := List.sublist_nil.1 h1
      subst this
      exact ⟨[], su, by simp, .inl rfl, hsu⟩
    · have : c' = [.hookStart id] := sublist_filter_all h1 h3 (by simp [notBody])
      subst this
      exact ⟨[.hookStart id], su, by simp, .inr (.inl rfl), hsu⟩
    · have hc : c' = [.hookStart id] ∨ c' = [.hookStart id, .body id] := by
        rcases c' with _ | ⟨a, _ | ⟨b, _ | ⟨c, m⟩⟩⟩
        · simp [notBody] at h3
        · left
          have : a ∈ [Runner.Ev.hookStart id, .body id] := h1.subset (by simp)
          rcases List.mem_cons.1 this with rfl | hb
          · rfl
          · rw [List.mem_singleton.1 hb] at h3; simp [notBody] at h3
        · right; exact h1.eq_of_length_le (by simp)
        · have := h1.length_le; simp at this
      rcases hc with rfl | rfl
      · exact ⟨[.hookStart id], su, by simp, .inr (.inl rfl), hsu⟩
      · exact ⟨[.hookStart id, .body id], su, by simp, .inr (.inr rfl), hsu⟩

theorem pieces_of (segs : List (Runner.T × List Runner.Ev)) {L : List Runner.Ev} (hp : ∀ p ∈ segs, Runner.Protocol p.1.id p.2)
    (hs : L.Sublist (segs.flatMap (fun p => p.2.filter notCleanup)))
    (hf : L.filter notBody = (segs.flatMap (fun p => p.2.filter notCleanup)).filter notBody) :
    ∃ ps : List (Nat × List Runner.Ev), ps.map (·.1) = segs.map (·.1.id) ∧ L = ps.flatMap (·.2) ∧ ∀ p ∈ ps, Piece p.1 p.2 := by
  induction segs generalizing L with
  | nil => exact ⟨[], rfl, List.sublist_nil.1 hs, by simp⟩
  | cons a segs ih =>
    rw [List.flatMap_cons] at hs hf
    obtain ⟨l, m, rfl, h1, h2, h3, h4⟩ := sublist_filter_split notBody hs hf
    obtain ⟨ps, g1, g2, g3⟩ := ih (fun p h => hp p (List.mem_cons_of_mem _ h)) h2 h4
    refine ⟨(a.1.id, l) :: ps, by simp [g1], by simp [g2], fun p h => ?_⟩
    rcases List.mem_cons.1 h with rfl | h
    · exact piece_of (hp a (by simp)) h1 h3
    · exact g3 p h

/-- The visible trace of the loop of the runner. -/
theorem render_vis (crashed : Bool) (last : Option Nat) (segs : List (Runner.T × List Runner.Ev)) (rest : List Runner.T)
    (hp : ∀ p ∈ segs, Runner.Protocol p.1.id p.2) :
    ((Runner.render crashed last segs rest).filter vis).filter notCleanup = segs.flatMap (fun p => p.2.filter notCleanup) := by
  rw [List.filter_filter, Runner.filter_eq_filterMap', Runner.filterMap_render]
  · have : ∀ l : List (Runner.T × List Runner.Ev), (∀ p ∈ l, Runner.Protocol p.1.id p.2) →
        l.flatMap (fun p => ((if (notCleanup (.reportStart p.1.id) && vis (.reportStart p.1.id)) = true then some (Runner.Ev.reportStart p.1.id) else none)).toList ++
          p.2.filterMap (fun x => if (notCleanup x && vis x) = true then some x else none)) = l.flatMap (fun p => p.2.filter notCleanup) := by
      intro l hl
      induction l with
      | nil => rfl
      | cons a l ih =>
        rw [List.flatMap_cons, List.flatMap_cons, ih (fun p h => hl p (List.mem_cons_of_mem _ h))]
        congr 1
        rw [← Runner.filter_eq_filterMap']
        simp only [vis, Bool.and_false, Bool.false_eq_true, if_false, Option.toList_none, List.nil_append]
        apply List.filter_congr
        intro x hx
        rcases (hl a (by simp)).flat with h | ⟨core, su, cl, h, hcore, hsu, hcl⟩
        · rw [h] at hx; rw [List.mem_singleton.1 hx]; rfl
        · rw [h] at hx
          have : vis x = true := by
            rcases hcore with rfl | rfl | rfl <;> rcases hsu with rfl | ⟨h, rfl⟩ <;> rcases hcl with rfl | rfl <;>
              simp at hx <;> (try rcases hx with rfl | hx) <;> (try rcases hx with rfl | hx) <;> (try rcases hx with rfl | hx) <;>
              (try rcases hx with rfl | hx) <;> (try subst hx) <;> rfl
          show (notCleanup x && vis x) = notCleanup x
          rw [this, Bool.and_true]
    exact this segs hp
  all_goals intro i; rfl

/-! ## The start of a session -/

/-- Nothing about scopes or tests changed. -/
structure Inert (w w' : W) : Prop where
  scopes : w'.scopes = w.scopes
  lastModule : w'.lastModule = w.lastModule
  lastTest : w'.lastTest = w.lastTest
  tests : w'.tests = w.tests

def InertM (m : M) : Prop := ∀ w, Inert w (m w).2

theorem Inert.refl (w : W) : Inert w w := ⟨rfl, rfl, rfl, rfl⟩
theorem Inert.trans {a b c : W} (h : Inert a b) (h' : Inert b c) : Inert a c :=
  ⟨h'.scopes.trans h.scopes, h'.lastModule.trans h.lastModule, h'.lastTest.trans h.lastTest, h'.tests.trans h.tests⟩

theorem inert_seq {m k : M} (hm : InertM m) (hk : InertM k) : InertM (seq m k) := by
  intro w
  have h := hm w
  rcases heq : m w with ⟨_ | x, w1⟩ <;> rw [heq] at h
  · rw [seq_none heq]; exact h.trans (hk w1)
  · rw [seq_some heq]; exact h
theorem inert_handle {b : Bool} {m : M} (hm : InertM m) : InertM (handle b m) := by
  intro w
  rcases handle_or b m w with h | ⟨x, -, h⟩ <;> rw [h]
  · exact hm w
  · exact (hm w).trans ⟨rfl, rfl, rfl, rfl⟩
theorem inert_user (c : Code) : InertM (user c) := by
  intro w; unfold user; split <;> exact ⟨rfl, rfl, rfl, rfl⟩
theorem inert_hook (e : Ev) (c : Code) : InertM (hook e c) := inert_seq (fun _ => ⟨rfl, rfl, rfl, rfl⟩) (inert_user c)
theorem inert_clPop (n : String) (hk : Option Kind) : InertM (clPop n hk) := by
  intro w; rw [(clPop_fields n hk w).1]; exact ⟨rfl, rfl, rfl, rfl⟩
theorem inert_startHooks (env : Env) : InertM (startHooks env) :=
  inert_handle (inert_seq (inert_user _) (inert_seq (inert_hook _ _)
    (inert_seq (m := act (fun w => { w with startCalled := true })) (fun _ => ⟨rfl, rfl, rfl, rfl⟩) (inert_user _))))

def TameM (m : M) : Prop := ∀ w, Good w.tests w.cl → Tame w (m w).2

theorem tame_seq {m k : M} (hm : TameM m) (hk : TameM k) : TameM (seq m k) := by
  intro w hg
  have h := hm w hg
  rcases heq : m w with ⟨_ | x, w1⟩ <;> rw [heq] at h
  · rw [seq_none heq]; exact h.trans (hk w1 h.good)
  · rw [seq_some heq]; exact h
theorem tame_handle {b : Bool} {m : M} (hm : TameM m) : TameM (handle b m) := by
  intro w hg
  have h1 := hm w hg
  rcases handle_or b m w with h | ⟨x, -, h⟩ <;> rw [h]
  · exact h1
  · exact h1.trans (tame_record h1.good _)
theorem tame_hook {e : Ev} (c : Code) (he : evR e = []) : TameM (hook e c) :=
  tame_seq (m := act (emit e)) (fun _ h => tame_emit h he) (fun _ h => tame_user h c)
theorem tame_startHooks (env : Env) : TameM (startHooks env) :=
  tame_handle (tame_seq (fun _ h => tame_user h _) (tame_seq (tame_hook _ rfl)
    (tame_seq (m := act (fun w => { w with startCalled := true })) (fun _ h => ⟨rfl, rfl, rfl, rfl, Moved.refl h⟩) (fun _ h => tame_user h _))))

/-- The runner's state at the start of a session. -/
def st0 : Runner.St := { res := { global := { started := true } } }

theorem sim_initial : Sim ⟨.global, none, []⟩ initial st0 :=
  ⟨rfl, rfl, rfl, rfl, rfl, sg_initial (F := initial.tests), ⟨rfl, List.nodup_nil, by simp [st0], rfl, rfl, fun _ _ => rfl, by simp [st0]⟩,
    ⟨rfl, rfl, rfl⟩, rfl, rfl, rfl, List.Sublist.slnil⟩

theorem uev_keeps (es : List Runner.UEv) (st : Runner.St) : (es.foldl Runner.St.uev st).trace = st.trace ∧ (es.foldl Runner.St.uev st).indexed = st.indexed := by
  induction es generalizing st with
  | nil => exact ⟨rfl, rfl⟩
  | cons e es ih =>
    rw [List.foldl_cons, (ih _).1, (ih _).2]
    have : ∀ e, (st.ev e).trace = st.trace ∧ (st.ev e).indexed = st.indexed := by
      intro e; unfold Runner.St.ev Runner.St.evAt; split <;> exact ⟨rfl, rfl⟩
    cases e with
    | cur e => exact this e
    | «of» id e => exact ⟨rfl, rfl⟩
    | glob e => exact ⟨rfl, rfl⟩

theorem sim_start (env : Env) : ∃ st, Sim ⟨.global, none, []⟩ (startHooks env initial).2 st ∧ st.trace = [] ∧ st.indexed = [] := by
  have h := inert_startHooks env initial
  obtain ⟨es, he⟩ := (tame_startHooks env initial sg_initial).sim' h.scopes h.lastModule h.lastTest
  refine ⟨_, he _ _ sim_initial, ?_, ?_⟩
  · rw [(uev_keeps es st0).1]; rfl
  · rw [(uev_keeps es st0).2]; rfl

/-! ## The loop -/

theorem same_ids {ts : List T} {ts' : List Runner.T} (h : Same ts ts') : ts'.map (·.id) = ts.map (·.id) := by
  have := congrArg (List.map (·.1)) h
  simpa [List.map_map, Function.comp_def] using this

/-- The events of tests of a trace. -/
def seen (w : W) : List Runner.Ev := (wTrace w).filter notCleanup

structure LoopFacts (env : Env) (ts : List T) (r : Option X × List T × W) (ps : List (Nat × List Runner.Ev)) : Prop where
  split : ts.map (·.id) = ps.map (·.1) ++ r.2.1.map (·.id)
  trace : seen r.2.2 = ps.flatMap (·.2)
  each : ∀ p ∈ ps, Piece p.1 p.2
  tests : r.2.2.tests = ps.map (·.1)
  sim : ∃ i st, Sim ⟨.global, none, i⟩ r.2.2 st

theorem loop_facts (env : Env) (ts : List T) (hn : (ts.map (·.id)).Nodup) {w : W} {st : Runner.St} (h : Sim ⟨.global, none, []⟩ w st)
    (hw : w.tests = []) (ht : st.trace = []) (hi : st.indexed = []) : ∃ ps, LoopFacts env ts (loop env ts w) ps := by
  obtain ⟨ts', C, hs, hL⟩ := sim_loop env ts .global h.good h.cur
  obtain ⟨i', -, h2, h3⟩ := hL { stop := env.stop, cleanup := C } rfl (fun _ _ _ => rfl) none [] st h (by intro id; simp [hw])
  have hids : Runner.ids st = [] := h.res.tests.trans hw
  obtain ⟨segs, ok⟩ := Runner.loop_ok { stop := env.stop, cleanup := C } ts' st
    ⟨by rw [same_ids hs]; exact hn, fun t _ => by rw [hids]; simp, fun t _ => by rw [hi]; simp⟩
  have hp : ∀ p ∈ segs, Runner.Protocol p.1.id p.2 := fun p hp => by
    obtain ⟨y, hy, -⟩ := ok.eachSeg p hp; exact hy.proto
  have htr : (rTrace (Runner.loop { stop := env.stop, cleanup := C } ts' st).2.2.2).filter notCleanup = segs.flatMap (fun p => p.2.filter notCleanup) := by
    rw [rTrace, ok.trace, ht, List.nil_append, render_vis _ _ _ _ hp]
  obtain ⟨ps, g1, g2, g3⟩ := pieces_of segs (L := seen (loop env ts w).2.2) hp (by rw [← htr]; exact h2.bodies.filter _) (by
    rw [← htr, seen, List.filter_filter, List.filter_filter]
    have := congrArg (List.filter notCleanup) h2.trace
    rw [List.filter_filter, List.filter_filter] at this
    simpa only [Bool.and_comm] using this)
  refine ⟨ps, ⟨?_, g2, g3, ?_, ⟨i', _, h2⟩⟩⟩
  · rw [g1, ← same_ids hs, ← same_ids h3]
    have := congrArg (List.map (·.id)) ok.split
    simpa [List.map_append, List.map_map, Function.comp_def] using this
  · rw [g1, ← h2.res.tests]
    have := ok.ids
    rw [hids, List.nil_append] at this
    exact this

/-! ## Tests that were begun; when the loop ends -/

/-- Something is known about the test: it was started, skipped, or something went wrong. -/
def Begun (r : Result) : Prop := r.started = true ∨ r.skips ≠ [] ∨ r.errors ≠ [] ∨ r.failures ≠ [] ∨ r.interrupted = true

/-- Something went wrong. -/
def Bad (r : Result) : Prop := r.errors ≠ [] ∨ r.failures ≠ [] ∨ r.interrupted = true

theorem Bad.mono {a b : St} (g : Cleanup.Grow a b) {k : RKey} (h : Bad (a.results k)) : Bad (b.results k) := by
  have pos : ∀ {α : Type} (l : List α), l ≠ [] ↔ 0 < l.length := fun l => List.length_pos_iff.symm
  unfold Bad at h ⊢
  simp only [pos] at h ⊢
  rcases h with h | h | h
  · exact .inl (Nat.lt_of_lt_of_le h (g.errs _))
  · exact .inr (.inl (Nat.lt_of_lt_of_le h (g.fails _)))
  · exact .inr (.inr (g.ints _ h))

theorem Begun.mono {a b : St} (g : Cleanup.Grow a b) {k : RKey} (h : Begun (a.results k)) : Begun (b.results k) := by
  have pos : ∀ {α : Type} (l : List α), l ≠ [] ↔ 0 < l.length := fun l => List.length_pos_iff.symm
  rcases h with h | h | h
  · exact .inl (g.started _ h)
  · right; left
    rw [pos] at h ⊢
    exact Nat.lt_of_lt_of_le h (g.skips _)
  · exact .inr (.inr (Bad.mono g h))

theorem Marked.begun {t : Nat} {a : St} (h : Marked t a) : Begun (a.results (.test t)) := by
  rcases h with h | h | h | h
  · exact .inr (.inr (.inl h))
  · exact .inr (.inr (.inr (.inl h)))
  · exact .inr (.inl h)
  · exact .inr (.inr (.inr (.inr h)))

theorem success_result (r : Result) (h : r.isSuccess true = false) (hb : Begun r) : Bad r := by
  rcases r with ⟨e, f, s, st, fi, i⟩
  unfold Result.isSuccess at h
  unfold Begun at hb
  unfold Bad
  cases e <;> cases f <;> cases s <;> cases i <;> cases st <;> simp_all [Result.isStarted]

theorem bad_result (r : Result) (h : Bad r) : r.isSuccess true = false := by
  rcases r with ⟨e, f, s, st, fi, i⟩
  unfold Bad at h
  unfold Result.isSuccess
  cases e <;> cases f <;> cases i <;> simp_all

/-- If all tests were begun, the session is unsuccessful only because something went wrong. -/
theorem success_false {w : W} (h : success w = false) (hg : (w.cl.results .global).started = true)
    (ht : ∀ t ∈ w.tests, Begun (w.cl.results (.test t))) : Bad (w.cl.results .global) ∨ ∃ t ∈ w.tests, Bad (w.cl.results (.test t)) := by
  unfold success at h
  rw [Bool.and_eq_false_iff] at h
  rcases h with h | h
  · exact .inl (success_result _ h (.inl hg))
  · rw [List.all_eq_false] at h
    obtain ⟨t, h1, h2⟩ := h
    exact .inr ⟨t, h1, success_result _ (by simpa using h2) (ht t h1)⟩

theorem success_bad {w : W} (h : Bad (w.cl.results .global) ∨ ∃ t ∈ w.tests, Bad (w.cl.results (.test t))) : success w = false := by
  unfold success
  rw [Bool.and_eq_false_iff]
  rcases h with h | ⟨t, h1, h2⟩
  · exact .inl (bad_result _ h)
  · right
    rw [List.all_eq_false]
    exact ⟨t, h1, by rw [bad_result _ h2]; simp⟩

theorem addSkips_begun (n : Nat) {w : W} {t : Nat} (hc : w.cl.curResult = some (.test t)) (hn : n ≠ 0) : Begun ((addSkips n w).cl.results (.test t)) := by
  cases n with
  | zero => exact absurd rfl hn
  | succ n =>
    have h1 : Begun ((addSkip w).cl.results (.test t)) := by
      unfold addSkip
      rw [hc]
      exact (marked_record t w.cl .skip).begun
    exact Begun.mono (grow_addSkips {} n (addSkip w)).reach.grow h1

theorem handle_reach (b : Bool) (m : M) (w : W) : Reach (m w).2.cl (handle b m w).2.cl := by
  rcases handle_or b m w with h | ⟨x, -, h⟩ <;> rw [h]
  · exact Reach.refl _
  · exact reach_record ..

theorem runSingle_begun (env : Env) (t : T) (l : Bool) {w : W} (h : t.id ∉ w.tests) :
    Begun ((runSingle env t l w).2.cl.results (.test t.id)) := by
  rw [runSingle_new env t l h]
  show Begun ((handle true (inner env t l w.cl.curResult) (entered t w)).2.cl.results (.test t.id))
  have hr := handle_reach true (inner env t l w.cl.curResult) (entered t w)
  have hcu : (user t.reqs (entered t w)).2.cl.curResult = some (.test t.id) ∧ (user t.reqs (entered t w)).2.cl.curTest = some t.id := by
    have := (side_user t.reqs (entered t w)).frame
    exact ⟨this.curResult, this.curTest⟩
  have hu := (user_returns t.reqs (entered t w)).2
  have hie : inner env t l w.cl.curResult (entered t w) = seq (user t.reqs) (if t.avoid = 0 then
      seq (act (mark t false)) (fin (block env t l w.cl.curResult) (ctrlEnd t w.cl.curResult))
      else seq (act (addSkips t.avoid)) (hook (.avoided t.id) t.avoidedHook)) (entered t w) := rfl
  rcases heq : user t.reqs (entered t w) with ⟨_ | x, w1⟩ <;> rw [heq] at hcu hu
  rotate_left
  · rw [seq_some heq] at hie
    refine (handle_marked true (x := x) (by rw [hie]) (by rw [hie]; exact hcu.2) (fun hh => ?_)).begun
    have := hu x rfl
    rw [this] at hh; cases hh
  · rw [seq_none heq] at hie
    refine Begun.mono hr.grow ?_
    rw [hie]
    by_cases ha : t.avoid = 0
    · rw [if_pos ha]
      have h1 : Begun ((mark t false w1).cl.results (.test t.id)) := by
        left
        simp [mark, markStarted, St.updResult, Result.markStarted]
      exact Begun.mono (grows_fin (grows_block env t l w.cl.curResult) (grows_ctrlEnd env t w.cl.curResult) (mark t false w1)).reach.grow h1
    · rw [if_neg ha]
      exact Begun.mono (grows_hook env _ _ (addSkips t.avoid w1)).reach.grow (addSkips_begun t.avoid hcu.1 ha)

theorem loop_begun (env : Env) (ts : List T) {w : W} (hg : Good w.tests w.cl) (h : ∀ t ∈ w.tests, Begun (w.cl.results (.test t))) :
    ∀ t ∈ (loop env ts w).2.2.tests, Begun ((loop env ts w).2.2.cl.results (.test t)) := by
  induction ts generalizing w with
  | nil => exact h
  | cons t ts ih =>
    have h1 : ∀ u ∈ (runSingle env t ts.isEmpty w).2.tests, Begun ((runSingle env t ts.isEmpty w).2.cl.results (.test u)) := by
      by_cases hd : t.id ∈ w.tests
      · unfold runSingle; rw [if_pos hd]; exact h
      · obtain ⟨k, -⟩ := runSingle_keeps env t ts.isEmpty hg
        rw [k, if_neg hd]
        intro u hu
        rcases List.mem_append.1 hu with hu | hu
        · exact Begun.mono (grows_runSingle env t ts.isEmpty w).reach.grow (h u hu)
        · rw [List.mem_singleton.1 hu]; exact runSingle_begun env t ts.isEmpty hd
    have h2 := (runSingle_keeps env t ts.isEmpty hg).2.2.1
    simp only [loop]
    split <;> rename_i heq <;> rw [heq] at h1 h2
    · exact h1
    · split
      · exact h1
      · exact ih h2 h1

theorem loop_stop (env : Env) (ts : List T) (w : W) (h : (loop env ts w).1 = none) (hr : (loop env ts w).2.1 ≠ []) :
    env.stop = true ∧ success (loop env ts w).2.2 = false := by
  induction ts generalizing w with
  | nil => exact absurd rfl hr
  | cons t ts ih =>
    simp only [loop] at h hr ⊢
    split <;> rename_i heq <;> rw [heq] at h hr
    · cases h
    · by_cases hs : (env.stop && !success ‹W›) = true
      · simp only [hs, if_true]
        simpa using hs
      · simp only [hs, if_false] at h hr ⊢
        exact ih _ h hr

/-! ## The end of a session -/

/-- Nothing but results of these tests changed, and only sessions were cleaned up. -/
structure Soft (F : List Nat) (w w' : W) : Prop where
  tests : w'.tests = w.tests
  trace : seen w' = seen w
  moved : Moved F w.cl w'.cl

variable {F : List Nat}

theorem Soft.refl {w : W} (h : Good F w.cl) : Soft F w w := ⟨rfl, rfl, Moved.refl h⟩
theorem Soft.trans {a b c : W} (h : Soft F a b) (h' : Soft F b c) : Soft F a c :=
  ⟨h'.tests.trans h.tests, h'.trace.trans h.trace, h.moved.trans h'.moved⟩
theorem Tame.soft {w w' : W} (h : Tame w w') : Soft w.tests w w' := ⟨h.tests, by rw [seen, h.trace, seen], h.moved⟩

def SoftM (F : List Nat) (m : M) : Prop := ∀ w, Good F w.cl → Soft F w (m w).2

theorem soft_seq {m k : M} (hm : SoftM F m) (hk : SoftM F k) : SoftM F (seq m k) := by
  intro w hg
  have h := hm w hg
  rcases heq : m w with ⟨_ | x, w1⟩ <;> rw [heq] at h
  · rw [seq_none heq]; exact h.trans (hk w1 h.moved.good)
  · rw [seq_some heq]; exact h
theorem soft_fin {m k : M} (hm : SoftM F m) (hk : SoftM F k) : SoftM F (fin m k) :=
  fun w hg => (hm w hg).trans (hk _ (hm w hg).moved.good)
theorem soft_handle {b : Bool} {m : M} (hm : SoftM F m) : SoftM F (handle b m) := by
  intro w hg
  have h1 := hm w hg
  rcases handle_or b m w with h | ⟨x, -, h⟩ <;> rw [h]
  · exact h1
  · exact h1.trans ⟨rfl, rfl, moved_record h1.moved.good h1.moved.good.updForUpdate _⟩
theorem soft_user (c : Code) : SoftM F (user c) := by
  intro w hg
  have h1 := moved_runActs hg c.acts
  unfold user
  split <;> rename_i heq <;> rw [heq] at h1 <;> exact ⟨rfl, rfl, h1⟩
theorem soft_emit {e : Ev} (he : (evR e).filter notCleanup = []) : SoftM F (act (emit e)) := by
  intro w hg
  exact ⟨rfl, by simp [seen, wTrace, emit, act, he], Moved.refl hg⟩
theorem soft_hook {e : Ev} (c : Code) (he : (evR e).filter notCleanup = []) : SoftM F (hook e c) := soft_seq (soft_emit he) (soft_user c)
theorem soft_clPop (n : String) (hk : Option Kind) : SoftM F (clPop n hk) := by
  intro w hg
  rw [(clPop_fields n hk w).1]
  exact ⟨rfl, rfl, moved_popScope hg n hk w.tests⟩
theorem soft_endSession (env : Env) : SoftM F (endSession env) := by
  refine soft_seq (soft_handle (soft_clPop _ _)) fun w hg => ?_
  split
  · exact soft_seq (soft_handle (soft_hook _ rfl)) (soft_handle (soft_user _)) w hg
  · exact Soft.refl hg

theorem soft_initiateCleanup (env : Env) {w : W} (hg : Good w.tests w.cl) : Soft w.tests w (initiateCleanup env w).2 := by
  unfold initiateCleanup
  split
  · exact Soft.refl hg
  · have h0 : Soft w.tests w { w with cleanups := w.cleanups + 1 } := ⟨rfl, rfl, Moved.refl hg⟩
    have h1 := soft_handle (F := w.tests) (b := true) (soft_hook (e := .sessionCleanup) (env.beforeCleanup w.cleanups) rfl) { w with cleanups := w.cleanups + 1 } hg
    generalize hw1 : (handle true (hook .sessionCleanup (env.beforeCleanup w.cleanups)) { w with cleanups := w.cleanups + 1 }).2 = w1 at h1
    have h2 := tame_handle (b := true) (m := flush env) (fun w h => flushLoop_tame env w.scopes none h) w1 (by rw [h1.tests]; exact h1.moved.good)
    have h3 := h2.soft
    rw [h1.tests] at h3
    show Soft w.tests w (handle true (flush env) (handle true (hook .sessionCleanup (env.beforeCleanup w.cleanups)) { w with cleanups := w.cleanups + 1 }).2).2
    rw [hw1]
    exact h0.trans (h1.trans h3)

theorem markUnrun_spec (ts : List T) (w : W) : (markUnrun ts w).2.cl = w.cl ∧ (markUnrun ts w).2.trace = w.trace ∧
    (markUnrun ts w).2.startCalled = w.startCalled ∧
    ((markUnrun ts w).1 = none → (markUnrun ts w).2.tests = w.tests ++ ts.map (·.id)) ∧
    (∃ l, l <+: ts ∧ (markUnrun ts w).2.tests = w.tests ++ l.map (·.id)) := by
  induction ts generalizing w with
  | nil => exact ⟨rfl, rfl, rfl, fun _ => by simp [markUnrun], [], List.prefix_refl _, by simp [markUnrun]⟩
  | cons t ts ih =>
    simp only [markUnrun]
    split
    · exact ⟨rfl, rfl, rfl, fun h => by simp [err] at h, [], List.nil_prefix, by simp⟩
    · obtain ⟨h1, h2, h3, h4, l, h5, h6⟩ := ih (addTest t w)
      refine ⟨h1, h2, h3, fun h => ?_, t :: l, ?_, ?_⟩
      · rw [h4 h]; simp [addTest]
      · exact (List.prefix_cons_inj t).2 h5
      · rw [h6]; simp [addTest]

theorem markUnrun_none (ts : List T) (hn : (ts.map (·.id)).Nodup) (w : W) (h : ∀ t ∈ ts, t.id ∉ w.tests) : (markUnrun ts w).1 = none := by
  induction ts generalizing w with
  | nil => rfl
  | cons t ts ih =>
    simp only [markUnrun]
    rw [if_neg (h t (by simp))]
    rw [List.map_cons, List.nodup_cons] at hn
    refine ih hn.2 _ fun u hu => ?_
    simp only [addTest, List.mem_append, List.mem_singleton, not_or]
    refine ⟨h u (List.mem_cons_of_mem _ hu), fun he => hn.1 ?_⟩
    rw [← he]; exact List.mem_map_of_mem hu

/-- The run of a session. -/
structure RunFacts (env : Env) (ts : List T) (r : Option X × W) (ps : List (Nat × List Runner.Ev)) : Prop where
  ids : ps.map (·.1) = (ts.take ps.length).map (·.id)
  trace : seen r.2 = ps.flatMap (·.2)
  each : ∀ p ∈ ps, Piece p.1 p.2
  tests : r.1 = none → r.2.tests = ts.map (·.id)
  sub : ∃ n, r.2.tests = (ts.take n).map (·.id)
  begun : ∀ p ∈ ps, Begun (r.2.cl.results (.test p.1))
  new : ∀ id, id ∉ ps.map (·.1) → r.2.cl.results (.test id) = {}
  good : Good (ps.map (·.1)) r.2.cl
  stop : r.1 = none → ps.length < ts.length → env.stop = true ∧
    (Bad (r.2.cl.results .global) ∨ ∃ p ∈ ps, Bad (r.2.cl.results (.test p.1)))

theorem changed_new {f f' : RKey → Result} (h : Changed F f f') {id : Nat} (hi : id ∉ F) : f' (.test id) = f (.test id) := by
  obtain ⟨es, h1, rfl⟩ := h
  induction es generalizing f with
  | nil => rfl
  | cons e es ih =>
    rw [List.foldl_cons, ih (fun p hp => h1 p (List.mem_cons_of_mem _ hp))]
    unfold upd
    rw [if_neg]
    intro he
    rcases (h1 e (by simp)).1 with hx | ⟨t, ht, hx⟩
    · rw [← he] at hx; cases hx
    · rw [← he] at hx; cases hx; exact hi ht

theorem run_facts (env : Env) (ts : List T) (hn : (ts.map (·.id)).Nodup) {w : W} {st : Runner.St} (h : Sim ⟨.global, none, []⟩ w st)
    (hs : (w.cl.results .global).started = true) (hw : w.tests = []) (ht : st.trace = []) (hi : st.indexed = []) :
    ∃ ps, RunFacts env ts (runTests env ts w) ps := by
  obtain ⟨ps, L⟩ := loop_facts env ts hn h hw ht hi
  have hb := loop_begun env ts h.good (by rw [hw]; simp)
  have hst := loop_stop env ts w
  have hreach := (grow_loop env ts w).reach
  rcases hl : loop env ts w with ⟨x, rest, w1⟩
  rw [hl] at L hb hst hreach
  obtain ⟨L1, L2, L3, L4, i, st1, L5⟩ := L
  simp only at L1 L2 L3 L4 L5 hb hst hreach
  have hlen : ts.length = ps.length + rest.length := by have := congrArg List.length L1; simpa using this
  have hids : ps.map (·.1) = (ts.take ps.length).map (·.id) := by
    rw [List.map_take, L1]
    rw [List.take_append_of_le_length (by simp), List.take_of_length_le (by simp)]
  have hrest : rest.map (·.id) = (ts.drop ps.length).map (·.id) := by
    rw [List.map_drop, L1, List.drop_append_of_le_length (by simp), List.drop_of_length_le (by simp), List.nil_append]
  have hc := soft_initiateCleanup env L5.good
  rcases hic : initiateCleanup env w1 with ⟨y, w2⟩
  rw [hic] at hc
  have hgl : (w1.cl.results .global).started = true := hreach.grow.started _ hs
  have hres2 : ∀ id, id ∉ ps.map (·.1) → w2.cl.results (.test id) = {} := by
    intro id hid
    have h1 := changed_new hc.moved.res (id := id) (by rw [L4]; exact hid)
    rw [h1]
    exact L5.res.new id (by rw [L4]; exact hid)
  have hreach2 : Reach w1.cl w2.cl := by have := (grows_initiateCleanup env w1).reach; rw [hic] at this; exact this
  have hbeg2 : ∀ p ∈ ps, Begun (w2.cl.results (.test p.1)) := fun p hp =>
    Begun.mono hreach2.grow (hb p.1 (by rw [L4]; exact List.mem_map_of_mem hp))
  have hstop2 : x = none → ps.length < ts.length → env.stop = true ∧ (Bad (w2.cl.results .global) ∨ ∃ p ∈ ps, Bad (w2.cl.results (.test p.1))) := by
    intro hx hlt
    obtain ⟨h1, h2⟩ := hst hx (by intro he; rw [he] at hlen; simp at hlen; omega)
    refine ⟨h1, ?_⟩
    rcases success_false h2 hgl hb with hbad | ⟨t, ht, hbad⟩
    · exact .inl (Bad.mono hreach2.grow hbad)
    · rw [L4] at ht
      obtain ⟨p, hp, rfl⟩ := List.mem_map.1 ht
      exact .inr ⟨p, hp, Bad.mono hreach2.grow hbad⟩
  have hgood2 : Good (ps.map (·.1)) w2.cl := by have := hc.moved.good; rw [L4] at this; exact this
  have htests2 : w2.tests = ps.map (·.1) := hc.tests.trans L4
  have htr2 : seen w2 = ps.flatMap (·.2) := hc.trace.trans L2
  refine ⟨ps, ?_⟩
  have e : runTests env ts w = match y.or x with | some x => (some x, w2) | none => markUnrun rest w2 := by
    unfold runTests; rw [hl]; simp only; rw [hic]; rfl
  cases hor : y.or x with
  | some z =>
    rw [hor] at e
    rw [e]
    exact ⟨hids, htr2, L3, (fun h => by cases h), ⟨ps.length, by rw [← hids]; exact htests2⟩, hbeg2, hres2, hgood2, (fun h => by cases h)⟩
  | none =>
    rw [hor] at e
    simp only at e
    rw [Option.or_eq_none_iff] at hor
    obtain ⟨m1, m2, -, m4, l, m5, m6⟩ := markUnrun_spec rest w2
    rw [e]
    refine ⟨hids, ?_, L3, fun h => ?_, ?_, ?_, ?_, ?_, fun _ => ?_⟩
    · rw [seen, wTrace, m2]; exact htr2
    · rw [m4 h, htests2, L1]
    · refine ⟨ps.length + l.length, ?_⟩
      obtain ⟨r, rfl⟩ := m5
      rw [m6, htests2, List.map_take, L1, List.map_append, ← List.append_assoc, List.take_append_of_le_length (by simp),
        List.take_of_length_le (by simp)]
    · rw [m1]; exact hbeg2
    · rw [m1]; exact hres2
    · rw [m1]; exact hgood2
    · rw [m1]; exact hstop2 hor.2

end Slash.Whole
