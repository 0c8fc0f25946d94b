import Verif.Model.Ctx
import Verif.Lemmas.Util
/-!
# C46, C58, C59: the context stack and the session life cycle
-/
namespace Slash.Ctx

/-! ## C46 -/

/-- Well-bracketed histories: assignments, and pushes matched by pops. -/
inductive Balanced : List Op → Prop
  | nil : Balanced []
  | set (a v) {ops} : Balanced ops → Balanced (.set a v :: ops)
  | push (g ig) {ops ops'} : Balanced ops → Balanced ops' → Balanced (.push g ig :: ops ++ .pop :: ops')

theorem run_append (a b : List Op) (st : St) : run (a ++ b) st = run b (run a st) := by
  simp [run, List.foldl_append]

theorem balanced_top {ops : List Op} (h : Balanced ops) : ∀ (f : String → Option Nat) (st : St), st ≠ [] →
    ∃ f', run ops (.ctx f :: st) = .ctx f' :: st := by
  induction h with
  | nil => intro f st _; exact ⟨f, rfl⟩
  | set a v _ ih =>
    intro f st hst
    obtain ⟨f', hf⟩ := ih (fun b => if b = a then some v else f b) st hst
    exact ⟨f', hf⟩
  | push g ig _ _ ih1 ih2 =>
    intro f st hst
    obtain ⟨f1, h1⟩ := ih1 (newAttrs g ig) (.ctx f :: st) (by simp)
    obtain ⟨f2, h2⟩ := ih2 f st hst
    refine ⟨f2, ?_⟩
    rw [List.cons_append]
    show run (_ ++ _) (.ctx (newAttrs g ig) :: .ctx f :: st) = _
    rw [run_append, h1]
    exact h2

/-- **C46.** Pushing a context, doing anything well-bracketed (including assignments in it and in contexts pushed on
top of it), and popping it restores exactly the previous stack - and so every attribute value. -/
theorem C46_push_pop_restores (ops : List Op) (h : Balanced ops) (st : St) (hst : st ≠ []) (g ig : Nat) :
    run (.push g ig :: ops ++ [.pop]) st = st := by
  obtain ⟨f', hf⟩ := balanced_top h (newAttrs g ig) st hst
  rw [List.cons_append]
  show run (ops ++ [.pop]) (.ctx (newAttrs g ig) :: st) = st
  rw [run_append, hf]
  cases st with
  | nil => exact absurd rfl hst
  | cons f st => rfl

/-- **C46.** Inside a pushed context nothing of the outer ones shows: the standard attributes are None until
assigned, whatever the outer contexts contain. -/
theorem C46_fresh_context_is_clean (st : St) (g ig : Nat) (a : String)
    (ha : a ∈ ["session", "test", "test_id", "result", "fixture"]) : getAttr (push st g ig) a = some 0 := by
  show newAttrs g ig a = some 0
  unfold newAttrs; rw [if_pos ha]

/-- Well-bracketed histories without assignments of `a` in the context they begin in; contexts pushed on top may do so. -/
inductive Keeps (a : String) : List Op → Prop
  | nil : Keeps a []
  | set (b v) {ops} : b ≠ a → Keeps a ops → Keeps a (.set b v :: ops)
  | push (g ig) {ops ops'} : Balanced ops → Keeps a ops' → Keeps a (.push g ig :: ops ++ .pop :: ops')

/-- **C46.** An attribute of a context keeps its value whatever is pushed, assigned and popped on top of the context, and whatever other
attributes are assigned in it. -/
theorem C46_keeps_value (a : String) (ops : List Op) (h : Keeps a ops) : ∀ (f : String → Option Nat) (st : St), st ≠ [] →
    getAttr (run ops (.ctx f :: st)) a = f a := by
  induction h with
  | nil => intro f st _; rfl
  | set b v hb _ ih =>
    intro f st hst
    have := ih (fun c => if c = b then some v else f c) st hst
    rw [if_neg (Ne.symm hb)] at this
    exact this
  | push g ig hbal _ ih =>
    intro f st hst
    obtain ⟨f1, h1⟩ := balanced_top hbal (newAttrs g ig) (.ctx f :: st) (by simp)
    rw [List.cons_append]
    show getAttr (run (_ ++ _) (.ctx (newAttrs g ig) :: .ctx f :: st)) a = _
    rw [run_append, h1]
    exact ih f st hst

/-- **C46.** Each context has its own storages for globals, one for users and one for slash itself. -/
theorem C46_own_globals (st : St) (hst : st ≠ []) (g ig : Nat) (ops : List Op) :
    (Keeps "g" ops → getAttr (run ops (push st g ig)) "g" = some g) ∧
    (Keeps "internal_globals" ops → getAttr (run ops (push st g ig)) "internal_globals" = some ig) := by
  constructor
  · intro h; exact (C46_keeps_value _ _ h _ _ hst).trans (by simp [newAttrs])
  · intro h; exact (C46_keeps_value _ _ h _ _ hst).trans (by simp [newAttrs])

example : Keeps "g" (.set "test" 5 :: (.push 3 4 :: [.set "g" 9] ++ .pop :: [])) ∧
    getAttr (run (.set "test" 5 :: (.push 3 4 :: [.set "g" 9] ++ .pop :: [])) (push init 1 2)) "g" = some 1 :=
  ⟨.set _ _ (by decide) (.push _ _ (.set _ _ .nil) .nil), by decide⟩

/-- **C46.** An assignment is seen by lookups of that attribute and by no others, and leaves outer contexts
alone. -/
theorem C46_assignment (st : St) (a b : String) (v : Nat) (h : (setAttr st a v).1 = true) :
    getAttr (setAttr st a v).2 b = (if b = a then some v else getAttr st b) ∧ (setAttr st a v).2.tail = st.tail := by
  match st with
  | [] => cases h
  | .null :: st => cases h
  | .ctx f :: st => exact ⟨rfl, rfl⟩

/-- the number of contexts pushed and not popped, pops of nothing being refused -/
def depth (ops : List Op) : Nat := ops.foldl (fun d op => match op with | .push _ _ => d + 1 | .pop => d - 1 | .set _ _ => d) 0

/-- **C46.** In every history the bottom context stays where it is, and the stack has one context for each push
not yet popped. -/
theorem C46_bottom_is_permanent (ops : List Op) :
    (run ops init).length = depth ops + 1 ∧ (run ops init).getLast? = some .null ∧
    (depth ops = 0 → run ops init = [.null]) := by
  have key : (run ops init).length = depth ops + 1 ∧ (run ops init).getLast? = some .null := by
    induction ops using snocInd with
    | nil => exact ⟨rfl, rfl⟩
    | snoc ops op ih =>
      obtain ⟨h1, h2⟩ := ih
      have hd : depth (ops ++ [op]) = match op with
          | .push _ _ => depth ops + 1 | .pop => depth ops - 1 | .set _ _ => depth ops := by
        simp [depth, List.foldl_append]
      rw [run_append, hd]
      generalize run ops init = st at h1 h2
      cases op with
      | push g ig =>
        show (push st g ig).length = _ ∧ (push st g ig).getLast? = _
        unfold push
        refine ⟨by simp [h1], ?_⟩
        rw [List.getLast?_cons, h2]; rfl
      | pop =>
        show (pop st).2.length = _ ∧ (pop st).2.getLast? = _
        match st with
        | [] => simp at h1
        | [f] => simp only [pop, List.length_singleton] at h1 ⊢; exact ⟨by omega, h2⟩
        | f :: f' :: st =>
          simp only [pop, List.length_cons] at h1 ⊢
          refine ⟨by omega, ?_⟩
          rw [List.getLast?_cons_cons] at h2; exact h2
      | set a v =>
        show (setAttr st a v).2.length = _ ∧ (setAttr st a v).2.getLast? = _
        match st with
        | [] => simp at h1
        | .null :: st => exact ⟨h1, h2⟩
        | .ctx f :: st =>
          simp only [setAttr, List.length_cons] at h1 ⊢
          refine ⟨by omega, ?_⟩
          cases st with
          | nil => simp at h2
          | cons g st => rw [List.getLast?_cons_cons] at h2 ⊢; exact h2
  refine ⟨key.1, key.2, fun hd => ?_⟩
  rw [hd] at key
  match hst : run ops init with
  | [] => rw [hst] at key; simp at key
  | [f] => rw [hst] at key; simp at key; rw [key]
  | _ :: _ :: _ => rw [hst] at key; simp at key

/-- **C46.** Without a pushed context, popping and assigning are refused and change nothing, all standard attributes read as
None, and reading any other attribute is an AttributeError. -/
theorem C46_bottom_refuses (ops : List Op) (h : depth ops = 0) (a : String) (v : Nat) :
    pop (run ops init) = (false, run ops init) ∧ setAttr (run ops init) a v = (false, run ops init) ∧
    getAttr (run ops init) a = if a ∈ ["session", "test", "test_id", "g", "internal_globals", "test_filename", "test_classname",
      "test_methodname", "result", "fixture"] then some 0 else none := by
  rw [(C46_bottom_is_permanent ops).2.2 h]
  exact ⟨rfl, rfl, rfl⟩

/-- **C46.** With a pushed context, popping and assigning are possible. -/
theorem C46_pushed_allows (ops : List Op) (h : depth ops ≠ 0) (a : String) (v : Nat) :
    (pop (run ops init)).1 = true ∧ (setAttr (run ops init) a v).1 = true := by
  have key : ∀ f ∈ (run ops init).dropLast, f ≠ .null := by
    clear h
    induction ops using snocInd with
    | nil => intro f hf; cases hf
    | snoc ops op ih =>
      have hl := (C46_bottom_is_permanent ops).1
      rw [run_append]
      generalize run ops init = st at ih hl
      cases st with
      | nil => simp at hl
      | cons g st =>
        cases op with
        | push x y =>
          intro f hf
          rcases List.mem_cons.1 (show f ∈ .ctx (newAttrs x y) :: (g :: st).dropLast from hf) with rfl | hf
          · exact fun e => nomatch e
          · exact ih f hf
        | pop =>
          cases st with
          | nil => intro f hf; cases hf
          | cons g' st => exact fun f hf => ih f (List.mem_cons_of_mem _ hf)
        | set b w =>
          cases g with
          | null => exact ih
          | ctx k =>
            cases st with
            | nil => intro f hf; cases hf
            | cons g' st =>
              intro f hf
              rcases List.mem_cons.1 hf with rfl | hf
              · exact fun e => nomatch e
              · exact ih f (List.mem_cons_of_mem _ hf)
  have hl := (C46_bottom_is_permanent ops).1
  generalize run ops init = st at key hl
  match st, key, hl with
  | [], _, hl => simp at hl
  | [f], _, hl => simp only [List.length_singleton] at hl; omega
  | .null :: g :: st, key, _ => exact absurd rfl (key .null List.mem_cons_self)
  | .ctx f :: g :: st, _, _ => exact ⟨rfl, rfl⟩

example : (setAttr (run [.push 1 2, .push 3 4, .pop] init) "test" 5).1 = true := by decide

example : Balanced [.set "test" 4, .push 7 8, .set "test" 5, .pop, .set "result" 1] :=
  .set _ _ (.push (ops := [.set "test" 5]) 7 8 (.set _ _ .nil) (.set _ _ .nil))
example : getAttr (run [.push 1 2, .set "test" 4, .push 7 8, .set "test" 5, .pop] init) "test" = some 4 := by decide

/-! ## C58: failed activation leaves nothing behind -/

/-- **C58 is violated**: if entering the logging context (e.g. creating the log directory) raises, the context pushed
by `activate` stays on the stack, with the failed session as `context.session`; nobody calls `deactivate`. -/
theorem C58_failed_activation_violated :
    ∃ (s : Sess) (c : Crash), s.active = false ∧ (activate s 5 1 2 c init).1 = false ∧
      (activate s 5 1 2 c init).2.1.active = false ∧
      getAttr (activate s 5 1 2 c init).2.2 "session" = some s.id ∧
      (activate s 5 1 2 c init).2.2.length = 2 :=
  ⟨{ id := 9 }, .logging, by decide⟩

/-- **C58, partial**: a session that was activated successfully and deactivated without a crash leaves the context as
it was, whatever well-bracketed things happened in between. Missing: crashes inside `activate`
and `deactivate`. -/
theorem C58_session_context_partial (s : Sess) (res g ig : Nat) (st : St) (hst : st ≠ []) (ops : List Op)
    (hb : Balanced ops) (hs : s.active = false) :
    let r := activate s res g ig .none st
    r.1 = true ∧ getAttr r.2.2 "session" = some s.id ∧ getAttr r.2.2 "result" = some res ∧
    let d := deactivate r.2.1 .none (run ops r.2.2)
    d.1 = true ∧ d.2.2 = st ∧ d.2.1.active = false ∧ d.2.1.finished = true := by
  intro r
  have hr : r = (true, { s with started := true, active := true },
      .ctx (fun b => if b = "result" then some res else if b = "session" then some s.id else newAttrs g ig b) :: st) := by
    show activate s res g ig .none st = _
    simp [activate, hs, push, setAttr]
  rw [hr]
  refine ⟨rfl, by simp [getAttr], by simp [getAttr], ?_⟩
  obtain ⟨f', hf⟩ := balanced_top hb
    (fun b => if b = "result" then some res else if b = "session" then some s.id else newAttrs g ig b) st hst
  simp only [hf, deactivate]
  cases st with
  | nil => exact absurd rfl hst
  | cons f st => simp [pop]

/-- A session cannot be activated twice or deactivated when inactive; nothing changes. -/
theorem C58_no_double_activation (s : Sess) (res g ig : Nat) (c : Crash) (st : St) :
    (s.active = true → activate s res g ig c st = (false, s, st)) ∧
    (s.active = false → deactivate s c st = (false, s, st)) := by
  constructor <;> intro h <;> simp [activate, deactivate, h]

example : (activate { id := 3 } 4 1 2 .none init).1 = true := by decide

/-! ## C59: session hooks -/

/-- the part of the trace before the `finally` block -/
def phase1 (raises : Ev → Option Kind) : List Ev × Option Kind :=
  seqSteps raises [.beforeStart, .start, .afterStart, .body]

theorem phase1_cases (raises : Ev → Option Kind) :
    (∃ k, raises .beforeStart = some k ∧ phase1 raises = ([.beforeStart], some k)) ∨
    (∃ k, raises .beforeStart = none ∧ raises .start = some k ∧ phase1 raises = ([.beforeStart, .start], some k)) ∨
    (∃ k, raises .beforeStart = none ∧ raises .start = none ∧ raises .afterStart = some k ∧
      phase1 raises = ([.beforeStart, .start, .afterStart], some k)) ∨
    (raises .beforeStart = none ∧ raises .start = none ∧ raises .afterStart = none ∧
      phase1 raises = ([.beforeStart, .start, .afterStart, .body], raises .body)) := by
  rcases h1 : raises .beforeStart with _ | k1
  · rcases h2 : raises .start with _ | k2
    · rcases h3 : raises .afterStart with _ | k3
      · rcases h4 : raises .body with _ | k4 <;> simp [phase1, seqSteps, h1, h2, h3, h4]
      · simp [phase1, seqSteps, h1, h2, h3]
    · simp [phase1, seqSteps, h1, h2]
  · simp [phase1, seqSteps, h1]

/-- the trace of the `finally` block -/
def phase3 (raises : Ev → Option Kind) (called : Bool) : List Ev :=
  (seqSteps raises ([.popGlobal] ++ (if called then [.sessionEnd, .afterEnd] else []) ++ [.reportEnd])).1

theorem phase3_cases (raises : Ev → Option Kind) (called : Bool) :
    (raises .popGlobal ≠ none ∧ phase3 raises called = [.popGlobal]) ∨
    (raises .popGlobal = none ∧ called = false ∧ phase3 raises called = [.popGlobal, .reportEnd]) ∨
    (raises .popGlobal = none ∧ called = true ∧ (phase3 raises called = [.popGlobal, .sessionEnd] ∨
      phase3 raises called = [.popGlobal, .sessionEnd, .afterEnd] ∨
      phase3 raises called = [.popGlobal, .sessionEnd, .afterEnd, .reportEnd])) := by
  rcases h1 : raises .popGlobal with _ | k1
  · cases called
    · rcases h4 : raises .reportEnd with _ | k4 <;> simp [phase3, seqSteps, h1, h4]
    · rcases h2 : raises .sessionEnd with _ | k2
      · rcases h3 : raises .afterEnd with _ | k3
        · rcases h4 : raises .reportEnd with _ | k4 <;> simp [phase3, seqSteps, h1, h2, h3, h4]
        · simp [phase3, seqSteps, h1, h2, h3]
      · simp [phase3, seqSteps, h1, h2]
  · simp [phase3, seqSteps, h1]

theorem trace_eq (raises : Ev → Option Kind) :
    (startedContext raises).1 = [.pushGlobal] ++ (phase1 raises).1 ++
      (if (phase1 raises).2 = some .interrupt then [.interruptHook] else []) ++
      phase3 raises (decide (.start ∈ (phase1 raises).1 ∧ raises .start = none)) := by
  unfold startedContext phase3
  simp only [decide_eq_true_eq]
  show [Ev.pushGlobal] ++ (phase1 raises).1 ++ _ ++ _ = _
  by_cases h : (phase1 raises).2 = some .interrupt
  · have h' := h
    unfold phase1 at h'
    simp only [h, h', if_true]
    rcases h5 : raises .interruptHook with _ | k <;> rfl
  · have h' := h
    unfold phase1 at h'
    simp only [h, h', if_false]
    rfl

/-- what can be said of every trace: four ways to begin, and the rest -/
theorem trace_mem (raises : Ev → Option Kind) (e : Ev) :
    e ∈ (startedContext raises).1 ↔ e = .pushGlobal ∨ e ∈ (phase1 raises).1 ∨
      (e = .interruptHook ∧ (phase1 raises).2 = some .interrupt) ∨
      e ∈ phase3 raises (decide (.start ∈ (phase1 raises).1 ∧ raises .start = none)) := by
  rw [trace_eq]
  by_cases h : (phase1 raises).2 = some .interrupt <;> simp [h]

theorem phase3_sub (raises : Ev → Option Kind) (c : Bool) (e : Ev) (h : e ∈ phase3 raises c) :
    e = .popGlobal ∨ e = .sessionEnd ∨ e = .afterEnd ∨ e = .reportEnd := by
  rcases phase3_cases raises c with ⟨_, h1⟩ | ⟨_, _, h1⟩ | ⟨_, _, h1 | h1 | h1⟩ <;> rw [h1] at h <;> simp at h <;> grind

theorem phase1_sub (raises : Ev → Option Kind) (e : Ev) (h : e ∈ (phase1 raises).1) :
    e = .beforeStart ∨ e = .start ∨ e = .afterStart ∨ e = .body := by
  rcases phase1_cases raises with ⟨_, _, h1⟩ | ⟨_, _, _, h1⟩ | ⟨_, _, _, _, h1⟩ | ⟨_, _, _, h1⟩ <;> rw [h1] at h <;>
    simp at h <;> grind

theorem count_phase1 (raises : Ev → Option Kind) (e : Ev)
    (he : e ≠ .beforeStart ∧ e ≠ .start ∧ e ≠ .afterStart ∧ e ≠ .body) : (phase1 raises).1.count e = 0 := by
  rw [List.count_eq_zero]
  intro h
  rcases phase1_sub raises e h with h | h | h | h
  · exact he.1 h
  · exact he.2.1 h
  · exact he.2.2.1 h
  · exact he.2.2.2 h

/-- **C59.** The session-global cleanup scope is opened and closed exactly once, whatever raises at whatever
point. -/
theorem C59_global_scope_closed (raises : Ev → Option Kind) :
    (startedContext raises).1.count .popGlobal = 1 ∧ (startedContext raises).1.count .pushGlobal = 1 := by
  rw [trace_eq]
  simp only [List.count_append]
  rw [count_phase1 _ _ (by decide), count_phase1 _ _ (by decide)]
  generalize decide (.start ∈ (phase1 raises).1 ∧ raises .start = none) = c
  by_cases h : (phase1 raises).2 = some .interrupt <;> simp only [h, if_true, if_false] <;>
    rcases phase3_cases raises c with ⟨_, h1⟩ | ⟨_, _, h1⟩ | ⟨_, _, h1 | h1 | h1⟩ <;> rw [h1] <;> decide

/-- **C59 is violated**: `session_start` completed, but the end hook never fires if a session cleanup raises an
interruption (or a skip) - the only kinds that get out of `pop_scope`. -/
theorem C59_session_end_fires_violated :
    ∃ raises : Ev → Option Kind, raises .start = none ∧ raises .body = none ∧
      (∀ e, e ≠ .popGlobal → raises e = none) ∧
      .start ∈ (startedContext raises).1 ∧ .sessionEnd ∉ (startedContext raises).1 ∧
      .reportEnd ∉ (startedContext raises).1 :=
  ⟨fun e => if e = .popGlobal then some .interrupt else none, rfl, rfl, fun e he => by simp [he], by decide⟩

/-- **C59, partial**: if closing the session-global scope does not raise, the end hook fires exactly once if the start
hook fired and returned, and never otherwise. Missing: cleanups of the session-global scope raising. -/
theorem C59_session_end_fires_partial (raises : Ev → Option Kind) (hp : raises .popGlobal = none) :
    (startedContext raises).1.count .sessionEnd =
      if .start ∈ (startedContext raises).1 ∧ raises .start = none then 1 else 0 := by
  have hst : .start ∈ (startedContext raises).1 ↔ .start ∈ (phase1 raises).1 := by
    rw [trace_mem]
    constructor
    · rintro (h | h | ⟨h, _⟩ | h)
      · cases h
      · exact h
      · cases h
      · rcases phase3_sub _ _ _ h with h | h | h | h <;> cases h
    · intro h; exact .inr (.inl h)
  simp only [hst]
  rw [trace_eq]
  simp only [List.count_append]
  rw [count_phase1 _ _ (by decide)]
  by_cases hc : Ev.start ∈ (phase1 raises).1 ∧ raises .start = none
  · rw [if_pos hc, decide_eq_true hc]
    by_cases h : (phase1 raises).2 = some .interrupt <;> simp only [h, if_true, if_false] <;>
      rcases phase3_cases raises true with ⟨hh, h1⟩ | ⟨_, hh, h1⟩ | ⟨_, _, h1 | h1 | h1⟩ <;>
      first | exact absurd hp hh | cases hh | (rw [h1]; decide)
  · rw [if_neg hc, decide_eq_false hc]
    by_cases h : (phase1 raises).2 = some .interrupt <;> simp only [h, if_true, if_false] <;>
      rcases phase3_cases raises false with ⟨hh, h1⟩ | ⟨_, _, h1⟩ | ⟨_, hh, _⟩ <;>
      first | exact absurd hp hh | cases hh | (rw [h1]; decide)

/-- **C59.** The end hook never fires unless the start hook fired and returned (with no assumption). -/
theorem C59_no_end_without_start (raises : Ev → Option Kind) (h : .sessionEnd ∈ (startedContext raises).1) :
    .start ∈ (startedContext raises).1 ∧ raises .start = none := by
  rw [trace_mem] at h
  rcases h with h | h | ⟨h, _⟩ | h
  · cases h
  · rcases phase1_sub _ _ h with h | h | h | h <;> cases h
  · cases h
  · by_cases hc : Ev.start ∈ (phase1 raises).1 ∧ raises .start = none
    · exact ⟨(trace_mem _ _).2 (.inr (.inl hc.1)), hc.2⟩
    · rw [decide_eq_false hc] at h
      rcases phase3_cases raises false with ⟨_, h1⟩ | ⟨_, _, h1⟩ | ⟨_, hh, _⟩
      · rw [h1] at h; simp at h
      · rw [h1] at h; simp at h
      · cases hh

/-- **C59.** The body runs iff all start hooks succeeded, and the interruption hook fires iff a start hook or the body
was interrupted. -/
theorem C59_interrupt_hook (raises : Ev → Option Kind) :
    (.body ∈ (startedContext raises).1 ↔
      raises .beforeStart = none ∧ raises .start = none ∧ raises .afterStart = none) ∧
    (.interruptHook ∈ (startedContext raises).1 ↔
      ∃ e ∈ [Ev.beforeStart, .start, .afterStart, .body], e ∈ (startedContext raises).1 ∧ raises e = some .interrupt) := by
  have h3 : ∀ c e, e ∈ [Ev.beforeStart, .start, .afterStart, .body, .interruptHook] → e ∉ phase3 raises c := by
    intro c e he hm
    rcases phase3_sub _ _ _ hm with h | h | h | h <;> subst h <;> simp at he
  have hmem : ∀ e ∈ [Ev.beforeStart, .start, .afterStart, .body], (e ∈ (startedContext raises).1 ↔ e ∈ (phase1 raises).1) := by
    intro e he
    rw [trace_mem]
    constructor
    · rintro (h | h | ⟨h, _⟩ | h)
      · subst h; simp at he
      · exact h
      · subst h; simp at he
      · exact absurd h (h3 _ e (by simp at he ⊢; grind))
    · intro h; exact .inr (.inl h)
  have hint : .interruptHook ∈ (startedContext raises).1 ↔ (phase1 raises).2 = some .interrupt := by
    rw [trace_mem]
    constructor
    · rintro (h | h | ⟨_, h⟩ | h)
      · cases h
      · rcases phase1_sub _ _ h with h | h | h | h <;> cases h
      · exact h
      · exact absurd h (h3 _ _ (by simp))
    · intro h; exact .inr (.inr (.inl ⟨rfl, h⟩))
  constructor
  · rw [hmem _ (by simp)]
    rcases phase1_cases raises with ⟨k, a, h1⟩ | ⟨k, a, b, h1⟩ | ⟨k, a, b, c, h1⟩ | ⟨a, b, c, h1⟩ <;> rw [h1] <;>
      simp [*]
  · rw [hint]
    have : (∃ e ∈ [Ev.beforeStart, .start, .afterStart, .body], e ∈ (startedContext raises).1 ∧ raises e = some .interrupt) ↔
        ∃ e ∈ [Ev.beforeStart, .start, .afterStart, .body], e ∈ (phase1 raises).1 ∧ raises e = some .interrupt := by
      constructor
      · rintro ⟨e, h1, h2, h3⟩; exact ⟨e, h1, (hmem e h1).1 h2, h3⟩
      · rintro ⟨e, h1, h2, h3⟩; exact ⟨e, h1, (hmem e h1).2 h2, h3⟩
    rw [this]
    rcases phase1_cases raises with ⟨k, a, h1⟩ | ⟨k, a, b, h1⟩ | ⟨k, a, b, c, h1⟩ | ⟨a, b, c, h1⟩ <;> rw [h1] <;>
      simp [*]

theorem seqSteps_last (raises : Ev → Option Kind) (es : List Ev) :
    (seqSteps raises es).2 = ((seqSteps raises es).1.filterMap raises).getLast? := by
  induction es with
  | nil => rfl
  | cons e es ih =>
    cases h : raises e with
    | some k => simp [seqSteps, h]
    | none => simp [seqSteps, h, ih]

/-- **C59.** The context swallows no exception: what leaves it is the exception of the last step that raised. -/
theorem C59_last_exception_leaves (raises : Ev → Option Kind) (h : raises .pushGlobal = none) :
    (startedContext raises).2 = ((startedContext raises).1.filterMap raises).getLast? := by
  unfold startedContext
  have h1 := seqSteps_last raises [.beforeStart, .start, .afterStart, .body]
  revert h1
  generalize seqSteps raises [.beforeStart, .start, .afterStart, .body] = p1
  obtain ⟨t1, o1⟩ := p1
  intro h1
  have h3 := seqSteps_last raises ([Ev.popGlobal] ++ (if Ev.start ∈ t1 ∧ raises .start = none then [.sessionEnd, .afterEnd] else []) ++ [.reportEnd])
  revert h3
  dsimp only at h1 ⊢
  generalize seqSteps raises ([Ev.popGlobal] ++ (if Ev.start ∈ t1 ∧ raises .start = none then [.sessionEnd, .afterEnd] else []) ++ [.reportEnd]) = p3
  obtain ⟨t3, o3⟩ := p3
  intro h3
  dsimp only at h3 ⊢
  by_cases hi : o1 = some .interrupt
  · rw [if_pos hi]
    cases hh : raises .interruptHook with
    | some k =>
      simp only [List.filterMap_append, List.getLast?_append, ← h3, ← h1, List.filterMap_cons, hh, h]
      cases o3 <;> simp
    | none =>
      simp only [List.filterMap_append, List.getLast?_append, ← h3, ← h1, List.filterMap_cons, hh, h]
      cases o3 <;> simp
  · rw [if_neg hi]
    simp only [List.filterMap_append, List.getLast?_append, ← h3, ← h1, List.filterMap_cons, h]
    cases o3 <;> simp

example : startedContext (fun e => if e = .body then some .interrupt else none) =
    ([.pushGlobal, .beforeStart, .start, .afterStart, .body, .interruptHook, .popGlobal, .sessionEnd, .afterEnd,
      .reportEnd], some .interrupt) := by decide

end Slash.Ctx
