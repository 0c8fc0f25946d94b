import Verif.Model.Phase
/-!
# C143: which cleanups are being called
-/
namespace Slash.Phase

/-- What a history says: at each question, the cleanup that was called last and is not over yet is one of the scope that is answered, and if there is none,
none is answered. `open_`: the scopes of the cleanups being called, the innermost first; the result is those at the end, `none` if an answer is wrong. -/
def replay : List String → List Ev → Option (List String)
  | open_, [] => some open_
  | open_, .enter n :: l => replay (n :: open_) l
  | [], .leave :: _ => none
  | _ :: open_, .leave :: l => replay open_ l
  | open_, .saw v :: l => if v = open_.head? then replay open_ l else none

theorem replay_append (s : List String) (l l' : List Ev) : replay s (l ++ l') = (replay s l).bind (fun s' => replay s' l') := by
  induction l generalizing s with
  | nil => rfl
  | cons e l ih =>
    cases e with
    | enter n => exact ih _
    | leave =>
      cases s with
      | nil => rfl
      | cons a s => exact ih _
    | saw v =>
      simp only [List.cons_append, replay]
      split
      · exact ih _
      · rfl

/-- The scope recorded as current is that of the cleanup being called. -/
def Good (s : List String) (st : St) : Prop := replay [] st.log = some s ∧ st.cur = s.head?

theorem Good.same {s : List String} {st st' : St} (h : Good s st) (h1 : st'.log = st.log) (h2 : st'.cur = st.cur) : Good s st' :=
  ⟨h1 ▸ h.1, h2 ▸ h.2⟩

theorem add_same (st : St) (b : List Act) : (st.add b).log = st.log ∧ (st.add b).cur = st.cur := by
  unfold St.add
  cases st.stack <;> exact ⟨rfl, rfl⟩

theorem good_all (hook : List Act) (n : Nat) :
    (∀ acts st s o st', Good s st → exec hook n acts st = some (o, st') → Good s st') ∧
    (∀ name st s o st', Good s st → popScope hook n name st = some (o, st') → Good s st') ∧
    (∀ st s o st', Good s st → drain hook n st = some (o, st') → Good s st') := by
  induction n with
  | zero =>
    refine ⟨?_, ?_, ?_⟩
    · intro acts st s o st' _ h; rw [exec] at h; cases h
    · intro name st s o st' _ h; rw [popScope] at h; cases h
    · intro st s o st' _ h; rw [drain] at h; cases h
  | succ n ih =>
    obtain ⟨ihE, ihP, ihD⟩ := ih
    refine ⟨?_, ?_, ?_⟩
    · intro acts st s o st' hg h
      cases acts with
      | nil =>
        rw [exec] at h
        cases h
        exact hg
      | cons a rest =>
        cases a with
        | ask =>
          rw [exec] at h
          refine ihE _ { st with log := st.log ++ [.saw st.phase] } s _ _ ⟨?_, hg.2⟩ h
          show replay [] (st.log ++ [.saw st.phase]) = some s
          rw [replay_append, hg.1]
          simp [replay, St.phase, hg.2]
        | add body =>
          rw [exec] at h
          exact ihE _ _ s _ _ (hg.same (add_same st body).1 (add_same st body).2) h
        | raise b =>
          rw [exec] at h
          cases h
          exact hg
        | scope name body =>
          rw [exec] at h
          cases h1 : exec hook n body (st.push name) with
          | none => rw [h1] at h; cases h
          | some r =>
            obtain ⟨o1, st1⟩ := r
            have g1 : Good s st1 := ihE _ (st.push name) s _ _ (hg.same rfl rfl) h1
            simp only [h1] at h
            cases h2 : popScope hook n name st1 with
            | none => rw [h2] at h; cases h
            | some r =>
              obtain ⟨o2, st2⟩ := r
              have g2 : Good s st2 := ihP _ _ s _ _ g1 h2
              simp only [h2] at h
              generalize (if o2 = .ret then o1 else o2) = o3 at h
              cases o3 with
              | ret => exact ihE _ _ s _ _ g2 h
              | exc => cases h; exact g2
              | fatal => cases h; exact g2
    · intro name st s o st' hg h
      rw [popScope] at h
      cases h1 : (if name = "test" then exec hook n hook st else some (.ret, st)) with
      | none => rw [h1] at h; cases h
      | some r =>
        obtain ⟨o1, st1⟩ := r
        have g1 : Good s st1 := by
          split at h1
          · exact ihE _ _ s _ _ hg h1
          · cases h1; exact hg
        rw [h1] at h
        cases o1 with
        | ret =>
          simp only at h
          cases h2 : drain hook n st1 with
          | none => rw [h2] at h; cases h
          | some r =>
            obtain ⟨o2, st2⟩ := r
            have g2 := ihD _ s _ _ g1 h2
            rw [h2] at h
            cases h
            exact g2.same rfl rfl
        | exc => cases h; exact g1.same rfl rfl
        | fatal => cases h; exact g1.same rfl rfl
    · intro st s o st' hg h
      rw [drain] at h
      cases hs : st.stack with
      | nil => rw [hs] at h; cases h; exact hg
      | cons x t =>
        obtain ⟨name, cs⟩ := x
        rw [hs] at h
        cases cs with
        | nil => cases h; exact hg
        | cons c cs =>
          simp only at h
          cases h1 : exec hook n c { st with stack := (name, cs) :: t, cur := some name, log := st.log ++ [.enter name] } with
          | none => rw [h1] at h; cases h
          | some r =>
            obtain ⟨o1, st1⟩ := r
            have g1 : Good (name :: s) st1 := by
              refine ihE _ _ (name :: s) _ _ ⟨?_, rfl⟩ h1
              show replay [] (st.log ++ [.enter name]) = _
              rw [replay_append, hg.1]
              rfl
            simp only [h1] at h
            have g2 : Good s { st1 with cur := st.cur, log := st1.log ++ [.leave] } := by
              refine ⟨?_, hg.2⟩
              show replay [] (st1.log ++ [.leave]) = _
              rw [replay_append, g1.1]
              rfl
            split at h
            · cases h; exact g2
            · exact ihD _ s _ _ g2 h

/-- C143: whatever functions, cleanups and callbacks of hooks do — open scopes, also in cleanups, add cleanups, also from cleanups, raise exceptions —,
every answer of `get_current_cleanup_phase` is the scope of the cleanup that is being called (the innermost one, should a cleanup have opened a scope), and
is `None` when none is being called; and afterwards, no cleanup is being called. -/
theorem C143_phase (hook acts : List Act) (n : Nat) (o : Out) (st : St) (h : exec hook n acts {} = some (o, st)) :
    replay [] st.log = some [] ∧ st.phase = none ∧ st.inCleanup = false := by
  have hg : Good [] st := (good_all hook n).1 acts {} [] o st ⟨rfl, rfl⟩ h
  have hp : st.phase = none := hg.2
  exact ⟨hg.1, hp, by unfold St.inCleanup; rw [hp]; rfl⟩

example : (exec [.ask] 20 [.scope "session" [.add [.ask], .scope "test" [.ask, .add [.ask, .raise false], .add [.add [.ask], .scope "inner" [.ask, .add [.ask]], .ask]],
    .ask]] {}).map (fun x => (x.1, x.2.log)) =
    some (.ret, [.saw none, .saw none, .enter "test", .saw (some "test"), .enter "inner", .saw (some "inner"), .leave, .saw (some "test"), .leave,
      .enter "test", .saw (some "test"), .leave, .enter "test", .saw (some "test"), .leave, .saw none, .enter "session", .saw (some "session"), .leave]) := by
  decide +kernel

/-- C143: also when a cleanup is given up because of an exception that is not swallowed. -/
example : (exec [] 20 [.scope "session" [.scope "test" [.add [.ask, .raise true]], .ask], .ask] {}).map (fun x => (x.1, x.2.log)) =
    some (.fatal, [.enter "test", .saw (some "test"), .leave]) := by
  decide +kernel

/-- The names of the open scopes, the innermost first (`cleanup_manager.py:25`). -/
def names (st : St) : List String := st.stack.map (·.1)

theorem add_names (st : St) (b : List Act) : names (st.add b) = names st := by
  unfold St.add names
  cases st.stack <;> rfl

theorem names_all (hook : List Act) (n : Nat) :
    (∀ acts st o st', exec hook n acts st = some (o, st') → names st' = names st) ∧
    (∀ name st o st', popScope hook n name st = some (o, st') → names st' = (names st).tail) ∧
    (∀ st o st', drain hook n st = some (o, st') → names st' = names st) := by
  induction n with
  | zero =>
    refine ⟨?_, ?_, ?_⟩
    · intro acts st o st' h; rw [exec] at h; cases h
    · intro name st o st' h; rw [popScope] at h; cases h
    · intro st o st' h; rw [drain] at h; cases h
  | succ n ih =>
    obtain ⟨ihE, ihP, ihD⟩ := ih
    refine ⟨?_, ?_, ?_⟩
    · intro acts st o st' h
      cases acts with
      | nil => rw [exec] at h; cases h; rfl
      | cons a rest =>
        cases a with
        | ask => rw [exec] at h; exact (ihE _ { st with log := st.log ++ [.saw st.phase] } _ _ h).trans rfl
        | add body => rw [exec] at h; exact (ihE _ _ _ _ h).trans (add_names st body)
        | raise b => rw [exec] at h; cases h; rfl
        | scope name body =>
          rw [exec] at h
          cases h1 : exec hook n body (st.push name) with
          | none => rw [h1] at h; cases h
          | some r =>
            obtain ⟨o1, st1⟩ := r
            have g1 := ihE _ _ _ _ h1
            simp only [h1] at h
            cases h2 : popScope hook n name st1 with
            | none => rw [h2] at h; cases h
            | some r =>
              obtain ⟨o2, st2⟩ := r
              have g2 : names st2 = names st := by rw [ihP _ _ _ _ h2, g1]; rfl
              simp only [h2] at h
              generalize (if o2 = .ret then o1 else o2) = o3 at h
              cases o3 with
              | ret => exact (ihE _ _ _ _ h).trans g2
              | exc => cases h; exact g2
              | fatal => cases h; exact g2
    · intro name st o st' h
      have ht : ∀ st : St, names { st with stack := st.stack.tail } = (names st).tail := fun st => by unfold names; cases st.stack <;> rfl
      rw [popScope] at h
      cases h1 : (if name = "test" then exec hook n hook st else some (.ret, st)) with
      | none => rw [h1] at h; cases h
      | some r =>
        obtain ⟨o1, st1⟩ := r
        have g1 : names st1 = names st := by
          split at h1
          · exact ihE _ _ _ _ h1
          · cases h1; rfl
        rw [h1] at h
        cases o1 with
        | ret =>
          simp only at h
          cases h2 : drain hook n st1 with
          | none => rw [h2] at h; cases h
          | some r =>
            obtain ⟨o2, st2⟩ := r
            have g2 := ihD _ _ _ h2
            rw [h2] at h
            cases h
            rw [ht, g2, g1]
        | exc => cases h; rw [ht, g1]
        | fatal => cases h; rw [ht, g1]
    · intro st o st' h
      rw [drain] at h
      cases hs : st.stack with
      | nil => rw [hs] at h; cases h; rfl
      | cons x t =>
        obtain ⟨name, cs⟩ := x
        rw [hs] at h
        cases cs with
        | nil => cases h; rfl
        | cons c cs =>
          simp only at h
          cases h1 : exec hook n c { st with stack := (name, cs) :: t, cur := some name, log := st.log ++ [.enter name] } with
          | none => rw [h1] at h; cases h
          | some r =>
            obtain ⟨o1, st1⟩ := r
            have g1 : names st1 = names st := by
              rw [ihE _ _ _ _ h1]
              unfold names
              rw [hs]
              rfl
            simp only [h1] at h
            split at h
            · cases h; exact g1
            · exact (ihD _ _ _ h).trans g1

/-- C143: a scope is closed however it is left: when a function is over, in whatever way, the scopes are open that were before. -/
theorem C143_closed (hook acts : List Act) (n : Nat) (st st' : St) (o : Out) (h : exec hook n acts st = some (o, st')) :
    st'.stack.map (·.1) = st.stack.map (·.1) := (names_all hook n).1 acts st o st' h

example : (exec [.raise false] 20 [.scope "test" [.add [.ask]]] { stack := [("session", [])] }).map (fun x => (x.1, names x.2)) =
    some (.exc, ["session"]) := by decide +kernel

end Slash.Phase
