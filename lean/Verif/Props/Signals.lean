import Verif.Lemmas.Signals
/-! Signal handlers: C114. -/
namespace Slash.Signals

/-- The state when slash starts. -/
def start (process : Nat → Nat) : St := { process := process }

theorem inv_start (process : Nat → Nat) : Inv (start process) := ⟨by simp [start, Handlers.Ok], by simp [start, Handlers.Ok], fun _ => rfl, by intro h; cases h⟩

/-- The last handler registered for a signal. -/
def latest (s : Nat) : List Op → Option Nat
  | [] => none
  | .register (some q) h :: ops => (latest s ops).or (if q = s then some h else none)
  | _ :: ops => latest s ops

theorem registered_eq (st : St) (ops : List Op) (hi : Inv st) (s : Nat) : (run st ops).registered.get s = (latest s ops).or (st.registered.get s) := by
  unfold run
  induction ops generalizing st with
  | nil => rfl
  | cons op ops ih =>
    rw [List.foldl_cons, ih _ (inv_step hi op)]
    cases op with
    | register sig h =>
      cases sig with
      | none => rfl
      | some q =>
        have : (step st (.register (some q) h)).registered = st.registered.set q h := by
          show (register st (some q) h).registered = _
          unfold register; simp only; split <;> rfl
        rw [this, get_set, latest]
        by_cases e : q = s
        · subst e; cases latest q ops <;> simp
        · cases latest s ops <;> simp [e, Ne.symm e]
    | activate =>
      have : (step st .activate).registered = st.registered := (setAll hi.reg st).2.2.1
      rw [this, latest]
      all_goals (intro q h e; cases e)
    | deactivate =>
      rw [latest]; rfl
      all_goals (intro q h e; cases e)

/-- While the plugin is active, each signal has the handler registered last for it. -/
theorem C114_active (process : Nat → Nat) (ops : List Op) (h : (run (start process) ops).active = true) (s g : Nat) (hg : latest s ops = some g) :
    (run (start process) ops).process s = g := by
  have hi := inv_run (inv_start process) ops
  apply hi.active h
  rw [registered_eq _ _ (inv_start process), hg]
  rfl

/-- The handlers are not touched as long as the plugin has not been activated. -/
theorem C114_inactive (process : Nat → Nat) (ops : List Op) (h : .activate ∉ ops) : (run (start process) ops).process = process := by
  suffices ∀ st : St, st.active = false → st.orig = [] → (run st ops).process = st.process from this _ rfl rfl
  unfold run
  induction ops with
  | nil => intros; rfl
  | cons op ops ih =>
    intro st h1 h2
    have hih := ih (fun hm => h (by simp [hm]))
    cases op with
    | register sig g =>
      have : (step st (.register sig g)).active = false ∧ (step st (.register sig g)).orig = [] ∧ (step st (.register sig g)).process = st.process := by
        cases sig with
        | none => exact ⟨h1, h2, rfl⟩
        | some q =>
          show (register st (some q) g).active = false ∧ _
          simp only [step, register]
          rw [h1]; simp [h1, h2]
      rw [List.foldl_cons, hih _ this.1 this.2.1, this.2.2]
    | activate => exact absurd (by simp) h
    | deactivate =>
      rw [List.foldl_cons, hih _ rfl rfl]
      simp [step, deactivate, h2]

/-- Deactivating the plugin puts back the handlers that were there when it was activated, provided that it was not active already and that
handlers registered since were for signals without one, each once. -/
theorem C114_restored_partial (process : Nat → Nat) (before : List Op) (during : List (Nat × Nat)) (hin : (run (start process) before).active = false)
    (hnew : ∀ x ∈ during, latest x.1 before = none) (hdup : (during.map (·.1)).Nodup) :
    (run (start process) (before ++ [.activate] ++ during.map (fun x => .register (some x.1) x.2) ++ [.deactivate])).process =
      (run (start process) before).process := by
  have hi := inv_run (inv_start process) before
  have hnew' : ∀ x ∈ during, (run (start process) before).registered.get x.1 = none := by
    intro x hx; rw [registered_eq _ _ (inv_start process), hnew x hx]; rfl
  have ho := hi.inactive hin
  have e : run (start process) (before ++ [.activate] ++ during.map (fun x => .register (some x.1) x.2) ++ [.deactivate]) =
      deactivate ((during.map (fun x => Op.register (some x.1) x.2)).foldl step (activate (run (start process) before))) := by
    unfold run; simp [step]
  rw [e]
  generalize run (start process) before = st at *
  obtain ⟨h1, h2, h3, h4, h5⟩ := setAll hi.reg st
  have hia : Inv (activate st) := inv_step hi .activate
  -- what is remembered, and what has not been touched
  have key : ∀ (l : List (Nat × Nat)) (a : St), a.active = true → (∀ s g, a.orig.get s = some g → g = st.process s) →
      (∀ s, a.orig.get s = none → a.process s = st.process s) → (∀ x ∈ l, a.orig.get x.1 = none) → (l.map (·.1)).Nodup →
      ((∀ s g, ((l.map (fun x => Op.register (some x.1) x.2)).foldl step a).orig.get s = some g → g = st.process s) ∧
       (∀ s, ((l.map (fun x => Op.register (some x.1) x.2)).foldl step a).orig.get s = none →
          ((l.map (fun x => Op.register (some x.1) x.2)).foldl step a).process s = st.process s)) := by
    intro l
    induction l with
    | nil => intro a _ p q _ _; exact ⟨p, q⟩
    | cons x l ih =>
      intro a ha p q hn hd
      rw [List.map_cons, List.nodup_cons] at hd
      rw [List.map_cons, List.foldl_cons]
      have hs : step a (.register (some x.1) x.2) = setHandler { a with registered := a.registered.set x.1 x.2 } x.1 x.2 := by
        show register a (some x.1) x.2 = _
        unfold register; simp only; rw [if_pos ha]
      rw [hs]
      apply ih
      · exact ha
      · intro s g hg
        simp only [setHandler, get_set] at hg
        split at hg
        · rename_i e; subst e; rw [← Option.some.inj hg]; exact q _ (hn x (by simp))
        · exact p s g hg
      · intro s hg
        simp only [setHandler, get_set] at hg ⊢
        split at hg
        · cases hg
        · rename_i e; rw [if_neg e]; exact q s hg
      · intro y hy
        simp only [setHandler, get_set]
        rw [if_neg, hn y (by simp [hy])]
        intro e
        exact hd.1 (e ▸ List.mem_map_of_mem hy)
      · exact hd.2
  have k := key during (activate st) rfl (by
      intro s g hg
      simp only [activate] at hg
      rw [h2, ho] at hg
      split at hg
      · cases hg
      · exact (Option.some.inj hg).symm) (by
      intro s hg
      simp only [activate] at hg ⊢
      rw [h2] at hg
      split at hg
      · rename_i hr; rw [h1, hr]; rfl
      · cases hg) (by
      intro x hx
      simp only [activate]
      rw [h2, if_pos (hnew' x hx), ho]; rfl) hdup
  have hif := inv_run hia (during.map (fun x => Op.register (some x.1) x.2))
  unfold run at hif
  generalize (during.map (fun x => Op.register (some x.1) x.2)).foldl step (activate st) = f at k hif ⊢
  funext s
  unfold deactivate
  simp only
  rw [restore_eq hif.orig]
  cases hg : f.orig.get s with
  | none => exact k.2 s hg
  | some g => exact k.1 s g hg

example : (run (start (fun _ => 0)) [.register (some 10) 1, .activate, .register (some 12) 2, .register none 3]).process 10 = 1 ∧
    (run (start (fun _ => 0)) [.register (some 10) 1, .activate, .register (some 12) 2]).process 12 = 2 ∧
    (run (start (fun _ => 0)) [.register (some 10) 1, .activate, .register (some 12) 2, .deactivate]).process 10 = 0 ∧
    (run (start (fun _ => 0)) [.register (some 10) 1, .activate, .register (some 12) 2, .deactivate]).process 12 = 0 := by decide

/-- The full claim, deactivating the plugin always restores the handlers of before, is false: registering another handler for a signal that
is handled already, or activating the plugin twice, makes it "restore" its own handler. -/
theorem C114_restored_violated :
    (∃ process ops s, (run (start process) ([.register (some s) 1] ++ [.activate] ++ ops ++ [.deactivate])).process s ≠ process s ∧
      .activate ∉ ops ∧ (run (start process) ([.register (some s) 1] ++ [.activate] ++ ops ++ [.deactivate])).active = false) ∧
    ∃ process s, (run (start process) [.register (some s) 1, .activate, .activate, .deactivate]).process s ≠ process s :=
  ⟨⟨fun _ => 0, [.register (some 10) 2], 10, by decide, by decide, by decide⟩, fun _ => 0, 10, by decide⟩

end Slash.Signals
