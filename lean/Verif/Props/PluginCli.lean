import Verif.Model.PluginCli
import Verif.Props.Plugins
/-!
# C138: plugins on the command line and in parallel runs
-/
namespace Slash.Plug

theorem after_eq (pre arg n : Str) : after pre arg = some n ↔ arg = pre ++ n := by
  unfold after
  constructor
  · intro h
    split at h
    · rename_i hp
      simp only [Option.some.injEq] at h
      obtain ⟨t, rfl⟩ := List.isPrefixOf_iff_prefix.1 hp
      rw [List.drop_left] at h
      rw [h]
    · cases h
  · rintro rfl
    have : pre.isPrefixOf (pre ++ n) = true := List.isPrefixOf_iff_prefix.2 (List.prefix_append _ _)
    rw [if_pos this, List.drop_left]

theorem after_none (pre arg : Str) : after pre arg = none ↔ ∀ n, arg ≠ pre ++ n := by
  constructor
  · intro h n hn; rw [(after_eq pre arg n).2 hn] at h; cases h
  · intro h
    cases ha : after pre arg with
    | none => rfl
    | some n => exact absurd ((after_eq pre arg n).1 ha) (h n)

/-- the operations an argument stands for -/
def argOps (arg : Str) : List Op :=
  match after withoutPrefix arg with
  | some n => [.deactivateLater (.name n)]
  | none =>
    match after withPrefix arg with
    | some n => [.activateLater (.name n)]
    | none => []

theorem run_append (w : World) (ps : Objs) (a b : List Op) (s : St) : run w ps (a ++ b) s = run w ps b (run w ps a s) := by
  simp only [run, List.foldl_append]

theorem later_frame (ps : Objs) (r : Ref) (s : St) : (activateLater ps r s).2.installed = s.installed ∧ (activateLater ps r s).2.cmdline = s.cmdline ∧
    (deactivateLater ps r s).2.installed = s.installed ∧ (deactivateLater ps r s).2.cmdline = s.cmdline ∧
    (activateLater ps r s).2.active = s.active ∧ (deactivateLater ps r s).2.active = s.active := by
  unfold activateLater deactivateLater
  cases find ps s r <;> simp

theorem find_frame (ps : Objs) (s t : St) (h1 : t.installed = s.installed) (h2 : t.cmdline = s.cmdline) (r : Ref) : find ps t r = find ps s r := by
  cases r <;> simp only [find, h1, h2]

/-- A plugin is asked for: an argument is the prefix followed by a name of the plugin. -/
def Asked (ps : Objs) (s : St) (pre : Str) (argv : List Str) (n : Str) : Prop :=
  ∃ x o, pre ++ x ∈ argv ∧ find ps s (.name x) = some o ∧ (ps o).name = n

/-- what the loop over arguments does -/
structure Pending (w : World) (ps : Objs) (argv : List Str) (s : St) (l : List Str) (t : St) : Prop where
  run : t = run w ps (argv.flatMap argOps) s
  rest : l = argv.filter (fun a => (after withoutPrefix a).isNone && (after withPrefix a).isNone)
  installed : t.installed = s.installed
  cmdline : t.cmdline = s.cmdline
  active : t.active = s.active
  known : ∀ x, withPrefix ++ x ∈ argv ∨ withoutPrefix ++ x ∈ argv → (find ps s (.name x)).isSome = true
  act : ∀ n, n ∈ t.pendAct ↔ n ∈ s.pendAct ∨ Asked ps s withPrefix argv n
  deact : ∀ n, n ∈ t.pendDeact ↔ n ∈ s.pendDeact ∨ Asked ps s withoutPrefix argv n

theorem prefixes_differ (x y : Str) : withPrefix ++ x ≠ withoutPrefix ++ y := by
  have h1 : withPrefix = ['-', '-', 'w', 'i', 't', 'h', '-'] := by decide
  have h2 : withoutPrefix = ['-', '-', 'w', 'i', 't', 'h', 'o', 'u', 't', '-'] := by decide
  rw [h1, h2]
  simp

theorem addPending_spec (w : World) (ps : Objs) (argv : List Str) : ∀ (s : St) (l : List Str) (t : St), addPending ps argv s = (.ok, l, t) → Pending w ps argv s l t := by
  induction argv with
  | nil =>
    intro s l t h
    cases h
    refine ⟨rfl, rfl, rfl, rfl, rfl, by simp, ?_, ?_⟩ <;> (intro n; simp [Asked])
  | cons arg argv ih =>
    intro s l t h
    unfold addPending at h
    cases hwo : after withoutPrefix arg with
    | some n0 =>
      have harg := (after_eq _ _ _).1 hwo
      have hwi : after withPrefix arg = none := (after_none _ _).2 (fun x hx => prefixes_differ x n0 (hx.symm.trans harg))
      rw [hwo] at h
      simp only [deactivateLater] at h
      cases hf : find ps s (.name n0) with
      | none => rw [hf] at h; cases h
      | some o =>
        rw [hf] at h
        simp only at h
        have P := ih _ _ _ h
        have hfr : ∀ r, find ps { s with pendDeact := setAdd (ps o).name s.pendDeact } r = find ps s r := fun r => find_frame ps _ _ rfl rfl r
        have hasked : ∀ pre n, Asked ps { s with pendDeact := setAdd (ps o).name s.pendDeact } pre argv n ↔ Asked ps s pre argv n := by
          intro pre n; simp only [Asked, hfr]
        refine ⟨?_, ?_, P.installed, P.cmdline, P.active, ?_, ?_, ?_⟩
        · rw [P.run, List.flatMap_cons, run_append]
          simp only [argOps, hwo, run, List.foldl_cons, List.foldl_nil, Op.run, deactivateLater, hf]
        · rw [P.rest]
          simp [hwo]
        · intro x hx
          simp only [List.mem_cons] at hx
          by_cases hxx : x = n0
          · rw [hxx, hf]; rfl
          · have := P.known x (by
              rcases hx with (g | g) | (g | g)
              · exact absurd (g.trans harg) (prefixes_differ _ _)
              · exact Or.inl g
              · exact absurd (List.append_cancel_left (g.trans harg)) hxx
              · exact Or.inr g)
            rw [hfr] at this; exact this
        · intro n
          rw [P.act, hasked]
          simp only [Asked, List.mem_cons]
          refine or_congr Iff.rfl ?_
          constructor
          · rintro ⟨x, o', h1, h2⟩; exact ⟨x, o', Or.inr h1, h2⟩
          · rintro ⟨x, o', h1 | h1, h2⟩
            · exact absurd (h1.trans harg) (prefixes_differ _ _)
            · exact ⟨x, o', h1, h2⟩
        · intro n
          rw [P.deact, hasked]
          simp only [mem_setAdd, Asked, List.mem_cons]
          constructor
          · rintro ((h1 | h1) | ⟨x, o', h1, h2⟩)
            · exact Or.inr ⟨n0, o, Or.inl harg.symm, hf, h1.symm⟩
            · exact Or.inl h1
            · exact Or.inr ⟨x, o', Or.inr h1, h2⟩
          · rintro (h1 | ⟨x, o', h1 | h1, h2, h3⟩)
            · exact Or.inl (Or.inr h1)
            · have hx : x = n0 := List.append_cancel_left (h1.trans harg)
              subst hx
              rw [hf] at h2
              cases h2
              exact Or.inl (Or.inl h3.symm)
            · exact Or.inr ⟨x, o', h1, h2, h3⟩
    | none =>
      rw [hwo] at h
      cases hwi : after withPrefix arg with
      | some n0 =>
        have harg := (after_eq _ _ _).1 hwi
        rw [hwi] at h
        simp only [activateLater] at h
        cases hf : find ps s (.name n0) with
        | none => rw [hf] at h; cases h
        | some o =>
          rw [hf] at h
          simp only at h
          have P := ih _ _ _ h
          have hfr : ∀ r, find ps { s with pendAct := setAdd (ps o).name s.pendAct } r = find ps s r := fun r => find_frame ps _ _ rfl rfl r
          have hasked : ∀ pre n, Asked ps { s with pendAct := setAdd (ps o).name s.pendAct } pre argv n ↔ Asked ps s pre argv n := by
            intro pre n; simp only [Asked, hfr]
          refine ⟨?_, ?_, P.installed, P.cmdline, P.active, ?_, ?_, ?_⟩
          · rw [P.run, List.flatMap_cons, run_append]
            simp only [argOps, hwo, hwi, run, List.foldl_cons, List.foldl_nil, Op.run, activateLater, hf]
          · rw [P.rest]
            simp [hwi]
          · intro x hx
            simp only [List.mem_cons] at hx
            by_cases hxx : x = n0
            · rw [hxx, hf]; rfl
            · have := P.known x (by
                rcases hx with (g | g) | (g | g)
                · exact absurd (List.append_cancel_left (g.trans harg)) hxx
                · exact Or.inl g
                · exact absurd (harg.symm.trans g.symm) (prefixes_differ _ _)
                · exact Or.inr g)
              rw [hfr] at this; exact this
          · intro n
            rw [P.act, hasked]
            simp only [mem_setAdd, Asked, List.mem_cons]
            constructor
            · rintro ((h1 | h1) | ⟨x, o', h1, h2⟩)
              · exact Or.inr ⟨n0, o, Or.inl harg.symm, hf, h1.symm⟩
              · exact Or.inl h1
              · exact Or.inr ⟨x, o', Or.inr h1, h2⟩
            · rintro (h1 | ⟨x, o', h1 | h1, h2, h3⟩)
              · exact Or.inl (Or.inr h1)
              · have hx : x = n0 := List.append_cancel_left (h1.trans harg)
                subst hx
                rw [hf] at h2
                cases h2
                exact Or.inl (Or.inl h3.symm)
              · exact Or.inr ⟨x, o', h1, h2, h3⟩
          · intro n
            rw [P.deact, hasked]
            simp only [Asked, List.mem_cons]
            refine or_congr Iff.rfl ?_
            constructor
            · rintro ⟨x, o', h1, h2⟩; exact ⟨x, o', Or.inr h1, h2⟩
            · rintro ⟨x, o', h1 | h1, h2⟩
              · exact absurd (harg.symm.trans h1.symm) (prefixes_differ _ _)
              · exact ⟨x, o', h1, h2⟩
      | none =>
        rw [hwi] at h
        simp only at h
        cases hr : addPending ps argv s with
        | mk r x =>
          obtain ⟨l', t'⟩ := x
          rw [hr] at h
          simp only [Prod.mk.injEq] at h
          obtain ⟨rfl, rfl, rfl⟩ := h
          have P := ih _ _ _ hr
          have hne : ∀ pre n, (after pre arg = none) → (Asked ps s pre (arg :: argv) n ↔ Asked ps s pre argv n) := by
            intro pre n hp
            simp only [Asked, List.mem_cons]
            constructor
            · rintro ⟨x, o', h1 | h1, h2⟩
              · exact absurd h1.symm ((after_none _ _).1 hp x)
              · exact ⟨x, o', h1, h2⟩
            · rintro ⟨x, o', h1, h2⟩; exact ⟨x, o', Or.inr h1, h2⟩
          refine ⟨?_, ?_, P.installed, P.cmdline, P.active, ?_, ?_, ?_⟩
          · rw [P.run, List.flatMap_cons, run_append]
            simp only [argOps, hwo, hwi, run, List.foldl_nil]
          · rw [P.rest]
            simp [hwo, hwi]
          · intro x hx
            simp only [List.mem_cons] at hx
            refine P.known x ?_
            rcases hx with (g | g) | (g | g)
            · exact absurd g.symm ((after_none _ _).1 hwi x)
            · exact Or.inl g
            · exact absurd g.symm ((after_none _ _).1 hwo x)
            · exact Or.inr g
          · intro n; rw [P.act, hne _ _ hwi]
          · intro n; rw [P.deact, hne _ _ hwo]

theorem addPending_unknown (ps : Objs) (argv : List Str) : ∀ (s : St), (∀ x, withPrefix ++ x ∈ argv ∨ withoutPrefix ++ x ∈ argv → (find ps s (.name x)).isSome = true) →
    (addPending ps argv s).1 = .ok := by
  induction argv with
  | nil => intro s _; rfl
  | cons arg argv ih =>
    intro s h
    unfold addPending
    cases hwo : after withoutPrefix arg with
    | some n0 =>
      have harg := (after_eq _ _ _).1 hwo
      obtain ⟨o, ho⟩ := Option.isSome_iff_exists.1 (h n0 (Or.inr (by simp [harg])))
      simp only [deactivateLater, ho]
      refine ih _ fun x hx => ?_
      have hfr : find ps { s with pendDeact := setAdd (ps o).name s.pendDeact } (.name x) = find ps s (.name x) := find_frame ps _ _ rfl rfl _
      rw [hfr]
      exact h x (hx.elim (fun g => Or.inl (by simp [g])) (fun g => Or.inr (by simp [g])))
    | none =>
      cases hwi : after withPrefix arg with
      | some n0 =>
        have harg := (after_eq _ _ _).1 hwi
        obtain ⟨o, ho⟩ := Option.isSome_iff_exists.1 (h n0 (Or.inl (by simp [harg])))
        simp only [activateLater, ho]
        refine ih _ fun x hx => ?_
        have hfr : find ps { s with pendAct := setAdd (ps o).name s.pendAct } (.name x) = find ps s (.name x) := find_frame ps _ _ rfl rfl _
        rw [hfr]
        exact h x (hx.elim (fun g => Or.inl (by simp [g])) (fun g => Or.inr (by simp [g])))
      | none =>
        simp only
        exact ih s fun x hx => h x (hx.elim (fun g => Or.inl (by simp [g])) (fun g => Or.inr (by simp [g])))

/-- Exactly the arguments for plugins are taken from the command line, the others stay in order; this fails exactly if one of them names no plugin. -/
theorem C138_arguments (ps : Objs) (argv : List Str) (s : St) :
    ((addPending ps argv s).1 = .ok ↔ ∀ x, withPrefix ++ x ∈ argv ∨ withoutPrefix ++ x ∈ argv → ∃ o, find ps s (.name x) = some o) ∧
    ((addPending ps argv s).1 = .ok → List.Sublist (addPending ps argv s).2.1 argv ∧
      ∀ a, ((∃ x, a = withPrefix ++ x ∨ a = withoutPrefix ++ x) → a ∉ (addPending ps argv s).2.1) ∧
        ((¬ ∃ x, a = withPrefix ++ x ∨ a = withoutPrefix ++ x) → (addPending ps argv s).2.1.count a = argv.count a)) := by
  have key : (addPending ps argv s).1 = .ok → Pending ⟨fun _ _ => true, []⟩ ps argv s (addPending ps argv s).2.1 (addPending ps argv s).2.2 := by
    intro h
    refine addPending_spec _ ps argv s _ _ ?_
    rw [← h]
  refine ⟨⟨?_, ?_⟩, ?_⟩
  · intro h x hx; exact Option.isSome_iff_exists.1 ((key h).known x hx)
  · intro h; exact addPending_unknown ps argv s fun x hx => Option.isSome_iff_exists.2 (h x hx)
  · intro h
    have P := key h
    rw [P.rest]
    refine ⟨List.filter_sublist, ?_⟩
    intro a
    refine ⟨?_, ?_⟩
    · rintro ⟨x, hx⟩ hm
      simp only [List.mem_filter, Bool.and_eq_true, Option.isNone_iff_eq_none, after_none] at hm
      exact hx.elim (hm.2.2 x) (hm.2.1 x)
    · intro hx
      rw [List.count_filter]
      simp only [Bool.and_eq_true, Option.isNone_iff_eq_none, after_none]
      exact ⟨fun n hn => hx ⟨n, Or.inr hn⟩, fun n hn => hx ⟨n, Or.inl hn⟩⟩

/-- Whether a plugin with the mode belongs in the session: those that are disabled never are in a parallel run, those for the parent only not in workers, those
for workers only not in the parent. -/
def Fits (par : Par) (m : Mode) : Prop :=
  par.workers = 0 ∨ m = .enabled ∨ (m = .parentOnly ∧ par.workerId = none) ∨ (m = .childOnly ∧ par.workerId ≠ none)

theorem misfit_iff (par : Par) (m : Mode) : misfit par m = true ↔ ¬ Fits par m := by
  obtain ⟨n, wid⟩ := par
  unfold misfit Fits Par.parallel Par.child Par.parent
  by_cases hn : n = 0
  · simp [hn]
  · cases m <;> cases wid <;> simp [hn, Par.parallel]

theorem configure_spec (w : World) (ps : Objs) (modes : Nat → Mode) (par : Par) (l : List (Str × Nat × Bool)) : ∀ (s t : St), WF ps s → (∀ x ∈ l, x ∈ s.installed) → (s.installed.map (·.1)).Nodup →
    configureParallelLoop ps modes par l s = (.ok, t) →
    t = run w ps ((l.filter (fun x => misfit par (modes x.2.1))).map (fun x => .deactivateLater (.obj x.2.1))) s ∧ t.active = s.active ∧ t.pendAct = s.pendAct ∧
    t.installed = s.installed ∧ t.cmdline = s.cmdline ∧
    ∀ n, n ∈ t.pendDeact ↔ n ∈ s.pendDeact ∨ ∃ o i, (n, o, i) ∈ l ∧ ¬ Fits par (modes o) := by
  induction l with
  | nil => intro s t _ _ _ h; cases h; simp [run]
  | cons x l ih =>
    intro s t hw hl hd h
    unfold configureParallelLoop at h
    obtain ⟨n0, o0, i0⟩ := x
    simp only at h
    by_cases hm : misfit par (modes o0) = true
    · rw [if_pos hm] at h
      have hx := hl (n0, o0, i0) (by simp)
      have hkey := hw.key _ hx
      simp only at hkey
      have hget : dictGet n0 s.installed = some (o0, i0) := by
        obtain ⟨y, hy⟩ := Option.isSome_iff_exists.1 (dictGet_isSome _ _ hx)
        have := inj_on_of_nodup_map hd hx (dictGet_mem _ _ _ hy) rfl
        simp only [Prod.mk.injEq, true_and] at this
        simp only at hy
        rw [hy, ← this]
      have hf : find ps s (.obj o0) = some o0 := by
        simp only [find, hkey, hget, Option.map_some, if_true]
      simp only [deactivateLater, hf, hkey] at h
      obtain ⟨a, b, c, d, e, f⟩ := ih _ t (hw.pend s.pendAct (setAdd n0 s.pendDeact)) (fun y hy => hl y (by simp [hy])) hd h
      refine ⟨?_, b, c, d, e, ?_⟩
      · rw [a, List.filter_cons, if_pos (by simpa using hm)]
        simp only [List.map_cons, run, List.foldl_cons, Op.run, deactivateLater, hf, hkey]
      · intro n
        rw [f]
        simp only [mem_setAdd, List.mem_cons, Prod.mk.injEq]
        constructor
        · rintro ((g | g) | ⟨o, i, g1, g2⟩)
          · exact Or.inr ⟨o0, i0, Or.inl ⟨g, rfl, rfl⟩, (misfit_iff _ _).1 hm⟩
          · exact Or.inl g
          · exact Or.inr ⟨o, i, Or.inr g1, g2⟩
        · rintro (g | ⟨o, i, g1 | g1, g2⟩)
          · exact Or.inl (Or.inr g)
          · exact Or.inl (Or.inl g1.1)
          · exact Or.inr ⟨o, i, g1, g2⟩
    · rw [if_neg hm] at h
      obtain ⟨a, b, c, d, e, f⟩ := ih s t hw (fun y hy => hl y (by simp [hy])) hd h
      refine ⟨?_, b, c, d, e, ?_⟩
      · rw [a, List.filter_cons, if_neg (by simpa using hm)]
      · intro n
        rw [f]
        simp only [List.mem_cons, Prod.mk.injEq]
        refine or_congr Iff.rfl ⟨?_, ?_⟩
        · rintro ⟨o, i, g1, g2⟩; exact ⟨o, i, Or.inr g1, g2⟩
        · rintro ⟨o, i, g1 | g1, g2⟩
          · obtain ⟨-, rfl, -⟩ := g1
            exact absurd ((misfit_iff _ _).2 g2) hm
          · exact ⟨o, i, g1, g2⟩

theorem configure_ok (ps : Objs) (modes : Nat → Mode) (par : Par) (l : List (Str × Nat × Bool)) : ∀ (s : St), WF ps s → (∀ x ∈ l, x ∈ s.installed) → (s.installed.map (·.1)).Nodup →
    ∃ t, configureParallelLoop ps modes par l s = (.ok, t) := by
  induction l with
  | nil => intro s _ _ _; exact ⟨s, rfl⟩
  | cons x l ih =>
    intro s hw hl hd
    unfold configureParallelLoop
    obtain ⟨n0, o0, i0⟩ := x
    simp only
    by_cases hm : misfit par (modes o0) = true
    · rw [if_pos hm]
      have hx := hl (n0, o0, i0) (by simp)
      have hkey := hw.key _ hx
      simp only at hkey
      have hget : dictGet n0 s.installed = some (o0, i0) := by
        obtain ⟨y, hy⟩ := Option.isSome_iff_exists.1 (dictGet_isSome _ _ hx)
        have := inj_on_of_nodup_map hd hx (dictGet_mem _ _ _ hy) rfl
        simp only [Prod.mk.injEq, true_and] at this
        simp only at hy
        rw [hy, ← this]
      have hf : find ps s (.obj o0) = some o0 := by
        simp only [find, hkey, hget, Option.map_some, if_true]
      simp only [deactivateLater, hf]
      exact ih _ (hw.pend _ _) (fun y hy => hl y (by simp [hy])) hd
    · rw [if_neg hm]
      exact ih s hw (fun y hy => hl y (by simp [hy])) hd

/-- Which plugins are active after an application was entered: those that were to be active before or are asked for with `--with-`, and that are not to be inactive, are not
excluded with `--without-`, and belong in the session. -/
theorem C138_active_partial (w : World) (ps : Objs) (modes : Nat → Mode) (par : Par) (raisesA raisesD : Str → Bool) (ops : List Op) (argv : List Str) (oA oD l : List Str) (s' : St)
    (hc : NoClash (run w ps ops {})) (hpend : ∀ n ∈ (run w ps ops {}).pendAct, (dictGet n (run w ps ops {}).installed).isSome = true)
    (hA : ∀ n, n ∈ oA ↔ n ∈ (configureParallel ps modes par (addPending ps argv (run w ps ops {})).2.2).2.pendAct)
    (hD : ∀ n, n ∈ oD ↔ n ∈ (configureParallel ps modes par (addPending ps argv (run w ps ops {})).2.2).2.pendDeact)
    (hok : appPlugins w ps modes par raisesA raisesD oA oD argv (run w ps ops {}) = (.ok, l, s')) :
    let s := run w ps ops {}
    ∀ n, n ∈ s'.active ↔ (n ∈ s.active ∨ n ∈ s.pendAct ∨ Asked ps s withPrefix argv n) ∧ n ∉ s.pendDeact ∧ ¬ Asked ps s withoutPrefix argv n ∧
      ∃ o i, (n, o, i) ∈ s.installed ∧ Fits par (modes o) := by
  intro s
  have hw : WF ps s := (WF.empty ps).run (w := w) ops
  have hd : (s.installed.map (·.1)).Nodup := run_dist w ps ops {} List.nodup_nil
  unfold appPlugins at hok
  change ∀ n, n ∈ oA ↔ n ∈ (configureParallel ps modes par (addPending ps argv s).2.2).2.pendAct at hA
  change ∀ n, n ∈ oD ↔ n ∈ (configureParallel ps modes par (addPending ps argv s).2.2).2.pendDeact at hD
  change (match addPending ps argv s with
    | (.ok, l, s) => match configureParallel ps modes par s with
      | (.ok, s) => ((activatePending w ps raisesA raisesD oA oD s).1, l, (activatePending w ps raisesA raisesD oA oD s).2)
      | (r, s) => (r, l, s)
    | x => x) = _ at hok
  cases h1 : addPending ps argv s with
  | mk r x =>
    obtain ⟨l1, s1⟩ := x
    rw [h1] at hok hA hD
    cases r with
    | ok =>
      simp only at hok hA hD
      have P := addPending_spec w ps argv s l1 s1 h1
      have hw1 : WF ps s1 := by rw [P.run]; exact hw.run _
      obtain ⟨s2, h2⟩ := configure_ok ps modes par s1.installed s1 hw1 (fun _ h => h) (by rw [P.installed]; exact hd)
      have C := configure_spec w ps modes par s1.installed s1 s2 hw1 (fun _ h => h) (by rw [P.installed]; exact hd) h2
      have h2' : configureParallel ps modes par s1 = (.ok, s2) := h2
      rw [h2'] at hok hA hD
      simp only at hok hA hD
      obtain ⟨C1, C2, C3, C4, C5, C6⟩ := C
      have hrun : s2 = run w ps (ops ++ (argv.flatMap argOps ++ (s1.installed.filter (fun x => misfit par (modes x.2.1))).map (fun x => .deactivateLater (.obj x.2.1)))) {} := by
        rw [run_append, run_append, ← show s = run w ps ops {} from rfl, ← P.run]; exact C1
      have hact : activatePending w ps raisesA raisesD oA oD s2 = (.ok, s') := by
        cases ha : activatePending w ps raisesA raisesD oA oD s2 with
        | mk r s3 => rw [ha] at hok; cases hok; rfl
      have hinst : s2.installed = s.installed := C4.trans P.installed
      have hfut : ∃ l, futureActive s2 = some l := by
        unfold futureActive
        rw [if_pos]
        · exact ⟨_, rfl⟩
        · rw [List.all_eq_true]
          intro n hn
          rw [C3, P.act] at hn
          rw [hinst]
          rcases hn with hn | ⟨x, o, -, hf, rfl⟩
          · exact hpend n hn
          · exact find_installed ps s hw _ o hf
      obtain ⟨lf, hfut⟩ := hfut
      have hnc : NoClash s2 := by intro n m; rw [hinst]; exact hc n m
      rw [hrun] at hact hfut hnc hA hD
      have R := (C44_without_wins_partial w ps _ raisesA raisesD oA oD s' hnc hA hD lf hfut hact).1
      rw [← hrun] at R
      intro n
      rw [R, C2, P.active, C3, P.act, C6, P.deact, P.installed]
      constructor
      · rintro ⟨g1, g2⟩
        simp only [not_or] at g2
        refine ⟨g1, g2.1.1, g2.1.2, ?_⟩
        have hin : (dictGet n s.installed).isSome = true := by
          rcases g1 with g | g | ⟨x, o, -, hf, rfl⟩
          · exact hw.act n g
          · exact hpend n g
          · exact find_installed ps s hw _ o hf
        obtain ⟨⟨o, i⟩, hoi⟩ := Option.isSome_iff_exists.1 hin
        refine ⟨o, i, dictGet_mem _ _ _ hoi, ?_⟩
        exact Classical.byContradiction fun hnf => g2.2 ⟨o, i, dictGet_mem _ _ _ hoi, hnf⟩
      · rintro ⟨g1, g2, g3, o, i, g4, g5⟩
        refine ⟨g1, ?_⟩
        rintro ((h | h) | ⟨o', i', h1, h2⟩)
        · exact g2 h
        · exact g3 h
        · have := inj_on_of_nodup_map hd g4 h1 rfl
          simp only [Prod.mk.injEq, true_and] at this
          rw [this.1] at g5
          exact h2 g5
    | _ => cases hok

/-- The order of the arguments does not matter. -/
theorem C138_order_partial (w : World) (ps : Objs) (modes : Nat → Mode) (par : Par) (raisesA raisesD raisesA' raisesD' : Str → Bool) (ops : List Op) (argv argv' : List Str)
    (oA oD l oA' oD' l' : List Str) (s' s'' : St) (hp : argv.Perm argv')
    (hc : NoClash (run w ps ops {})) (hpend : ∀ n ∈ (run w ps ops {}).pendAct, (dictGet n (run w ps ops {}).installed).isSome = true)
    (hA : ∀ n, n ∈ oA ↔ n ∈ (configureParallel ps modes par (addPending ps argv (run w ps ops {})).2.2).2.pendAct)
    (hD : ∀ n, n ∈ oD ↔ n ∈ (configureParallel ps modes par (addPending ps argv (run w ps ops {})).2.2).2.pendDeact)
    (hok : appPlugins w ps modes par raisesA raisesD oA oD argv (run w ps ops {}) = (.ok, l, s'))
    (hA' : ∀ n, n ∈ oA' ↔ n ∈ (configureParallel ps modes par (addPending ps argv' (run w ps ops {})).2.2).2.pendAct)
    (hD' : ∀ n, n ∈ oD' ↔ n ∈ (configureParallel ps modes par (addPending ps argv' (run w ps ops {})).2.2).2.pendDeact)
    (hok' : appPlugins w ps modes par raisesA' raisesD' oA' oD' argv' (run w ps ops {}) = (.ok, l', s'')) :
    ∀ n, n ∈ s'.active ↔ n ∈ s''.active := by
  intro n
  rw [C138_active_partial w ps modes par raisesA raisesD ops argv oA oD l s' hc hpend hA hD hok n,
    C138_active_partial w ps modes par raisesA' raisesD' ops argv' oA' oD' l' s'' hc hpend hA' hD' hok' n]
  have : ∀ pre, Asked ps (run w ps ops {}) pre argv n ↔ Asked ps (run w ps ops {}) pre argv' n := by
    intro pre; simp only [Asked, hp.mem_iff]
  simp only [this]

theorem run_frame (w : World) (ps : Objs) (Q : St → Prop) (hframe : ∀ s t : St, t.installed = s.installed → t.cmdline = s.cmdline → Q s → Q t)
    (henter : ∀ s o i, WF ps s → Q s → Q (enter (ps o).name o i s)) (hremove : ∀ s o, WF ps s → (dictGet (ps o).name s.installed).isSome = true → Q s → Q (remove (ps o).name s))
    (ops : List Op) : ∀ s, WF ps s → Q s → Q (run w ps ops s) := by
  have hact : ∀ r x s, (activate w ps r x s).2.installed = s.installed ∧ (activate w ps r x s).2.cmdline = s.cmdline := by
    intro r x s
    rcases activate_cases w ps r x s with ⟨-, e⟩ | ⟨o, -, ⟨-, e⟩ | ⟨-, -, e⟩ | ⟨-, -, e⟩⟩ <;> rw [e] <;> exact ⟨rfl, rfl⟩
  have hde : ∀ r x s, (deactivate ps r x s).2.installed = s.installed ∧ (deactivate ps r x s).2.cmdline = s.cmdline := by
    intro r x s
    rcases deactivate_cases ps r x s with ⟨-, e⟩ | ⟨o, -, ⟨-, e⟩ | ⟨-, e⟩⟩ <;> rw [e] <;> exact ⟨rfl, rfl⟩
  have hun : ∀ r x s, WF ps s → Q s → Q (uninstall ps r x s).2 := by
    intro r x s hw h
    rcases uninstall_cases ps r x s with ⟨e, -⟩ | ⟨o, hf, ⟨-, -, e⟩ | ⟨-, -, e⟩ | ⟨-, e⟩⟩ <;> rw [e]
    · exact h
    · exact hframe s _ rfl rfl h
    · exact hremove (drop (ps o).name s) o (hw.drop _) (find_installed ps s hw r o hf) (hframe s _ rfl rfl h)
    · exact hremove s o hw (find_installed ps s hw r o hf) h
  have hpa : ∀ x l s, (pendingActivations w ps x l s).2.installed = s.installed ∧ (pendingActivations w ps x l s).2.cmdline = s.cmdline := by
    intro x l
    induction l with
    | nil => intro s; exact ⟨rfl, rfl⟩
    | cons n l ih =>
      intro s
      simp only [pendingActivations]
      split
      · exact ih _
      · have := hact (.name n) (x n) { s with pendAct := s.pendAct.filter (fun m => !(m == n)) }
        generalize activate w ps (.name n) (x n) { s with pendAct := s.pendAct.filter (fun m => !(m == n)) } = R at this ⊢
        obtain ⟨r, s1⟩ := R
        cases r <;> first | exact ⟨(ih s1).1.trans this.1, (ih s1).2.trans this.2⟩ | exact this
  have hpd : ∀ x l s, (pendingDeactivations ps x l s).2.installed = s.installed ∧ (pendingDeactivations ps x l s).2.cmdline = s.cmdline := by
    intro x l
    induction l with
    | nil => intro s; exact ⟨rfl, rfl⟩
    | cons n l ih =>
      intro s
      simp only [pendingDeactivations]
      split
      · have := hde (.name n) (x n) { s with pendDeact := s.pendDeact.filter (fun m => !(m == n)) }
        generalize deactivate ps (.name n) (x n) { s with pendDeact := s.pendDeact.filter (fun m => !(m == n)) } = R at this ⊢
        obtain ⟨r, s1⟩ := R
        cases r <;> first | exact ⟨(ih s1).1.trans this.1, (ih s1).2.trans this.2⟩ | exact this
      · exact ih _
  induction ops with
  | nil => intro s _ h; exact h
  | cons op ops ih =>
    intro s hw h
    refine ih _ (hw.step op) ?_
    cases op with
    | uninstall r x => exact hun r x s hw h
    | activate r x => exact hframe s _ (hact r x s).1 (hact r x s).2 h
    | deactivate r x => exact hframe s _ (hde r x s).1 (hde r x s).2 h
    | activateLater r => exact hframe s _ (later_frame ps r s).1 (later_frame ps r s).2.1 h
    | deactivateLater r => exact hframe s _ (later_frame ps r s).2.2.1 (later_frame ps r s).2.2.2.1 h
    | activatePending a d oA oD =>
      have : (activatePending w ps a d oA oD s).2.installed = s.installed ∧ (activatePending w ps a d oA oD s).2.cmdline = s.cmdline := by
        unfold activatePending
        have h1 := hpa a oA s
        generalize pendingActivations w ps a oA s = R at h1 ⊢
        obtain ⟨r, s1⟩ := R
        cases r <;> first | exact ⟨(hpd d oD s1).1.trans h1.1, (hpd d oD s1).2.trans h1.2⟩ | exact h1
      exact hframe s _ this.1 this.2 h
    | install o a l i x d =>
      show Q (install w ps o a l i x d s).2
      unfold install
      split
      · exact h
      split
      · exact h
      simp only
      have hw1 := hw.enter o i
      have h1 : Q (enter (ps o).name o i s) := henter s o i hw h
      unfold enter at hw1 h1
      generalize ({ s with
          installed := dictSet (ps o).name (o, i) s.installed
          cmdline := dictSet (norm (ps o).name) (ps o).name s.cmdline } : St) = s1 at hw1 h1 ⊢
      have h2 : ∀ R : Res × St, Q R.2 → Q (Prod.snd (match R with
          | (.ok, s) => if l then activateLater ps (.name (ps o).name) s else (.ok, s)
          | x => x)) := by
        intro R hR
        obtain ⟨r, s2⟩ := R
        cases r <;> simp only
        · cases l
          · exact hR
          · rw [if_pos rfl]; exact hframe s2 _ (later_frame ps _ s2).1 (later_frame ps _ s2).2.1 hR
        all_goals exact hR
      apply h2
      cases a with
      | false => exact h1
      | true =>
        have h3 := hact (.name (ps o).name) x s1
        have hw2 := hw1.activate (w := w) (.name (ps o).name) x
        rw [if_pos rfl]
        generalize activate w ps (.name (ps o).name) x s1 = R at h3 hw2 ⊢
        obtain ⟨r, s2⟩ := R
        simp only at h3 hw2
        have hQ2 : Q s2 := hframe s1 s2 h3.1 h3.2 h1
        cases r <;> simp only
        case incompatible =>
          have h4 := hun (.obj o) d s2 hw2 hQ2
          generalize uninstall ps (.obj o) d s2 = R at h4 ⊢
          obtain ⟨r, s3⟩ := R
          cases r <;> exact h4
        all_goals exact hQ2

/-- A plugin is called on the command line by its name with dashes for spaces, if no two plugins are called the same. -/
theorem C138_names_partial (w : World) (ps : Objs) (ops : List Op) (hc : ∀ o o', norm (ps o).name = norm (ps o').name → (ps o).name = (ps o').name) (n : Str) :
    let s := run w ps ops {}
    (dictGet n s.installed).isSome = true → ∃ o, find ps s (.name (norm n)) = some o ∧ (ps o).name = n := by
  intro s hn
  have hw : WF ps s := (WF.empty ps).run (w := w) ops
  have key : ∀ n, (dictGet n s.installed).isSome = true → dictGet (norm n) s.cmdline = some n := by
    refine run_frame w ps (fun s => ∀ n, (dictGet n s.installed).isSome = true → dictGet (norm n) s.cmdline = some n) ?_ ?_ ?_ ops {} (WF.empty ps) ?_
    · intro s t h1 h2 h n hn
      rw [h2]
      exact h n (by rw [← h1]; exact hn)
    · intro s o i hw h n hn
      simp only [enter, dictGet_set] at hn ⊢
      by_cases he : n = (ps o).name
      · subst he; rw [if_pos rfl]
      · rw [if_neg he] at hn
        rw [if_neg]
        · exact h n hn
        · intro hnn
          obtain ⟨⟨o', i'⟩, hoi⟩ := Option.isSome_iff_exists.1 hn
          have := hw.key _ (dictGet_mem _ _ _ hoi)
          simp only at this
          rw [← this] at hnn
          exact he (by rw [← this]; exact hc _ _ hnn)
    · intro s o hw hin h n hn
      simp only [remove, dictGet_pop] at hn ⊢
      by_cases he : n = (ps o).name
      · rw [if_pos he] at hn; cases hn
      · rw [if_neg he] at hn
        rw [if_neg]
        · exact h n hn
        · intro hnn
          obtain ⟨⟨o', i'⟩, hoi⟩ := Option.isSome_iff_exists.1 hn
          have := hw.key _ (dictGet_mem _ _ _ hoi)
          simp only at this
          rw [← this] at hnn
          exact he (by rw [← this]; exact hc _ _ hnn)
    · intro n hn; cases hn
  have hcmd := key n hn
  obtain ⟨⟨o, i⟩, hoi⟩ := Option.isSome_iff_exists.1 hn
  refine ⟨o, ?_, hw.key _ (dictGet_mem _ _ _ hoi)⟩
  simp only [find, hcmd, Option.getD_some, hoi, Option.map_some]

/-- Else a plugin has no name on the command line. -/
theorem C138_names_violated :
    let ps : Objs := fun n => { name := if n = 0 then ['a', ' ', 'b'] else ['a', '-', 'b'] }
    let s := run exWorld ps [.install 0 false false false false false, .install 1 false false false false false, .uninstall (.obj 1) false] {}
    s.installed.map (·.1) = [['a', ' ', 'b']] ∧ find ps s (.name (norm ['a', ' ', 'b'])) = none := by decide +kernel

/-- `slash list-plugins` lists exactly the plugins that are installed and not internal, as active exactly if a run without arguments for plugins in a session that is not parallel has them active. -/
theorem C138_list_partial (w : World) (ps : Objs) (modes : Nat → Mode) (raisesA raisesD : Str → Bool) (ops : List Op) (argv oA oD l : List Str) (s' : St) (lines : List ListLine)
    (hargv : ∀ a ∈ argv, ∀ x, a ≠ withPrefix ++ x ∧ a ≠ withoutPrefix ++ x)
    (hc : NoClash (run w ps ops {})) (hlines : listPlugins (run w ps ops {}) = some lines)
    (hA : ∀ n, n ∈ oA ↔ n ∈ (configureParallel ps modes {} (addPending ps argv (run w ps ops {})).2.2).2.pendAct)
    (hD : ∀ n, n ∈ oD ↔ n ∈ (configureParallel ps modes {} (addPending ps argv (run w ps ops {})).2.2).2.pendDeact)
    (hok : appPlugins w ps modes {} raisesA raisesD oA oD argv (run w ps ops {}) = (.ok, l, s')) :
    l = argv ∧ lines.map (·.name) = ((run w ps ops {}).installed.filter (fun x => !x.2.2)).map (·.1) ∧
    ∀ x ∈ lines, x.option = norm x.name ∧ (x.active = true ↔ x.name ∈ s'.active) := by
  have hw : WF ps (run w ps ops {}) := (WF.empty ps).run (w := w) ops
  unfold listPlugins at hlines
  obtain ⟨act, hact, hl⟩ := Option.map_eq_some_iff.1 hlines
  have hall : ∀ n ∈ (run w ps ops {}).pendAct, (dictGet n (run w ps ops {}).installed).isSome = true := by
    unfold futureActive at hact
    split at hact
    · rename_i h; exact List.all_eq_true.1 h
    · cases hact
  have R := C138_active_partial w ps modes {} raisesA raisesD ops argv oA oD l s' hc hall hA hD hok
  have hno : ∀ pre, (pre = withPrefix ∨ pre = withoutPrefix) → ∀ n, ¬ Asked ps (run w ps ops {}) pre argv n := by
    rintro pre hpre n ⟨x, o, hm, -⟩
    rcases hpre with rfl | rfl
    · exact (hargv _ hm x).1 rfl
    · exact (hargv _ hm x).2 rfl
  have hfa : ∀ n, n ∈ act ↔ (n ∈ (run w ps ops {}).active ∨ n ∈ (run w ps ops {}).pendAct) ∧ n ∉ (run w ps ops {}).pendDeact := by
    intro n
    unfold futureActive at hact
    split at hact
    · simp only [Option.some.injEq] at hact
      rw [← hact]
      have hfold : ∀ (p l : List Str), n ∈ p.foldl (fun l n => setAdd n l) l ↔ n ∈ l ∨ n ∈ p := by
        intro p
        induction p with
        | nil => intro l; simp
        | cons a p ih =>
          intro l
          rw [List.foldl_cons, ih, mem_setAdd, List.mem_cons]
          constructor
          · rintro ((h | h) | h)
            · exact Or.inr (Or.inl h)
            · exact Or.inl h
            · exact Or.inr (Or.inr h)
          · rintro (h | h | h)
            · exact Or.inl (Or.inr h)
            · exact Or.inl (Or.inl h)
            · exact Or.inr h
      rw [List.mem_filter, hfold]
      simp
    · cases hact
  refine ⟨?_, ?_, ?_⟩
  · unfold appPlugins at hok
    cases h1 : addPending ps argv (run w ps ops {}) with
    | mk r x =>
      obtain ⟨l1, s1⟩ := x
      rw [h1] at hok
      cases r with
      | ok =>
        have P := addPending_spec w ps argv _ l1 s1 h1
        have hl1 : l1 = argv := by
          rw [P.rest, List.filter_eq_self]
          intro a ha
          simp only [Bool.and_eq_true, Option.isNone_iff_eq_none, after_none]
          exact ⟨fun x => (hargv a ha x).2, fun x => (hargv a ha x).1⟩
        simp only at hok
        cases h2 : configureParallel ps modes {} s1 with
        | mk r2 s2 =>
          rw [h2] at hok
          cases r2 with
          | ok =>
            simp only [Prod.mk.injEq] at hok
            rw [← hok.2.1, hl1]
          | _ => cases hok
      | _ => cases hok
  · rw [← hl]; simp
  · intro x hx
    rw [← hl] at hx
    obtain ⟨y, hy, rfl⟩ := List.mem_map.1 hx
    refine ⟨rfl, ?_⟩
    simp only [List.contains_iff_mem]
    rw [hfa, R]
    have hiny := (List.mem_filter.1 hy).1
    constructor
    · rintro ⟨h1, h2⟩
      refine ⟨h1.elim Or.inl (fun h => Or.inr (Or.inl h)), h2, hno _ (Or.inr rfl) _, y.2.1, y.2.2, hiny, Or.inl rfl⟩
    · rintro ⟨h1, h2, -⟩
      refine ⟨?_, h2⟩
      rcases h1 with h | h | h
      · exact Or.inl h
      · exact Or.inr h
      · exact absurd h (hno _ (Or.inl rfl) _)

/-- three plugins for examples -/
def exCli : Objs := fun n => { name := if n = 0 then ['a', ' ', 'b'] else if n = 1 then ['c'] else ['d'] }

example : let s := run exWorld exCli [.install 0 false false false false false, .install 1 true false false false false, .install 2 false true false false false] {}
    let r := appPlugins exWorld exCli (fun n => if n = 2 then .childOnly else .enabled) { workers := 2 } (fun _ => false) (fun _ => false) [['d'], ['a', ' ', 'b']] [['c'], ['d']]
      ["--with-a-b".toList, "x".toList, "--without-c".toList] s
    r.1 = .ok ∧ r.2.1 = ["x".toList] ∧ r.2.2.active = [['a', ' ', 'b']] ∧
    listPlugins s = some [⟨['a', ' ', 'b'], false, ['a', '-', 'b']⟩, ⟨['c'], true, ['c']⟩, ⟨['d'], true, ['d']⟩] := by decide +kernel

end Slash.Plug
