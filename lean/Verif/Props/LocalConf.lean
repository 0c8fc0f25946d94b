import Verif.Model.LocalConf
/-!
# C155: variables of slashconf files
-/
namespace Slash.LC

/-! ## Lookups -/

theorem get_nil (n : Nat) : Vars.get [] n = none := rfl

theorem get_update (v w : Vars) (n : Nat) : (v.update w).get n = (w.get n).or (v.get n) := by
  unfold Vars.get Vars.update
  rw [List.find?_append]
  cases List.find? (fun x => x.1 == n) w <;> simp

theorem get_foldl (vs : List Vars) (n : Nat) : (vs.reverse.foldl Vars.update []).get n = vs.findSome? (·.get n) := by
  induction vs with
  | nil => rfl
  | cons v vs ih =>
    rw [List.reverse_cons, List.foldl_append]
    simp only [List.foldl_cons, List.foldl_nil]
    rw [get_update, ih, List.findSome?_cons]
    cases v.get n <;> rfl

/-- The files of a directory. -/
def files (env : Env) (d : Dir) : List Nat := (paths (env.conf d)).getD []

theorem mem_upwards (d a : Dir) : a ∈ upwards d ↔ a <:+ d := by
  induction d with
  | nil => simp [upwards]
  | cons c d ih => simp only [upwards, List.mem_cons, ih, List.suffix_cons_iff]

theorem upwards_append (p a : Dir) : ∃ l, upwards (p ++ a) = l ++ upwards a ∧ ∀ d ∈ l, d ∈ upwards (p ++ a) ∧ a.length < d.length := by
  induction p with
  | nil => exact ⟨[], rfl, by simp⟩
  | cons c p ih =>
    obtain ⟨l, h1, h2⟩ := ih
    refine ⟨(c :: (p ++ a)) :: l, by simp [upwards, h1], ?_⟩
    intro d hd
    rcases List.mem_cons.1 hd with rfl | hd
    · exact ⟨by simp [upwards], by simp; omega⟩
    · exact ⟨by simp only [List.cons_append, upwards]; exact List.mem_cons_of_mem _ (h2 d hd).1, (h2 d hd).2⟩

/-! ## Running files -/

theorem runFiles_log (env : Env) (fs : List Nat) (v : Vars) (log : List Nat) : ∃ p, p <+: fs ∧ (runFiles env fs v log).2 = log ++ p := by
  induction fs generalizing v log with
  | nil => exact ⟨[], List.prefix_refl _, by simp [runFiles]⟩
  | cons f fs ih =>
    simp only [runFiles]
    by_cases hp : env.parses f = true
    · rw [if_pos hp]
      cases h : env.run f (log.count f) with
      | none => exact ⟨[f], by simp, rfl⟩
      | some w =>
        obtain ⟨p, h1, h2⟩ := ih (v.update w) (log ++ [f])
        exact ⟨f :: p, by simpa using h1, by simp only [h2]; simp⟩
    · rw [if_neg hp]
      exact ⟨[], by simp, by simp⟩

/-- A file that can be run any time, and has variables, as all modules have. -/
def FileOk (env : Env) (f : Nat) : Prop := env.parses f = true ∧ ∀ k, ∃ v, env.run f k = some v ∧ v ≠ []

theorem runFiles_ok (env : Env) (fs : List Nat) (v : Vars) (log : List Nat) (h : ∀ f ∈ fs, FileOk env f) :
    ∃ w, runFiles env fs v log = (some w, log ++ fs) ∧ (fs ≠ [] ∨ v ≠ [] → w ≠ []) := by
  induction fs generalizing v log with
  | nil => exact ⟨v, by simp [runFiles], by simp⟩
  | cons f fs ih =>
    obtain ⟨h1, h2⟩ := h f List.mem_cons_self
    obtain ⟨w, h3, h4⟩ := h2 (log.count f)
    obtain ⟨w', h5, h6⟩ := ih (v.update w) (log ++ [f]) (fun f' hf => h f' (List.mem_cons_of_mem _ hf))
    refine ⟨w', ?_, fun _ => h6 (.inr ?_)⟩
    · simp only [runFiles, if_pos h1, h3, h5]
      simp
    · simp only [Vars.update]
      intro h0
      exact h4 (List.append_eq_nil_iff.1 h0).1

theorem runFiles_none (env : Env) (fs : List Nat) (v : Vars) (log : List Nat) (n : Nat)
    (h : ∀ f ∈ fs, ∀ k w, env.run f k = some w → w.get n = none) (hv : v.get n = none) (w : Vars) (log' : List Nat)
    (hr : runFiles env fs v log = (some w, log')) : w.get n = none := by
  induction fs generalizing v log with
  | nil => simp only [runFiles, Prod.mk.injEq, Option.some.injEq] at hr; rw [← hr.1]; exact hv
  | cons f fs ih =>
    simp only [runFiles] at hr
    by_cases hp : env.parses f = true
    · rw [if_pos hp] at hr
      cases h' : env.run f (log.count f) with
      | none => rw [h'] at hr; simp at hr
      | some x =>
        rw [h'] at hr
        refine ih (v.update x) (log ++ [f]) (fun f' hf => h f' (List.mem_cons_of_mem _ hf)) ?_ hr
        rw [get_update, h f List.mem_cons_self _ _ h', hv]
        rfl
    · rw [if_neg hp] at hr
      simp at hr

theorem runFiles_nonempty (env : Env) (hm : ∀ f k w, env.run f k = some w → w ≠ []) (fs : List Nat) (v : Vars) (log : List Nat) (w : Vars) (log' : List Nat)
    (hr : runFiles env fs v log = (some w, log')) (hw : w = []) : fs = [] := by
  induction fs generalizing v log with
  | nil => rfl
  | cons f fs ih =>
    exfalso
    have hne : ∀ fs v log, v ≠ [] → runFiles env fs v log = (some w, log') → w ≠ [] := by
      clear ih hr v log fs
      intro fs
      induction fs with
      | nil =>
        intro v log hv hr
        simp only [runFiles, Prod.mk.injEq, Option.some.injEq] at hr
        rw [← hr.1]; exact hv
      | cons f fs ih =>
        intro v log hv hr
        simp only [runFiles] at hr
        split at hr
        · split at hr
          · simp at hr
          · refine ih _ _ ?_ hr
            intro h0
            exact hv (List.append_eq_nil_iff.1 h0).2
        · simp at hr
    simp only [runFiles] at hr
    split at hr
    · split at hr
      · simp at hr
      · rename_i x hx
        refine hne _ _ _ ?_ hr hw
        intro h0
        exact hm _ _ _ hx (List.append_eq_nil_iff.1 h0).1
    · simp at hr

/-! ## The cache -/

theorem cached_cons (s : St) (d d' : Dir) (v : Vars) (log : List Nat) :
    St.cached { s with log := log, cache := (d, v) :: s.cache } d' = if d = d' then some v else s.cached d' := by
  unfold St.cached
  rw [List.find?_cons]
  by_cases h : d = d'
  · simp [h]
  · have : (d == d') = false := by simpa using h
    simp [this, h]

/-- Directories already loaded keep their variables, and the stack is as it was. -/
theorem loadDir_keep (env : Env) (d : Dir) (s : St) :
    (loadDir env d s).2.configs = s.configs ∧ ∀ d' v, s.cached d' = some v → (loadDir env d s).2.cached d' = some v := by
  unfold loadDir
  cases hc : s.cached d with
  | some v => exact ⟨rfl, fun _ _ h => h⟩
  | none =>
    cases paths (env.conf d) with
    | none => exact ⟨rfl, fun _ _ h => h⟩
    | some fs =>
      simp only
      rcases hr : runFiles env fs [] s.log with ⟨v | v, log⟩
      · exact ⟨rfl, fun _ _ h => h⟩
      · refine ⟨rfl, fun d' v' h => ?_⟩
        simp only
        by_cases hv : v = []
        · rw [if_pos hv]; exact h
        · rw [if_neg hv, cached_cons, if_neg]
          · exact h
          · rintro rfl
            rw [hc] at h
            simp at h

theorem loadDirs_keep (env : Env) (ds : List Dir) (s : St) :
    (loadDirs env ds s).2.configs = s.configs ∧ ∀ d' v, s.cached d' = some v → (loadDirs env ds s).2.cached d' = some v := by
  induction ds generalizing s with
  | nil => exact ⟨rfl, fun _ _ h => h⟩
  | cons d ds ih =>
    have hk := loadDir_keep env d s
    simp only [loadDirs]
    rcases hl : loadDir env d s with ⟨v | v, s'⟩
    · rw [hl] at hk; exact hk
    · rw [hl] at hk
      have := ih s'
      dsimp only
      rcases hl' : loadDirs env ds s' with ⟨vs | vs, s''⟩ <;> rw [hl'] at this <;>
        exact ⟨this.1.trans hk.1, fun d' v' h => this.2 d' v' (hk.2 d' v' h)⟩

theorem push_keep (env : Env) (d : Dir) (s : St) (d' : Dir) (v : Vars) (h : s.cached d' = some v) : (push env d s).2.cached d' = some v := by
  have hk := (loadDirs_keep env (upwards d) s).2 d' v h
  unfold push
  rcases hl : loadDirs env (upwards d) s with ⟨vs | vs, s'⟩ <;> rw [hl] at hk <;> exact hk

theorem exec_keep (env : Env) (ops : List Op) (s : St) (d' : Dir) (v : Vars) (h : s.cached d' = some v) : (exec env ops s).cached d' = some v := by
  induction ops generalizing s with
  | nil => exact h
  | cons op ops ih =>
    refine ih _ ?_
    cases op with
    | push d => exact push_keep env d s d' v h
    | pop => exact h

/-- What is known of the cache: variables of a directory are what some run of its files gave. -/
structure Inv (env : Env) (s : St) : Prop where
  cache : ∀ d v, s.cached d = some v → v ≠ [] ∧ ∃ fs log log', paths (env.conf d) = some fs ∧ runFiles env fs [] log = (some v, log')

theorem inv_loadDir (env : Env) (d : Dir) (s : St) (h : Inv env s) : Inv env (loadDir env d s).2 := by
  unfold loadDir
  cases hc : s.cached d with
  | some v => exact h
  | none =>
    cases hp : paths (env.conf d) with
    | none => exact h
    | some fs =>
      simp only
      rcases hr : runFiles env fs [] s.log with ⟨v | v, log⟩
      · exact ⟨h.cache⟩
      · simp only
        by_cases hv : v = []
        · rw [if_pos hv]; exact ⟨h.cache⟩
        · rw [if_neg hv]
          refine ⟨fun d' v' h' => ?_⟩
          rw [cached_cons] at h'
          by_cases hd : d = d'
          · subst hd
            rw [if_pos rfl] at h'
            simp only [Option.some.injEq] at h'
            subst h'
            exact ⟨hv, fs, s.log, log, hp, hr⟩
          · rw [if_neg hd] at h'
            exact h.cache d' v' h'

/-- What a directory gave is from now on in the cache. -/
theorem loadDir_cached (env : Env) (d : Dir) (s s' : St) (v : Vars) (h : loadDir env d s = (some v, s')) :
    (v ≠ [] → s'.cached d = some v) ∧ (v = [] → Inv env s → ∃ fs log log', paths (env.conf d) = some fs ∧ runFiles env fs [] log = (some v, log')) := by
  unfold loadDir at h
  cases hc : s.cached d with
  | some v' =>
    rw [hc] at h
    simp only [Prod.mk.injEq, Option.some.injEq] at h
    obtain ⟨rfl, rfl⟩ := h
    exact ⟨fun _ => hc, fun hv hi => absurd hv (hi.cache d v' hc).1⟩
  | none =>
    rw [hc] at h
    cases hp : paths (env.conf d) with
    | none => rw [hp] at h; simp at h
    | some fs =>
      rw [hp] at h
      simp only at h
      rcases hr : runFiles env fs [] s.log with ⟨v' | v', log⟩
      · rw [hr] at h; simp at h
      · rw [hr] at h
        simp only [Prod.mk.injEq, Option.some.injEq] at h
        obtain ⟨rfl, rfl⟩ := h
        refine ⟨fun hv => ?_, fun _ _ => ⟨fs, s.log, log, rfl, hr⟩⟩
        rw [if_neg hv, cached_cons, if_pos rfl]

theorem inv_loadDirs (env : Env) (ds : List Dir) (s : St) (h : Inv env s) : Inv env (loadDirs env ds s).2 := by
  induction ds generalizing s with
  | nil => exact h
  | cons d ds ih =>
    have hk := inv_loadDir env d s h
    simp only [loadDirs]
    rcases hl : loadDir env d s with ⟨v | v, s'⟩
    · rw [hl] at hk; exact hk
    · rw [hl] at hk
      have := ih s' hk
      dsimp only
      rcases hl' : loadDirs env ds s' with ⟨vs | vs, s''⟩ <;> rw [hl'] at this <;> exact this

theorem inv_push (env : Env) (d : Dir) (s : St) (h : Inv env s) : Inv env (push env d s).2 := by
  have hk := inv_loadDirs env (upwards d) s h
  unfold push
  rcases hl : loadDirs env (upwards d) s with ⟨vs | vs, s'⟩ <;> rw [hl] at hk
  · exact hk
  · exact ⟨hk.cache⟩

theorem inv_exec (env : Env) (ops : List Op) (s : St) (h : Inv env s) : Inv env (exec env ops s) := by
  induction ops generalizing s with
  | nil => exact h
  | cons op ops ih =>
    refine ih _ ?_
    cases op with
    | push d => exact inv_push env d s h
    | pop => exact ⟨h.cache⟩

theorem inv_init (env : Env) : Inv env {} := ⟨fun d v h => by simp [St.cached] at h⟩

theorem loadDirs_get (env : Env) (hm : ∀ f k w, env.run f k = some w → w ≠ []) (ds : List Dir) (s s' : St) (hi : Inv env s) (vs : List Vars)
    (h : loadDirs env ds s = (some vs, s')) (n : Nat) :
    vs.findSome? (·.get n) = ds.findSome? (fun d => ((s'.cached d).getD []).get n) ∧
    ∀ d ∈ ds, (s'.cached d).isSome = true ∨ paths (env.conf d) = some [] := by
  induction ds generalizing s vs with
  | nil =>
    simp only [loadDirs, Prod.mk.injEq, Option.some.injEq] at h
    rw [← h.1]
    exact ⟨rfl, by simp⟩
  | cons d ds ih =>
    simp only [loadDirs] at h
    have hi' := inv_loadDir env d s hi
    rcases hl : loadDir env d s with ⟨v | v, s1⟩
    · rw [hl] at h; simp at h
    · rw [hl] at h hi'
      simp only at h
      have hk := (loadDirs_keep env ds s1).2
      rcases hl' : loadDirs env ds s1 with ⟨vs' | vs', s2⟩
      · rw [hl'] at h; simp at h
      · rw [hl'] at h hk
        simp only [Prod.mk.injEq, Option.some.injEq] at h
        obtain ⟨rfl, rfl⟩ := h
        obtain ⟨h1, h2⟩ := ih s1 hi' vs' hl'
        have hc := loadDir_cached env d s s1 v hl
        by_cases hv : v = []
        · rw [if_pos hv]
          obtain ⟨fs, log, log', hp, hr⟩ := hc.2 hv hi
          have hfs := runFiles_nonempty env hm fs [] log v log' hr hv
          subst hfs
          have hnone : s2.cached d = none := by
            cases h3 : s2.cached d with
            | none => rfl
            | some w =>
              exfalso
              have hi2 := inv_loadDirs env ds s1 hi'
              rw [hl'] at hi2
              obtain ⟨h4, fs', l, l', h5, h6⟩ := hi2.cache d w h3
              rw [hp] at h5
              simp only [Option.some.injEq] at h5
              subst h5
              simp only [runFiles, Prod.mk.injEq, Option.some.injEq] at h6
              exact h4 h6.1.symm
          refine ⟨?_, ?_⟩
          · rw [List.findSome?_cons, hnone]
            exact h1
          · intro d' hd'
            rcases List.mem_cons.1 hd' with rfl | hd'
            · exact .inr hp
            · exact h2 d' hd'
        · rw [if_neg hv]
          have h3 := hk d v (hc.1 hv)
          refine ⟨?_, ?_⟩
          · rw [List.findSome?_cons, List.findSome?_cons, h3, h1]
            rfl
          · intro d' hd'
            rcases List.mem_cons.1 hd' with rfl | hd'
            · exact .inl (by rw [h3]; rfl)
            · exact h2 d' hd'

theorem push_get (env : Env) (hm : ∀ f k w, env.run f k = some w → w ≠ []) (d : Dir) (s s' : St) (hi : Inv env s)
    (h : push env d s = (true, s')) (n : Nat) :
    (getDict s').get n = (upwards d).findSome? (fun d' => ((s'.cached d').getD []).get n) ∧
    (∀ d' ∈ upwards d, (s'.cached d').isSome = true ∨ paths (env.conf d') = some []) ∧ s'.configs.tail = s.configs := by
  unfold push at h
  rcases hl : loadDirs env (upwards d) s with ⟨vs | vs, s1⟩
  · rw [hl] at h; simp at h
  · rw [hl] at h
    simp only [Prod.mk.injEq] at h
    have hs := h.2
    subst hs
    obtain ⟨h1, h2⟩ := loadDirs_get env hm (upwards d) s s1 hi vs hl n
    have hk := (loadDirs_keep env (upwards d) s).1
    rw [hl] at hk
    refine ⟨?_, h2, hk⟩
    show (vs.reverse.foldl Vars.update []).get n = _
    rw [get_foldl, h1]
    rfl

/-! ## Values -/

theorem runFiles_get (env : Env) (hd : ∀ f k, env.run f k = env.run f 0) (fs : List Nat) (v : Vars) (log : List Nat) (w : Vars) (log' : List Nat)
    (hr : runFiles env fs v log = (some w, log')) (n : Nat) :
    w.get n = (fs.reverse.findSome? fun f => ((env.run f 0).getD []).get n).or (v.get n) := by
  induction fs generalizing v log with
  | nil => simp only [runFiles, Prod.mk.injEq, Option.some.injEq] at hr; rw [← hr.1]; rfl
  | cons f fs ih =>
    simp only [runFiles] at hr
    split at hr
    · rw [hd] at hr
      cases hx : env.run f 0 with
      | none => rw [hx] at hr; simp at hr
      | some x =>
        rw [hx] at hr
        rw [ih _ _ hr, get_update, List.reverse_cons, List.findSome?_append]
        simp only [List.findSome?_cons, List.findSome?_nil, hx, Option.getD_some]
        cases (fs.reverse.findSome? fun f => ((env.run f 0).getD []).get n) with
        | some y => rfl
        | none => cases x.get n <;> rfl
    · simp at hr

/-- **C155** (nearest): in any session, a variable seen from a test file is that of the nearest directory upwards whose `slashconf` files define it,
and of the last of these files, and not there if none does. Files give the same when run again; all modules have some variable. -/
theorem C155_nearest (env : Env) (hm : ∀ f k w, env.run f k = some w → w ≠ []) (hd : ∀ f k, env.run f k = env.run f 0) (ops : List Op) (d : Dir) (s' : St)
    (h : push env d (exec env ops {}) = (true, s')) (n : Nat) :
    (getDict s').get n =
      (upwards d).findSome? fun d' => (files env d').reverse.findSome? fun f => ((env.run f 0).getD []).get n := by
  have hi := inv_exec env ops {} (inv_init env)
  obtain ⟨h1, h2, _⟩ := push_get env hm d _ s' hi h n
  have hi' : Inv env s' := by
    have := inv_push env d _ hi
    rw [h] at this
    exact this
  rw [h1]
  have hall : ∀ l : List Dir, (∀ d' ∈ l, (s'.cached d').isSome = true ∨ paths (env.conf d') = some []) →
      (l.findSome? fun d' => ((s'.cached d').getD []).get n) =
        l.findSome? fun d' => (files env d').reverse.findSome? fun f => ((env.run f 0).getD []).get n := by
    intro l
    induction l with
    | nil => intro _; rfl
    | cons a l ih =>
      intro ha
      have he : ((s'.cached a).getD []).get n = (files env a).reverse.findSome? fun f => ((env.run f 0).getD []).get n := by
        cases hc : s'.cached a with
        | some v =>
          obtain ⟨_, fs, log, log', h3, h4⟩ := hi'.cache a v hc
          rw [Option.getD_some, runFiles_get env hd fs [] log v log' h4 n]
          simp [files, h3, get_nil]
        | none =>
          rcases ha a List.mem_cons_self with h3 | h3
          · rw [hc] at h3; simp at h3
          · simp [files, h3, get_nil]
      rw [List.findSome?_cons, List.findSome?_cons, he, ih (fun d' h' => ha d' (List.mem_cons_of_mem _ h'))]
  exact hall _ h2

/-- **C155** (shared): two test files anywhere below a directory see the same value of a variable, the very same object, at whatever time they are
loaded, unless the variable is defined nearer to one of them. -/
theorem C155_shared (env : Env) (hm : ∀ f k w, env.run f k = some w → w ≠ []) (ops ops' : List Op) (a p1 p2 : Dir) (s1 s2 : St) (n : Nat)
    (h1 : push env (p1 ++ a) (exec env ops {}) = (true, s1)) (h2 : push env (p2 ++ a) (exec env ops' s1) = (true, s2))
    (hn : ∀ d' ∈ upwards (p1 ++ a) ++ upwards (p2 ++ a), a.length < d'.length → ∀ f ∈ files env d', ∀ k w, env.run f k = some w → w.get n = none) :
    (getDict s2).get n = (getDict s1).get n := by
  have hi0 := inv_exec env ops {} (inv_init env)
  have hi1 : Inv env s1 := by have := inv_push env (p1 ++ a) _ hi0; rwa [h1] at this
  have hi1' := inv_exec env ops' s1 hi1
  have hi2 : Inv env s2 := by have := inv_push env (p2 ++ a) _ hi1'; rwa [h2] at this
  obtain ⟨g1, c1, _⟩ := push_get env hm _ _ s1 hi0 h1 n
  obtain ⟨g2, c2, _⟩ := push_get env hm _ _ s2 hi1' h2 n
  have hskip : ∀ s, Inv env s → ∀ l : List Dir, (∀ d' ∈ l, ∀ f ∈ files env d', ∀ k w, env.run f k = some w → w.get n = none) → ∀ r : List Dir,
      ((l ++ r).findSome? fun d' => ((s.cached d').getD []).get n) = r.findSome? fun d' => ((s.cached d').getD []).get n := by
    intro s hi l
    induction l with
    | nil => intro _ r; rfl
    | cons b l ih =>
      intro hl r
      have : ((s.cached b).getD []).get n = none := by
        cases hc : s.cached b with
        | none => rfl
        | some v =>
          obtain ⟨_, fs, log, log', h3, h4⟩ := hi.cache b v hc
          refine runFiles_none env fs [] log n (fun f hf => hl b List.mem_cons_self f ?_) rfl v log' h4
          simpa [files, h3] using hf
      rw [List.cons_append, List.findSome?_cons, this]
      exact ih (fun d' hd' => hl d' (List.mem_cons_of_mem _ hd')) r
  obtain ⟨l1, e1, m1⟩ := upwards_append p1 a
  obtain ⟨l2, e2, m2⟩ := upwards_append p2 a
  rw [g1, g2]
  rw [show (upwards (p1 ++ a)).findSome? (fun d' => ((s1.cached d').getD []).get n) = (upwards a).findSome? (fun d' => ((s1.cached d').getD []).get n) by
    rw [e1]
    exact hskip s1 hi1 l1 (fun d' hd' => hn d' (List.mem_append_left _ (m1 d' hd').1) (m1 d' hd').2) _]
  rw [show (upwards (p2 ++ a)).findSome? (fun d' => ((s2.cached d').getD []).get n) = (upwards a).findSome? (fun d' => ((s2.cached d').getD []).get n) by
    rw [e2]
    exact hskip s2 hi2 l2 (fun d' hd' => hn d' (List.mem_append_right _ (m2 d' hd').1) (m2 d' hd').2) _]
  have hall : ∀ l : List Dir, (∀ d' ∈ l, d' ∈ upwards (p1 ++ a)) →
      (l.findSome? fun d' => ((s2.cached d').getD []).get n) = l.findSome? fun d' => ((s1.cached d').getD []).get n := by
    intro l
    induction l with
    | nil => intro _; rfl
    | cons b l ih =>
      intro hb
      have : s2.cached b = s1.cached b := by
        cases hc : s1.cached b with
        | some v =>
          have h3 := exec_keep env ops' s1 b v hc
          have h4 := push_keep env (p2 ++ a) _ b v h3
          rw [h2] at h4
          exact h4
        | none =>
          rcases c1 b (hb b List.mem_cons_self) with h3 | h3
          · rw [hc] at h3; simp at h3
          · cases hc2 : s2.cached b with
            | none => rfl
            | some v =>
              exfalso
              obtain ⟨h4, fs, log, log', h5, h6⟩ := hi2.cache b v hc2
              rw [h3] at h5
              simp only [Option.some.injEq] at h5
              subst h5
              simp only [runFiles, Prod.mk.injEq, Option.some.injEq] at h6
              exact h4 h6.1.symm
      rw [List.findSome?_cons, List.findSome?_cons, this, ih (fun d' h' => hb d' (List.mem_cons_of_mem _ h'))]
  refine hall _ (fun d' hd' => ?_)
  rw [mem_upwards] at hd' ⊢
  exact hd'.trans (List.suffix_append _ _)

/-- **C155** (after a file): when a test file is done the variables are those of before. -/
theorem C155_restored (env : Env) (d : Dir) (s s' : St) :
    (push env d s = (true, s') → (pop s').configs = s.configs) ∧ (push env d s = (false, s') → s'.configs = s.configs) := by
  have hk := (loadDirs_keep env (upwards d) s).1
  constructor
  · intro h
    unfold push at h
    rcases hl : loadDirs env (upwards d) s with ⟨vs | vs, s1⟩
    · rw [hl] at h; simp at h
    · rw [hl] at h hk
      simp only [Prod.mk.injEq, true_and] at h
      rw [← h]
      exact hk
  · intro h
    unfold push at h
    rcases hl : loadDirs env (upwards d) s with ⟨vs | vs, s1⟩
    · rw [hl] at h hk
      simp only [Prod.mk.injEq, true_and] at h
      rw [← h]
      exact hk
    · rw [hl] at h; simp at h

/-! ## Failures -/

/-- A directory whose `slashconf` is usable: not both a file and a directory, and all its files can be run. -/
def DirOk (env : Env) (d : Dir) : Prop := ∃ fs, paths (env.conf d) = some fs ∧ ∀ f ∈ fs, env.parses f = true ∧ env.run f 0 ≠ none

theorem runFiles_some (env : Env) (hd : ∀ f k, env.run f k = env.run f 0) (fs : List Nat) (v : Vars) (log : List Nat) :
    (∃ w log', runFiles env fs v log = (some w, log')) ↔ ∀ f ∈ fs, env.parses f = true ∧ env.run f 0 ≠ none := by
  induction fs generalizing v log with
  | nil => simp [runFiles]
  | cons f fs ih =>
    simp only [runFiles, List.mem_cons, forall_eq_or_imp]
    by_cases hp : env.parses f = true
    · rw [if_pos hp, hd]
      cases hx : env.run f 0 with
      | none => simp
      | some x =>
        simp only [ih]
        simp [hp]
    · rw [if_neg hp]
      simp [hp]

theorem loadDirs_some (env : Env) (hd : ∀ f k, env.run f k = env.run f 0) (ds : List Dir) (s : St) (hi : Inv env s) :
    (loadDirs env ds s).1.isSome = true ↔ ∀ d ∈ ds, DirOk env d := by
  induction ds generalizing s with
  | nil => simp [loadDirs]
  | cons d ds ih =>
    have hi' := inv_loadDir env d s hi
    have hd1 : (loadDir env d s).1.isSome = true ↔ DirOk env d := by
      unfold loadDir
      cases hc : s.cached d with
      | some v =>
        obtain ⟨_, fs, log, log', h1, h2⟩ := hi.cache d v hc
        simp only [Option.isSome_some, true_iff]
        exact ⟨fs, h1, (runFiles_some env hd fs [] log).1 ⟨v, log', h2⟩⟩
      | none =>
        cases hp : paths (env.conf d) with
        | none => simp [DirOk, hp]
        | some fs =>
          simp only
          have := runFiles_some env hd fs [] s.log
          rcases hr : runFiles env fs [] s.log with ⟨v | v, log⟩
          · rw [hr] at this
            simp only [Option.isSome_none, Bool.false_eq_true, false_iff]
            rintro ⟨fs', h1, h2⟩
            rw [hp] at h1
            simp only [Option.some.injEq] at h1
            subst h1
            obtain ⟨w, l, h3⟩ := this.2 h2
            simp at h3
          · rw [hr] at this
            simp only [Option.isSome_some, true_iff]
            exact ⟨fs, hp, this.1 ⟨v, log, rfl⟩⟩
    simp only [loadDirs, List.mem_cons, forall_eq_or_imp]
    rcases hl : loadDir env d s with ⟨v | v, s1⟩
    · rw [hl] at hd1
      simp only [Option.isSome_none, Bool.false_eq_true, false_iff] at hd1 ⊢
      exact fun h => hd1 h.1
    · rw [hl] at hd1 hi'
      have := ih s1 hi'
      simp only [Option.isSome_some, true_iff] at hd1
      dsimp only
      rcases hl' : loadDirs env ds s1 with ⟨vs | vs, s2⟩ <;> rw [hl'] at this
      · simp only [Option.isSome_none, Bool.false_eq_true, false_iff] at this ⊢
        exact fun h => this h.2
      · simp only [Option.isSome_some, true_iff] at this ⊢
        exact ⟨hd1, this⟩

/-- **C155** (failures): a test file can be loaded if and only if each directory upwards has at most one of a file and a directory of that name,
and all their files can be parsed and run, whatever was loaded before. -/
theorem C155_fails_iff (env : Env) (hd : ∀ f k, env.run f k = env.run f 0) (ops : List Op) (d : Dir) :
    (push env d (exec env ops {})).1 = true ↔ ∀ a, a <:+ d → ¬ ((env.conf a).file.isSome = true ∧ (env.conf a).dir.isSome = true) ∧
      ∀ f ∈ files env a, env.parses f = true ∧ env.run f 0 ≠ none := by
  have h := loadDirs_some env hd (upwards d) _ (inv_exec env ops {} (inv_init env))
  have h1 : (push env d (exec env ops {})).1 = (loadDirs env (upwards d) (exec env ops {})).1.isSome := by
    unfold push
    rcases loadDirs env (upwards d) (exec env ops {}) with ⟨vs | vs, s1⟩ <;> rfl
  rw [h1, h]
  have h2 : ∀ a, DirOk env a ↔ ¬ ((env.conf a).file.isSome = true ∧ (env.conf a).dir.isSome = true) ∧
      ∀ f ∈ files env a, env.parses f = true ∧ env.run f 0 ≠ none := by
    intro a
    have h3 : (paths (env.conf a)).isSome = true ↔ ¬ ((env.conf a).file.isSome = true ∧ (env.conf a).dir.isSome = true) := by
      unfold paths
      rcases (env.conf a).file with _ | f <;> rcases (env.conf a).dir with _ | l <;> simp
    unfold DirOk files
    rw [← h3]
    cases hp : paths (env.conf a) <;> simp
  constructor
  · intro h4 a ha
    exact (h2 a).1 (h4 a ((mem_upwards d a).2 ha))
  · intro h4 a ha
    exact (h2 a).2 (h4 a ((mem_upwards d a).1 ha))

/-! ## How often files are run -/

/-- A directory is loaded already, or none of its files was run. -/
def Fresh (env : Env) (d : Dir) (s : St) : Prop :=
  (∀ f ∈ files env d, s.log.count f ≤ 1) ∧ ((s.cached d).isSome = true ∨ ∀ f ∈ files env d, s.log.count f = 0)

theorem fresh_loadDir (env : Env) (d d' : Dir) (s : St) (hok : ∀ f ∈ files env d, FileOk env f) (hnd : (files env d).Nodup)
    (hdis : ∀ d', ∀ f ∈ files env d, f ∈ files env d' → d' = d) (h : Fresh env d s) : Fresh env d (loadDir env d' s).2 := by
  have hk := (loadDir_keep env d' s).2
  unfold loadDir at hk ⊢
  cases hc : s.cached d' with
  | some v => exact h
  | none =>
    rw [hc] at hk
    cases hp : paths (env.conf d') with
    | none => exact h
    | some fs =>
      rw [hp] at hk
      simp only at hk ⊢
      by_cases hd : d' = d
      · subst hd
        have hfs : files env d' = fs := by simp [files, hp]
        obtain ⟨w, hr, hw⟩ := runFiles_ok env fs [] s.log (by rw [← hfs]; exact hok)
        rw [hr]
        simp only
        have hz : ∀ f ∈ files env d', s.log.count f = 0 := by
          rcases h.2 with h' | h'
          · rw [hc] at h'; simp at h'
          · exact h'
        refine ⟨?_, ?_⟩
        · intro f hf
          rw [List.count_append, hz f hf]
          have := List.nodup_iff_count.1 hnd f
          rw [hfs] at this
          omega
        · by_cases hfs0 : fs = []
          · right
            rw [hfs, hfs0]
            simp
          · left
            rw [if_neg (hw (.inl hfs0)), cached_cons, if_pos rfl]
            rfl
      · obtain ⟨p, hp1, hp2⟩ := runFiles_log env fs [] s.log
        have hcount : ∀ f ∈ files env d, (s.log ++ p).count f = s.log.count f := by
          intro f hf
          have h0 : p.count f = 0 := by
            rw [List.count_eq_zero]
            intro hfp
            exact hd (hdis d' f hf (by simp only [files, hp, Option.getD_some]; exact hp1.subset hfp))
          rw [List.count_append, h0, Nat.add_zero]
        have hc2 : ∀ c : List (Dir × Vars), (∀ v, s.cached d = some v → St.cached { s with log := s.log ++ p, cache := c } d = some v) →
            Fresh env d { s with log := s.log ++ p, cache := c } := by
          intro c hcc
          refine ⟨fun f hf => by simp only [hcount f hf]; exact h.1 f hf, ?_⟩
          rcases h.2 with h' | h'
          · obtain ⟨v, hv⟩ := Option.isSome_iff_exists.1 h'
            exact .inl (by rw [hcc v hv]; rfl)
          · exact .inr (fun f hf => by simp only [hcount f hf]; exact h' f hf)
        rcases hr : runFiles env fs [] s.log with ⟨v | v, log⟩ <;> rw [hr] at hp2 hk
        · simp only at hp2
          subst hp2
          exact hc2 s.cache (fun v hv => hk d v hv)
        · simp only at hp2
          subst hp2
          exact hc2 _ (fun v hv => hk d v hv)

theorem fresh_exec (env : Env) (d : Dir) (hok : ∀ f ∈ files env d, FileOk env f) (hnd : (files env d).Nodup)
    (hdis : ∀ d', ∀ f ∈ files env d, f ∈ files env d' → d' = d) (ops : List Op) (s : St) (h : Fresh env d s) : Fresh env d (exec env ops s) := by
  have hdirs : ∀ (ds : List Dir) (s : St), Fresh env d s → Fresh env d (loadDirs env ds s).2 := by
    intro ds
    induction ds with
    | nil => exact fun s h => h
    | cons d' ds ih =>
      intro s h
      have h1 := fresh_loadDir env d d' s hok hnd hdis h
      simp only [loadDirs]
      rcases hl : loadDir env d' s with ⟨v | v, s'⟩
      · rw [hl] at h1; exact h1
      · rw [hl] at h1
        have := ih s' h1
        dsimp only
        rcases hl' : loadDirs env ds s' with ⟨vs | vs, s''⟩ <;> rw [hl'] at this <;> exact this
  induction ops generalizing s with
  | nil => exact h
  | cons op ops ih =>
    refine ih _ ?_
    cases op with
    | push d' =>
      have := hdirs (upwards d') s h
      simp only [step]
      unfold push
      rcases hl : loadDirs env (upwards d') s with ⟨vs | vs, s'⟩ <;> rw [hl] at this <;> exact this
    | pop => exact h

/-- **C155** (once, partial): however many test files are loaded, in whatever order, a `slashconf` file is run at most once. Missing: files
of a directory one of which fails, see `C155_again_violated`. -/
theorem C155_once_partial (env : Env) (d : Dir) (hok : ∀ f ∈ files env d, FileOk env f) (hnd : (files env d).Nodup)
    (hdis : ∀ d', ∀ f ∈ files env d, f ∈ files env d' → d' = d) (ops : List Op) :
    ∀ f ∈ files env d, (exec env ops {}).log.count f ≤ 1 :=
  (fresh_exec env d hok hnd hdis ops {} ⟨by simp, .inr (by simp)⟩).1

/-- The files of a directory: its `slashconf.py`, or the files below its `slashconf` whose names end in `.py`, in the order they are listed. -/
theorem C155_files (env : Env) (d : Dir) (f : Nat) :
    (f ∈ files env d ↔ ((env.conf d).file = some f ∧ (env.conf d).dir = none) ∨
      ((env.conf d).file = none ∧ ∃ l stem, (env.conf d).dir = some l ∧ (stem ++ ['.', 'p', 'y'], f) ∈ l)) ∧
    (∀ l, (env.conf d).dir = some l → List.Sublist (files env d) (l.map (·.2))) := by
  unfold files paths
  rcases (env.conf d).file with _ | g <;> rcases (env.conf d).dir with _ | l
  · simp
  · refine ⟨?_, ?_⟩
    · simp only [Option.getD_some, List.mem_map, List.mem_filter, isPy, List.isSuffixOf_iff_suffix]
      constructor
      · rintro ⟨⟨nm, g⟩, ⟨hm, stem, hs⟩, rfl⟩
        refine .inr ⟨trivial, l, stem, rfl, ?_⟩
        have : stem ++ ['.', 'p', 'y'] = nm := hs
        rw [this]
        exact hm
      · rintro (⟨h, _⟩ | ⟨_, l', stem, hl, hm⟩)
        · simp at h
        · cases hl
          exact ⟨_, ⟨hm, stem, rfl⟩, rfl⟩
    · intro l' hl
      cases hl
      exact List.Sublist.map _ List.filter_sublist
  · simp [eq_comm]
  · simp

/-- A project: the root has a directory `slashconf` of two files and a text, its subdirectory 1 a file. -/
def exEnv (bad : Bool) : Env :=
  { conf := fun d =>
      if d = [] then { dir := some [("a.py".toList, 10), ("notes.txt".toList, 11), ("b.py".toList, 12)] }
      else if d = [1] then { file := some 20 }
      else if d = [2] then { file := some 30, dir := some [] }
      else {}
    parses := fun _ => true
    run := fun f k => if f = 12 ∧ bad = true then none else some [(0, f), (f, k), (7, f)] }

/-- A file that fails makes the files before it be run again with the next test file. -/
theorem C155_again_violated : (exec (exEnv true) [.push [1], .push [5, 1]] {}).log.count 10 = 2 := by decide +kernel

-- The text file is not run.
example : files (exEnv false) [] = [10, 12] ∧ files (exEnv false) [1] = [20] ∧ files (exEnv false) [2] = [] := by decide +kernel

-- Tests below directory 1 see its variables, and those of the root that it does not define; tests in directory 2 cannot be loaded.
example : (getDict (push (exEnv false) [5, 1] {}).2).get 7 = some 20 ∧ (getDict (push (exEnv false) [5, 1] {}).2).get 12 = some 0 ∧
    (getDict (push (exEnv false) [5] {}).2).get 7 = some 12 ∧ (getDict (push (exEnv false) [5] {}).2).get 11 = none ∧
    (push (exEnv false) [2] {}).1 = false ∧ (exec (exEnv false) [.push [5, 1], .pop, .push [6], .push [1]] {}).log = [20, 10, 12] := by
  decide +kernel

end Slash.LC
