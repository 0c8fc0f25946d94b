import Verif.Model.Discover
import Verif.Lemmas.PluginConfig
/-!
# C181: plugins found in search paths

"First, the paths in `plugins.search_paths` are searched for python files. For each file, a function called `install_plugins` is called
(assuming it exists), and this gives the file a chance to install its plugins" (`doc/plugins.rst`).
-/
namespace Slash.Discover
open Slash.Plug (Op St Res World Objs Plugin dictGet dictSet dictGet_set)
open Slash.Load (Node Entry Str)

/-- The files below a directory, also in hidden directories. -/
inductive Below : Node → List Str → Prop
  | file {fs dirs f} : f ∈ fs → Below (.dir fs dirs) [f]
  | dir {fs dirs d n p} : (d, n) ∈ dirs → Below n p → Below (.dir fs dirs) (d :: p)

theorem mem_filesDirs (dirs : List (Str × Node)) (p : List Str) : p ∈ filesDirs dirs ↔ ∃ d ∈ dirs, ∃ q ∈ files d.2, p = d.1 :: q := by
  induction dirs with
  | nil => simp [filesDirs]
  | cons d ds ih =>
    simp only [filesDirs, List.mem_append, List.mem_map, ih, List.mem_cons, exists_eq_or_imp]
    constructor
    · rintro (⟨q, hq, rfl⟩ | h)
      · exact .inl ⟨q, hq, rfl⟩
      · exact .inr h
    · rintro (⟨q, hq, rfl⟩ | h)
      · exact .inl ⟨q, hq, rfl⟩
      · exact .inr h

theorem mem_files (n : Node) (p : List Str) : p ∈ files n ↔ Below n p := by
  constructor
  · intro h
    induction p generalizing n with
    | nil =>
      obtain ⟨fs, dirs⟩ := n
      simp only [files, List.mem_append, List.mem_map, mem_filesDirs] at h
      rcases h with ⟨f, _, h⟩ | ⟨d, _, q, _, h⟩ <;> cases h
    | cons x p ih =>
      obtain ⟨fs, dirs⟩ := n
      simp only [files, List.mem_append, List.mem_map, mem_filesDirs] at h
      rcases h with ⟨f, hf, h⟩ | ⟨d, hd, q, hq, h⟩
      · cases h; exact .file hf
      · cases h; exact .dir hd (ih _ hq)
  · intro h
    induction h with
    | file hf => simp only [files, List.mem_append, List.mem_map]; exact .inl ⟨_, hf, rfl⟩
    | dir hd _ ih => simp only [files, List.mem_append, mem_filesDirs]; exact .inr ⟨_, hd, _, ih, rfl⟩

theorem isPy_iff (f : List Str) : isPy f = true ↔ ∃ p stem, f = p ++ [stem ++ ['.', 'p', 'y']] := by
  unfold isPy
  rw [List.isSuffixOf_iff_suffix]
  constructor
  · rintro ⟨stem, hs⟩
    rcases List.eq_nil_or_concat f with rfl | ⟨p, x, rfl⟩
    · simp at hs
    · simp only [List.concat_eq_append, List.getLast?_append, List.getLast?_singleton, Option.some_or, Option.getD_some] at hs
      exact ⟨p, stem, by rw [hs]; simp⟩
  · rintro ⟨p, stem, rfl⟩
    exact ⟨stem, by simp⟩

/-- **C181.** The files that are imported are exactly those below the search paths whose names end with `.py`, however deep, and also
those in directories that tests are not loaded from because they are hidden. -/
theorem C181_found (paths : List Entry) (i : Nat) (f : List Str) :
    (i, f) ∈ found paths ↔ (∃ n, paths[i]? = some (.dir n) ∧ Below n f) ∧ ∃ p stem, f = p ++ [stem ++ ['.', 'p', 'y']] := by
  rw [← isPy_iff]
  unfold found
  simp only [List.mem_flatten, List.mem_map, List.mem_filter]
  constructor
  · rintro ⟨l, ⟨x, hx, rfl⟩, h⟩
    simp only [List.mem_map, List.mem_filter, Prod.mk.injEq] at h
    obtain ⟨g, ⟨hg, hp⟩, rfl, rfl⟩ := h
    refine ⟨?_, hp⟩
    have := (List.mem_zipIdx_iff_getElem?.1 hx)
    cases he : x.1 with
    | dir n => rw [he] at hg this; exact ⟨n, this, (mem_files n _).1 hg⟩
    | missing => rw [he] at hg; cases hg
    | file => rw [he] at hg; cases hg
  · rintro ⟨⟨n, hn, hb⟩, hp⟩
    refine ⟨_, ⟨(.dir n, i), List.mem_zipIdx_iff_getElem?.2 hn, rfl⟩, ?_⟩
    simp only [List.mem_map, List.mem_filter, Prod.mk.injEq]
    exact ⟨f, ⟨(mem_files n f).2 hb, hp⟩, trivial, rfl⟩

/-- A tree for the examples. -/
def demoTree : Node :=
  .dir ["a.py".toList, "notes".toList] [("sub".toList, .dir ["b.py".toList, "c.pyc".toList] []), (".git".toList, .dir ["d.py".toList] [])]

example : found [.missing, .dir demoTree, .file] =
    [(1, ["a.py".toList]), (1, ["sub".toList, "b.py".toList]), (1, [".git".toList, "d.py".toList])] := by decide +kernel

/-- In each directory names occur only once. -/
inductive Distinct : Node → Prop
  | dir {fs dirs} : fs.Nodup → (dirs.map (·.1)).Nodup → (∀ d ∈ dirs, Distinct d.2) → Distinct (.dir fs dirs)

theorem files_ne_nil (n : Node) (p : List Str) (h : p ∈ files n) : p ≠ [] := by
  rw [mem_files] at h
  cases h <;> simp

theorem files_nodup (n : Node) (h : Distinct n) : (files n).Nodup := by
  induction h with
  | @dir fs dirs hf hd hs ih =>
    simp only [files]
    refine List.nodup_append.2 ⟨?_, ?_, ?_⟩
    · rw [List.Nodup, List.pairwise_map]
      exact hf.imp (fun h e => h (by injection e))
    · clear hs
      induction dirs with
      | nil => simp [filesDirs]
      | cons d ds ihd =>
        simp only [filesDirs]
        rw [List.map_cons, List.nodup_cons] at hd
        refine List.nodup_append.2 ⟨?_, ihd hd.2 (fun e he => ih e (by simp [he])), ?_⟩
        · rw [List.Nodup, List.pairwise_map]
          exact (ih d (by simp)).imp (fun h e => h (by injection e))
        · intro a ha b hb e
          subst e
          obtain ⟨q, _, rfl⟩ := List.mem_map.1 ha
          obtain ⟨d', hd', q', _, e⟩ := (mem_filesDirs ds _).1 hb
          injection e with e1 _
          exact hd.1 (e1 ▸ List.mem_map_of_mem hd')
    · intro a ha b hb e
      subst e
      obtain ⟨f, _, rfl⟩ := List.mem_map.1 ha
      obtain ⟨d', _, q', hq, e⟩ := (mem_filesDirs dirs _).1 hb
      injection e with _ e
      exact files_ne_nil _ _ hq e.symm

/-- **C181.** No file is imported twice for one search path. -/
theorem C181_once (paths : List Entry) (h : ∀ n, .dir n ∈ paths → Distinct n) : (found paths).Nodup := by
  unfold found
  have key : ∀ (l : List Entry) (k : Nat), (∀ n, .dir n ∈ l → Distinct n) →
      ((l.zipIdx k).map (fun x => ((filesOf x.1).filter isPy).map (fun f => (x.2, f)))).flatten.Nodup ∧
      ∀ y ∈ ((l.zipIdx k).map (fun x => ((filesOf x.1).filter isPy).map (fun f => (x.2, f)))).flatten, k ≤ y.1 := by
    intro l
    induction l with
    | nil => intro k _; simp
    | cons e l ih =>
      intro k hl
      obtain ⟨h1, h2⟩ := ih (k + 1) (fun n hn => hl n (by simp [hn]))
      simp only [List.zipIdx_cons, List.map_cons, List.flatten_cons]
      constructor
      · refine List.nodup_append.2 ⟨?_, h1, ?_⟩
        · rw [List.Nodup, List.pairwise_map]
          have : (filesOf e).Nodup := by
            cases e with
            | dir n => exact files_nodup n (hl n (by simp))
            | missing => exact List.Pairwise.nil
            | file => exact List.Pairwise.nil
          exact (this.filter _).imp (fun h e => h (by injection e))
        · intro a ha b hb e'
          subst e'
          have := h2 a hb
          obtain ⟨f, _, rfl⟩ := List.mem_map.1 ha
          simp only at this
          omega
      · intro y hy
        rcases List.mem_append.1 hy with hy | hy
        · obtain ⟨f, _, rfl⟩ := List.mem_map.1 hy; exact Nat.le_refl _
        · have := h2 y hy; omega
  exact (key paths 0 h).1

example : Distinct demoTree := by
  refine .dir (by decide +kernel) (by decide +kernel) ?_
  intro d hd
  simp only [List.mem_cons, List.not_mem_nil, or_false] at hd
  rcases hd with rfl | rfl
  · exact .dir (by decide +kernel) (by decide +kernel) (by simp)
  · exact .dir (by decide +kernel) (by decide +kernel) (by simp)

/-! ### What is installed -/

/-- The script only installs plugins. -/
def InstallsOnly (ops : List Op) : Prop := ∀ op ∈ ops, ∃ o a l i x d, op = .install o a l i x d

theorem install_ok {w : World} {ps : Objs} {o : Nat} {a l i x d : Bool} {s s' : St} (h : Plug.install w ps o a l i x d s = (.ok, s')) :
    s'.installed = dictSet (ps o).name (o, i) s.installed := by
  unfold Plug.install at h
  split at h
  · cases h
  split at h
  · cases h
  simp only at h
  generalize hs1 : ({ s with
      installed := dictSet (ps o).name (o, i) s.installed
      cmdline := dictSet (Plug.norm (ps o).name) (ps o).name s.cmdline } : St) = s1 at h
  have e1 : s1.installed = dictSet (ps o).name (o, i) s.installed := by rw [← hs1]
  have h2 : ∀ R : Res × St, R.2.installed = s1.installed ∨ R.1 ≠ .ok → (match R with
      | (.ok, s) => if l then Plug.activateLater ps (.name (ps o).name) s else (.ok, s)
      | x => x) = (.ok, s') → s'.installed = s1.installed := by
    rintro ⟨r, s2⟩ hR h
    cases r <;> simp only [reduceCtorEq, Prod.mk.injEq, false_and] at h
    replace hR := hR.resolve_right (by simp)
    cases l
    · simp only [Bool.false_eq_true, if_false, Prod.mk.injEq, true_and] at h
      rw [← h]; exact hR
    · simp only [if_true] at h
      have := (PConf.later_installed ps (.name (ps o).name) s2).1
      rw [h] at this
      exact this.trans hR
  rw [← e1]
  refine h2 _ ?_ h
  cases a with
  | false => exact .inl rfl
  | true =>
    rw [if_pos rfl]
    have := PConf.act_installed w ps (.name (ps o).name) x s1
    rcases hh : Plug.activate w ps (.name (ps o).name) x s1 with ⟨r, s2⟩
    rw [hh] at this
    cases r <;> try exact .inl this
    dsimp only
    rcases Plug.uninstall ps (.obj o) d s2 with ⟨r, s3⟩
    cases r <;> exact .inr (by simp)

theorem runOps_ok {w : World} {ps : Objs} (ops : List Op) (ho : InstallsOnly ops) {s s' : St} (h : runOps w ps ops s = (.ok, s')) (n : Str) :
    (∀ x y o a l i r d, ops = x ++ .install o a l i r d :: y → (ps o).name = n →
      (∀ o' a l i r d, .install o' a l i r d ∈ y → (ps o').name ≠ n) → dictGet n s'.installed = some (o, i)) ∧
    ((∀ o a l i r d, .install o a l i r d ∈ ops → (ps o).name ≠ n) → dictGet n s'.installed = dictGet n s.installed) := by
  induction ops generalizing s with
  | nil =>
    cases h
    exact ⟨fun x y o a l i r d e => by simp at e, fun _ => rfl⟩
  | cons op ops ih =>
    obtain ⟨o, a, l, i, r, d, rfl⟩ := ho op (by simp)
    simp only [runOps, Op.run] at h
    rcases hh : Plug.install w ps o a l i r d s with ⟨res, s1⟩
    rw [hh] at h
    cases res <;> simp only [reduceCtorEq, Prod.mk.injEq, false_and] at h
    have e1 := install_ok hh
    obtain ⟨h1, h2⟩ := ih (fun op hop => ho op (by simp [hop])) h
    constructor
    · intro x y o' a' l' i' r' d' e hn hy
      cases x with
      | nil =>
        simp only [List.nil_append, List.cons.injEq, Op.install.injEq] at e
        obtain ⟨⟨rfl, rfl, rfl, rfl, rfl, rfl⟩, rfl⟩ := e
        rw [h2 hy, e1, dictGet_set, if_pos hn.symm]
      | cons z x =>
        injection e with _ e
        exact h1 x y o' a' l' i' r' d' e hn hy
    · intro hn
      rw [h2 (fun o a l i r d hm => hn o a l i r d (by simp [hm])), e1, dictGet_set, if_neg]
      exact fun e => hn o a l i r d (by simp) e.symm

/-- The function `install_plugins` of this file installs this plugin. -/
def Installs (env : Env) (f : Nat × List Str) (o : Nat) (i : Bool) : Prop :=
  ∃ ops a l r d, (env.mod f.1 f.2).install = some ops ∧ .install o a l i r d ∈ ops

/-- All functions `install_plugins` only install plugins. -/
def Tidy (env : Env) : Prop := ∀ i f ops, (env.mod i f).install = some ops → InstallsOnly ops

theorem visit_ok {env : Env} (ht : Tidy env) {f : Nat × List Str} {s s' : St} (h : visit env f s = (.ok, s')) (n : Str) :
    (∀ o i, (∃ x y a l r d, (env.mod f.1 f.2).install = some (x ++ .install o a l i r d :: y) ∧
        ∀ o' a l i r d, .install o' a l i r d ∈ y → (env.ps o').name ≠ n) → (env.ps o).name = n → dictGet n s'.installed = some (o, i)) ∧
    ((∀ o i, Installs env f o i → (env.ps o).name ≠ n) → dictGet n s'.installed = dictGet n s.installed) := by
  unfold visit at h
  split at h
  · cases hm : (env.mod f.1 f.2).install with
    | none =>
      rw [hm] at h
      cases h
      exact ⟨(by rintro o i ⟨x, y, a, l, r, d, e, _⟩; cases e), fun _ => rfl⟩
    | some ops =>
      rw [hm] at h
      obtain ⟨h1, h2⟩ := runOps_ok ops (ht _ _ _ hm) h n
      constructor
      · rintro o i ⟨x, y, a, l, r, d, e, hy⟩ hn
        injection e with e
        exact h1 x y o a l i r d e hn hy
      · intro hn
        exact h2 (fun o a l i r d hmem => hn o i ⟨ops, a, l, r, d, hm, hmem⟩)
  · cases h

theorem visitAll_ok {env : Env} (ht : Tidy env) (fs : List (Nat × List Str)) {s s' : St} (h : visitAll env fs s = (.ok, s')) (n : Str) :
    (∀ g f k o i, fs = g ++ f :: k → (∃ x y a l r d, (env.mod f.1 f.2).install = some (x ++ .install o a l i r d :: y) ∧
        ∀ o' a l i r d, .install o' a l i r d ∈ y → (env.ps o').name ≠ n) → (env.ps o).name = n →
        (∀ f' ∈ k, ∀ o' i', Installs env f' o' i' → (env.ps o').name ≠ n) → dictGet n s'.installed = some (o, i)) ∧
    ((∀ f ∈ fs, ∀ o i, Installs env f o i → (env.ps o).name ≠ n) → dictGet n s'.installed = dictGet n s.installed) := by
  induction fs generalizing s with
  | nil =>
    cases h
    exact ⟨fun g f k o i e => by simp at e, fun _ => rfl⟩
  | cons f fs ih =>
    simp only [visitAll] at h
    rcases hv : visit env f s with ⟨out, s1⟩
    rw [hv] at h
    cases out <;> simp only [reduceCtorEq, Prod.mk.injEq, false_and] at h
    obtain ⟨v1, v2⟩ := visit_ok ht hv n
    obtain ⟨h1, h2⟩ := ih h
    constructor
    · intro g f' k o i e hm hn hk
      cases g with
      | nil =>
        injection e with e1 e2
        subst e1 e2
        rw [h2 hk]
        exact v1 o i hm hn
      | cons z g =>
        injection e with _ e
        exact h1 g f' k o i e hm hn hk
    · intro hn
      rw [h2 (fun f hf => hn f (by simp [hf])), v2 (hn f (by simp))]

/-- **C181.** If searching ends without an exception, each plugin that a file installs is installed - unless a plugin of the same name is
installed after it, by the same file or by a file found later -, and names that no file installs are as before. This is about calls of
`discover`; that nothing calls it is shown below. -/
theorem C181_installed_partial (env : Env) (ht : Tidy env) (s s' : St) (h : discover env s = (.ok, s')) :
    (∀ g f k x y o a l i r d, found env.paths = g ++ f :: k → (env.mod f.1 f.2).install = some (x ++ .install o a l i r d :: y) →
      (∀ o' a l i r d, .install o' a l i r d ∈ y → (env.ps o').name ≠ (env.ps o).name) →
      (∀ f' ∈ k, ∀ o' i', Installs env f' o' i' → (env.ps o').name ≠ (env.ps o).name) →
      dictGet (env.ps o).name s'.installed = some (o, i)) ∧
    ∀ n, (∀ f ∈ found env.paths, ∀ o i, Installs env f o i → (env.ps o).name ≠ n) → dictGet n s'.installed = dictGet n s.installed :=
  ⟨fun g f k x y o a l i r d e hm hy hk => (visitAll_ok ht _ h _).1 g f k o i e ⟨x, y, a, l, r, d, hm, hy⟩ rfl hk,
   fun n hn => (visitAll_ok ht _ h n).2 hn⟩

/-- Plugins for the examples: number 0 is called `a`, 1 is called `b`, all others `c`. -/
def demoObjs : Objs := fun o => { name := if o = 0 then ['a'] else if o = 1 then ['b'] else ['c'], methods := [{ name := ['h'] }] }

/-- Files for the examples. -/
def demoMod (m : List Str) : Module :=
  if m = ["a.py".toList] then { install := some [.install 0 false false false false false, .install 1 true false false false false] }
  else if m = ["sub".toList, "b.py".toList] then {}
  else { install := some [.install 2 false false false false false] }

/-- The surroundings of the examples. -/
def demoEnv : Env := { w := Plug.exWorld, ps := demoObjs, paths := [.dir demoTree], mod := fun _ => demoMod }

example : (discover demoEnv {}).1 = .ok ∧ (discover demoEnv {}).2.installed = [(['a'], 0, false), (['b'], 1, false), (['c'], 2, false)] ∧
    (discover demoEnv {}).2.active = [['b']] := by decide +kernel

/-- **C181.** If importing a file fails or its function raises, the search ends there with this exception: what the files before installed
stays, the files after it are not imported. -/
theorem C181_stops (env : Env) (s : St) (h : (discover env s).1 ≠ .ok) :
    ∃ g f k s1, found env.paths = g ++ f :: k ∧ visitAll env g s = (.ok, s1) ∧ discover env s = visit env f s1 ∧
      ((discover env s).1 = .importError f.1 f.2 ∧ (env.mod f.1 f.2).imports = false ∧ (discover env s).2 = s1 ∨
       ∃ ops r, (env.mod f.1 f.2).install = some ops ∧ runOps env.w env.ps ops s1 = discover env s ∧ (discover env s).1 = .raised r) := by
  have key : ∀ (fs : List (Nat × List Str)) (s : St), (visitAll env fs s).1 ≠ .ok →
      ∃ g f k s1, fs = g ++ f :: k ∧ visitAll env g s = (.ok, s1) ∧ visitAll env fs s = visit env f s1 := by
    intro fs
    induction fs with
    | nil => intro s h; exact absurd rfl h
    | cons f fs ih =>
      intro s h
      simp only [visitAll] at h
      rcases hv : visit env f s with ⟨out, s1⟩
      rw [hv] at h
      cases out with
      | ok =>
        obtain ⟨g, f', k, s2, e, h1, h2⟩ := ih s1 h
        refine ⟨f :: g, f', k, s2, by rw [e]; rfl, ?_, ?_⟩
        · simp only [visitAll, hv]; exact h1
        · simp only [visitAll, hv]; exact h2
      | importError p q => exact ⟨[], f, fs, s, rfl, rfl, by simp only [visitAll, hv]⟩
      | raised r => exact ⟨[], f, fs, s, rfl, rfl, by simp only [visitAll, hv]⟩
  obtain ⟨g, f, k, s1, e, h1, h2⟩ := key (found env.paths) s h
  refine ⟨g, f, k, s1, e, h1, h2, ?_⟩
  have h2' : discover env s = visit env f s1 := h2
  rw [h2'] at h ⊢
  by_cases hi : (env.mod f.1 f.2).imports = true
  · cases hm : (env.mod f.1 f.2).install with
    | none => exfalso; apply h; unfold visit; rw [if_pos hi, hm]
    | some ops =>
      have hv : visit env f s1 = runOps env.w env.ps ops s1 := by unfold visit; rw [if_pos hi, hm]
      right
      rw [hv] at h ⊢
      have kind : ∀ (ops : List Op) (s : St), (runOps env.w env.ps ops s).1 = .ok ∨ ∃ r, (runOps env.w env.ps ops s).1 = .raised r := by
        intro ops
        induction ops with
        | nil => intro s; exact .inl rfl
        | cons op ops ih =>
          intro s
          simp only [runOps]
          rcases op.run env.w env.ps s with ⟨r, s2⟩
          cases r <;> first | exact ih s2 | exact .inr ⟨_, rfl⟩
      obtain ⟨r, hr⟩ := (kind ops s1).resolve_left h
      exact ⟨ops, r, rfl, rfl, hr⟩
  · left
    have hv : visit env f s1 = (.importError f.1 f.2, s1) := by unfold visit; rw [if_neg hi]
    rw [hv]
    exact ⟨rfl, by simpa using hi, rfl⟩

example : let env := { demoEnv with mod := fun _ m => if m = ["sub".toList, "b.py".toList] then { imports := false } else demoMod m }
    (discover env {}).1 = .importError 0 ["sub".toList, "b.py".toList] ∧
    (discover env {}).2.installed = [(['a'], 0, false), (['b'], 1, false)] := by decide +kernel

/-- **C181 is violated:** nothing in slash calls `discover`. Unless a customization file does so itself, what is in the search paths has no
effect at all: whatever the application does until a session begins, it does the same without them. -/
theorem C181_never_called_violated (env : Env) (paths : List Entry) (l : List Step) (hl : .discover ∉ l) (s : St) :
    start env l s = start { env with paths := paths } l s := by
  induction l generalizing s with
  | nil => rfl
  | cons x l ih =>
    cases x with
    | discover => exact absurd (List.mem_cons_self ..) hl
    | op o =>
      simp only [start]
      rcases o.run env.w env.ps s with ⟨r, s1⟩
      cases r <;> first | exact ih (fun h => hl (by simp [h])) s1 | rfl

example : (start demoEnv [.op (.activatePending (fun _ => false) (fun _ => false) [] [])] {}).2.installed = [] ∧
    (start demoEnv [.discover, .op (.activatePending (fun _ => false) (fun _ => false) [] [])] {}).2.installed.map (·.1) = [['a'], ['b'], ['c']] := by
  decide +kernel

/-- **C181.** The first step that raises, a search or something else, ends the start of the application; plugins installed before stay. -/
theorem C181_start_stops (env : Env) (l m : List Step) (s s1 : St) (h : start env l s = (.ok, s1)) :
    (∀ o, (o.run env.w env.ps s1).1 ≠ .ok →
      start env (l ++ .op o :: m) s = (.raised (o.run env.w env.ps s1).1, (o.run env.w env.ps s1).2)) ∧
    ((discover env s1).1 ≠ .ok → start env (l ++ .discover :: m) s = discover env s1) := by
  have key : ∀ m, start env (l ++ m) s = start env m s1 := by
    intro m
    induction l generalizing s with
    | nil => cases h; rfl
    | cons y l ih =>
      cases y with
      | op o =>
        simp only [List.cons_append, start] at h ⊢
        rcases ho : o.run env.w env.ps s with ⟨r, s2⟩
        rw [ho] at h
        cases r <;> first | exact ih s2 h | cases h
      | discover =>
        simp only [List.cons_append, start] at h ⊢
        rcases ho : discover env s with ⟨r, s2⟩
        rw [ho] at h
        cases r <;> first | exact ih s2 h | cases h
  constructor
  · intro o hx
    rw [key, start]
    rcases ho : o.run env.w env.ps s1 with ⟨r, s2⟩
    rw [ho] at hx
    cases r <;> first | exact absurd rfl hx | rfl
  · intro hx
    rw [key, start]
    rcases ho : discover env s1 with ⟨r, s2⟩
    rw [ho] at hx
    cases r <;> first | exact absurd rfl hx | rfl

example : (start demoEnv [.op (.activate (.name ['x']) false), .discover] {}).1 = .raised .unknownPlugin ∧
    (start demoEnv [.op (.activate (.name ['x']) false), .discover] {}).2.installed = [] := by decide +kernel

/-- **C181 is violated** by search paths that are files: they are not imported. -/
theorem C181_file_violated (env : Env) (h : ∀ e ∈ env.paths, e = .file) (s : St) : discover env s = (.ok, s) := by
  have : found env.paths = [] := by
    apply List.eq_nil_iff_forall_not_mem.2
    rintro ⟨i, f⟩ hf
    obtain ⟨⟨n, hn, _⟩, _⟩ := (C181_found env.paths i f).1 hf
    cases h _ (List.mem_of_getElem? hn)
  unfold discover
  rw [this]; rfl

/-- **C181 is violated** by search paths one of which is within the other: files below both are asked twice for their plugins, so that the
hooks of an active plugin are registered twice, the first time for an object that is not installed any more. -/
theorem C181_overlap_violated :
    let sub : Node := .dir ["p.py".toList] []
    let env : Env := { demoEnv with
      paths := [.dir (.dir [] [("sub".toList, sub)]), .dir sub]
      mod := fun i _ => { install := some [.install (2 + i) true false false false false] } }
    (discover env {}).2.installed = [(['c'], 3, false)] ∧
    (discover env {}).2.regs.map (·.cb) = [.method 2 ['h'], .method 3 ['h']] := by decide +kernel

end Slash.Discover
