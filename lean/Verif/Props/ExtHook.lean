import Verif.Model.ExtHook
/-! # C139: imports from `slash.ext` -/
namespace Slash.Ext

theorem get_pop (n k : Str) (m : Mods) : get n (pop k m) = if n = k then none else get n m := by
  unfold get pop
  rw [List.find?_filter]
  by_cases h : n = k
  · subst h
    rw [if_pos rfl]
    have : (m.find? fun x => decide ((x.1 != n) = true ∧ (x.1 == n) = true)) = none := by
      rw [List.find?_eq_none]
      intro x _ hx
      have hx' := of_decide_eq_true hx
      simp only [bne_iff_ne, beq_iff_eq] at hx'
      exact hx'.1 hx'.2
    rw [this]; rfl
  · rw [if_neg h]
    congr 1
    congr 1
    funext x
    by_cases hx : x.1 = n
    · have : x.1 ≠ k := fun e => h (hx.symm.trans e)
      simp [hx, h]
    · simp [hx]

theorem get_set (n k : Str) (v : Nat) (m : Mods) : get n (set k v m) = if n = k then some v else get n m := by
  have hp := get_pop n k m
  unfold set
  unfold get at hp ⊢
  by_cases h : n = k
  · subst h; simp
  · rw [if_neg h] at hp ⊢
    rw [List.find?_cons_of_neg (by simpa using Ne.symm h)]
    exact hp

/-- The choices that are tried in vain: each raises an `ImportError` that does not come from the module itself. -/
inductive Missing (imp : Str → Mods → Imp × Mods) (fullname modname : Str) : List (Str → Str) → Mods → Mods → Prop
  | nil (m : Mods) : Missing imp fullname modname [] m m
  | cons {path : Str → Str} {choices : List (Str → Str)} {m m' m'' : Mods} {frames : List Frame} :
      imp (path modname) m = (.importError frames, m') → (∀ f ∈ frames, importantFrame (path modname) f = false) →
      Missing imp fullname modname choices (pop fullname m') m'' → Missing imp fullname modname (path :: choices) m m''

theorem important_false (real : Str) (frames : List Frame) : important real frames = false ↔ ∀ f ∈ frames, importantFrame real f = false := by
  unfold important
  rw [List.any_eq_false]
  simp

/-- how the loop ends, with all that has happened -/
theorem loop_spec (imp : Str → Mods → Imp × Mods) (fullname modname : Str) (choices : List (Str → Str)) : ∀ (s : St),
    let r := loadLoop imp fullname modname choices s
    (r.1 = .noModule ∧ Missing imp fullname modname choices s.mods r.2.mods ∧ r.2.attrs = s.attrs ∧ r.2.imports = s.imports ++ choices.map (· modname)) ∨
    ∃ pre path post m0 m1, choices = pre ++ path :: post ∧ Missing imp fullname modname pre s.mods m0 ∧ r.2.imports = s.imports ++ pre.map (· modname) ++ [path modname] ∧
      ((∃ frames, imp (path modname) m0 = (.importError frames, m1) ∧ important (path modname) frames = true ∧ r.1 = .reraised frames ∧ r.2.mods = pop fullname m1 ∧ r.2.attrs = s.attrs) ∨
       (imp (path modname) m0 = (.other, m1) ∧ r.1 = .other ∧ r.2.mods = m1 ∧ r.2.attrs = s.attrs) ∨
       (imp (path modname) m0 = (.ok, m1) ∧ get (path modname) m1 = none ∧ r.1 = .lookupError ∧ r.2.mods = m1 ∧ r.2.attrs = s.attrs) ∨
       (∃ m, imp (path modname) m0 = (.ok, m1) ∧ get (path modname) m1 = some m ∧ r.1 = .module m ∧ r.2.mods = set fullname m m1 ∧
          r.2.attrs = if modname.contains '.' then s.attrs else set modname m s.attrs)) := by
  induction choices with
  | nil => intro s; exact Or.inl ⟨rfl, .nil _, rfl, by simp [loadLoop]⟩
  | cons path choices ih =>
    intro s
    simp only [loadLoop]
    cases hi : imp (path modname) s.mods with
    | mk r m' =>
      cases r with
      | ok =>
        simp only
        refine Or.inr ⟨[], path, choices, s.mods, m', rfl, .nil _, ?_, ?_⟩
        · cases get (path modname) m' with
          | none => simp
          | some m => simp only; split <;> simp
        · cases hg : get (path modname) m' with
          | none => exact Or.inr (Or.inr (Or.inl ⟨hi, rfl, rfl, rfl, rfl⟩))
          | some m =>
            refine Or.inr (Or.inr (Or.inr ⟨m, hi, rfl, rfl, ?_, ?_⟩))
            · simp only; split <;> rfl
            · simp only; split <;> rfl
      | other => exact Or.inr ⟨[], path, choices, s.mods, m', rfl, .nil _, by simp, Or.inr (Or.inl ⟨hi, rfl, rfl, rfl⟩)⟩
      | importError frames =>
        simp only
        cases him : important (path modname) frames with
        | true =>
          simp only [if_true]
          exact Or.inr ⟨[], path, choices, s.mods, m', rfl, .nil _, by simp, Or.inl ⟨frames, hi, him, by simp⟩⟩
        | false =>
          simp only [Bool.false_eq_true, if_false]
          have := ih { s with mods := pop fullname m', imports := s.imports ++ [path modname] }
          simp only at this
          rcases this with ⟨h1, h2, h3, h4⟩ | ⟨pre, p, post, m0, m1, h1, h2, h3, h4⟩
          · refine Or.inl ⟨h1, .cons hi ((important_false _ _).1 him) h2, h3, ?_⟩
            rw [h4]; simp
          · refine Or.inr ⟨path :: pre, p, post, m0, m1, by rw [h1]; rfl, .cons hi ((important_false _ _).1 him) h2, ?_, h4⟩
            rw [h3]; simp

theorem afterDots_wrapper (w m : Str) : afterDots (w.count '.' + 1) (w ++ '.' :: m) = some m := by
  induction w with
  | nil => simp [afterDots]
  | cons c w ih =>
    by_cases hc : c = '.'
    · subst hc
      simp only [List.cons_append, List.count_cons_self, afterDots, if_true]
      exact ih
    · rw [List.count_cons_of_ne (Ne.symm hc |> fun h => by simpa using hc)]
      simp only [List.cons_append, afterDots, hc, if_false]
      exact ih

/-- The importer is responsible exactly for what is below its package, and all of the rest of the name names the extension. -/
theorem C139_names (wrapper fullname : Str) : finds wrapper fullname = true ↔ ∃ m, fullname = wrapper ++ '.' :: m ∧ afterDots (wrapper.count '.' + 1) fullname = some m := by
  unfold finds
  rw [List.isPrefixOf_iff_prefix]
  constructor
  · rintro ⟨t, rfl⟩
    refine ⟨t, by simp, ?_⟩
    rw [List.append_assoc]
    exact afterDots_wrapper wrapper t
  · rintro ⟨m, rfl, -⟩
    exact ⟨m, by simp⟩

/-- Importing an extension that was not imported before gives the module of the first choice that can be imported, and all earlier ones were not there; it is the same module under
both names, and an attribute of the package. Importing it again gives the same module and runs nothing. -/
theorem C139_first (imp : Str → Mods → Imp × Mods) (wrapper modname : Str) (choices : List (Str → Str)) (s : St)
    (hnew : get (wrapper ++ '.' :: modname) s.mods = none) (m : Nat) (hm : (load imp wrapper choices (wrapper ++ '.' :: modname) s).1 = .module m) :
    let t := (load imp wrapper choices (wrapper ++ '.' :: modname) s).2
    (∃ pre path post m0 m1, choices = pre ++ path :: post ∧ Missing imp (wrapper ++ '.' :: modname) modname pre s.mods m0 ∧ imp (path modname) m0 = (.ok, m1) ∧
      t.imports = s.imports ++ pre.map (· modname) ++ [path modname] ∧
      get (path modname) m1 = some m ∧ get (path modname) t.mods = some m ∧ get (wrapper ++ '.' :: modname) t.mods = some m ∧
      (∀ n, n ≠ wrapper ++ '.' :: modname → get n t.mods = get n m1)) ∧
    ('.' ∉ modname → get modname t.attrs = some m) ∧
    load imp wrapper choices (wrapper ++ '.' :: modname) t = (.module m, t) := by
  intro t
  have hl : load imp wrapper choices (wrapper ++ '.' :: modname) s = loadLoop imp (wrapper ++ '.' :: modname) modname choices s := by
    unfold load
    rw [hnew]
    simp only [afterDots_wrapper]
  have ht : t = (loadLoop imp (wrapper ++ '.' :: modname) modname choices s).2 := by rw [← hl]
  rw [hl] at hm
  have L := loop_spec imp (wrapper ++ '.' :: modname) modname choices s
  simp only at L
  rw [← ht] at L
  rcases L with ⟨h1, -⟩ | ⟨pre, path, post, m0, m1, h1, h2, h3, h4⟩
  · rw [h1] at hm; cases hm
  · rcases h4 with ⟨fr, -, -, h, -⟩ | ⟨-, h, -⟩ | ⟨-, -, h, -⟩ | ⟨m', a, b, c, d, e⟩
    · rw [h] at hm; cases hm
    · rw [h] at hm; cases hm
    · rw [h] at hm; cases hm
    · rw [c] at hm
      cases hm
      have hfull : get (wrapper ++ '.' :: modname) t.mods = some m := by rw [d, get_set, if_pos rfl]
      refine ⟨⟨pre, path, post, m0, m1, h1, h2, a, h3, b, ?_, hfull, ?_⟩, ?_, ?_⟩
      · rw [d, get_set]
        split
        · rfl
        · exact b
      · intro n hn; rw [d, get_set, if_neg hn]
      · intro hd
        have : modname.contains '.' = false := by simpa using hd
        rw [this] at e
        simp only [Bool.false_eq_true, if_false] at e
        rw [e, get_set, if_pos rfl]
      · unfold load
        rw [hfull]

/-- An `ImportError` that comes from the extension is passed on; "no module named" is said exactly if no choice is there. In both cases a later import tries again. -/
theorem C139_failure_partial (imp : Str → Mods → Imp × Mods) (wrapper modname : Str) (choices : List (Str → Str)) (s : St)
    (hnew : get (wrapper ++ '.' :: modname) s.mods = none) :
    let r := load imp wrapper choices (wrapper ++ '.' :: modname) s
    (r.1 = .noModule ↔ ∃ m, Missing imp (wrapper ++ '.' :: modname) modname choices s.mods m) ∧
    (∀ frames, r.1 = .reraised frames → ∃ path ∈ choices, ∃ f ∈ frames, importantFrame (path modname) f = true) ∧
    (r.1 = .noModule ∨ (∃ frames, r.1 = .reraised frames) → get (wrapper ++ '.' :: modname) r.2.mods = none ∧ r.2.attrs = s.attrs) := by
  have hl : load imp wrapper choices (wrapper ++ '.' :: modname) s = loadLoop imp (wrapper ++ '.' :: modname) modname choices s := by
    unfold load
    rw [hnew]
    simp only [afterDots_wrapper]
  rw [hl]
  have L := loop_spec imp (wrapper ++ '.' :: modname) modname choices s
  simp only at L ⊢
  have missing_det : ∀ (cs : List (Str → Str)) (a b : Mods), Missing imp (wrapper ++ '.' :: modname) modname cs a b →
      ∀ pre path post m0, cs = pre ++ path :: post → Missing imp (wrapper ++ '.' :: modname) modname pre a m0 →
      ∃ fr m1, imp (path modname) m0 = (.importError fr, m1) ∧ ∀ f ∈ fr, importantFrame (path modname) f = false := by
    intro cs a b h
    induction h with
    | nil m => intro pre path post m0 he; cases pre <;> cases he
    | cons hi hf _ ih =>
      intro pre path post m0 he hp
      cases hp with
      | nil => cases he; exact ⟨_, _, hi, hf⟩
      | cons hi' hf' hp' =>
        simp only [List.cons_append, List.cons.injEq] at he
        obtain ⟨rfl, he⟩ := he
        rw [hi] at hi'
        cases hi'
        exact ih _ _ _ _ he hp'
  have missing_none : ∀ (cs : List (Str → Str)) (a b : Mods), Missing imp (wrapper ++ '.' :: modname) modname cs a b → get (wrapper ++ '.' :: modname) a = none →
      get (wrapper ++ '.' :: modname) b = none := by
    intro cs a b h
    induction h with
    | nil m => intro h; exact h
    | cons _ _ _ ih => intro _; exact ih (by rw [get_pop, if_pos rfl])
  refine ⟨⟨?_, ?_⟩, ?_, ?_⟩
  · intro h
    rcases L with ⟨-, h2, -⟩ | ⟨pre, path, post, m0, m1, -, -, -, h4⟩
    · exact ⟨_, h2⟩
    · rcases h4 with ⟨fr, -, -, g, -⟩ | ⟨-, g, -⟩ | ⟨-, -, g, -⟩ | ⟨m', -, -, g, -⟩ <;> rw [h] at g <;> cases g
  · rintro ⟨m, hm⟩
    rcases L with ⟨h1, -⟩ | ⟨pre, path, post, m0, m1, h1, h2, -, h4⟩
    · exact h1
    · obtain ⟨fr, m1', e1, e2⟩ := missing_det _ _ _ hm pre path post m0 h1 h2
      rcases h4 with ⟨fr', g, g', -⟩ | ⟨g, -⟩ | ⟨g, -⟩ | ⟨m', g, -⟩
      · rw [e1] at g
        cases g
        rw [(important_false _ _).2 e2] at g'
        cases g'
      all_goals (rw [e1] at g; cases g)
  · intro frames h
    rcases L with ⟨h1, -⟩ | ⟨pre, path, post, m0, m1, h1, -, -, h4⟩
    · rw [h1] at h; cases h
    · rcases h4 with ⟨fr, -, g, g', -⟩ | ⟨-, g, -⟩ | ⟨-, -, g, -⟩ | ⟨m', -, -, g, -⟩
      · rw [h] at g'
        cases g'
        refine ⟨path, by rw [h1]; simp, ?_⟩
        unfold important at g
        exact List.any_eq_true.1 g
      all_goals (rw [h] at g; cases g)
  · intro h
    rcases L with ⟨h1, h2, h3, -⟩ | ⟨pre, path, post, m0, m1, h1, h2, -, h4⟩
    · exact ⟨missing_none _ _ _ h2 hnew, h3⟩
    · rcases h4 with ⟨fr, -, -, g, g', g''⟩ | ⟨-, g, -⟩ | ⟨-, -, g, -⟩ | ⟨m', -, -, g, -⟩
      · exact ⟨by rw [g', get_pop, if_pos rfl], g''⟩
      all_goals
        rw [g] at h
        rcases h with h | ⟨fr, h⟩ <;> cases h

theorem within_iff (t s : Str) : within t s = true ↔ ∃ a b, s = a ++ t ++ b := by
  induction s with
  | nil =>
    simp only [within, List.isEmpty_iff]
    constructor
    · rintro rfl; exact ⟨[], [], rfl⟩
    · rintro ⟨a, b, h⟩
      have := congrArg List.length h
      simp only [List.length_nil, List.length_append] at this
      exact List.length_eq_zero_iff.1 (by omega)
  | cons c s ih =>
    simp only [within, Bool.or_eq_true, ih, List.isPrefixOf_iff_prefix]
    constructor
    · rintro (⟨b, h⟩ | ⟨a, b, h⟩)
      · exact ⟨[], b, h.symm⟩
      · exact ⟨c :: a, b, by rw [h]; rfl⟩
    · rintro ⟨a, b, h⟩
      cases a with
      | nil => exact Or.inl ⟨b, h.symm⟩
      | cons x a =>
        simp only [List.cons_append, List.cons.injEq] at h
        exact Or.inr ⟨a, b, h.2⟩

/-- The path of a module, with slashes for dots. -/
def modulePath : Str → Str
  | [] => []
  | '.' :: s => '/' :: modulePath s
  | c :: s => c :: modulePath s

theorem modulePath_eq (s : Str) : s.map (fun c => if c = '.' then '/' else c) = modulePath s := by
  induction s with
  | nil => rfl
  | cons c s ih =>
    by_cases hc : c = '.'
    · subst hc; simp only [List.map_cons, if_true, ih, modulePath]
    · rw [modulePath.eq_3 c s (by simpa using hc), List.map_cons, if_neg hc, ih]

/-- A line of code counts as part of the extension exactly if the name of its module is the extension's, or its file is one that a module of this name is in. -/
theorem C139_within (real : Str) (f : Frame) : importantFrame real f = true ↔ ∃ n, f.name = some n ∧
    (n = real ∨ (∃ a b, f.file = a ++ '/' :: modulePath real ++ ".py".toList ++ b) ∨ (∃ a b, f.file = a ++ '/' :: modulePath real ++ "/__init__.py".toList ++ b)) := by
  unfold importantFrame
  cases hn : f.name with
  | none => simp
  | some n =>
    simp only [Option.some.injEq, exists_eq_left']
    by_cases h : n = real
    · simp [h]
    · have h' : (n == real) = false := by simpa using h
      rw [h']
      simp only [Bool.false_eq_true, if_false, Bool.or_eq_true, within_iff, modulePath_eq, h, false_or, List.append_assoc, List.cons_append]

/-- An `ImportError` is passed on exactly if it comes from within the first candidate that is not simply missing. -/
theorem C139_broken (imp : Str → Mods → Imp × Mods) (wrapper modname : Str) (choices : List (Str → Str)) (s : St) (hnew : get (wrapper ++ '.' :: modname) s.mods = none)
    (pre post : List (Str → Str)) (path : Str → Str) (m0 m1 : Mods) (frames : List Frame) (hc : choices = pre ++ path :: post)
    (hpre : Missing imp (wrapper ++ '.' :: modname) modname pre s.mods m0) (hi : imp (path modname) m0 = (.importError frames, m1)) (f : Frame) (hf : f ∈ frames)
    (hin : importantFrame (path modname) f = true) : (load imp wrapper choices (wrapper ++ '.' :: modname) s).1 = .reraised frames := by
  have hl : load imp wrapper choices (wrapper ++ '.' :: modname) s = loadLoop imp (wrapper ++ '.' :: modname) modname choices s := by
    unfold load
    rw [hnew]
    simp only [afterDots_wrapper]
  rw [hl, hc]
  clear hl hc hnew
  generalize hm : s.mods = m at hpre
  induction hpre generalizing s with
  | nil m =>
    subst hm
    simp only [List.nil_append, loadLoop, hi]
    have : important (path modname) frames = true := by
      unfold important
      exact List.any_eq_true.2 ⟨f, hf, hin⟩
    rw [this]
    rfl
  | cons hi' hf' _ ih =>
    subst hm
    simp only [List.cons_append, loadLoop, hi', (important_false _ _).2 hf', Bool.false_eq_true, if_false]
    exact ih _ hi rfl

/-- The importer is there once, after installing it any number of times. -/
theorem C139_install {α : Type} (same : α → Bool) (self : α) (path : List α) (hself : same self = true) :
    (install same self path).filter same = [self] ∧ (install same self path).filter (fun x => !same x) = path.filter (fun x => !same x) ∧
    install same self (install same self path) = install same self path := by
  have h1 : (install same self path).filter (fun x => !same x) = path.filter (fun x => !same x) := by
    unfold install
    rw [List.filter_append, List.filter_filter]
    simp [hself]
  refine ⟨?_, h1, ?_⟩
  · unfold install
    rw [List.filter_append, List.filter_filter]
    have : path.filter (fun x => same x && !same x) = [] := by
      rw [List.filter_eq_nil_iff]
      intro x _
      cases same x <;> simp
    rw [this]
    simp [hself]
  · exact congrArg (· ++ [self]) h1

/-- `slash_%s`, for examples -/
def slashName : Str → Str := fun n => "slash_".toList ++ n

/-- An extension that imports itself by the name below `slash.ext`, and then fails with an exception that is no `ImportError`, for examples. -/
def exBroken : Str → Mods → Imp × Mods := fun n m => if n = "slash_a".toList then (.other, set "slash.ext.a".toList 7 m) else (.importError [], m)

/-- The full claim is false: if an extension fails with another exception after it was imported by that name, a second import succeeds with the module that failed. -/
theorem C139_failure_violated :
    let r := load exBroken "slash.ext".toList [slashName] "slash.ext.a".toList {}
    r.1 = .other ∧ (load exBroken "slash.ext".toList [slashName] "slash.ext.a".toList r.2).1 = .module 7 := by decide +kernel

/-- Extensions for examples: `a` is there, `b` fails in a line of its own, others are not there. -/
def exImport : Str → Mods → Imp × Mods := fun n m =>
  if n = "slash_a".toList then (.ok, set n 1 m)
  else if n = "slash_b".toList then (.importError [⟨some n, "/x/slash_b.py".toList⟩], m)
  else (.importError [⟨some "importlib".toList, "/lib/importlib.py".toList⟩], m)

example : (load exImport "slash.ext".toList [fun n => "x_".toList ++ n, slashName] "slash.ext.a".toList {}).1 = .module 1 ∧
    (load exImport "slash.ext".toList [fun n => "x_".toList ++ n, slashName] "slash.ext.a".toList {}).2.imports = ["x_a".toList, "slash_a".toList] ∧
    (load exImport "slash.ext".toList [slashName] "slash.ext.b".toList {}).1 = .reraised [⟨some "slash_b".toList, "/x/slash_b.py".toList⟩] ∧
    (load exImport "slash.ext".toList [slashName] "slash.ext.c".toList {}).1 = .noModule := by decide +kernel

end Slash.Ext
