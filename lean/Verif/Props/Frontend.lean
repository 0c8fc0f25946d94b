import Verif.Model.Frontend
/-! C130 (debugger), C131 (customization files), C132 (`slash list-config`), C133 (functions defined twice), C134 (links to logs). -/
namespace Slash.Front

/-! ## C130: the debugger -/

/-- The debugger is launched exactly if it is enabled, there is an exception that is no exit and no interruption, it is no skip (or skips are to be debugged), and all
filters match it; during a session. -/
theorem C130_needed (cfg : DConf) (exc : Option (DKind × String)) : needed cfg true exc = true ↔
    cfg.enabled = true ∧ ∃ k r, exc = some (k, r) ∧ k ≠ .exit ∧ k ≠ .interruption ∧ (k = .skip → cfg.skips = true) ∧ ∀ f ∈ cfg.filters, f r = true := by
  unfold needed
  cases hen : cfg.enabled with
  | false => simp
  | true =>
    rcases exc with _ | ⟨k, r⟩
    · simp
    · have hf : (!cfg.filters.isEmpty && !cfg.filters.all (fun f => f r)) = true ↔ ¬ ∀ f ∈ cfg.filters, f r = true := by
        cases h : cfg.filters with
        | nil => simp
        | cons a l => simp only [List.isEmpty_cons, Bool.not_false, Bool.true_and, Bool.not_eq_true', List.all_eq_false, Bool.not_eq_true, Classical.not_forall, exists_prop]
      simp only [Bool.not_true, Bool.false_eq_true, if_false, true_and, Option.some.injEq, Prod.mk.injEq]
      constructor
      · intro h
        refine ⟨k, r, ⟨rfl, rfl⟩, ?_⟩
        by_cases h1 : (true && k == .skip && !cfg.skips) = true
        · rw [if_pos h1] at h; cases h
        · rw [if_neg h1] at h
          by_cases h2 : (k == .exit || k == .interruption) = true
          · rw [if_pos h2] at h; cases h
          · rw [if_neg h2] at h
            by_cases h3 : (!cfg.filters.isEmpty && !cfg.filters.all (fun f => f r)) = true
            · rw [if_pos h3] at h; cases h
            · refine ⟨?_, ?_, ?_, Classical.byContradiction (fun g => h3 (hf.2 g))⟩
              · rintro rfl; simp at h2
              · rintro rfl; simp at h2
              · rintro rfl; simpa using h1
      · rintro ⟨k', r', ⟨rfl, rfl⟩, h1, h2, h3, h4⟩
        rw [if_neg (by cases k <;> simp_all), if_neg (by cases k <;> simp_all), if_neg (fun g => (hf.1 g) h4)]

/-- Without a session a skip is debugged although skips are not to be. -/
theorem C130_needed_violated : ∃ cfg : DConf, cfg.skips = false ∧ needed cfg false (some (.skip, "SkipTest()")) = true := ⟨{ enabled := true }, rfl, rfl⟩

example : needed { enabled := true, filters := [fun r => r == "E()"] } true (some (.other, "E()")) = true ∧
    needed { enabled := true, filters := [fun r => r == "E()", fun _ => false] } true (some (.other, "E()")) = false ∧
    needed { enabled := true } true (some (.skip, "SkipTest()")) = false ∧ needed { enabled := true, skips := true } true (some (.skip, "SkipTest()")) = true := by decide

theorem tryAll_first (ds : List Dbg) (h : ∀ d ∈ ds, d.ends ≠ .notImplemented) :
    tryAll ds = match ds.find? (fun d => d.ends != .missing) with
      | none => ([], .notImplemented)
      | some d => ([d.name], if d.ends = .used then .ok else .raised) := by
  induction ds with
  | nil => rfl
  | cons d ds ih =>
    have ih := ih (fun x hx => h x (by simp [hx]))
    have hd := h d (by simp)
    unfold tryAll
    cases he : d.ends with
    | missing => rw [List.find?_cons_of_neg (by simp [he])]; exact ih
    | used => rw [List.find?_cons_of_pos (by simp [he])]; simp [he]
    | raised => rw [List.find?_cons_of_pos (by simp [he])]; simp [he]
    | notImplemented => exact absurd he hd

/-- Exactly one debugger is used: the preferred one if it is installed, else the first one that is, in the order of the known ones; provided that no debugger raises
`NotImplementedError` itself. The names of the known debuggers are different. -/
theorem C130_one_partial (cfg : DConf) (ds : List Dbg) (h : ∀ d ∈ ds, d.ends ≠ .notImplemented) :
    (∀ n d, cfg.debugger = some n → ds.find? (fun d => d.name == n) = some d → d.ends ≠ .missing → (launch cfg ds).1 = [n]) ∧
    ((∀ n d, cfg.debugger = some n → d ∈ ds → d.name = n → d.ends = .missing) →
      (launch cfg ds).1 = ((ds.find? (fun d => d.ends != .missing)).map (·.name)).toList) := by
  have hall : ∀ d ∈ (order cfg.debugger ds).1, d.ends ≠ .notImplemented := by
    intro d hd
    unfold order at hd
    split at hd
    · exact h d hd
    · split at hd
      · rename_i d' hf
        rcases List.mem_cons.1 hd with rfl | hd
        · exact h _ (List.mem_of_find?_eq_some hf)
        · exact h d (List.mem_of_mem_eraseP hd)
      · exact h d hd
  constructor
  · intro n d hn hf hm
    unfold launch
    rw [tryAll_first _ hall]
    unfold order
    simp only [hn, hf]
    rw [List.find?_cons_of_pos (by simpa using hm)]
    have := List.find?_some hf
    simpa using this
  · intro hmiss
    unfold launch
    rw [tryAll_first _ hall]
    have hfind : (order cfg.debugger ds).1.find? (fun d => d.ends != .missing) = ds.find? (fun d => d.ends != .missing) := by
      unfold order
      split
      · rfl
      · rename_i n hn
        split
        · rename_i d hf
          have hd := List.mem_of_find?_eq_some hf
          have hdn : d.name = n := by simpa using List.find?_some hf
          have hde := hmiss n d hn hd hdn
          rw [List.find?_cons_of_neg (by simp [hde])]
          have : ∀ l : List Dbg, (∀ x ∈ l, x.name = n → x.ends = .missing) →
              (l.eraseP (fun d => d.name == n)).find? (fun d => d.ends != .missing) = l.find? (fun d => d.ends != .missing) := by
            intro l
            induction l with
            | nil => intro _; rfl
            | cons a l ih =>
              intro hl
              by_cases ha : a.name = n
              · rw [List.eraseP_cons_of_pos (by simpa using ha), List.find?_cons_of_neg (by simp [hl a (by simp) ha])]
              · rw [List.eraseP_cons_of_neg (by simpa using ha), List.find?_cons, List.find?_cons, ih (fun x hx => hl x (by simp [hx]))]
          exact this ds (fun x hx hxn => hmiss n x hn hx hxn)
        · rfl
    rw [hfind]
    cases ds.find? (fun d => d.ends != .missing) <;> rfl

example : (launch { debugger := some "pdb" } [⟨"pudb", .missing⟩, ⟨"ipdb", .used⟩, ⟨"pdb", .used⟩]).1 = ["pdb"] ∧
    (launch { debugger := some "pudb" } [⟨"pudb", .missing⟩, ⟨"ipdb", .used⟩, ⟨"pdb", .used⟩]).1 = ["ipdb"] ∧
    (launch { debugger := some "gdb" } [⟨"pudb", .missing⟩, ⟨"ipdb", .used⟩, ⟨"pdb", .used⟩]).1 = ["ipdb"] := by decide

/-- A warning about the name of the preferred debugger is issued exactly if it is not one of the known ones. -/
theorem C130_unknown (name : Option String) (ds : List Dbg) : (order name ds).2 = true ↔ ∃ n, name = some n ∧ ∀ d ∈ ds, d.name ≠ n := by
  unfold order
  cases name with
  | none => simp
  | some n =>
    cases h : ds.find? (fun d => d.name == n) with
    | some d =>
      have h1 := List.mem_of_find?_eq_some h
      have h2 := List.find?_some h
      simp only [h, Bool.false_eq_true, Option.some.injEq, false_iff, not_exists, not_and]
      rintro m rfl hall
      exact hall d h1 (by simpa using h2)
    | none =>
      simp only [h, Option.some.injEq, true_iff]
      exact ⟨n, rfl, fun d hd => by simpa using List.find?_eq_none.1 h d hd⟩

/-- The full claim is false: `NotImplementedError` raised in a debugger starts the next one. -/
theorem C130_one_violated : (launch {} [⟨"ipdb", .notImplemented⟩, ⟨"pdb", .used⟩]).1 = ["ipdb", "pdb"] := by decide

/-! ## C131: customization files -/

/-- All code in order of loading, `site.py:20-24`. -/
def SiteEnv.codes (e : SiteEnv) : List Code := (e.user.map (·.2)).toList ++ (e.project.map (·.2)).toList ++ e.settings.toList ++ e.entries

/-- The pieces of code (`site.py:20-60`) up to the first that raises. -/
def upToRaising : List Code → List Code
  | [] => []
  | c :: cs => if c.raises then [c] else c :: upToRaising cs

theorem upToRaising_append (a b : List Code) : upToRaising (a ++ b) = if a.any (·.raises) then upToRaising a else a ++ upToRaising b := by
  induction a with
  | nil => rfl
  | cons c a ih =>
    simp only [List.cons_append, upToRaising, List.any_cons, ih]
    by_cases hc : c.raises = true
    · simp [hc]
    · by_cases ha : a.any (·.raises) = true <;> simp [hc, ha]

theorem loadEntries_ran (cs : List Code) (s : SiteSt) (h : s.exc = false) :
    (loadEntries cs s).ran.map (·.1) = s.ran.map (·.1) ++ (upToRaising cs).map (·.id) ∧ (loadEntries cs s).exc = cs.any (·.raises) := by
  induction cs generalizing s with
  | nil => simp [loadEntries, upToRaising, h]
  | cons c cs ih =>
    unfold loadEntries andThen
    cases hc : c.raises with
    | true => simp [exec, hc, upToRaising]
    | false =>
      have := ih (exec c s) (by simp [exec, hc])
      simp only [exec, hc, Bool.false_eq_true, if_false] at this ⊢
      rw [this.1, this.2]
      simp [upToRaising, hc]

theorem loadFile_ran (f : Option (String × Code)) (s : SiteSt) (h : s.exc = false) :
    (loadFile f s).ran.map (·.1) = s.ran.map (·.1) ++ (f.map (·.2)).toList.map (·.id) ∧ (loadFile f s).exc = (f.map (·.2)).toList.any (·.raises) ∧ (loadFile f s).path = s.path := by
  unfold loadFile
  rcases f with _ | ⟨d, c⟩
  · simp [h]
  · simp [exec]

/-- Customizations are run in order — the user's file, the project's, that of `SLASH_SETTINGS`, entry points — each once, up to the first that raises. -/
theorem C131_order (e : SiteEnv) (s : SiteSt) (h : s.exc = false) :
    (loadDefaults e s).ran.map (·.1) = s.ran.map (·.1) ++ (upToRaising e.codes).map (·.id) ∧ (loadDefaults e s).exc = e.codes.any (·.raises) := by
  unfold loadDefaults SiteEnv.codes
  obtain ⟨a1, a2, -⟩ := loadFile_ran e.user s h
  have single : ∀ l : List Code, l.length ≤ 1 → upToRaising l = l := by
    intro l hl
    match l, hl with
    | [], _ => rfl
    | [c], _ => unfold upToRaising; split <;> rfl
  rw [andThen]
  have hlen : ∀ f : Option (String × Code), (f.map (·.2)).toList.length ≤ 1 := by intro f; cases f <;> simp
  simp only [List.append_assoc]
  rw [upToRaising_append, List.any_append]
  rw [← a2, single _ (hlen e.user)]
  cases h1 : (loadFile e.user s).exc with
  | true => simp [a1, h1]
  | false =>
    simp only [Bool.false_eq_true, if_false, Bool.false_or]
    obtain ⟨b1, b2, -⟩ := loadFile_ran e.project (loadFile e.user s) h1
    rw [andThen, upToRaising_append, List.any_append, ← b2, single _ (hlen e.project)]
    cases h2 : (loadFile e.project (loadFile e.user s)).exc with
    | true => simp [a1, b1, h2]
    | false =>
      simp only [Bool.false_eq_true, if_false, Bool.false_or]
      cases hs : e.settings with
      | none =>
        simp only [andThen, h2, Bool.false_eq_true, if_false, Option.toList_none, List.nil_append]
        obtain ⟨c1, c2⟩ := loadEntries_ran e.entries _ h2
        rw [c1, c2, b1, a1]
        simp
      | some c =>
        simp only [Option.toList_some, List.singleton_append, upToRaising, List.any_cons, andThen]
        cases hc : c.raises with
        | true => simp [exec, hc, a1, b1]
        | false =>
          obtain ⟨c1, c2⟩ := loadEntries_ran e.entries (exec c (loadFile e.project (loadFile e.user s))) (by simp [exec, hc])
          have e1 : (exec c (loadFile e.project (loadFile e.user s))).exc = false := by simp [exec, hc]
          simp only [e1, Bool.false_eq_true, if_false]
          rw [c1, c2]
          simp [exec, a1, b1]

example : (loadDefaults { user := some ("/home", { id := 1 }), project := some (".", { id := 2 }), settings := some { id := 3, raises := true }, entries := [{ id := 4 }] } { path := ["/"] }).ran =
    [(1, ["/home", "/"]), (2, [".", "/"]), (3, ["/"])] := by decide

/-- The files of the user and of the project run with their directory first in `sys.path`, and leave `sys.path` as it was, whatever they do to it and even if they raise. -/
theorem C131_path (f : Option (String × Code)) (s : SiteSt) : (loadFile f s).path = s.path ∧
    (loadFile f s).ran = s.ran ++ (f.map (fun x => (x.2.id, x.1 :: s.path))).toList := by
  unfold loadFile
  rcases f with _ | ⟨d, c⟩
  · simp
  · exact ⟨rfl, rfl⟩

/-- So additions to `sys.path` in such a file are lost, while those of `SLASH_SETTINGS` are kept. -/
theorem C131_path_violated :
    (loadDefaults { project := some (".", { id := 1, path := fun p => "/lib" :: p }) } { path := ["/"] }).path = ["/"] ∧
    (loadDefaults { settings := some { id := 1, path := fun p => "/lib" :: p } } { path := ["/"] }).path = ["/lib", "/"] := by decide

/-- The variable `SLASH_USER_SETTINGS` replaces the configured file. -/
theorem C131_user (v c : String) : userFile (some v) (some c) = some v ∧ userFile none (some c) = some c := ⟨rfl, rfl⟩

/-! ## C132: `slash list-config` -/

theorem mem_subpaths (p q : List String) : q ∈ subpaths p ↔ q ≠ [] ∧ q <+: p := by
  unfold subpaths
  simp only [List.mem_map, List.mem_range]
  constructor
  · rintro ⟨i, hi, rfl⟩
    refine ⟨?_, List.take_prefix _ _⟩
    intro h
    have := congrArg List.length h
    rw [List.length_take, List.length_nil] at this
    omega
  · rintro ⟨hne, hp⟩
    have hl := hp.length_le
    have h0 : 0 < q.length := List.length_pos_iff.2 hne
    refine ⟨q.length - 1, by omega, ?_⟩
    rw [show q.length - 1 + 1 = q.length by omega]
    exact (List.prefix_iff_eq_take.1 hp).symm

/-- All values are listed without arguments; with arguments, exactly those whose path begins with the same component as one of them. -/
theorem C132_listed (names paths : List (List String)) (hp : ∀ p ∈ paths, p ≠ []) (n : List String) :
    n ∈ listConfig names paths ↔ n ∈ names ∧ (paths = [] ∨ ∃ p ∈ paths, n.head? = p.head?) := by
  unfold listConfig included parseFilters
  simp only [List.mem_filter, Bool.or_eq_true, List.isEmpty_iff, List.any_eq_true, List.contains_iff_mem, List.mem_flatMap]
  refine and_congr_right (fun _ => ?_)
  constructor
  · rintro (h | ⟨q, hq, p, hpp, hqp⟩)
    · left
      cases paths with
      | nil => rfl
      | cons p ps =>
        simp only [List.flatMap_cons, List.append_eq_nil_iff] at h
        have : p ∈ subpaths p := (mem_subpaths p p).2 ⟨hp p (by simp), List.prefix_rfl⟩
        rw [h.1] at this
        cases this
    · right
      refine ⟨p, hpp, ?_⟩
      rw [mem_subpaths] at hq hqp
      obtain ⟨a, q, rfl⟩ := List.exists_cons_of_ne_nil hq.1
      obtain ⟨t1, rfl⟩ := hq.2
      obtain ⟨t2, rfl⟩ := hqp.2
      rfl
  · rintro (rfl | ⟨p, hpp, hh⟩)
    · left; rfl
    · right
      obtain ⟨a, p', rfl⟩ := List.exists_cons_of_ne_nil (hp p hpp)
      cases n with
      | nil => simp at hh
      | cons b n =>
        simp only [List.head?_cons, Option.some.injEq] at hh
        subst hh
        exact ⟨[b], (mem_subpaths _ _).2 ⟨by simp, by simp⟩, b :: p', hpp, (mem_subpaths _ _).2 ⟨by simp, by simp⟩⟩

/-- Every value below one of the given paths is listed, in order, and nothing else if the paths have one component. -/
theorem C132_below_partial (names paths : List (List String)) (hp : ∀ p ∈ paths, p ≠ []) :
    (listConfig names paths).Sublist names ∧ (∀ n ∈ names, ∀ p ∈ paths, p <+: n → n ∈ listConfig names paths) ∧
    (paths ≠ [] → (∀ p ∈ paths, p.length = 1) → ∀ n ∈ listConfig names paths, ∃ p ∈ paths, p <+: n) := by
  refine ⟨List.filter_sublist, ?_, ?_⟩
  · intro n hn p hpp hpre
    rw [C132_listed names paths hp]
    refine ⟨hn, Or.inr ⟨p, hpp, ?_⟩⟩
    obtain ⟨t, rfl⟩ := hpre
    obtain ⟨a, p', rfl⟩ := List.exists_cons_of_ne_nil (hp p hpp)
    rfl
  · intro hne h1 n hn
    rw [C132_listed names paths hp] at hn
    rcases hn.2 with h | ⟨p, hpp, hh⟩
    · exact absurd h hne
    · refine ⟨p, hpp, ?_⟩
      obtain ⟨a, rfl⟩ := List.length_eq_one_iff.1 (h1 p hpp)
      cases n with
      | nil => simp at hh
      | cons b n =>
        simp only [List.head?_cons, Option.some.injEq] at hh
        subst hh
        simp

/-- The full claim, only values below the given paths, is false: `slash list-config log.root` lists everything below `log`. -/
theorem C132_below_violated : listConfig [["log", "root"], ["log", "format"], ["run", "repeat"]] [["log", "root"]] = [["log", "root"], ["log", "format"]] := by decide

/-! ## C133: functions defined twice -/

theorem duplicatesLoop_spec (ns : List Node) (seen : List String) (d : String × Nat) :
    d ∈ duplicatesLoop seen ns ↔ ∃ a n b, ns = a ++ n :: b ∧ n.function = true ∧ d = (n.name, n.line) ∧ (n.name ∈ seen ∨ ∃ m ∈ a, m.function = true ∧ m.name = n.name) := by
  induction ns generalizing seen with
  | nil => simp [duplicatesLoop]
  | cons x ns ih =>
    have split : (∃ a n b, x :: ns = a ++ n :: b ∧ n.function = true ∧ d = (n.name, n.line) ∧ (n.name ∈ seen ∨ ∃ m ∈ a, m.function = true ∧ m.name = n.name)) ↔
        (x.function = true ∧ d = (x.name, x.line) ∧ x.name ∈ seen) ∨
        ∃ a n b, ns = a ++ n :: b ∧ n.function = true ∧ d = (n.name, n.line) ∧ (n.name ∈ seen ∨ (x.function = true ∧ x.name = n.name) ∨ ∃ m ∈ a, m.function = true ∧ m.name = n.name) := by
      constructor
      · rintro ⟨a, n, b, e, h1, h2, h3⟩
        cases a with
        | nil =>
          simp only [List.nil_append, List.cons.injEq] at e
          obtain ⟨rfl, rfl⟩ := e
          refine Or.inl ⟨h1, h2, ?_⟩
          simpa using h3
        | cons y a =>
          simp only [List.cons_append, List.cons.injEq] at e
          obtain ⟨rfl, rfl⟩ := e
          refine Or.inr ⟨a, n, b, rfl, h1, h2, ?_⟩
          rcases h3 with h3 | ⟨m, hm, h4, h5⟩
          · exact Or.inl h3
          · rcases List.mem_cons.1 hm with rfl | hm
            · exact Or.inr (Or.inl ⟨h4, h5⟩)
            · exact Or.inr (Or.inr ⟨m, hm, h4, h5⟩)
      · rintro (⟨h1, h2, h3⟩ | ⟨a, n, b, rfl, h1, h2, h3⟩)
        · exact ⟨[], x, ns, rfl, h1, h2, Or.inl h3⟩
        · refine ⟨x :: a, n, b, rfl, h1, h2, ?_⟩
          rcases h3 with h3 | ⟨h4, h5⟩ | ⟨m, hm, h4, h5⟩
          · exact Or.inl h3
          · exact Or.inr ⟨x, by simp, h4, h5⟩
          · exact Or.inr ⟨m, by simp [hm], h4, h5⟩
    rw [split]
    unfold duplicatesLoop
    by_cases hx : x.function = true
    · rw [if_pos hx]
      by_cases hs : seen.contains x.name = true
      · rw [if_pos hs, List.mem_cons, ih]
        have hs' : x.name ∈ seen := by simpa using hs
        constructor
        · rintro (h | ⟨a, n, b, e, h1, h2, h3⟩)
          · exact Or.inl ⟨hx, h, hs'⟩
          · exact Or.inr ⟨a, n, b, e, h1, h2, h3.imp_right Or.inr⟩
        · rintro (⟨-, h, -⟩ | ⟨a, n, b, e, h1, h2, h3⟩)
          · exact Or.inl h
          · refine Or.inr ⟨a, n, b, e, h1, h2, ?_⟩
            rcases h3 with h3 | ⟨-, h5⟩ | h3
            · exact Or.inl h3
            · exact Or.inl (h5 ▸ hs')
            · exact Or.inr h3
      · rw [if_neg hs, ih]
        have hs' : x.name ∉ seen := by simpa using hs
        constructor
        · rintro ⟨a, n, b, e, h1, h2, h3⟩
          refine Or.inr ⟨a, n, b, e, h1, h2, ?_⟩
          rcases h3 with h3 | h3
          · rcases List.mem_cons.1 h3 with h3 | h3
            · exact Or.inr (Or.inl ⟨hx, h3.symm⟩)
            · exact Or.inl h3
          · exact Or.inr (Or.inr h3)
        · rintro (⟨-, -, h⟩ | ⟨a, n, b, e, h1, h2, h3⟩)
          · exact absurd h hs'
          · refine ⟨a, n, b, e, h1, h2, ?_⟩
            rcases h3 with h3 | ⟨-, h5⟩ | h3
            · exact Or.inl (by simp [h3])
            · exact Or.inl (by simp [h5])
            · exact Or.inr h3
    · rw [if_neg hx, ih]
      constructor
      · rintro ⟨a, n, b, e, h1, h2, h3⟩
        exact Or.inr ⟨a, n, b, e, h1, h2, h3.imp_right Or.inr⟩
      · rintro (⟨h, -⟩ | ⟨a, n, b, e, h1, h2, h3⟩)
        · exact absurd h hx
        · refine ⟨a, n, b, e, h1, h2, ?_⟩
          rcases h3 with h3 | ⟨h4, -⟩ | h3
          · exact Or.inl h3
          · exact absurd h4 hx
          · exact Or.inr h3

theorem dedup_spec {α : Type} [BEq α] [LawfulBEq α] (l acc : List α) (h : acc.Nodup) :
    let r := l.foldl (fun acc x => if acc.contains x then acc else acc ++ [x]) acc
    r.Nodup ∧ ∀ x, x ∈ r ↔ x ∈ acc ∨ x ∈ l := by
  induction l generalizing acc with
  | nil => simp [h]
  | cons a l ih =>
    simp only [List.foldl_cons]
    by_cases ha : acc.contains a = true
    · rw [if_pos ha]
      obtain ⟨h1, h2⟩ := ih acc h
      refine ⟨h1, fun x => ?_⟩
      rw [h2]
      have : a ∈ acc := by simpa using ha
      simp only [List.mem_cons]
      grind
    · rw [if_neg ha]
      have hna : a ∉ acc := by simpa using ha
      obtain ⟨h1, h2⟩ := ih (acc ++ [a]) (by
        rw [List.nodup_append]
        exact ⟨h, by simp, by intro x hx y hy e; simp at hy; subst hy; subst e; exact hna hx⟩)
      refine ⟨h1, fun x => ?_⟩
      rw [h2]
      simp only [List.mem_append, List.mem_singleton, List.mem_cons]
      grind

/-- For every function at the top of a loaded file that has the name of an earlier one there, there is a warning with its file, name and line, exactly one however
often the file is loaded; there are no others. -/
theorem C133_partial (files : List (String × List Node)) :
    (duplicateWarnings files).Nodup ∧
    ∀ p n l, (p, n, l) ∈ duplicateWarnings files ↔ ∃ ns, (p, ns) ∈ files ∧
      ∃ a b, ns = a ++ ⟨true, n, l⟩ :: b ∧ ∃ m ∈ a, m.function = true ∧ m.name = n := by
  obtain ⟨h1, h2⟩ := dedup_spec (files.flatMap (fun f => (duplicatesLoop [] f.2).map (fun d => (f.1, d.1, d.2)))) [] List.nodup_nil
  refine ⟨h1, fun p n l => ?_⟩
  unfold duplicateWarnings
  rw [h2]
  simp only [List.not_mem_nil, false_or, List.mem_flatMap, List.mem_map, Prod.mk.injEq]
  constructor
  · rintro ⟨f, hf, d, hd, rfl, rfl, rfl⟩
    obtain ⟨a, x, b, e, g1, g2, g3⟩ := (duplicatesLoop_spec _ _ _).1 hd
    refine ⟨f.2, hf, a, b, ?_, ?_⟩
    · obtain ⟨xf, xn, xl⟩ := x
      simp only at g1 g2
      subst g1
      rw [e, g2]
    · rw [g2]
      simpa using g3
  · rintro ⟨ns, hf, a, b, e, m, hm, hmf, hmn⟩
    exact ⟨(p, ns), hf, (n, l), (duplicatesLoop_spec _ _ _).2 ⟨a, ⟨true, n, l⟩, b, e, rfl, rfl, Or.inr ⟨m, hm, hmf, hmn⟩⟩, rfl, rfl, rfl⟩

example : duplicateWarnings [("a.py", [⟨true, "f", 1⟩, ⟨true, "g", 2⟩, ⟨true, "f", 3⟩]), ("b.py", [⟨true, "g", 1⟩]), ("a.py", [⟨true, "f", 1⟩, ⟨true, "g", 2⟩, ⟨true, "f", 3⟩])] = [("a.py", "f", 3)] := by decide

/-- The full claim, a test hidden by a later definition of its name is warned about, is false for definitions that are no plain functions at the top. -/
theorem C133_violated : duplicateWarnings [("a.py", [⟨true, "test_x", 1⟩, ⟨false, "test_x", 5⟩])] = [] := by decide

/-! ## C134: links to logs -/

theorem target_cons (l : String) (p : String) (ls : Links) (x : String) : target ((l, p) :: unlink l ls) x = if x = l then some p else target ls x := by
  unfold target
  rw [List.find?_cons]
  by_cases h : x = l
  · subst h; simp
  · have h1 : (l == x) = false := by simpa using Ne.symm h
    simp only [h1, h, if_false]
    congr 1
    unfold unlink
    induction ls with
    | nil => rfl
    | cons a ls ih =>
      by_cases ha : a.1 = l
      · rw [List.filter_cons_of_neg (by simp [ha]), List.find?_cons_of_neg (by simpa [ha] using Ne.symm h)]
        exact ih
      · rw [List.filter_cons_of_pos (by simpa using ha)]
        by_cases hb : a.1 = x
        · rw [List.find?_cons_of_pos (by simpa using hb), List.find?_cons_of_pos (by simpa using hb)]
        · rw [List.find?_cons_of_neg (by simpa using hb), List.find?_cons_of_neg (by simpa using hb)]
          exact ih

theorem create_target (c : LConf) (hr : c.root = true) (hw : c.worker = false) (p : String) (link : Option String) (ls : Links) (x : String) :
    target (tryCreate c (some p) link ls) x = if link = some x then some p else target ls x := by
  unfold tryCreate
  cases link with
  | none => simp
  | some l =>
    simp only [hr, hw, Bool.not_true, Bool.or_self, Bool.false_eq_true, if_false]
    rw [target_cons]
    simp only [Option.some.injEq]
    by_cases h : x = l
    · subst h; simp
    · rw [if_neg h, if_neg (Ne.symm h)]

theorem file_target (c : LConf) (hr : c.root = true) (hw : c.worker = false) (o : List String) (p : String) (ho : p ∉ o) (link : Option String) (ls : Links) (x : String) :
    target (fileContext c o (some p) link ls) x = if link = some x then some p else target ls x := by
  unfold fileContext
  simp only [hr, Bool.not_true, Bool.false_eq_true, if_false]
  rw [if_neg (by simpa using ho), create_target c hr hw]

/-- The log a link to a test should lead to: the raw one if there is one, `log.py:181-185`. -/
def LTest.log (t : LTest) : Option String := t.raw.or t.path

theorem test_target (c : LConf) (hr : c.root = true) (hw : c.worker = false) (t : LTest) (p : String) (hp : t.path = some p) (ho : p ∉ c.opened)
    (hraw : ∀ q, t.raw = some q → q ∉ c.opened ∧ q ≠ p) (ls : Links) (x : String) :
    target (testLinks c t ls) x = if t.bad = true ∧ c.lastFailed = some x then some p else if c.lastTest = some x then t.log else target ls x := by
  unfold testLinks LTest.log
  have h1 : ∀ y, target (fileContext c c.opened t.path c.lastTest ls) y = if c.lastTest = some y then some p else target ls y := by
    intro y
    unfold fileContext
    simp only [hp, hr, Bool.not_true, Bool.false_eq_true, if_false]
    rw [if_neg (by simpa using ho), create_target c hr hw]
  have h2 : ∀ y, target (fileContext c (c.opened ++ t.path.toList) t.raw c.lastTest (fileContext c c.opened t.path c.lastTest ls)) y =
      if c.lastTest = some y then t.raw.or t.path else target ls y := by
    intro y
    cases hraw' : t.raw with
    | none => exact (h1 y).trans (by simp [hp])
    | some q =>
      obtain ⟨g1, g2⟩ := hraw q hraw'
      rw [file_target c hr hw _ q (by simp [hp, g1, g2]), h1]
      by_cases h : c.lastTest = some y <;> simp [h]
  simp only
  cases hb : t.bad with
  | false => simp [h2]
  | true => simp only [if_true, true_and, hp, create_target c hr hw]; rw [← hp, h2]

/-- After a session that is no worker's and writes logs to files, provided that the links have different names and that tests have log files of their own:
the link to the last test leads to the log of the last test, the one to the last failed test to the log of the last test with errors or failures (if there was none, it is
as before), the one to the last session to the session's log. -/
theorem C134_partial (c : LConf) (hr : c.root = true) (hw : c.worker = false) (ts : List LTest)
    (hts : ∀ t ∈ ts, ∃ p, t.path = some p ∧ p ∉ c.opened ∧ ∀ q, t.raw = some q → q ∉ c.opened ∧ q ≠ p)
    (s test failed dir sp : String) (hs : c.lastSession = some s) (ht : c.lastTest = some test) (hf : c.lastFailed = some failed) (hdir : c.lastSessionDir = some dir)
    (hsp : c.session = some sp) (hraw : c.sessionRaw ≠ c.session) (hd : [s, test, failed, dir].Nodup) (ls : Links) :
    target (sessionLinks c ts ls) test = (match ts.getLast? with | some t => t.log | none => target ls test) ∧
    target (sessionLinks c ts ls) failed = (match (ts.filter (·.bad)).getLast? with | some t => t.path | none => target ls failed) ∧
    target (sessionLinks c ts ls) s = c.sessionRaw.or (some sp) ∧
    target (sessionLinks c ts ls) dir = some (c.dirname sp) := by
  simp only [List.nodup_cons, List.mem_cons, List.not_mem_nil, or_false, not_or, not_false_eq_true, List.nodup_nil, and_true] at hd
  obtain ⟨⟨d1, d2, d3⟩, ⟨d4, d5⟩, d6⟩ := hd
  unfold sessionLinks
  simp only [hsp, hr, if_true]
  have hstart : ∀ x, target (tryCreate c (some (c.dirname sp)) c.lastSessionDir
      (fileContext c (some sp).toList c.sessionRaw c.lastSession (fileContext c [] (some sp) c.lastSession ls))) x =
      if x = dir then some (c.dirname sp) else if x = s then c.sessionRaw.or (some sp) else target ls x := by
    intro x
    have g1 : ∀ y, target (fileContext c [] (some sp) c.lastSession ls) y = if y = s then some sp else target ls y := by
      intro y
      unfold fileContext
      simp only [hr, Bool.not_true, Bool.false_eq_true, if_false, List.contains_nil]
      rw [create_target c hr hw, hs]
      simp only [Option.some.injEq, eq_comm]
    have g2 : ∀ y, target (fileContext c (some sp).toList c.sessionRaw c.lastSession (fileContext c [] (some sp) c.lastSession ls)) y =
        if y = s then c.sessionRaw.or (some sp) else target ls y := by
      intro y
      cases hq : c.sessionRaw with
      | none => exact (g1 y).trans rfl
      | some q =>
        have hne : q ≠ sp := by intro e; subst e; exact hraw (by rw [hq, hsp])
        rw [file_target c hr hw _ q (by simpa using hne), g1, hs]
        simp only [Option.some.injEq, Option.some_or]
        by_cases hy : y = s
        · subst hy; simp
        · rw [if_neg (Ne.symm hy), if_neg hy, if_neg hy]
    rw [create_target c hr hw, hdir, g2]
    simp only [Option.some.injEq]
    by_cases hx : x = dir
    · subst hx; simp
    · rw [if_neg (Ne.symm hx), if_neg hx]
  generalize tryCreate c (some (c.dirname sp)) c.lastSessionDir
      (fileContext c (some sp).toList c.sessionRaw c.lastSession (fileContext c [] (some sp) c.lastSession ls)) = ls0 at hstart
  have key : ∀ (ts : List LTest) (l0 : Links), (∀ t ∈ ts, ∃ p, t.path = some p ∧ p ∉ c.opened ∧ ∀ q, t.raw = some q → q ∉ c.opened ∧ q ≠ p) →
      target (ts.foldl (fun ls t => testLinks c t ls) l0) test = (match ts.getLast? with | some t => t.log | none => target l0 test) ∧
      target (ts.foldl (fun ls t => testLinks c t ls) l0) failed = (match (ts.filter (·.bad)).getLast? with | some t => t.path | none => target l0 failed) ∧
      ∀ x, x ≠ test → x ≠ failed → target (ts.foldl (fun ls t => testLinks c t ls) l0) x = target l0 x := by
    intro ts
    induction ts with
    | nil => intro l0 _; exact ⟨rfl, rfl, fun _ _ _ => rfl⟩
    | cons t ts ih =>
      intro l0 hts
      obtain ⟨p, hp, ho, hq⟩ := hts t (by simp)
      obtain ⟨i1, i2, i3⟩ := ih (testLinks c t l0) (fun x hx => hts x (by simp [hx]))
      have tt := test_target c hr hw t p hp ho hq l0
      simp only [List.foldl_cons]
      refine ⟨?_, ?_, ?_⟩
      · rw [i1]
        cases hl : ts.getLast? with
        | some u => rw [List.getLast?_cons, hl]; rfl
        | none =>
          rw [List.getLast?_cons, hl]
          simp only [Option.getD_none]
          rw [tt, hf, ht, if_neg (by simp [Ne.symm d4]), if_pos rfl]
      · rw [i2]
        cases hl : (ts.filter (·.bad)).getLast? with
        | some u =>
          rw [List.filter_cons]
          cases t.bad with
          | true => simp only [if_true]; rw [List.getLast?_cons, hl]; rfl
          | false => simp only [Bool.false_eq_true, if_false, hl]
        | none =>
          rw [List.filter_cons]
          simp only
          rw [tt, hf, ht]
          cases hb : t.bad with
          | true => simp [hl, List.getLast?_cons, hp]
          | false => simp [hl, d4]
      · intro x h1 h2
        rw [i3 x h1 h2, tt, hf, ht, if_neg (by simp [Ne.symm h2]), if_neg (by simp [Ne.symm h1])]
  obtain ⟨k1, k2, k3⟩ := key ts ls0 hts
  refine ⟨?_, ?_, ?_, ?_⟩
  · rw [k1]
    cases ts.getLast? with
    | some t => rfl
    | none => simp only [hstart]; rw [if_neg d5, if_neg (Ne.symm d1)]
  · rw [k2]
    cases (ts.filter (·.bad)).getLast? with
    | some t => rfl
    | none => simp only [hstart]; rw [if_neg d6, if_neg (Ne.symm d2)]
  · rw [k3 s d1 d2, hstart, if_neg d3, if_pos rfl]
  · rw [k3 dir (Ne.symm d5) (Ne.symm d6), hstart, if_pos rfl]

example : let c : LConf := { session := some "s.log", lastSession := some "S", lastTest := some "T", lastFailed := some "F", lastSessionDir := some "D", dirname := fun _ => "dir" }
    let ls := sessionLinks c [{ path := some "1.log" }, { path := some "2.log", bad := true }, { path := some "3.log" }] [("F", "old"), ("T", "old")]
    target ls "S" = some "s.log" ∧ target ls "T" = some "3.log" ∧ target ls "F" = some "2.log" ∧ target ls "D" = some "dir" := by decide

/-- A test that logs to a file the session has open already, its log or its raw log, leaves all links as they are, unless it
has errors or failures. -/
theorem C134_shared (c : LConf) (t : LTest) (p : String) (hp : t.path = some p) (ho : c.session = some p ∨ c.sessionRaw = some p)
    (hr : t.raw = none) (hb : t.bad = false) (ls : Links) : testLinks c t ls = ls := by
  have hc : c.opened.contains p = true := by
    rcases ho with e | e <;> simp [LConf.opened, e]
  simp only [testLinks, fileContext, hp, hr, hb, hc, if_true, Bool.false_eq_true, if_false]
  split <;> rfl

example : testLinks { session := some "s.log", sessionRaw := some "r.log", lastTest := some "T" } { path := some "r.log" } [("T", "old")] = [("T", "old")] ∧
    testLinks { session := some "s.log", sessionRaw := some "r.log", lastTest := some "T" } { path := some "1.log" } [("T", "old")] = [("T", "1.log")] := by decide

/-- Workers do not touch links. -/
theorem C134_worker (c : LConf) (hw : c.worker = true) (ts : List LTest) (ls : Links) : sessionLinks c ts ls = ls := by
  have h1 : ∀ t l ls, tryCreate c t l ls = ls := by
    intro t l ls
    unfold tryCreate
    cases l <;> simp [hw]
  have h2 : ∀ o p l ls, fileContext c o p l ls = ls := by
    intro o p l ls
    unfold fileContext
    cases p with
    | none => rfl
    | some p =>
      simp only [h1]
      split
      · rfl
      · split <;> rfl
  have h3 : ∀ t ls, testLinks c t ls = ls := by
    intro t ls
    unfold testLinks
    simp only [h1, h2, ite_self]
  have h4 : ∀ ts : List LTest, ts.foldl (fun ls t => testLinks c t ls) ls = ls := by
    intro ts
    induction ts with
    | nil => rfl
    | cons t ts ih => rw [List.foldl_cons, h3]; exact ih
  unfold sessionLinks
  simp only [h1, h2, ite_self]
  cases c.session <;> exact h4 ts

/-- The full claim is false: tests that log to the file of the session leave the link to the last test as it was, and a failing test without a log file removes
the link to the last failed test. -/
theorem C134_violated :
    (let c : LConf := { session := some "s.log", lastTest := some "T" }
     target (sessionLinks c [{ path := some "s.log" }] [("T", "old")]) "T" = some "old") ∧
    (let c : LConf := { session := some "s.log", lastFailed := some "F" }
     target (sessionLinks c [{ path := none, bad := true }] [("F", "old")]) "F" = none) := by decide

end Slash.Front
