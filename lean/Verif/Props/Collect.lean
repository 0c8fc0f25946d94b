import Verif.Model.Collect
import Verif.Props.Loader
/-!
# C163: what `slash run` runs
-/
namespace Slash.Load

/-! ## Repetitions and order -/

theorem src_copies (t : T) (next n : Nat) : (copies t next n).map (·.src) = List.replicate n t.src := by
  cases n with
  | zero => rfl
  | succ n =>
    simp only [copies, List.map_cons, List.map_map, List.replicate_succ]
    have : ((fun x : T => x.src) ∘ fun i => t.clone (next + i)) = fun _ => t.src := rfl
    rw [this, List.map_const', List.length_range]

theorem src_repeatEach (each : Nat) (ts : List T) (next : Nat) :
    (repeatEach each ts next).1.map (·.src) = ts.flatMap (fun t => List.replicate (each * t.rep) t.src) := by
  induction ts generalizing next with
  | nil => rfl
  | cons t ts ih => simp only [repeatEach, List.map_append, src_copies, ih, List.flatMap_cons]

theorem src_repeatAll (first : List T) (next i n : Nat) :
    (repeatAll first next i n).map (·.src) = (List.replicate n (first.map (·.src))).flatten := by
  induction n generalizing next i with
  | zero => rfl
  | succ n ih =>
    simp only [repeatAll, List.map_append, ih, List.replicate_succ, List.flatten_cons, List.map_map]
    congr 1
    have : ((fun x : T => x.src) ∘ fun x : T × Nat => { x.1.clone (next + x.2) with repeatAll := i + 1 }) = (fun x => x.src) ∘ Prod.fst := rfl
    rw [this, ← List.map_map, List.zipIdx_map_fst]

theorem src_generateRepeats (each all : Nat) (ts : List T) (next : Nat) :
    (generateRepeats each all ts next).map (·.src) =
      (List.replicate (max 1 all) (ts.flatMap (fun t => List.replicate (each * t.rep) t.src))).flatten := by
  unfold generateRepeats
  simp only
  rw [List.map_append, src_repeatAll, src_repeatEach]
  have : max 1 all = (all - 1) + 1 := by omega
  rw [this, List.replicate_succ, List.flatten_cons]

/-- the objects made of tests -/
theorem objects_spec (env : CEnv) (tests : List Meta.Test) :
    (objects env tests).map (·.oid) = List.range tests.length ∧ (∀ t ∈ objects env tests, t.oid < tests.length) ∧
    (objects env tests).Pairwise (fun a b => a.key ≤ b.key) ∧ (∀ t ∈ objects env tests, 1 ≤ t.key) ∧
    (∀ t ∈ objects env tests, t.repeatAll = 0) ∧
    ∀ each, ((objects env tests).flatMap (fun t => List.replicate (each * t.rep) t.src)).map (fun i => tests[i]?) =
      (tests.flatMap (fun x => List.replicate (each * env.rep x) x)).map some := by
  have hoid : (objects env tests).map (·.oid) = List.range tests.length := by
    unfold objects
    rw [List.map_map]
    have : ((fun t : T => t.oid) ∘ fun x : Meta.Test × Nat => ({ oid := x.2, src := x.2, rep := env.rep x.1, key := (x.2 : Int) + 1 } : T)) =
        Prod.snd := rfl
    rw [this, List.zipIdx_map_snd, List.range_eq_range']
  refine ⟨hoid, ?_, ?_, ?_, ?_, ?_⟩
  · intro t ht
    have := List.mem_map_of_mem (f := fun t : T => t.oid) ht
    rw [hoid] at this
    exact List.mem_range.1 this
  · unfold objects
    rw [List.pairwise_map]
    have h := List.pairwise_lt_range' (s := 0) (n := tests.length)
    rw [← List.zipIdx_map_snd 0 tests, List.pairwise_map] at h
    exact h.imp (fun {a b} hab => by simp only; omega)
  · intro t ht
    obtain ⟨x, -, rfl⟩ := List.mem_map.1 ht
    simp only; omega
  · intro t ht
    obtain ⟨x, -, rfl⟩ := List.mem_map.1 ht
    rfl
  · intro each
    have h : ∀ x ∈ tests.zipIdx, tests[x.2]? = some x.1 := by
      intro x hx
      obtain ⟨a, i⟩ := x
      have := List.mem_zipIdx hx
      simp only [Nat.zero_le, Nat.zero_add, Nat.sub_zero, true_and] at this
      obtain ⟨h1, h2⟩ := this
      rw [h2]
      exact List.getElem?_eq_getElem h1
    have h2 : (tests.flatMap (fun x => List.replicate (each * env.rep x) x)).map some =
        tests.zipIdx.flatMap (fun x => List.replicate (each * env.rep x.1) (some x.1)) := by
      rw [List.map_flatMap]
      conv => lhs; rw [← List.zipIdx_map_fst 0 tests]
      rw [List.flatMap_map]
      simp only [List.map_replicate]
    rw [h2]
    unfold objects
    rw [List.flatMap_map, List.map_flatMap]
    simp only [List.map_replicate]
    generalize tests.zipIdx = z at h
    induction z with
    | nil => rfl
    | cons x z ih =>
      rw [List.flatMap_cons, List.flatMap_cons, ih (fun y hy => h y (List.mem_cons_of_mem _ hy)), h x List.mem_cons_self]

/-- what is collected, given the tests found -/
theorem collect_eq (env : CEnv) (c : CConf) (tests : List Meta.Test) (h : sourcesTests env c.excluded c.sources = .ok tests)
    (hn : c.sources ≠ [] ∨ c.interactive = true) :
    collectTests env c =
      let l := (if c.interactive then [none] else []) ++
        ((List.replicate (max 1 c.all) (tests.flatMap (fun x => List.replicate (c.each * env.rep x) x))).flatten).map some
      if l = [] then .cannotLoad else .ok l := by
  unfold collectTests
  have h0 : (c.sources.isEmpty && !c.interactive) = false := by
    rcases hn with hn | hn
    · have : c.sources.isEmpty = false := by simpa using hn
      rw [this]; rfl
    · rw [hn]; simp
  rw [h0, if_neg (by decide)]
  simp only [h]
  obtain ⟨h1, h2, h3, h4, h5, h6⟩ := objects_spec env tests
  have hint : ∀ o, (if c.interactive then some tests.length else none) = some o → o < tests.length + 1 ∧ ∀ t ∈ objects env tests, t.oid ≠ o := by
    intro o ho
    cases hi : c.interactive with
    | false => rw [hi] at ho; cases ho
    | true =>
      rw [hi] at ho
      obtain rfl : tests.length = o := by simpa using ho
      exact ⟨Nat.lt_succ_self _, fun t ht => Nat.ne_of_lt (h2 t ht)⟩
  obtain ⟨l, ids, hl, -⟩ := C37_distinct c.each c.all (objects env tests) (tests.length + 1) (if c.interactive then some tests.length else none)
    (·.key) [] [] (by rw [h1]; exact List.nodup_range) (fun t ht => Nat.lt_succ_of_lt (h2 t ht)) hint (fun o ho => by cases ho)
  have hl' : getRunnables c.each c.all (objects env tests) (tests.length + 1) (if c.interactive then some tests.length else none) (·.key)
      { space := IdSpace.Space.new [] } = some (l, ids) := hl
  rw [hl']
  have ho := C38_default_order c.each c.all (objects env tests) (tests.length + 1) _ _ h3 h4 h5 l ids hl'
  have hm : l.map (fun t => tests[t.src]?) = (if c.interactive then [none] else []) ++
      ((List.replicate (max 1 c.all) (tests.flatMap (fun x => List.replicate (c.each * env.rep x) x))).flatten).map some := by
    rw [ho, List.map_append]
    congr 1
    · cases c.interactive with
      | false => rfl
      | true => simp [interactiveTest]
    · have e1 : (generateRepeats c.each c.all (objects env tests) (tests.length + 1)).map (fun t => tests[t.src]?) =
          ((generateRepeats c.each c.all (objects env tests) (tests.length + 1)).map (·.src)).map (fun i => tests[i]?) := by
        rw [List.map_map]; rfl
      rw [e1, src_generateRepeats, List.map_flatten, List.map_flatten, List.map_replicate, List.map_replicate, h6 c.each]
  simp only
  rw [← hm]
  by_cases he : l = []
  · subst he; rfl
  · rw [if_neg (by simpa using he), if_neg (by simpa using he)]

/-! ## The tests of a source -/

/-- The file is the one at the path, or below the directory there (and not in a hidden one). -/
def Below (e : Entry) (p file : Str) : Prop :=
  match e with
  | .missing => False
  | .file => file = p
  | .dir n => ∃ f, Finds n f ∧ file = filePath p f

/-- The test is one of the tests of its file: a function, or a method of a class that is not abstract, with one of its variations. -/
def IsTest (env : CEnv) (x : Meta.Test) : Prop :=
  (∃ things, env.contents x.file = some things ∧
    ((∃ n, (x.factory, Thing.function n) ∈ things ∧ ['t', 'e', 's', 't', '_'] <+: n ∧ x.inFactory = []) ∨
      ∃ ms m, (x.factory, Thing.testClass false ms) ∈ things ∧ m ∈ ms ∧ ['t', 'e', 's', 't'] <+: m ∧ x.inFactory = '.' :: m)) ∧
  x.className = env.className x.file x.factory ∧ x.variation ∈ env.variations x.file x.factory x.inFactory

/-- The test is named by what follows the colon of an address. -/
def Named (a : Str) (x : Meta.Test) : Prop :=
  a = x.factory ∨ a = x.addressInFile ∨ ∃ r, x.addressInFile = a ++ '(' :: r ∧ '(' ∉ a

/-- An address is a path, or a path, a colon and the name of tests. -/
def Parts (addr p : Str) (a : Option Str) : Prop :=
  ':' ∉ p ∧ addr = (match a with | none => p | some a => p ++ ':' :: a)

/-- The test is below a path, in a Python file. -/
def At (env : CEnv) (p : Str) (x : Meta.Test) : Prop :=
  Below (env.entry p) p x.file ∧ ['.', 'p', 'y'] <:+ x.file ∧ IsTest env x

/-- The source is for the test. -/
def Selects (env : CEnv) (c : CConf) (s : Source) (x : Meta.Test) : Prop :=
  ∃ p a, Parts s.addr p a ∧ At env p x ∧ (∀ b, a = some b → Named b x) ∧ (∀ m ∈ c.filters, m x = true) ∧ ∀ m, s.matcher = some m → m x = true

/-- The order of the tests below a path: the order of the files, the names in them, the methods and the variations. -/
def Precedes (env : CEnv) (p : Str) (x y : Meta.Test) : Prop :=
  (∃ f g, x.file = filePath p f ∧ y.file = filePath p g ∧ (∀ a ∈ f ++ g, '/' ∉ a) ∧ before f g) ∨
  x.file = y.file ∧ (strLt x.factory y.factory ∨ x.factory = y.factory ∧
    ((∃ m m', x.inFactory = '.' :: m ∧ y.inFactory = '.' :: m' ∧ strLt m m') ∨
      x.inFactory = y.inFactory ∧ [x.variation, y.variation].Sublist (env.variations x.file x.factory x.inFactory)))

/-- Directories have no two entries of the same name, and no name contains a slash; modules have no two things of the same name, and classes no two
methods; variations are different. -/
structure CWf (env : CEnv) : Prop where
  dirs : ∀ p n, env.entry p = .dir n → Wf n ∧ ∀ f, Finds n f → ∀ a ∈ f, '/' ∉ a
  names : ∀ file things, env.contents file = some things → (things.map (·.1)).Nodup ∧
    ∀ x abs ms, (x, Thing.testClass abs ms) ∈ things → ms.Nodup
  vars : ∀ file x a, (env.variations file x a).Nodup

theorem splitColon_parts (addr : Str) : Parts addr (splitColon addr).1 (splitColon addr).2 := by
  induction addr with
  | nil => exact ⟨by simp [splitColon], rfl⟩
  | cons c t ih =>
    unfold splitColon
    by_cases h : c = ':'
    · rw [if_pos h]
      exact ⟨by simp, by rw [h]; rfl⟩
    · rw [if_neg h]
      obtain ⟨h1, h2⟩ := ih
      refine ⟨?_, ?_⟩
      · simp only [List.mem_cons, not_or]
        exact ⟨fun e => h e.symm, h1⟩
      · simp only
        cases hs : (splitColon t).2 with
        | none => rw [hs] at h2; simp only at h2 ⊢; rw [← h2]
        | some a => rw [hs] at h2; simp only at h2 ⊢; rw [List.cons_append, ← h2]

theorem parts_unique (addr p : Str) (a : Option Str) (h : Parts addr p a) : splitColon addr = (p, a) := by
  obtain ⟨h1, h2⟩ := h
  cases a with
  | some a => rw [h2]; exact splitColon_append p a h1
  | none =>
    simp only at h2
    rw [h2]
    clear h2
    induction p with
    | nil => rfl
    | cons c p ih =>
      simp only [List.mem_cons, not_or] at h1
      unfold splitColon
      rw [if_neg (fun e => h1.1 e.symm), ih h1.2]

theorem named_iff (a : Str) (x : Meta.Test) : addressMatches a x = true ↔ Named a x := by
  unfold addressMatches Named
  by_cases h1 : a = x.factory
  · rw [if_pos h1]; exact ⟨fun _ => .inl h1, fun _ => rfl⟩
  rw [if_neg h1]
  by_cases h2 : a = x.addressInFile
  · rw [if_pos h2]; exact ⟨fun _ => .inr (.inl h2), fun _ => rfl⟩
  rw [if_neg h2]
  generalize x.addressInFile = s at *
  have key : (∃ r, s = a ++ '(' :: r ∧ '(' ∉ a) ↔ '(' ∈ s ∧ a = Meta.beforeParen s := by
    unfold Meta.beforeParen
    constructor
    · rintro ⟨r, rfl, hn⟩
      refine ⟨by simp, ?_⟩
      rw [List.takeWhile_append_of_pos (by
        intro c hc
        have : c ≠ '(' := fun e => hn (e ▸ hc)
        simpa using this)]
      simp
    · rintro ⟨hm, rfl⟩
      have hd : s = s.takeWhile (· != '(') ++ s.dropWhile (· != '(') := List.takeWhile_append_dropWhile.symm
      cases hdw : s.dropWhile (· != '(') with
      | nil =>
        rw [hdw, List.append_nil] at hd
        have := List.all_eq_true.1 (List.all_takeWhile (p := (· != '(')) (l := s)) '(' (hd ▸ hm)
        simp at this
      | cons c r =>
        have hc : c = '(' := by
          have := List.head?_dropWhile_not (· != '(') s
          rw [hdw] at this
          simpa using this
        refine ⟨r, ?_, ?_⟩
        · rw [hdw, hc] at hd; exact hd
        · intro hmem
          have := List.all_eq_true.1 (List.all_takeWhile (p := (· != '(')) (l := s)) '(' hmem
          simp at this
  by_cases h3 : s.contains '(' = true
  · rw [if_pos h3, decide_eq_true_iff]
    have hm : '(' ∈ s := by simpa using h3
    constructor
    · intro h; exact .inr (.inr (key.2 ⟨hm, h⟩))
    · rintro (h | h | h)
      · exact absurd h h1
      · exact absurd h h2
      · exact (key.1 h).2
  · rw [if_neg h3]
    constructor
    · intro h; cases h
    · rintro (h | h | h)
      · exact absurd h h1
      · exact absurd h h2
      · exact absurd (by simpa using (key.1 h).1) h3

/-! ## Paths -/

theorem filePath_eq (p : Str) (f : List Str) : filePath p f = p ++ f.flatMap (fun n => '/' :: n) := by
  unfold filePath
  induction f generalizing p with
  | nil => simp
  | cons n f ih => rw [List.foldl_cons, ih, List.flatMap_cons, List.append_assoc]

theorem flatMap_slash_inj (f g : List Str) (hf : ∀ a ∈ f, '/' ∉ a) (hg : ∀ a ∈ g, '/' ∉ a)
    (h : f.flatMap (fun n => '/' :: n) = g.flatMap (fun n => '/' :: n)) : f = g := by
  induction f generalizing g with
  | nil =>
    cases g with
    | nil => rfl
    | cons b g => simp at h
  | cons a f ih =>
    cases g with
    | nil => simp at h
    | cons b g =>
      rw [List.flatMap_cons, List.flatMap_cons, List.cons_append, List.cons_append, List.cons.injEq] at h
      have key : ∀ (s : Str) (l : List Str), '/' ∉ s → (s ++ l.flatMap (fun n => '/' :: n)).takeWhile (· != '/') = s ∧
          (s ++ l.flatMap (fun n => '/' :: n)).dropWhile (· != '/') = l.flatMap (fun n => '/' :: n) := by
        intro s l hs
        have hall : ∀ c ∈ s, (c != '/') = true := by
          intro c hc
          have : c ≠ '/' := fun e => hs (e ▸ hc)
          simpa using this
        rw [List.takeWhile_append_of_pos hall, List.dropWhile_append_of_pos hall]
        cases l with
        | nil => simp
        | cons n l => simp
      have ha := key a f (hf a List.mem_cons_self)
      have hb := key b g (hg b List.mem_cons_self)
      rw [h.2] at ha
      have e1 : a = b := ha.1.symm.trans hb.1
      have e2 := ha.2.symm.trans hb.2
      rw [e1, ih g (fun x hx => hf x (List.mem_cons_of_mem _ hx)) (fun x hx => hg x (List.mem_cons_of_mem _ hx)) e2]

theorem filePath_inj (p : Str) (f g : List Str) (hf : ∀ a ∈ f, '/' ∉ a) (hg : ∀ a ∈ g, '/' ∉ a) (h : filePath p f = filePath p g) : f = g := by
  rw [filePath_eq, filePath_eq] at h
  exact flatMap_slash_inj f g hf hg (List.append_cancel_left h)

theorem py_suffix (a n : Str) : ['.', 'p', 'y'] <:+ a ++ '/' :: n ↔ ['.', 'p', 'y'] <:+ n := by
  constructor
  · intro h
    have h2 : ('/' :: n) <:+ a ++ '/' :: n := List.suffix_append _ _
    rcases List.suffix_or_suffix_of_suffix h h2 with h | h
    · rcases List.suffix_cons_iff.1 h with h | h
      · cases h
      · exact h
    · have : '/' ∈ ['.', 'p', 'y'] := h.subset List.mem_cons_self
      simp at this
  · intro h
    exact h.trans ((List.suffix_cons _ _).trans (List.suffix_append _ _))

theorem basename_py (p : Str) : ['.', 'p', 'y'] <:+ basename p ↔ ['.', 'p', 'y'] <:+ p := by
  unfold basename
  have hd : p.reverse = p.reverse.takeWhile (· != '/') ++ p.reverse.dropWhile (· != '/') := List.takeWhile_append_dropWhile.symm
  have hp : p = (p.reverse.dropWhile (· != '/')).reverse ++ (p.reverse.takeWhile (· != '/')).reverse := by
    rw [← List.reverse_append, ← hd, List.reverse_reverse]
  cases hdw : p.reverse.dropWhile (· != '/') with
  | nil =>
    rw [hdw] at hp
    simp only [List.reverse_nil, List.nil_append] at hp
    rw [← hp]
  | cons c r =>
    have hc : c = '/' := by
      have := List.head?_dropWhile_not (· != '/') p.reverse
      rw [hdw] at this
      simpa using this
    rw [hdw, hc, List.reverse_cons, List.append_assoc] at hp
    conv => rhs; rw [hp]
    rw [List.singleton_append, py_suffix]

/-- which files are wanted -/
theorem wanted_iff (p : Str) (f : List Str) : isWanted (f.getLast?.getD (basename p)) = true ↔ ['.', 'p', 'y'] <:+ filePath p f := by
  rw [isWanted_eq, decide_eq_true_iff, filePath_eq]
  rcases List.eq_nil_or_concat f with rfl | ⟨g, n, rfl⟩
  · simp only [List.getLast?_nil, Option.getD_none, List.flatMap_nil, List.append_nil]
    exact basename_py p
  · rw [List.concat_eq_append, List.getLast?_append]
    simp only [List.getLast?_singleton, Option.some_or, Option.getD_some, List.flatMap_append, List.flatMap_cons, List.flatMap_nil, List.append_nil]
    rw [← List.append_assoc, py_suffix]

theorem mem_filesAt (env : CEnv) (p file : Str) : (∃ f ∈ filesAt (env.entry p), file = filePath p f) ↔ Below (env.entry p) p file := by
  unfold Below filesAt
  cases env.entry p with
  | missing => simp
  | file => simp [filePath]
  | dir n =>
    simp only
    constructor
    · rintro ⟨f, hf, e⟩; exact ⟨f, (C73_finds n f).1 hf, e⟩
    · rintro ⟨f, hf, e⟩; exact ⟨f, (C73_finds n f).2 hf, e⟩

/-! ## Tests of files and of paths -/

theorem mem_fileTests (env : CEnv) (file : Str) (x : Meta.Test) : x ∈ (fileTests env file).getD [] ↔ x.file = file ∧ IsTest env x := by
  unfold fileTests IsTest
  cases hc : env.contents file with
  | none =>
    simp only [Option.map_none, Option.getD_none, List.not_mem_nil, false_iff]
    rintro ⟨rfl, ⟨t, ht, -⟩, -⟩
    rw [hc] at ht; cases ht
  | some things =>
    simp only [Option.map_some, Option.getD_some, List.mem_flatMap, List.mem_map]
    constructor
    · rintro ⟨⟨y, a⟩, hy, v, hv, rfl⟩
      exact ⟨rfl, ⟨things, hc, (C75_tests things y a).1 hy⟩, rfl, hv⟩
    · rintro ⟨rfl, ⟨t, ht, hm⟩, hcl, hv⟩
      rw [hc] at ht
      obtain rfl : things = t := by simpa using ht
      refine ⟨(x.factory, x.inFactory), (C75_tests things _ _).2 hm, x.variation, hv, ?_⟩
      rw [← hcl]

theorem fileTests_sorted (env : CEnv) (hw : CWf env) (p file : Str) : ((fileTests env file).getD []).Pairwise (Precedes env p) := by
  unfold fileTests
  cases hc : env.contents file with
  | none => exact List.Pairwise.nil
  | some things =>
    simp only [Option.map_some, Option.getD_some]
    obtain ⟨h1, h2⟩ := hw.names file things hc
    rw [List.flatMap_def, List.pairwise_flatten]
    constructor
    · intro l hl
      obtain ⟨⟨y, a⟩, -, rfl⟩ := List.mem_map.1 hl
      rw [List.pairwise_map, List.pairwise_iff_forall_sublist]
      intro u v huv
      exact .inr ⟨rfl, .inr ⟨rfl, .inr ⟨rfl, huv⟩⟩⟩
    · rw [List.pairwise_map]
      refine (C75_order things h1 h2).imp ?_
      intro a b hab x hx y hy
      obtain ⟨v, -, rfl⟩ := List.mem_map.1 hx
      obtain ⟨v', -, rfl⟩ := List.mem_map.1 hy
      refine .inr ⟨rfl, ?_⟩
      rcases hab with h | ⟨h, m, m', e1, e2, h3⟩
      · exact .inl h
      · exact .inr ⟨h, .inl ⟨m, m', e1, e2, h3⟩⟩

theorem filesAt_sorted (env : CEnv) (hw : CWf env) (p : Str) : (filesAt (env.entry p)).Pairwise before := by
  cases he : env.entry p with
  | missing => exact List.Pairwise.nil
  | file => exact List.pairwise_singleton _ _
  | dir n => exact C73_order n (hw.dirs p n he).1

theorem filesAt_names (env : CEnv) (hw : CWf env) (p : Str) (f : List Str) (hf : f ∈ filesAt (env.entry p)) : ∀ a ∈ f, '/' ∉ a := by
  cases he : env.entry p with
  | missing => rw [he] at hf; cases hf
  | file =>
    rw [he] at hf
    obtain rfl : f = [] := by simpa [filesAt] using hf
    intro a ha; cases ha
  | dir n =>
    rw [he] at hf
    exact (hw.dirs p n he).2 f ((C73_finds n f).1 hf)

theorem precedes_irrefl (env : CEnv) (hw : CWf env) (p : Str) (x : Meta.Test) : ¬ Precedes env p x x := by
  rintro (⟨f, g, h1, h2, h3, h4⟩ | ⟨-, h | ⟨-, ⟨m, m', h1, h2, h3⟩ | ⟨-, h⟩⟩⟩)
  · have := filePath_inj p f g (fun a ha => h3 a (List.mem_append_left _ ha)) (fun a ha => h3 a (List.mem_append_right _ ha)) (h1.symm.trans h2)
    subst this
    exact before_irrefl f h4
  · exact h.2 rfl
  · rw [h1] at h2
    obtain rfl : m = m' := by simpa using h2
    exact h3.2 rfl
  · have := h.nodup (hw.vars x.file x.factory x.inFactory)
    simp at this

theorem pathTests_spec (env : CEnv) (hw : CWf env) (p : Str) (l : List Meta.Test) (h : pathTests env p = .ok l) :
    (∀ x, x ∈ l ↔ At env p x) ∧ l.Pairwise (Precedes env p) := by
  have hl := C74_loads_all (basename p) (fun f => fileTests env (filePath p f)) (env.entry p) l h
  constructor
  · intro x
    rw [hl, List.mem_flatten]
    unfold At
    rw [← mem_filesAt env p x.file]
    constructor
    · rintro ⟨l', hl', hx⟩
      obtain ⟨f, hf, rfl⟩ := List.mem_map.1 hl'
      obtain ⟨hf1, hf2⟩ := List.mem_filter.1 hf
      obtain ⟨e, ht⟩ := (mem_fileTests env _ x).1 hx
      rw [← isWanted_eq] at hf2
      exact ⟨⟨f, hf1, e⟩, e ▸ (wanted_iff p f).1 hf2, ht⟩
    · rintro ⟨⟨f, hf1, e⟩, hpy, ht⟩
      refine ⟨_, List.mem_map.2 ⟨f, List.mem_filter.2 ⟨hf1, ?_⟩, rfl⟩, (mem_fileTests env _ x).2 ⟨e, ht⟩⟩
      rw [← isWanted_eq]
      exact (wanted_iff p f).2 (e ▸ hpy)
  · rw [hl, List.pairwise_flatten]
    constructor
    · intro l' hl'
      obtain ⟨f, -, rfl⟩ := List.mem_map.1 hl'
      exact fileTests_sorted env hw p _
    · rw [List.pairwise_map]
      refine ((filesAt_sorted env hw p).sublist List.filter_sublist).imp_of_mem ?_
      intro f g hf hg hfg x hx y hy
      refine .inl ⟨f, g, ((mem_fileTests env _ x).1 hx).1, ((mem_fileTests env _ y).1 hy).1, ?_, hfg⟩
      intro a ha
      rcases List.mem_append.1 ha with ha | ha
      · exact filesAt_names env hw p f (List.mem_filter.1 hf).1 a ha
      · exact filesAt_names env hw p g (List.mem_filter.1 hg).1 a ha

/-- when the tests below a path cannot be loaded: nothing is there, or a Python file there cannot be imported -/
theorem pathTests_fails (env : CEnv) (p : Str) :
    pathTests env p = .cannotLoad ↔
      env.entry p = .missing ∨ ∃ file, Below (env.entry p) p file ∧ ['.', 'p', 'y'] <:+ file ∧ env.contents file = none := by
  unfold pathTests
  rw [C74_fails_iff]
  refine or_congr Iff.rfl ?_
  constructor
  · rintro ⟨f, hf, hpy, hn⟩
    refine ⟨filePath p f, (mem_filesAt env p _).1 ⟨f, hf, rfl⟩, ?_, ?_⟩
    · rw [← wanted_iff, isWanted_eq, decide_eq_true_iff]; exact hpy
    · unfold fileTests at hn
      simpa using hn
  · rintro ⟨file, hb, hpy, hn⟩
    obtain ⟨f, hf, rfl⟩ := (mem_filesAt env p file).2 hb
    refine ⟨f, hf, ?_, ?_⟩
    · rw [← wanted_iff, isWanted_eq, decide_eq_true_iff] at hpy; exact hpy
    · unfold fileTests
      rw [hn]; rfl

/-- The source cannot be loaded: nothing is at its path, a Python file there cannot be imported, or no test there has the name in the address. -/
def Broken (env : CEnv) (s : Source) : Prop :=
  ∃ p a, Parts s.addr p a ∧
    (env.entry p = .missing ∨ (∃ file, Below (env.entry p) p file ∧ ['.', 'p', 'y'] <:+ file ∧ env.contents file = none) ∨
      ∃ b, a = some b ∧ ∀ x, At env p x → ¬ Named b x)

theorem sourceTests_fails (env : CEnv) (hw : CWf env) (ex : Meta.Test → Bool) (s : Source) : sourceTests env ex s = .cannotLoad ↔ Broken env s := by
  have hp := splitColon_parts s.addr
  have hsplit : sourceTests env ex s = .cannotLoad ↔ iterAddress (pathTests env) ex s.addr = .cannotLoad := by
    unfold sourceTests
    cases iterAddress (pathTests env) ex s.addr with
    | cannotLoad => exact Iff.rfl
    | ok l => cases s.matcher <;> simp
  rw [hsplit]
  unfold iterAddress Broken
  simp only
  constructor
  · intro h
    refine ⟨_, _, hp, ?_⟩
    cases ht : pathTests env (splitColon s.addr).1 with
    | cannotLoad =>
      rcases (pathTests_fails env _).1 ht with h | h
      · exact .inl h
      · exact .inr (.inl h)
    | ok tests =>
      rw [ht] at h
      simp only at h
      cases ha : (splitColon s.addr).2 with
      | none => rw [ha] at h; cases h
      | some a =>
        rw [ha] at h
        simp only at h
        refine .inr (.inr ⟨a, rfl, ?_⟩)
        intro x hx hn
        have : tests.any (addressMatches a) = true :=
          List.any_eq_true.2 ⟨x, ((pathTests_spec env hw _ _ ht).1 x).2 hx, (named_iff a x).2 hn⟩
        rw [if_pos this] at h
        cases h
  · rintro ⟨p, a, hpa, h⟩
    rw [parts_unique _ _ _ hpa]
    simp only
    cases ht : pathTests env p with
    | cannotLoad => rfl
    | ok tests =>
      have hne : ¬ (env.entry p = .missing ∨ ∃ file, Below (env.entry p) p file ∧ ['.', 'p', 'y'] <:+ file ∧ env.contents file = none) := by
        rw [← pathTests_fails, ht]; simp
      rcases h with h | h | ⟨b, rfl, h⟩
      · exact absurd (.inl h) hne
      · exact absurd (.inr h) hne
      · simp only
        rw [if_neg]
        intro hany
        obtain ⟨x, hx, hm⟩ := List.any_eq_true.1 hany
        exact h x (((pathTests_spec env hw _ _ ht).1 x).1 hx) ((named_iff b x).1 hm)

theorem sourceTests_spec (env : CEnv) (hw : CWf env) (c : CConf) (s : Source) (l : List Meta.Test) (h : sourceTests env c.excluded s = .ok l) :
    (∀ x, x ∈ l ↔ Selects env c s x) ∧ l.Pairwise (Precedes env (splitColon s.addr).1) := by
  have hp := splitColon_parts s.addr
  unfold sourceTests iterAddress at h
  simp only at h
  cases ht : pathTests env (splitColon s.addr).1 with
  | cannotLoad => rw [ht] at h; cases h
  | ok tests =>
    rw [ht] at h
    simp only at h
    obtain ⟨hm, hs⟩ := pathTests_spec env hw _ _ ht
    have hex : ∀ x, (!(c.excluded x)) = true ↔ ∀ m ∈ c.filters, m x = true := by
      intro x
      unfold CConf.excluded
      rw [Bool.not_not, List.all_eq_true]
    have hsel : ∀ x, Selects env c s x ↔ At env (splitColon s.addr).1 x ∧ (∀ b, (splitColon s.addr).2 = some b → Named b x) ∧
        (∀ m ∈ c.filters, m x = true) ∧ ∀ m, s.matcher = some m → m x = true := by
      intro x
      constructor
      · rintro ⟨p, a, hpa, h1, h2, h3, h4⟩
        rw [parts_unique _ _ _ hpa]
        exact ⟨h1, h2, h3, h4⟩
      · rintro ⟨h1, h2, h3, h4⟩
        exact ⟨_, _, hp, h1, h2, h3, h4⟩
    -- the tests that remain after the address
    have key : ∀ l', (∀ x, x ∈ l' ↔ At env (splitColon s.addr).1 x ∧ (∀ b, (splitColon s.addr).2 = some b → Named b x) ∧
        ∀ m ∈ c.filters, m x = true) → l'.Pairwise (Precedes env (splitColon s.addr).1) →
        ∀ l'', (match s.matcher with | none => (R.ok l' : R (List Meta.Test)) | some m => .ok (l'.filter m)) = .ok l'' →
        (∀ x, x ∈ l'' ↔ Selects env c s x) ∧ l''.Pairwise (Precedes env (splitColon s.addr).1) := by
      intro l' h1 h2 l'' h3
      cases hmt : s.matcher with
      | none =>
        rw [hmt] at h3
        obtain rfl : l' = l'' := by simpa using h3
        refine ⟨fun x => ?_, h2⟩
        rw [h1, hsel, hmt]
        constructor
        · rintro ⟨a, b, c⟩; exact ⟨a, b, c, by intro m hm; cases hm⟩
        · rintro ⟨a, b, c, -⟩; exact ⟨a, b, c⟩
      | some m =>
        rw [hmt] at h3
        obtain rfl : l'.filter m = l'' := by simpa using h3
        refine ⟨fun x => ?_, h2.sublist List.filter_sublist⟩
        rw [List.mem_filter, h1, hsel, hmt]
        constructor
        · rintro ⟨⟨a, b, c⟩, d⟩
          refine ⟨a, b, c, ?_⟩
          intro m' hm'
          obtain rfl : m = m' := by simpa using hm'
          exact d
        · rintro ⟨a, b, c, d⟩; exact ⟨⟨a, b, c⟩, d m rfl⟩
    cases ha : (splitColon s.addr).2 with
    | none =>
      rw [ha] at h key
      simp only at h
      refine key _ ?_ (hs.sublist List.filter_sublist) l h
      intro x
      rw [List.mem_filter, hm, hex]
      constructor
      · rintro ⟨a, b⟩; exact ⟨a, (by intro b hb; cases hb), b⟩
      · rintro ⟨a, -, b⟩; exact ⟨a, b⟩
    | some a =>
      rw [ha] at h key
      simp only at h
      by_cases hany : tests.any (addressMatches a) = true
      · rw [if_pos hany] at h
        refine key _ ?_ (hs.sublist List.filter_sublist) l h
        intro x
        rw [List.mem_filter, hm, Bool.and_eq_true, hex, named_iff]
        constructor
        · rintro ⟨a1, b, c⟩
          refine ⟨a1, ?_, c⟩
          intro b' hb'
          obtain rfl : a = b' := by simpa using hb'
          exact b
        · rintro ⟨a1, b, c⟩; exact ⟨a1, b a rfl, c⟩
      · rw [if_neg hany] at h; cases h

theorem sourcesTests_fails (env : CEnv) (hw : CWf env) (ex : Meta.Test → Bool) (ss : List Source) :
    sourcesTests env ex ss = .cannotLoad ↔ ∃ s ∈ ss, Broken env s := by
  induction ss with
  | nil => simp [sourcesTests]
  | cons s ss ih =>
    unfold sourcesTests
    have hcons : (∃ t ∈ s :: ss, Broken env t) ↔ Broken env s ∨ ∃ t ∈ ss, Broken env t := by simp
    rw [hcons, ← sourceTests_fails env hw ex s]
    cases h1 : sourceTests env ex s with
    | cannotLoad => simp
    | ok l =>
      simp only [reduceCtorEq, false_or]
      rw [← ih]
      cases h2 : sourcesTests env ex ss with
      | cannotLoad => simp
      | ok l' => simp

theorem sourcesTests_spec (env : CEnv) (ex : Meta.Test → Bool) (ss : List Source) (l : List Meta.Test) (h : sourcesTests env ex ss = .ok l) :
    l = (ss.map (fun s => match sourceTests env ex s with | .ok l => l | .cannotLoad => [])).flatten ∧
    ∀ s ∈ ss, ∃ l', sourceTests env ex s = .ok l' := by
  induction ss generalizing l with
  | nil =>
    obtain rfl : [] = l := by simpa [sourcesTests] using h
    exact ⟨rfl, by intro s hs; cases hs⟩
  | cons s ss ih =>
    unfold sourcesTests at h
    cases h1 : sourceTests env ex s with
    | cannotLoad => rw [h1] at h; cases h
    | ok l1 =>
      rw [h1] at h
      simp only at h
      cases h2 : sourcesTests env ex ss with
      | cannotLoad => rw [h2] at h; cases h
      | ok l2 =>
        rw [h2] at h
        obtain rfl : l1 ++ l2 = l := by simpa using h
        obtain ⟨e, hall⟩ := ih l2 h2
        refine ⟨?_, ?_⟩
        · rw [List.map_cons, List.flatten_cons, h1, ← e]
        · intro t ht
          rcases List.mem_cons.1 ht with rfl | ht
          · exact ⟨l1, h1⟩
          · exact hall t ht

/-! ## C163 -/

/-- What is used when nothing is named: the sources of the command line and of suite files, or else, unless there is an interactive test, those configured. -/
def Used (c : CConf) (ss : List Source) : Prop :=
  let named := c.args.map (fun a => ({ addr := a, matcher := none } : Source)) ++ c.suite
  if named = [] ∧ c.interactive = false then ss = c.defaults.map (fun a => { addr := a, matcher := none }) else ss = named

theorem used_sources (c : CConf) (ss : List Source) (h : Used c ss) : c.sources = ss := by
  unfold Used at h
  unfold CConf.sources
  simp only at h ⊢
  generalize c.args.map (fun a => ({ addr := a, matcher := none } : Source)) ++ c.suite = nm at *
  by_cases hc : nm = [] ∧ c.interactive = false
  · rw [if_pos hc] at h
    rw [if_pos (by simp [hc.1, hc.2])]
    exact h.symm
  · rw [if_neg hc] at h
    rw [if_neg, h]
    intro hh
    simp only [Bool.and_eq_true, List.isEmpty_iff, Bool.not_eq_true'] at hh
    exact hc hh

/-- C163: what is run is the interactive test, if asked for, then as many times as all is to be repeated: for each source used in the order given, the
tests it selects, each as many times as it is to be repeated.  For each source a test is taken once, in the order of files, names, methods and variations. -/
theorem C163_collect (env : CEnv) (hw : CWf env) (c : CConf) (ss : List Source) (hu : Used c ss) (l : List (Option Meta.Test))
    (h : collectTests env c = .ok l) :
    ∃ per : Source → List Meta.Test,
      l = (if c.interactive then [none] else []) ++ (List.replicate (max 1 c.all)
        ((ss.flatMap per).flatMap (fun x => List.replicate (c.each * env.rep x) (some x)))).flatten ∧
      ∀ s ∈ ss, (per s).Nodup ∧ (∀ x, x ∈ per s ↔ Selects env c s x) ∧ ∀ p a, Parts s.addr p a → (per s).Pairwise (Precedes env p) := by
  have hs := used_sources c ss hu
  have hn : c.sources ≠ [] ∨ c.interactive = true := by
    cases hi : c.interactive with
    | true => exact .inr rfl
    | false =>
      refine .inl ?_
      intro he
      unfold collectTests at h
      rw [he, hi, if_pos (by rfl)] at h
      cases h
  cases ht : sourcesTests env c.excluded c.sources with
  | cannotLoad =>
    unfold collectTests at h
    rw [ht] at h
    split at h <;> cases h
  | ok tests =>
    have hc := collect_eq env c tests ht hn
    rw [h] at hc
    simp only at hc
    obtain ⟨e, hall⟩ := sourcesTests_spec env c.excluded c.sources tests ht
    rw [hs] at e hall
    refine ⟨fun s => match sourceTests env c.excluded s with | .ok l => l | .cannotLoad => [], ?_, ?_⟩
    · generalize hL : (if c.interactive then [none] else [] : List (Option Meta.Test)) ++
        ((List.replicate (max 1 c.all) (tests.flatMap (fun x => List.replicate (c.each * env.rep x) x))).flatten).map some = L at hc
      by_cases hL0 : L = []
      · rw [if_pos hL0] at hc; cases hc
      · rw [if_neg hL0] at hc
        have hc2 := Collected.ok.inj hc
        rw [hc2, ← hL, List.map_flatten, List.map_replicate, List.map_flatMap, e, List.flatMap_def (l := ss)]
        simp only [List.map_replicate]
    · intro s hsm
      obtain ⟨l', hl'⟩ := hall s hsm
      simp only [hl']
      obtain ⟨h1, h2⟩ := sourceTests_spec env hw c s l' hl'
      refine ⟨?_, h1, ?_⟩
      · refine h2.imp ?_
        intro a b hab e
        subst e
        exact precedes_irrefl env hw _ a hab
      · intro p a hpa
        rw [parts_unique _ _ _ hpa] at h2
        exact h2

/-- a directory with two modules, one of them in a directory below, a hidden directory and a broken module elsewhere -/
def cenv : CEnv where
  entry p := if p = ['d'] then .dir (.dir [['t', '.', 'p', 'y'], ['x']] [(['.', 'h'], .dir [['u', '.', 'p', 'y']] []), (['e'], .dir [['v', '.', 'p', 'y']] [])])
    else if p = ['b', '.', 'p', 'y'] then .file else .missing
  contents f := if f = ['d', '/', 't', '.', 'p', 'y'] then
      some [(['z'], .function ['t', 'e', 's', 't', '_', 'z']), (['C'], .testClass false [['t', 'e', 's', 't', '2'], ['t', 'e', 's', 't', '1']]), (['n'], .function ['n'])]
    else if f = ['d', '/', 'e', '/', 'v', '.', 'p', 'y'] then some [(['w'], .function ['t', 'e', 's', 't', '_', 'w'])] else none
  variations _ x _ := if x = ['w'] then [some [(['q'], .index 0, ['2'])], some [(['q'], .index 1, ['1'])]] else [none]
  rep x := if x.factory = ['z'] then 2 else 1

theorem cenv_wf : CWf cenv where
  dirs := by
    intro p n h
    unfold cenv at h
    simp only at h
    split at h
    · obtain rfl := Entry.dir.inj h
      refine ⟨.dir (by decide) (by decide) ?_, ?_⟩
      · intro d hd
        simp only [List.mem_cons, List.not_mem_nil, or_false] at hd
        rcases hd with rfl | rfl
        · exact .dir (by decide) (by decide) (by intro d hd; cases hd)
        · exact .dir (by decide) (by decide) (by intro d hd; cases hd)
      · intro f hf
        have := (C73_finds _ f).2 hf
        revert f
        have hd : ∀ f ∈ walk (.dir [['t', '.', 'p', 'y'], ['x']] [(['.', 'h'], .dir [['u', '.', 'p', 'y']] []), (['e'], .dir [['v', '.', 'p', 'y']] [])]),
            ∀ a ∈ f, '/' ∉ a := by decide
        exact fun f _ hf => hd f hf
    · split at h <;> cases h
  names := by
    intro f things h
    unfold cenv at h
    simp only at h
    split at h
    · obtain rfl := Option.some.inj h
      refine ⟨by decide, ?_⟩
      intro x a ms hm
      simp only [List.mem_cons, List.not_mem_nil, or_false, Prod.mk.injEq, reduceCtorEq, and_false, false_or, Thing.testClass.injEq] at hm
      obtain ⟨-, -, rfl⟩ := hm
      decide
    · split at h
      · obtain rfl := Option.some.inj h
        refine ⟨by decide, ?_⟩
        intro x a ms hm
        simp at hm
      · cases h
  vars := by
    intro f x a
    unfold cenv
    simp only
    split <;> decide

def ct (file factory inF : Str) (v : Option Meta.Vals := none) : Meta.Test := ⟨file, factory, inF, none, v⟩

/-- a directory, and a test of it by its address: methods are sorted, the hidden directory is left out, variations are in their order; the test with the
`repeat` marker is there twice, for each of the sources -/
example : collectTests cenv { args := [['d'], ['d', ':', 'z']], all := 2 } =
    .ok ((List.replicate 2 [ct ['d', '/', 't', '.', 'p', 'y'] ['C'] ['.', 't', 'e', 's', 't', '1'], ct ['d', '/', 't', '.', 'p', 'y'] ['C'] ['.', 't', 'e', 's', 't', '2'],
      ct ['d', '/', 't', '.', 'p', 'y'] ['z'] [], ct ['d', '/', 't', '.', 'p', 'y'] ['z'] [],
      ct ['d', '/', 'e', '/', 'v', '.', 'p', 'y'] ['w'] [] (some [(['q'], .index 0, ['2'])]), ct ['d', '/', 'e', '/', 'v', '.', 'p', 'y'] ['w'] [] (some [(['q'], .index 1, ['1'])]),
      ct ['d', '/', 't', '.', 'p', 'y'] ['z'] [], ct ['d', '/', 't', '.', 'p', 'y'] ['z'] []]).flatten.map some) := by decide +kernel

/-- nothing named: what is configured is used, with the interactive test it is not; filters and matchers apply -/
example : collectTests cenv { defaults := [['d', ':', 'C', '.', 't', 'e', 's', 't', '2']] } =
      .ok [some (ct ['d', '/', 't', '.', 'p', 'y'] ['C'] ['.', 't', 'e', 's', 't', '2'])] ∧
    collectTests cenv { defaults := [['d']], interactive := true } = .ok [none] ∧
    collectTests cenv { suite := [⟨['d'], some (fun x => x.factory == ['z'])⟩, ⟨['d'], some (fun x => x.factory == ['w'])⟩], filters := [fun x => x.variation != some [(['q'], .index 1, ['1'])]] } =
      .ok [some (ct ['d', '/', 't', '.', 'p', 'y'] ['z'] []), some (ct ['d', '/', 't', '.', 'p', 'y'] ['z'] []),
        some (ct ['d', '/', 'e', '/', 'v', '.', 'p', 'y'] ['w'] [] (some [(['q'], .index 0, ['2'])]))] := by decide +kernel

theorem count_flatMap_replicate (l : List Meta.Test) (f : Meta.Test → Nat) (x : Meta.Test) :
    (l.flatMap (fun y => List.replicate (f y) (some y))).count (some x) = f x * l.count x := by
  induction l with
  | nil => simp
  | cons a l ih =>
    rw [List.flatMap_cons, List.count_append, ih, List.count_cons]
    by_cases h : a = x
    · subst h
      rw [List.count_replicate_self]
      simp only [BEq.rfl, if_true]
      rw [Nat.mul_add, Nat.mul_one, Nat.add_comm]
    · have : ¬ (some a = some x) := by simpa using h
      rw [List.count_replicate]
      simp [h]

open Classical in
/-- C163: each test is run as often as `--repeat-all` times `--repeat-each` times its own `repeat` times the number of sources that select it. -/
theorem C163_count (env : CEnv) (hw : CWf env) (c : CConf) (ss : List Source) (hu : Used c ss) (l : List (Option Meta.Test))
    (h : collectTests env c = .ok l) (x : Meta.Test) :
    l.count (some x) = max 1 c.all * (c.each * env.rep x * ss.countP (fun s => decide (Selects env c s x))) := by
  obtain ⟨per, rfl, hper⟩ := C163_collect env hw c ss hu l h
  rw [List.count_append, List.count_flatten, List.map_replicate, List.sum_replicate_nat, count_flatMap_replicate]
  have h0 : (if c.interactive then [none] else [] : List (Option Meta.Test)).count (some x) = 0 := by
    cases c.interactive <;> simp
  rw [h0, Nat.zero_add]
  have h1 : (ss.flatMap per).count x = ss.countP (fun s => decide (Selects env c s x)) := by
    clear hu h h0
    induction ss with
    | nil => rfl
    | cons s ss ih =>
      rw [List.flatMap_cons, List.count_append, ih (fun t ht => hper t (List.mem_cons_of_mem _ ht)), List.countP_cons, Nat.add_comm]
      congr 1
      obtain ⟨hnd, hm, -⟩ := hper s List.mem_cons_self
      by_cases hx : Selects env c s x
      · rw [if_pos (decide_eq_true hx)]
        exact count_eq_one_of_mem hnd ((hm x).2 hx)
      · rw [if_neg (by simpa using hx)]
        exact List.count_eq_zero.2 (fun hh => hx ((hm x).1 hh))
  rw [h1]

theorem ite_load (l : List (Option Meta.Test)) : (if l = [] then Collected.cannotLoad else .ok l) = .cannotLoad ↔ l = [] := by
  by_cases h : l = []
  · rw [if_pos h]; exact ⟨fun _ => h, fun _ => rfl⟩
  · rw [if_neg h]
    exact ⟨(fun hh => by cases hh), fun hh => absurd hh h⟩

/-- C163: nothing is run and the reason is that tests cannot be loaded, exactly if nothing is named (and no defaults and no interactive test), or a
source used is broken, or no test is left after all. -/
theorem C163_fails_iff (env : CEnv) (hw : CWf env) (c : CConf) (ss : List Source) (hu : Used c ss) :
    collectTests env c = .cannotLoad ↔
      (∃ s ∈ ss, Broken env s) ∨ c.interactive = false ∧ ∀ s ∈ ss, ∀ x, Selects env c s x → c.each * env.rep x = 0 := by
  have hs := used_sources c ss hu
  cases ht : sourcesTests env c.excluded c.sources with
  | cannotLoad =>
    have hb := (sourcesTests_fails env hw c.excluded c.sources).1 ht
    rw [hs] at hb
    refine ⟨fun _ => .inl hb, fun _ => ?_⟩
    unfold collectTests
    rw [ht]
    split <;> rfl
  | ok tests =>
    have hnb : ¬ ∃ s ∈ ss, Broken env s := by
      rw [← hs, ← sourcesTests_fails env hw c.excluded, ht]; simp
    simp only [hnb, false_or]
    by_cases hn : c.sources ≠ [] ∨ c.interactive = true
    · rw [collect_eq env c tests ht hn]
      simp only
      have hmem : ∀ x, x ∈ tests ↔ ∃ s ∈ ss, Selects env c s x := by
        obtain ⟨e, hall⟩ := sourcesTests_spec env c.excluded c.sources tests ht
        rw [hs] at e hall
        intro x
        rw [e, List.mem_flatten]
        constructor
        · rintro ⟨l, hl, hx⟩
          obtain ⟨s, hs, rfl⟩ := List.mem_map.1 hl
          obtain ⟨l', hl'⟩ := hall s hs
          rw [hl'] at hx
          exact ⟨s, hs, ((sourceTests_spec env hw c s l' hl').1 x).1 hx⟩
        · rintro ⟨s, hs, hx⟩
          obtain ⟨l', hl'⟩ := hall s hs
          refine ⟨_, List.mem_map.2 ⟨s, hs, rfl⟩, ?_⟩
          rw [hl']
          exact ((sourceTests_spec env hw c s l' hl').1 x).2 hx
      have hmax : max 1 c.all ≠ 0 := by omega
      have hnil : ((if c.interactive then [none] else [] : List (Option Meta.Test)) ++
          ((List.replicate (max 1 c.all) (tests.flatMap (fun x => List.replicate (c.each * env.rep x) x))).flatten).map some = []) ↔
          c.interactive = false ∧ ∀ x ∈ tests, c.each * env.rep x = 0 := by
        rw [List.append_eq_nil_iff, List.map_eq_nil_iff, List.flatten_eq_nil_iff]
        refine and_congr ?_ ?_
        · cases c.interactive <;> simp
        · constructor
          · intro h x hx
            have h1 := h _ (List.mem_replicate.2 ⟨hmax, rfl⟩)
            rw [List.flatMap_eq_nil_iff] at h1
            simpa using h1 x hx
          · intro h l hl
            obtain ⟨-, rfl⟩ := List.mem_replicate.1 hl
            rw [List.flatMap_eq_nil_iff]
            intro x hx
            rw [h x hx]; rfl
      have hr : (c.interactive = false ∧ ∀ x ∈ tests, c.each * env.rep x = 0) ↔
          c.interactive = false ∧ ∀ s ∈ ss, ∀ x, Selects env c s x → c.each * env.rep x = 0 := by
        refine and_congr Iff.rfl ?_
        constructor
        · intro h s hs x hx; exact h x ((hmem x).2 ⟨s, hs, hx⟩)
        · intro h x hx
          obtain ⟨s, hs, hx⟩ := (hmem x).1 hx
          exact h s hs x hx
      rw [← hr, ← hnil]
      exact ite_load _
    · have hn1 : c.sources = [] := Classical.byContradiction (fun h => hn (.inl h))
      have hn2 : c.interactive = false := by
        cases hi : c.interactive with
        | false => rfl
        | true => exact absurd (.inr hi) hn
      refine ⟨fun _ => ⟨hn2, ?_⟩, fun _ => ?_⟩
      · rw [← hs, hn1]; intro s hs; cases hs
      · unfold collectTests
        rw [hn1, hn2, if_pos (by rfl)]

/-- nothing named, nothing at the path, a broken module, no test of the name, and nothing left by the filters -/
example : collectTests cenv {} = .cannotLoad ∧ collectTests cenv { args := [['d'], ['m']] } = .cannotLoad ∧
    collectTests cenv { args := [['b', '.', 'p', 'y']], interactive := true } = .cannotLoad ∧
    collectTests cenv { args := [['d', ':', 'n']] } = .cannotLoad ∧ collectTests cenv { args := [['d']], filters := [fun _ => false] } = .cannotLoad ∧
    collectTests cenv { args := [['d']], filters := [fun _ => false], interactive := true } = .ok [none] := by decide +kernel

/-- C163: collecting never fails for another reason. -/
theorem C163_no_other (env : CEnv) (c : CConf) : collectTests env c ≠ .internalError := by
  intro h
  cases ht : sourcesTests env c.excluded c.sources with
  | cannotLoad =>
    unfold collectTests at h
    rw [ht] at h
    split at h <;> cases h
  | ok tests =>
    by_cases hn : c.sources ≠ [] ∨ c.interactive = true
    · rw [collect_eq env c tests ht hn] at h
      simp only at h
      generalize (if c.interactive then [none] else [] : List (Option Meta.Test)) ++
        ((List.replicate (max 1 c.all) (tests.flatMap (fun x => List.replicate (c.each * env.rep x) x))).flatten).map some = L at h
      by_cases hL : L = []
      · rw [if_pos hL] at h; cases h
      · rw [if_neg hL] at h; cases h
    · have hn1 : c.sources = [] := Classical.byContradiction (fun h => hn (.inl h))
      have hn2 : c.interactive = false := by
        cases hi : c.interactive with
        | false => rfl
        | true => exact absurd (.inr hi) hn
      unfold collectTests at h
      rw [hn1, hn2, if_pos (by rfl)] at h
      cases h

/-- the hypotheses of C163 hold for this: a test is run four times as two sources select it and all is repeated -/
example : Used { args := [['d'], ['d', ':', 'C']], all := 2 } [⟨['d'], none⟩, ⟨['d', ':', 'C'], none⟩] ∧
    ∃ l, collectTests cenv { args := [['d'], ['d', ':', 'C']], all := 2 } = .ok l ∧
      l.count (some (ct ['d', '/', 't', '.', 'p', 'y'] ['C'] ['.', 't', 'e', 's', 't', '1'])) = 4 := by
  refine ⟨by simp [Used], _, rfl, by decide +kernel⟩

end Slash.Load
