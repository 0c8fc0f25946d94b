import Mathlib.Data.List.Induction
import Verif.Model.Log
import Verif.Lemmas.Util
/-! Log files and handlers: closed form of sessions. -/
namespace Slash.Log

def keys (l : List (Path × H)) : List Path := l.map (·.1)

/-! ## Dispatching -/

/-- A handler of the list takes the record and lets nothing through. -/
def blocked (cfg : Cfg) (l : List H) (r : Rec) : Bool :=
  l.any (fun h => h.wants.ok r && h.filter.ok cfg r && (h.blackhole || !h.bubble))

theorem dispatch_append (cfg : Cfg) (l m : List H) (r : Rec) :
    dispatch cfg (l ++ m) r = dispatch cfg l r ++ if blocked cfg l r then [] else dispatch cfg m r := by
  induction l with
  | nil => simp [dispatch, blocked]
  | cons h l ih =>
    have e : blocked cfg (h :: l) r = ((h.wants.ok r && h.filter.ok cfg r && (h.blackhole || !h.bubble)) || blocked cfg l r) := rfl
    rw [e, List.cons_append, dispatch, dispatch, ih]
    by_cases h1 : (h.wants.ok r && h.filter.ok cfg r) = true <;> by_cases h2 : h.blackhole = true <;> by_cases h3 : h.bubble = true <;>
      simp [h1, h2, h3]

theorem dispatch_mem {cfg : Cfg} {l : List H} {r : Rec} {d : Dest} (h : d ∈ dispatch cfg l r) : ∃ x ∈ l, x.dest = d := by
  induction l with
  | nil => cases h
  | cons a l ih =>
    simp only [dispatch] at h
    split at h
    · split at h
      · cases h
      · split at h
        · rcases List.mem_cons.1 h with rfl | h
          · exact ⟨a, by simp, rfl⟩
          · obtain ⟨x, hx, e⟩ := ih h; exact ⟨x, by simp [hx], e⟩
        · rw [List.mem_singleton.1 h]; exact ⟨a, by simp, rfl⟩
    · obtain ⟨x, hx, e⟩ := ih h; exact ⟨x, by simp [hx], e⟩

/-! ## Entering and leaving contexts -/

theorem fileCtx_frame (cfg : Cfg) (path : Option Path) (b : Bool) (f : Filter) (st : St) (S : List H) (T : List Ev) :
    fileCtx cfg path b f { st with stack := st.stack ++ S, trace := T ++ st.trace } =
      ((fileCtx cfg path b f st).1, (fileCtx cfg path b f st).2.1,
        { (fileCtx cfg path b f st).2.2 with stack := (fileCtx cfg path b f st).2.2.stack ++ S, trace := T ++ (fileCtx cfg path b f st).2.2.trace }) := by
  unfold fileCtx
  split
  · simp only
    split <;> simp
  · rfl

/-- What opening a file does. -/
structure Opened (cfg : Cfg) (path : Option Path) (b : Bool) (f : Filter) (st : St) (r : Option H × Option Path × St) : Prop where
  act : ∃ new, r.2.2.active = new ++ st.active ∧ keys new = r.2.1.toList ∧ ∀ a ∈ new, a.2 = { dest := .file a.1, filter := f, bubble := b }
  stack : r.2.2.stack = st.stack
  trace : r.2.2.trace = st.trace ++ r.2.1.toList.map .opened
  fresh : ∀ p ∈ r.2.1.toList, p ∉ keys st.active ∧ path = some p
  handler : ∀ h ∈ r.1.toList, (∃ p, path = some p ∧ (p, h) ∈ r.2.2.active) ∨ h = { dest := .nowhere, filter := f, blackhole := true } ∧ b = false

theorem find_none {l : List (Path × H)} {p : Path} (h : l.find? (fun a => a.1 == p) = none) : p ∉ keys l := by
  intro hm
  obtain ⟨a, ha, rfl⟩ := List.mem_map.1 hm
  have := List.find?_eq_none.1 h a ha
  simp at this

theorem find_some {l : List (Path × H)} {p : Path} {a : Path × H} (h : l.find? (fun a => a.1 == p) = some a) : a ∈ l ∧ a.1 = p :=
  ⟨List.mem_of_find?_eq_some h, by simpa using List.find?_some h⟩

theorem opened_fileCtx (cfg : Cfg) (path : Option Path) (b : Bool) (f : Filter) (st : St) : Opened cfg path b f st (fileCtx cfg path b f st) := by
  have none' : ∀ path : Option Path, Opened cfg path b f st
      (if b then none else some { dest := .nowhere, filter := f, blackhole := true }, none, st) := by
    intro path
    refine ⟨⟨[], by simp, rfl, by simp⟩, rfl, by simp, by simp, fun x hx => ?_⟩
    cases b
    · simp only [Bool.false_eq_true, if_false, Option.toList_some, List.mem_singleton] at hx
      exact .inr ⟨hx, rfl⟩
    · simp at hx
  unfold fileCtx
  cases cfg.root with
  | false => exact none' path
  | true =>
    cases path with
    | none => exact none' none
    | some p =>
      simp only
      split
      · rename_i q h heq
        obtain ⟨h1, h2⟩ := find_some heq
        refine ⟨⟨[], by simp, rfl, by simp⟩, rfl, by simp, by simp, fun x hx => ?_⟩
        simp only [Option.toList_some, List.mem_singleton] at hx
        subst hx
        exact .inl ⟨p, rfl, by simp only at h2; rw [← h2]; exact h1⟩
      · rename_i heq
        refine ⟨⟨[(p, _)], rfl, rfl, by simp⟩, rfl, by simp, ?_, fun x hx => ?_⟩
        · simpa using find_none heq
        · simp only [Option.toList_some, List.mem_singleton] at hx
          subst hx
          exact .inl ⟨p, rfl, by simp⟩

/-- What entering a context does. -/
structure Entered (cfg : Cfg) (who : Option Nat) (sh : Option H) (st : St) (r : Option H × List Path × St) (a b : List H) : Prop where
  act : ∃ new, r.2.2.active = new ++ st.active ∧ keys new = r.2.1 ∧
    ∀ a ∈ new, a.2.dest = .file a.1 ∧ a.2.wants = .level 0 ∧ a.2.blackhole = false ∧
      (cfg.main who = some a.1 ∧ a.2 = { dest := .file a.1, filter := .core } ∨
       (cfg.raw who = some a.1 ∨ cfg.highlights who = some a.1) ∧ a.2.bubble = true)
  fresh : ∀ p ∈ r.2.1, p ∉ keys st.active
  nodup : r.2.1.Nodup
  trace : r.2.2.trace = st.trace ++ r.2.1.reverse.map .opened
  stack : r.2.2.stack = lateHandlers cfg sh ++ (a ++ earlyHandlers cfg ++ b) ++ r.1.toList ++ st.stack
  isMain : ∀ x ∈ r.1.toList, (∃ p, cfg.main who = some p ∧ (p, x) ∈ r.2.2.active) ∨ x = { dest := .nowhere, filter := .core, blackhole := true }
  isMid : ∀ x ∈ a ++ b, ∃ p, (cfg.raw who = some p ∨ cfg.highlights who = some p) ∧ (p, x) ∈ r.2.2.active

/-- The rotating file of a context. -/
def rotCtx (cfg : Cfg) (who : Option Nat) (st : St) : Option H × Option Path × St :=
  if cfg.rotating then fileCtx cfg (cfg.raw who) true .core st else (none, none, st)

theorem opened_rotCtx (cfg : Cfg) (who : Option Nat) (st : St) : Opened cfg (cfg.raw who) true .core st (rotCtx cfg who st) := by
  unfold rotCtx
  cases cfg.rotating with
  | true => exact opened_fileCtx ..
  | false => exact ⟨⟨[], by simp, rfl, by simp⟩, rfl, by simp, by simp, by simp⟩

theorem enter_eq (cfg : Cfg) (who : Option Nat) (sh : Option H) (st : St) :
    enter cfg who sh st =
      (let r1 := fileCtx cfg (cfg.main who) false .core st
       let r2 := rotCtx cfg who (push r1.1 r1.2.2)
       let r3 := fileCtx cfg (cfg.highlights who) true .highlight
        { push r2.1 r2.2.2 with stack := earlyHandlers cfg ++ (push r2.1 r2.2.2).stack }
       (r1.1, r3.2.1.toList ++ r2.2.1.toList ++ r1.2.1.toList,
        { push r3.1 r3.2.2 with stack := lateHandlers cfg sh ++ (push r3.1 r3.2.2).stack })) := rfl

theorem enter_entered (cfg : Cfg) (who : Option Nat) (sh : Option H) (st : St) :
    ∃ a b, Entered cfg who sh st (enter cfg who sh st) a b := by
  rw [enter_eq]
  have a1 := opened_fileCtx cfg (cfg.main who) false .core st
  generalize fileCtx cfg (cfg.main who) false .core st = r1 at a1 ⊢
  obtain ⟨h1, o1, s1⟩ := r1
  simp only
  have a2 := opened_rotCtx cfg who (push h1 s1)
  generalize rotCtx cfg who (push h1 s1) = r2 at a2 ⊢
  obtain ⟨h2, o2, s2⟩ := r2
  simp only
  have a3 := opened_fileCtx cfg (cfg.highlights who) true .highlight { push h2 s2 with stack := earlyHandlers cfg ++ (push h2 s2).stack }
  generalize fileCtx cfg (cfg.highlights who) true .highlight { push h2 s2 with stack := earlyHandlers cfg ++ (push h2 s2).stack } = r3 at a3 ⊢
  obtain ⟨h3, o3, s3⟩ := r3
  obtain ⟨⟨n1, e1, k1, m1⟩, b1, c1, d1, g1⟩ := a1
  obtain ⟨⟨n2, e2, k2, m2⟩, b2, c2, d2, g2⟩ := a2
  obtain ⟨⟨n3, e3, k3, m3⟩, b3, c3, d3, g3⟩ := a3
  simp only [push] at *
  have p1 : ∀ a ∈ n1, cfg.main who = some a.1 := fun a ha =>
    (d1 a.1 (by rw [← k1]; exact List.mem_map_of_mem ha)).2
  have p2 : ∀ a ∈ n2, cfg.raw who = some a.1 := fun a ha =>
    (d2 a.1 (by rw [← k2]; exact List.mem_map_of_mem ha)).2
  have p3 : ∀ a ∈ n3, cfg.highlights who = some a.1 := fun a ha =>
    (d3 a.1 (by rw [← k3]; exact List.mem_map_of_mem ha)).2
  have kk : ∀ (a b : List (Path × H)), keys (a ++ b) = keys a ++ keys b := fun a b => List.map_append
  refine ⟨h3.toList, h2.toList, ⟨n3 ++ n2 ++ n1, by simp [e1, e2, e3], by simp [kk, k1, k2, k3], ?_⟩, ?_, ?_, ?_, ?_, ?_, ?_⟩
  · intro a ha
    simp only [List.mem_append] at ha
    rcases ha with (ha | ha) | ha
    · rw [m3 a ha]; exact ⟨rfl, rfl, rfl, .inr ⟨.inr (p3 a ha), rfl⟩⟩
    · rw [m2 a ha]; exact ⟨rfl, rfl, rfl, .inr ⟨.inl (p2 a ha), rfl⟩⟩
    · rw [m1 a ha]; exact ⟨rfl, rfl, rfl, .inl ⟨p1 a ha, rfl⟩⟩
  · intro p hp
    simp only [List.mem_append] at hp
    rcases hp with (hp | hp) | hp
    · have := (d3 p hp).1; rw [e2, e1, kk, kk] at this; simp only [List.mem_append] at this; grind
    · have := (d2 p hp).1; rw [e1, kk] at this; simp only [List.mem_append] at this; grind
    · exact (d1 p hp).1
  · have q3 : ∀ p ∈ o3.toList, p ∉ o2.toList ∧ p ∉ o1.toList := fun p hp => by
      have := (d3 p hp).1; rw [e2, e1, kk, kk, k2, k1] at this; simp only [List.mem_append] at this; grind
    have q2 : ∀ p ∈ o2.toList, p ∉ o1.toList := fun p hp => by
      have := (d2 p hp).1; rw [e1, kk, k1] at this; simp only [List.mem_append] at this; grind
    cases o1 <;> cases o2 <;> cases o3 <;> simp_all
  · rw [c3, c2, c1]
    cases o1 <;> cases o2 <;> cases o3 <;> simp
  · simp [b1, b2, b3, List.append_assoc]
  · intro x hx
    rcases g1 x hx with ⟨p, hp, hm⟩ | ⟨hx, _⟩
    · exact .inl ⟨p, hp, by rw [e3, e2]; simp [hm]⟩
    · exact .inr hx
  · intro x hx
    simp only [List.mem_append] at hx
    rcases hx with hx | hx
    · rcases g3 x hx with ⟨p, hp, hm⟩ | ⟨_, hb⟩
      · exact ⟨p, .inr hp, hm⟩
      · cases hb
    · rcases g2 x hx with ⟨p, hp, hm⟩ | ⟨_, hb⟩
      · exact ⟨p, .inl hp, by rw [e3]; simp [hm]⟩
      · cases hb

/-! ## Frames -/

theorem rotCtx_frame (cfg : Cfg) (who : Option Nat) (st : St) (S : List H) (T : List Ev) :
    rotCtx cfg who { st with stack := st.stack ++ S, trace := T ++ st.trace } =
      ((rotCtx cfg who st).1, (rotCtx cfg who st).2.1,
        { (rotCtx cfg who st).2.2 with stack := (rotCtx cfg who st).2.2.stack ++ S, trace := T ++ (rotCtx cfg who st).2.2.trace }) := by
  unfold rotCtx
  cases cfg.rotating with
  | true => exact fileCtx_frame ..
  | false => rfl

theorem enter_frame (cfg : Cfg) (who : Option Nat) (sh : Option H) (A : List (Path × H)) (S : List H) (T : List Ev) :
    enter cfg who sh ⟨A, S, T⟩ =
      ((enter cfg who sh ⟨A, [], []⟩).1, (enter cfg who sh ⟨A, [], []⟩).2.1,
        { (enter cfg who sh ⟨A, [], []⟩).2.2 with
          stack := (enter cfg who sh ⟨A, [], []⟩).2.2.stack ++ S, trace := T ++ (enter cfg who sh ⟨A, [], []⟩).2.2.trace }) := by
  rw [enter_eq, enter_eq]
  have f1 := fileCtx_frame cfg (cfg.main who) false .core ⟨A, [], []⟩ S T
  simp only [List.nil_append, List.append_nil] at f1
  rw [f1]
  generalize fileCtx cfg (cfg.main who) false .core ⟨A, [], []⟩ = r1
  obtain ⟨h1, o1, s1⟩ := r1
  have f2 := rotCtx_frame cfg who (push h1 s1) S T
  simp only [push, ← List.append_assoc] at f2 ⊢
  rw [f2]
  generalize rotCtx cfg who _ = r2
  obtain ⟨h2, o2, s2⟩ := r2
  have f3 := fileCtx_frame cfg (cfg.highlights who) true .highlight { s2 with stack := earlyHandlers cfg ++ (h2.toList ++ s2.stack) } S T
  simp only [← List.append_assoc] at f3 ⊢
  rw [f3]
  simp only [List.append_assoc]

/-! ## Closed form of sessions -/

/-- What closing files does. -/
def closings (cfg : Cfg) (res : Option Nat) (ok : Bool) (ps : List Path) : List Ev :=
  ps.flatMap (fun p => [.closed p, .hook p res] ++ if cfg.cleanup && shouldDelete cfg ok then [.removed p] else [])

theorem close_foldl (cfg : Cfg) (res : Option Nat) (ok : Bool) (ps : List Path) (st : St) :
    ps.foldl (fun st p => close cfg res ok p st) st =
      ⟨st.active.filter (fun a => !ps.contains a.1), st.stack, st.trace ++ closings cfg res ok ps⟩ := by
  induction ps generalizing st with
  | nil => simp [closings, List.filter_eq_self.2]
  | cons p ps ih =>
    rw [List.foldl_cons, ih]
    simp only [close, List.filter_filter, closings, List.flatMap_cons, List.append_assoc]
    congr 1
    apply List.filter_congr
    intro a _
    simp only [List.contains_cons, Bool.not_or, bne]
    rw [Bool.and_comm]

theorem log_foldl (cfg : Cfg) (rs : List Rec) (st : St) :
    rs.foldl (fun st r => log cfg r st) st =
      { st with trace := st.trace ++ rs.flatMap (fun r => (dispatch cfg st.stack r).map (.sent · r)) } := by
  induction rs generalizing st with
  | nil => simp
  | cons r rs ih => rw [List.foldl_cons, ih]; simp [log]

/-- Entering a context of test `i` inside of a session. -/
abbrev entry (cfg : Cfg) (who : Option Nat) (sh : Option H) (A : List (Path × H)) : Option H × List Path × St := enter cfg who sh ⟨A, [], []⟩

/-- The handlers seen by a test. -/
def stackOf (cfg : Cfg) (sh : Option H) (A : List (Path × H)) (S : List H) (i : Nat) : List H := (entry cfg (some i) sh A).2.2.stack ++ S

/-- The trace of an item. -/
def itemTrace (cfg : Cfg) (sh : Option H) (A : List (Path × H)) (S : List H) : Item → List Ev
  | .log r => (dispatch cfg S r).map (.sent · r)
  | .test t => (entry cfg (some t.id) sh A).2.1.reverse.map .opened ++
      t.recs.flatMap (fun r => (dispatch cfg (stackOf cfg sh A S t.id) r).map (.sent · r)) ++
      closings cfg (some t.id) t.ok (entry cfg (some t.id) sh A).2.1

theorem filter_new {new A : List (Path × H)} {os : List Path} (hk : keys new = os) (hf : ∀ p ∈ os, p ∉ keys A) :
    (new ++ A).filter (fun a => !os.contains a.1) = A := by
  rw [List.filter_append, List.filter_eq_nil_iff.2, List.filter_eq_self.2]
  · rfl
  · intro a ha
    have : a.1 ∉ os := fun h => hf _ h (List.mem_map_of_mem ha)
    simpa using this
  · intro a ha
    have : a.1 ∈ os := by rw [← hk]; exact List.mem_map_of_mem ha
    simpa using this

theorem item_eq (cfg : Cfg) (sh : Option H) (st : St) (it : Item) :
    item cfg sh st it = { st with trace := st.trace ++ itemTrace cfg sh st.active st.stack it } := by
  obtain ⟨A, S, T⟩ := st
  cases it with
  | log r => rfl
  | test t =>
    obtain ⟨_, _, e⟩ := enter_entered cfg (some t.id) sh ⟨A, [], []⟩
    simp only [item, runTest]
    rw [enter_frame]
    obtain ⟨new, h1, h2, _⟩ := e.act
    simp only [log_foldl, leave, close_foldl, itemTrace, stackOf, entry]
    rw [h1, filter_new h2 e.fresh, e.trace]
    simp

theorem items_eq (cfg : Cfg) (sh : Option H) (items : List Item) (st : St) :
    items.foldl (item cfg sh) st = { st with trace := st.trace ++ items.flatMap (itemTrace cfg sh st.active st.stack) } := by
  induction items generalizing st with
  | nil => simp
  | cons it items ih => rw [List.foldl_cons, ih, item_eq]; simp

/-- The session's own context. -/
abbrev base (cfg : Cfg) : Option H × List Path × St := entry cfg none none []

theorem session_eq (cfg : Cfg) (items : List Item) (g : Bool) :
    session cfg items g =
      ⟨[], [], (base cfg).2.1.reverse.map .opened ++
        items.flatMap (itemTrace cfg (base cfg).1 (base cfg).2.2.active (base cfg).2.2.stack) ++
        closings cfg none (success g items) (base cfg).2.1⟩ := by
  obtain ⟨_, _, e⟩ := enter_entered cfg none none ⟨[], [], []⟩
  simp only [session]
  obtain ⟨new, h1, h2, _⟩ := e.act
  simp only [items_eq, leave, close_foldl, base, entry]
  rw [h1, filter_new h2 e.fresh, e.trace]
  simp

/-! ## Content of files -/

/-- The records that a destination gets, in order. -/
def got (d : Dest) (tr : List Ev) : List Rec := tr.filterMap (fun | .sent e r => if e = d then some r else none | _ => none)

theorem got_append (d : Dest) (a b : List Ev) : got d (a ++ b) = got d a ++ got d b := List.filterMap_append

theorem got_flatMap {α : Type} (d : Dest) (l : List α) (f : α → List Ev) : got d (l.flatMap f) = l.flatMap (fun a => got d (f a)) := by
  induction l with
  | nil => rfl
  | cons a l ih => simp [got_append, ih]

theorem got_sent (d : Dest) (l : List Dest) (r : Rec) : got d (l.map (.sent · r)) = List.replicate (l.count d) r := by
  induction l with
  | nil => rfl
  | cons a l ih =>
    simp only [List.map_cons, List.count_cons]
    have e : got d (Ev.sent a r :: l.map (.sent · r)) = (if a = d then [r] else []) ++ got d (l.map (.sent · r)) := by
      unfold got
      rw [List.filterMap_cons]
      by_cases h : a = d <;> simp [h]
    rw [e, ih]
    by_cases h : a = d
    · simp [h, List.replicate_succ]
    · simp [h]

theorem got_opened (d : Dest) (l : List Path) : got d (l.map .opened) = [] := by
  induction l with
  | nil => rfl
  | cons a l ih => exact ih

theorem got_closings (d : Dest) (cfg : Cfg) (res : Option Nat) (ok : Bool) (l : List Path) : got d (closings cfg res ok l) = [] := by
  unfold closings
  rw [got_flatMap, List.flatMap_eq_nil_iff]
  intro a _
  cases cfg.cleanup && shouldDelete cfg ok <;> rfl

theorem got_recs (d : Dest) (f : Rec → List Dest) (rs : List Rec) :
    got d (rs.flatMap (fun r => (f r).map (.sent · r))) = rs.flatMap (fun r => List.replicate ((f r).count d) r) := by
  rw [got_flatMap]; simp only [got_sent]

theorem got_session (d : Dest) (cfg : Cfg) (items : List Item) (g : Bool) :
    got d (session cfg items g).trace = items.flatMap (fun
      | .log r => List.replicate ((dispatch cfg (base cfg).2.2.stack r).count d) r
      | .test t => t.recs.flatMap (fun r =>
          List.replicate ((dispatch cfg (stackOf cfg (base cfg).1 (base cfg).2.2.active (base cfg).2.2.stack t.id) r).count d) r)) := by
  rw [session_eq]
  simp only [got_append, got_opened, got_closings, got_flatMap, List.nil_append, List.append_nil]
  congr 1
  funext it
  cases it with
  | log r => exact got_sent ..
  | test t => simp only [itemTrace, got_append, got_opened, got_closings, got_recs, List.nil_append, List.append_nil]

/-! ## Which handlers -/

/-- The log of the session and of each test has a path of its own. -/
structure Separate (cfg : Cfg) : Prop where
  main : ∀ i j p, cfg.main i = some p → cfg.main j = some p → i = j
  raw : ∀ i j p, cfg.main i = some p → cfg.raw j ≠ some p
  highlights : ∀ i j p, cfg.main i = some p → cfg.highlights j ≠ some p

theorem fileCtx_some (cfg : Cfg) (p : Path) (b : Bool) (f : Filter) (st : St) (h : cfg.root = true) :
    ∃ x, (fileCtx cfg (some p) b f st).1 = some x := by
  unfold fileCtx
  rw [h]
  simp only
  split <;> exact ⟨_, rfl⟩

theorem fileCtx_main (cfg : Cfg) (path : Option Path) (f : Filter) (st : St) :
    ∃ x, (fileCtx cfg path false f st).1 = some x := by
  unfold fileCtx
  split
  · split <;> exact ⟨_, rfl⟩
  · exact ⟨_, rfl⟩

theorem enter_some (cfg : Cfg) (who : Option Nat) (sh : Option H) (st : St) : ∃ x, (enter cfg who sh st).1 = some x := by
  rw [enter_eq]; exact fileCtx_main ..

theorem fileCtx_root (cfg : Cfg) (path : Option Path) (b : Bool) (f : Filter) (st : St) (h : cfg.root = false) :
    fileCtx cfg path b f st = (if b then none else some { dest := .nowhere, filter := f, blackhole := true }, none, st) := by
  unfold fileCtx
  rw [h]

/-- What is known of the files of the session, while a test runs. -/
structure Known (cfg : Cfg) (A : List (Path × H)) : Prop where
  file : ∀ a ∈ A, a.2.dest = .file a.1 ∧ a.2.wants = .level 0 ∧ a.2.blackhole = false
  who : ∀ a ∈ A, (cfg.main none = some a.1 ∧ a.2 = { dest := .file a.1, filter := .core }) ∨
    (cfg.raw none = some a.1 ∨ cfg.highlights none = some a.1) ∧ a.2.bubble = true

theorem known_base (cfg : Cfg) : Known cfg (base cfg).2.2.active := by
  obtain ⟨_, _, e⟩ := enter_entered cfg none none ⟨[], [], []⟩
  obtain ⟨new, h1, _, h3⟩ := e.act
  rw [base, entry, h1, List.append_nil]
  exact ⟨fun a ha => ⟨(h3 a ha).1, (h3 a ha).2.1, (h3 a ha).2.2.1⟩, fun a ha => (h3 a ha).2.2.2⟩

/-- The main handler of a context. -/
def mainHandler (cfg : Cfg) (who : Option Nat) : H :=
  match cfg.root, cfg.main who with
  | true, some p => { dest := .file p, filter := .core }
  | _, _ => { dest := .nowhere, filter := .core, blackhole := true }

theorem fileCtx_fresh (cfg : Cfg) (who : Option Nat) (st : St) (h : ∀ p, cfg.main who = some p → p ∉ keys st.active) :
    (fileCtx cfg (cfg.main who) false .core st).1 = some (mainHandler cfg who) := by
  unfold fileCtx mainHandler
  cases cfg.root with
  | false => rfl
  | true =>
    cases hm : cfg.main who with
    | none => rfl
    | some p =>
      simp only
      split
      · rename_i q x heq
        obtain ⟨h1, h2⟩ := find_some heq
        exact absurd (h2 ▸ List.mem_map_of_mem h1) (h p hm)
      · rfl

/-- A handler of a test or of the session that takes nothing away. -/
def Soft (h : H) : Prop := h.bubble = true ∧ h.blackhole = false

theorem blocked_soft {cfg : Cfg} {l : List H} {r : Rec} (h : ∀ x ∈ l, Soft x) : blocked cfg l r = false := by
  unfold blocked
  rw [List.any_eq_false]
  intro x hx
  simp [(h x hx).1, (h x hx).2]

theorem early_soft (cfg : Cfg) : ∀ x ∈ earlyHandlers cfg, Soft x := by
  intro x hx
  simp only [earlyHandlers, List.mem_cons, List.not_mem_nil, or_false] at hx
  rcases hx with rfl | rfl <;> exact ⟨rfl, rfl⟩

/-- Handlers of a context, with paths of their own. -/
theorem context_stack {cfg : Cfg} (hs : Separate cfg) (who : Option Nat) (sh : Option H) (A : List (Path × H))
    (hA : A = [] ∨ ∃ i, who = some i ∧ Known cfg A) :
    (entry cfg who sh A).1 = some (mainHandler cfg who) ∧
    ∃ a b, (entry cfg who sh A).2.2.stack = lateHandlers cfg sh ++ (a ++ earlyHandlers cfg ++ b) ++ [mainHandler cfg who] ∧
      ∀ x ∈ a ++ b, Soft x ∧ ∃ p, x.dest = .file p ∧ (cfg.raw who = some p ∨ cfg.highlights who = some p) := by
  have hfresh : ∀ p, cfg.main who = some p → p ∉ keys A := by
    intro p hp hm
    rcases hA with rfl | ⟨i, rfl, hk⟩
    · cases hm
    · obtain ⟨y, hy, rfl⟩ := List.mem_map.1 hm
      rcases hk.who y hy with ⟨h, _⟩ | ⟨h | h, _⟩
      · cases hs.main _ _ _ hp h
      · exact hs.raw _ _ _ hp h
      · exact hs.highlights _ _ _ hp h
  have h1 : (entry cfg who sh A).1 = some (mainHandler cfg who) := by
    rw [entry, enter_eq]; exact fileCtx_fresh cfg who ⟨A, [], []⟩ hfresh
  refine ⟨h1, ?_⟩
  obtain ⟨a, b, e⟩ := enter_entered cfg who sh ⟨A, [], []⟩
  have hst := e.stack
  simp only [entry] at h1
  rw [h1] at hst
  refine ⟨a, b, by simpa using hst, fun x hx => ?_⟩
  obtain ⟨p, hp, hm⟩ := e.isMid x hx
  obtain ⟨new, n1, n2, n3⟩ := e.act
  rw [n1] at hm
  have hno : cfg.main who ≠ some p := fun h => by
    rcases hp with hp | hp
    · exact hs.raw _ _ _ h hp
    · exact hs.highlights _ _ _ h hp
  rcases List.mem_append.1 hm with hm | hm
  · obtain ⟨q1, q2, q3, q4⟩ := n3 _ hm
    rcases q4 with ⟨h, _⟩ | ⟨_, h⟩
    · exact absurd h hno
    · exact ⟨⟨h, q3⟩, p, q1, hp⟩
  · rcases hA with rfl | ⟨i, rfl, hk⟩
    · cases hm
    · obtain ⟨q1, q2, q3⟩ := hk.file _ hm
      rcases hk.who _ hm with ⟨h, _⟩ | ⟨_, h⟩
      · rcases hp with hp | hp
        · exact absurd hp (hs.raw _ _ _ h)
        · exact absurd hp (hs.highlights _ _ _ h)
      · exact ⟨⟨h, q3⟩, p, q1, hp⟩

/-- Extra handlers let records through. -/
def ExtrasBubble (cfg : Cfg) : Prop := ∀ e ∈ cfg.extra, e.bubble = true

/-- A record of a silenced logger. -/
def silent (cfg : Cfg) (r : Rec) : Bool := cfg.silenced.contains r.channel

theorem blocked_append (cfg : Cfg) (l m : List H) (r : Rec) : blocked cfg (l ++ m) r = (blocked cfg l r || blocked cfg m r) := by
  unfold blocked; rw [List.any_append]

theorem blocked_late {cfg : Cfg} (hb : ExtrasBubble cfg) (sh : Option H) (r : Rec) : blocked cfg (lateHandlers cfg sh) r = silent cfg r := by
  unfold lateHandlers
  rw [blocked_append, blocked_append, blocked_append, blocked_soft, blocked_soft, blocked_soft, silent]
  · cases h : cfg.silenced with
    | nil => rfl
    | cons a l => simp [blocked, Wants.ok, Filter.ok]
  · intro x hx
    rw [List.mem_reverse, List.mem_mapIdx] at hx
    obtain ⟨i, hi, rfl⟩ := hx
    exact ⟨hb _ (List.getElem_mem hi), rfl⟩
  · intro x hx
    split at hx
    · rw [List.mem_singleton.1 hx]; exact ⟨rfl, rfl⟩
    · cases hx
  · intro x hx
    split at hx
    · rw [List.mem_singleton.1 hx]; exact ⟨rfl, rfl⟩
    · cases hx

theorem blocked_main (cfg : Cfg) (who : Option Nat) (r : Rec) : blocked cfg [mainHandler cfg who] r = passes cfg r := by
  unfold mainHandler
  split <;> simp [blocked, Wants.ok, Filter.ok]

/-- What the handlers of a context do with a record. -/
theorem dispatch_context {cfg : Cfg} (hs : Separate cfg) (hb : ExtrasBubble cfg) (who : Option Nat) (sh : Option H) (A : List (Path × H))
    (hA : A = [] ∨ ∃ i, who = some i ∧ Known cfg A) (S : List H) (r : Rec) :
    ∃ a b, (∀ x ∈ a ++ b, ∃ p, x.dest = .file p ∧ (cfg.raw who = some p ∨ cfg.highlights who = some p)) ∧
      dispatch cfg ((entry cfg who sh A).2.2.stack ++ S) r = dispatch cfg (lateHandlers cfg sh) r ++
        if silent cfg r then [] else dispatch cfg a r ++ dispatch cfg (earlyHandlers cfg) r ++ dispatch cfg b r ++
          dispatch cfg [mainHandler cfg who] r ++ if passes cfg r then [] else dispatch cfg S r := by
  obtain ⟨_, a, b, h1, h2⟩ := context_stack hs who sh A hA
  refine ⟨a, b, fun x hx => (h2 x hx).2, ?_⟩
  have ba : blocked cfg a r = false := blocked_soft (fun x hx => (h2 x (by simp [hx])).1)
  have bb : blocked cfg b r = false := blocked_soft (fun x hx => (h2 x (by simp [hx])).1)
  have be : blocked cfg (earlyHandlers cfg) r = false := blocked_soft (early_soft cfg)
  rw [h1]
  simp only [List.append_assoc]
  rw [dispatch_append, blocked_late hb, dispatch_append, ba, dispatch_append, be, dispatch_append, bb, dispatch_append, blocked_main]
  simp

/-! ## Counting -/

theorem count_zero {cfg : Cfg} {l : List H} {r : Rec} {d : Dest} (h : ∀ x ∈ l, x.dest ≠ d) : (dispatch cfg l r).count d = 0 := by
  rw [List.count_eq_zero]
  intro hm
  obtain ⟨x, hx, e⟩ := dispatch_mem hm
  exact h x hx e

theorem dispatch_soft {cfg : Cfg} {l : List H} {r : Rec} (h : ∀ x ∈ l, Soft x) :
    dispatch cfg l r = (l.filter (fun x => x.wants.ok r && x.filter.ok cfg r)).map (·.dest) := by
  induction l with
  | nil => rfl
  | cons a l ih =>
    obtain ⟨h1, h2⟩ := h a (by simp)
    rw [dispatch, ih (fun x hx => h x (by simp [hx])), h1, h2, List.filter_cons]
    cases a.wants.ok r && a.filter.ok cfg r <;> simp

/-- The extra handlers, as in `lateHandlers`. -/
def extras (l : List Extra) : List H := l.mapIdx (fun i e => ({ dest := .extra i, wants := .level e.level, bubble := e.bubble } : H))

/-- Whether extra handler `n` takes the record. -/
def extraWants (cfg : Cfg) (n : Nat) (r : Rec) : Bool :=
  match cfg.extra[n]? with
  | some e => decide (e.level ≤ r.level)
  | none => false

theorem extras_count (cfg : Cfg) (l : List Extra) (n : Nat) (r : Rec) :
    (((extras l).filter (fun x => x.wants.ok r && x.filter.ok cfg r)).map (·.dest)).count (.extra n) =
      match l[n]? with
      | some e => if e.level ≤ r.level then 1 else 0
      | none => 0 := by
  induction l using List.reverseRecOn with
  | nil => rfl
  | append_singleton l e ih =>
    have e1 : extras (l ++ [e]) = extras l ++ [{ dest := .extra l.length, wants := .level e.level, bubble := e.bubble }] := by
      unfold extras; rw [List.mapIdx_concat]
    rw [e1, List.filter_append, List.map_append, List.count_append, ih]
    rcases Nat.lt_trichotomy n l.length with h | h | h
    · rw [List.getElem?_append_left h]
      have : (List.map (fun x : H => x.dest) ([({ dest := .extra l.length, wants := .level e.level, bubble := e.bubble } : H)].filter
          (fun x => x.wants.ok r && x.filter.ok cfg r))).count (.extra n) = 0 := by
        rw [List.count_eq_zero]
        intro hm
        obtain ⟨x, hx, he⟩ := List.mem_map.1 hm
        have := List.mem_singleton.1 (List.mem_filter.1 hx).1
        rw [this] at he
        simp only [Dest.extra.injEq] at he
        omega
      omega
    · subst h
      rw [List.getElem?_eq_none (Nat.le_refl _), List.getElem?_concat_length]
      by_cases h : e.level ≤ r.level <;> simp [List.filter, Wants.ok, Filter.ok, h]
    · rw [List.getElem?_eq_none (by omega), List.getElem?_eq_none (by simp; omega)]
      have : (List.map (fun x : H => x.dest) ([({ dest := .extra l.length, wants := .level e.level, bubble := e.bubble } : H)].filter
          (fun x => x.wants.ok r && x.filter.ok cfg r))).count (.extra n) = 0 := by
        rw [List.count_eq_zero]
        intro hm
        obtain ⟨x, hx, he⟩ := List.mem_map.1 hm
        have := List.mem_singleton.1 (List.mem_filter.1 hx).1
        rw [this] at he
        simp only [Dest.extra.injEq] at he
        omega
      omega

/-- The handler of captured errors, as in `lateHandlers`. -/
def errH (cfg : Cfg) : List H := if cfg.captureErrors then [{ dest := .errors, wants := .errors, bubble := true }] else []

/-- The handler of the unified session log, as in `lateHandlers`. -/
def uniH (cfg : Cfg) (sh : Option H) : List H :=
  match cfg.unified, sh with
  | true, some h => [{ h with filter := .all, bubble := true, blackhole := false }]
  | _, _ => []

/-- The handler of silenced loggers, as in `lateHandlers`. -/
def silH (cfg : Cfg) : List H := if cfg.silenced.isEmpty then [] else [{ dest := .nowhere, wants := .channels cfg.silenced }]

theorem late_eq (cfg : Cfg) (sh : Option H) : lateHandlers cfg sh = errH cfg ++ uniH cfg sh ++ (extras cfg.extra).reverse ++ silH cfg := rfl

theorem errH_soft (cfg : Cfg) : ∀ x ∈ errH cfg, Soft x := by
  intro x hx
  unfold errH at hx
  split at hx
  · rw [List.mem_singleton.1 hx]; exact ⟨rfl, rfl⟩
  · cases hx

theorem uniH_soft (cfg : Cfg) (sh : Option H) : ∀ x ∈ uniH cfg sh, Soft x := by
  intro x hx
  unfold uniH at hx
  split at hx
  · rw [List.mem_singleton.1 hx]; exact ⟨rfl, rfl⟩
  · cases hx

theorem extras_soft {cfg : Cfg} (hb : ExtrasBubble cfg) : ∀ x ∈ (extras cfg.extra).reverse, Soft x := by
  intro x hx
  unfold extras at hx
  rw [List.mem_reverse, List.mem_mapIdx] at hx
  obtain ⟨i, hi, rfl⟩ := hx
  exact ⟨hb _ (List.getElem_mem hi), rfl⟩

theorem extras_dest {cfg : Cfg} : ∀ x ∈ (extras cfg.extra).reverse, ∃ n, x.dest = .extra n := by
  intro x hx
  unfold extras at hx
  rw [List.mem_reverse, List.mem_mapIdx] at hx
  obtain ⟨i, hi, rfl⟩ := hx
  exact ⟨i, rfl⟩

theorem silH_dest {cfg : Cfg} : ∀ x ∈ silH cfg, x.dest = .nowhere := by
  intro x hx
  unfold silH at hx
  split at hx
  · cases hx
  · rw [List.mem_singleton.1 hx]

theorem errH_dest {cfg : Cfg} : ∀ x ∈ errH cfg, x.dest = .errors := by
  intro x hx
  unfold errH at hx
  split at hx
  · rw [List.mem_singleton.1 hx]
  · cases hx

theorem late_dispatch {cfg : Cfg} (hb : ExtrasBubble cfg) (sh : Option H) (r : Rec) :
    dispatch cfg (lateHandlers cfg sh) r =
      dispatch cfg (errH cfg) r ++ dispatch cfg (uniH cfg sh) r ++ dispatch cfg (extras cfg.extra).reverse r ++ dispatch cfg (silH cfg) r := by
  rw [late_eq]
  simp only [List.append_assoc]
  rw [dispatch_append, blocked_soft (errH_soft cfg), dispatch_append, blocked_soft (uniH_soft cfg sh), dispatch_append,
    blocked_soft (extras_soft hb)]
  simp

/-- The session's file, if any, or nowhere. -/
theorem main_dest (cfg : Cfg) (who : Option Nat) : (mainHandler cfg who).dest = .nowhere ∨
    ∃ p, cfg.root = true ∧ cfg.main who = some p ∧ (mainHandler cfg who).dest = .file p := by
  unfold mainHandler
  split
  · rename_i p h1 h2; exact .inr ⟨p, by assumption, by assumption, rfl⟩
  · exact .inl rfl

theorem uniH_dest {cfg : Cfg} {who : Option Nat} : ∀ x ∈ uniH cfg (some (mainHandler cfg who)), x.dest = (mainHandler cfg who).dest := by
  intro x hx
  unfold uniH at hx
  split at hx
  · rename_i h _ he
    cases he
    rw [List.mem_singleton.1 hx]
  · cases hx

theorem uniH_none (cfg : Cfg) : uniH cfg none = [] := by
  unfold uniH; cases cfg.unified <;> rfl

theorem uniH_dispatch (cfg : Cfg) (who : Option Nat) (r : Rec) :
    dispatch cfg (uniH cfg (some (mainHandler cfg who))) r = if cfg.unified then [(mainHandler cfg who).dest] else [] := by
  cases h : cfg.unified with
  | false => simp [uniH, h, dispatch]
  | true =>
    have : (mainHandler cfg who).wants = .level 0 := by unfold mainHandler; split <;> rfl
    simp [uniH, h, dispatch, this, Wants.ok, Filter.ok]

theorem main_dispatch (cfg : Cfg) (who : Option Nat) (p : Path) (r : Rec) :
    (dispatch cfg [mainHandler cfg who] r).count (.file p) =
      if cfg.root = true ∧ cfg.main who = some p ∧ passes cfg r = true then 1 else 0 := by
  unfold mainHandler
  cases h1 : cfg.root with
  | false => simp [dispatch]
  | true =>
    cases h2 : cfg.main who with
    | none => simp [dispatch]
    | some q =>
      by_cases h : q = p <;> cases h3 : passes cfg r <;> simp [dispatch, Wants.ok, Filter.ok, h, h3, List.count_singleton]

/-- A record outside of tests. -/
theorem outside_file {cfg : Cfg} (hs : Separate cfg) (hb : ExtrasBubble cfg) {who : Option Nat} {p : Path} (hp : cfg.main who = some p) (r : Rec) :
    (dispatch cfg (base cfg).2.2.stack r).count (.file p) =
      if cfg.root = true ∧ who = none ∧ passes cfg r = true ∧ silent cfg r = false then 1 else 0 := by
  obtain ⟨a, b, h1, h2⟩ := dispatch_context hs hb none none [] (.inl rfl) [] r
  rw [List.append_nil] at h2
  rw [h2, late_dispatch hb, uniH_none]
  have nf : ∀ x ∈ a ++ b, x.dest ≠ .file p := by
    intro x hx e
    obtain ⟨q, hq, hr⟩ := h1 x hx
    rw [hq] at e; cases e
    rcases hr with hr | hr
    · exact hs.raw _ _ _ hp hr
    · exact hs.highlights _ _ _ hp hr
  simp only [List.count_append]
  rw [count_zero (l := errH cfg) (fun x hx => by rw [errH_dest x hx]; simp), count_zero (l := (extras cfg.extra).reverse)
    (fun x hx => by obtain ⟨n, e⟩ := extras_dest x hx; rw [e]; simp), count_zero (l := silH cfg) (fun x hx => by rw [silH_dest x hx]; simp)]
  have hm : cfg.main none = some p ↔ who = none := by
    constructor
    · intro h; exact hs.main _ _ _ hp h
    · rintro rfl; exact hp
  cases hsil : silent cfg r with
  | true => simp [dispatch]
  | false =>
    simp only [Bool.false_eq_true, if_false, List.count_append]
    rw [count_zero (l := a) (fun x hx => nf x (by simp [hx])), count_zero (l := b) (fun x hx => nf x (by simp [hx])),
      count_zero (l := earlyHandlers cfg) (fun x hx => by
        simp only [earlyHandlers, List.mem_cons, List.not_mem_nil, or_false] at hx
        rcases hx with rfl | rfl <;> simp), main_dispatch]
    cases passes cfg r <;> simp [dispatch, hm]

/-- A record of a test. -/
theorem inside_file {cfg : Cfg} (hs : Separate cfg) (hb : ExtrasBubble cfg) {who : Option Nat} {p : Path} (hp : cfg.main who = some p) (i : Nat) (r : Rec) :
    (dispatch cfg (stackOf cfg (base cfg).1 (base cfg).2.2.active (base cfg).2.2.stack i) r).count (.file p) =
      (if cfg.root = true ∧ who = none ∧ cfg.unified = true then 1 else 0) +
      if cfg.root = true ∧ who = some i ∧ passes cfg r = true ∧ silent cfg r = false then 1 else 0 := by
  obtain ⟨a, b, h1, h2⟩ := dispatch_context hs hb (some i) (base cfg).1 (base cfg).2.2.active (.inr ⟨i, rfl, known_base cfg⟩) (base cfg).2.2.stack r
  have hb1 := (context_stack hs none none [] (.inl rfl)).1
  rw [stackOf, h2, late_dispatch hb, hb1, uniH_dispatch]
  have nf : ∀ x ∈ a ++ b, x.dest ≠ .file p := by
    intro x hx e
    obtain ⟨q, hq, hr⟩ := h1 x hx
    rw [hq] at e; cases e
    rcases hr with hr | hr
    · exact hs.raw _ _ _ hp hr
    · exact hs.highlights _ _ _ hp hr
  simp only [List.count_append]
  rw [count_zero (l := errH cfg) (fun x hx => by rw [errH_dest x hx]; simp), count_zero (l := (extras cfg.extra).reverse)
    (fun x hx => by obtain ⟨n, e⟩ := extras_dest x hx; rw [e]; simp), count_zero (l := silH cfg) (fun x hx => by rw [silH_dest x hx]; simp)]
  have hm : cfg.main (some i) = some p ↔ who = some i := by
    constructor
    · intro h; exact hs.main _ _ _ hp h
    · rintro rfl; exact hp
  have hu : (if cfg.unified = true then [(mainHandler cfg none).dest] else []).count (.file p) =
      if cfg.root = true ∧ who = none ∧ cfg.unified = true then 1 else 0 := by
    cases cfg.unified with
    | false => simp
    | true =>
      rcases main_dest cfg none with h | ⟨q, h3, h4, h5⟩
      · rw [h]
        have : ¬ (cfg.root = true ∧ who = none) := by
          rintro ⟨h3, rfl⟩
          simp [mainHandler, h3, hp] at h
        simp [List.count_singleton]
        simpa using this
      · rw [h5]
        have : q = p ↔ who = none := by
          constructor
          · rintro rfl; exact hs.main _ _ _ hp h4
          · rintro rfl; rw [hp] at h4; cases h4; rfl
        simp [List.count_singleton, h3, this]
  rw [hu]
  cases hsil : silent cfg r with
  | true => simp
  | false =>
    simp only [Bool.false_eq_true, if_false, List.count_append]
    rw [count_zero (l := a) (fun x hx => nf x (by simp [hx])), count_zero (l := b) (fun x hx => nf x (by simp [hx])),
      count_zero (l := earlyHandlers cfg) (fun x hx => by
        simp only [earlyHandlers, List.mem_cons, List.not_mem_nil, or_false] at hx
        rcases hx with rfl | rfl <;> simp), main_dispatch]
    cases hpas : passes cfg r with
    | true => simp [hm]
    | false => simp [outside_file hs hb hp, hpas]

theorem replicate_if {q : Rec → Bool} (rs : List Rec) (n : Rec → Nat) (h : ∀ r ∈ rs, n r = if q r = true then 1 else 0) :
    rs.flatMap (fun r => List.replicate (n r) r) = rs.filter q := by
  induction rs with
  | nil => rfl
  | cons r rs ih =>
    rw [List.flatMap_cons, ih (fun x hx => h x (by simp [hx])), h r (by simp), List.filter_cons]
    cases q r <;> simp

/-! ## Other destinations -/

/-- Neither a file nor nowhere. -/
def Dest.shown : Dest → Bool
  | .file _ | .nowhere => false
  | _ => true

/-- The handlers of a context, for such a destination. -/
def once (cfg : Cfg) (d : Dest) (r : Rec) : Nat :=
  (dispatch cfg (errH cfg) r).count d + (dispatch cfg (extras cfg.extra).reverse r).count d +
    if silent cfg r then 0 else (dispatch cfg (earlyHandlers cfg) r).count d

theorem context_shown {cfg : Cfg} (hs : Separate cfg) (hb : ExtrasBubble cfg) (who : Option Nat) (sh : Option H) (A : List (Path × H))
    (hsh : sh = none ∨ sh = some (mainHandler cfg none)) (hA : A = [] ∨ ∃ i, who = some i ∧ Known cfg A) (S : List H) {d : Dest} (hd : d.shown = true) (r : Rec) :
    (dispatch cfg ((entry cfg who sh A).2.2.stack ++ S) r).count d =
      once cfg d r + if silent cfg r || passes cfg r then 0 else (dispatch cfg S r).count d := by
  obtain ⟨a, b, h1, h2⟩ := dispatch_context hs hb who sh A hA S r
  have nf : ∀ x ∈ a ++ b, x.dest ≠ d := by
    intro x hx e
    obtain ⟨q, hq, hr⟩ := h1 x hx
    rw [← e, hq] at hd; cases hd
  have nm : ∀ w, (mainHandler cfg w).dest ≠ d := by
    intro w e
    rcases main_dest cfg w with h | ⟨p, _, _, h⟩ <;> rw [← e, h] at hd <;> cases hd
  have nu : (dispatch cfg (uniH cfg sh) r).count d = 0 := by
    apply count_zero
    rcases hsh with rfl | rfl
    · rw [uniH_none]; simp
    · intro x hx; rw [uniH_dest x hx]; exact nm _
  rw [h2, late_dispatch hb]
  simp only [List.count_append]
  rw [nu, count_zero (l := silH cfg) (fun x hx => by rw [silH_dest x hx]; rintro rfl; cases hd), once]
  cases hsil : silent cfg r with
  | true => simp
  | false =>
    simp only [Bool.false_eq_true, if_false, List.count_append, Bool.false_or]
    rw [count_zero (l := a) (fun x hx => nf x (by simp [hx])), count_zero (l := b) (fun x hx => nf x (by simp [hx])),
      count_zero (l := [mainHandler cfg who]) (fun x hx => by rw [List.mem_singleton.1 hx]; exact nm _)]
    cases passes cfg r <;> simp <;> omega

theorem outside_shown {cfg : Cfg} (hs : Separate cfg) (hb : ExtrasBubble cfg) {d : Dest} (hd : d.shown = true) (r : Rec) :
    (dispatch cfg (base cfg).2.2.stack r).count d = once cfg d r := by
  have := context_shown hs hb none none [] (.inl rfl) (.inl rfl) [] hd r
  rw [List.append_nil] at this
  rw [this]
  simp [dispatch]

theorem inside_shown {cfg : Cfg} (hs : Separate cfg) (hb : ExtrasBubble cfg) {d : Dest} (hd : d.shown = true) (i : Nat) (r : Rec) :
    (dispatch cfg (stackOf cfg (base cfg).1 (base cfg).2.2.active (base cfg).2.2.stack i) r).count d =
      once cfg d r + if silent cfg r || passes cfg r then 0 else once cfg d r := by
  have := context_shown hs hb (some i) (base cfg).1 (base cfg).2.2.active (.inr (context_stack hs none none [] (.inl rfl)).1)
    (.inr ⟨i, rfl, known_base cfg⟩) (base cfg).2.2.stack hd r
  rw [stackOf, this, outside_shown hs hb hd]

theorem once_errors (cfg : Cfg) (r : Rec) :
    once cfg .errors r = if cfg.captureErrors = true ∧ errorLevel ≤ r.level ∧ r.capture = true then 1 else 0 := by
  unfold once
  rw [count_zero (l := (extras cfg.extra).reverse) (fun x hx => by obtain ⟨n, e⟩ := extras_dest x hx; rw [e]; simp),
    count_zero (l := earlyHandlers cfg) (fun x hx => by
        simp only [earlyHandlers, List.mem_cons, List.not_mem_nil, or_false] at hx
        rcases hx with rfl | rfl <;> simp)]
  unfold errH
  cases h : cfg.captureErrors with
  | false => simp [dispatch]
  | true => by_cases h1 : errorLevel ≤ r.level <;> by_cases h2 : r.capture = true <;> simp [dispatch, Wants.ok, Filter.ok, h1, h2]

theorem once_extra {cfg : Cfg} (hb : ExtrasBubble cfg) (n : Nat) (r : Rec) : once cfg (.extra n) r = if extraWants cfg n r = true then 1 else 0 := by
  unfold once
  rw [count_zero (l := errH cfg) (fun x hx => by rw [errH_dest x hx]; simp), count_zero (l := earlyHandlers cfg) (fun x hx => by
        simp only [earlyHandlers, List.mem_cons, List.not_mem_nil, or_false] at hx
        rcases hx with rfl | rfl <;> simp), dispatch_soft (extras_soft hb), List.filter_reverse, List.map_reverse, List.count_reverse, extras_count]
  unfold extraWants
  cases cfg.extra[n]? <;> simp

theorem once_console (cfg : Cfg) (r : Rec) :
    once cfg .console r = if cfg.consoleLevel ≤ r.level ∧ passes cfg r = true ∧ silent cfg r = false then 1 else 0 := by
  unfold once
  rw [count_zero (l := errH cfg) (fun x hx => by rw [errH_dest x hx]; simp),
    count_zero (l := (extras cfg.extra).reverse) (fun x hx => by obtain ⟨n, e⟩ := extras_dest x hx; rw [e]; simp), dispatch_soft (early_soft cfg)]
  cases h1 : silent cfg r with
  | true => simp
  | false =>
    by_cases h2 : cfg.consoleLevel ≤ r.level <;> cases h3 : passes cfg r <;> cases h4 : Wants.warnings.ok r <;>
      simp [earlyHandlers, List.filter, Filter.ok, h4, h3] <;> simp [Wants.ok, h2]

theorem once_warnings (cfg : Cfg) (r : Rec) :
    once cfg .warnings r = if Wants.warnings.ok r = true ∧ silent cfg r = false then 1 else 0 := by
  unfold once
  rw [count_zero (l := errH cfg) (fun x hx => by rw [errH_dest x hx]; simp),
    count_zero (l := (extras cfg.extra).reverse) (fun x hx => by obtain ⟨n, e⟩ := extras_dest x hx; rw [e]; simp), dispatch_soft (early_soft cfg)]
  cases h1 : silent cfg r with
  | true => simp
  | false =>
    by_cases h2 : cfg.consoleLevel ≤ r.level <;> cases h3 : passes cfg r <;> cases h4 : Wants.warnings.ok r <;>
      simp [earlyHandlers, List.filter, Filter.ok, h4, h3] <;> simp [Wants.ok, h2]

/-! ## The life of a file -/

/-- A file is not in use, open, closed but not announced yet, announced. -/
inductive Phase where
  | idle | open | closed | fired
deriving DecidableEq, Repr

/-- What may happen to file `p`; everything else does not concern it. -/
def step (p : Path) : Phase → Ev → Option Phase
  | ph, .opened q => if q = p then (if ph = .idle ∨ ph = .fired then some .open else none) else some ph
  | ph, .sent d _ => if d = .file p then (if ph = .open then some .open else none) else some ph
  | ph, .closed q => if q = p then (if ph = .open then some .closed else none) else some ph
  | ph, .hook q _ => if q = p then (if ph = .closed then some .fired else none) else some ph
  | ph, .removed q => if q = p then (if ph = .fired then some .idle else none) else some ph

/-- A whole history of file `p`. -/
def life (p : Path) : Phase → List Ev → Option Phase
  | ph, [] => some ph
  | ph, e :: tr => (step p ph e).bind (fun ph => life p ph tr)

theorem life_append (p : Path) (ph : Phase) (a b : List Ev) : life p ph (a ++ b) = (life p ph a).bind (fun x => life p x b) := by
  induction a generalizing ph with
  | nil => rfl
  | cons e a ih =>
    simp only [List.cons_append, life]
    cases step p ph e with
    | none => rfl
    | some x => exact ih x

theorem life_other {p : Path} {ph : Phase} {tr : List Ev} (h : ∀ e ∈ tr, step p ph e = some ph) : life p ph tr = some ph := by
  induction tr with
  | nil => rfl
  | cons e tr ih => rw [life, h e (by simp)]; exact ih (fun x hx => h x (by simp [hx]))

/-- Not in use. -/
def Rest (ph : Phase) : Prop := ph = .idle ∨ ph = .fired

theorem life_opened_other {p : Path} {ph : Phase} {os : List Path} (h : p ∉ os) : life p ph (os.map .opened) = some ph :=
  life_other (by
    intro e he
    obtain ⟨q, hq, rfl⟩ := List.mem_map.1 he
    have : q ≠ p := by rintro rfl; exact h hq
    simp [step, this])

theorem life_opened {p : Path} {ph : Phase} {os : List Path} (h : p ∈ os) (hn : os.Nodup) (hr : Rest ph) : life p ph (os.map .opened) = some .open := by
  induction os with
  | nil => cases h
  | cons q os ih =>
    rw [List.nodup_cons] at hn
    rw [List.map_cons, life]
    by_cases e : q = p
    · subst e
      have : step q ph (.opened q) = some .open := by simp only [step, if_true]; exact if_pos hr
      rw [this]; exact life_opened_other hn.1
    · have : step p ph (.opened q) = some ph := by simp [step, e]
      rw [this]
      refine ih ?_ hn.2
      rcases List.mem_cons.1 h with h | h
      · exact absurd h.symm e
      · exact h

theorem life_closings_other {p : Path} {ph : Phase} {cfg : Cfg} {res : Option Nat} {ok : Bool} {os : List Path} (h : p ∉ os) :
    life p ph (closings cfg res ok os) = some ph :=
  life_other (by
    intro e he
    unfold closings at he
    obtain ⟨q, hq, he⟩ := List.mem_flatMap.1 he
    have : q ≠ p := by rintro rfl; exact h hq
    simp only [List.mem_append, List.mem_cons, List.not_mem_nil, or_false] at he
    rcases he with (rfl | rfl) | he
    · simp [step, this]
    · simp [step, this]
    · split at he
      · rw [List.mem_singleton.1 he]; simp [step, this]
      · cases he)

theorem life_closings {p : Path} {cfg : Cfg} {res : Option Nat} {ok : Bool} {os : List Path} (h : p ∈ os) (hn : os.Nodup) :
    ∃ ph, life p .open (closings cfg res ok os) = some ph ∧ Rest ph := by
  induction os with
  | nil => cases h
  | cons q os ih =>
    rw [List.nodup_cons] at hn
    have e1 : closings cfg res ok (q :: os) = closings cfg res ok [q] ++ closings cfg res ok os := by simp [closings]
    rw [e1, life_append]
    by_cases e : q = p
    · subst e
      have : ∃ ph, life q .open (closings cfg res ok [q]) = some ph ∧ Rest ph := by
        unfold closings
        cases cfg.cleanup && shouldDelete cfg ok
        · exact ⟨.fired, by simp [life, step], .inr rfl⟩
        · exact ⟨.idle, by simp [life, step], .inl rfl⟩
      obtain ⟨ph, h1, h2⟩ := this
      exact ⟨ph, by rw [h1]; exact life_closings_other hn.1, h2⟩
    · have : p ∈ os := by
        rcases List.mem_cons.1 h with h | h
        · exact absurd h.symm e
        · exact h
      rw [life_closings_other (os := [q]) (by simpa using fun h => e h.symm)]
      exact ih this hn.2

theorem life_sent_open (p : Path) (f : Rec → List Dest) (rs : List Rec) : life p .open (rs.flatMap (fun r => (f r).map (.sent · r))) = some .open :=
  life_other (by
    intro e he
    obtain ⟨r, _, he⟩ := List.mem_flatMap.1 he
    obtain ⟨d, _, rfl⟩ := List.mem_map.1 he
    simp [step])

theorem life_sent {p : Path} {ph : Phase} {f : Rec → List Dest} {rs : List Rec} (h : ∀ r ∈ rs, .file p ∉ f r) :
    life p ph (rs.flatMap (fun r => (f r).map (.sent · r))) = some ph :=
  life_other (by
    intro e he
    obtain ⟨r, hr, he⟩ := List.mem_flatMap.1 he
    obtain ⟨d, hd, rfl⟩ := List.mem_map.1 he
    have : d ≠ .file p := by rintro rfl; exact h r hr hd
    simp [step, this])

/-- Only files with an open handler are written. -/
theorem entry_dest {cfg : Cfg} {who : Option Nat} {sh : Option H} {A : List (Path × H)} (hA : ∀ a ∈ A, a.2.dest = .file a.1)
    (hsh : ∀ x ∈ sh.toList, ∀ p, x.dest = .file p → p ∈ keys A) {p : Path} :
    (∀ x ∈ (entry cfg who sh A).2.2.stack, x.dest = .file p → p ∈ (entry cfg who sh A).2.1 ∨ p ∈ keys A) ∧
    ∀ x ∈ (entry cfg who sh A).1.toList, x.dest = .file p → p ∈ (entry cfg who sh A).2.1 ∨ p ∈ keys A := by
  obtain ⟨a, b, e⟩ := enter_entered cfg who sh ⟨A, [], []⟩
  obtain ⟨new, n1, n2, n3⟩ := e.act
  have act : ∀ q x, (q, x) ∈ (enter cfg who sh ⟨A, [], []⟩).2.2.active → x.dest = .file p → p ∈ (entry cfg who sh A).2.1 ∨ p ∈ keys A := by
    intro q x hm hd
    rw [n1] at hm
    rcases List.mem_append.1 hm with hm | hm
    · have := (n3 _ hm).1
      simp only at this
      rw [hd] at this; cases this
      exact .inl (by rw [entry, ← n2]; exact List.mem_map_of_mem hm)
    · have := hA _ hm
      simp only at this
      rw [hd] at this; cases this
      exact .inr (List.mem_map_of_mem hm)
  have hmain : ∀ x ∈ (entry cfg who sh A).1.toList, x.dest = .file p → p ∈ (entry cfg who sh A).2.1 ∨ p ∈ keys A := by
    intro x hx hd
    rcases e.isMain x hx with ⟨q, _, hm⟩ | rfl
    · exact act q x hm hd
    · cases hd
  refine ⟨fun x hx hd => ?_, hmain⟩
  rw [entry, e.stack] at hx
  simp only [List.append_nil, List.mem_append] at hx
  rcases hx with (hx | (hx | hx) | hx) | hx
  · rw [late_eq] at hx
    simp only [List.mem_append] at hx
    rcases hx with ((hx | hx) | hx) | hx
    · rw [errH_dest x hx] at hd; cases hd
    · unfold uniH at hx
      split at hx
      · rw [List.mem_singleton.1 hx] at hd
        exact .inr (hsh _ (List.mem_singleton_self _) p hd)
      · cases hx
    · obtain ⟨n, he⟩ := extras_dest x hx; rw [he] at hd; cases hd
    · rw [silH_dest x hx] at hd; cases hd
  · obtain ⟨q, _, hm⟩ := e.isMid x (by simp [hx]); exact act q x hm hd
  · simp only [earlyHandlers, List.mem_cons, List.not_mem_nil, or_false] at hx
    rcases hx with rfl | rfl <;> cases hd
  · obtain ⟨q, _, hm⟩ := e.isMid x (by simp [hx]); exact act q x hm hd
  · exact hmain x hx hd

theorem keys_base (cfg : Cfg) : keys (base cfg).2.2.active = (base cfg).2.1 := by
  obtain ⟨_, _, e⟩ := enter_entered cfg none none ⟨[], [], []⟩
  obtain ⟨new, h1, h2, _⟩ := e.act
  rw [base, entry, h1, List.append_nil, h2]

theorem base_dest (cfg : Cfg) {p : Path} : (∀ x ∈ (base cfg).2.2.stack, x.dest = .file p → p ∈ keys (base cfg).2.2.active) ∧
    ∀ x ∈ (base cfg).1.toList, x.dest = .file p → p ∈ keys (base cfg).2.2.active := by
  rw [keys_base]
  have := entry_dest (cfg := cfg) (who := none) (sh := none) (A := []) (by simp) (by simp) (p := p)
  exact ⟨fun x hx hd => (this.1 x hx hd).resolve_right (by simp [keys]), fun x hx hd => (this.2 x hx hd).resolve_right (by simp [keys])⟩

theorem life_item {cfg : Cfg} {p : Path} (it : Item) :
    (p ∈ keys (base cfg).2.2.active →
      life p .open (itemTrace cfg (base cfg).1 (base cfg).2.2.active (base cfg).2.2.stack it) = some .open) ∧
    (p ∉ keys (base cfg).2.2.active → ∀ ph, Rest ph → ∃ ph',
      life p ph (itemTrace cfg (base cfg).1 (base cfg).2.2.active (base cfg).2.2.stack it) = some ph' ∧ Rest ph') := by
  have hb := base_dest cfg (p := p)
  cases it with
  | log r =>
    simp only [itemTrace]
    refine ⟨fun _ => ?_, fun hp ph hr => ⟨ph, ?_, hr⟩⟩
    · have := life_sent_open p (dispatch cfg (base cfg).2.2.stack) [r]
      simpa using this
    · have := life_sent (p := p) (ph := ph) (f := dispatch cfg (base cfg).2.2.stack) (rs := [r]) (by
        intro r _ hm
        obtain ⟨x, hx, he⟩ := dispatch_mem hm
        exact hp (hb.1 x hx he))
      simpa using this
  | test t =>
    obtain ⟨_, _, e⟩ := enter_entered cfg (some t.id) (base cfg).1 ⟨(base cfg).2.2.active, [], []⟩
    have he := entry_dest (cfg := cfg) (who := some t.id) (sh := (base cfg).1) (A := (base cfg).2.2.active)
      (fun a ha => ((known_base cfg).file a ha).1) (fun x hx q hd => (base_dest cfg (p := q)).2 x hx hd) (p := p)
    have hn : ((entry cfg (some t.id) (base cfg).1 (base cfg).2.2.active).2.1.reverse).Nodup := (List.reverse_perm _).nodup_iff.2 e.nodup
    simp only [itemTrace, life_append]
    refine ⟨fun hp => ?_, fun hp ph hr => ?_⟩
    · have hno : p ∉ (entry cfg (some t.id) (base cfg).1 (base cfg).2.2.active).2.1 := fun h => e.fresh p h hp
      rw [life_opened_other (by simpa using hno), Option.bind_some, life_sent_open, Option.bind_some, life_closings_other hno]
    · by_cases hm : p ∈ (entry cfg (some t.id) (base cfg).1 (base cfg).2.2.active).2.1
      · rw [life_opened (by simpa using hm) hn hr, Option.bind_some, life_sent_open, Option.bind_some]
        exact life_closings hm e.nodup
      · rw [life_opened_other (by simpa using hm), Option.bind_some, life_sent, Option.bind_some, life_closings_other hm]
        · exact ⟨ph, rfl, hr⟩
        · intro r _ hd
          obtain ⟨x, hx, hf⟩ := dispatch_mem hd
          rcases List.mem_append.1 hx with hx | hx
          · rcases he.1 x hx hf with h | h
            · exact hm h
            · exact hp h
          · exact hp (hb.1 x hx hf)

theorem life_items_open {cfg : Cfg} {p : Path} (hp : p ∈ keys (base cfg).2.2.active) (items : List Item) :
    life p .open (items.flatMap (itemTrace cfg (base cfg).1 (base cfg).2.2.active (base cfg).2.2.stack)) = some .open := by
  induction items with
  | nil => rfl
  | cons it items ih => rw [List.flatMap_cons, life_append, (life_item it).1 hp]; exact ih

theorem life_items_rest {cfg : Cfg} {p : Path} (hp : p ∉ keys (base cfg).2.2.active) (items : List Item) {ph : Phase} (hr : Rest ph) :
    ∃ ph', life p ph (items.flatMap (itemTrace cfg (base cfg).1 (base cfg).2.2.active (base cfg).2.2.stack)) = some ph' ∧ Rest ph' := by
  induction items generalizing ph with
  | nil => exact ⟨ph, rfl, hr⟩
  | cons it items ih =>
    obtain ⟨ph', h1, h2⟩ := (life_item it).2 hp ph hr
    rw [List.flatMap_cons, life_append, h1]; exact ih h2

theorem life_session (cfg : Cfg) (items : List Item) (g : Bool) (p : Path) :
    ∃ ph, life p .idle (session cfg items g).trace = some ph ∧ Rest ph := by
  obtain ⟨_, _, e⟩ := enter_entered cfg none none ⟨[], [], []⟩
  rw [session_eq]
  simp only [life_append]
  by_cases hp : p ∈ (base cfg).2.1
  · have hp' : p ∈ keys (base cfg).2.2.active := by rw [keys_base]; exact hp
    rw [life_opened (by simpa using hp) ((List.reverse_perm _).nodup_iff.2 e.nodup) (.inl rfl), Option.bind_some, life_items_open hp', Option.bind_some]
    exact life_closings hp e.nodup
  · have hp' : p ∉ keys (base cfg).2.2.active := by rw [keys_base]; exact hp
    obtain ⟨ph, h1, h2⟩ := life_items_rest hp' items (.inl rfl)
    rw [life_opened_other (by simpa using hp), Option.bind_some, h1, Option.bind_some, life_closings_other hp]
    exact ⟨ph, rfl, h2⟩

/-! ## Removed files -/

theorem mem_closings_removed {cfg : Cfg} {res : Option Nat} {ok : Bool} {os : List Path} {p : Path} :
    .removed p ∈ closings cfg res ok os ↔ p ∈ os ∧ cfg.cleanup = true ∧ shouldDelete cfg ok = true := by
  unfold closings
  rw [List.mem_flatMap]
  cases h1 : cfg.cleanup <;> cases h2 : shouldDelete cfg ok <;> simp

theorem removed_item {cfg : Cfg} {sh : Option H} {A : List (Path × H)} {S : List H} {it : Item} {p : Path} :
    .removed p ∈ itemTrace cfg sh A S it ↔ ∃ t, it = .test t ∧ p ∈ (entry cfg (some t.id) sh A).2.1 ∧ cfg.cleanup = true ∧ shouldDelete cfg t.ok = true := by
  cases it with
  | log r => simp [itemTrace]
  | test t => simp [itemTrace, mem_closings_removed]

theorem removed_session {cfg : Cfg} {items : List Item} {g : Bool} {p : Path} :
    .removed p ∈ (session cfg items g).trace ↔
      (∃ t, .test t ∈ items ∧ p ∈ (entry cfg (some t.id) (base cfg).1 (base cfg).2.2.active).2.1 ∧ cfg.cleanup = true ∧ shouldDelete cfg t.ok = true) ∨
      p ∈ (base cfg).2.1 ∧ cfg.cleanup = true ∧ shouldDelete cfg (success g items) = true := by
  rw [session_eq]
  simp only [List.mem_append, mem_closings_removed, List.mem_flatMap, removed_item]
  constructor
  · rintro ((h | ⟨it, hi, t, rfl, h⟩) | h)
    · simp at h
    · exact .inl ⟨t, hi, h⟩
    · exact .inr h
  · rintro (⟨t, hi, h⟩ | h)
    · exact .inl (.inr ⟨_, hi, t, rfl, h⟩)
    · exact .inr h

theorem entry_opens {cfg : Cfg} (hs : Separate cfg) {who w : Option Nat} {sh : Option H} {A : List (Path × H)}
    (hA : A = [] ∨ ∃ i, who = some i ∧ Known cfg A) {p : Path} (hp : cfg.main w = some p) :
    p ∈ (entry cfg who sh A).2.1 ↔ cfg.root = true ∧ w = who := by
  constructor
  · intro h
    obtain ⟨_, _, e⟩ := enter_entered cfg who sh ⟨A, [], []⟩
    obtain ⟨new, n1, n2, n3⟩ := e.act
    have hroot : cfg.root = true := by
      cases hr : cfg.root with
      | true => rfl
      | false =>
        rw [entry, enter_eq] at h
        simp [fileCtx_root, hr, rotCtx] at h
    rw [entry, ← n2] at h
    obtain ⟨a, ha, rfl⟩ := List.mem_map.1 h
    rcases (n3 a ha).2.2.2 with ⟨h, _⟩ | ⟨h | h, _⟩
    · exact ⟨hroot, hs.main _ _ _ hp h⟩
    · exact absurd h (hs.raw _ _ _ hp)
    · exact absurd h (hs.highlights _ _ _ hp)
  · rintro ⟨hr, rfl⟩
    have hfresh : p ∉ keys A := by
      intro hm
      rcases hA with rfl | ⟨i, rfl, hk⟩
      · cases hm
      · obtain ⟨y, hy, rfl⟩ := List.mem_map.1 hm
        rcases hk.who y hy with ⟨h, _⟩ | ⟨h | h, _⟩
        · cases hs.main _ _ _ hp h
        · exact hs.raw _ _ _ hp h
        · exact hs.highlights _ _ _ hp h
    have : (fileCtx cfg (cfg.main w) false .core ⟨A, [], []⟩).2.1 = some p := by
      unfold fileCtx
      rw [hr, hp]
      simp only
      split
      · rename_i q x heq
        obtain ⟨h1, h2⟩ := find_some heq
        exact absurd (h2 ▸ List.mem_map_of_mem h1) hfresh
      · rfl
    rw [entry, enter_eq]
    simp [this]

/-! ## Lines on the console -/

theorem splitLines_no_newline (acc s : List Char) (h : '\n' ∉ acc) : ∀ l ∈ splitLines acc s, '\n' ∉ l := by
  induction s generalizing acc with
  | nil =>
    intro l hl
    unfold splitLines at hl
    split at hl
    · cases hl
    · rw [List.mem_singleton.1 hl]; simpa using h
  | cons c cs ih =>
    intro l hl
    unfold splitLines at hl
    split at hl
    · rcases List.mem_cons.1 hl with rfl | hl
      · simpa using h
      · exact ih [] (by simp) l hl
    · rename_i hc
      exact ih (c :: acc) (by simp [h]; exact fun e => hc e.symm) l hl

theorem truncate_length (l : List Char) : (truncate l).length ≤ maxLine := by
  unfold truncate
  split
  · simp [maxLine] at *; omega
  · omega

theorem truncate_no_newline {l : List Char} (h : '\n' ∉ l) : '\n' ∉ truncate l := by
  unfold truncate
  split
  · intro hm
    rcases List.mem_append.1 hm with hm | hm
    · exact h (List.mem_of_mem_take hm)
    · simp at hm
  · exact h

theorem splitLines_append (acc l : List Char) (s : List Char) (h : '\n' ∉ l) : splitLines acc (l ++ '\n' :: s) = (acc.reverse ++ l) :: splitLines [] s := by
  induction l generalizing acc with
  | nil => simp [splitLines]
  | cons c l ih =>
    have hc : c ≠ '\n' := fun e => h (by simp [e])
    rw [List.cons_append, splitLines, if_neg hc, ih _ (fun hm => h (by simp [hm]))]
    simp

theorem splitLines_last (acc l : List Char) (h : '\n' ∉ l) : splitLines acc l = if (acc.isEmpty && l.isEmpty) = true then [] else [acc.reverse ++ l] := by
  induction l generalizing acc with
  | nil => cases acc <;> simp [splitLines]
  | cons c l ih =>
    have hc : c ≠ '\n' := fun e => h (by simp [e])
    rw [splitLines, if_neg hc, ih _ (fun hm => h (by simp [hm]))]
    simp

/-- Lines, put together, are the same lines, but for an empty last one. -/
theorem splitLines_join {ls : List (List Char)} (h : ∀ l ∈ ls, '\n' ∉ l) :
    splitLines [] (joinLines ls) = ls ∨ splitLines [] (joinLines ls) ++ [[]] = ls := by
  induction ls with
  | nil => exact .inl rfl
  | cons l ls ih =>
    cases ls with
    | nil =>
      rw [joinLines, splitLines_last _ _ (h l (by simp))]
      cases l <;> simp
    | cons m ms =>
      have := ih (fun x hx => h x (by simp [hx]))
      simp only [joinLines]
      rw [splitLines_append _ _ _ (h l (by simp))]
      rcases this with h' | h'
      · left; rw [h']; simp
      · right; simp [h']

end Slash.Log
